import Verif.Lemmas.Lazygit
import Verif.Lemmas.LazygitLayout
import Verif.Props.Palette

/-!
# The frames of the example program
-/

namespace Bento.Lazygit

theorem panel_paints {u : Uniseg} (hu : u.Lawful) (hs : u.Suffix) (hS : Plainly u Symbols) (m : Model) (p : Panel)
    {title : String} (ht : p.title = some title) (h : Plain title.toList)
    (hne : title.toList ≠ []) (hb : byteSize title.toList < 65536) (footer : String)
    (hf : footer = "" ∨ Plain footer.toList ∧ footer.toList ≠ [] ∧ byteSize footer.toList < 65536)
    (window area : Rect) (hin : window.In area) (hx : 0 ≤ area.x) :
    Repaints window (panelPaint (decide (m.activePanel = p)) title footer area) (drawPanel u m p footer area) := by
  rw [drawPanel_eq u m p ht h hne hb footer hf]
  refine panelBlock_paints hu hs hS _ title footer h ?_ window area hin hx
  rcases hf with rfl | hf
  · decide
  · exact hf.1

theorem render_parts {u : Uniseg} (m : Model) (split : Split) (area : Rect) {pa fa sa ra s0 s1 s2 s3 s4 r0 r1 : Rect}
    (e1 : split screenLayout area = [pa, fa]) (e2 : split primaryLayout pa = [sa, ra])
    (e3 : split (sidebarLayout m) sa = [s0, s1, s2, s3, s4]) (e4 : split (rightLayout m) ra = [r0, r1]) :
    render split u m area = fun b =>
      (((drawStatus u m s0 b).bind fun b =>
        (drawPanel u m panelFiles "1 of 10" s1 b).bind fun b => (drawPanel u m panelBranches "1 of 2" s2 b).bind fun b =>
          (drawPanel u m panelCommits "1 of 42" s3 b).bind (drawPanel u m panelStash "1 of 1" s4)).bind fun b =>
        (drawPanel u m panelInfo "" r0 b).bind (drawPanel u m panelCommandLog "" r1)).bind (drawFootnote u fa) := by
  have hsb : drawSidebar split u m sa = fun b => (drawStatus u m s0 b).bind fun b =>
      (drawPanel u m panelFiles "1 of 10" s1 b).bind fun b => (drawPanel u m panelBranches "1 of 2" s2 b).bind fun b =>
        (drawPanel u m panelCommits "1 of 42" s3 b).bind (drawPanel u m panelStash "1 of 1" s4) := by
    funext b
    unfold drawSidebar
    rw [e3]
    rfl
  have hrt : drawRight split u m ra = fun b => (drawPanel u m panelInfo "" r0 b).bind (drawPanel u m panelCommandLog "" r1) := by
    funext b
    unfold drawRight
    rw [e4]
    rfl
  have hpr : drawPrimary split u m pa = fun b => (drawSidebar split u m sa b).bind (drawRight split u m ra) := by
    funext b
    unfold drawPrimary
    rw [e2]
    rfl
  have he : render split u m area = fun b => (drawPrimary split u m pa b).bind (drawFootnote u fa) := by
    funext b
    unfold render
    rw [e1]
    rfl
  rw [he, hpr, hsb, hrt]

theorem render_paints {u : Uniseg} (hu : u.Lawful) (hs : u.Suffix) (hS : Plainly u Symbols) (m : Model) (split : Split)
    (window area : Rect) {pa fa sa ra s0 s1 s2 s3 s4 r0 r1 : Rect}
    (e1 : split screenLayout area = [pa, fa]) (e2 : split primaryLayout pa = [sa, ra])
    (e3 : split (sidebarLayout m) sa = [s0, s1, s2, s3, s4]) (e4 : split (rightLayout m) ra = [r0, r1])
    {g : Position → Cell → Cell} (h0 : Repaints window g (drawStatus u m s0))
    (hin : ∀ r ∈ [s1, s2, s3, s4, r0, r1, fa], window.In r ∧ 0 ≤ r.x) :
    Repaints window (fun q c =>
        footPaint fa q
          (panelPaint (decide (m.activePanel = panelCommandLog)) "Command log" "" r1 q
            (panelPaint (decide (m.activePanel = panelInfo)) "Info" "" r0 q
              (panelPaint (decide (m.activePanel = panelStash)) "Stash" "1 of 1" s4 q
                (panelPaint (decide (m.activePanel = panelCommits)) "Commits" "1 of 42" s3 q
                  (panelPaint (decide (m.activePanel = panelBranches)) "Branches" "1 of 2" s2 q
                    (panelPaint (decide (m.activePanel = panelFiles)) "Files" "1 of 10" s1 q (g q c))))))))
      (render split u m area) := by
  simp only [List.mem_cons, List.not_mem_nil, or_false, forall_eq_or_imp, forall_eq] at hin
  obtain ⟨i1, i2, i3, i4, j0, j1, jf⟩ := hin
  have p1 := panel_paints hu hs hS m panelFiles rfl (by decide) (by decide) (by decide) "1 of 10"
    (.inr ⟨by decide, by decide, by decide⟩) window s1 i1.1 i1.2
  have p2 := panel_paints hu hs hS m panelBranches rfl (by decide) (by decide) (by decide) "1 of 2"
    (.inr ⟨by decide, by decide, by decide⟩) window s2 i2.1 i2.2
  have p3 := panel_paints hu hs hS m panelCommits rfl (by decide) (by decide) (by decide) "1 of 42"
    (.inr ⟨by decide, by decide, by decide⟩) window s3 i3.1 i3.2
  have p4 := panel_paints hu hs hS m panelStash rfl (by decide) (by decide) (by decide) "1 of 1"
    (.inr ⟨by decide, by decide, by decide⟩) window s4 i4.1 i4.2
  have p5 := panel_paints hu hs hS m panelInfo rfl (by decide) (by decide) (by decide) "" (.inl rfl) window r0 j0.1 j0.2
  have p6 := panel_paints hu hs hS m panelCommandLog rfl (by decide) (by decide) (by decide) "" (.inl rfl) window r1 j1.1 j1.2
  have pf := drawFootnote_paints hu hs hS window fa jf.1
  rw [render_parts m split area e1 e2 e3 e4]
  exact ((h0.bind (p1.bind (p2.bind (p3.bind p4)))).bind (p5.bind p6)).bind pf

theorem panelPaint_out (active : Bool) (title footer : String) {r : Rect} {q : Position} (h : r.contains q = false) (c : Cell) :
    panelPaint active title footer r q c = c := by
  unfold panelPaint
  rw [if_neg (by rw [h]; simp)]

theorem textPaint_out (text : String) {r : Rect} {q : Position} (h : r.contains q = false) (c : Cell) :
    textPaint text r q c = c := by
  unfold textPaint
  rw [if_neg (by rw [h]; simp)]
  rfl

theorem footPaint_out {r : Rect} {q : Position} (h : r.contains q = false) (c : Cell) : footPaint r q c = c := by
  unfold footPaint
  rw [if_neg (by rw [h]; simp)]

theorem textPaint_empty {r : Rect} {q : Position} (c : Cell) : textPaint "" r q c = c := by
  unfold textPaint charAt
  split_ifs <;> rfl

theorem put_symbol_style (o : Option String) (c : Cell) :
    putSymbol o c = { c with symbol := o.getD c.symbol } := by
  cases o with
  | none => rfl
  | some s => 
    rfl

theorem panel_symbol (F T X : Option String) (box : String) (w n i j : Int) :
    (if 1 ≤ i ∧ i ≤ w - 2 ∧ j = 1 ∧ 1 ≤ n - 2 then X else none).getD
      ((if 1 ≤ i ∧ i ≤ w - 2 ∧ j = n - 1 then F else none).getD
        ((if 1 ≤ i ∧ i ≤ w - 2 ∧ j = 0 then T else none).getD box)) =
    if 1 ≤ i ∧ i ≤ w - 2 then
      (((if j = n - 1 then F else none).or (if j = 0 then T else none)).or (if j = 1 ∧ j ≤ n - 2 then X else none)).getD box
    else box := by
  by_cases hq : 1 ≤ i ∧ i ≤ w - 2
  · have e : (1 ≤ i ∧ i ≤ w - 2 ∧ j = 1 ∧ 1 ≤ n - 2) ↔ (j = 1 ∧ j ≤ n - 2) := by omega
    have e2 : (1 ≤ i ∧ i ≤ w - 2 ∧ j = n - 1) ↔ j = n - 1 := by omega
    have e3 : (1 ≤ i ∧ i ≤ w - 2 ∧ j = 0) ↔ j = 0 := by omega
    simp only [e, e2, e3]
    rw [if_pos hq]
    by_cases k1 : j = n - 1
    · have k3 : ¬ (j = 1 ∧ j ≤ n - 2) := by omega
      simp only [k3, if_false]
      rw [if_pos k1]
      cases F <;> split_ifs <;> simp
    · by_cases k3 : j = 1 ∧ j ≤ n - 2
      · have k2 : ¬ j = 0 := by omega
        rw [if_pos k3, if_neg k1, if_neg k2]
        cases X <;> simp
      · simp only [k3, if_false]
        rw [if_neg k1]
        split_ifs <;> simp
  · have e : ¬ (1 ≤ i ∧ i ≤ w - 2 ∧ j = 1 ∧ 1 ≤ n - 2) := by omega
    have e2 : ¬ (1 ≤ i ∧ i ≤ w - 2 ∧ j = n - 1) := by omega
    have e3 : ¬ (1 ≤ i ∧ i ≤ w - 2 ∧ j = 0) := by omega
    simp only [e, e2, e3, hq, if_false, Option.getD_none]

/-- The picture of a panel. -/
theorem panel_cell (active : Bool) (title footer text : String) (r : Rect) (q : Position) (h : r.contains q = true) :
    textPaint text r q (panelPaint active title footer r q Cell.empty) =
      panelCell active title footer text r.width r.height (q.x - r.x) (q.y - r.y) := by
  have hm := (Rect.contains_iff _ _).1 h
  unfold Rect.Mem at hm
  unfold textPaint panelPaint panelCell panelSymbol
  rw [if_pos h]
  simp only [put_symbol_style, h, true_and]
  generalize hi : q.x - r.x = i at *
  generalize hj : q.y - r.y = j at *
  generalize r.width = w at *
  generalize r.height = n at *
  have hrim : onRim w n i j = false → boxSymbol w n i j = " " := by
    unfold onRim boxSymbol
    intro hr
    simp only [Bool.or_eq_false_iff, decide_eq_false_iff_not] at hr
    obtain ⟨⟨⟨k1, k2⟩, k3⟩, k4⟩ := hr
    simp [k1, k2, k3, k4]
  cases hr : onRim w n i j with
  | true =>
    apply cell_ext
    · simp only [if_true, Cell.setStyle, Cell.setSymbol]
      exact panel_symbol ..
    · cases active <;> rfl
    · cases active <;> rfl
    · cases active
      · simp [Cell.setStyle, Style.new, Cell.setSymbol, Cell.empty, Cell.new]; try decide
      · simp [Cell.setStyle, Style.new, Cell.setSymbol, Cell.empty, Cell.new]; try decide
    · rfl
  | false =>
    rw [hrim hr]
    apply cell_ext
    · simp only [Bool.false_eq_true, if_false]
      exact panel_symbol ..
    · cases active <;> rfl
    · cases active <;> rfl
    · cases active <;> rfl
    · rfl

/-- The rows of the side panels. -/
theorem sideHeights_rows (active : Panel) (h : Int) (h5 : 5 ≤ h) (ha : 0 ≤ active ∧ active ≤ 4) :
    ∃ a0 a1 a2 a3 a4 : Int, sideHeights active h = [a0, a1, a2, a3, a4] ∧ 0 ≤ a0 ∧ 0 ≤ a1 ∧ 0 ≤ a2 ∧ 0 ≤ a3 ∧ 0 ≤ a4 ∧
      a0 + a1 + a2 + a3 + a4 = h - 1 := by
  unfold sideHeights
  by_cases h30 : 30 < h
  · rw [if_pos h30]
    refine ⟨_, _, _, _, _, rfl, ?_⟩
    omega
  · rw [if_neg h30]
    obtain ⟨k1, k2⟩ := ha
    obtain ⟨n, rfl⟩ := Int.eq_ofNat_of_zero_le k1
    have hn : n < 5 := by
      have : @LE.le Int _ (n : Int) 4 := k2
      omega
    refine ⟨_, _, _, _, _, rfl, ?_⟩
    by_cases h22 : 22 < h
    · simp only [if_pos h22]
      interval_cases n <;> simp <;> omega
    · simp only [if_neg h22]
      interval_cases n <;> simp <;> omega

theorem frame_cells {u : Uniseg} (hu : u.Lawful) (hs : u.Suffix) (hS : Plainly u Symbols) {split : Split} (hsp : Splits split)
    (m : Model) (hm : m.Sized) (ha : 0 ≤ m.activePanel ∧ m.activePanel ≤ 4) (area : Rect) (hx : 0 ≤ area.x)
    (hw : 0 ≤ area.width) (hh : area.height = m.height) (h5 : 5 ≤ m.height) (b : Buffer) (hb : b.Blank area) :
    ∃ b', render split u m area b = some b' ∧ b'.WF ∧ b'.area = area ∧ Pictured m area b' := by
  obtain ⟨a0, a1, a2, a3, a4, hl, n0, n1, n2, n3, n4, hsum⟩ := sideHeights_rows m.activePanel m.height h5 ha
  have e1 := screen_areas hsp area hw (by omega)
  have e2 := primary_areas hsp ⟨area.x, area.y, area.width, area.height - 1⟩ hw (by simp only; omega)
  have hsw : 0 ≤ sideWidth area.width ∧ sideWidth area.width ≤ area.width := by unfold sideWidth; omega
  have hlog : commandLogHeight m ≤ area.height - 1 ∧ 0 ≤ commandLogHeight m := by
    unfold commandLogHeight; split_ifs <;> omega
  have e3 := sidebar_areas hsp m ⟨area.x, area.y, sideWidth area.width, area.height - 1⟩ hsw.1 (by simp only; omega) h5 ha
  have e4 := right_areas hsp m ⟨area.x + sideWidth area.width, area.y, area.width - sideWidth area.width, area.height - 1⟩
    (by simp only; omega) (by simp only; omega)
  rw [hl] at e3
  simp only [List.range_succ, List.range_zero, List.nil_append, List.cons_append, List.map_cons, List.map_nil,
    List.take_zero, List.take_succ_cons, List.sum_cons, List.sum_nil, List.getElem?_cons_zero, List.getElem?_cons_succ,
    Option.getD_some, Int.add_zero] at e3
  have key := render_paints hu hs hS m split area area e1 e2 e3 e4
    (drawStatus_paints hu hs hS m hm area _ (by unfold Rect.In; simp only; omega) hx)
    (by
      simp only [List.mem_cons, List.not_mem_nil, or_false, forall_eq_or_imp, forall_eq]
      unfold Rect.In
      simp only
      omega)
  obtain ⟨b', eb, wf', a', hc⟩ := key b hb.wf hb.area_eq
  dsimp only at hc
  have hcell : ∀ q, area.contains q = true → b.cellAt q = some Cell.empty := hb.cells
  have hlg : logHeight area.height = commandLogHeight m := by unfold logHeight commandLogHeight; rw [hh]
  have out : ∀ (r : Rect) (q : Position), ¬ (r.x ≤ q.x ∧ q.x < r.x + r.width ∧ r.y ≤ q.y ∧ q.y < r.y + r.height) →
      r.contains q = false := by
    intro r q h
    rw [← Bool.not_eq_true, Rect.contains_iff]
    unfold Rect.Mem
    omega
  have inn : ∀ (r : Rect) (q : Position), r.contains q = true →
      r.x ≤ q.x ∧ q.x < r.x + r.width ∧ r.y ≤ q.y ∧ q.y < r.y + r.height := by
    intro r q h
    rw [Rect.contains_iff] at h
    unfold Rect.Mem at h
    omega
  have within : ∀ q : Position, area.x ≤ q.x ∧ q.x < area.x + area.width ∧ area.y ≤ q.y ∧ q.y < area.y + area.height →
      area.contains q = true := by
    intro q h
    rw [Rect.contains_iff]
    unfold Rect.Mem
    omega
  refine ⟨b', eb, wf', a', ⟨?_, ?_⟩⟩
  · intro p c hp
    have hp7 : p < 7 := (List.getElem?_eq_some_iff.1 hp).1
    unfold panelArea
    rw [hh, hl, ← hh, hlg]
    clear eb e1 e2 e3 e4 key hl
    generalize commandLogHeight m = n at *
    generalize sideWidth area.width = w at *
    interval_cases p
    · simp only [captions, List.getElem?_cons_zero, List.getElem?_cons_succ, Option.some.injEq] at hp
      subst hp
      intro q hq
      simp only [Nat.reduceLT, if_true, if_false, Nat.reduceEqDiff, List.take_zero, List.take_succ_cons, List.sum_cons, List.sum_nil,
        List.getElem?_cons_zero, List.getElem?_cons_succ, Option.getD_some, Int.add_zero] at hq ⊢
      have hr := inn _ q hq
      simp only at hr
      rw [hc q, hcell q (within q (by omega)), Option.map_some]
      congr 1
      rw [footPaint_out (out ⟨area.x, area.y + (area.height - 1), area.width, 1⟩ q (by simp only; omega))]
      rw [panelPaint_out _ "Command log" _ (out ⟨area.x + w, area.y + (area.height - 1 - n), area.width - w, n⟩ q (by simp only; omega))]
      rw [panelPaint_out _ "Info" _ (out ⟨area.x + w, area.y, area.width - w, area.height - 1 - n⟩ q (by simp only; omega))]
      rw [panelPaint_out _ "Stash" _ (out ⟨area.x, area.y + (a0 + (a1 + (a2 + a3))), w, a4⟩ q (by simp only; omega))]
      rw [panelPaint_out _ "Commits" _ (out ⟨area.x, area.y + (a0 + (a1 + a2)), w, a3⟩ q (by simp only; omega))]
      rw [panelPaint_out _ "Branches" _ (out ⟨area.x, area.y + (a0 + a1), w, a2⟩ q (by simp only; omega))]
      rw [panelPaint_out _ "Files" _ (out ⟨area.x, area.y + a0, w, a1⟩ q (by simp only; omega))]
      rw [hh]
      exact panel_cell _ _ _ _ _ q hq
    · simp only [captions, List.getElem?_cons_zero, List.getElem?_cons_succ, Option.some.injEq] at hp
      subst hp
      intro q hq
      simp only [Nat.reduceLT, if_true, if_false, Nat.reduceEqDiff, List.take_zero, List.take_succ_cons, List.sum_cons, List.sum_nil,
        List.getElem?_cons_zero, List.getElem?_cons_succ, Option.getD_some, Int.add_zero] at hq ⊢
      have hr := inn _ q hq
      simp only at hr
      rw [hc q, hcell q (within q (by omega)), Option.map_some]
      congr 1
      rw [footPaint_out (out ⟨area.x, area.y + (area.height - 1), area.width, 1⟩ q (by simp only; omega))]
      rw [panelPaint_out _ "Command log" _ (out ⟨area.x + w, area.y + (area.height - 1 - n), area.width - w, n⟩ q (by simp only; omega))]
      rw [panelPaint_out _ "Info" _ (out ⟨area.x + w, area.y, area.width - w, area.height - 1 - n⟩ q (by simp only; omega))]
      rw [panelPaint_out _ "Stash" _ (out ⟨area.x, area.y + (a0 + (a1 + (a2 + a3))), w, a4⟩ q (by simp only; omega))]
      rw [panelPaint_out _ "Commits" _ (out ⟨area.x, area.y + (a0 + (a1 + a2)), w, a3⟩ q (by simp only; omega))]
      rw [panelPaint_out _ "Branches" _ (out ⟨area.x, area.y + (a0 + a1), w, a2⟩ q (by simp only; omega))]
      rw [textPaint_out _ (out ⟨area.x, area.y, w, a0⟩ q (by simp only; omega)), panelPaint_out _ "Status" _ (out ⟨area.x, area.y, w, a0⟩ q (by simp only; omega))]
      have := panel_cell (decide (m.activePanel = (1 : Int))) "Files" "1 of 10" "" _ q hq
      rw [textPaint_empty] at this
      exact this
    · simp only [captions, List.getElem?_cons_zero, List.getElem?_cons_succ, Option.some.injEq] at hp
      subst hp
      intro q hq
      simp only [Nat.reduceLT, if_true, if_false, Nat.reduceEqDiff, List.take_zero, List.take_succ_cons, List.sum_cons, List.sum_nil,
        List.getElem?_cons_zero, List.getElem?_cons_succ, Option.getD_some, Int.add_zero] at hq ⊢
      have hr := inn _ q hq
      simp only at hr
      rw [hc q, hcell q (within q (by omega)), Option.map_some]
      congr 1
      rw [footPaint_out (out ⟨area.x, area.y + (area.height - 1), area.width, 1⟩ q (by simp only; omega))]
      rw [panelPaint_out _ "Command log" _ (out ⟨area.x + w, area.y + (area.height - 1 - n), area.width - w, n⟩ q (by simp only; omega))]
      rw [panelPaint_out _ "Info" _ (out ⟨area.x + w, area.y, area.width - w, area.height - 1 - n⟩ q (by simp only; omega))]
      rw [panelPaint_out _ "Stash" _ (out ⟨area.x, area.y + (a0 + (a1 + (a2 + a3))), w, a4⟩ q (by simp only; omega))]
      rw [panelPaint_out _ "Commits" _ (out ⟨area.x, area.y + (a0 + (a1 + a2)), w, a3⟩ q (by simp only; omega))]
      rw [panelPaint_out _ "Files" _ (out ⟨area.x, area.y + a0, w, a1⟩ q (by simp only; omega))]
      rw [textPaint_out _ (out ⟨area.x, area.y, w, a0⟩ q (by simp only; omega)), panelPaint_out _ "Status" _ (out ⟨area.x, area.y, w, a0⟩ q (by simp only; omega))]
      have := panel_cell (decide (m.activePanel = (2 : Int))) "Branches" "1 of 2" "" _ q hq
      rw [textPaint_empty] at this
      exact this
    · simp only [captions, List.getElem?_cons_zero, List.getElem?_cons_succ, Option.some.injEq] at hp
      subst hp
      intro q hq
      simp only [Nat.reduceLT, if_true, if_false, Nat.reduceEqDiff, List.take_zero, List.take_succ_cons, List.sum_cons, List.sum_nil,
        List.getElem?_cons_zero, List.getElem?_cons_succ, Option.getD_some, Int.add_zero] at hq ⊢
      have hr := inn _ q hq
      simp only at hr
      rw [hc q, hcell q (within q (by omega)), Option.map_some]
      congr 1
      rw [footPaint_out (out ⟨area.x, area.y + (area.height - 1), area.width, 1⟩ q (by simp only; omega))]
      rw [panelPaint_out _ "Command log" _ (out ⟨area.x + w, area.y + (area.height - 1 - n), area.width - w, n⟩ q (by simp only; omega))]
      rw [panelPaint_out _ "Info" _ (out ⟨area.x + w, area.y, area.width - w, area.height - 1 - n⟩ q (by simp only; omega))]
      rw [panelPaint_out _ "Stash" _ (out ⟨area.x, area.y + (a0 + (a1 + (a2 + a3))), w, a4⟩ q (by simp only; omega))]
      rw [panelPaint_out _ "Branches" _ (out ⟨area.x, area.y + (a0 + a1), w, a2⟩ q (by simp only; omega))]
      rw [panelPaint_out _ "Files" _ (out ⟨area.x, area.y + a0, w, a1⟩ q (by simp only; omega))]
      rw [textPaint_out _ (out ⟨area.x, area.y, w, a0⟩ q (by simp only; omega)), panelPaint_out _ "Status" _ (out ⟨area.x, area.y, w, a0⟩ q (by simp only; omega))]
      have := panel_cell (decide (m.activePanel = (3 : Int))) "Commits" "1 of 42" "" _ q hq
      rw [textPaint_empty] at this
      exact this
    · simp only [captions, List.getElem?_cons_zero, List.getElem?_cons_succ, Option.some.injEq] at hp
      subst hp
      intro q hq
      simp only [Nat.reduceLT, if_true, if_false, Nat.reduceEqDiff, List.take_zero, List.take_succ_cons, List.sum_cons, List.sum_nil,
        List.getElem?_cons_zero, List.getElem?_cons_succ, Option.getD_some, Int.add_zero] at hq ⊢
      have hr := inn _ q hq
      simp only at hr
      rw [hc q, hcell q (within q (by omega)), Option.map_some]
      congr 1
      rw [footPaint_out (out ⟨area.x, area.y + (area.height - 1), area.width, 1⟩ q (by simp only; omega))]
      rw [panelPaint_out _ "Command log" _ (out ⟨area.x + w, area.y + (area.height - 1 - n), area.width - w, n⟩ q (by simp only; omega))]
      rw [panelPaint_out _ "Info" _ (out ⟨area.x + w, area.y, area.width - w, area.height - 1 - n⟩ q (by simp only; omega))]
      rw [panelPaint_out _ "Commits" _ (out ⟨area.x, area.y + (a0 + (a1 + a2)), w, a3⟩ q (by simp only; omega))]
      rw [panelPaint_out _ "Branches" _ (out ⟨area.x, area.y + (a0 + a1), w, a2⟩ q (by simp only; omega))]
      rw [panelPaint_out _ "Files" _ (out ⟨area.x, area.y + a0, w, a1⟩ q (by simp only; omega))]
      rw [textPaint_out _ (out ⟨area.x, area.y, w, a0⟩ q (by simp only; omega)), panelPaint_out _ "Status" _ (out ⟨area.x, area.y, w, a0⟩ q (by simp only; omega))]
      have := panel_cell (decide (m.activePanel = (4 : Int))) "Stash" "1 of 1" "" _ q hq
      rw [textPaint_empty] at this
      exact this
    · simp only [captions, List.getElem?_cons_zero, List.getElem?_cons_succ, Option.some.injEq] at hp
      subst hp
      intro q hq
      simp only [Nat.reduceLT, if_true, if_false, Nat.reduceEqDiff, List.take_zero, List.take_succ_cons, List.sum_cons, List.sum_nil,
        List.getElem?_cons_zero, List.getElem?_cons_succ, Option.getD_some, Int.add_zero] at hq ⊢
      have hr := inn _ q hq
      simp only at hr
      rw [hc q, hcell q (within q (by omega)), Option.map_some]
      congr 1
      rw [footPaint_out (out ⟨area.x, area.y + (area.height - 1), area.width, 1⟩ q (by simp only; omega))]
      rw [panelPaint_out _ "Command log" _ (out ⟨area.x + w, area.y + (area.height - 1 - n), area.width - w, n⟩ q (by simp only; omega))]
      rw [panelPaint_out _ "Stash" _ (out ⟨area.x, area.y + (a0 + (a1 + (a2 + a3))), w, a4⟩ q (by simp only; omega))]
      rw [panelPaint_out _ "Commits" _ (out ⟨area.x, area.y + (a0 + (a1 + a2)), w, a3⟩ q (by simp only; omega))]
      rw [panelPaint_out _ "Branches" _ (out ⟨area.x, area.y + (a0 + a1), w, a2⟩ q (by simp only; omega))]
      rw [panelPaint_out _ "Files" _ (out ⟨area.x, area.y + a0, w, a1⟩ q (by simp only; omega))]
      rw [textPaint_out _ (out ⟨area.x, area.y, w, a0⟩ q (by simp only; omega)), panelPaint_out _ "Status" _ (out ⟨area.x, area.y, w, a0⟩ q (by simp only; omega))]
      have := panel_cell (decide (m.activePanel = (5 : Int))) "Info" "" "" _ q hq
      rw [textPaint_empty] at this
      exact this
    · simp only [captions, List.getElem?_cons_zero, List.getElem?_cons_succ, Option.some.injEq] at hp
      subst hp
      intro q hq
      simp only [Nat.reduceLT, if_true, if_false, Nat.reduceEqDiff, List.take_zero, List.take_succ_cons, List.sum_cons, List.sum_nil,
        List.getElem?_cons_zero, List.getElem?_cons_succ, Option.getD_some, Int.add_zero] at hq ⊢
      have hr := inn _ q hq
      simp only at hr
      rw [hc q, hcell q (within q (by omega)), Option.map_some]
      congr 1
      rw [footPaint_out (out ⟨area.x, area.y + (area.height - 1), area.width, 1⟩ q (by simp only; omega))]
      rw [panelPaint_out _ "Info" _ (out ⟨area.x + w, area.y, area.width - w, area.height - 1 - n⟩ q (by simp only; omega))]
      rw [panelPaint_out _ "Stash" _ (out ⟨area.x, area.y + (a0 + (a1 + (a2 + a3))), w, a4⟩ q (by simp only; omega))]
      rw [panelPaint_out _ "Commits" _ (out ⟨area.x, area.y + (a0 + (a1 + a2)), w, a3⟩ q (by simp only; omega))]
      rw [panelPaint_out _ "Branches" _ (out ⟨area.x, area.y + (a0 + a1), w, a2⟩ q (by simp only; omega))]
      rw [panelPaint_out _ "Files" _ (out ⟨area.x, area.y + a0, w, a1⟩ q (by simp only; omega))]
      rw [textPaint_out _ (out ⟨area.x, area.y, w, a0⟩ q (by simp only; omega)), panelPaint_out _ "Status" _ (out ⟨area.x, area.y, w, a0⟩ q (by simp only; omega))]
      have := panel_cell (decide (m.activePanel = (6 : Int))) "Command log" "" "" _ q hq
      rw [textPaint_empty] at this
      exact this
  · intro q hq hy
    have hr := inn _ q hq
    rw [hc q, hcell q hq, Option.map_some]
    congr 1
    clear eb e1 e2 e3 e4 key hl
    generalize commandLogHeight m = n at *
    generalize hwd : sideWidth area.width = w at *
    rw [panelPaint_out _ "Command log" _ (out ⟨area.x + w, area.y + (area.height - 1 - n), area.width - w, n⟩ q (by simp only; omega)),
      panelPaint_out _ "Info" _ (out ⟨area.x + w, area.y, area.width - w, area.height - 1 - n⟩ q (by simp only; omega)),
      panelPaint_out _ "Stash" _ (out ⟨area.x, area.y + (a0 + (a1 + (a2 + a3))), w, a4⟩ q (by simp only; omega)),
      panelPaint_out _ "Commits" _ (out ⟨area.x, area.y + (a0 + (a1 + a2)), w, a3⟩ q (by simp only; omega)),
      panelPaint_out _ "Branches" _ (out ⟨area.x, area.y + (a0 + a1), w, a2⟩ q (by simp only; omega)),
      panelPaint_out _ "Files" _ (out ⟨area.x, area.y + a0, w, a1⟩ q (by simp only; omega)),
      textPaint_out _ (out ⟨area.x, area.y, w, a0⟩ q (by simp only; omega)), panelPaint_out _ "Status" _ (out ⟨area.x, area.y, w, a0⟩ q (by simp only; omega))]
    have hf : (⟨area.x, area.y + (area.height - 1), area.width, 1⟩ : Rect).contains q = true := by
      rw [Rect.contains_iff]
      unfold Rect.Mem
      simp only
      omega
    unfold footPaint
    rw [if_pos ⟨hf, by simp only; omega⟩]
    simp only
    rw [foot_cell _ _ (by omega)]
    congr 1 <;> omega

/-! ### For every model and every area -/

/-- The line of the status panel. -/
theorem status_cases (m : Model) : newLineStr (statusText m).toList = textLine .none (statusText m).toList ∨
    newLineStr (statusText m).toList = Line.new [] := by
  by_cases h : byteSize (statusText m).toList < 65536
  · left
    rw [(status_plain m).newLineStr _ h]
    · rfl
    · unfold statusText
      rw [String.toList_append, String.toList_append]
      simp
  · right
    have hp := status_plain m
    generalize (statusText m).toList = cs at *
    unfold newLineStr
    rcases cs with _ | ⟨c, cs⟩
    · rfl
    · unfold scanLines
      simp only
      obtain ⟨k1, k2⟩ := while_none (show '\n' ∉ c :: cs from fun k => absurd (hp _ k).1 (by decide))
      rw [k1, if_pos (by unfold maxToken; omega)]
      rfl

theorem status_narrow {u : Uniseg} (hS : Plainly u Symbols) (m : Model) :
    (newLineStr (statusText m).toList).NarrowText u ∧ (newLineStr (statusText m).toList).style = Style.new := by
  rcases status_cases m with h | h <;> rw [h]
  · refine ⟨fun s hs c hc => ?_, rfl⟩
    obtain rfl : s = Span.new (String.ofList (statusText m).toList) := by simpa [textLine] using hs
    exact (status_plain m).narrow (symbols_ascii hS) c hc
  · exact ⟨fun s hs => absurd hs (by simp [Line.new]), rfl⟩

theorem drawStatus_some {u : Uniseg} (hu : u.Lawful) (hs : u.Suffix) (hS : Plainly u Symbols) (m : Model)
    (window area : Rect) (hin : window.In area) (hx : 0 ≤ area.x) : ∃ g, Repaints window g (drawStatus u m area) := by
  have hb := newBlock_eq m panelStatus (title := "Status") rfl (by decide) (by decide) (by decide) "" (.inl rfl)
  obtain ⟨h1, h2, h3, h4, h5, h6⟩ := id hin
  have he : drawStatus u m area = fun b =>
      ((panelBlock (decide (m.activePanel = panelStatus)) "Status" "").render u area b).bind
        ((newLineStr (statusText m).toList).render u
          ⟨min (area.x + 1) (area.x + area.width), min (area.y + 1) (area.y + area.height), max 0 (area.width - 2),
            max 0 (area.height - 2)⟩) := by
    funext b
    unfold drawStatus
    rw [hb]
    simp only [Option.bind_eq_bind, Option.bind_some]
    rw [panel_inner _ _ _ _ h5 h6]
  rw [he]
  exact ⟨_, (panelBlock_paints hu hs hS _ "Status" "" (by decide) (by decide) window area hin hx).bind
    (Repaints.line hu hs _ (status_narrow hS m).1 (status_narrow hS m).2 window _ (by unfold Rect.In; simp only; omega))⟩

theorem fits_in {window area r : Rect} {d : Direction} (h : window.In area) (hx : 0 ≤ area.x) (hf : Layout.Fits d area r) :
    window.In r ∧ 0 ≤ r.x := by
  unfold Layout.Fits at hf
  unfold Rect.In at *
  cases d <;> simp only [Layout.lo, Layout.extent] at hf <;> omega

/-- Nothing panics, whatever the size of the area and the sizes told by the messages. -/
theorem render_some {u : Uniseg} (hu : u.Lawful) (hs : u.Suffix) (hS : Plainly u Symbols) {split : Split} (hsp : Splits split)
    (m : Model) (area : Rect) (hx : 0 ≤ area.x) (hw : 0 ≤ area.width) (hh : 0 ≤ area.height) :
    ∃ g, Repaints area g (render split u m area) := by
  have hin : area.In area := by unfold Rect.In; omega
  obtain ⟨l1, f1⟩ := split_fits hsp usual_screen area hw hh
  obtain ⟨pa, fa, e1⟩ := list_two (l := split screenLayout area) (by rw [l1]; rfl)
  have ipa := fits_in hin hx (f1 pa (by rw [e1]; simp))
  have ifa := fits_in hin hx (f1 fa (by rw [e1]; simp))
  obtain ⟨l2, f2⟩ := split_fits hsp usual_primary pa ipa.1.2.2.2.2.1 ipa.1.2.2.2.2.2
  obtain ⟨sa, ra, e2⟩ := list_two (l := split primaryLayout pa) (by rw [l2]; rfl)
  have isa := fits_in ipa.1 ipa.2 (f2 sa (by rw [e2]; simp))
  have ira := fits_in ipa.1 ipa.2 (f2 ra (by rw [e2]; simp))
  obtain ⟨l3, f3⟩ := split_fits hsp (usual_sidebar m) sa isa.1.2.2.2.2.1 isa.1.2.2.2.2.2
  obtain ⟨s0, s1, s2, s3, s4, e3⟩ := list_five (l := split (sidebarLayout m) sa) (by rw [l3]; rfl)
  obtain ⟨l4, f4⟩ := split_fits hsp (usual_right m) ra ira.1.2.2.2.2.1 ira.1.2.2.2.2.2
  obtain ⟨r0, r1, e4⟩ := list_two (l := split (rightLayout m) ra) (by rw [l4]; rfl)
  have i0 := fits_in isa.1 isa.2 (f3 s0 (by rw [e3]; simp))
  obtain ⟨g, h0⟩ := drawStatus_some hu hs hS m area s0 i0.1 i0.2
  refine ⟨_, render_paints hu hs hS m split area area e1 e2 e3 e4 h0 ?_⟩
  simp only [List.mem_cons, List.not_mem_nil, or_false, forall_eq_or_imp, forall_eq]
  exact ⟨fits_in isa.1 isa.2 (f3 s1 (by rw [e3]; simp)), fits_in isa.1 isa.2 (f3 s2 (by rw [e3]; simp)),
    fits_in isa.1 isa.2 (f3 s3 (by rw [e3]; simp)), fits_in isa.1 isa.2 (f3 s4 (by rw [e3]; simp)),
    fits_in ira.1 ira.2 (f4 r0 (by rw [e4]; simp)), fits_in ira.1 ira.2 (f4 r1 (by rw [e4]; simp)), ifa⟩

/-- The terminal can show the colours of the program. -/
def Colours (T : Termenv) : Prop :=
  T.convert .reset = some .reset ∧ ∀ k ∈ [2, 3, 4, 5], ((T.convert (.ansi k)).bind (Color.shown T)).isSome = true

theorem shown_new (T : Termenv) : Style.new.Shown T :=
  ⟨fun c h => (by cases h), fun c h => (by cases h), fun i _ => (by simp [Style.new, Modifier.none])⟩

theorem shown_fg {T : Termenv} (h : Colours T) (k : Nat) (hk : k ∈ [2, 3, 4, 5]) (md : Modifier)
    (hmd : md = 0 ∨ md = Modifier.bold ∨ md = Modifier.underlined) :
    (⟨some (.ansi k), none, md, 0⟩ : Style).Shown T := by
  refine ⟨fun c hc => ?_, fun c hc => (by cases hc), fun i hi => ?_⟩
  · cases hc
    exact h.2 k hk
  · show md.getLsbD i = false
    by_cases h16 : i < 16
    · have : ∀ i < 16, i = 5 ∨ i = 7 ∨ 9 ≤ i → (0 : Modifier).getLsbD i = false ∧ Modifier.bold.getLsbD i = false ∧
          Modifier.underlined.getLsbD i = false := by decide
      obtain ⟨k1, k2, k3⟩ := this i h16 hi
      rcases hmd with rfl | rfl | rfl <;> assumption
    · exact BitVec.getLsbD_of_ge _ _ (by omega)

theorem line_madeOf {u : Uniseg} (hS : Plainly u Symbols) {St : Style → Prop} (hn : St Style.new) (spans : List Span)
    (al : Alignment) (h : ∀ s ∈ spans, St s.style ∧ Plain s.content.toList) :
    (⟨Style.new, spans, al⟩ : Line).MadeOf u Symbols St := by
  refine ⟨hn, fun s hs => ⟨(h s hs).1, fun c hc => ?_⟩⟩
  have := (h s hs).2.graphemes (symbols_ascii hS)
  rw [String.ofList_toList] at this
  rw [this] at hc
  obtain ⟨ch, hch, rfl⟩ := List.mem_map.1 hc
  exact .inl ⟨ch, ((h s hs).2 ch hch).1, ((h s hs).2 ch hch).2, rfl⟩

theorem textLine_madeOf {u : Uniseg} (hS : Plainly u Symbols) {St : Style → Prop} (hn : St Style.new) (al : Alignment)
    {cs : List Char} (h : Plain cs) : (textLine al cs).MadeOf u Symbols St := by
  refine line_madeOf hS hn _ al fun s hs => ?_
  obtain rfl : s = Span.new (String.ofList cs) := by simpa using hs
  exact ⟨hn, by show Plain (String.ofList cs).toList; rw [String.toList_ofList]; exact h⟩

theorem shown_border {T : Termenv} (hT : Colours T) (active : Bool) :
    (if active then (Style.new.withModifier Modifier.bold).withForeground (.ansi 2) else Style.new).Shown T := by
  cases active
  · exact shown_new T
  · exact shown_fg hT 2 (by decide) Modifier.bold (.inr (.inl rfl))

theorem panelBlock_madeOf {u : Uniseg} {T : Termenv} (hS : Plainly u Symbols) (hT : Colours T) (active : Bool)
    {title footer : String} (ht : Plain title.toList) (hf : Plain footer.toList) :
    (panelBlock active title footer).MadeOf u Symbols (Style.Shown T) := by
  refine ⟨shown_new T, shown_border hT active, shown_new T, fun s hs => .inr ?_, fun t hmem => ?_⟩
  · revert s
    show ∀ s ∈ ["╭", "╮", "╰", "╯", "│", "│", "─", "─"], s ∈ ["╭", "╮", "╰", "╯", "─", "│"]
    decide
  · unfold panelBlock at hmem
    simp only [List.mem_cons] at hmem
    rcases hmem with rfl | hmem
    · exact textLine_madeOf hS (shown_new T) _ ht
    · split_ifs at hmem
      · cases hmem
      · obtain rfl := List.mem_singleton.1 hmem
        exact textLine_madeOf hS (shown_new T) _ hf

theorem drawPanel_drawing {u : Uniseg} {T : Termenv} (hS : Plainly u Symbols) (hT : Colours T) (m : Model) (p : Panel)
    {title : String} (ht : p.title = some title) (h : Plain title.toList)
    (hne : title.toList ≠ []) (hb : byteSize title.toList < 65536) (footer : String)
    (hf : footer = "" ∨ Plain footer.toList ∧ footer.toList ≠ [] ∧ byteSize footer.toList < 65536) (area : Rect) :
    Drawing u Symbols (Style.Shown T) (drawPanel u m p footer area) := by
  rw [drawPanel_eq u m p ht h hne hb footer hf]
  refine .block (panelBlock_madeOf hS hT _ h ?_) area
  rcases hf with rfl | hf
  · decide
  · exact hf.1

theorem drawStatus_drawing {u : Uniseg} {T : Termenv} (hS : Plainly u Symbols) (hT : Colours T) (m : Model) (area : Rect) :
    Drawing u Symbols (Style.Shown T) (drawStatus u m area) := by
  have hb := newBlock_eq m panelStatus (title := "Status") rfl (by decide) (by decide) (by decide) "" (.inl rfl)
  have he : drawStatus u m area = fun b =>
      ((panelBlock (decide (m.activePanel = panelStatus)) "Status" "").render u area b).bind
        ((newLineStr (statusText m).toList).render u
          ((panelBlock (decide (m.activePanel = panelStatus)) "Status" "").inner area)) := by
    funext b
    unfold drawStatus
    rw [hb]
    rfl
  rw [he]
  refine .both (.block (panelBlock_madeOf hS hT _ (by decide) (by decide)) area) (.line ?_ _)
  rcases status_cases m with h | h <;> rw [h]
  · exact textLine_madeOf hS (shown_new T) _ (status_plain m)
  · exact line_madeOf hS (shown_new T) [] .none (fun s hs => by cases hs)

theorem drawFootnote_drawing {u : Uniseg} {T : Termenv} (hS : Plainly u Symbols) (hT : Colours T) (area : Rect) :
    Drawing u Symbols (Style.Shown T) (drawFootnote u area) := by
  have h0 := shown_new T
  have h4 : (Style.new.withForeground (.ansi 4)).Shown T := shown_fg hT 4 (by decide) 0 (.inl rfl)
  have h5 : ((Style.new.withModifier Modifier.underlined).withForeground (.ansi 5)).Shown T :=
    shown_fg hT 5 (by decide) Modifier.underlined (.inr (.inr rfl))
  have h3 : ((Style.new.withModifier Modifier.underlined).withForeground (.ansi 3)).Shown T :=
    shown_fg hT 3 (by decide) Modifier.underlined (.inr (.inr rfl))
  refine .both (.line (line_madeOf hS h0 footLeft.spans .left fun s hs => ?_) area)
    (.line (line_madeOf hS h0 footRight.spans .right fun s hs => ?_) area)
  · simp only [footLeft, Line.new, List.mem_singleton] at hs
    subst hs
    exact ⟨h4, by decide⟩
  · simp only [footRight, Line.new, List.mem_cons, List.not_mem_nil, or_false] at hs
    rcases hs with rfl | rfl | rfl | rfl | rfl
    · exact ⟨h5, by decide⟩
    · exact ⟨h0, by decide⟩
    · exact ⟨h3, by decide⟩
    · exact ⟨h0, by decide⟩
    · exact ⟨h0, by decide⟩

/-- The frames are drawn with the widgets of the library. -/
theorem render_drawing {u : Uniseg} {T : Termenv} (hS : Plainly u Symbols) (hT : Colours T) {split : Split} (hsp : Splits split)
    (m : Model) (area : Rect) (hx : 0 ≤ area.x) (hw : 0 ≤ area.width) (hh : 0 ≤ area.height) :
    Drawing u Symbols (Style.Shown T) (render split u m area) := by
  have hin : area.In area := by unfold Rect.In; omega
  obtain ⟨l1, f1⟩ := split_fits hsp usual_screen area hw hh
  obtain ⟨pa, fa, e1⟩ := list_two (l := split screenLayout area) (by rw [l1]; rfl)
  have ipa := fits_in hin hx (f1 pa (by rw [e1]; simp))
  obtain ⟨l2, f2⟩ := split_fits hsp usual_primary pa ipa.1.2.2.2.2.1 ipa.1.2.2.2.2.2
  obtain ⟨sa, ra, e2⟩ := list_two (l := split primaryLayout pa) (by rw [l2]; rfl)
  have isa := fits_in ipa.1 ipa.2 (f2 sa (by rw [e2]; simp))
  have ira := fits_in ipa.1 ipa.2 (f2 ra (by rw [e2]; simp))
  obtain ⟨l3, f3⟩ := split_fits hsp (usual_sidebar m) sa isa.1.2.2.2.2.1 isa.1.2.2.2.2.2
  obtain ⟨s0, s1, s2, s3, s4, e3⟩ := list_five (l := split (sidebarLayout m) sa) (by rw [l3]; rfl)
  obtain ⟨l4, f4⟩ := split_fits hsp (usual_right m) ra ira.1.2.2.2.2.1 ira.1.2.2.2.2.2
  obtain ⟨r0, r1, e4⟩ := list_two (l := split (rightLayout m) ra) (by rw [l4]; rfl)
  rw [render_parts m split area e1 e2 e3 e4]
  have p1 := drawPanel_drawing hS hT m panelFiles rfl (by decide) (by decide) (by decide) "1 of 10"
    (.inr ⟨by decide, by decide, by decide⟩) s1
  have p2 := drawPanel_drawing hS hT m panelBranches rfl (by decide) (by decide) (by decide) "1 of 2"
    (.inr ⟨by decide, by decide, by decide⟩) s2
  have p3 := drawPanel_drawing hS hT m panelCommits rfl (by decide) (by decide) (by decide) "1 of 42"
    (.inr ⟨by decide, by decide, by decide⟩) s3
  have p4 := drawPanel_drawing hS hT m panelStash rfl (by decide) (by decide) (by decide) "1 of 1"
    (.inr ⟨by decide, by decide, by decide⟩) s4
  have p5 := drawPanel_drawing hS hT m panelInfo rfl (by decide) (by decide) (by decide) "" (.inl rfl) r0
  have p6 := drawPanel_drawing hS hT m panelCommandLog rfl (by decide) (by decide) (by decide) "" (.inl rfl) r1
  exact .both (.both (.both (drawStatus_drawing hS hT m s0) (.both p1 (.both p2 (.both p3 p4)))) (.both p5 p6))
    (drawFootnote_drawing hS hT fa)

/-- The program draws good frames. -/
theorem view_good {u : Uniseg} {T : Termenv} (hu : u.Lawful) (hs : u.Suffix) (hS : Plainly u Symbols) (hT : Colours T)
    {split : Split} (hsp : Splits split) (m : Model) : (view split u m).Good u T Symbols := by
  intro area b hx hy hb
  have hw : 0 ≤ area.width := by rw [← hb.area_eq]; exact hb.wf.width_nonneg
  have hh : 0 ≤ area.height := by rw [← hb.area_eq]; exact hb.wf.height_nonneg
  obtain ⟨g, h⟩ := render_some hu hs hS hsp m area hx hw hh
  obtain ⟨b', e, _⟩ := h b hb.wf hb.area_eq
  refine ⟨b', none, ?_, (C102_frame hu hT.1 hS (render_drawing hS hT hsp m area hx hw hh) hb e).1, fun p hp => by cases hp⟩
  show (render split u m area b).map _ = _
  rw [e]
  rfl

end Bento.Lazygit
