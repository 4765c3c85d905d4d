import Verif.Lemmas.Page
import Verif.Props.Cells
import Verif.Props.Clear
import Verif.Props.Gauge
import Verif.Props.InputRow
import Verif.Props.Palette
import Verif.Props.Scroll
import Verif.Props.Tabs
import Verif.Props.Throbber

/-!
# C127 — every cell of a page
-/

namespace Bento

open ListWidget

variable {u : Uniseg} {rnd : ℚ → ℚ}

/-- Widgets set their style and draw their block. -/
theorem Repaints.ground (hu : u.Lawful) (hs : u.Suffix) (style : Style) (block : Option Block) (window area : Rect)
    (hin : window.In area) (hx : 0 ≤ area.x) (hb : ∀ k ∈ block, k.Fits u area) :
    Repaints window (groundOf u style block area) (fun b => (b.setStyle area style).bind fun b =>
      block.elim (some b) fun k => k.render u area b) := by
  cases block with
  | none => exact (Repaints.setStyle window area style).bind (Repaints.nothing window)
  | some k =>
    have hk := hb k rfl
    exact (Repaints.setStyle window area style).bind
      (Repaints.block hu hs k hk.titles window area hin hx hk.width hk.height)

theorem contentOf_sub (block : Option Block) (area : Rect) (hb : ∀ k ∈ block, k.Fits u area) (hw : 0 ≤ area.width)
    (hh : 0 ≤ area.height) : ∀ q, (contentOf block area).contains q = true → area.contains q = true := by
  cases block with
  | none => exact fun q h => h
  | some k => exact fun q h => (C42_inner_inside k area hw hh (hb k rfl).padding q h).1

theorem Rect.In.sub {window area inner : Rect} (hin : window.In area) (hw : 0 < inner.width) (hh : 0 < inner.height)
    (h : ∀ q, inner.contains q = true → area.contains q = true) : window.In inner :=
  inside_of_sub (b := ⟨window, []⟩) hin hw hh h

theorem contentOf_nonneg (block : Option Block) (area : Rect) (hw : 0 ≤ area.width) (hh : 0 ≤ area.height) :
    0 ≤ (contentOf block area).width ∧ 0 ≤ (contentOf block area).height := by
  cases block with
  | none => exact ⟨hw, hh⟩
  | some k => exact ⟨Int.le_max_left _ _, Int.le_max_left _ _⟩

theorem mem_intercalate_or {α : Type} {v : α} {sep : List α} : ∀ {ls : List (List α)}, v ∈ List.intercalate sep ls →
    v ∈ sep ∨ ∃ l ∈ ls, v ∈ l
  | [], h => by simp [List.intercalate] at h
  | [l], h => .inr ⟨l, List.mem_cons_self, by simpa [List.intercalate] using h⟩
  | l :: l' :: ls, h => by
    simp only [List.intercalate, List.intersperse_cons_cons, List.flatten_cons, List.mem_append] at h
    rcases h with h | h | h
    · exact .inr ⟨l, List.mem_cons_self, h⟩
    · exact .inl h
    · rcases mem_intercalate_or (ls := l' :: ls) h with h | ⟨k, hk, h⟩
      · exact .inl h
      · exact .inr ⟨k, List.mem_cons_of_mem _ hk, h⟩

/-- Tabs. -/
theorem Repaints.tabs (hu : u.Lawful) (hs : u.Suffix) (t : Tabs) (window area : Rect) (hin : window.In area) (hx : 0 ≤ area.x)
    (hb : ∀ k ∈ t.block, k.Fits u area)
    (ht : ∀ s ∈ t.divider :: t.paddingLeft.spans ++ t.paddingRight.spans ++ t.titles.flatMap Line.spans,
      ∀ g ∈ u.graphemes s.content, u.width g = 1) :
    Repaints window (t.cellIn u area) (t.render u area) := by
  have hfun : t.render u area = fun b => ((b.setStyle area t.style).bind fun b =>
      t.block.elim (some b) fun k => k.render u area b).bind (t.renderTabs u (contentOf t.block area)) := by
    funext b
    unfold Tabs.render contentOf
    cases t.block <;> simp [Option.bind_assoc]
  rw [hfun]
  have hg := Repaints.ground hu hs t.style t.block window area hin hx hb
  have hsub := contentOf_sub t.block area hb hin.2.2.2.2.1 hin.2.2.2.2.2
  have hnn := contentOf_nonneg t.block area hin.2.2.2.2.1 hin.2.2.2.2.2
  have hone : ∀ s ∈ t.divider :: t.paddingLeft.spans ++ t.paddingRight.spans ++ t.titles.flatMap Line.spans,
      Visible u s.content := fun s hs g hg => by rw [ht s hs g hg]
  have hvis : t.AllVisible u :=
    ⟨fun s h => hone s (by simp [h]), fun s h => hone s (by simp [h]), hone _ (by simp),
      fun l hl s h => hone s (by simp only [List.mem_append, List.mem_flatMap]; exact .inr ⟨l, hl, h⟩)⟩
  have htexts : ∀ v ∈ t.texts, ∀ g ∈ u.graphemes v, u.width g = 1 := by
    intro v hv
    unfold Tabs.texts at hv
    rcases mem_intercalate_or hv with h | ⟨l, hl, h⟩
    · rw [List.mem_singleton] at h
      subst h
      exact ht _ (by simp)
    · obtain ⟨line, hline, rfl⟩ := List.mem_map.1 hl
      obtain ⟨s, hs', rfl⟩ := List.mem_map.1 h
      refine ht s ?_
      simp only [List.mem_append, List.mem_flatMap, List.mem_cons] at hs' ⊢
      rcases hs' with (h | h) | h
      · exact .inl (.inl (.inr h))
      · exact .inr ⟨line, hline, h⟩
      · exact .inl (.inr h)
  have hstrip : Repaints window (fun q c => if (contentOf t.block area).contains q = true ∧ q.y = (contentOf t.block area).y then
      match (t.strip u)[(q.x - (contentOf t.block area).x).toNat]? with
      | some f => f c
      | none => c
    else c) (t.renderTabs u (contentOf t.block area)) := by
    generalize contentOf t.block area = inner at hsub hnn
    by_cases he : inner.isEmpty = true
    · refine Repaints.same (fun b => ?_) fun q c => ?_
      · unfold Tabs.renderTabs
        rw [if_pos he]
      · rw [if_neg]
        rw [Rect.contains_iff]
        unfold Rect.Mem
        simp [Rect.isEmpty] at he
        omega
    have hne : inner.width ≠ 0 ∧ inner.height ≠ 0 := by simpa [Rect.isEmpty] using he
    obtain ⟨i1, i2, i3, i4, _, _⟩ := hin.sub (by omega) (by omega) hsub
    intro b wf ha
    obtain ⟨b', e, a, wf', hc⟩ := t.renderTabs_spec u hvis inner b wf hnn.1 hnn.2 (by rw [ha]; exact i1)
      (by rw [ha]; exact i3) (by rw [ha]; unfold Rect.bottom; omega) (C57_narrow_cuts u t htexts _)
    refine ⟨b', e, wf', a.trans ha, fun q => ?_⟩
    rw [hc q]
    by_cases hq : inner.contains q = true ∧ q.y = inner.y
    · simp only [if_pos hq]
      cases (t.strip u)[(q.x - inner.x).toNat]? with
      | none => cases b.cellAt q <;> rfl
      | some f => rfl
    · simp only [if_neg hq]
      cases b.cellAt q <;> rfl
  exact hg.bind hstrip

/-- A list of which the visible items are known. -/
theorem Repaints.list (hu : u.Lawful) (hs : u.Suffix) (hsp : Blanks u) (l : ListWidget) (s : ListWidget.State)
    (first count : Nat) (window area : Rect) (hin : window.In area) (hx : 0 ≤ area.x)
    (h : (Layer.list l s first count).Fits rnd u area) :
    Repaints window (l.cellIn u s first count area) (fun b => (l.render u area b s).map Prod.fst) := by
  obtain ⟨hb, hsym, hne, hn, hp, hw, hh, hg, hwin⟩ := h
  have hsub := contentOf_sub l.block area hb hin.2.2.2.2.1 hin.2.2.2.2.2
  have hfun : (fun b => (l.render u area b s).map Prod.fst) = fun b => ((b.setStyle area l.style).bind fun b =>
      l.block.elim (some b) fun k => k.render u area b).bind
        fun b => (renderItems u l (contentOf l.block area) b s).map Prod.fst := by
    funext b
    unfold ListWidget.render contentOf
    cases l.block <;> simp [Option.bind_assoc, Option.map_bind]
  rw [hfun]
  refine (Repaints.ground hu hs l.style l.block window area hin hx hb).bind (g2 := fun q c =>
    match (List.range ((l.items.drop first).take count).length).findSome? (fun k =>
      (((l.items.drop first).take count)[k]?).bind fun t =>
        if (rowsOf l (contentOf l.block area) ((l.items.drop first).take count) k t).contains q = true then some (k, t)
        else none) with
    | some (k, t) => l.itemCell u (l.highlightSpacing.shouldAdd s.selected.isSome)
        (s.selected.map (fun i => min i ((l.items.length : Int) - 1)) == some ((first + k : Nat) : Int))
        (rowsOf l (contentOf l.block area) ((l.items.drop first).take count) k t) t q c
    | none => c) ?_
  intro b wf ha
  obtain ⟨f, n, g1, g2, g3⟩ := renderItems_cells hu hs hsp l hsym hne hn hp (contentOf l.block area) hw hh s hg
  have hinc : Inside b (contentOf l.block area) := by
    have := hin.sub hw hh hsub
    unfold Inside
    rw [ha]
    exact this
  obtain ⟨b', h1, h2, h3, h4, h5⟩ := g3 b wf hinc
  have hw2 : getItemsBounds (l.items.map fun t => t.lines.length) l.scrollPadding (drawnSelection l s) s.offset
      (contentOf l.block area).height = some ((first : Int), ((first + count : Nat) : Int)) := hwin
  have g1' : getItemsBounds (l.items.map fun t => t.lines.length) l.scrollPadding (drawnSelection l s) s.offset
      (contentOf l.block area).height = some ((f : Int), ((f + n : Nat) : Int)) := g1
  rw [hw2] at g1'
  simp only [Option.some.injEq, Prod.mk.injEq] at g1'
  obtain rfl : first = f := by omega
  obtain rfl : count = n := by omega
  refine ⟨b', by simp only [h1, Option.map_some], h3, h2.trans ha, fun q => ?_⟩
  cases hf : (List.range ((l.items.drop first).take count).length).findSome? (fun k =>
      (((l.items.drop first).take count)[k]?).bind fun t =>
        if (rowsOf l (contentOf l.block area) ((l.items.drop first).take count) k t).contains q = true then some (k, t)
        else none) with
  | none =>
    simp only [hf]
    rw [h4 q ?_]
    · cases b.cellAt q <;> rfl
    intro k t hk
    rw [List.findSome?_eq_none_iff] at hf
    have := hf k (List.mem_range.2 (List.getElem?_eq_some_iff.1 hk).1)
    rw [hk, Option.bind_some] at this
    split_ifs at this with hc
    simpa using hc
  | some r =>
    obtain ⟨k, t⟩ := r
    obtain ⟨k', _, hk⟩ := List.exists_of_findSome?_eq_some hf
    obtain ⟨t', ht', hk⟩ := Option.bind_eq_some_iff.1 hk
    split_ifs at hk with hc
    simp only [Option.some.injEq, Prod.mk.injEq] at hk
    obtain ⟨rfl, rfl⟩ := hk
    simp only [hf]
    exact h5 k' t' ht' q hc

theorem Rect.In.contains {window area : Rect} (hin : window.In area) (q : Position) (h : area.contains q = true) :
    window.contains q = true := by
  obtain ⟨h1, h2, h3, h4, _, _⟩ := hin
  rw [Rect.contains_iff] at *
  unfold Rect.Mem at *
  omega

/-- A paragraph whose rows are known. -/
theorem Repaints.paragraph (hu : u.Lawful) (hs : u.Suffix) (p : Paragraph) (rows : List WrappedLine) (window area : Rect)
    (hin : window.In area) (hx : 0 ≤ area.x) (h : (Layer.paragraph p rows).Fits rnd u area) :
    Repaints window (p.cellIn u rows area) (p.render u area) := by
  obtain ⟨hb, h⟩ := h
  have hsub := contentOf_sub p.block area hb hin.2.2.2.2.1 hin.2.2.2.2.2
  have hnn := contentOf_nonneg p.block area hin.2.2.2.2.1 hin.2.2.2.2.2
  have hfun : p.render u area = fun b => ((b.setStyle area p.style).bind fun b =>
      p.block.elim (some b) fun k => k.render u area b).bind (p.renderIn u (contentOf p.block area)) := by
    funext b
    unfold Paragraph.render contentOf
    cases p.block <;> simp [Option.bind_assoc]
  rw [hfun]
  refine (Repaints.ground hu hs p.style p.block window area hin hx hb).bind (g2 := fun q c =>
    if (contentOf p.block area).contains q = true then
      (c.setStyle p.style).showing (rowsShown rows p.scroll.y (contentOf p.block area) q) else c) ?_
  generalize contentOf p.block area = inner at hsub hnn h
  by_cases he : inner.isEmpty = true
  · refine Repaints.same (fun b => ?_) fun q c => ?_
    · unfold Paragraph.renderIn
      rw [if_pos he]
    · rw [if_neg]
      rw [Rect.contains_iff]
      unfold Rect.Mem
      simp [Rect.isEmpty] at he
      omega
  obtain ⟨hy, hr, hp⟩ := h.resolve_left he
  have hne : inner.width ≠ 0 ∧ inner.height ≠ 0 := by simpa [Rect.isEmpty] using he
  intro b wf ha
  obtain ⟨b', e, a, wf', hc⟩ := renderIn_cells p wf (by unfold Inside; rw [ha]; exact hin.sub (by omega) (by omega) hsub)
    (by simpa using he) hr hp hy
  refine ⟨b', e, wf', a.trans ha, fun q => ?_⟩
  rw [hc q]
  by_cases hq : inner.contains q = true
  · simp only [hq, if_true]
  · simp only [hq, if_false, Bool.false_eq_true]
    cases b.cellAt q <;> rfl

theorem Scroll.drawnStrip_eq (s : Scroll) {area bar : Rect} (hw : 1 ≤ area.width) (hh : 1 ≤ area.height)
    (h : s.scrollbarArea area = some bar) : bar = drawnStrip s.orientation area := by
  unfold Scroll.scrollbarArea at h
  unfold drawnStrip Orientation.strip
  cases ho : s.orientation <;> rw [ho] at h <;> simp only at h ⊢
  · rw [columns_last hw] at h; exact (Option.some.inj h).symm
  · rw [columns_first hw] at h; exact (Option.some.inj h).symm
  · rw [rows_first hh] at h; exact (Option.some.inj h).symm
  · rw [rows_last hh] at h; exact (Option.some.inj h).symm

/-- A scrollbar with arrow heads. -/
theorem Repaints.scrollbar (rd : Int → Int → Int) (s : Scroll) (state : Scroll.State) (window area : Rect) (hin : window.In area)
    (h : (Layer.scrollbar rd s state).Fits rnd u area) :
    Repaints window (s.cellIn rd u state area) (fun b => s.render rd u area b state) := by
  obtain ⟨hw, hh, hc, ht, ⟨v1, hv1, h1⟩, ⟨v2, hv2, h2⟩, hthumb, htrack⟩ := h
  intro b wf ha
  obtain ⟨bar, b', start, thumb, rest, e1, e2, a, wf', hlens, hsum, hcells, hpaint, hout⟩ := C73_bar_partial rd s area b wf state
    (fun q hq => by rw [ha]; exact hin.contains q hq) hw hh hc ht v1 v2 hv1 hv2 h1 h2 hthumb htrack
  obtain rfl := s.drawnStrip_eq hw hh e1
  refine ⟨b', e2, wf', a.trans ha, fun q => ?_⟩
  unfold Scroll.cellIn
  simp only [hlens, Int.toNat_natCast]
  by_cases hq : (Scroll.drawnStrip s.orientation area).contains q = true
  · obtain ⟨i, hi, rfl⟩ := (hcells q).1 hq
    rw [hpaint i hi]
    simp only [hq, if_true]
    have hidx : (if s.orientation.isVertical = true then
        (s.orientation.cell (Scroll.drawnStrip s.orientation area) i).y - (Scroll.drawnStrip s.orientation area).y
        else (s.orientation.cell (Scroll.drawnStrip s.orientation area) i).x -
          (Scroll.drawnStrip s.orientation area).x).toNat = i := by
      unfold Scroll.Orientation.cell
      by_cases hv : s.orientation.isVertical = true
      · simp only [hv, if_true]; omega
      · simp only [hv, if_false, Bool.false_eq_true]; omega
    rw [hidx]
    cases Scroll.part s start thumb rest i with
    | none =>
      unfold Scroll.paint
      cases b.cellAt (s.orientation.cell (Scroll.drawnStrip s.orientation area) i) <;> rfl
    | some p => rfl
  · rw [hout q (by simpa using hq)]
    simp only [hq, if_false, Bool.false_eq_true]
    cases b.cellAt q <;> rfl

/-- The cleared cells of an area. -/
theorem Repaints.cleared (window area : Rect) (hsub : ∀ q, area.contains q = true → window.contains q = true) :
    Repaints window (fun q c => if area.contains q = true then ⟨" ", .reset, .reset, 0, false⟩ else c) (Bento.clear area) := by
  intro b wf ha
  obtain ⟨b', e, a, wf', hc⟩ := C49_clear_partial area b wf (fun q hq => by rw [ha]; exact hsub q hq)
  refine ⟨b', e, wf', a.trans ha, fun q => ?_⟩
  rw [hc q]
  by_cases hq : area.contains q = true
  · simp only [hq, if_true]
    obtain ⟨c, hc⟩ := wf.cellAt_isSome (p := q) (by rw [ha]; exact hsub q hq)
    rw [hc]; rfl
  · simp only [hq, if_false, Bool.false_eq_true]
    cases b.cellAt q <;> rfl

theorem Rect.empty_of_no_cell {r : Rect} (hw : 0 ≤ r.width) (hh : 0 ≤ r.height) (h : ∀ q, r.contains q = false) :
    r.isEmpty = true := by
  have := h ⟨r.x, r.y⟩
  rw [← Bool.not_eq_true, Rect.contains_iff] at this
  unfold Rect.Mem at this
  simp only [Rect.isEmpty, Bool.or_eq_true, beq_iff_eq]
  simp only at this
  omega

/-- A popup whose place is known. -/
theorem Repaints.popup (hu : u.Lawful) (hs : u.Suffix) (ω ω' : Nat → Nat) (fuel : Nat) (p : Popup) (r : Rect) (window area : Rect)
    (hin : window.In area) (hx : 0 ≤ area.x) (h : (Layer.popup ω ω' fuel p r).Fits rnd u area) :
    Repaints window (p.cellIn u r) (fun b => (p.render ω ω' fuel u area b).value) := by
  obtain ⟨hplace, hpad, hb⟩ := h
  have hr : (0 ≤ r.width ∧ 0 ≤ r.height) ∧ ((∀ q, r.contains q = false) ∨
        (area.x ≤ r.x ∧ area.y ≤ r.y ∧ r.x + r.width ≤ area.x + area.width ∧
          r.y + r.height ≤ area.y + area.height ∧ 0 ≤ r.width ∧ 0 ≤ r.height)) := by
    rcases p.place_inside ω ω' fuel area hpad with h | ⟨r', h, h'⟩
    · rw [h] at hplace; cases hplace
    · rw [hplace] at h
      cases h
      exact h'
  have hfun : (fun b => (p.render ω ω' fuel u area b).value) = fun b => ((Bento.clear r b).bind fun b => b.setStyle r p.style).bind
      fun b => p.block.elim (some b) fun k => k.render u r b := by
    funext b
    unfold Popup.render
    rw [hplace]
    have : p.draw u r b = ((Bento.clear r b).bind fun b => b.setStyle r p.style).bind
      fun b => p.block.elim (some b) fun k => k.render u r b := by
      unfold Popup.draw
      cases p.block <;> simp [Option.bind_assoc]
    simp only [← this]
    cases p.draw u r b <;> rfl
  rw [hfun]
  obtain ⟨i1, i2, i3, i4, i5, i6⟩ := hin
  have hsub : ∀ q, r.contains q = true → window.contains q = true := by
    intro q hq
    rcases hr.2 with hr | hr
    · rw [hr q] at hq; cases hq
    · rw [Rect.contains_iff] at *
      unfold Rect.Mem at *
      omega
  have hblock : Repaints window (fun q c => p.block.elim c fun k => if r.contains q = true then k.cellIn u r q c else c)
      (fun b => p.block.elim (some b) fun k => k.render u r b) := by
    cases hk : p.block with
    | none => exact Repaints.nothing window
    | some k =>
      have hf := hb k (by rw [hk]; rfl)
      rcases hr.2 with hno | hr'
      · have he := Rect.empty_of_no_cell hr.1.1 hr.1.2 hno
        refine Repaints.same (fun b => ?_) fun q c => ?_
        · have : r.intersection r = r := by
            simp only [Rect.isEmpty, Bool.or_eq_true, beq_iff_eq] at he
            obtain ⟨x, y, w, h⟩ := r
            unfold Rect.intersection Rect.right Rect.bottom
            simp only at hr ⊢
            congr 1 <;> omega
          show k.render u r b = some b
          unfold Block.render
          simp only [this]
          rw [if_pos he]
        · simp [hno q]
      · refine (Repaints.block hu hs k hf.titles window r ⟨by omega, by omega, by omega, by omega, hr.1.1, hr.1.2⟩ (by omega)
          hf.width hf.height).congr fun q _ c => ?_
        simp only [Option.elim_some]
        by_cases hq : r.contains q = true
        · rw [if_pos hq]
        · rw [if_neg hq]
          unfold Block.cellIn
          rw [if_neg hq]
  refine (((Repaints.cleared window r hsub).bind (Repaints.setStyle window r p.style)).bind hblock).congr fun q _ c => ?_
  unfold Popup.cellIn
  by_cases hq : r.contains q = true
  · simp only [hq, if_true]
    cases p.block <;> rfl
  · simp only [hq, if_false, Bool.false_eq_true]
    cases p.block <;> rfl

/-- A throbber whose frame and place are known. -/
theorem Repaints.throbber (hu : u.Lawful) (hs : u.Suffix) (ω ω' : Nat → Nat) (fuel : Nat) (t : Throbber) (s : Throbber.State)
    (frame : List Char) (r : Rect) (window area : Rect) (hin : window.In area)
    (h : (Layer.throbber ω ω' fuel t s frame r).Fits rnd u area) :
    Repaints window (({ newTextStr frame with style := t.style } : Text).cellIn u r)
      (fun b => (t.render ω ω' fuel u area b s).value) := by
  obtain ⟨hf, hpad, hplace, hn⟩ := h
  have hr : (0 ≤ r.width ∧ 0 ≤ r.height) ∧ ((∀ q, r.contains q = false) ∨
        (area.x ≤ r.x ∧ area.y ≤ r.y ∧ r.x + r.width ≤ area.x + area.width ∧
          r.y + r.height ≤ area.y + area.height ∧ 0 ≤ r.width ∧ 0 ≤ r.height)) := by
    rcases Popup.place_inside ω ω' fuel (t.asPopup (((newLinesStr frame).map (Line.width u)).foldl max 0)
      (newLinesStr frame).length) area hpad with h | ⟨r', h, h'⟩
    · unfold Throbber.asPopup at h; rw [h] at hplace; cases hplace
    · unfold Throbber.asPopup at h
      rw [hplace] at h
      cases h
      exact h'
  have hfun : (fun b => (t.render ω ω' fuel u area b s).value) = ({ newTextStr frame with style := t.style } : Text).render u r := by
    funext b
    rw [Throbber.render_place ω ω' fuel u t area b s hf]
    unfold Throbber.asPopup
    rw [hplace]
    simp only
    cases ({ newTextStr frame with style := t.style } : Text).render u r b <;> rfl
  rw [hfun]
  obtain ⟨i1, i2, i3, i4, i5, i6⟩ := hin
  rcases hr.2 with hno | hr'
  · intro b wf ha
    obtain ⟨b', e, a, wf', c⟩ := C32_text_confined u { newTextStr frame with style := t.style } r b wf
    refine ⟨b', e, wf', a.trans ha, fun q => ?_⟩
    rw [c q (fun h => by have := h.1; rw [hno q] at this; cases this)]
    unfold Text.cellIn
    simp only [hno q, if_false, Bool.false_eq_true]
    cases b.cellAt q <;> rfl
  · exact Repaints.styledText hu hs _ hn window r ⟨by omega, by omega, by omega, by omega, hr.1.1, hr.1.2⟩

/-- A text field whose place and line are known. -/
theorem Repaints.field (hu : u.Lawful) (hs : u.Suffix) (ω : Nat → Nat) (fuel : Nat) (i : InputField.Widget) (s : InputField.State)
    (row : Rect) (line : Line) (window area : Rect) (hin : window.In area) (hx : 0 ≤ area.x)
    (h : (Layer.field ω fuel i s row line).Fits rnd u area) :
    Repaints window (i.cellIn u row line area) (fun b => (i.render ω fuel u area b s).map Prod.fst) := by
  obtain ⟨hb, hw, hh, ⟨spacers, hsplit⟩, hline, hn⟩ := h
  have hsub := contentOf_sub i.block area hb hin.2.2.2.2.1 hin.2.2.2.2.2
  have hfun : (fun b => (i.render ω fuel u area b s).map Prod.fst) = fun b => ((b.setStyle area i.style).bind fun b =>
      i.block.elim (some b) fun k => k.render u area b).bind (line.renderAligned u row .none) := by
    funext b
    obtain ⟨⟨line', s'⟩, h1, rfl⟩ := Option.map_eq_some_iff.1 hline
    have key : ∀ b, (match Layout.splitWithSpacers ω fuel i.rowLayout (contentOf i.block area) with
        | .ok [row] _ => i.renderRow u row b s
        | _ => none).map Prod.fst = line'.renderAligned u row .none b := by
      intro b
      rw [hsplit]
      simp only [InputField.Widget.renderRow, h1, Option.bind_eq_bind, Option.bind_some]
      show (Option.bind (line'.render u row b) _).map Prod.fst = _
      unfold Line.render
      cases line'.renderAligned u row .none b <;> rfl
    unfold InputField.Widget.render
    simp only [Option.bind_eq_bind]
    cases hk : i.block with
    | none =>
      rw [hk] at key
      cases b.setStyle area i.style with
      | none => rfl
      | some b => exact key b
    | some k =>
      rw [hk] at key
      cases b.setStyle area i.style with
      | none => rfl
      | some b =>
        simp only [Option.bind_some, Option.elim_some]
        cases k.render u area b with
        | none => rfl
        | some b => exact key b
  rw [hfun]
  refine (Repaints.ground hu hs i.style i.block window area hin hx hb).bind
    (Repaints.styledLine hu hs line .none hn window row ?_)
  have hcin := hin.sub hw hh hsub
  rcases Popup.unwrap_split ω fuel i.rowLayout rfl (contentOf i.block area) with h | ⟨r, h, hfit⟩
  · rw [hsplit] at h; cases h
  rw [hsplit] at h
  cases h
  have hinner : (contentOf i.block area).inner i.rowLayout.padding = contentOf i.block area :=
    InputField.inner_none _ hw.le hh.le
  rw [hinner] at hfit
  obtain ⟨f1, f2, f3, f4, f5⟩ := hfit
  simp only [InputField.Widget.rowLayout, Layout.lo, Layout.extent] at f1 f2 f3
  obtain ⟨c1, c2, c3, c4, _, _⟩ := hcin
  exact ⟨by omega, by omega, by omega, by omega, by omega, f3⟩

/-- Every layer. -/
theorem Repaints.layer (hu : u.Lawful) (hs : u.Suffix) (hsp : Blanks u) (hr : Gauge.FloatRound rnd) (layer : Layer)
    (window area : Rect) (hin : window.In area) (hx : 0 ≤ area.x) (h : layer.Fits rnd u area) :
    Repaints window (fun q c => layer.cellIn rnd u area q c) (layer.draw rnd u area) := by
  cases layer with
  | text t => exact Repaints.styledText hu hs t h window area hin
  | block b => exact Repaints.block hu hs b h.titles window area hin hx h.width h.height
  | tabs t => exact Repaints.tabs hu hs t window area hin hx h.1 h.2
  | gauge g =>
    obtain ⟨h1, h2, h3, h4, h5, h6, h7⟩ := h
    intro b wf ha
    obtain ⟨b', e, a, wf', hc⟩ := C47_cells_partial hr u g h4 area b wf (by unfold Inside; rw [ha]; exact hin) h1 h2 h3 h5 h6 h7
    refine ⟨b', e, wf', a.trans ha, fun q => ?_⟩
    have hf : g.fillWidth rnd area.width = Layout.roundHalfAway (rnd (area.width * g.ratio)) := by
      unfold Gauge.fillWidth; rw [h4]; rfl
    rw [hc q, hf]
    unfold Layer.cellIn
    by_cases hq : area.contains q = true
    · simp only [hq, if_true]
    · simp only [hq, if_false, Bool.false_eq_true]
      cases b.cellAt q <;> rfl
  | list l s first count => exact Repaints.list hu hs hsp l s first count window area hin hx h
  | fill f =>
    intro b wf ha
    obtain ⟨b', e, a, wf', hc⟩ := C49_fill_partial f area b wf (fun q hq => by rw [ha]; exact hin.contains q hq)
    refine ⟨b', e, wf', a.trans ha, fun q => ?_⟩
    rw [hc q]
    unfold Layer.cellIn
    by_cases hq : area.contains q = true
    · simp only [hq, if_true]
      obtain ⟨c, hc⟩ := wf.cellAt_isSome (p := q) (by rw [ha]; exact hin.contains q hq)
      rw [hc]; rfl
    · simp only [hq, if_false, Bool.false_eq_true]
      cases b.cellAt q <;> rfl
  | clear => exact Repaints.cleared window area fun q hq => hin.contains q hq
  | paragraph p rows => exact Repaints.paragraph hu hs p rows window area hin hx h
  | scrollbar rd s state => exact Repaints.scrollbar rd s state window area hin h
  | popup ω ω' fuel p r => exact Repaints.popup hu hs ω ω' fuel p r window area hin hx h
  | throbber ω ω' fuel t s frame r => exact Repaints.throbber hu hs ω ω' fuel t s frame r window area hin h
  | field ω fuel i s row line => exact Repaints.field hu hs ω fuel i s row line window area hin hx h

/-- **C127 (blocks).** Every cell that a block leaves behind: the style of the block everywhere in its area, the border in its
style, and the titles – how many there may be and whether they fit or not – in the style for titles and their own. -/
theorem C127_block (hu : u.Lawful) (hs : u.Suffix) (k : Block) (area : Rect) (hk : k.Fits u area) (hx : 0 ≤ area.x)
    (b : Buffer) (wf : b.WF) (hin : Inside b area) :
    ∃ b', k.render u area b = some b' ∧ b'.WF ∧ b'.area = b.area ∧
      ∀ q, b'.cellAt q = (b.cellAt q).map (k.cellIn u area q) :=
  Repaints.block hu hs k hk.titles b.area area hin hx hk.width hk.height b wf rfl

/-- **C127.** Every cell that a page leaves behind is what its layers make of it one after the other. -/
theorem C127_page (hu : u.Lawful) (hs : u.Suffix) (hsp : Blanks u) (hr : Gauge.FloatRound rnd) (page : Page) (b : Buffer)
    (wf : b.WF) (hin : ∀ p ∈ page, Inside b p.1) (hx : ∀ p ∈ page, 0 ≤ p.1.x)
    (h : ∀ p ∈ page, p.2.Fits rnd u p.1) :
    ∃ b', page.draw rnd u b = some b' ∧ b'.WF ∧ b'.area = b.area ∧
      ∀ q, b'.cellAt q = (b.cellAt q).map (page.cellIn rnd u q) := by
  induction page generalizing b with
  | nil => exact ⟨b, rfl, wf, rfl, fun q => by cases b.cellAt q <;> rfl⟩
  | cons p page ih =>
    obtain ⟨b1, e1, wf1, a1, c1⟩ := Repaints.layer hu hs hsp hr p.2 b.area p.1 (hin p List.mem_cons_self)
      (hx p List.mem_cons_self) (h p List.mem_cons_self) b wf rfl
    obtain ⟨b2, e2, wf2, a2, c2⟩ := ih b1 wf1
      (fun p' h' => by unfold Inside at *; rw [a1]; exact hin p' (List.mem_cons_of_mem _ h'))
      (fun p' h' => hx p' (List.mem_cons_of_mem _ h')) (fun p' h' => h p' (List.mem_cons_of_mem _ h'))
    refine ⟨b2, ?_, wf2, a2.trans a1, fun q => ?_⟩
    · unfold Page.draw
      rw [List.foldlM_cons, e1]
      exact e2
    · rw [c2, c1, Option.map_map]
      rfl

/-- **C127 (content).** Of the cells for the content of a block only the style changes: neither border nor titles reach them. -/
theorem C127_content (k : Block) (area : Rect) (hk : k.Fits u area) (hw : 0 ≤ area.width) (hh : 0 ≤ area.height) (q : Position)
    (hq : (k.inner area).contains q = true) (c : Cell) : k.cellIn u area q c = c.setStyle k.style := by
  obtain ⟨ha, hno⟩ := C42_inner_inside k area hw hh hk.padding q hq
  unfold Block.OnFrame Block.Takes Block.Has at hno
  simp only [not_or, not_and] at hno
  obtain ⟨n8, n2, n1, n4⟩ := hno
  have hempty : ∀ p : TitlePosition, q.y = p.row area → ∀ a,
      titlesOf k.titlesPosition k.titlesAlignment k.titles p a = [] := by
    intro p hp a
    unfold titlesOf
    rw [List.filter_eq_nil_iff]
    intro t ht
    have : t.position.getD k.titlesPosition ≠ p := by
      intro he
      cases p with
      | top => exact n1 (.inr ⟨t, ht, he⟩) hp
      | bottom => exact n4 (.inr ⟨t, ht, he⟩) hp
    simp [this]
  have hplaces : ∀ p : TitlePosition, q.y = p.row area → ∀ room, titlePlaces u k room p = [] := by
    intro p hp room
    unfold titlePlaces
    simp only [hempty p hp]
    rfl
  have hsym : k.borderSet.symbol (decide (k.borders &&& 8 ≠ 0) && decide (q.x = area.x))
      (decide (k.borders &&& 1 ≠ 0) && decide (q.y = area.y))
      (decide (k.borders &&& 2 ≠ 0) && decide (q.x = area.x + area.width - 1))
      (decide (k.borders &&& 4 ≠ 0) && decide (q.y = area.y + area.height - 1)) = none := by
    have e : ∀ (m n : Prop) [Decidable m] [Decidable n], (m → ¬ n) → (decide m && decide n) = false := by
      intro m n _ _ h
      by_cases hm : m <;> simp [hm]
      exact h hm
    rw [e _ _ n8, e _ _ (fun h => n1 (.inl h)), e _ _ n2, e _ _ (fun h => n4 (.inl h))]
    rfl
  unfold Block.cellIn
  rw [if_pos ha]
  simp only [hsym, Cell.bordered]
  have hrow : ∀ (p : TitlePosition) (first : Int) (room : Nat) (c : Cell), (if q.y = p.row area ∧ first ≤ q.x then
      (titlePlaces u k room p).foldl (TitlePlace.cellIn u k.titlesStyle (q.x - first).toNat) c else c) = c := by
    intro p first room c
    split_ifs with h
    · rw [hplaces p h.1]; rfl
    · rfl
  rw [hrow, hrow]

variable {T : Termenv} {S : String → Prop}

theorem page_drawing {St : Style → Prop} : ∀ page : Page, (∀ p ∈ page, p.2.MadeOf rnd u S St) →
    Drawing u S St (page.draw rnd u)
  | [], _ => .nothing
  | (area, layer) :: page, h => by
    have h1 : Drawing u S St (layer.draw rnd u area) := by
      have hl := h (area, layer) List.mem_cons_self
      cases layer with
      | text t => exact .text hl area
      | block b => exact .block hl area
      | tabs t => exact .tabs hl area
      | gauge g => exact .gauge hl area
      | list l s first count => exact .list hl area s
      | fill f => exact .fill hl.1 hl.2 area
      | clear => exact .clear area
      | paragraph p _ => exact .paragraph hl area
      | scrollbar rd s state => exact .scroll rd hl area state
      | popup ω ω' fuel p _ => exact .popup ω ω' fuel hl area
      | throbber ω ω' fuel t s _ _ => exact .throbber ω ω' fuel hl area s
      | field ω fuel i s _ _ => exact .input ω fuel hl.1 area hl.2
    exact .both h1 (page_drawing page fun p hp => h p (List.mem_cons_of_mem _ hp))

/-- **C127 (screen).** A program draws a page: the terminal then shows in every cell of the viewport what the layers make of a blank
cell one after the other, in its colours and modifiers. -/
theorem C127_screen {j : Junk} (hu : u.Lawful) (hs : u.Suffix) (hsp : Blanks u) (hr : Gauge.FloatRound rnd)
    (hc : T.convert .reset = some .reset) (hS : Plainly u S) {t : Terminal} {sc : Screen}
    (h : History j u T S t sc true) (page : Page)
    (hin : ∀ p ∈ page, t.viewportArea.In p.1) (hx : ∀ p ∈ page, 0 ≤ p.1.x) (hfits : ∀ p ∈ page, p.2.Fits rnd u p.1)
    (hmade : ∀ p ∈ page, p.2.MadeOf rnd u S (Style.Shown T)) (w : Widget)
    (hw : ∀ b, w t.viewportArea b = (page.draw rnd u b).map fun b => (b, none)) :
    ∃ t' out, t.draw u T w noFault = some (t', out, true) ∧ t'.viewportArea = t.viewportArea ∧
      History j u T S t' (sc.feed j u out) true ∧
      ∀ q, t.viewportArea.contains q = true →
        (sc.feed j u out).grid q = .glyph (page.cellIn rnd u q ⟨" ", .reset, .reset, 0, false⟩).symbol false
          (penOf T (page.cellIn rnd u q ⟨" ", .reset, .reset, 0, false⟩)) := by
  obtain ⟨ht, _, _⟩ := history_inv (env_of_plainly hu hc hS) h
  obtain ⟨frame, e, _, _, hcells⟩ := C127_page hu hs hsp hr page t.cur ht.cur.wf
    (fun p hp => by unfold Inside; rw [ht.cur.area_eq]; exact hin p hp) hx hfits
  obtain ⟨t', out, h1, h2, h3, h4, _⟩ := C102_screen hu hc hS h (page_drawing page hmade) ht.cur e w hw
  refine ⟨t', out, h1, h2, h3, fun q hq => ?_⟩
  have := hcells q
  rw [ht.cur.cells q hq] at this
  exact h4 q _ this

/-! ### Examples -/

/-- A panel with four titles, two of which meet, … -/
def pagePanel : Block :=
  { Block.new.bordered with
    style := Style.new.withBackground (.ansi 4)
    titlesStyle := Style.new.withModifier Modifier.bold
    titles := [⟨.left, none, Line.new [Span.new "Files"]⟩, ⟨.center, none, Line.new [Span.new "main.go"]⟩,
      ⟨.right, some .bottom, Line.new [Span.new "1"]⟩, ⟨.right, some .bottom, Line.new [Span.new "of"]⟩] }

/-- … a list of two items of which the second is selected, … -/
def pageList : ListWidget :=
  { sampleList with items := [sampleItem .none ["ab"], sampleItem .right ["cd"]], highlightStyle := Style.new.withForeground (.ansi 3) }

/-- … and, over the last row of the panel's content, two tabs and a gauge. -/
def samplePage : Page :=
  [(⟨0, 0, 12, 6⟩, .block pagePanel), (⟨1, 1, 10, 2⟩, .list pageList ⟨0, some 1⟩ 0 2), (⟨1, 3, 10, 1⟩, .tabs twoTabs),
    (⟨1, 4, 10, 1⟩, .gauge { Gauge.new with ratio := 3 / 10, label := some (Span.new "3/10") }), (⟨10, 2, 1, 1⟩, .fill ⟨"!", Style.new⟩)]

example : ∀ p ∈ samplePage, (⟨0, 0, 12, 6⟩ : Rect).In p.1 ∧ 0 ≤ p.1.x := by
  unfold Rect.In; decide +kernel

example : ∀ p ∈ samplePage, p.2.Fits id Uniseg.simple p.1 := by
  have hb : pagePanel.Fits Uniseg.simple ⟨0, 0, 12, 6⟩ :=
    ⟨by unfold Line.NarrowText Uniseg.Narrow; decide +kernel, by decide +kernel, by decide +kernel, by decide +kernel⟩
  intro p hp
  simp only [samplePage, List.mem_cons, List.not_mem_nil, or_false] at hp
  rcases hp with rfl | rfl | rfl | rfl | rfl
  · exact hb
  · refine ⟨fun k hk => (by cases hk), by decide +kernel, by decide +kernel, ?_, by decide +kernel, by decide +kernel, by decide +kernel,
      by decide +kernel, by decide +kernel⟩
    unfold Line.NarrowText Uniseg.Narrow; decide +kernel
  · exact ⟨fun k hk => (by cases hk), by decide +kernel⟩
  · exact ⟨by decide, by decide, by decide, rfl, by decide +kernel, by decide +kernel, by decide +kernel⟩
  · trivial

/-- What every cell shows. The left title hides the beginning of the one in the middle. -/
example : (List.range 6).map (fun y : Nat => (List.range 12).map fun x : Nat =>
      (samplePage.cellIn id Uniseg.simple ⟨x, y⟩ ⟨" ", .reset, .reset, 0, false⟩).symbol) =
    [["┌", "F", "i", "l", "e", "s", ".", "g", "o", "─", "─", "┐"],
      ["│", " ", "a", "b", " ", " ", " ", " ", " ", " ", " ", "│"],
      ["│", ">", " ", " ", " ", " ", " ", " ", " ", "c", "!", "│"],
      ["│", " ", "a", "b", " ", "│", " ", "c", "d", " ", " ", "│"],
      ["│", "█", "█", "█", "3", "/", "1", "0", " ", " ", " ", "│"],
      ["└", "─", "─", "─", "─", "─", "─", "1", "─", "o", "f", "┘"]] := by
  decide +kernel

/-- Two of them with their colours and modifiers: a symbol of the title in the middle and the symbol of the selected item. -/
example : samplePage.cellIn id Uniseg.simple ⟨6, 0⟩ ⟨" ", .reset, .reset, 0, false⟩ = ⟨".", .reset, .ansi 4, Modifier.bold, false⟩ ∧
    samplePage.cellIn id Uniseg.simple ⟨1, 2⟩ ⟨" ", .reset, .reset, 0, false⟩ = ⟨">", .ansi 3, .ansi 4, 0, false⟩ := by
  decide +kernel

/-! Layers that find out something by themselves. -/

theorem yields_step {σ : Type} {next : σ → Option (WrappedLine × σ)} {s : σ} {l : WrappedLine} {ls : List WrappedLine}
    (h : (next s).map Prod.fst = some l) (h' : Yields next (((next s).map Prod.snd).getD s) ls) : Yields next s (l :: ls) := by
  obtain ⟨⟨l', s'⟩, e, rfl⟩ := Option.map_eq_some_iff.1 h
  rw [e] at h'
  exact .more e h'

/-- A wrapped paragraph of three words in a frame, scrolled by one row, … -/
def pageParagraph : Paragraph :=
  { samplePara ["ab cd ef"] with
    wrap := some true, scroll := ⟨0, 1⟩, block := some Block.new.bordered, style := Style.new.withForeground (.ansi 2) }

/-- The wrapper leaves graphemes without content and columns behind in its rows. -/
def pageRow (n : Nat) (s : String) : WrappedLine :=
  ⟨List.replicate n ⟨⟨"", 0⟩, Style.new⟩ ++ s.toList.map fun c => ⟨⟨String.ofList [c], 1⟩, Style.new⟩, s.length, .left⟩

/-- … has the three words as its rows. -/
example : (Layer.paragraph pageParagraph [pageRow 0 "ab", pageRow 4 "cd", pageRow 10 "ef"]).Fits id Uniseg.simple ⟨0, 0, 6, 4⟩ := by
  refine ⟨?_, .inr ⟨by decide +kernel, ?_, ?_⟩⟩
  · intro k hk
    cases hk
    exact ⟨fun t ht => (by cases ht), by decide, by decide, by decide⟩
  · show Yields _ _ _
    refine yields_step ?_ ?_
    · decide +kernel
    refine yields_step ?_ ?_
    · decide +kernel
    refine yields_step ?_ (.done ?_) <;> decide +kernel
  · unfold Paintable
    decide +kernel

/-- A scrollbar on the right of an area of seven rows. -/
example : (Layer.scrollbar Scroll.nearest (Scroll.new .verticalRight) ⟨10, 3, 5⟩).Fits id Uniseg.simple ⟨0, 0, 9, 7⟩ := by
  refine ⟨by decide, by decide, by decide, by decide +kernel, ⟨_, rfl, ?_⟩, ⟨_, rfl, ?_⟩, ?_, ?_⟩
  all_goals
    unfold Scroll.OneCell
    decide +kernel

theorem Popup.place_two {ω ω' : Nat → Nat} {fuel : Nat} {p : Popup} {area r r' : Rect} {t t' : List Rect}
    (h : Layout.splitWithSpacers ω fuel ⟨.vertical, [p.height], p.padding, p.vertical, .space 0⟩ area = .ok [r] t)
    (h' : Layout.splitWithSpacers ω' fuel ⟨.horizontal, [p.width], p.padding, p.horizontal, .space 0⟩ r = .ok [r'] t') :
    p.place ω ω' fuel area = .ok r' := by
  unfold Popup.place
  rw [h]
  simp only [Popup.unwrap]
  rw [h']

/-- A framed popup in the middle of a box. -/
def pagePopup : Popup := { Popup.new with width := .len 4, height := .len 3, block := some Block.new.bordered }

example : (Layer.popup (fun _ => 0) (fun _ => 0) 100 pagePopup ⟨3, 2, 4, 3⟩).Fits id Uniseg.simple ⟨0, 0, 10, 7⟩ := by
  refine ⟨?_, by decide, ?_⟩
  · have hv : Layout.splitWithSpacers (fun _ => 0) 100 ⟨.vertical, [.len 3], Padding.none', .center, .space 0⟩
        ⟨0, 0, 10, 7⟩ = .ok [⟨0, 2, 10, 3⟩] [⟨0, 0, 10, 2⟩, ⟨0, 5, 10, 2⟩] := by
      rw [Layout.split_fast _ _ (by decide)]
      decide +kernel
    have hh : Layout.splitWithSpacers (fun _ => 0) 100 ⟨.horizontal, [.len 4], Padding.none', .center, .space 0⟩
        ⟨0, 2, 10, 3⟩ = .ok [⟨3, 2, 4, 3⟩] [⟨0, 2, 3, 3⟩, ⟨7, 2, 3, 3⟩] := by
      rw [Layout.split_fast _ _ (by decide)]
      decide +kernel
    exact Popup.place_two hv hh
  · intro k hk
    cases hk
    exact ⟨fun t ht => (by cases ht), by decide, by decide, by decide⟩

/-- The third frame of the ellipsis. -/
example : (Layer.throbber (fun _ => 0) (fun _ => 0) 100 (Throbber.new.withType .ellipsis) ⟨3, 1, 3⟩ ['.', '.', '.'] ⟨4, 0, 3, 1⟩).Fits
    id Uniseg.simple ⟨0, 0, 10, 1⟩ := by
  refine ⟨by decide +kernel, by decide, ?_, ?_⟩
  · have := Throbber.ellipsis_place.2
    unfold Throbber.asPopup at this
    have e1 : ((newLinesStr ['.', '.', '.']).map (Line.width Uniseg.simple)).foldl max 0 = 3 := by decide +kernel
    have e2 : (newLinesStr ['.', '.', '.']).length = 1 := by decide +kernel
    rw [e1, e2]
    exact this
  · unfold Line.NarrowText Uniseg.Narrow
    decide +kernel

/-- The text field at the bottom of a framed box. -/
example : (Layer.field (fun _ => 0) 100 boxedInput ⟨2, true, "abc".toList.map fun c => ⟨String.ofList [c], 1⟩, 0⟩ ⟨1, 3, 6, 1⟩
    ⟨Style.new, [⟨Style.new, ">"⟩, Span.new "ab", Span.new "c", Span.new ""], .left⟩).Fits id Uniseg.simple ⟨0, 0, 8, 5⟩ := by
  refine ⟨?_, by decide +kernel, by decide +kernel, ⟨[⟨1, 1, 6, 2⟩, ⟨1, 4, 6, 0⟩], ?_⟩, by decide +kernel, ?_⟩
  · intro k hk
    cases hk
    exact ⟨fun t ht => (by cases ht), by decide, by decide, by decide⟩
  · have e : contentOf boxedInput.block ⟨0, 0, 8, 5⟩ = ⟨1, 1, 6, 3⟩ := by decide +kernel
    rw [e]
    unfold InputField.Widget.rowLayout boxedInput
    rw [Layout.split_fast _ _ (by decide)]
    decide +kernel
  · unfold Line.NarrowText Uniseg.Narrow
    decide +kernel

/-- A page with all of them: a scrolled paragraph beside a scrollbar, with a popup above, a throbber and a text field. -/
example : (List.range 7).map (fun y : Nat => String.join ((List.range 12).map fun x : Nat =>
      (Page.cellIn id Uniseg.simple [(⟨0, 0, 6, 4⟩, .paragraph pageParagraph [pageRow 0 "ab", pageRow 4 "cd", pageRow 10 "ef"]),
        (⟨0, 0, 9, 7⟩, .scrollbar Scroll.nearest (Scroll.new .verticalRight) ⟨10, 3, 5⟩),
        (⟨0, 0, 10, 7⟩, .popup (fun _ => 0) (fun _ => 0) 100 pagePopup ⟨3, 2, 4, 3⟩)] ⟨x, y⟩
          ⟨" ", .reset, .reset, 0, false⟩).symbol)) =
    ["┌────┐  ▲   ",
     "│cd  │  ║   ",
     "│ef┌──┐ █   ",
     "└──│  │ █   ",
     "   └──┘ ║   ",
     "        ║   ",
     "        ▼   "] := by
  decide +kernel

end Bento
