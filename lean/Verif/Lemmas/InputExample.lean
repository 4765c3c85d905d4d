import Verif.Lemmas.TitledBox
import Verif.Lemmas.Lazygit
import Verif.Props.FieldCells
import Verif.Props.Popup
import Verif.Props.Clear
import Verif.Spec.InputExample

/-!
# The frame of the example program with an input field
-/

namespace Bento.InputExample

open Input InputField Lazygit

variable {u : Uniseg} {S : String → Prop}

theorem symbols_plainly (hS : Plainly u S) (h : ∀ s, Symbols s → S s) : Plainly u Ascii :=
  plainly_ascii hS fun s hs => h s (.inl hs)

theorem plain_text {s : String} (h : s.toList.all (fun c => decide (32 ≤ c.toNat) && decide (c.toNat < 127)) = true) :
    Plain s.toList := by
  intro c hc
  have := List.all_eq_true.1 h c hc
  simpa using this

theorem block_eq : block = boxBlock .thick "Input" := by
  have h : newLineStr "Input".toList = textLine .none "Input".toList :=
    (Plain.newLineStr (plain_text (by decide)) (by decide) (by decide)).trans rfl
  unfold block
  simp only [Block.Call.apply]
  rw [h]
  unfold Block.withTitle Block.bordered Block.withBorderSides boxBlock
  simp only [if_true, Title.new, ne_eq, not_true, if_false, Block.new, List.nil_append, BorderType.set]
  rfl

theorem near_fifth {a b c : Int} (h : |(a : ℚ) - (b + (c : ℚ) / 5)| ≤ 505 / 1000) : a = b + (c + 2) / 5 := by
  rw [abs_le] at h
  have h1 : (5 : ℚ) * (a - b) - c ≤ 2525 / 1000 := by linarith [h.2]
  have h2 : -(2525 / 1000 : ℚ) ≤ 5 * (a - b) - c := by linarith [h.1]
  have h3 : (5 * (a - b) - c : Int) < 3 := by
    have : ((5 * (a - b) - c : Int) : ℚ) < 3 := by push_cast; linarith
    exact_mod_cast this
  have h4 : -3 < (5 * (a - b) - c : Int) := by
    have : (-3 : ℚ) < ((5 * (a - b) - c : Int) : ℚ) := by push_cast; linarith
    exact_mod_cast this
  omega

/-- Where the popup is. -/
theorem place_eq (ω ω' : Nat → Nat) (fuel : Nat) (area : Rect) (hy : 0 ≤ area.y) (hw : 0 ≤ area.width)
    (hh : 3 ≤ area.height) :
    popup.place ω ω' fuel area = .running ∨ popup.place ω ω' fuel area = .ok (popupArea area) := by
  have hin : area.inner Padding.none' = area := Rect.inner_none hw (by omega)
  have hp : popup.place ω ω' fuel area = (match Popup.unwrap (Layout.splitWithSpacers ω fuel
        ⟨.vertical, [.len 3], Padding.none', .center, .space 0⟩ area) with
      | .panics => .panics
      | .running => .running
      | .ok area => Popup.unwrap (Layout.splitWithSpacers ω' fuel
          ⟨.horizontal, [.percentage 60], Padding.none', .center, .space 0⟩ area)) := rfl
  rw [hp]
  rcases C86_single_segment ω fuel ⟨.vertical, [.len 3], Padding.none', .center, .space 0⟩ (.len 3) rfl area with
    e | ⟨r1, _, _, _, e, hfit, _⟩
  · left; rw [e]; rfl
  rcases C86_exact_length ω fuel ⟨.vertical, [.len 3], Padding.none', .center, .space 0⟩ 3 rfl
    (.inr (.inr rfl)) area (by simp only [hin, Layout.lo]; exact hy) (by omega) (by simp only [hin, Layout.extent]; omega) with
    e' | ⟨r2, _, _, e', hx1, hx2⟩
  · left; rw [e']; rfl
  rw [e] at e'
  simp only [Layout.Outcome.ok.injEq, List.cons.injEq, and_true] at e'
  obtain ⟨rfl, -⟩ := e'
  simp only [hin, Layout.lo, Layout.extent] at hfit hx1 hx2
  obtain ⟨-, -, -, hx, hwid⟩ := hfit
  rw [e]
  simp only [Popup.unwrap]
  have hin1 : r1.inner Padding.none' = r1 := Rect.inner_none (by omega) (by omega)
  rcases C86_single_segment ω' fuel ⟨.horizontal, [.percentage 60], Padding.none', .center, .space 0⟩ (.percentage 60) rfl
    r1 with e' | ⟨r, _, _, q, e', hfit', s1, s2, _, _, _, _, _, _, hq, _⟩
  · left; rw [e']
  right
  rw [e']
  simp only [hin1, Layout.lo, Layout.extent] at hfit' s1 s2 hq
  obtain ⟨-, -, -, hy', hh'⟩ := hfit'
  have hq := hq (by decide)
  have hsz : Layout.singleSize .center r1.width (.percentage 60) = (area.width : ℚ) * 3 / 5 := by
    rw [singleSize_free (by simp), hwid]
    simp only [Layout.definiteSize, Option.getD_some]
    have : (0 : ℚ) ≤ area.width := by exact_mod_cast hw
    rw [min_eq_right (by push_cast; linarith), max_eq_right (by push_cast; linarith)]
    push_cast
    ring
  rw [hsz] at s2 hq
  simp only [Layout.singleStart] at hq
  rw [hwid] at hq
  rw [hq, hx] at s1 s2
  have k1 := near_fifth (a := r.x) (b := area.x) (c := area.width) (by
    refine le_of_eq_of_le ?_ s1.1
    congr 1
    push_cast
    ring)
  have k2 := near_fifth (a := r.x + r.width) (b := area.x) (c := 4 * area.width) (by
    refine le_of_eq_of_le ?_ s2.1
    congr 1
    push_cast
    ring)
  have hr : r = popupArea area := by
    unfold popupArea
    ext <;> simp only <;> omega
  rw [← hr]

theorem inner_eq (area : Rect) (hw : 2 ≤ (popupArea area).width) : block.inner (popupArea area) = fieldArea area := by
  rw [block_eq]
  have h1 : Block.intersects (boxBlock .thick "Input").borders Block.sideLeft = true := by
    show Block.intersects 15 8 = true; decide
  have h2 : Block.intersects (boxBlock .thick "Input").borders Block.sideTop = true := by
    show Block.intersects 15 1 = true; decide
  have h3 : Block.intersects (boxBlock .thick "Input").borders Block.sideRight = true := by
    show Block.intersects 15 2 = true; decide
  have h4 : Block.intersects (boxBlock .thick "Input").borders Block.sideBottom = true := by
    show Block.intersects 15 4 = true; decide
  unfold Block.inner
  simp only [h1, h2, h3, h4, Bool.true_or, if_true, Rect.right, Rect.bottom]
  have hh : (popupArea area).height = 3 := rfl
  unfold fieldArea
  generalize popupArea area = r at *
  ext <;> simp [boxBlock] <;> omega

theorem placeholder_graphemes (hS : Plainly u Ascii) :
    (input u).placeholder.map Grapheme.symbol = "Placeholder...".toList.map fun c => String.ofList [c] := by
  have h : (input u).placeholder = newGraphemes u "Placeholder..." := rfl
  have hp : Plain "Placeholder...".toList := plain_text (by decide)
  have hg := hp.graphemes hS
  rw [String.ofList_toList] at hg
  rw [h]
  unfold newGraphemes
  rw [← hg]
  simp [Function.comp_def]

theorem prompt_graphemes (hS : Plainly u Ascii) : u.graphemes (input u).prompt = [">", " "] := by
  have hp : Plain "> ".toList := plain_text (by decide)
  have hg := hp.graphemes hS
  rw [String.ofList_toList] at hg
  exact hg

/-- A cell that was cleared. -/
def blank : Cell := ⟨" ", .reset, .reset, 0, false⟩

/-- A cell without colours. -/
def plainCell (p : String × Modifier) : Cell := ⟨p.1, .reset, .reset, p.2, false⟩

theorem put_plain (c : String) (st : Style) (hfg : st.fg = none) (hbg : st.bg = none) (m : Modifier)
    (hm : Modifier.difference (Modifier.union 0 st.addModifier) st.subModifier = m) :
    blank.put c st = plainCell (c, m) := by
  unfold Cell.put Cell.setStyle Cell.setSymbol blank plainCell
  simp only [hfg, hbg, hm]

theorem styled_cells (hS : Plainly u Ascii) (e : Editor) :
    (styledText u (input u) true e).map (fun p => blank.put p.1 p.2) = (fieldCells e).map plainCell := by
  have p0 : ∀ c, blank.put c Style.new = plainCell (c, 0) := fun c => put_plain c _ rfl rfl 0 (by decide)
  have hcs : (input u).cursorStyle = Style.new.withModifier Modifier.reversed := rfl
  have hpl : (input u).placeholderStyle = (Style.new.withModifier Modifier.dim).withModifier Modifier.italic := rfl
  have p1 : ∀ c, blank.put c (Style.new.patched (input u).cursorStyle) = plainCell (c, Modifier.reversed) :=
    fun c => put_plain c _ rfl rfl _ (by rw [hcs]; decide)
  have p2 : ∀ c, blank.put c (input u).placeholderStyle = plainCell (c, Modifier.dim ||| Modifier.italic) :=
    fun c => put_plain c _ rfl rfl _ (by rw [hpl]; decide)
  have p3 : ∀ c, blank.put c ((input u).placeholderStyle.patched (input u).cursorStyle) =
      plainCell (c, Modifier.dim ||| Modifier.italic ||| Modifier.reversed) :=
    fun c => put_plain c _ rfl rfl _ (by rw [hcs, hpl]; decide)
  have hps : (input u).promptStyle = Style.new := rfl
  have hph : "Placeholder...".toList.map (fun c => String.ofList [c]) =
      "P" :: "laceholder...".toList.map (fun c => String.ofList [c]) := by decide
  unfold styledText fieldCells
  simp only [List.map_append, prompt_graphemes hS, hps, placeholder_graphemes hS, hph, if_true]
  have hpr : ([">", " "].map fun c => (c, Style.new)).map (fun p : String × Style => blank.put p.1 p.2) =
      [(">", (0 : Modifier)), (" ", 0)].map plainCell := by simp [p0]
  rw [hpr]
  congr 1
  by_cases h : e.before ++ e.after = []
  · simp only [h, if_true, List.map_cons, List.map_map, Function.comp_def, p2, p3]
  · simp only [h, if_false, List.map_append, List.map_map, Function.comp_def, p0]
    congr 1
    cases e.after with
    | nil => simp [p1]
    | cons c rest => simp [p0, p1]

/-- The cells of the popup, without the field. -/
theorem popup_paints (hu : u.Lawful) (hs : u.Suffix) (hS : Plainly u Ascii) (window r : Rect) (hin : window.In r)
    (hw : 2 ≤ r.width) (hh : 2 ≤ r.height) :
    Repaints window (fun q c => if r.contains q = true then boxPaint .thick "Input" r q blank else c) (popup.draw u r) := by
  have hd : popup.draw u r = fun b => (((clear r b).bind fun b => b.setStyle r Style.new).bind
      fun b => (boxBlock .thick "Input").render u r b) := by
    funext b
    rw [← block_eq]
    unfold Popup.draw
    show ((clear r b).bind fun b => (b.setStyle r Style.new).bind fun b => block.render u r b) = _
    rw [Option.bind_assoc]
  have hc : Repaints window (fun q c => if r.contains q = true then blank else c) (clear r) := by
    intro b wf ha
    obtain ⟨b', h1, h2, h3, h4⟩ := C49_clear_partial r b wf (by
      intro q hq
      rw [ha]
      rw [Rect.contains_iff] at hq ⊢
      unfold Rect.In Rect.Mem at *
      omega)
    refine ⟨b', h1, h3, h2.trans ha, fun q => ?_⟩
    rw [h4]
    by_cases hq : r.contains q = true
    · obtain ⟨c, hc⟩ := wf.cellAt_isSome (p := q) (by
        rw [ha]
        rw [Rect.contains_iff] at hq ⊢
        unfold Rect.In Rect.Mem at *
        omega)
      simp only [hq, if_true, hc]
      rfl
    · simp only [hq]
      cases b.cellAt q <;> rfl
  rw [hd]
  refine ((hc.bind (Repaints.setStyle window r Style.new)).bind (boxBlock_paints hu hs hS .thick "Input"
    (plain_text (by decide)) window r hin hw hh)).congr fun q _ c => ?_
  by_cases hq : r.contains q = true
  · simp only [hq, if_true]
    rw [(C05_new_unit Style.new blank).2.2]
  · simp only [hq]
    unfold boxPaint
    simp [hq]

/-- The frame of the popup, and a blank inside. -/
theorem box_cell (e : Editor) (r : Rect) (hw : 2 ≤ r.width) (hh : r.height = 3) (q : Position) (hq : r.contains q = true) :
    boxPaint .thick "Input" r q blank =
      if 1 ≤ q.x - r.x ∧ q.x - r.x ≤ r.width - 2 ∧ q.y - r.y = 1 then blank
      else plainCell (popupCell e r.width (q.x - r.x) (q.y - r.y)) := by
  rw [Rect.contains_iff] at hq
  unfold boxPaint
  rw [if_pos (Rect.contains_iff r q |>.2 hq)]
  unfold Rect.Mem at hq
  rw [hh] at *
  have hi : 0 ≤ q.x - r.x ∧ q.x - r.x ≤ r.width - 1 := by omega
  have hj : q.y - r.y = 0 ∨ q.y - r.y = 1 ∨ q.y - r.y = 2 := by omega
  generalize q.x - r.x = i at *
  generalize q.y - r.y = j at *
  generalize r.width = w at *
  have hset : BorderSet.thick = ⟨"┏", "┓", "┗", "┛", "┃", "┃", "━", "━"⟩ := rfl
  unfold onRim BorderSet.boxSymbol popupCell
  rw [hset]
  by_cases h0 : i = 0
  · subst h0
    have : ¬ (0 : Int) = w - 1 := by omega
    rcases hj with rfl | rfl | rfl <;> simp [putSymbol, plainCell, blank, Cell.setSymbol]
  by_cases h1 : i = w - 1
  · have hle : ¬ i ≤ w - 2 := by omega
    have h1' : (i = w - 1) = True := eq_true h1
    rcases hj with rfl | rfl | rfl <;> simp only [h1', hle, h0, if_false, if_true, and_false, false_and] <;>
      simp [putSymbol, plainCell, blank, Cell.setSymbol]
  have h2 : 1 ≤ i := by omega
  have h3 : i ≤ w - 2 := by omega
  rcases hj with rfl | rfl | rfl
  · have h4 : 0 ≤ i - 1 := by omega
    simp only [h0, h1, h2, h3, if_false, if_true, charAt, h4, true_and, Bool.or_false, decide_true, Bool.or_true, decide_false,
      Bool.true_or]
    simp only [show ¬ (0 : Int) = 1 by decide, if_false]
    cases ("Input".toList[(i - 1).toNat]?) <;> simp [putSymbol, plainCell, blank, Cell.setSymbol]
  · simp [putSymbol, plainCell, blank, Cell.setSymbol, h0, h1, h2, h3]
  · simp [putSymbol, plainCell, blank, Cell.setSymbol, h0, h1, h2, h3]

/-- **The frame.** -/
theorem frame_cells (ω : Nat → Nat → Nat) (fuel : Nat) (hu : u.Lawful) (hs : u.Suffix) (hS : Plainly u S)
    (hsym : ∀ s, Symbols s → S s) (hvis : ∀ s, S s → s.toList.any isControlRune = false) {s : State} {e : Editor}
    (h : Tidy u S s e) (hsc : s.showCursor = true) (area : Rect) (hroom : Roomy e area) (b : Buffer) (wf : b.WF)
    (hin : Inside b area) :
    Running ω fuel area ∨ ∃ b', render ω fuel u s area b = some (b', s) ∧ b'.WF ∧ b'.area = b.area ∧
      ∀ q, b'.cellAt q = if area.contains q = true then some (pictureCell e area q) else b.cellAt q := by
  have hA := symbols_plainly hS hsym
  obtain ⟨hx, hy, hrows, hcols⟩ := hroom
  obtain ⟨i1, i2, i3, i4, i5, i6⟩ := id hin
  have hPA : popupArea area = ⟨area.x + (area.width + 2) / 5, area.y + (area.height - 2) / 2,
    (4 * area.width + 2) / 5 - (area.width + 2) / 5, 3⟩ := rfl
  have hr2 : 2 ≤ (popupArea area).width := by omega
  have hrh : (popupArea area).height = 3 := rfl
  have hrin : area.x ≤ (popupArea area).x ∧ (popupArea area).x + (popupArea area).width ≤ area.x + area.width ∧
      area.y ≤ (popupArea area).y ∧ (popupArea area).y + 3 ≤ area.y + area.height := by
    rw [hPA]
    simp only
    omega
  rcases place_eq (ω 0) (ω 1) fuel area hy i5 hrows with hp | hp
  · exact .inl (.inl hp)
  rcases place_eq (ω 2) (ω 3) fuel area hy i5 hrows with hp' | hp'
  · exact .inl (.inr (.inl hp'))
  -- the background
  obtain ⟨b1, e1, a1, wf1, c1⟩ := C49_fill_partial fill area b wf (by
    intro q hq
    rw [Rect.contains_iff] at hq ⊢
    unfold Rect.Mem at *
    omega)
  -- the popup
  obtain ⟨b2, e2, wf2, a2, c2⟩ := popup_paints hu hs hA b.area (popupArea area) (by unfold Rect.In; omega) hr2
    (by omega) b1 wf1 a1
  -- the field
  have hfa : fieldArea area = ⟨(popupArea area).x + 1, (popupArea area).y + 1, (popupArea area).width - 2, 1⟩ := rfl
  have hct : content (input u) (fieldArea area) = fieldArea area := rfl
  have hprw : (u.stringWidth (input u).prompt : Int) = 2 := by
    unfold Uniseg.stringWidth
    rw [prompt_graphemes hA]
    simp [hA.column ">" ⟨'>', by decide, by decide, rfl⟩, hA.column " " ⟨' ', by decide, by decide, rfl⟩]
  have hplaced : Placed (input u) (fieldArea area) := by
    refine ⟨by show Flex.legacy ≠ .spaceAround; decide, ?_, ?_, fun k hk => (by cases hk), ?_⟩
    · rw [hfa]; simp only; omega
    · rw [hct, hfa]; simp only; omega
    · rw [hct, hfa]
  have hroom' : Room u (input u) (fieldArea area) e := by
    unfold Room
    rw [hct, hprw, hfa]
    simp only
    omega
  have hascii : ∀ c, Ascii c → S c := fun c hc => hsym c (.inl hc)
  rcases field_cells (ω 4) fuel hu hs hS hvis (i := input u) (by
      intro c hc
      rw [prompt_graphemes hA] at hc
      simp only [List.mem_cons, List.not_mem_nil, or_false] at hc
      rcases hc with rfl | rfl
      · exact hascii _ ⟨'>', by decide, by decide, rfl⟩
      · exact hascii _ ⟨' ', by decide, by decide, rfl⟩) (by
      intro g hg
      have : g.symbol ∈ (input u).placeholder.map Grapheme.symbol := List.mem_map.2 ⟨g, hg, rfl⟩
      rw [placeholder_graphemes hA] at this
      obtain ⟨c, hc, hc'⟩ := List.mem_map.1 this
      rw [← hc']
      have hp : Plain "Placeholder...".toList := plain_text (by decide)
      exact hascii _ ⟨c, (hp c hc).1, (hp c hc).2, rfl⟩) hplaced h hroom' b2 wf2 (by
      unfold Inside
      rw [a2, hfa]
      simp only
      omega) with hr | ⟨b3, e3, wf3, a3, o3, c3⟩
  · exact .inl (.inr (.inr hr))
  right
  refine ⟨b3, ?_, wf3, a3.trans a2, fun q => ?_⟩
  · unfold render
    have hd1 : popup.render (ω 0) (ω 1) fuel u area b1 = .ok b2 := by
      unfold Popup.render
      rw [hp]
      simp only [e2]
    have hd2 : popup.inner (ω 2) (ω 3) fuel area = .ok (fieldArea area) := by
      unfold Popup.inner
      rw [hp']
      show Popup.Result.ok (block.inner (popupArea area)) = _
      rw [inner_eq area hr2]
    rw [e1]
    simp only [Option.bind_eq_bind, Option.bind_some, hd1, hd2]
    exact e3
  have hmem : ∀ r : Rect, r.contains q = true ↔ r.x ≤ q.x ∧ q.x < r.x + r.width ∧ r.y ≤ q.y ∧ q.y < r.y + r.height :=
    fun r => Rect.contains_iff r q
  by_cases hq : area.contains q = true
  · rw [if_pos hq]
    have hbg : b1.cellAt q = some (plainCell ("╲", Modifier.dim)) := by
      rw [c1, if_pos hq]
      rfl
    by_cases hqr : (popupArea area).contains q = true
    · have hb2 : b2.cellAt q = some (boxPaint .thick "Input" (popupArea area) q blank) := by
        rw [c2, hbg]
        simp only [Option.map_some, hqr, if_true]
      have hpic : pictureCell e area q = plainCell (popupCell e (popupArea area).width (q.x - (popupArea area).x)
          (q.y - (popupArea area).y)) := by
        unfold pictureCell
        simp only [hqr, if_true]
        rfl
      rw [box_cell e (popupArea area) hr2 hrh q hqr] at hb2
      rw [hpic]
      by_cases hqf : (fieldArea area).contains q = true
      · have hij := (hmem _).1 hqf
        rw [hfa] at hij
        simp only at hij
        rw [if_pos (by omega)] at hb2
        rw [c3 q hqf, hb2, Option.map_some, hct]
        have hrow : q.y = (fieldArea area).y + rowOf (input u).vertical (fieldArea area).height := by
          show q.y = (fieldArea area).y + 0
          rw [hfa]
          simp only
          omega
        have hg : ground (input u) blank = blank := (C05_new_unit Style.new blank).2.2
        rw [if_pos hrow, hg]
        have hal : (input u).alignment = .left := rfl
        rw [hal, left_shown, hsc]
        have hk : (q.x - (fieldArea area).x).toNat = (q.x - (popupArea area).x - 1).toNat := by
          rw [hfa]
          simp only
          omega
        rw [hk]
        have hsty := congrArg (fun l => l[(q.x - (popupArea area).x - 1).toNat]?) (styled_cells hA e)
        simp only [List.getElem?_map] at hsty
        have hpc : popupCell e (popupArea area).width (q.x - (popupArea area).x) (q.y - (popupArea area).y) =
            ((fieldCells e)[(q.x - (popupArea area).x - 1).toNat]?).getD (" ", 0) := by
          unfold popupCell
          rw [if_neg (by omega), if_neg (by omega), if_neg (by omega), if_pos (by omega)]
        rw [hpc]
        cases hst : (styledText u (input u) true e)[(q.x - (popupArea area).x - 1).toNat]? with
        | none =>
          rw [hst] at hsty
          cases hfc : (fieldCells e)[(q.x - (popupArea area).x - 1).toNat]? with
          | none => rfl
          | some x => rw [hfc] at hsty; cases hsty
        | some x =>
          rw [hst] at hsty
          cases hfc : (fieldCells e)[(q.x - (popupArea area).x - 1).toNat]? with
          | none => rw [hfc] at hsty; cases hsty
          | some y =>
            rw [hfc] at hsty
            simp only [Option.map_some, Option.some.injEq] at hsty
            simp only [Option.getD_some, Option.some.injEq]
            exact hsty
      · have hij := (hmem _).not.1 hqf
        have hqr' := (hmem _).1 hqr
        rw [hfa] at hij
        simp only at hij
        rw [if_neg (by omega)] at hb2
        rw [o3 q (by simpa using hqf), hb2]
    · have hqf : (fieldArea area).contains q = false := by
        rw [← Bool.not_eq_true, hmem, hfa]
        rw [hmem] at hqr
        simp only
        omega
      have hpic : pictureCell e area q = plainCell ("╲", Modifier.dim) := by
        unfold pictureCell
        simp only [hqr]
        rfl
      rw [o3 q hqf, c2, hbg, hpic]
      simp [hqr]
  · rw [if_neg hq]
    have hqr : ¬ (popupArea area).contains q = true := by
      rw [hmem] at hq ⊢
      omega
    have hqf : (fieldArea area).contains q = false := by
      rw [← Bool.not_eq_true, hmem, hfa]
      rw [hmem] at hqr
      simp only
      omega
    rw [o3 q hqf, c2, c1, if_neg hq]
    simp [hqr]

end Bento.InputExample
