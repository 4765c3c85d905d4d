import Verif.Lemmas.FieldCells
import Verif.Model.Builders

/-!
# C118: the cells of a text field
-/

namespace Bento

open Input InputField

variable {u : Uniseg} {S : String → Prop} {T : Termenv}

/-- A cell of the content area of a field, after the field was drawn over a cell `c`: styled with the style of the field
and then with that of its block, and in the row of the text with the symbol that stands there, in its style. -/
def InputField.fieldCell (u : Uniseg) (i : InputField.Widget) (area : Rect) (showCursor : Bool) (e : Editor) (q : Position)
    (c : Cell) : Cell :=
  let below := match i.block with
    | none => c.setStyle i.style
    | some k => (c.setStyle i.style).setStyle k.style
  if q.y = (content i area).y + rowOf i.vertical (content i area).height then
    match i.alignment.shown (content i area).width.toNat (styledText u i showCursor e) (q.x - (content i area).x).toNat with
    | some (symbol, style) => { below with symbol := symbol }.setStyle style
    | none => below
  else below

theorem fieldCell_eq (i : InputField.Widget) (area : Rect) (sh : Bool) (e : Editor) (q : Position) (c : Cell) :
    fieldCell u i area sh e q c = if q.y = (content i area).y + rowOf i.vertical (content i area).height then
        match i.alignment.shown (content i area).width.toNat (styledText u i sh e) (q.x - (content i area).x).toNat with
        | some (symbol, style) => (ground i c).put symbol style
        | none => ground i c
      else ground i c := by
  have hg : (match i.block with
    | none => c.setStyle i.style
    | some k => (c.setStyle i.style).setStyle k.style) = ground i c := by
    unfold ground
    cases i.block <;> rfl
  unfold fieldCell
  simp only [hg]
  rfl

/-- **C118**: every cell of the content area of a field into which something was typed, and no cell outside of its area
changes. -/
theorem C118_cells (ω : Nat → Nat) (fuel : Nat) (hu : u.Lawful) (hs : u.Suffix) (hS : Plainly u S)
    (hvis : ∀ s, S s → s.toList.any isControlRune = false) {i : InputField.Widget} (hpr : u.MadeOf S i.prompt)
    (hpl : ∀ g ∈ i.placeholder, S g.symbol) {area : Rect} (hp : Placed i area) {s : State} {e : Editor}
    (hses : TypingSession u S s e) (hroom : Room u i area e) (b : Buffer) (wf : b.WF) (hin : Inside b area) :
    Layout.splitWithSpacers ω fuel (lineLayout i.vertical) (content i area) = .running ∨
    ∃ b', i.render ω fuel u area b s = some (b', s) ∧ b'.WF ∧ b'.area = b.area ∧
      (∀ q, area.contains q = false → b'.cellAt q = b.cellAt q) ∧
      ∀ q, (content i area).contains q = true →
        b'.cellAt q = (b.cellAt q).map (fieldCell u i area s.showCursor e q) := by
  rcases field_cells ω fuel hu hs hS hvis hpr hpl hp (session_tidy hS hses) hroom b wf hin with
    h | ⟨b', h1, h2, h3, h4, h5⟩
  · exact .inl h
  · refine .inr ⟨b', h1, h2, h3, h4, fun q hq => ?_⟩
    rw [h5 q hq]
    congr 1
    funext c
    rw [fieldCell_eq]
    rfl

/-- **C118**, the cursor: in a field that is aligned to the left, the cell behind the prompt and the text before the cursor
shows the symbol at the cursor, or a blank, in the style of the cursor. -/
theorem C118_cursor {i : InputField.Widget} (hleft : i.alignment = .left) {area : Rect} {e : Editor}
    (htext : e.before ++ e.after ≠ []) (q : Position)
    (hroom : ((u.graphemes i.prompt).length : Int) + (e.before ++ e.after).length + 1 ≤ (content i area).width)
    (hx : q.x = (content i area).x + (u.graphemes i.prompt).length + e.before.length)
    (hy : q.y = (content i area).y + rowOf i.vertical (content i area).height) (c : Cell) :
    ∃ below : Cell, fieldCell u i area true e q c =
      { below with symbol := e.after.head?.getD " " }.setStyle (Style.new.patched i.cursorStyle) := by
  rw [fieldCell_eq, if_pos hy]
  have hcol : (q.x - (content i area).x).toNat = (u.graphemes i.prompt).length + e.before.length := by omega
  have hsome : i.alignment.shown (content i area).width.toNat (styledText u i true e) (q.x - (content i area).x).toNat =
      some (e.after.head?.getD " ", Style.new.patched i.cursorStyle) := by
    rw [hleft, hcol]
    have hlen : (e.before ++ e.after).length = e.before.length + e.after.length := List.length_append
    have hget : (styledText u i true e)[(u.graphemes i.prompt).length + e.before.length]? =
        some (e.after.head?.getD " ", Style.new.patched i.cursorStyle) := by
      unfold styledText
      simp only
      rw [if_neg htext, List.getElem?_append_right (by simp), List.length_map, Nat.add_sub_cancel_left,
        List.getElem?_append_right (by simp), List.length_map, Nat.sub_self]
      cases e.after <;> rfl
    have hl : (styledText u i true e).length ≤ (content i area).width.toNat := by
      have : (styledText u i true e).length ≤ (u.graphemes i.prompt).length + (e.before ++ e.after).length + 1 := by
        unfold styledText
        simp only
        rw [if_neg htext]
        cases e.after <;> simp <;> omega
      omega
    unfold Alignment.shown
    rw [if_pos hl]
    simp only [Alignment.before, Nat.not_lt_zero, if_false, Nat.sub_zero]
    exact hget
  rw [hsome]
  exact ⟨ground i c, rfl⟩

/-- **C118**, on the screen: the terminal shows these cells, in the colours and modifiers of their styles; the rest of the
viewport, apart from the frame of the field, is blank. -/
theorem C118_screen {j : Junk} (ω : Nat → Nat) (fuel : Nat) (hu : u.Lawful) (hs : u.Suffix)
    (hc : T.convert .reset = some .reset) (hS : Plainly u S) (hvis : ∀ s, S s → s.toList.any isControlRune = false)
    {t : Terminal} {sc : Screen} (h : History j u T S t sc true) {s : State} {e : Editor} (hses : TypingSession u S s e)
    {i : InputField.Widget} (hi : i.MadeOf u S (Style.Shown T)) {area : Rect} (hp : Placed i area)
    (hroom : Room u i area e)
    (hin : t.viewportArea.x ≤ area.x ∧ area.x + area.width ≤ t.viewportArea.x + t.viewportArea.width ∧
      t.viewportArea.y ≤ area.y ∧ area.y + area.height ≤ t.viewportArea.y + t.viewportArea.height ∧
      0 ≤ area.width ∧ 0 ≤ area.height)
    (w : Widget) (hw : ∀ b, w t.viewportArea b = (i.render ω fuel u area b s).map fun r => (r.1, none)) :
    Layout.splitWithSpacers ω fuel (lineLayout i.vertical) (content i area) = .running ∨
    ∃ t' out, t.draw u T w noFault = some (t', out, true) ∧
      t'.viewportArea = t.viewportArea ∧ History j u T S t' (sc.feed j u out) true ∧
      ∀ q, (content i area).contains q = true ∨ (t.viewportArea.contains q = true ∧ area.contains q = false) →
        let blank : Cell := ⟨" ", .reset, .reset, 0, false⟩
        let c := if (content i area).contains q = true then fieldCell u i area s.showCursor e q blank else blank
        (sc.feed j u out).grid q = .glyph c.symbol false (penOf T c) := by
  have hti := session_tidy hS hses
  obtain ⟨_, _, _, _, _, _, hsym⟩ := tidy_split hti
  obtain ⟨ht, _, _⟩ := history_inv (env_of_plainly hu hc hS) h
  have hinb : Inside t.cur area := by unfold Inside; rw [ht.cur.area_eq]; exact hin
  rcases C118_cells ω fuel hu hs hS hvis hi.prompt hi.placeholder hp hses hroom t.cur ht.cur.wf hinb with
    hr | ⟨frame, e1, _, _, out1, in1⟩
  · exact .inl hr
  right
  have hdr : Drawing u S (Style.Shown T) fun b => (i.render ω fuel u area b s).map Prod.fst := .input ω fuel hi area hsym
  have hframe : (i.render ω fuel u area t.cur s).map Prod.fst = some frame := by rw [e1]; rfl
  obtain ⟨t', out, h1, h2, h3, h4, _⟩ := C102_screen hu hc hS h hdr ht.cur hframe w (by
    intro b
    rw [hw, Option.map_map]
    rfl)
  refine ⟨t', out, h1, h2, h3, fun q hq => ?_⟩
  simp only
  have hqv : (content i area).contains q = true → t.viewportArea.contains q = true := by
    intro hq
    have hqa : area.contains q = true := by
      unfold content at hq
      cases hb : i.block with
      | none => rw [hb] at hq; exact hq
      | some k =>
        rw [hb] at hq
        exact (C42_inner_inside k area hin.2.2.2.2.1 hin.2.2.2.2.2 (hp.padding k hb) q hq).1
    rw [Rect.contains_iff] at hqa ⊢
    unfold Rect.Mem at *
    omega
  have hblank : ∀ q, t.viewportArea.contains q = true → t.cur.cellAt q = some ⟨" ", .reset, .reset, 0, false⟩ :=
    fun q hq => ht.cur.cells q hq
  by_cases hqc : (content i area).contains q = true
  · rw [if_pos hqc]
    exact h4 q _ (by rw [in1 q hqc, hblank q (hqv hqc)]; rfl)
  · rcases hq with hq | ⟨hq, ha⟩
    · exact absurd hq hqc
    · rw [if_neg hqc]
      exact h4 q _ (by rw [out1 q ha, hblank q hq])

/-- `boxedInput` with the cursor of a new field. -/
def cursorInput : InputField.Widget := { boxedInput with cursorStyle := InputField.Widget.new.cursorStyle }

/-- The text "baba" with the cursor on the last "a", in the framed field of `cursorInput`: the prompt, the text and the
reversed cursor; behind the text the cursor is a blank. -/
example : (let s := styledText Uniseg.simple cursorInput true ⟨["b", "a", "b"], ["a"]⟩
    s.map Prod.fst = [">", "b", "a", "b", "a"] ∧ s.map Prod.snd = [cursorInput.promptStyle, Style.new, Style.new, Style.new,
      Style.new.patched cursorInput.cursorStyle]) ∧
    styledText Uniseg.simple cursorInput true ⟨["b"], []⟩ = [(">", cursorInput.promptStyle), ("b", Style.new),
      (" ", Style.new.patched cursorInput.cursorStyle)] ∧
    Room Uniseg.simple cursorInput ⟨0, 0, 8, 5⟩ ⟨["b", "a", "b"], ["a"]⟩ ∧ cursorInput.cursorStyle ≠ Style.new ∧
    (content cursorInput ⟨0, 0, 8, 5⟩).width = 6 ∧ cursorInput.alignment = .left := by
  refine ⟨by decide +kernel, by decide +kernel, by unfold Room; decide +kernel, by decide +kernel, by decide +kernel,
    by decide +kernel⟩

end Bento
