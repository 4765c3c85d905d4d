import Verif.Props.Typing
import Verif.Lemmas.Repaints

/-!
# The cells of a text field
-/

namespace Bento

open Input InputField

variable {u : Uniseg} {S : String → Prop}

namespace InputField

/-- The line of a field with room for all of its text, with its styles. -/
theorem line_styled (hS : Plainly u S) {i : InputField.Widget}
    (hpl : ∀ g ∈ i.placeholder, S g.symbol) {s : State} {e : Editor} (h : Tidy u S s e) {width : Int}
    (hw : (u.stringWidth i.prompt : Int) + (e.before ++ e.after).length + 1 ≤ width) :
    ∃ l, i.line u width s = some (l, s) ∧ l.style = Style.new ∧ l.alignment = i.alignment ∧
      l.styledClusters u = styledText u i s.showCursor e := by
  obtain ⟨b, a, hg, hb, ha, hc, hsym⟩ := tidy_split h
  have hone : ∀ g ∈ s.graphemes, g.width = 1 := by
    intro g hg'
    rw [h.proper g hg']
    simp [Grapheme.new, Uniseg.stringWidth, hS.single _ (hsym g hg'), hS.column _ (hsym g hg')]
  have hlen : (e.before ++ e.after).length = s.graphemes.length := by
    rw [← hb, ← ha, ← List.map_append, List.length_map, hg]
  have hbl : b.length ≤ s.graphemes.length := by rw [hg]; simp
  have hbounds := bounds_fit (m := width - u.stringWidth i.prompt - 1) h.offset hone (by omega)
    (by rw [hc]; omega) (by rw [hc]; exact_mod_cast hbl)
  have he : u.graphemes "" = [] := by
    have h1 := hS.apart [] (by simp)
    simpa using h1
  have hsp : u.graphemes " " = [" "] := hS.single _ hS.space
  have hne : ∀ x, S x → x ≠ "" := by
    intro x hx h0
    have := hS.single x hx
    rw [h0, he] at this
    cases this
  have hpr : ∀ sp : Span, sp = (if i.prompt ≠ "" then ⟨i.promptStyle, i.prompt⟩ else ⟨Style.new, ""⟩) →
      (u.graphemes sp.content).map (fun c => (c, sp.style)) = (u.graphemes i.prompt).map fun c => (c, i.promptStyle) := by
    intro sp hsp
    subst hsp
    split
    · rfl
    · rename_i hn
      rw [not_not.1 hn]
      simp only [he, List.map_nil]
  have hline : ∀ x y z, i.split ⟨s.cursor, false, s.graphemes, 0⟩ = some (x, y, z) → i.line u width s =
      some (⟨Style.new, [if i.prompt ≠ "" then ⟨i.promptStyle, i.prompt⟩ else ⟨Style.new, ""⟩, x, i.cursorSpan s y, z],
        i.alignment⟩, s) := by
    intro x y z hxyz
    obtain ⟨cu, sh, gs, off⟩ := s
    have ho : off = 0 := h.offset
    subst ho
    simp only at *
    unfold InputField.Widget.line
    rw [hbounds]
    simp only [Option.bind_eq_bind, Option.bind_some, skip, take]
    rw [if_neg (by omega)]
    simp only [Option.bind_some]
    rw [if_neg (by omega)]
    simp only [Option.bind_some, Int.toNat_zero, List.drop_zero, Int.sub_zero, Int.toNat_natCast, List.take_length]
    rw [hxyz]
    rfl
  have hcur : ∀ y : Span, (u.graphemes (i.cursorSpan s y).content).map (fun c => (c, (i.cursorSpan s y).style)) =
      if y.content = "" then (if s.showCursor then [(" ", y.style.patched i.cursorStyle)] else [])
      else (u.graphemes y.content).map fun c =>
        (c, if s.showCursor then y.style.patched i.cursorStyle else y.style) := by
    intro y
    unfold InputField.Widget.cursorSpan
    cases s.showCursor
    · simp only [Bool.false_eq_true, if_false]
      split
      · rename_i h0; rw [h0, he]; rfl
      · rfl
    · simp only [if_true]
      split
      · rw [hsp]; rfl
      · rfl
  by_cases hempty : s.graphemes = []
  · have hbe : e.before ++ e.after = [] := by
      apply List.length_eq_zero_iff.1
      rw [hlen, hempty]
      rfl
    have hsplit : i.split ⟨s.cursor, false, s.graphemes, 0⟩ = (match i.placeholder with
        | [] => some (Span.new "", Span.new "", Span.new "")
        | p :: rest =>
          some (Span.new "", ⟨i.placeholderStyle, p.symbol⟩, ⟨i.placeholderStyle, graphemesString rest⟩)) := by
      unfold InputField.Widget.split
      rw [hempty]
      rfl
    cases hp : i.placeholder with
    | nil =>
      rw [hp] at hsplit
      refine ⟨_, hline _ _ _ hsplit, rfl, rfl, ?_⟩
      simp only [Line.styledClusters, List.flatMap_cons, List.flatMap_nil, List.append_nil]
      rw [hpr _ rfl, hcur]
      unfold styledText
      simp only
      rw [if_pos hbe, hp]
      cases s.showCursor <;> simp [Span.new, he]
    | cons p rest =>
      rw [hp] at hsplit
      refine ⟨_, hline _ _ _ hsplit, rfl, rfl, ?_⟩
      simp only [Line.styledClusters, List.flatMap_cons, List.flatMap_nil, List.append_nil]
      have hSp := hpl p (by rw [hp]; simp)
      rw [hpr _ rfl, hcur, if_neg (hne _ hSp)]
      unfold styledText
      simp only
      rw [if_pos hbe, hp]
      simp only [Span.new, he, List.nil_append, hS.single _ hSp, List.map_cons, List.map_nil]
      rw [graphemes_symbols hS fun g hg' => hpl g (by rw [hp]; exact List.mem_cons_of_mem _ hg')]
      rfl
  · have hbe : e.before ++ e.after ≠ [] := by
      intro h0
      apply hempty
      apply List.length_eq_zero_iff.1
      rw [← hlen, h0]
      rfl
    obtain ⟨x, y, z, hsplit, hxyz⟩ := split_spec i ⟨s.cursor, false, s.graphemes, 0⟩ b a hg hc
    obtain ⟨rfl, rfl, rfl⟩ := hxyz hempty fun g hg' => hne _ (hsym g hg')
    refine ⟨_, hline _ _ _ hsplit, rfl, rfl, ?_⟩
    simp only [Line.styledClusters, List.flatMap_cons, List.flatMap_nil, List.append_nil]
    rw [hpr _ rfl, hcur]
    unfold styledText
    simp only
    rw [if_neg hbe]
    congr 1
    have hSb : ∀ g ∈ b, S g.symbol := fun g hg' => hsym g (by rw [hg]; exact List.mem_append_left _ hg')
    have hSa : ∀ g ∈ a, S g.symbol := fun g hg' => hsym g (by rw [hg]; exact List.mem_append_right _ hg')
    rw [graphemes_symbols hS hSb, hb]
    congr 1
    rw [← ha]
    cases a with
    | nil =>
      simp only [List.head?_nil, Option.map_none, Option.getD_none, List.tail_nil, List.map_nil, if_true]
      rw [graphemes_symbols hS (gs := []) (by simp)]
      cases s.showCursor <;> simp
    | cons g t =>
      have hSg := hSa g List.mem_cons_self
      simp only [List.head?_cons, Option.map_some, Option.getD_some, List.tail_cons, List.map_cons, hne _ hSg, if_false,
        hS.single _ hSg, List.map_nil]
      rw [graphemes_symbols hS fun x hx => hSa x (List.mem_cons_of_mem _ hx)]
      rfl

/-- Without their styles these are the symbols of the row. -/
theorem styledText_symbols (i : InputField.Widget) (sh : Bool) (e : Editor) :
    (styledText u i sh e).map Prod.fst = fieldText u i sh e := by
  have id' : ∀ (l : List String) (st : Style), List.map (Prod.fst ∘ fun c => (c, st)) l = l := by
    intro l st
    induction l with
    | nil => rfl
    | cons a l ih => rw [List.map_cons, ih]; rfl
  unfold styledText fieldText
  simp only [List.map_append, List.map_map, id']
  congr 1
  by_cases h1 : e.before ++ e.after = []
  · simp only [h1, if_true]
    cases hp : i.placeholder with
    | nil => cases sh <;> simp
    | cons p rest => simp [id', Function.comp_def]
  · simp only [h1, if_false]
    cases ha : e.after with
    | nil => cases sh <;> simp [id']
    | cons c rest => simp [id', Function.comp_def]

/-- What a field does to the cells of its content area before the text is put on them. -/
def ground (i : InputField.Widget) (c : Cell) : Cell :=
  (i.block.elim (c.setStyle i.style) fun k => (c.setStyle i.style).setStyle k.style)

/-- The cells that a tidy field draws. -/
theorem field_cells (ω : Nat → Nat) (fuel : Nat) (hu : u.Lawful) (hs : u.Suffix) (hS : Plainly u S)
    (hvis : ∀ s, S s → s.toList.any isControlRune = false) {i : InputField.Widget} (hpr : u.MadeOf S i.prompt)
    (hpl : ∀ g ∈ i.placeholder, S g.symbol) {area : Rect} (hp : Placed i area) {s : State} {e : Editor}
    (h : Tidy u S s e) (hroom : Room u i area e) (b : Buffer) (wf : b.WF) (hin : Inside b area) :
    Layout.splitWithSpacers ω fuel (lineLayout i.vertical) (content i area) = .running ∨
    ∃ b', i.render ω fuel u area b s = some (b', s) ∧ b'.WF ∧ b'.area = b.area ∧
      (∀ q, area.contains q = false → b'.cellAt q = b.cellAt q) ∧
      ∀ q, (content i area).contains q = true → b'.cellAt q = (b.cellAt q).map fun c =>
        if q.y = (content i area).y + rowOf i.vertical (content i area).height then
          match i.alignment.shown (content i area).width.toNat (styledText u i s.showCursor e)
            (q.x - (content i area).x).toNat with
          | some (symbol, style) => (ground i c).put symbol style
          | none => ground i c
        else ground i c := by
  have hh := hp.row
  have hx := hp.left
  unfold Room at hroom
  rcases C99_row ω fuel u i hp.vertical area (by omega) hp.top hp.row b s with hr | ⟨row, r1, r2, r3, r4, r5, hr⟩
  · exact .inl hr
  right
  obtain ⟨b1, e1, a1, wf1, c1⟩ := setStyle_cells wf area i.style
  have hin1 : Inside b1 area := by unfold Inside at *; rw [a1]; exact hin
  obtain ⟨b2, e2, a2, wf2, o2, s2, hsub⟩ : ∃ b2 : Buffer, (i.block.elim (some b1) fun k => k.render u area b1) = some b2 ∧
      b2.area = b.area ∧ b2.WF ∧ (∀ q, area.contains q = false → b2.cellAt q = b.cellAt q) ∧
      (∀ q, (content i area).contains q = true → b2.cellAt q = (b.cellAt q).map (ground i)) ∧
      (∀ q, (content i area).contains q = true → area.contains q = true) := by
    unfold ground
    cases hb : i.block with
    | none =>
      have hc : content i area = area := by unfold content; rw [hb]; rfl
      rw [hc]
      refine ⟨b1, rfl, a1, wf1, fun q hq => ?_, fun q hq => ?_, fun q h => h⟩
      · rw [c1, hq]; simp
      · rw [c1, hq]; rfl
    | some k =>
      have hc : content i area = k.inner area := by unfold content; rw [hb]; rfl
      rw [hc]
      obtain ⟨b2, e2, a2, wf2, o2, i2⟩ := C43_frame_only_partial u k area b1 wf1 hin1 hx
      have hsub : ∀ q, (k.inner area).contains q = true → area.contains q = true ∧ ¬ k.OnFrame area q :=
        fun q hq => C42_inner_inside k area hin.2.2.2.2.1 hin.2.2.2.2.2 (hp.padding k hb) q hq
      refine ⟨b2, e2, a2.trans a1, wf2, ?_, ?_, fun q hq => (hsub q hq).1⟩
      · intro q hq
        rw [o2 q hq, c1, hq]
        simp
      · intro q hq
        rw [i2 q (hsub q hq).1 (hsub q hq).2, c1, (hsub q hq).1]
        simp [Option.map_map, Function.comp_def]
  have hinc : Inside b2 (content i area) :=
    ListWidget.inside_of_sub (by unfold Inside at *; rw [a2]; exact hin) (by omega) (by omega) hsub
  have hro : 0 ≤ rowOf i.vertical (content i area).height := by
    unfold rowOf
    split <;> omega
  have hrow : b2.area.In row := by
    unfold Inside Rect.In at *
    omega
  obtain ⟨l, hl, hls, hla, hlc⟩ := line_styled hS hpl h (width := row.width) (by rw [r2]; exact hroom)
  have hln : l.NarrowText u := by
    intro sp hsp c hc
    refine field_narrow hS hvis hpr hpl h (sh := s.showCursor) (c := c) ?_
    rw [← styledText_symbols, ← hlc]
    unfold Line.styledClusters
    rw [List.map_flatMap, List.mem_flatMap]
    exact ⟨sp, hsp, by rw [List.map_map]; exact List.mem_map.2 ⟨c, hc, rfl⟩⟩
  obtain ⟨b', g1, g0, g3, g2⟩ := Repaints.line hu hs l hln hls b2.area row hrow b2 wf2 rfl
  have hrc : ∀ q, row.contains q = true ∧ q.y = row.y ↔ q.y = row.y ∧ row.x ≤ q.x ∧ q.x < row.x + row.width := by
    intro q
    rw [Rect.contains_iff]; unfold Rect.Mem; omega
  refine ⟨b', ?_, g0, g3.trans a2, ?_, ?_⟩
  · rw [hr, e1]
    simp only [Option.bind_eq_bind, Option.bind_some, e2]
    unfold InputField.Widget.renderRow
    rw [hl]
    simp only [Option.bind_eq_bind, Option.bind_some, g1]
  · intro q hq
    rw [g2 q, ← o2 q hq]
    have : ¬ (row.contains q = true ∧ q.y = row.y) := by
      rw [hrc]
      rintro ⟨t1, t2, t3⟩
      have := hsub q (by
        rw [Rect.contains_iff]
        unfold Rect.Mem
        omega)
      rw [this] at hq
      cases hq
    simp only [this, if_false]
    cases b2.cellAt q <;> rfl
  · intro q hq
    rw [g2 q, s2 q hq, Option.map_map]
    congr 1
    funext c
    rw [Rect.contains_iff] at hq
    unfold Rect.Mem at hq
    simp only [Function.comp_def, hrc]
    simp only [hlc, hla, r1, r2, r3]
    by_cases hy : q.y = (content i area).y + rowOf i.vertical (content i area).height
    · rw [if_pos ⟨hy, by omega, by omega⟩, if_pos hy]
      generalize i.alignment.shown _ _ _ = o
      cases o <;> rfl
    · rw [if_neg (fun h => hy h.1), if_neg hy]

end InputField

end Bento
