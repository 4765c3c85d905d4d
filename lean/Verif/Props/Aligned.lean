import Verif.Model.ListWidget
import Verif.Model.Paragraph
import Verif.Spec.Text

/-!
# C110: the alignment of a whole is that of its lines
-/

namespace Bento

/-- The line with an alignment, if it has none of its own. -/
def Line.alignedBy (a : Alignment) (l : Line) : Line :=
  match l.alignment with
  | .none => { l with alignment := a }
  | _ => l

/-- The text with an alignment given to each of its lines that has none, instead of to the text. -/
def Text.alignedLines (a : Alignment) (t : Text) : Text :=
  { t with alignment := .none, lines := t.lines.map (Line.alignedBy a) }

theorem Line.renderAligned_alignedBy (u : Uniseg) (a p : Alignment) (hp : p = .none ∨ a ≠ .none) (l : Line) (area : Rect)
    (b : Buffer) : (l.alignedBy a).renderAligned u area p b = l.renderAligned u area a b := by
  have h : (l.alignedBy a).alignmentIn p = l.alignmentIn a := by
    unfold Line.alignedBy Line.alignmentIn
    obtain ⟨st, spans, al⟩ := l
    cases al <;> simp
    rcases hp with rfl | h
    · cases a <;> simp
    · simp [h]
  have hw : (l.alignedBy a).width u = l.width u := by
    unfold Line.alignedBy Line.width
    obtain ⟨st, spans, al⟩ := l
    cases al <;> rfl
  have hs : (l.alignedBy a).style = l.style ∧ (l.alignedBy a).spans = l.spans := by
    unfold Line.alignedBy
    obtain ⟨st, spans, al⟩ := l
    cases al <;> exact ⟨rfl, rfl⟩
  unfold Line.renderAligned
  rw [h, hw, hs.1, hs.2]

theorem Text.renderLines_alignedBy (u : Uniseg) (a : Alignment) (ls : List Line) : ∀ (rs : List Rect) (b : Buffer),
    Text.renderLines u .none (ls.map (Line.alignedBy a)) rs b = Text.renderLines u a ls rs b := by
  induction ls with
  | nil => intro rs b; rfl
  | cons l ls ih =>
    intro rs b
    cases rs with
    | nil => rfl
    | cons r rs =>
      simp only [List.map_cons, Text.renderLines, Option.bind_eq_bind]
      rw [Line.renderAligned_alignedBy u a .none (.inl rfl)]
      cases l.renderAligned u r a b with
      | none => rfl
      | some b' => exact ih rs b'

/-- A text: to align it is to align each of its lines that is not aligned itself. -/
theorem C110_text (u : Uniseg) (t : Text) (a : Alignment) (area : Rect) (b : Buffer) :
    ({ t with alignment := a } : Text).render u area b = (t.alignedLines a).render u area b := by
  unfold Text.render Text.alignedLines
  simp only [Text.renderLines_alignedBy]

/-- Two lines, one of them aligned itself, in a text that is aligned to the right. -/
example : ∀ b ∈ Buffer.newEmpty ⟨0, 0, 3, 2⟩,
    ((⟨Style.new, [Line.new [Span.new "a"], ⟨Style.new, [Span.new "b"], .center⟩], .right⟩ : Text).render Uniseg.simple
      ⟨0, 0, 3, 2⟩ b).map (fun b => b.content.map Cell.symbol) = some [" ", " ", "a", " ", "b", " "] := by
  decide +kernel

theorem itemLoop_aligned (u : Uniseg) (l : ListWidget) (items : List Text) (spacing : Bool) (sel : Option Int) (area : Rect)
    (ts : List Text) : ∀ (i h : Int) (b : Buffer),
    ListWidget.itemLoop u { l with items := items } spacing sel area (ts.map fun t => t.alignedLines t.alignment) i h b =
      ListWidget.itemLoop u l spacing sel area ts i h b := by
  induction ts with
  | nil => intro i h b; rfl
  | cons t ts ih =>
    intro i h b
    have hsym : ∀ (s : Bool) (x y w : Int) (st : Style) (n j : Nat) (b : Buffer),
        ListWidget.symbolLoop u { l with items := items } s x y w st n j b =
          ListWidget.symbolLoop u l s x y w st n j b := by
      intro s x y w st n
      induction n with
      | zero => intro j b; rfl
      | succ n ihn =>
        intro j b
        simp only [ListWidget.symbolLoop, ihn]
    have hh : ListWidget.itemHeight (t.alignedLines t.alignment) = ListWidget.itemHeight t := by
      unfold ListWidget.itemHeight Text.alignedLines
      simp
    have hr : ∀ (s : Bool) (row : Rect) (b : Buffer),
        ListWidget.renderItem u { l with items := items } spacing s row (t.alignedLines t.alignment) b =
          ListWidget.renderItem u l spacing s row t b := by
      intro s row b
      unfold ListWidget.renderItem
      simp only [hsym, hh, ← C110_text]
      rfl
    simp only [List.map_cons, ListWidget.itemLoop, hh, hr, Option.bind_eq_bind]
    congr 1
    funext b'
    exact ih _ _ b'

/-- A list: to align an item is to align each of its lines that is not aligned itself. -/
theorem C110_list (u : Uniseg) (l : ListWidget) (area : Rect) (b : Buffer) (s : ListWidget.State) :
    ({ l with items := l.items.map fun t => t.alignedLines t.alignment } : ListWidget).render u area b s =
      l.render u area b s := by
  have hi : ∀ (area : Rect) (b : Buffer),
      ListWidget.renderItems u { l with items := l.items.map fun t => t.alignedLines t.alignment } area b s =
        ListWidget.renderItems u l area b s := by
    intro area b
    unfold ListWidget.renderItems
    have hlen : (l.items.map fun t => t.alignedLines t.alignment).length = l.items.length := by simp
    have hhs : (l.items.map fun t => t.alignedLines t.alignment).map ListWidget.itemHeight =
        l.items.map ListWidget.itemHeight := by
      rw [List.map_map]
      apply List.map_congr_left
      intro t _
      simp [ListWidget.itemHeight, Text.alignedLines]
    simp only [hlen, hhs, ← List.map_drop, ← List.map_take, itemLoop_aligned]
  unfold ListWidget.render
  simp only [hi]

/-- **C110 (partial).** A paragraph: to align it is to align each of its lines that is not aligned itself. Missing: the
alignment of its text, which is ignored (`C110_ignored_false`). -/
theorem C110_paragraph_partial (u : Uniseg) (p : Paragraph) (h : p.alignment ≠ .none) (a : Alignment) (area : Rect) (b : Buffer) :
    ({ p with alignment := a, text := { p.text with lines := p.text.lines.map (Line.alignedBy p.alignment) } } :
      Paragraph).render u area b = p.render u area b := by
  have hl : ∀ q : Paragraph, q.text = { p.text with lines := p.text.lines.map (Line.alignedBy p.alignment) } →
      q.inputLines u = p.inputLines u := by
    intro q hq
    unfold Paragraph.inputLines
    rw [hq]
    simp only [List.map_map]
    apply List.map_congr_left
    intro l _
    obtain ⟨st, spans, al⟩ := l
    cases al <;> simp [Line.alignedBy, h, Line.styledGraphemes]
  have hr : ∀ (area : Rect) (b : Buffer),
      ({ p with alignment := a, text := { p.text with lines := p.text.lines.map (Line.alignedBy p.alignment) } } :
        Paragraph).renderIn u area b = p.renderIn u area b := by
    intro area b
    unfold Paragraph.renderIn
    rw [hl _ rfl]
  unfold Paragraph.render
  simp only [hr]

/-- But the alignment of the text in a paragraph has no effect at all. -/
theorem C110_ignored_false (u : Uniseg) (p : Paragraph) (a : Alignment) (area : Rect) (b : Buffer) :
    ({ p with text := { p.text with alignment := a } } : Paragraph).render u area b = p.render u area b := by
  unfold Paragraph.render Paragraph.renderIn Paragraph.inputLines
  rfl

/-- A centred text "a" of three columns: alone it is in the middle, in a paragraph on the left. -/
theorem C110_centred_false :
    let t : Text := ⟨Style.new, [Line.new [Span.new "a"]], .center⟩
    let area : Rect := ⟨0, 0, 3, 1⟩
    (Buffer.newEmpty area).isSome = true ∧ ∀ b ∈ Buffer.newEmpty area,
      (t.render Uniseg.simple area b).map (fun b => b.content.map Cell.symbol) = some [" ", "a", " "] ∧
      ((Paragraph.new t).render Uniseg.simple area b).map (fun b => b.content.map Cell.symbol) = some ["a", " ", " "] := by
  decide +kernel

end Bento
