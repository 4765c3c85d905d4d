import Verif.Lemmas.Cells

/-!
# C122 — the cells of texts and lists, styles included
-/

namespace Bento

open ListWidget

/-- **C122 (texts).** Drawing a text of single-width symbols to an area inside the buffer does not panic, and every cell of
the buffer is then exactly what the text, the old cell, and the place say: the style of the text, under the style of the line
(on as many of the leftmost columns as the line is long, whatever its alignment), under the symbol and the style of its
span. -/
theorem C122_text {u : Uniseg} (hu : u.Lawful) (hs : u.Suffix) (t : Text) (ht : ∀ l ∈ t.lines, l.NarrowText u)
    (area : Rect) (b : Buffer) (wf : b.WF) (hin : Inside b area) :
    ∃ b', t.render u area b = some b' ∧ b'.WF ∧ b'.area = b.area ∧
      ∀ q, b'.cellAt q = (b.cellAt q).map (t.cellIn u area q) :=
  Repaints.styledText hu hs t ht b.area area hin b wf rfl

/-- **C122 (lists).** Drawing a list of such texts to an area inside the buffer: every cell of the rows of the item that has
index `f + k` is exactly `itemCell` of what style and block leave there, and every other cell of the content is what these
leave. Cells outside the area keep everything. -/
theorem C122_list {u : Uniseg} (hu : u.Lawful) (hs : u.Suffix) (hsp : Blanks u) (l : ListWidget)
    (hsym : ∀ c ∈ u.graphemes l.highlightSymbol, u.width c = 1) (hne : l.items ≠ [])
    (hn : ∀ t ∈ l.items, ∀ line ∈ t.lines, line.NarrowText u) (hp : 0 ≤ l.scrollPadding) (area : Rect)
    (hx : 0 ≤ area.x)
    (hpad : ∀ k ∈ l.block, 0 ≤ k.padding.left ∧ 0 ≤ k.padding.right ∧ 0 ≤ k.padding.top ∧ 0 ≤ k.padding.bottom)
    (hw : 0 < (content l area).width) (hh : 0 < (content l area).height)
    (b : Buffer) (wf : b.WF) (hin : Inside b area) (s : State) (hg : 0 ≤ s.offset ∧ ∀ i ∈ s.selected, 0 ≤ i) :
    ∃ (f n : Nat) (b' : Buffer) (sel : Option Int),
      sel = s.selected.map (fun i => min i ((l.items.length : Int) - 1)) ∧
      getItemsBounds (l.items.map fun t => t.lines.length) l.scrollPadding sel s.offset (content l area).height =
        some ((f : Int), ((f + n : Nat) : Int)) ∧
      render u l area b s = some (b', ⟨f, sel⟩) ∧ b'.area = b.area ∧ b'.WF ∧
      (∀ q, area.contains q = false → b'.cellAt q = b.cellAt q) ∧
      (∀ q, (content l area).contains q = true → (∀ (k : Nat) (t : Text), ((l.items.drop f).take n)[k]? = some t →
        (rowsOf l (content l area) ((l.items.drop f).take n) k t).contains q = false) →
          b'.cellAt q = (b.cellAt q).map fun c =>
            l.block.elim (c.setStyle l.style) fun k => (c.setStyle l.style).setStyle k.style) ∧
      (∀ (k : Nat) (t : Text), ((l.items.drop f).take n)[k]? = some t → ∀ q,
        (rowsOf l (content l area) ((l.items.drop f).take n) k t).contains q = true →
        (content l area).contains q = true ∧
        b'.cellAt q = (b.cellAt q).map fun c =>
          l.itemCell u (l.highlightSpacing.shouldAdd s.selected.isSome) (sel == some (f + k : Nat))
            (rowsOf l (content l area) ((l.items.drop f).take n) k t) t q
            (l.block.elim (c.setStyle l.style) fun k => (c.setStyle l.style).setStyle k.style)) := by
  obtain ⟨b1, e1, a1, wf1, c1⟩ := setStyle_cells wf area l.style
  have hin1 : Inside b1 area := by unfold Inside at *; rw [a1]; exact hin
  obtain ⟨b2, e2, a2, wf2, o2, s2, hsub⟩ : ∃ b2 : Buffer, render u l area b s = renderItems u l (content l area) b2 s ∧
      b2.area = b.area ∧ b2.WF ∧ (∀ q, area.contains q = false → b2.cellAt q = b.cellAt q) ∧
      (∀ q, (content l area).contains q = true → b2.cellAt q = (b.cellAt q).map (fun c =>
            l.block.elim (c.setStyle l.style) fun k => (c.setStyle l.style).setStyle k.style)) ∧
      (∀ q, (content l area).contains q = true → area.contains q = true) := by
    unfold render
    rw [e1]
    simp only [Option.bind_eq_bind, Option.bind_some]
    cases hb : l.block with
    | none =>
      have hc : content l area = area := by unfold content; rw [hb]; rfl
      rw [hc]
      exact ⟨b1, rfl, a1, wf1, fun q hq => by rw [c1, hq]; rfl, fun q h => by rw [c1, if_pos h]; rfl, fun q h => h⟩
    | some k =>
      have hc : content l area = k.inner area := by unfold content; rw [hb]; rfl
      rw [hc]
      obtain ⟨b2, e2, a2, wf2, o2, i2⟩ := C43_frame_only_partial u k area b1 wf1 hin1 hx
      have hsub : ∀ q, (k.inner area).contains q = true → area.contains q = true ∧ ¬ k.OnFrame area q :=
        fun q hq => C42_inner_inside k area hin.2.2.2.2.1 hin.2.2.2.2.2 (hpad k hb) q hq
      refine ⟨b2, by simp only [e2, Option.bind_some], a2.trans a1, wf2, ?_, ?_, fun q hq => (hsub q hq).1⟩
      · intro q hq
        rw [o2 q hq, c1, hq]
        rfl
      · intro q hq
        rw [i2 q (hsub q hq).1 (hsub q hq).2, c1, if_pos (hsub q hq).1]
        cases b.cellAt q <;> rfl
  have hinc : Inside b2 (content l area) :=
    inside_of_sub (by unfold Inside at *; rw [a2]; exact hin) hw hh hsub
  obtain ⟨f, n, g1, g2, g3⟩ := renderItems_cells hu hs hsp l hsym hne hn hp (content l area) hw hh s hg
  obtain ⟨b', h1, h2, h3, h4, h5⟩ := g3 b2 wf2 hinc
  refine ⟨f, n, b', drawnSelection l s, rfl, g1, by rw [e2, h1], h2.trans a2, h3, ?_, ?_, ?_⟩
  · intro q hq
    rw [h4 q, o2 q hq]
    intro k t ht
    by_contra h
    rw [hsub q (g2 k t ht q (by simpa using h))] at hq
    cases hq
  · intro q hq hrows
    rw [h4 q hrows]
    exact s2 q hq
  · intro k t ht q hq
    have hc := g2 k t ht q hq
    refine ⟨hc, ?_⟩
    rw [h5 k t ht q hq, s2 q hc, Option.map_map]
    rfl

/-! ### Examples -/

/-- A text of two lines: the first, in bold, has a green word; the text itself is underlined. -/
def cellsText : Text :=
  { style := Style.new.withModifier Modifier.underlined, alignment := .right
    lines := [⟨Style.new.withModifier Modifier.bold, [⟨Style.new, "ab"⟩, ⟨Style.new.withForeground (.ansi 2), "c"⟩], .none⟩,
      ⟨Style.new, [⟨Style.new, "d"⟩], .center⟩] }

/-- The hypotheses hold for it in the middle of a small buffer, and the styles differ from cell to cell: the bold of the first
line lies on the three leftmost cells, while the text is on the three rightmost, so that its last symbol is not bold. -/
example : (∀ l ∈ cellsText.lines, ∀ s ∈ l.spans, ∀ c ∈ Uniseg.simple.graphemes s.content, Uniseg.simple.width c = 1 ∧ c ≠ "") ∧
    ((cellsText.render Uniseg.simple ⟨0, 0, 4, 2⟩ ⟨⟨0, 0, 4, 2⟩, List.replicate 8 Cell.empty⟩).map fun b =>
      b.content.map fun c => (c.symbol, c.fg, c.modifier)) = some [
        (" ", .reset, Modifier.underlined ||| Modifier.bold), ("a", .reset, Modifier.underlined ||| Modifier.bold),
        ("b", .reset, Modifier.underlined ||| Modifier.bold), ("c", .ansi 2, Modifier.underlined),
        (" ", .reset, Modifier.underlined), ("d", .reset, Modifier.underlined), (" ", .reset, Modifier.underlined),
        (" ", .reset, Modifier.underlined)] := by
  decide +kernel

/-- The list of the example of C72 with a green highlight style and that text as its second item. -/
def cellsList : ListWidget :=
  { sampleList with
    items := [sampleItem .none ["ab"], cellsText], highlightStyle := Style.new.withForeground (.ansi 3) }

/-- It meets the hypotheses; of its four rows the second and third are those of the selected item, and the green of the word is
hidden by the highlight style. -/
example : (∀ c ∈ Uniseg.simple.graphemes cellsList.highlightSymbol, Uniseg.simple.width c = 1) ∧ cellsList.items ≠ [] ∧
    (∀ t ∈ cellsList.items, ∀ l ∈ t.lines, ∀ s ∈ l.spans, ∀ c ∈ Uniseg.simple.graphemes s.content,
      Uniseg.simple.width c = 1) ∧
    0 ≤ cellsList.scrollPadding ∧ content cellsList ⟨0, 0, 5, 4⟩ = ⟨0, 0, 5, 4⟩ ∧
    ((render Uniseg.simple cellsList ⟨0, 0, 5, 4⟩ ⟨⟨0, 0, 5, 4⟩, List.replicate 20 Cell.empty⟩ ⟨0, some 1⟩).map fun r =>
      (r.1.content.map fun c => (c.symbol, c.fg, c.modifier), r.2)) = some ([
        (" ", .reset, 0), ("a", .reset, 0), ("b", .reset, 0), (" ", .reset, 0), (" ", .reset, 0),
        (">", .ansi 3, Modifier.underlined), (" ", .ansi 3, Modifier.underlined ||| Modifier.bold),
        ("a", .ansi 3, Modifier.underlined ||| Modifier.bold), ("b", .ansi 3, Modifier.underlined ||| Modifier.bold),
        ("c", .ansi 3, Modifier.underlined),
        (" ", .ansi 3, Modifier.underlined), (" ", .ansi 3, Modifier.underlined), ("d", .ansi 3, Modifier.underlined),
        (" ", .ansi 3, Modifier.underlined), (" ", .ansi 3, Modifier.underlined),
        (" ", .reset, 0), (" ", .reset, 0), (" ", .reset, 0), (" ", .reset, 0), (" ", .reset, 0)], ⟨0, some 1⟩) := by
  decide +kernel

end Bento
