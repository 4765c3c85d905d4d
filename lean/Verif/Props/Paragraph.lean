import Verif.Lemmas.Paragraph
import Verif.Props.Reflow
import Verif.Props.Block

/-!
# C34, C36, C70 — paragraphs
-/

namespace Bento

/-- The rows of the paragraph's text for an area of the given width. -/
def Paragraph.Rows (u : Uniseg) (p : Paragraph) (width : Int) (ls : List WrappedLine) : Prop :=
  match p.wrap with
  | some trim => Yields WordWrapper.nextLine (WordWrapper.new (p.inputLines u) width trim) ls
  | none => Yields (LineTruncator.nextLine u) (LineTruncator.new (p.inputLines u) width p.scroll.x) ls

theorem renderIn_cells {u : Uniseg} (p : Paragraph) {area : Rect} {b : Buffer} (wf : b.WF)
    (hin : Inside b area) (hne : area.isEmpty = false) {ls : List WrappedLine}
    (hr : p.Rows u area.width ls) (hp : ∀ l ∈ ls, Paintable area.width l)
    (hy : 0 < area.height + p.scroll.y) :
    ∃ b', p.renderIn u area b = some b' ∧ b'.area = b.area ∧ b'.WF ∧
      ∀ q, b'.cellAt q = if area.contains q = true then
        (b.cellAt q).map (fun c => (c.setStyle p.style).showing (rowsShown ls p.scroll.y area q))
        else b.cellAt q := by
  unfold Paragraph.renderIn
  rw [if_neg (by simp [hne])]
  obtain ⟨b1, e1, a1, w1, c1⟩ := setStyle_cells wf area p.style
  have hin1 : Inside b1 area := by unfold Inside at *; rw [a1]; exact hin
  have hfin : ∀ b' : Buffer, (∀ q, b'.cellAt q = if area.contains q = true then
        (b1.cellAt q).map (Cell.showing (rowsShown ls p.scroll.y area q)) else b1.cellAt q) →
      ∀ q, b'.cellAt q = if area.contains q = true then
        (b.cellAt q).map (fun c => (c.setStyle p.style).showing (rowsShown ls p.scroll.y area q))
        else b.cellAt q := by
    intro b' h q
    rw [h q, c1 q]
    by_cases hc : area.contains q = true
    · simp only [hc, if_true, Option.map_map]; rfl
    · simp only [hc]; rfl
  rw [e1]
  simp only [Option.bind_eq_bind, Option.bind_some]
  unfold Paragraph.Rows at hr
  cases hw : p.wrap with
  | some trim =>
    rw [hw] at hr
    obtain ⟨b2, e2, a2, w2, c2⟩ := renderText_cells w1 hin1 hr hp hy
    exact ⟨b2, e2, a2.trans a1, w2, hfin b2 c2⟩
  | none =>
    rw [hw] at hr
    obtain ⟨b2, e2, a2, w2, c2⟩ := renderText_cells w1 hin1 hr hp hy
    exact ⟨b2, e2, a2.trans a1, w2, hfin b2 c2⟩

/-- The text can be laid out in rows of the given width: without wrapping always; with wrapping if no
grapheme takes more than one column and no word is wider than a row. -/
def Paragraph.TextFits (u : Uniseg) (p : Paragraph) (width : Int) : Prop :=
  p.wrap ≠ none → ∀ l ∈ p.text.lines, AtMostSingle (l.styledGraphemes u p.text.style) ∧
    WordsFit width (l.styledGraphemes u p.text.style)

theorem inputLines_aligned {u : Uniseg} {p : Paragraph} (ha : p.alignment ≠ .none) :
    ∀ l ∈ p.inputLines u, l.alignment ≠ .none := by
  intro l hl
  unfold Paragraph.inputLines at hl
  rw [List.mem_map] at hl
  obtain ⟨x, _, rfl⟩ := hl
  simp only
  split
  · exact ha
  · assumption

theorem rows_exist {u : Uniseg} (hu : u.Lawful) (p : Paragraph) (ha : p.alignment ≠ .none) {width : Int}
    (hw : 0 < width) (hf : p.TextFits u width) :
    ∃ ls, p.Rows u width ls ∧ ∀ l ∈ ls, Paintable width l := by
  have hal := inputLines_aligned (u := u) ha
  unfold Paragraph.Rows Paragraph.TextFits at *
  cases hwr : p.wrap with
  | none =>
    simp only
    refine truncator_yields hu _ hw _ ?_ hal
    intro l hl
    unfold Paragraph.inputLines at hl
    rw [List.mem_map] at hl
    obtain ⟨x, _, rfl⟩ := hl
    exact styledGraphemes_cluster hu x p.text.style
  | some trim =>
    simp only
    have hfit : ∀ l ∈ p.inputLines u, AtMostSingle l.graphemes ∧ WordsFit width l.graphemes := by
      intro l hl
      unfold Paragraph.inputLines at hl
      rw [List.mem_map] at hl
      obtain ⟨x, hx, rfl⟩ := hl
      exact hf (by rw [hwr]; simp) x hx
    obtain ⟨groups, hy, hg⟩ := C35_text_preserved (p.inputLines u) width trim (by omega)
    refine ⟨_, hy, fun l hl => ?_⟩
    obtain ⟨h1, h2⟩ := C35_rows_fit_partial _ width trim hw hfit _ hy l hl
    refine ⟨?_, h1, h2⟩
    have hall : ∀ (lines : List InputLine) (gs : List (List WrappedLine)),
        List.Forall₂ (fun l rows => rows ≠ [] ∧ (∀ r ∈ rows, r.alignment = l.alignment) ∧
          (∀ r ∈ rows, ∀ g ∈ r.line, g = StyledGrapheme.zero ∨ g ∈ l.graphemes) ∧
          visible (rows.flatMap WrappedLine.line) =
            visible (l.graphemes.filter fun g => (g.g.width : Int) ≤ width)) lines gs →
        (∀ l ∈ lines, l.alignment ≠ .none) → ∀ r ∈ gs.flatten, r.alignment ≠ .none := by
      intro lines gs h
      induction h with
      | nil => simp
      | cons hr _ ih =>
        intro hl r hmem
        rw [List.flatten_cons, List.mem_append] at hmem
        rcases hmem with hmem | hmem
        · rw [hr.2.1 r hmem]
          exact hl _ (List.mem_cons_self ..)
        · exact ih (fun l hl' => hl l (by simp [hl'])) r hmem
    exact hall _ _ hg hal l hl

/-! ### C70 -/

/-- The area in which the text of a paragraph is shown. -/
def Paragraph.content (p : Paragraph) (area : Rect) : Rect := (p.block.map fun k => k.inner area).getD area

/-- **C70.** A paragraph shows the rows of its text one below the other inside of its block, from the one the scroll
offset asks for, each at its alignment, in the style of the text over the paragraph's. The other cells inside of the
block keep their symbols, the cells of the frame are as the block alone leaves them, and nothing changes outside of the
area. -/
theorem C70_rows_shown {u : Uniseg} (p : Paragraph) (area : Rect) (b : Buffer) (wf : b.WF) (hin : Inside b area)
    (hblock : ∀ k ∈ p.block, 0 ≤ area.x ∧
      0 ≤ k.padding.left ∧ 0 ≤ k.padding.right ∧ 0 ≤ k.padding.top ∧ 0 ≤ k.padding.bottom)
    (hw : 0 < (p.content area).width) (hh : 0 < (p.content area).height)
    (hs : 0 < (p.content area).height + p.scroll.y)
    (ls : List WrappedLine) (hr : p.Rows u (p.content area).width ls)
    (hp : ∀ l ∈ ls, Paintable (p.content area).width l) :
    ∃ b0 b', (b.setStyle area p.style).bind (fun b => p.block.elim (some b) fun k => k.render u area b) = some b0 ∧
      p.render u area b = some b' ∧ b'.area = b.area ∧ b'.WF ∧
      (∀ q, (p.content area).contains q = true → area.contains q = true ∧
        b'.cellAt q = (b.cellAt q).map fun c =>
          let c := match p.block with
            | some k => ((c.setStyle p.style).setStyle k.style).setStyle p.style
            | none => c.setStyle p.style
          match rowsShown ls p.scroll.y (p.content area) q with
          | some g => (c.setSymbol (if g.g.symbol = "" then " " else g.g.symbol)).setStyle g.style
          | none => c) ∧
      (∀ q, (p.content area).contains q = false → b'.cellAt q = b0.cellAt q) ∧
      (∀ q, area.contains q = false → b'.cellAt q = b.cellAt q) := by
  obtain ⟨b1, e1, a1, w1, c1⟩ := setStyle_cells wf area p.style
  have hin1 : Inside b1 area := by unfold Inside at *; rw [a1]; exact hin
  unfold Paragraph.render
  rw [e1]
  simp only [Option.bind_eq_bind, Option.bind_some]
  cases hb : p.block with
  | none =>
    have hc : p.content area = area := by unfold Paragraph.content; rw [hb]; rfl
    rw [hc] at hw hh hs hr hp ⊢
    obtain ⟨b2, e2, a2, w2, c2⟩ := renderIn_cells p w1 hin1 (by simp [Rect.isEmpty]; omega) hr hp hs
    refine ⟨b1, b2, rfl, e2, a2.trans a1, w2, ?_, ?_, ?_⟩
    · intro q hq
      refine ⟨hq, ?_⟩
      rw [c2 q, if_pos hq, c1 q, if_pos hq, Option.map_map]
      congr 1
      funext c
      simp only [Function.comp, Cell.setStyle_setStyle]
      cases rowsShown ls p.scroll.y area q with
      | none => rfl
      | some g => rfl
    · intro q hq
      rw [c2 q, if_neg (by simp [hq])]
    · intro q hq
      rw [c2 q, if_neg (by simp [hq]), c1 q, if_neg (by simp [hq])]
  | some k =>
    have hc : p.content area = k.inner area := by unfold Paragraph.content; rw [hb]; rfl
    rw [hc] at hw hh hs hr hp ⊢
    obtain ⟨hx, hpad⟩ := hblock k hb
    obtain ⟨b0, e0, a0, w0, o0, i0⟩ := C43_frame_only_partial u k area b1 w1 hin1 hx
    have hsub : ∀ q, (k.inner area).contains q = true → area.contains q = true ∧ ¬ k.OnFrame area q :=
      fun q hq => C42_inner_inside k area hin.2.2.2.2.1 hin.2.2.2.2.2 hpad q hq
    have hin0 : Inside b0 (k.inner area) := by
      have t1 := (hsub ⟨(k.inner area).x, (k.inner area).y⟩ (by
        rw [Rect.contains_iff]; unfold Rect.Mem; simp only; omega)).1
      have t2 := (hsub ⟨(k.inner area).x + (k.inner area).width - 1, (k.inner area).y + (k.inner area).height - 1⟩ (by
        rw [Rect.contains_iff]; unfold Rect.Mem; simp only; omega)).1
      rw [Rect.contains_iff] at t1 t2
      unfold Rect.Mem Inside at *
      rw [a0]
      simp only at t1 t2
      omega
    obtain ⟨b2, e2, a2, w2, c2⟩ := renderIn_cells p w0 hin0 (by simp [Rect.isEmpty]; omega) hr hp hs
    refine ⟨b0, b2, e0, ?_, (a2.trans a0).trans a1, w2, ?_, ?_, ?_⟩
    · simp only [e0, Option.bind_some]
      exact e2
    · intro q hq
      obtain ⟨g1, g2⟩ := hsub q hq
      refine ⟨g1, ?_⟩
      rw [c2 q, if_pos hq, i0 q g1 g2, c1 q, if_pos g1, Option.map_map, Option.map_map]
      congr 1
    · intro q hq
      rw [c2 q, if_neg (by simp [hq])]
    · intro q hq
      rw [c2 q, if_neg (fun h => by rw [(hsub q h).1] at hq; cases hq), o0 q hq, c1 q, if_neg (by simp [hq])]

/-- **C70**, what can be laid out: the composed text of every paragraph has rows, and they fit without wrapping, or
if no grapheme takes more than one column and no word is wider than a row. -/
theorem C70_laid_out {u : Uniseg} (hu : u.Lawful) (p : Paragraph) (ha : p.alignment ≠ .none) (width : Int)
    (hw : 0 < width) (hf : p.TextFits u width) : ∃ ls, p.Rows u width ls ∧ ∀ l ∈ ls, Paintable width l :=
  rows_exist hu p ha hw hf

/-! ### C36 -/

/-- A paragraph whose area is in the buffer is drawn without panic and changes only cells of its area,
with or without a block, provided the text can be wrapped and the scroll offset is not negative. -/
theorem C36_confined_partial {u : Uniseg} (hu : u.Lawful) (p : Paragraph)
    (ha : p.alignment ≠ .none) (area : Rect) (b : Buffer) (wf : b.WF) (hin : Inside b area)
    (hs : 0 ≤ p.scroll.y)
    (hblock : ∀ k, p.block = some k → 0 ≤ area.x ∧
      0 ≤ k.padding.left ∧ 0 ≤ k.padding.right ∧ 0 ≤ k.padding.top ∧ 0 ≤ k.padding.bottom)
    (hf : p.TextFits u ((p.block.map fun k => k.inner area).getD area).width) :
    Confined b (p.render u area b) (fun q => area.contains q = true) := by
  have hinner : ∀ (area' : Rect) (b1 : Buffer), b1.WF → Inside b1 area →
      0 ≤ area'.width → 0 ≤ area'.height → (∀ q, area'.contains q = true → area.contains q = true) → p.TextFits u area'.width →
      Confined b1 (p.renderIn u area' b1) (fun q => area.contains q = true) := by
    intro area' b1 w1 hin1 n1 n2 hsub hf
    by_cases he : area'.isEmpty = true
    · unfold Paragraph.renderIn
      rw [if_pos he]
      exact Confined.pure w1 _
    · have he' : 0 < area'.width ∧ 0 < area'.height := by
        simp [Rect.isEmpty] at he; omega
      have hin2 : Inside b1 area' := by
        have c1 := hsub ⟨area'.x, area'.y⟩ (by rw [Rect.contains_iff]; unfold Rect.Mem; simp only; omega)
        have c2 := hsub ⟨area'.x + area'.width - 1, area'.y + area'.height - 1⟩ (by
          rw [Rect.contains_iff]; unfold Rect.Mem; simp only; omega)
        rw [Rect.contains_iff] at c1 c2
        unfold Rect.Mem Inside at *
        simp only at c1 c2
        omega
      obtain ⟨ls, hr, hp⟩ := rows_exist hu p ha he'.1 hf
      obtain ⟨b2, e2, a2, w2, c2⟩ := renderIn_cells p w1 hin2 (by simpa using he) hr hp (by omega)
      refine ⟨b2, e2, a2, w2, fun q hq => ?_⟩
      rw [c2 q, if_neg fun hc => hq (hsub q hc)]
  unfold Paragraph.render
  refine Confined.bind ((Confined.setStyle wf area p.style).mono fun q hq => hq.1) fun b1 a1 w1 => ?_
  have hin1 : Inside b1 area := by unfold Inside at *; rw [a1]; exact hin
  cases hb : p.block with
  | none =>
    rw [hb] at hf
    exact hinner area b1 w1 hin1 hin.2.2.2.2.1 hin.2.2.2.2.2 (fun _ h => h) hf
  | some k =>
    rw [hb] at hf
    obtain ⟨hx, hpad⟩ := hblock k hb
    obtain ⟨b2, e2, a2, w2, c2, _⟩ := C43_frame_only_partial u k area b1 w1 hin1 hx
    refine Confined.bind ⟨b2, e2, a2, w2, fun q hq => c2 q (by simpa using hq)⟩ fun b3 a3 w3 => ?_
    have hnn : 0 ≤ (k.inner area).width ∧ 0 ≤ (k.inner area).height := by
      rw [k.inner_eq area hin.2.2.2.2.1 hin.2.2.2.2.2]
      simp only
      omega
    refine hinner (k.inner area) b3 w3 (by unfold Inside at *; rw [a3]; exact hin1) hnn.1 hnn.2 ?_ hf
    intro q hq
    exact (C42_inner_inside k area hin.2.2.2.2.1 hin.2.2.2.2.2 hpad q hq).1

/-- An empty buffer for examples. -/
def blank (w h : Nat) : Buffer := ⟨⟨0, 0, w, h⟩, List.replicate (w * h) Cell.empty⟩

/-- A paragraph of one-span lines for examples. -/
def samplePara (lines : List String) : Paragraph :=
  Paragraph.new ⟨Style.new, lines.map fun s => Line.new [Span.new s], .none⟩

/-- A paragraph with a block in a buffer of its size. -/
example : ∃ (p : Paragraph) (area : Rect) (b : Buffer), b.WF ∧ Inside b area ∧ p.alignment ≠ .none ∧
    0 ≤ p.scroll.y ∧ p.wrap = none ∧ p.block = some Block.new.bordered ∧ p.text.lines.length = 2 ∧
    p.TextFits Uniseg.simple 3 :=
  ⟨{ samplePara ["ab cd", "e"] with block := some Block.new.bordered }, ⟨0, 0, 5, 4⟩, blank 5 4,
    ⟨by decide, by decide, by decide⟩, by unfold Inside; decide, by decide, by decide, rfl, rfl, rfl,
    fun h => absurd rfl h⟩

/-- A bordered paragraph of one line in a box of five columns and three rows, scrolled by two columns. -/
example :
    let p := { samplePara ["abcdef"] with block := some Block.new.bordered, scroll := ⟨2, 0⟩ }
    p.content ⟨0, 0, 5, 3⟩ = ⟨1, 1, 3, 1⟩ ∧
    (p.render Uniseg.simple ⟨0, 0, 5, 3⟩ (blank 5 3)).map (fun b => (b.content.map Cell.symbol).drop 5 |>.take 5) =
      some ["│", "c", "d", "e", "│"] := by
  decide +kernel

/-- An area that reaches outside the buffer makes the paragraph panic. -/
theorem C36_outside_false :
    ∃ (p : Paragraph) (area : Rect) (b : Buffer), b.WF ∧ p = samplePara ["abcde"] ∧ area = ⟨0, 0, 5, 1⟩ ∧
      b.area = ⟨0, 0, 3, 1⟩ ∧ p.render Uniseg.simple area b = none :=
  ⟨_, _, blank 3 1, ⟨by decide, by decide, by decide⟩, rfl, rfl, rfl, by decide +kernel⟩

/-- A long word after the first wrap makes a wrapped paragraph panic although its area is the whole
buffer. -/
theorem C36_long_word_false :
    ∃ (p : Paragraph) (b : Buffer), b.WF ∧ p = { samplePara ["aa bbbbbbb"] with wrap := some false } ∧
      b = blank 3 9 ∧ p.render Uniseg.simple b.area b = none :=
  ⟨_, _, ⟨by decide, by decide, by decide⟩, rfl, rfl, by decide +kernel⟩

/-- A negative scroll offset makes the paragraph draw below its area. -/
theorem C36_negative_scroll_false :
    ∃ (p : Paragraph) (area : Rect) (b b' : Buffer), b.WF ∧
      p = { samplePara ["a"] with scroll := ⟨0, -1⟩ } ∧ area = ⟨0, 0, 3, 1⟩ ∧ b = blank 3 2 ∧
      p.render Uniseg.simple area b = some b' ∧ area.contains ⟨0, 1⟩ = false ∧
      b'.symbolAt ⟨0, 1⟩ = some "a" ∧ b.symbolAt ⟨0, 1⟩ = some " " :=
  ⟨_, _, _, ((({ samplePara ["a"] with scroll := ⟨0, -1⟩ } : Paragraph).render Uniseg.simple ⟨0, 0, 3, 1⟩
      (blank 3 2)).getD (blank 3 2)), ⟨by decide, by decide, by decide⟩, rfl, rfl, rfl, by decide +kernel, by decide,
    by decide +kernel, by decide +kernel⟩

/-! ### C34 -/

/-- A single line of single-width text without wrapping: its row shows the part of the text that starts at
the horizontal scroll offset (when it is left-aligned) and fits the area, at the line's alignment; every
other row shows what was there. -/
theorem C34_single_line_partial {u : Uniseg} (hu : u.Lawful) (p : Paragraph) (hb : p.block = none)
    (hwr : p.wrap = none) (l : Line) (hl : p.text.lines = [l]) (hn : l.NarrowText u) (a : Alignment)
    (ha : a = if l.alignment = .none then p.alignment else l.alignment) (hne : p.alignment ≠ .none)
    (area : Rect) (b : Buffer) (wf : b.WF) (hin : Inside b area)
    (hw : 0 < area.width) (hh : 0 < area.height) (hs : 0 < area.height + p.scroll.y)
    (cs : List String)
    (hcs : cs = ((l.clusters u).drop (if a = .left then p.scroll.x.toNat else 0)).take area.width.toNat) :
    ∃ b', p.render u area b = some b' ∧ ∀ q, area.contains q = true → b'.symbolAt q =
      if q.y - area.y + p.scroll.y = 0 ∧ a.lead area.width.toNat cs.length ≤ (q.x - area.x).toNat then
        (cs[(q.x - area.x).toNat - a.lead area.width.toNat cs.length]?).or (b.symbolAt q)
      else b.symbolAt q := by
  have hc : p.content area = area := by unfold Paragraph.content; rw [hb]; rfl
  obtain ⟨ls, hr, hpt⟩ := C70_laid_out hu p hne area.width hw (fun h => absurd hwr h)
  obtain ⟨-, b', -, e, -, -, hcells, -, -⟩ := C70_rows_shown (u := u) p area b wf hin (by simp [hb])
    (by rw [hc]; exact hw) (by rw [hc]; exact hh) (by rw [hc]; exact hs) ls (by rw [hc]; exact hr)
    (by rw [hc]; exact hpt)
  rw [hc, hb] at hcells
  refine ⟨b', e, fun q hq => ?_⟩
  have hsym : ∀ q, area.contains q = true → b'.symbolAt q =
      match rowsShown ls p.scroll.y area q with
      | some g => some (if g.g.symbol = "" then " " else g.g.symbol)
      | none => b.symbolAt q := by
    intro q hq
    have hbuf : b.area.contains q = true := by
      rw [Rect.contains_iff] at *
      unfold Rect.Mem Inside at *
      omega
    obtain ⟨c, hc⟩ := wf.cellAt_isSome hbuf
    unfold Buffer.symbolAt
    rw [(hcells q hq).2, hc]
    simp only [Option.map_some]
    cases rowsShown ls p.scroll.y area q with
    | none => rfl
    | some g => rfl
  rw [hsym q hq]
  -- the graphemes of the line
  have hgs : l.styledGraphemes u p.text.style =
      l.spans.flatMap fun s => (u.graphemes s.content).map fun c =>
        (⟨⟨c, 1⟩, (p.text.style.patched l.style).patched s.style⟩ : StyledGrapheme) := by
    unfold Line.styledGraphemes
    rw [List.flatMap_def, List.flatMap_def]
    congr 1
    apply List.map_congr_left
    intro s hs
    exact styledGraphemes_narrow hu s _ (hn s hs)
  have hsyms : (l.styledGraphemes u p.text.style).map (fun g => g.g.symbol) = l.clusters u := by
    rw [hgs, List.map_flatMap]
    unfold Line.clusters
    simp only [List.map_map]
    congr 1
    funext s
    exact List.map_id _
  have hone : ∀ g ∈ l.styledGraphemes u p.text.style, u.IsCluster g ∧ g.g.width = 1 ∧ g.g.symbol ≠ "" := by
    intro g hg
    refine ⟨styledGraphemes_cluster hu l p.text.style g hg, ?_⟩
    rw [hgs] at hg
    simp only [List.mem_flatMap, List.mem_map] at hg
    obtain ⟨s, _, c, hc, rfl⟩ := hg
    exact ⟨rfl, hu.nonempty _ c hc⟩
  generalize hG : l.styledGraphemes u p.text.style = G at *
  -- the row
  have hin1 : p.inputLines u = [⟨G, a⟩] := by
    unfold Paragraph.inputLines
    rw [hl, ha]
    simp only [List.map_cons, List.map_nil, hG]
  unfold Paragraph.Rows at hr
  rw [hwr, hin1] at hr
  have hrow := truncator_some u (lines := [⟨G, a⟩]) (last := ⟨G, a⟩) rfl (max := area.width) (by omega)
    p.scroll.x
  have hls := hr.unique hrow
  subst hls
  obtain ⟨n1, n2⟩ := lineLoop_narrow hu hw a G ⟨StyledGrapheme.cleared [], 0, p.scroll.x⟩
    (fun g hg => ⟨(hone g hg).1, (hone g hg).2.1⟩) (by simp [StyledGrapheme.cleared])
  have hline : (truncatorRow u [⟨G, a⟩] area.width p.scroll.x a).line =
    (LineTruncator.lineLoop u area.width a G ⟨StyledGrapheme.cleared [], 0, p.scroll.x⟩).line := rfl
  rw [← hline] at n1 n2
  have hsolid : solid (truncatorRow u [⟨G, a⟩] area.width p.scroll.x a).line =
      (G.drop (if a = .left then p.scroll.x.toNat else 0)).take area.width.toNat := by
    rw [n1]
    simp [StyledGrapheme.cleared, solid]
  have hcs2 : cs = (solid (truncatorRow u [⟨G, a⟩] area.width p.scroll.x a).line).map
      fun g => g.g.symbol := by
    rw [hsolid, List.map_take, List.map_drop, hsyms, hcs]
  have hcol : (columns (truncatorRow u [⟨G, a⟩] area.width p.scroll.x a).line).toNat = cs.length := by
    rw [columns_solid _ n2, hcs2]
    simp
  have hmem : ∀ g ∈ solid (truncatorRow u [⟨G, a⟩] area.width p.scroll.x a).line, g.g.symbol ≠ "" := by
    intro g hg
    rw [hsolid] at hg
    exact (hone g (List.mem_of_mem_drop (List.mem_of_mem_take hg))).2.2
  generalize truncatorRow u [⟨G, a⟩] area.width p.scroll.x a = R at *
  have hRa : R.alignment = a := by
    have := hrow.unique hr
    have h2 : [R] = [truncatorRow u [⟨G, a⟩] area.width p.scroll.x a] :=
      hrow.unique (truncator_some u (lines := [⟨G, a⟩]) (last := ⟨G, a⟩) rfl (by omega) p.scroll.x)
    simp only [List.cons.injEq, and_true] at h2
    rw [h2]; rfl
  unfold rowsShown rowAt
  have hqin := hq
  rw [Rect.contains_iff] at hqin
  unfold Rect.Mem at hqin
  by_cases hz : q.y - area.y + p.scroll.y = 0
  · rw [if_pos (by omega), hz]
    simp only [Int.toNat_zero, List.getElem?_cons_zero, Option.bind_some]
    unfold WrappedLine.shownAt
    rw [hRa, hcol]
    by_cases hlead : a.lead area.width.toNat cs.length ≤ (q.x - area.x).toNat
    · rw [if_pos hlead, if_pos ⟨trivial, hlead⟩, atColumn_solid _ _ n2]
      rw [hcs2, List.length_map, List.getElem?_map]
      rw [hcs2, List.length_map] at hlead
      cases hk : (solid R.line)[(q.x - area.x).toNat - a.lead area.width.toNat (solid R.line).length]? with
      | none => rfl
      | some g =>
        simp only [Option.map_some, Option.some_or]
        rw [if_neg (hmem g (List.mem_of_getElem? hk))]
    · rw [if_neg hlead, if_neg (by intro h; exact hlead h.2)]
  · rw [if_neg (show ¬ (q.y - area.y + p.scroll.y = 0 ∧
      a.lead area.width.toNat cs.length ≤ (q.x - area.x).toNat) from fun h => hz h.1)]
    by_cases h0 : 0 ≤ q.y - area.y + p.scroll.y
    · rw [if_pos h0]
      have : [R][(q.y - area.y + p.scroll.y).toNat]? = none := by
        rw [List.getElem?_eq_none]
        simp only [List.length_cons, List.length_nil]
        omega
      rw [this]
      rfl
    · rw [if_neg h0]
      rfl

/-- A scrolled line. -/
example : (((samplePara ["abcdef"]).text.lines.map (Line.clusters Uniseg.simple)).flatten.drop 2).take 3 =
    ["c", "d", "e"] := by decide +kernel

/-- Two lines are shown on one row. -/
theorem C34_two_lines_false :
    ∃ (p : Paragraph) (b b' : Buffer), b.WF ∧ p = samplePara ["ab", "c"] ∧ b = blank 4 2 ∧
      p.render Uniseg.simple b.area b = some b' ∧ b'.symbolAt ⟨2, 0⟩ = some "c" ∧
      b'.symbolAt ⟨0, 1⟩ = some " " :=
  ⟨_, _, ((samplePara ["ab", "c"]).render Uniseg.simple (blank 4 2).area (blank 4 2)).getD (blank 4 2),
    ⟨by decide, by decide, by decide⟩, rfl, rfl, by decide +kernel, by decide +kernel, by decide +kernel⟩

end Bento
