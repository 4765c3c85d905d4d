import Verif.Spec.Unwrapped
import Verif.Props.Paragraph

/-!
# C34 — the row of a paragraph that is not wrapped, whatever the number of its lines
-/

namespace Bento

theorem runTogether_map {α β : Type} (f : α → β) (ls : List (Bool × List α)) :
    ∀ k, (runTogether ls k).map f = runTogether (ls.map fun l => (l.1, l.2.map f)) k := by
  induction ls with
  | nil => intro k; rfl
  | cons l t ih =>
    intro k
    obtain ⟨b, items⟩ := l
    cases b <;> simp [runTogether, ih]

theorem runTogether_mem {α : Type} (ls : List (Bool × List α)) :
    ∀ k x, x ∈ runTogether ls k → ∃ l ∈ ls, x ∈ l.2 := by
  induction ls with
  | nil => intro k x h; cases h
  | cons l t ih =>
    intro k x h
    obtain ⟨b, items⟩ := l
    cases b
    · simp only [runTogether, List.mem_append] at h
      rcases h with h | h
      · exact ⟨(false, items), by simp, h⟩
      · obtain ⟨l, hl, hx⟩ := ih _ _ h
        exact ⟨l, by simp [hl], hx⟩
    · simp only [runTogether, List.mem_append] at h
      rcases h with h | h
      · exact ⟨(true, items), by simp, List.mem_of_mem_drop h⟩
      · obtain ⟨l, hl, hx⟩ := ih _ _ h
        exact ⟨l, by simp [hl], hx⟩

/-- The scroll offset left after a line of single-width graphemes, unless the row is full. -/
theorem lineLoop_offset {u : Uniseg} (hu : u.Lawful) {max : Int} (hmax : 0 < max) (a : Alignment)
    (gs : List StyledGrapheme) :
    ∀ s : LineTruncator.State, (∀ g ∈ gs, u.IsCluster g ∧ g.g.width = 1) → s.width ≤ max →
      (LineTruncator.lineLoop u max a gs s).width = max ∨
      (LineTruncator.lineLoop u max a gs s).offset.toNat =
        if a = .left then s.offset.toNat - gs.length else s.offset.toNat := by
  induction gs with
  | nil => intro s _ _; right; simp [LineTruncator.lineLoop]
  | cons g t ih =>
    intro s hg h
    have ht := fun x (hx : x ∈ t) => hg x (by simp [hx])
    obtain ⟨hc, h1⟩ := hg g (by simp)
    unfold LineTruncator.lineLoop
    rw [if_neg (by omega)]
    by_cases hover : s.width + (g.g.width : Int) > max
    · rw [if_pos hover]
      left; omega
    · rw [if_neg hover]
      simp only
      have hsw : u.stringWidth g.g.symbol = 1 := by rw [← hc.2]; exact h1
      have hse := stringWidth_empty hu
      rw [cut_cluster hu hc]
      by_cases hkeep : s.offset = 0 ∨ a ≠ .left
      · rw [if_pos hkeep]
        rcases ih ⟨s.line ++ [⟨Grapheme.new u g.g.symbol, g.style⟩],
          s.width + u.stringWidth g.g.symbol, s.offset⟩ ht (by simp only; omega) with i | i
        · exact .inl i
        · right
          rw [i]
          split
          · rename_i hl
            rcases hkeep with hk | hk
            · simp [hk]
            · exact absurd hl hk
          · rfl
      · rw [if_neg hkeep]
        simp only [not_or, ne_eq, not_not] at hkeep
        obtain ⟨hk1, rfl⟩ := hkeep
        by_cases hneg : (g.g.width : Int) > s.offset
        · rw [if_pos hneg]
          rcases ih ⟨s.line ++ [⟨Grapheme.new u g.g.symbol, g.style⟩],
            s.width + u.stringWidth g.g.symbol, 0⟩ ht (by simp only; omega) with i | i
          · exact .inl i
          · right
            rw [i]
            simp only [if_true, List.length_cons]
            omega
        · rw [if_neg hneg]
          rcases ih ⟨s.line ++ [⟨Grapheme.new u "", g.style⟩],
            s.width + u.stringWidth "", s.offset - g.g.width⟩ ht (by simp only; omega) with i | i
          · exact .inl i
          · right
            rw [i]
            simp only [if_true, List.length_cons]
            omega

/-- What the truncator keeps of several lines of single-width graphemes. -/
theorem linesLoop_narrow {u : Uniseg} (hu : u.Lawful) {max : Int} (hmax : 0 < max) (ls : List InputLine) :
    ∀ s : LineTruncator.State, (∀ l ∈ ls, ∀ g ∈ l.graphemes, u.IsCluster g ∧ g.g.width = 1) →
      (∀ g ∈ s.line, g.g.width ≤ 1) → s.width = columns s.line → s.width ≤ max →
      solid (LineTruncator.linesLoop u max ls s).line =
        solid s.line ++ (runTogether (ls.map fun l => (decide (l.alignment = .left), l.graphemes))
          s.offset.toNat).take (max - s.width).toNat ∧
      (∀ g ∈ (LineTruncator.linesLoop u max ls s).line, g.g.width ≤ 1) := by
  induction ls with
  | nil => intro s _ h _ _; exact ⟨by simp [LineTruncator.linesLoop, runTogether], h⟩
  | cons l t ih =>
    intro s hg h hc hle
    have ht := fun x (hx : x ∈ t) => hg x (by simp [hx])
    have hl := hg l (by simp)
    unfold LineTruncator.linesLoop
    obtain ⟨n1, n2⟩ := lineLoop_narrow hu hmax l.alignment l.graphemes s hl h
    obtain ⟨f1, f2⟩ := lineLoop_fits hu (max := max) l.alignment l.graphemes s (fun g hg => (hl g hg).1) hc hle
    have hoff := lineLoop_offset hu hmax l.alignment l.graphemes s hl hle
    have e1 := columns_solid _ n2
    have e2 := columns_solid _ h
    rw [n1, List.length_append] at e1
    generalize LineTruncator.lineLoop u max l.alignment l.graphemes s = s' at *
    obtain ⟨i1, i2⟩ := ih s' ht n2 f1 f2
    refine ⟨?_, i2⟩
    rw [i1, n1, List.append_assoc, List.map_cons]
    congr 1
    rw [← f1, Nat.cast_add, ← e2, ← hc] at e1
    have key : runTogether ((decide (l.alignment = .left), l.graphemes) ::
          t.map fun l => (decide (l.alignment = .left), l.graphemes)) s.offset.toNat =
        l.graphemes.drop (if l.alignment = .left then s.offset.toNat else 0) ++
          runTogether (t.map fun l => (decide (l.alignment = .left), l.graphemes))
            (if l.alignment = .left then s.offset.toNat - l.graphemes.length else s.offset.toNat) := by
      by_cases ha : l.alignment = .left
      · simp [ha, runTogether]
      · simp [ha, runTogether]
    rw [key, List.take_append]
    congr 1
    rw [List.length_take] at e1
    rcases hoff with hf | hf
    · rw [show (max - s'.width).toNat = 0 by omega, List.take_zero]
      symm
      apply List.take_eq_nil_iff.2
      left
      omega
    · rw [hf]
      congr 1
      omega

/-- Without wrapping, a paragraph of single-width text shows all its lines one after the other on its first
row: what is left of them after the horizontal scroll offset, which only left-aligned lines use up, cut at
the width of the area, at the alignment of the last line. Every other row shows what was there. -/
theorem C34_run_on_partial {u : Uniseg} (hu : u.Lawful) (p : Paragraph) (hb : p.block = none)
    (hwr : p.wrap = none) (last : Line) (hlast : p.text.lines.getLast? = some last)
    (hn : ∀ l ∈ p.text.lines, l.NarrowText u) (a : Alignment)
    (ha : a = if last.alignment = .none then p.alignment else last.alignment) (hne : p.alignment ≠ .none)
    (area : Rect) (b : Buffer) (wf : b.WF) (hin : Inside b area)
    (hw : 0 < area.width) (hh : 0 < area.height) (hs : 0 < area.height + p.scroll.y)
    (cs : List String) (hcs : cs = p.runOn u area.width.toNat) :
    ∃ b', p.render u area b = some b' ∧ ∀ q, area.contains q = true → b'.symbolAt q =
      if q.y - area.y + p.scroll.y = 0 ∧ a.lead area.width.toNat cs.length ≤ (q.x - area.x).toNat then
        (cs[(q.x - area.x).toNat - a.lead area.width.toNat cs.length]?).or (b.symbolAt q)
      else b.symbolAt q := by
  have hc : p.content area = area := by unfold Paragraph.content; rw [hb]; rfl
  obtain ⟨ls, hr, hpt⟩ := C70_laid_out hu p hne area.width hw (fun h => absurd hwr h)
  obtain ⟨-, b', -, e, -, -, hcells, -, -⟩ := C70_rows_shown (u := u) p area b wf hin (by simp [hb])
    (by rw [hc]; exact hw) (by rw [hc]; exact hh) (by rw [hc]; exact hs) ls (by rw [hc]; exact hr)
    (by rw [hc]; exact hpt)
  rw [hc, hb] at hcells
  refine ⟨b', e, fun q hq => ?_⟩
  have hsym : ∀ q, area.contains q = true → b'.symbolAt q =
      match rowsShown ls p.scroll.y area q with
      | some g => some (if g.g.symbol = "" then " " else g.g.symbol)
      | none => b.symbolAt q := by
    intro q hq
    have hbuf : b.area.contains q = true := by
      rw [Rect.contains_iff] at *
      unfold Rect.Mem Inside at *
      omega
    obtain ⟨c, hc⟩ := wf.cellAt_isSome hbuf
    unfold Buffer.symbolAt
    rw [(hcells q hq).2, hc]
    simp only [Option.map_some]
    cases rowsShown ls p.scroll.y area q with
    | none => rfl
    | some g => rfl
  rw [hsym q hq]
  have hgs : ∀ l ∈ p.text.lines, l.styledGraphemes u p.text.style =
      l.spans.flatMap fun s => (u.graphemes s.content).map fun c =>
        (⟨⟨c, 1⟩, (p.text.style.patched l.style).patched s.style⟩ : StyledGrapheme) := by
    intro l hl
    unfold Line.styledGraphemes
    rw [List.flatMap_def, List.flatMap_def]
    congr 1
    apply List.map_congr_left
    intro s hs
    exact styledGraphemes_narrow hu s _ (hn l hl s hs)
  have hsyms : ∀ l ∈ p.text.lines,
      (l.styledGraphemes u p.text.style).map (fun g => g.g.symbol) = l.clusters u := by
    intro l hl
    rw [hgs l hl, List.map_flatMap]
    unfold Line.clusters
    simp only [List.map_map]
    congr 1
    funext s
    exact List.map_id _
  have hone : ∀ l ∈ p.inputLines u, ∀ g ∈ l.graphemes, u.IsCluster g ∧ g.g.width = 1 ∧ g.g.symbol ≠ "" := by
    intro i hi g hg
    unfold Paragraph.inputLines at hi
    rw [List.mem_map] at hi
    obtain ⟨l, hl, rfl⟩ := hi
    simp only at hg
    refine ⟨styledGraphemes_cluster hu l p.text.style g hg, ?_⟩
    rw [hgs l hl] at hg
    simp only [List.mem_flatMap, List.mem_map] at hg
    obtain ⟨s, _, c, hc, rfl⟩ := hg
    exact ⟨rfl, hu.nonempty _ c hc⟩
  have hlast' : (p.inputLines u).getLast? = some ⟨last.styledGraphemes u p.text.style, a⟩ := by
    unfold Paragraph.inputLines
    rw [List.getLast?_map, hlast, ha]
    rfl
  unfold Paragraph.Rows at hr
  rw [hwr] at hr
  have hrow := truncator_some u hlast' (max := area.width) (by omega) p.scroll.x
  have hls := hr.unique hrow
  subst hls
  obtain ⟨n1, n2⟩ := linesLoop_narrow hu hw (p.inputLines u) ⟨StyledGrapheme.cleared [], 0, p.scroll.x⟩
    (fun l hl g hg => ⟨(hone l hl g hg).1, (hone l hl g hg).2.1⟩) (by simp [StyledGrapheme.cleared])
    (by simp [StyledGrapheme.cleared, columns]) (by simp only; omega)
  have hline : (truncatorRow u (p.inputLines u) area.width p.scroll.x a).line =
    (LineTruncator.linesLoop u area.width (p.inputLines u) ⟨StyledGrapheme.cleared [], 0, p.scroll.x⟩).line := rfl
  have hRa : (truncatorRow u (p.inputLines u) area.width p.scroll.x a).alignment = a := rfl
  simp only at n1
  rw [← hline] at n1 n2
  simp only [Int.sub_zero] at n1
  rw [show solid (StyledGrapheme.cleared []) = [] from rfl, List.nil_append] at n1
  generalize truncatorRow u (p.inputLines u) area.width p.scroll.x a = R at *
  have hcs2 : cs = (solid R.line).map fun g => g.g.symbol := by
    rw [n1, List.map_take, runTogether_map, hcs]
    unfold Paragraph.runOn Paragraph.inputLines
    congr 2
    simp only [List.map_map]
    apply List.map_congr_left
    intro l hl
    simp only [Function.comp_apply, hsyms l hl]
  have hcol : (columns R.line).toNat = cs.length := by
    rw [columns_solid _ n2, hcs2]
    simp
  have hmem : ∀ g ∈ solid R.line, g.g.symbol ≠ "" := by
    intro g hg
    rw [n1] at hg
    obtain ⟨l, hl, hx⟩ := runTogether_mem _ _ _ (List.mem_of_mem_take hg)
    rw [List.mem_map] at hl
    obtain ⟨i, hi, rfl⟩ := hl
    exact (hone i hi g hx).2.2
  unfold rowsShown rowAt
  have hqin := hq
  rw [Rect.contains_iff] at hqin
  unfold Rect.Mem at hqin
  by_cases hz : q.y - area.y + p.scroll.y = 0
  · rw [if_pos (by omega), hz]
    simp only [Int.toNat_zero, List.getElem?_cons_zero, Option.bind_some]
    unfold WrappedLine.shownAt
    rw [hRa, hcol]
    by_cases hlead : a.lead area.width.toNat cs.length ≤ (q.x - area.x).toNat
    · rw [if_pos hlead, if_pos ⟨trivial, hlead⟩, atColumn_solid _ _ n2]
      rw [hcs2, List.length_map, List.getElem?_map]
      rw [hcs2, List.length_map] at hlead
      cases hk : (solid R.line)[(q.x - area.x).toNat - a.lead area.width.toNat (solid R.line).length]? with
      | none => rfl
      | some g =>
        simp only [Option.map_some, Option.some_or]
        rw [if_neg (hmem g (List.mem_of_getElem? hk))]
    · rw [if_neg hlead, if_neg (by intro h; exact hlead h.2)]
  · rw [if_neg (show ¬ (q.y - area.y + p.scroll.y = 0 ∧
      a.lead area.width.toNat cs.length ≤ (q.x - area.x).toNat) from fun h => hz h.1)]
    by_cases h0 : 0 ≤ q.y - area.y + p.scroll.y
    · rw [if_pos h0]
      have : [R][(q.y - area.y + p.scroll.y).toNat]? = none := by
        rw [List.getElem?_eq_none]
        simp only [List.length_cons, List.length_nil]
        omega
      rw [this]
      rfl
    · rw [if_neg h0]
      rfl

/-- Two left-aligned lines, scrolled by three columns. -/
example :
    let p := { samplePara ["ab", "cde"] with scroll := ⟨3, 0⟩ }
    p.runOn Uniseg.simple 4 = ["d", "e"] ∧
    (p.render Uniseg.simple ⟨0, 0, 4, 2⟩ (blank 4 2)).map (fun b => b.content.map Cell.symbol) =
      some ["d", "e", " ", " ", " ", " ", " ", " "] := by
  decide +kernel

/-- A left-aligned line, scrolled by one column, and a right-aligned one. -/
example :
    let p := { samplePara ["ab", "cde"] with text := { (samplePara []).text with
      lines := [Line.new [Span.new "ab"], { Line.new [Span.new "cd"] with alignment := .right }] }, scroll := ⟨1, 0⟩ }
    p.runOn Uniseg.simple 4 = ["b", "c", "d"] ∧
    (p.render Uniseg.simple ⟨0, 0, 4, 2⟩ (blank 4 2)).map (fun b => b.content.map Cell.symbol) =
      some [" ", "b", "c", "d", " ", " ", " ", " "] := by
  decide +kernel

end Bento
