import Verif.Spec.Gauge
import Verif.Props.ListWidget
import Verif.Lemmas.Rounding

/-!
# Gauges
-/

namespace Bento

open Gauge
open Layout (roundHalfAway roundHalfAway_int roundHalfAway_mono roundHalfAway_bound)

/-! ### Writing many cells -/

theorem Buffer.WF.foldlM_writes {b : Buffer} (wf : b.WF) (ws : List (Position × (Cell → Cell)))
    (hnd : (ws.map Prod.fst).Nodup) (hin : ∀ w ∈ ws, b.area.contains w.1 = true) :
    ∃ b' : Buffer, ws.foldlM (fun b w => b.modifyCell w.1 w.2) b = some b' ∧ b'.area = b.area ∧ b'.WF ∧
      (∀ w ∈ ws, b'.cellAt w.1 = (b.cellAt w.1).map w.2) ∧
      ∀ q, (∀ w ∈ ws, w.1 ≠ q) → b'.cellAt q = b.cellAt q := by
  induction ws generalizing b with
  | nil => exact ⟨b, rfl, rfl, wf, by simp, fun _ _ => rfl⟩
  | cons w ws ih =>
    obtain ⟨b1, h1, h2, h3, h4⟩ := wf.modifyCell_some w.2 (hin w (by simp))
    rw [List.map_cons, List.nodup_cons] at hnd
    obtain ⟨b', g1, g2, g3, g4, g5⟩ := ih h3 hnd.2 (fun q hq => by rw [h2]; exact hin q (by simp [hq]))
    refine ⟨b', ?_, g2.trans h2, g3, ?_, ?_⟩
    · simp only [List.foldlM_cons, h1, Option.bind_eq_bind, Option.bind_some, g1]
    · intro w' hw'
      rw [List.mem_cons] at hw'
      rcases hw' with rfl | hw'
      · rw [g5 _ (fun w hw h => hnd.1 (by rw [← h]; exact List.mem_map_of_mem hw)), h4, if_pos rfl]
      · rw [g4 w' hw', h4, if_neg]
        intro h
        exact hnd.1 (by rw [← h]; exact List.mem_map_of_mem hw')
    · intro q hq
      rw [g5 q (fun w hw => hq w (by simp [hw])), h4, if_neg]
      exact fun h => hq w (by simp) h.symm

/-! ### C47 -/

/-- The symbol and colours of a full column. -/
def Gauge.fillCell (g : Gauge) (labelCol labelRow labelWidth : Int) (q : Position) (c : Cell) : Cell :=
  if q.x < labelCol ∨ q.x ≥ labelCol + labelWidth ∨ q.y ≠ labelRow then
    ((c.setSymbol "█").setFg (g.gaugeStyle.fg.getD .reset)).setBg (g.gaugeStyle.bg.getD .reset)
  else ((c.setSymbol " ").setFg (g.gaugeStyle.fg.getD .reset)).setBg (g.gaugeStyle.bg.getD .reset)

theorem Gauge.mem_writes (rnd : ℚ → ℚ) (g : Gauge) (area : Rect) (lc lr lw : Int) (w : Position × (Cell → Cell)) :
    w ∈ g.writes rnd area lc lr lw ↔ area.y ≤ w.1.y ∧ w.1.y < area.y + area.height ∧
      ((area.x ≤ w.1.x ∧ w.1.x < area.x + g.fillWidth rnd area.width ∧ w.2 = g.fillCell lc lr lw w.1) ∨
        (g.useUnicode ∧ g.ratio < 1 ∧ w.1.x = area.x + g.fillWidth rnd area.width ∧
          w.2 = Cell.setSymbol (unicodeBlock (mod1 (rnd (area.width * g.ratio)))))) := by
  obtain ⟨⟨x, y⟩, f⟩ := w
  unfold writes
  simp only [List.mem_flatMap, List.mem_append, List.mem_map, mem_intRange, Rect.top, Rect.bottom, Rect.left]
  constructor
  · rintro ⟨y', hy, h⟩
    rcases h with ⟨x', hx, h⟩ | h
    · simp only [Prod.mk.injEq, Position.mk.injEq] at h
      obtain ⟨⟨rfl, rfl⟩, rfl⟩ := h
      exact ⟨hy.1, hy.2, .inl ⟨hx.1, hx.2, rfl⟩⟩
    · split at h
      · rename_i hc
        simp only [List.mem_singleton, Prod.mk.injEq, Position.mk.injEq] at h
        obtain ⟨⟨rfl, rfl⟩, rfl⟩ := h
        exact ⟨hy.1, hy.2, .inr ⟨hc.1, hc.2, rfl, rfl⟩⟩
      · simp at h
  · rintro ⟨h1, h2, h⟩
    refine ⟨y, ⟨h1, h2⟩, ?_⟩
    rcases h with ⟨h3, h4, rfl⟩ | ⟨h3, h4, rfl, rfl⟩
    · exact .inl ⟨x, ⟨h3, h4⟩, rfl⟩
    · right
      rw [if_pos ⟨h3, h4⟩]
      simp

theorem Gauge.nodup_writes (rnd : ℚ → ℚ) (g : Gauge) (area : Rect) (lc lr lw : Int) :
    ((g.writes rnd area lc lr lw).map Prod.fst).Nodup := by
  unfold writes
  simp only [List.map_flatMap, List.map_append, List.map_map]
  rw [List.Nodup, List.pairwise_flatMap]
  refine ⟨?_, ?_⟩
  · intro y _
    rw [List.pairwise_append]
    refine ⟨?_, ?_, ?_⟩
    · refine List.Pairwise.map _ ?_ (nodup_intRange _ _)
      intro a b hab h
      simp only [Function.comp_apply, Position.mk.injEq] at h
      exact hab h.1
    · split <;> simp
    · intro p hp q hq h
      simp only [List.mem_map, mem_intRange] at hp
      obtain ⟨x, hx, rfl⟩ := hp
      split at hq
      · simp only [List.map_cons, List.map_nil, List.mem_singleton] at hq
        rw [hq] at h
        simp only [Function.comp_apply, Position.mk.injEq] at h
        omega
      · simp at hq
  · refine List.Pairwise.imp ?_ (nodup_intRange _ _)
    intro a b hab p hp q hq hpq
    have hy : ∀ y p, p ∈ (List.map (Prod.fst ∘ fun x : Int =>
        ((⟨x, y⟩ : Position), fun c : Cell =>
          if x < lc ∨ x ≥ lc + lw ∨ y ≠ lr then
            ((c.setSymbol "█").setFg (g.gaugeStyle.fg.getD .reset)).setBg (g.gaugeStyle.bg.getD .reset)
          else ((c.setSymbol " ").setFg (g.gaugeStyle.fg.getD .reset)).setBg (g.gaugeStyle.bg.getD .reset)))
        (intRange area.left (area.left + g.fillWidth rnd area.width)) ++
        List.map Prod.fst (if g.useUnicode = true ∧ g.ratio < 1 then
          [((⟨area.left + g.fillWidth rnd area.width, y⟩ : Position),
            Cell.setSymbol (unicodeBlock (mod1 (rnd (area.width * g.ratio)))))] else [])) → p.y = y := by
      intro y p hp
      rw [List.mem_append] at hp
      rcases hp with hp | hp
      · simp only [List.mem_map] at hp
        obtain ⟨x, _, rfl⟩ := hp
        rfl
      · split at hp
        · simp only [List.map_cons, List.map_nil, List.mem_singleton] at hp
          rw [hp]
        · simp at hp
    have h1 := hy a p hp
    have h2 := hy b q hq
    rw [hpq, h2] at h1
    exact hab h1.symm

/-- The column behind the full ones. -/
def Gauge.tip (rnd : ℚ → ℚ) (g : Gauge) (width : Int) : Option String :=
  if g.useUnicode ∧ g.ratio < 1 then some (unicodeBlock (mod1 (rnd (width * g.ratio)))) else none

theorem Gauge.cells (rnd : ℚ → ℚ) (u : Uniseg) (g : Gauge) (area : Rect) (b : Buffer) (wf : b.WF)
    (hin : Inside b area) (hw : 0 < area.width) (hh : 0 < area.height) (h0 : 0 ≤ g.fillWidth rnd area.width)
    (h1 : g.fillWidth rnd area.width ≤ area.width)
    (h2 : g.useUnicode = true → g.ratio < 1 → g.fillWidth rnd area.width < area.width)
    (hl : ∀ v ∈ u.graphemes (g.shownLabel rnd).content, u.width v = 1) :
    ∃ b' : Buffer, g.render rnd u area b = some b' ∧ b'.area = b.area ∧ b'.WF ∧
      ∀ q, b'.cellAt q = if area.contains q = true then
          (b.cellAt q).map (gaugeCell g (u.graphemes (g.shownLabel rnd).content) (g.shownLabel rnd).style area
            (g.fillWidth rnd area.width) (g.tip rnd area.width) q)
        else b.cellAt q := by
  obtain ⟨i1, i2, i3, i4, i5, i6⟩ := hin
  obtain ⟨b1, e1, a1, wf1, c1⟩ := setStyle_cells wf area g.style
  obtain ⟨b2, e2, a2, wf2, c2⟩ := setStyle_cells wf1 area g.gaugeStyle
  generalize hlab : g.shownLabel rnd = label at *
  have hwid : (label.width u : Int) = (u.graphemes label.content).length := by
    unfold Span.width Uniseg.stringWidth
    congr 1
    generalize u.graphemes label.content = gs at hl
    induction gs with
    | nil => rfl
    | cons v gs ih =>
      rw [List.map_cons, List.sum_cons, hl v (by simp), ih (fun v hv => hl v (by simp [hv])), List.length_cons,
        Nat.add_comm]
  generalize hlw : min area.width (label.width u : Int) = lw
  have hlw' : lw = ((u.graphemes label.content).take area.width.toNat).length := by
    rw [List.length_take]; omega
  have hlc : (area.width - lw).tdiv 2 = (area.width - lw) / 2 := Int.tdiv_eq_ediv_of_nonneg (by omega)
  have hlr : area.height.tdiv 2 = area.height / 2 := Int.tdiv_eq_ediv_of_nonneg (by omega)
  generalize hc : area.x + (area.width - lw) / 2 = lc
  generalize hr : area.y + area.height / 2 = lr
  obtain ⟨b3, e3, a3, wf3, c3, d3⟩ := wf2.foldlM_writes (g.writes rnd area lc lr lw)
    (g.nodup_writes rnd area lc lr lw) (by
      intro w hwm
      rw [mem_writes] at hwm
      rw [Rect.contains_iff, a2, a1]
      unfold Rect.Mem
      obtain ⟨m1, m2, m⟩ := hwm
      rcases m with ⟨m3, m4, _⟩ | ⟨m3, m4, m5, _⟩
      · omega
      · have := h2 m3 m4
        omega)
  have hm : ∀ gr ∈ u.measured label.content, gr.2 = 1 := by
    intro gr hg
    unfold Uniseg.measured at hg
    simp only [List.mem_map] at hg
    obtain ⟨c, hc, rfl⟩ := hg
    exact hl c hc
  have hb : budget b3 lc lw = lw := by
    unfold budget Rect.right
    rw [a3, a2, a1]
    omega
  obtain ⟨b4, e4, a4, wf4, c4⟩ := C09_setStringN_partial u b3 wf3 lc lr label.content lw label.style
    (by rw [a3, a2, a1, Rect.contains_iff]; unfold Rect.Mem; simp only; omega) (by omega)
    (fun gr hg => by rw [hm gr hg]) (noStraddle_of_width_one _ hm _)
  rw [hb] at c4
  refine ⟨b4, ?_, by rw [a4, a3, a2, a1], wf4, ?_⟩
  · unfold render renderGauge
    rw [e1, Option.bind_eq_bind, Option.bind_some, if_neg (by
      unfold Rect.isEmpty; simp only [Bool.or_eq_true, beq_iff_eq]; omega), e2, Option.bind_eq_bind, Option.bind_some]
    simp only [Rect.left, Rect.top, hlab, hlw, hlc, hlr, hc, hr]
    rw [e3]
    simp only [Option.bind_eq_bind, Option.bind_some]
    rw [e4]
    rfl
  · intro q
    by_cases hq : area.contains q = true
    · rw [if_pos hq, c4]
      have hq' := hq
      rw [Rect.contains_iff] at hq'
      unfold Rect.Mem at hq'
      obtain ⟨c, hcq⟩ : ∃ c : Cell, b.cellAt q = some c := Buffer.WF.cellAt_isSome wf (p := q)
        (by rw [Rect.contains_iff]; unfold Rect.Mem; omega)
      have hbase : b2.cellAt q = some ((c.setStyle g.style).setStyle g.gaugeStyle) := by
        rw [c2, if_pos hq, c1, if_pos hq, hcq]
        rfl
      generalize hbc : (c.setStyle g.style).setStyle g.gaugeStyle = base at hbase
      have hbar : b3.cellAt q = some
          (if q.x < area.x + g.fillWidth rnd area.width then g.fillCell lc lr lw q base
          else if q.x = area.x + g.fillWidth rnd area.width then
            { base with symbol := (g.tip rnd area.width).getD base.symbol } else base) := by
        by_cases k1 : q.x < area.x + g.fillWidth rnd area.width
        · rw [if_pos k1]
          have := c3 (q, g.fillCell lc lr lw q) ((mem_writes _ _ _ _ _ _ _).2
            ⟨hq'.2.2.1, hq'.2.2.2, .inl ⟨hq'.1, k1, rfl⟩⟩)
          rw [this, hbase]
          rfl
        · rw [if_neg k1]
          by_cases k2 : q.x = area.x + g.fillWidth rnd area.width
          · rw [if_pos k2]
            by_cases k3 : g.useUnicode = true ∧ g.ratio < 1
            · have := c3 (q, Cell.setSymbol (unicodeBlock (mod1 (rnd (area.width * g.ratio)))))
                ((mem_writes _ _ _ _ _ _ _).2 ⟨hq'.2.2.1, hq'.2.2.2, .inr ⟨k3.1, k3.2, k2, rfl⟩⟩)
              rw [this, hbase]
              unfold tip
              rw [if_pos k3]
              rfl
            · rw [d3 q, hbase]
              · unfold tip
                rw [if_neg k3]
                rfl
              · intro w hwm h
                rw [mem_writes, h] at hwm
                rcases hwm.2.2 with ⟨_, m, _⟩ | ⟨m, m', _⟩
                · exact k1 m
                · exact k3 ⟨m, m'⟩
          · rw [if_neg k2, d3 q, hbase]
            intro w hwm h
            rw [mem_writes, h] at hwm
            rcases hwm.2.2 with ⟨_, m, _⟩ | ⟨_, _, m, _⟩
            · exact k1 m
            · exact k2 m
      rw [hbar, hcq]
      simp only [Option.map_some]
      unfold gaugeCell
      simp only [hbc, ← hlw', hc, hr]
      by_cases k : q.y = lr ∧ lc ≤ q.x ∧ q.x < lc + lw
      · obtain ⟨d, hd⟩ : ∃ d : Nat, q.x - lc = d := ⟨(q.x - lc).toNat, by omega⟩
        rw [if_pos k, if_pos (show q.y = lr ∧ lc ≤ q.x from ⟨k.1, k.2.1⟩), hd, ListWidget.layoutCell_narrow label.style _ d _ hm]
        simp only [Int.toNat_natCast]
        have hdl : d < ((u.graphemes label.content).take area.width.toNat).length := by omega
        have hdl' : d < (u.graphemes label.content).length := by rw [List.length_take] at hdl; omega
        unfold Uniseg.measured
        rw [List.getElem?_map, List.getElem?_eq_getElem hdl, List.getElem?_eq_getElem hdl', List.getElem_take]
        simp only [Option.map_some]
        unfold fillCell
        rw [if_neg (show ¬ (q.x < lc ∨ q.x ≥ lc + lw ∨ q.y ≠ lr) by omega)]
        by_cases k1 : q.x < area.x + g.fillWidth rnd area.width
        · rw [if_pos k1, if_pos k1]
          rfl
        · rw [if_neg k1, if_neg k1]
          by_cases k2 : q.x = area.x + g.fillWidth rnd area.width
          · rw [if_pos k2]
            rfl
          · rw [if_neg k2]
            rfl
      · rw [if_neg k]
        have hf : ∀ c : Cell, g.fillCell lc lr lw q c =
            { c with symbol := "█", fg := g.gaugeStyle.fg.getD .reset, bg := g.gaugeStyle.bg.getD .reset } := by
          intro c
          unfold fillCell
          rw [if_pos (by omega)]
          rfl
        rw [hf]
        by_cases k' : q.y = lr ∧ lc ≤ q.x
        · rw [if_pos k', List.getElem?_eq_none (by omega)]
        · rw [if_neg k']
    · rw [if_neg hq, c4]
      have hb3 : b3.cellAt q = b.cellAt q := by
        rw [d3 q, c2, if_neg hq, c1, if_neg hq]
        intro w hwm h
        rw [mem_writes, h] at hwm
        apply hq
        rw [Rect.contains_iff]
        unfold Rect.Mem
        rcases hwm with ⟨m1, m2, ⟨m3, m4, _⟩ | ⟨m3, m4, m5, _⟩⟩
        · omega
        · have := h2 m3 m4
          omega
      rw [hb3, if_neg]
      intro k
      apply hq
      rw [Rect.contains_iff]
      unfold Rect.Mem
      omega

theorem Gauge.fill_range {rnd : ℚ → ℚ} (hr : FloatRound rnd) (ratio : ℚ) (hr0 : 0 ≤ ratio) (hr1 : ratio ≤ 1)
    (w : Int) (hw : 0 ≤ w) (hw' : w ≤ 2 ^ 53) : 0 ≤ rnd (w * ratio) ∧ rnd (w * ratio) ≤ w := by
  have hwq : (0 : ℚ) ≤ w := by exact_mod_cast hw
  have hwq' : (w : ℚ) ≤ 2 ^ 53 := by exact_mod_cast hw'
  have h1 : (w : ℚ) * ratio ≤ w := by
    calc (w : ℚ) * ratio ≤ w * 1 := mul_le_mul_of_nonneg_left hr1 hwq
      _ = w := mul_one _
  have h0 : (0 : ℚ) ≤ w * ratio := mul_nonneg hwq hr0
  constructor
  · have := hr.mono 0 (w * ratio) le_rfl h0 (by linarith)
    have h := hr.int 0 le_rfl (by norm_num)
    simp only [Int.cast_zero] at h
    rwa [h] at this
  · have := hr.mono (w * ratio) w h0 h1 hwq'
    rwa [hr.int w hw hw'] at this

/-- The number of full columns of a gauge without Unicode parts: nothing at 0, everything at 1, and never
fewer for a larger ratio. -/
theorem C47_columns {rnd : ℚ → ℚ} (hr : FloatRound rnd) (g : Gauge) (hg : g.useUnicode = false) (w : Int)
    (hw : 0 ≤ w) (hw' : w ≤ 2 ^ 53) (h0 : 0 ≤ g.ratio) (h1 : g.ratio ≤ 1) :
    0 ≤ g.fillWidth rnd w ∧ g.fillWidth rnd w ≤ w ∧ (g.ratio = 0 → g.fillWidth rnd w = 0) ∧
      (g.ratio = 1 → g.fillWidth rnd w = w) ∧
      (∀ ratio', g.ratio ≤ ratio' → ratio' ≤ 1 →
        g.fillWidth rnd w ≤ fillWidth rnd { g with ratio := ratio' } w) ∧
      (rnd (w * g.ratio) = w * g.ratio →
        (g.fillWidth rnd w : ℚ) - w * g.ratio ≤ 1 / 2 ∧ (w : ℚ) * g.ratio - g.fillWidth rnd w ≤ 1 / 2) := by
  obtain ⟨r0, r1⟩ := fill_range hr g.ratio h0 h1 w hw hw'
  have hwq : (0 : ℚ) ≤ w := by exact_mod_cast hw
  have hwq' : (w : ℚ) ≤ 2 ^ 53 := by exact_mod_cast hw'
  have e : ∀ ratio, fillWidth rnd { g with ratio := ratio } w = roundHalfAway (rnd (w * ratio)) := by
    intro ratio; unfold fillWidth; rw [hg]; rfl
  have e0 : g.fillWidth rnd w = roundHalfAway (rnd (w * g.ratio)) := by unfold fillWidth; rw [hg]; rfl
  rw [e0]
  refine ⟨?_, ?_, ?_, ?_, ?_, ?_⟩
  · have := roundHalfAway_mono r0
    have h := roundHalfAway_int 0
    simp only [Int.cast_zero] at h
    rwa [h] at this
  · have := roundHalfAway_mono r1
    rwa [roundHalfAway_int] at this
  · intro h
    have h' := hr.int 0 le_rfl (by norm_num)
    simp only [Int.cast_zero] at h'
    rw [h, mul_zero, h']
    exact_mod_cast roundHalfAway_int 0
  · intro h
    rw [h, mul_one, hr.int w hw hw', roundHalfAway_int]
  · intro ratio' h h'
    rw [e]
    apply roundHalfAway_mono
    apply hr.mono
    · exact mul_nonneg hwq h0
    · exact mul_le_mul_of_nonneg_left h hwq
    · calc (w : ℚ) * ratio' ≤ w * 1 := mul_le_mul_of_nonneg_left h' hwq
        _ = w := mul_one _
        _ ≤ 2 ^ 53 := hwq'
  · intro h
    rw [h]
    obtain ⟨k1, k2, _⟩ := roundHalfAway_bound ((w : ℚ) * g.ratio)
    constructor <;> linarith

/-- **C47 (partial).** A gauge inside the buffer with a ratio in `[0, 1]` is drawn without a panic and changes
only the cells of its area: the columns that `C47_columns` counts are full, and the label is on the middle row.
Missing: other ratios are not rejected. -/
theorem C47_cells_partial {rnd : ℚ → ℚ} (hr : FloatRound rnd) (u : Uniseg) (g : Gauge) (hg : g.useUnicode = false)
    (area : Rect) (b : Buffer) (wf : b.WF) (hin : Inside b area) (hw : 0 < area.width) (hw' : area.width ≤ 2 ^ 53)
    (hh : 0 < area.height) (h0 : 0 ≤ g.ratio) (h1 : g.ratio ≤ 1)
    (hl : ∀ v ∈ u.graphemes (g.shownLabel rnd).content, u.width v = 1) :
    ∃ b' : Buffer, g.render rnd u area b = some b' ∧ b'.area = b.area ∧ b'.WF ∧
      ∀ q, b'.cellAt q = if area.contains q = true then
          (b.cellAt q).map (gaugeCell g (u.graphemes (g.shownLabel rnd).content) (g.shownLabel rnd).style area
            (g.fillWidth rnd area.width) none q)
        else b.cellAt q := by
  obtain ⟨k0, k1, _⟩ := C47_columns hr g hg area.width (by omega) hw' h0 h1
  have := g.cells rnd u area b wf hin hw hh k0 k1 (fun h => by rw [hg] at h; cases h) hl
  unfold tip at this
  rw [hg] at this
  exact this

/-- The eighth of a block that is shown for a fraction. -/
theorem Gauge.unicodeBlock_eq (f : ℚ) (h0 : 0 ≤ f) (h1 : f < 1) :
    0 ≤ roundHalfAway (f * 8) ∧ roundHalfAway (f * 8) ≤ 8 ∧
      some (unicodeBlock f) = eighths[(roundHalfAway (f * 8)).toNat]? := by
  have l : 0 ≤ roundHalfAway (f * 8) := by
    have := roundHalfAway_mono (show (0 : ℚ) ≤ f * 8 by linarith)
    have h := roundHalfAway_int 0
    simp only [Int.cast_zero] at h
    rwa [h] at this
  have r : roundHalfAway (f * 8) ≤ 8 := by
    have := roundHalfAway_mono (show f * 8 ≤ ((8 : Int) : ℚ) by push_cast; linarith)
    rwa [roundHalfAway_int] at this
  refine ⟨l, r, ?_⟩
  unfold unicodeBlock
  generalize roundHalfAway (f * 8) = k at l r
  have : k = 0 ∨ k = 1 ∨ k = 2 ∨ k = 3 ∨ k = 4 ∨ k = 5 ∨ k = 6 ∨ k = 7 ∨ k = 8 := by omega
  rcases this with rfl | rfl | rfl | rfl | rfl | rfl | rfl | rfl | rfl <;> rfl

/-- **C47 (partial).** With Unicode parts, the whole columns are full and the next one shows the rest in
eighths. (`hlt` is about the rounding of the product only.) -/
theorem C47_unicode_partial {rnd : ℚ → ℚ} (hr : FloatRound rnd) (u : Uniseg) (g : Gauge) (hg : g.useUnicode = true)
    (area : Rect) (b : Buffer) (wf : b.WF) (hin : Inside b area) (hw : 0 < area.width) (hw' : area.width ≤ 2 ^ 53)
    (hh : 0 < area.height) (h0 : 0 ≤ g.ratio) (h1 : g.ratio < 1) (hlt : rnd (area.width * g.ratio) < area.width)
    (hl : ∀ v ∈ u.graphemes (g.shownLabel rnd).content, u.width v = 1) :
    ∃ (b' : Buffer) (n k : Nat) (tip : String), (n : ℚ) ≤ rnd (area.width * g.ratio) ∧
      rnd (area.width * g.ratio) < n + 1 ∧ eighths[k]? = some tip ∧
      (k : ℚ) - (rnd (area.width * g.ratio) - n) * 8 ≤ 1 / 2 ∧ (rnd (area.width * g.ratio) - n) * 8 - k ≤ 1 / 2 ∧
      g.render rnd u area b = some b' ∧ b'.area = b.area ∧ b'.WF ∧
      ∀ q, b'.cellAt q = if area.contains q = true then
          (b.cellAt q).map (gaugeCell g (u.graphemes (g.shownLabel rnd).content) (g.shownLabel rnd).style area
            n (some tip) q)
        else b.cellAt q := by
  obtain ⟨r0, r1⟩ := fill_range hr g.ratio h0 (le_of_lt h1) area.width (by omega) hw'
  have e : g.fillWidth rnd area.width = ⌊rnd (area.width * g.ratio)⌋ := by unfold fillWidth; rw [hg]; rfl
  have f0 : 0 ≤ g.fillWidth rnd area.width := by rw [e]; exact Int.floor_nonneg.2 r0
  have f1 : g.fillWidth rnd area.width < area.width := by rw [e]; exact Int.floor_lt.2 hlt
  obtain ⟨n, hn⟩ := Int.eq_ofNat_of_zero_le f0
  have hmod : mod1 (rnd (area.width * g.ratio)) = rnd (area.width * g.ratio) - n := by
    unfold mod1
    rw [if_pos r0, ← e, hn]
    rfl
  have hfl := Int.floor_le (rnd (area.width * g.ratio))
  have hfl' := Int.lt_floor_add_one (rnd (area.width * g.ratio))
  rw [← e, hn] at hfl hfl'
  have hfl1 : ((n : ℕ) : ℚ) ≤ rnd (area.width * g.ratio) := by exact_mod_cast hfl
  have hfl2 : rnd (area.width * g.ratio) < (n : ℕ) + 1 := by exact_mod_cast hfl'
  obtain ⟨l, r, ht⟩ := unicodeBlock_eq (rnd (area.width * g.ratio) - n) (by linarith) (by linarith)
  obtain ⟨k, hk⟩ := Int.eq_ofNat_of_zero_le l
  obtain ⟨k1, k2, _⟩ := roundHalfAway_bound ((rnd (area.width * g.ratio) - n) * 8)
  rw [hk] at k1 k2 ht
  obtain ⟨b', h1', h2', h3', h4'⟩ := g.cells rnd u area b wf hin hw hh f0 (by omega) (fun _ _ => f1) hl
  refine ⟨b', n, k, unicodeBlock (rnd (area.width * g.ratio) - n), hfl1, hfl2, ?_, ?_, ?_, h1', h2', h3', ?_⟩
  · rw [ht]; rfl
  · have : ((k : ℕ) : ℚ) = ((k : Int) : ℚ) := by push_cast; rfl
    rw [this]; exact (by linarith)
  · have : ((k : ℕ) : ℚ) = ((k : Int) : ℚ) := by push_cast; rfl
    rw [this]; exact (by linarith)
  · intro q
    rw [h4', hn]
    unfold Gauge.tip
    rw [if_pos (show g.useUnicode = true ∧ g.ratio < 1 from ⟨hg, h1⟩), hmod]

/-- `WithPercent` rejects what is not a percentage, and the default label shows the percentage. -/
theorem C47_percent {rnd : ℚ → ℚ} (hr : FloatRound rnd) (g : Gauge) (percent : Int) :
    (g.withPercent rnd percent = none ↔ percent < 0 ∨ 100 < percent) ∧
    ∀ g', g.withPercent rnd percent = some g' → g.label = none →
      0 ≤ g'.ratio ∧ g'.ratio ≤ 1 ∧ g'.shownLabel rnd = Span.new (toString percent ++ "%") := by
  constructor
  · unfold withPercent
    split
    · rename_i h; simp only [true_iff]; omega
    · rename_i h; simp only [reduceCtorEq, false_iff]; omega
  · intro g' hg hlab
    unfold withPercent at hg
    split at hg
    · cases hg
    rename_i hp
    simp only [Option.some.injEq] at hg
    subst hg
    have hp0 : 0 ≤ percent := by omega
    have hp1 : percent ≤ 100 := by omega
    have q0 : (0 : ℚ) ≤ percent := by exact_mod_cast hp0
    have q1 : (percent : ℚ) ≤ 100 := by exact_mod_cast hp1
    have z := hr.int 0 le_rfl (by norm_num)
    have o := hr.int 1 (by norm_num) (by norm_num)
    simp only [Int.cast_zero, Int.cast_one] at z o
    have r0 : 0 ≤ rnd ((percent : ℚ) / 100) := by
      have := hr.mono 0 ((percent : ℚ) / 100) le_rfl (by positivity) (by norm_num; linarith)
      rwa [z] at this
    have r1 : rnd ((percent : ℚ) / 100) ≤ 1 := by
      have := hr.mono ((percent : ℚ) / 100) 1 (by positivity) (by linarith) (by norm_num)
      rwa [o] at this
    refine ⟨r0, r1, ?_⟩
    unfold shownLabel
    simp only [hlab, Option.getD_none]
    have : roundHalfAway (rnd (rnd ((percent : ℚ) / 100) * 100)) = percent := by
      by_cases hz : percent = 0
      · subst hz
        simp only [Int.cast_zero, zero_div, z, zero_mul]
        exact_mod_cast roundHalfAway_int 0
      · have hp2 : 1 ≤ percent := by omega
        have q2 : (1 : ℚ) ≤ percent := by exact_mod_cast hp2
        have c1 := hr.close ((percent : ℚ) / 100) (by norm_num; linarith) (by norm_num; linarith)
        rw [abs_le] at c1
        have x1 : (percent : ℚ) / 100 / 2 ^ 52 ≤ 1 / 1000000 := by norm_num; linarith
        generalize rnd ((percent : ℚ) / 100) = r at *
        have c2 := hr.close (r * 100) (by norm_num; linarith) (by norm_num; linarith)
        rw [abs_le] at c2
        have x2 : r * 100 / 2 ^ 52 ≤ 1 / 1000 := by norm_num; linarith
        generalize rnd (r * 100) = s at *
        obtain ⟨k1, k2, _⟩ := roundHalfAway_bound s
        have k3 : (roundHalfAway s : ℚ) < percent + 1 := by linarith
        have k4 : (percent : ℚ) - 1 < roundHalfAway s := by linarith
        have k5 : roundHalfAway s < percent + 1 := by exact_mod_cast k3
        have k6 : percent - 1 < roundHalfAway s := by exact_mod_cast k4
        omega
    rw [this]

/-- **C47 (negation).** `WithRatio` rejects nothing, … -/
theorem C47_ratio_false (g : Gauge) (ratio : ℚ) : g.withRatio ratio = some { g with ratio := ratio } := by
  unfold withRatio
  rw [if_neg (fun h => by linarith [h.1, h.2])]

/-- The symbols of a gauge drawn into an area at the left of an empty buffer. -/
def Gauge.drawn (g : Gauge) (area bufferArea : Rect) : Option (List String) := do
  let b ← Buffer.newEmpty bufferArea
  let b ← g.render id Uniseg.simple area b
  return b.content.map Cell.symbol

/-- … so that a gauge can be drawn over cells that are not in its area, and can panic. -/
theorem C47_overflow_false :
    (∃ g, (Gauge.new.withLabelStr "").withRatio 2 = some g ∧
      g.drawn ⟨0, 0, 2, 1⟩ ⟨0, 0, 5, 1⟩ = some ["█", "█", "█", "█", " "] ∧
      g.drawn ⟨0, 0, 2, 1⟩ ⟨0, 0, 3, 1⟩ = none) := by
  refine ⟨_, C47_ratio_false _ _, ?_⟩
  decide +kernel

/-- Exact arithmetic is an instance. -/
theorem Gauge.floatRound_id : FloatRound id :=
  ⟨fun _ _ _ h _ => h, fun _ _ _ => rfl, fun q h _ => by
    have : (0 : ℚ) ≤ q := le_trans (by norm_num) h
    simp only [id, sub_self, abs_zero]
    positivity⟩

example : (({ Gauge.new with ratio := 1 / 2 } : Gauge).withLabelStr "ab").drawn ⟨0, 0, 6, 1⟩ ⟨0, 0, 7, 1⟩ =
    some ["█", "█", "a", "b", " ", " ", " "] ∧
    ((({ Gauge.new with ratio := 1 / 2 } : Gauge).withLabelStr "").withUnicode true).drawn ⟨0, 0, 5, 1⟩ ⟨0, 0, 6, 1⟩ =
    some ["█", "█", "▌", " ", " ", " "] := by
  decide +kernel

end Bento
