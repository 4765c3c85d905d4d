import Verif.Lemmas.Exchange

/-!
# The best placement of a legacy layout leaves no gaps
-/

namespace Bento.Layout

open Casso Finset

theorem spacers_split {α : Type} (l : List α) (h : 2 ≤ l.length) :
    ∃ a m b, l = a :: (m ++ [b]) ∧ l.head? = some a ∧ l.getLast? = some b ∧ l.tail.dropLast = m := by
  match l, h with
  | a :: c :: t, _ =>
    refine ⟨a, (c :: t).dropLast, (c :: t).getLast (by simp), ?_, rfl, ?_, rfl⟩
    · rw [List.dropLast_append_getLast]
    · rw [List.getLast?_eq_some_getLast (by simp), List.getLast_cons (by simp)]

theorem sum_map_range {β : Type} (f : β → ℚ) (g : Nat → β) (n : Nat) :
    (((List.range n).map g).map f).sum = ∑ i ∈ range n, f (g i) := by
  rw [List.map_map]
  induction n with
  | zero => simp
  | succ n ih =>
    rw [List.range_succ, List.map_append, List.sum_append, ih, Finset.sum_range_succ]
    simp

/-- The cost of the spacers of a legacy layout without spacing. -/
theorem legacy_flex_cost {n : Nat} (hn : 0 < n) (x : Var → ℚ) :
    spacerSizeEq * ∑ i ∈ range (n + 1), |x (2 * i + 1) - x (2 * i)|
      ≤ cost (flexList (areaElement n) (spacerElements n) .legacy 0) x ∧
    (∑ i ∈ range (n + 1), |x (2 * i + 1) - x (2 * i)| = 0 →
      cost (flexList (areaElement n) (spacerElements n) .legacy 0) x = 0) := by
  have hlen : 2 ≤ (spacerElements n).length := by rw [spacerElements_eq]; simp; omega
  have hsum : ((spacerElements n).map fun e => |sz e x|).sum
      = ∑ i ∈ range (n + 1), |x (2 * i + 1) - x (2 * i)| := by
    rw [spacerElements_eq, sum_map_range]; rfl
  obtain ⟨a, m, b, h1, h2, h3, h4⟩ := spacers_split _ hlen
  have hi : interior (spacerElements n) = m := by
    unfold interior
    split_ifs with hc
    · exact h4
    · have := congrArg List.length h1
      simp only [List.length_cons, List.length_append, List.length_nil] at this
      have : m.length = 0 := by omega
      rw [List.eq_nil_of_length_eq_zero this]
  have hfix : cost (fixedSpacing (spacerElements n) 0) x
      = spacerSizeEq * (m.map fun e => |sz e x|).sum := by
    unfold fixedSpacing
    rw [hi]
    clear h1 h4 hi
    induction m with
    | nil => simp
    | cons e m ih =>
      simp only [List.map_cons, cost_cons, List.sum_cons, ih, violation_hasSize, eval_ofConstant]
      simp only [Element.hasSize, Constr.expressionRHS, Int.cast_zero, zero_mul, sub_zero]
      ring
  have hends : cost (endsOf (spacerElements n) fun first last => [first.isEmpty, last.isEmpty]) x
      = (required - 1) * (|sz a x| + |sz b x|) := by
    unfold endsOf
    rw [h2, h3]
    simp only
    rw [if_pos hlen]
    simp only [cost_cons, cost_nil, violation_isEmpty]
    simp only [Element.isEmpty, Constr.constantRHS]
    ring
  have hc : cost (flexList (areaElement n) (spacerElements n) .legacy 0) x
      = spacerSizeEq * (m.map fun e => |sz e x|).sum + (required - 1) * (|sz a x| + |sz b x|) := by
    unfold flexList
    simp only [cost_append, hfix, hends]
  have hs2 : ((spacerElements n).map fun e => |sz e x|).sum
      = |sz a x| + (m.map fun e => |sz e x|).sum + |sz b x| := by
    rw [h1]; simp; ring
  rw [hsum] at hs2
  have p1 := abs_nonneg (sz a x)
  have p2 := abs_nonneg (sz b x)
  have p3 : 0 ≤ (m.map fun e => |sz e x|).sum := by
    apply List.sum_nonneg
    intro q hq
    obtain ⟨p, _, rfl⟩ := List.mem_map.1 hq
    exact abs_nonneg _
  have v1 : spacerSizeEq = 100100100 := by norm_num [spacerSizeEq, required]
  have v2 : required = 1001001000 := by norm_num [required]
  rw [hc, hs2, v1, v2]
  constructor
  · linarith
  · intro h
    have : |sz a x| = 0 := by linarith
    have h' : |sz b x| = 0 := by linarith
    have h'' : (m.map fun e => |sz e x|).sum = 0 := by linarith
    rw [this, h', h'']; ring

/-- The cost of a legacy layout without spacing. -/
theorem legacy_cost {l : Layout} (hf : l.flex = .legacy) (h0 : Spacing.value l.spacing = 0)
    (x : Var → ℚ) :
    weightedViolation (softList l) x =
      cost (flexList (areaElement l.constraints.length) (spacerElements l.constraints.length)
        .legacy 0) x +
      (cost ((l.constraints.zip (segmentElements l.constraints.length)).flatMap fun p =>
        constraintFor (areaElement l.constraints.length) p.2 .legacy p.1) x +
       cost ((allPairs ((l.constraints.zip (segmentElements l.constraints.length)).filterMap
        fun p => (scalingFactor .legacy p.1).map fun k => (p.2, k))).map
          fun p => fillPair p.1 p.2) x) := by
  rw [wv_eq_cost (fun c hc => (soft_softList l c hc).lt)]
  unfold softList
  simp only [cost_append, hf, h0, fillPairs_eq]
  have : neighbourConstraints (segmentElements l.constraints.length) .legacy = [] := by
    unfold neighbourConstraints; simp
  rw [this, cost_nil]
  unfold sizeConstraints validFill
  ring

theorem area_size {n : Nat} {a b : ℚ} {x : Var → ℚ} (h : Placed n a b x) :
    sz (areaElement n) x = b - a := by
  unfold sz areaElement
  simp only
  rw [h.last, h.first]

/-- The weights of the segments that take part in filling. -/
theorem weights_le (cs : List Constraint) (es : List Element) (hl : cs.length = es.length) :
    (((cs.zip es).filterMap fun p => (scalingFactor .legacy p.1).map fun k => (p.2, k)).map
      Prod.snd).sum ≤ ((cs.map fillWeight).sum : Int) + (cs.length : ℚ) / 1000000 := by
  induction cs generalizing es with
  | nil => simp
  | cons c cs ih =>
    cases es with
    | nil => simp at hl
    | cons e es =>
      have := ih es (by simpa using hl)
      have hz : (c :: cs).zip (e :: es) = (c, e) :: cs.zip es := rfl
      rw [hz]
      cases hs : scalingFactor .legacy c with
      | none =>
        have hw : 0 ≤ ((fillWeight c : Int) : ℚ) := by
          cases c <;> simp [fillWeight]
        simp only [List.filterMap_cons, hs, Option.map_none, List.map_cons, List.sum_cons,
          List.length_cons]
        rw [Int.cast_add, Nat.cast_add, Nat.cast_one]
        linarith
      | some k =>
        have hw : k ≤ ((fillWeight c : Int) : ℚ) + 1 / 1000000 := by
          cases c <;> simp only [scalingFactor, reduceCtorEq, if_true, Option.some.injEq] at hs
          rw [← hs]
          simp only [fillWeight]
          push_cast
          apply max_le
          · linarith [le_max_left (0:ℚ) ((‹Int› : Int) : ℚ)]
          · linarith [le_max_right (0:ℚ) ((‹Int› : Int) : ℚ)]
        simp only [List.filterMap_cons, hs, Option.map_some, List.map_cons, List.sum_cons,
          List.length_cons]
        rw [Int.cast_add, Nat.cast_add, Nat.cast_one]
        linarith

theorem sum_zip_snd {f : Constraint × Element → ℚ} {g : Element → ℚ} {C : ℚ}
    (cs : List Constraint) (es : List Element) (hl : cs.length = es.length)
    (h : ∀ p ∈ cs.zip es, f p ≤ C * g p.2) : ((cs.zip es).map f).sum ≤ C * (es.map g).sum := by
  induction cs generalizing es with
  | nil =>
    cases es with
    | nil => simp
    | cons e es => simp at hl
  | cons c cs ih =>
    cases es with
    | nil => simp at hl
    | cons e es =>
      have := ih es (by simpa using hl) (fun p hp => h p (List.mem_cons_of_mem _ hp))
      have h1 := h (c, e) List.mem_cons_self
      have hz : (c :: cs).zip (e :: es) = (c, e) :: cs.zip es := rfl
      rw [hz]
      simp only [List.map_cons, List.sum_cons]
      linarith

/-- A best placement of a legacy layout without spacing has no gaps. -/
theorem no_gaps {l : Layout} (hf : l.flex = .legacy) (h0 : Spacing.value l.spacing = 0)
    (hn : 0 < l.constraints.length) (hn2 : l.constraints.length ≤ 1000000)
    (hw : (l.constraints.map fillWeight).sum ≤ 1000000) {a b : ℚ} (hab : a ≤ b) {x : Var → ℚ}
    (hx : Placed l.constraints.length a b x)
    (hbest : ∀ y, Placed l.constraints.length a b y →
      weightedViolation (softList l) x ≤ weightedViolation (softList l) y) :
    ∀ i < l.constraints.length + 1, x (2 * i + 1) = x (2 * i) := by
  obtain ⟨s', hs', hsum, hdiff⟩ := redistribute hn (fun i => x (2 * i + 2) - x (2 * i + 1))
    (fun i hi => by have := hx.ordered i hi; linarith) (L := b - a) (by linarith)
  have hy := stack_placed hs' hsum
  have hle := hbest _ hy
  rw [legacy_cost hf h0, legacy_cost hf h0] at hle
  have hfx := (legacy_flex_cost hn x).1
  have hfy := (legacy_flex_cost hn (stack a s')).2 (by
    apply sum_eq_zero
    intro i _
    rw [stack_spacer]; simp)
  have hlen : l.constraints.length = (segmentElements l.constraints.length).length := by
    rw [segmentElements_eq]; simp
  have hK : ((((l.constraints.zip (segmentElements l.constraints.length)).filterMap
      fun p => (scalingFactor .legacy p.1).map fun k => (p.2, k)).map Prod.snd).sum : ℚ)
        ≤ 1000001 := by
    refine (weights_le _ _ hlen).trans ?_
    have h1 : (((l.constraints.map fillWeight).sum : Int) : ℚ) ≤ 1000000 := by exact_mod_cast hw
    have h2 : ((l.constraints.length : Nat) : ℚ) ≤ 1000000 := by exact_mod_cast hn2
    linarith
  have hlip := segments_lip (areaElement l.constraints.length)
    (x := x) (y := stack a s') (by rw [area_size hx, area_size hy]) _ hK
  have hC : (((l.constraints.zip (segmentElements l.constraints.length)).map fun p =>
      (lip p.1 + if (scalingFactor .legacy p.1).isSome then 100 * (1000001 : ℚ) else 0) *
        |sz p.2 (stack a s') - sz p.2 x|).sum : ℚ)
      ≤ 100010000 * ((segmentElements l.constraints.length).map
        fun e => |sz e (stack a s') - sz e x|).sum := by
    apply sum_zip_snd _ _ hlen
    intro p _
    apply mul_le_mul_of_nonneg_right _ (abs_nonneg _)
    cases p.1 <;> simp [lip, scalingFactor] <;> norm_num
  have hsegs : ((segmentElements l.constraints.length).map
        fun e => |sz e (stack a s') - sz e x|).sum
      = ∑ i ∈ range l.constraints.length, |s' i - (x (2 * i + 2) - x (2 * i + 1))| := by
    rw [segmentElements_eq, sum_map_range]
    apply sum_congr rfl
    intro i _
    unfold sz
    simp only
    rw [stack_segment]
  have htot := placed_total hx
  have hD : |b - a - ∑ i ∈ range l.constraints.length, (x (2 * i + 2) - x (2 * i + 1))|
      ≤ ∑ i ∈ range (l.constraints.length + 1), |x (2 * i + 1) - x (2 * i)| := by
    rw [show b - a - ∑ i ∈ range l.constraints.length, (x (2 * i + 2) - x (2 * i + 1))
      = ∑ i ∈ range (l.constraints.length + 1), (x (2 * i + 1) - x (2 * i)) by linarith]
    exact abs_sum_le_sum_abs _ _
  rw [hsegs, hdiff] at hC
  have hD0 : 0 ≤ ∑ i ∈ range (l.constraints.length + 1), |x (2 * i + 1) - x (2 * i)| :=
    sum_nonneg fun i _ => abs_nonneg _
  have v1 : spacerSizeEq = 100100100 := by norm_num [spacerSizeEq, required]
  rw [v1] at hfx
  have hz : ∑ i ∈ range (l.constraints.length + 1), |x (2 * i + 1) - x (2 * i)| = 0 := by
    linarith
  intro i hi
  have := (sum_eq_zero_iff_of_nonneg fun i _ => abs_nonneg _).1 hz i (mem_range.2 hi)
  have := abs_eq_zero.1 this
  linarith

theorem tilesFrom_elements {d : Direction} {inner : Rect} {x : Var → ℚ} {b : Int} :
    ∀ (m k : Nat), (∀ i < m, x (2 * (k + i) + 1) ≤ x (2 * (k + i) + 2)) →
      (∀ i < m + 1, x (2 * (k + i) + 1) = x (2 * (k + i))) → toCell (x (2 * (k + m))) = b →
      TilesFrom d b (toCell (x (2 * k)))
        (changesToRects x ((List.range' k m).map fun i => ⟨2 * i + 1, 2 * i + 2⟩) inner d) := by
  intro m
  induction m with
  | zero => intro k _ _ h; simpa [changesToRects, TilesFrom] using h
  | succ m ih =>
    intro k ho hg hb
    rw [List.range'_succ, List.map_cons]
    simp only [changesToRects, List.map_cons, TilesFrom]
    have e0 := hg 0 (by omega)
    have o0 := ho 0 (by omega)
    simp only [Nat.add_zero] at e0 o0
    have hm := toCell_mono o0
    have hlo : lo d (elementRect x inner d ⟨2 * k + 1, 2 * k + 2⟩) = toCell (x (2 * k)) := by
      cases d <;> simp only [elementRect, lo, e0]
    have hex : extent d (elementRect x inner d ⟨2 * k + 1, 2 * k + 2⟩)
        = toCell (x (2 * k + 2)) - toCell (x (2 * k)) := by
      rw [e0] at hm
      cases d <;> simp only [elementRect, extent, e0] <;> omega
    refine ⟨hlo, ?_, ?_⟩
    · rw [hex]; rw [e0] at hm; omega
    · rw [hex, show toCell (x (2 * k)) + (toCell (x (2 * k + 2)) - toCell (x (2 * k)))
        = toCell (x (2 * (k + 1))) by rw [show 2 * (k + 1) = 2 * k + 2 by ring]; ring]
      have := ih (k + 1)
        (fun i hi => by have := ho (i + 1) (by omega); rwa [show k + (i + 1) = k + 1 + i by ring] at this)
        (fun i hi => by have := hg (i + 1) (by omega); rwa [show k + (i + 1) = k + 1 + i by ring] at this)
        (by rwa [show k + 1 + m = k + (m + 1) by ring])
      exact this

end Bento.Layout
