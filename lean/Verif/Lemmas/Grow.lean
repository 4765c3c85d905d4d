import Verif.Lemmas.Flex
import Verif.Spec.Grow

/-!
# Rows with segments that grow

The wish of a segment to grow outweighs that of the gaps and of equal neighbours, and is outweighed by
the sizes asked for and by the spacing. What is left is shared in proportion, because the wishes for
equal proportions outweigh those for equal neighbours.
-/

namespace Bento.Layout

open Casso Finset

/-! ### Pairs in proportion -/

theorem pairs_double {α : Type} (f : α → α → ℚ) (hs : ∀ p q, f p q = f q p) (xs : List α) :
    (xs.map fun p => (xs.map (f p)).sum).sum
      = 2 * ((allPairs xs).map fun p => f p.1 p.2).sum + (xs.map fun p => f p p).sum := by
  induction xs with
  | nil => simp [allPairs]
  | cons x xs ih =>
    have h1 : (xs.map fun p => ((x :: xs).map (f p)).sum).sum
        = (xs.map (f x)).sum + (xs.map fun p => (xs.map (f p)).sum).sum := by
      rw [← List.sum_map_add]
      congr 1
      apply List.map_congr_left
      intro p _
      rw [List.map_cons, List.sum_cons, hs p x]
    rw [List.map_cons, List.sum_cons, h1, ih]
    simp only [allPairs, List.map_append, List.sum_append, List.map_map, List.map_cons, List.sum_cons]
    have h2 : (List.map ((fun p : α × α => f p.1 p.2) ∘ fun y => (x, y)) xs).sum = (xs.map (f x)).sum := rfl
    rw [h2]
    ring

/-- If changes are out of proportion, the pairs notice. -/
theorem pairs_lower {α : Type} (d w : α → ℚ) (xs : List α) (hw : ∀ p ∈ xs, 0 ≤ w p) :
    (xs.map w).sum * ((xs.map fun p => |d p|).sum - |(xs.map d).sum|)
      ≤ 2 * ((allPairs xs).map fun p => |d p.1 * w p.2 - d p.2 * w p.1|).sum := by
  have hd := pairs_double (fun p q => |d p * w q - d q * w p|)
    (fun p q => by rw [abs_sub_comm]) xs
  have h0 : (xs.map fun p => |d p * w p - d p * w p|).sum = 0 := by
    apply List.sum_eq_zero
    intro q hq
    obtain ⟨p, _, rfl⟩ := List.mem_map.1 hq
    simp
  rw [h0, add_zero] at hd
  rw [← hd]
  have hin : ∀ p ∈ xs, |d p| * (xs.map w).sum - |(xs.map d).sum| * w p
      ≤ (xs.map fun q => |d p * w q - d q * w p|).sum := by
    intro p hp
    have h1 : |d p * (xs.map w).sum - (xs.map d).sum * w p|
        ≤ (xs.map fun q => |d p * w q - d q * w p|).sum := by
      clear hd h0 hp hw
      induction xs with
      | nil => simp
      | cons q xs ih =>
        simp only [List.map_cons, List.sum_cons]
        have : d p * (w q + (xs.map w).sum) - (d q + (xs.map d).sum) * w p
            = (d p * w q - d q * w p) + (d p * (xs.map w).sum - (xs.map d).sum * w p) := by ring
        rw [this]
        have := abs_add_le (d p * w q - d q * w p) (d p * (xs.map w).sum - (xs.map d).sum * w p)
        linarith
    have h2 := abs_sub_abs_le_abs_sub (d p * (xs.map w).sum) ((xs.map d).sum * w p)
    have hW : 0 ≤ (xs.map w).sum := List.sum_nonneg (by
      intro q hq
      obtain ⟨p, hp, rfl⟩ := List.mem_map.1 hq
      exact hw p hp)
    rw [abs_mul, abs_mul, abs_of_nonneg hW, abs_of_nonneg (hw p hp)] at h2
    linarith
  have hsum : (xs.map fun p => |d p| * (xs.map w).sum - |(xs.map d).sum| * w p).sum
      ≤ (xs.map fun p => (xs.map fun q => |d p * w q - d q * w p|).sum).sum :=
    List.sum_le_sum hin
  refine le_trans (le_of_eq ?_) hsum
  have : ∀ (W D : ℚ) (ys : List α), (ys.map fun p => |d p| * W - D * w p).sum
      = (ys.map fun p => |d p|).sum * W - D * (ys.map w).sum := by
    intro W D ys
    induction ys with
    | nil => simp
    | cons y ys ih => simp only [List.map_cons, List.sum_cons, ih]; ring
  rw [this]
  ring

/-! ### The gaps -/

theorem inner_le {m : Nat} {a b : ℚ} {x : Var → ℚ} (hx : Placed (m + 1) a b x) {i : Nat} (hi : i < m) :
    x (2 * (i + 1) + 1) - x (2 * (i + 1)) ≤ b - a := by
  have h1 := hx.low (2 * (i + 1)) (show (2 * (i + 1) : Nat) < 2 * (m + 1) + 2 by omega)
  have h2 := hx.high (2 * (i + 1) + 1) (show (2 * (i + 1) + 1 : Nat) < 2 * (m + 1) + 2 by omega)
  linarith

/-- The cost of the gaps: wider gaps gain at most 100 for a unit, narrower ones lose more than 1100. -/
theorem flex_cost_grow (flex : Flex) {m : Nat} {spacing : Int} {a b : ℚ}
    {x y : Var → ℚ} (hx : Placed (m + 1) a b x) (hy : Placed (m + 1) a b y)
    (y0 : y 1 - y 0 = 0) (yl : y (2 * (m + 1) + 1) - y (2 * (m + 1)) = 0)
    (yi : ∀ i < m, y (2 * (i + 1) + 1) - y (2 * (i + 1)) = (spacing : ℚ) * multiplier) :
    cost (flexList (areaElement (m + 1)) (spacerElements (m + 1)) flex spacing) y
        + 1200 * ∑ i ∈ range m, max 0 (-(x (2 * (i + 1) + 1) - x (2 * (i + 1)) - (spacing : ℚ) * multiplier))
      ≤ cost (flexList (areaElement (m + 1)) (spacerElements (m + 1)) flex spacing) x
        + 100 * ((x 1 - x 0) + (x (2 * (m + 1) + 1) - x (2 * (m + 1))) +
          ∑ i ∈ range m, max 0 (x (2 * (i + 1) + 1) - x (2 * (i + 1)) - (spacing : ℚ) * multiplier)) := by
  have hA : ∀ {u : Var → ℚ}, Placed (m + 1) a b u → sz (areaElement (m + 1)) u = b - a :=
    fun h => area_size h
  have fx : 0 ≤ x 1 - x 0 := by
    have := hx.low 1 (show (1 : Nat) < 2 * (m + 1) + 2 by omega)
    rw [hx.first]; linarith
  have lx : 0 ≤ x (2 * (m + 1) + 1) - x (2 * (m + 1)) := by
    have := hx.high (2 * (m + 1)) (show (2 * (m + 1) : Nat) < 2 * (m + 1) + 2 by omega)
    rw [hx.last]; linarith
  have sx : x (2 * (m + 1) + 1) - x (2 * (m + 1)) ≤ b - a ∧ x 1 - x 0 ≤ b - a := by
    have h1 := hx.low (2 * (m + 1)) (show (2 * (m + 1) : Nat) < 2 * (m + 1) + 2 by omega)
    have h2 := hx.high 1 (show (1 : Nat) < 2 * (m + 1) + 2 by omega)
    rw [hx.last, hx.first]
    exact ⟨by linarith, by linarith⟩
  have hba : 0 ≤ b - a := by linarith [sx.2]
  have v1 : spacerSizeEq = 100100100 := by norm_num [spacerSizeEq, required]
  have v2 : required = 1001001000 := rfl
  have v3 : grow = 100 := rfl
  have hp : 0 ≤ ∑ i ∈ range m, max 0 (x (2 * (i + 1) + 1) - x (2 * (i + 1)) - (spacing : ℚ) * multiplier) :=
    sum_nonneg fun i _ => le_max_left _ _
  have hn : 0 ≤ ∑ i ∈ range m, max 0 (-(x (2 * (i + 1) + 1) - x (2 * (i + 1)) - (spacing : ℚ) * multiplier)) :=
    sum_nonneg fun i _ => le_max_left _ _
  have habs : ∑ i ∈ range m, |x (2 * (i + 1) + 1) - x (2 * (i + 1)) - (spacing : ℚ) * multiplier|
      = ∑ i ∈ range m, max 0 (x (2 * (i + 1) + 1) - x (2 * (i + 1)) - (spacing : ℚ) * multiplier)
        + ∑ i ∈ range m, max 0 (-(x (2 * (i + 1) + 1) - x (2 * (i + 1)) - (spacing : ℚ) * multiplier)) := by
    rw [← sum_add_distrib]
    apply sum_congr rfl
    intro i _
    rcases le_total 0 (x (2 * (i + 1) + 1) - x (2 * (i + 1)) - (spacing : ℚ) * multiplier) with h | h
    · rw [abs_of_nonneg h, max_eq_right h, max_eq_left (by linarith)]; ring
    · rw [abs_of_nonpos h, max_eq_left h, max_eq_right (by linarith)]; ring
  have hy0 : ∑ i ∈ range m, |y (2 * (i + 1) + 1) - y (2 * (i + 1)) - (spacing : ℚ) * multiplier| = 0 := by
    apply sum_eq_zero
    intro i hi
    rw [yi i (mem_range.1 hi), sub_self, abs_zero]
  have growing :
      cost ((interiorPairs (spacerElements (m + 1))).map (fun p => p.1.hasSize p.2.size spacerSizeEq) ++
        (interior (spacerElements (m + 1))).flatMap fun s =>
          [s.hasMinSize spacing spacerSizeEq, s.hasSize (areaElement (m + 1)).size spaceGrow]) y
        + 1200 * ∑ i ∈ range m, max 0 (-(x (2 * (i + 1) + 1) - x (2 * (i + 1)) - (spacing : ℚ) * multiplier))
      ≤ cost ((interiorPairs (spacerElements (m + 1))).map (fun p => p.1.hasSize p.2.size spacerSizeEq) ++
        (interior (spacerElements (m + 1))).flatMap fun s =>
          [s.hasMinSize spacing spacerSizeEq, s.hasSize (areaElement (m + 1)).size spaceGrow]) x
        + 100 * ∑ i ∈ range m, max 0 (x (2 * (i + 1) + 1) - x (2 * (i + 1)) - (spacing : ℚ) * multiplier) := by
    have py : pairCost m y = 0 := pairCost_zero_of yi
    have px := pairCost_nonneg m x
    rw [cost_append, cost_append, growing_cost, growing_cost, hA hx, hA hy]
    change pairCost m y + _ + _ ≤ pairCost m x + _ + _
    have key : ∑ i ∈ range m, (100100100 * max 0 (-(y (2 * (i + 1) + 1) - y (2 * (i + 1)) - (spacing : ℚ) * multiplier))
          + 10 * |y (2 * (i + 1) + 1) - y (2 * (i + 1)) - (b - a)|)
        + 1200 * ∑ i ∈ range m, max 0 (-(x (2 * (i + 1) + 1) - x (2 * (i + 1)) - (spacing : ℚ) * multiplier))
        ≤ ∑ i ∈ range m, (100100100 * max 0 (-(x (2 * (i + 1) + 1) - x (2 * (i + 1)) - (spacing : ℚ) * multiplier))
          + 10 * |x (2 * (i + 1) + 1) - x (2 * (i + 1)) - (b - a)|)
        + 100 * ∑ i ∈ range m, max 0 (x (2 * (i + 1) + 1) - x (2 * (i + 1)) - (spacing : ℚ) * multiplier) := by
      rw [mul_sum, mul_sum, ← sum_add_distrib, ← sum_add_distrib]
      apply sum_le_sum
      intro i hi
      have h1 := yi i (mem_range.1 hi)
      have h2 := inner_le hy (mem_range.1 hi)
      have h3 := inner_le hx (mem_range.1 hi)
      rw [h1] at h2 ⊢
      generalize x (2 * (i + 1) + 1) - x (2 * (i + 1)) = u at *
      rw [sub_self, neg_zero, max_self, abs_of_nonpos (by linarith : (spacing : ℚ) * multiplier - (b - a) ≤ 0),
        abs_of_nonpos (by linarith : u - (b - a) ≤ 0)]
      rcases le_total 0 (u - (spacing : ℚ) * multiplier) with h | h
      · rw [max_eq_right h, max_eq_left (by linarith)]; linarith
      · rw [max_eq_left h, max_eq_right (by linarith)]; linarith
    linarith
  unfold flexList
  cases flex with
  | legacy =>
    simp only [cost_append, fixed_cost, endsOf_spacers, cost_cons, cost_nil, violation_isEmpty]
    simp only [Element.isEmpty, Constr.constantRHS, v2, sz]
    rw [y0, yl, hy0, habs, abs_of_nonneg fx, abs_of_nonneg lx, abs_zero]
    linarith
  | spaceAround => simp only; linarith
  | spaceBetween =>
    simp only
    rw [cost_append _ (endsOf _ _) y, cost_append _ (endsOf _ _) x]
    simp only [endsOf_spacers, cost_cons, cost_nil, violation_isEmpty]
    simp only [Element.isEmpty, Constr.constantRHS, v2, sz]
    rw [y0, yl, abs_of_nonneg fx, abs_of_nonneg lx, abs_zero]
    linarith
  | start =>
    simp only [cost_append, fixed_cost, endsOf_spacers, cost_cons, cost_nil, violation_isEmpty,
      violation_hasSize, eval_size, hA hx, hA hy]
    simp only [Element.isEmpty, Element.hasSize, Constr.constantRHS, Constr.expressionRHS, v2, v3, sz]
    rw [y0, yl, hy0, habs, abs_of_nonneg fx, abs_zero, abs_of_nonpos (by linarith : 0 - (b - a) ≤ 0),
      abs_of_nonpos (show x _ - x _ - (b - a) ≤ 0 by linarith [sx.1])]
    linarith
  | end' =>
    simp only [cost_append, fixed_cost, endsOf_spacers, cost_cons, cost_nil, violation_isEmpty,
      violation_hasSize, eval_size, hA hx, hA hy]
    simp only [Element.isEmpty, Element.hasSize, Constr.constantRHS, Constr.expressionRHS, v2, v3, sz]
    rw [y0, yl, hy0, habs, abs_of_nonneg lx, abs_zero, abs_of_nonpos (by linarith : 0 - (b - a) ≤ 0),
      abs_of_nonpos (show x 1 - x 0 - (b - a) ≤ 0 by linarith [sx.2])]
    linarith
  | center =>
    simp only [cost_append, fixed_cost, endsOf_spacers, cost_cons, cost_nil,
      violation_hasSize, eval_size, hA hx, hA hy]
    simp only [Element.hasSize, Constr.expressionRHS, v1, v3, sz]
    have a2 := abs_nonneg (x 1 - x 0 - (x (2 * (m + 1) + 1) - x (2 * (m + 1))))
    rw [y0, yl, hy0, habs, sub_self, abs_zero, abs_of_nonpos (by linarith : 0 - (b - a) ≤ 0),
      abs_of_nonpos (show x 1 - x 0 - (b - a) ≤ 0 by linarith [sx.2]),
      abs_of_nonpos (show x (2 * (m + 1) + 1) - x (2 * (m + 1)) - (b - a) ≤ 0 by linarith [sx.1])]
    linarith

/-! ### The segments -/

theorem growWeight_nonneg (flex : Flex) (c : Constraint) : 0 ≤ growWeight flex c := by
  cases c <;> simp only [growWeight, le_refl]
  · split_ifs <;> norm_num
  · exact le_trans (by norm_num) (le_max_left _ _)

theorem scalingFactor_eq (flex : Flex) (c : Constraint) :
    scalingFactor flex c = if growWeight flex c = 0 then none else some (growWeight flex c) := by
  have hfill : ∀ n : Int, growWeight flex (.fill n) ≠ 0 := fun n =>
    ne_of_gt (lt_of_lt_of_le (by norm_num : (0 : ℚ) < 1 / 1000000) (le_max_left _ _))
  cases c
  case fill n => rw [if_neg (hfill n)]; rfl
  case min t =>
    by_cases hf : flex = .legacy <;> simp [growWeight, scalingFactor, hf]
  all_goals rfl

theorem baseSize_grow {flex : Flex} {total : Int} {c : Constraint} (h : growWeight flex c ≠ 0) :
    baseSize flex total c = 0 := by
  cases c <;> simp only [growWeight, ne_eq, not_true_eq_false] at h
  · by_cases hf : flex = .legacy
    · simp [hf] at h
    · simp [baseSize, hf]
  · rfl

theorem base_cost {flex : Flex} {total : Int} {c : Constraint} (h : growWeight flex c = 0)
    (area e : Element) {x : Var → ℚ} (ha : sz area x = total * multiplier) :
    10000 * |sz e x - baseSize flex total c * multiplier| ≤ cost (constraintFor area e flex c) x ∧
    (sz e x = baseSize flex total c * multiplier → cost (constraintFor area e flex c) x = 0) := by
  have hd : ∀ q, definiteSize total c = some q → baseSize flex total c = q := by
    intro q hq
    cases c <;> first
      | (rw [baseSize, hq]; rfl; intro t ht; cases ht)
      | cases hq
  cases hs : definiteSize total c with
  | some q => rw [hd q hs]; exact definite_cost hs flex area e ha
  | none =>
    cases c <;> simp only [definiteSize, reduceCtorEq] at hs
    case min t =>
      have hf : flex = .legacy := by
        by_contra hf
        simp [growWeight, hf] at h
      subst hf
      have hb : baseSize .legacy total (.min t) = t := by simp [baseSize]
      have hst : strong = 1000000 := rfl
      have hmd : medium = 1000 := rfl
      rw [hb]
      simp only [constraintFor, if_true, cost_cons, cost_nil, violation_hasIntSize, violation_hasMinSize]
      simp only [Element.hasIntSize, Element.hasMinSize, Constr.constantRHS, minSizeGTE, minSizeEq, hst, hmd]
      have := le_max_left 0 (-(sz e x - (t : ℚ) * multiplier))
      refine ⟨by linarith, fun h => ?_⟩
      rw [h, sub_self, abs_zero]; simp
    case fill n =>
      simp only [growWeight] at h
      have := le_max_left (1 / 1000000) (n : ℚ)
      rw [h] at this
      norm_num at this

theorem grow_cost {flex : Flex} {c : Constraint} (h : growWeight flex c ≠ 0)
    (area e : Element) {x : Var → ℚ} (hle : sz e x ≤ sz area x) :
    1000 * (sz area x - sz e x) ≤ cost (constraintFor area e flex c) x ∧
    ((∀ t, c = .min t → (t : ℚ) * multiplier ≤ sz e x) →
      cost (constraintFor area e flex c) x = 1000 * (sz area x - sz e x)) := by
  have hst : strong = 1000000 := rfl
  have hmd : medium = 1000 := rfl
  cases c <;> simp only [growWeight, ne_eq, not_true_eq_false] at h
  case min t =>
    have hf : flex ≠ .legacy := by rintro rfl; simp at h
    simp only [constraintFor, if_neg hf, cost_cons, cost_nil, violation_hasSize, violation_hasMinSize, eval_size]
    simp only [Element.hasSize, Element.hasMinSize, Constr.constantRHS, Constr.expressionRHS, minSizeGTE, fillGrow, hst, hmd]
    rw [abs_of_nonpos (by linarith : sz e x - sz area x ≤ 0)]
    have := le_max_left 0 (-(sz e x - (t : ℚ) * multiplier))
    refine ⟨by linarith, fun h => ?_⟩
    have := h t rfl
    rw [max_eq_left (by linarith)]; ring
  case fill n =>
    simp only [constraintFor, cost_cons, cost_nil, violation_hasSize, eval_size]
    simp only [Element.hasSize, Constr.expressionRHS, fillGrow, hmd]
    rw [abs_of_nonpos (by linarith : sz e x - sz area x ≤ 0)]
    exact ⟨by linarith, fun _ => by ring⟩

/-! ### The pairs of growing segments -/

theorem sum_filterMap_range {β : Type} (f : Nat → Option β) (F : β → ℚ) (n : Nat) :
    (((List.range n).filterMap f).map F).sum = ∑ i ∈ range n, ((f i).map F).getD 0 := by
  induction n with
  | zero => simp
  | succ n ih =>
    rw [List.range_succ, List.filterMap_append, List.map_append, List.sum_append, ih, sum_range_succ]
    congr 1
    cases h : f n <;> simp [h]

theorem validFill_eq (l : Layout) : validFill (segmentElements l.constraints.length) l.constraints l.flex
    = (List.range l.constraints.length).filterMap fun i =>
        if growWeight l.flex (con l i) = 0 then none
        else some ((⟨2 * i + 1, 2 * i + 2⟩ : Element), growWeight l.flex (con l i)) := by
  unfold validFill
  rw [zip_segments, List.filterMap_map]
  apply List.filterMap_congr
  intro i _
  simp only [Function.comp, scalingFactor_eq]
  split_ifs <;> rfl

theorem sum_validFill (l : Layout) (F : Element × ℚ → ℚ) :
    ((validFill (segmentElements l.constraints.length) l.constraints l.flex).map F).sum
      = ∑ i ∈ range l.constraints.length, if growWeight l.flex (con l i) = 0 then 0 else
          F ((⟨2 * i + 1, 2 * i + 2⟩ : Element), growWeight l.flex (con l i)) := by
  rw [validFill_eq, sum_filterMap_range]
  apply sum_congr rfl
  intro i _
  split_ifs <;> rfl

theorem fillPairs_cost (l : Layout) (x : Var → ℚ) :
    cost ((fillPairs (segmentElements l.constraints.length) l.constraints l.flex).map
        fun p => fillPair p.1 p.2) x
      = 100 * ((allPairs (validFill (segmentElements l.constraints.length) l.constraints l.flex)).map
          fun p => |sz p.1.1 x * p.2.2 - sz p.2.1 x * p.1.2|).sum := by
  have hp : fillPairs (segmentElements l.constraints.length) l.constraints l.flex
      = allPairs (validFill (segmentElements l.constraints.length) l.constraints l.flex) := by
    unfold fillPairs
    split_ifs with h
    · match hv : validFill (segmentElements l.constraints.length) l.constraints l.flex with
      | [] => rfl
      | [p] => rfl
      | p :: q :: r => rw [hv] at h; simp only [List.length_cons] at h; omega
    · rfl
  rw [hp]
  unfold cost
  generalize allPairs (validFill (segmentElements l.constraints.length) l.constraints l.flex) = ps
  induction ps with
  | nil => simp
  | cons p ps ih =>
    simp only [List.map_cons, List.sum_cons] at ih ⊢
    rw [ih, violation_fillPair]
    have : (fillPair p.1 p.2).strength = 100 := rfl
    rw [this]; ring

/-! ### Together -/

/-- The size of segment `i`, in solver units. -/
def grown (l : Layout) (total : Int) (i : Nat) : ℚ :=
  grownSize l.flex l.constraints (Spacing.value l.spacing) total (con l i) * multiplier

theorem neighbours_any {m : Nat} (flex : Flex) (x y : Var → ℚ) :
    cost (neighbourConstraints (segmentElements (m + 1)) flex) y
      ≤ cost (neighbourConstraints (segmentElements (m + 1)) flex) x
        + (if flex = .legacy then 0 else 2) * ∑ i ∈ range (m + 1),
            |x (2 * i + 2) - x (2 * i + 1) - (y (2 * i + 2) - y (2 * i + 1))| := by
  by_cases hf : flex = .legacy
  · subst hf
    simp [neighbourConstraints]
  · rw [neighbours_cost hf, neighbours_cost hf, if_neg hf]
    exact neighbours_lip m (fun i => y (2 * i + 2) - y (2 * i + 1)) (fun i => x (2 * i + 2) - x (2 * i + 1))

/-- If some segment grows and everything fits, the gaps of a best placement are the spacing, nothing is
left at the ends, and every segment has the size of the specification. -/
theorem grow_exact {l : Layout} {m : Nat} (hn : l.constraints.length = m + 1)
    {total : Int} {a b : ℚ} (hab : b - a = total * multiplier)
    (hW : 0 < (l.constraints.map (growWeight l.flex)).sum)
    (hW1 : l.flex ≠ .legacy → 1 ≤ (l.constraints.map (growWeight l.flex)).sum)
    (hsz : ∀ c ∈ l.constraints,
      0 ≤ grownSize l.flex l.constraints (Spacing.value l.spacing) total c ∧
      0 ≤ grownSize l.flex l.constraints (Spacing.value l.spacing) total c + (Spacing.value l.spacing : ℚ))
    (hmin : l.flex ≠ .legacy → ∀ t, Constraint.min t ∈ l.constraints →
      (t : ℚ) ≤ grownSize l.flex l.constraints (Spacing.value l.spacing) total (.min t))
    {x : Var → ℚ} (hx : Placed l.constraints.length a b x)
    (hbest : ∀ y, Placed l.constraints.length a b y →
      weightedViolation (softList l) x ≤ weightedViolation (softList l) y) :
    (∀ i < m + 1, x (2 * i + 2) - x (2 * i + 1) = grown l total i) ∧
    ∀ i < m + 1 + 1, x (2 * i + 1) - x (2 * i)
      = if 0 < i ∧ i < m + 1 then (Spacing.value l.spacing : ℚ) * multiplier else 0 := by
  have hm : multiplier = 100 := rfl
  have hgr : ∀ i, grown l total i
      = grownSize l.flex l.constraints (Spacing.value l.spacing) total (con l i) * multiplier := fun _ => rfl
  generalize hsp : Spacing.value l.spacing = spacing at *
  have hWs : (l.constraints.map (growWeight l.flex)).sum
      = ∑ i ∈ range (m + 1), growWeight l.flex (con l i) := by
    rw [sum_con l (growWeight l.flex), hn]
  -- the sizes add up
  have hsum : ∑ i ∈ range (m + 1), grown l total i = (total - m * (spacing : ℚ)) * multiplier := by
    simp only [hgr]
    rw [← sum_mul]
    congr 1
    unfold grownSize
    rw [sum_add_distrib, ← sum_div, ← mul_sum, hWs, mul_div_assoc, div_self (by rw [← hWs]; exact hW.ne'),
      mul_one]
    unfold freeSpace
    rw [sum_con l (baseSize l.flex total), hn]
    push_cast; ring
  let g : Nat → ℚ := fun i => if 0 < i ∧ i < m + 1 then (spacing : ℚ) * multiplier else 0
  have g0 : g 0 = 0 := by simp [g]
  have gl : g (m + 1) = 0 := by simp [g]
  have gi : ∀ i < m, g (i + 1) = (spacing : ℚ) * multiplier := by
    intro i hi; simp only [g]; rw [if_pos ⟨by omega, by omega⟩]
  have gsum : ∑ i ∈ range (m + 1 + 1), g i = m * ((spacing : ℚ) * multiplier) := by
    rw [sum_gaps, g0, gl, sum_congr rfl fun i hi => gi i (mem_range.1 hi)]
    simp
  have hz0 : ∀ i < m + 1, 0 ≤ grown l total i := by
    intro i hi
    have := (hsz _ (con_mem (l := l) (i := i) (by omega))).1
    rw [hgr, hm]; linarith
  have hzs : ∀ i < m + 1, 0 ≤ grown l total i + (spacing : ℚ) * multiplier := by
    intro i hi
    have := (hsz _ (con_mem (l := l) (i := i) (by omega))).2
    rw [hgr, hm]; linarith
  have hy : Placed (m + 1) a b (place a g (grown l total)) :=
    place_placed_overlap g0.ge gl.ge hz0
      (fun i hi => by rw [gi i (by omega)]; exact hzs i (by omega))
      (fun i hi => by rw [gi i (by omega)]; have := hzs (i + 1) (by omega); linarith)
      (by rw [gsum, hsum, hab]; ring)
  rw [hn] at hx hbest
  have hle := hbest _ hy
  rw [wv_eq_cost (fun c hc => (soft_softList l c hc).lt),
    wv_eq_cost (fun c hc => (soft_softList l c hc).lt)] at hle
  unfold softList at hle
  simp only [cost_append, fillPairs_cost, sizes_cost, hsp] at hle
  rw [hn] at hle
  generalize hyd : place a g (grown l total) = y at *
  have yg : ∀ i, y (2 * i + 1) - y (2 * i) = g i := fun i => by rw [← hyd]; exact place_gap _ _ _ i
  have yz : ∀ i, y (2 * i + 2) - y (2 * i + 1) = grown l total i :=
    fun i => by rw [← hyd]; exact place_segment _ _ _ i
  have hfc := flex_cost_grow l.flex (spacing := spacing) hx hy
    (by have := yg 0; rw [g0] at this; exact this) (by rw [yg, gl]) (fun i hi => by rw [yg, gi i hi])
  have hnc := neighbours_any (m := m) l.flex x y
  have hxa : sz (areaElement (m + 1)) x = total * multiplier := by rw [area_size hx, hab]
  have hya : sz (areaElement (m + 1)) y = total * multiplier := by rw [area_size hy, hab]
  -- the changes of the sizes
  let d : Nat → ℚ := fun i => x (2 * i + 2) - x (2 * i + 1) - grown l total i
  have hdef : ∀ i, x (2 * i + 2) - x (2 * i + 1) - (y (2 * i + 2) - y (2 * i + 1)) = d i :=
    fun i => by rw [yz i]
  simp only [hdef] at hnc
  let G : Nat → Prop := fun i => growWeight l.flex (con l i) ≠ 0
  have hsc : ∑ i ∈ range (m + 1),
        cost (constraintFor (areaElement (m + 1)) ⟨2 * i + 1, 2 * i + 2⟩ l.flex (con l i)) y
      + ∑ i ∈ range (m + 1), (if growWeight l.flex (con l i) = 0 then 10000 * |d i| else -(1000 * d i))
      ≤ ∑ i ∈ range (m + 1),
        cost (constraintFor (areaElement (m + 1)) ⟨2 * i + 1, 2 * i + 2⟩ l.flex (con l i)) x := by
    rw [← sum_add_distrib]
    apply sum_le_sum
    intro i hi
    have hi := mem_range.1 hi
    have ex : sz ⟨2 * i + 1, 2 * i + 2⟩ x = x (2 * i + 2) - x (2 * i + 1) := rfl
    have ey : sz ⟨2 * i + 1, 2 * i + 2⟩ y = grown l total i := yz i
    split_ifs with hg
    · have hz : grown l total i = baseSize l.flex total (con l i) * multiplier := by
        rw [hgr]; unfold grownSize; rw [hg]; simp
      have h1 := (base_cost (total := total) hg (areaElement (m + 1)) ⟨2 * i + 1, 2 * i + 2⟩ hxa).1
      have h2 := (base_cost (total := total) hg (areaElement (m + 1)) ⟨2 * i + 1, 2 * i + 2⟩ hya).2
        (by rw [ey, hz])
      rw [h2]
      rw [ex, ← hz] at h1
      change 0 + 10000 * |x (2 * i + 2) - x (2 * i + 1) - grown l total i| ≤ _
      linarith
    · have lx : ∀ {u : Var → ℚ}, Placed (m + 1) a b u →
          sz ⟨2 * i + 1, 2 * i + 2⟩ u ≤ sz (areaElement (m + 1)) u := by
        intro u hu
        rw [area_size hu]
        have h1 := hu.low (2 * i + 1) (show (2 * i + 1 : Nat) < 2 * (m + 1) + 2 by omega)
        have h2 := hu.high (2 * i + 2) (show (2 * i + 2 : Nat) < 2 * (m + 1) + 2 by omega)
        unfold sz
        linarith
      have h1 := (grow_cost hg (areaElement (m + 1)) ⟨2 * i + 1, 2 * i + 2⟩ (lx hx)).1
      have h2 := (grow_cost hg (areaElement (m + 1)) ⟨2 * i + 1, 2 * i + 2⟩ (lx hy)).2 (by
        intro t ht
        rw [ey, hgr, ht]
        have hmem : Constraint.min t ∈ l.constraints := by rw [← ht]; exact con_mem (by omega)
        have hfl : l.flex ≠ .legacy := by
          intro hf
          rw [ht, hf] at hg
          simp [growWeight] at hg
        have := hmin hfl t hmem
        exact mul_le_mul_of_nonneg_right this (by norm_num [hm]))
      rw [h2, hya, ey]
      rw [hxa, ex] at h1
      change _ + -(1000 * (x (2 * i + 2) - x (2 * i + 1) - grown l total i)) ≤ _
      linarith
  -- the pairs
  have hprop : ∀ p ∈ allPairs (validFill (segmentElements (m + 1)) l.constraints l.flex),
      sz p.1.1 y * p.2.2 - sz p.2.1 y * p.1.2 = 0 := by
    intro p hp
    obtain ⟨h1, h2⟩ := mem_allPairs hp
    rw [← hn, validFill_eq] at h1 h2
    obtain ⟨i, _, hi⟩ := List.mem_filterMap.1 h1
    obtain ⟨j, _, hj⟩ := List.mem_filterMap.1 h2
    split_ifs at hi hj with g1 g2
    have e1 : p.1 = _ := (Option.some.inj hi).symm
    have e2 : p.2 = _ := (Option.some.inj hj).symm
    have ei : sz ⟨2 * i + 1, 2 * i + 2⟩ y = grown l total i := yz i
    have ej : sz ⟨2 * j + 1, 2 * j + 2⟩ y = grown l total j := yz j
    rw [e1, e2, ei, ej, hgr, hgr]
    unfold grownSize
    rw [baseSize_grow g1, baseSize_grow g2]
    ring
  have hpy : ((allPairs (validFill (segmentElements (m + 1)) l.constraints l.flex)).map
      fun p => |sz p.1.1 y * p.2.2 - sz p.2.1 y * p.1.2|).sum = 0 := by
    apply List.sum_eq_zero
    intro q hq
    obtain ⟨p, hp, rfl⟩ := List.mem_map.1 hq
    rw [hprop p hp, abs_zero]
  have hpx := pairs_lower (fun p : Element × ℚ => sz p.1 x - sz p.1 y) (fun p => p.2)
    (validFill (segmentElements (m + 1)) l.constraints l.flex) (by
      intro p hp
      rw [← hn, validFill_eq] at hp
      obtain ⟨i, _, hi⟩ := List.mem_filterMap.1 hp
      split_ifs at hi
      have e1 : p = _ := (Option.some.inj hi).symm
      rw [e1]
      exact growWeight_nonneg _ _)
  have hpx' : ((allPairs (validFill (segmentElements (m + 1)) l.constraints l.flex)).map
        fun p => |(sz p.1.1 x - sz p.1.1 y) * p.2.2 - (sz p.2.1 x - sz p.2.1 y) * p.1.2|).sum
      = ((allPairs (validFill (segmentElements (m + 1)) l.constraints l.flex)).map
        fun p => |sz p.1.1 x * p.2.2 - sz p.2.1 x * p.1.2|).sum := by
    congr 1
    apply List.map_congr_left
    intro p hp
    have := hprop p hp
    congr 1
    linarith
  rw [hpx'] at hpx
  rw [hpy] at hle
  have hv : ∀ F : Element × ℚ → ℚ, ((validFill (segmentElements (m + 1)) l.constraints l.flex).map F).sum
      = ∑ i ∈ range (m + 1), if growWeight l.flex (con l i) = 0 then 0 else
          F ((⟨2 * i + 1, 2 * i + 2⟩ : Element), growWeight l.flex (con l i)) := by
    intro F
    have := sum_validFill l F
    rwa [hn] at this
  rw [hv, hv, hv] at hpx
  have hW' : (∑ i ∈ range (m + 1), if growWeight l.flex (con l i) = 0 then 0 else growWeight l.flex (con l i))
      = (l.constraints.map (growWeight l.flex)).sum := by
    rw [hWs]
    apply sum_congr rfl
    intro i _
    split_ifs with h
    · rw [h]
    · rfl
  simp only at hpx
  rw [hW'] at hpx
  have hdz : ∀ i, sz ⟨2 * i + 1, 2 * i + 2⟩ x - sz ⟨2 * i + 1, 2 * i + 2⟩ y = d i := fun i => hdef i
  simp only [hdz] at hpx
  -- splitting the sums
  have hsplit : ∀ f : Nat → ℚ, ∑ i ∈ range (m + 1), f i
      = (∑ i ∈ range (m + 1), if growWeight l.flex (con l i) = 0 then f i else 0)
        + ∑ i ∈ range (m + 1), if growWeight l.flex (con l i) = 0 then 0 else f i := by
    intro f
    rw [← sum_add_distrib]
    apply sum_congr rfl
    intro i _
    split_ifs <;> ring
  have hs2 : ∑ i ∈ range (m + 1), (if growWeight l.flex (con l i) = 0 then 10000 * |d i| else -(1000 * d i))
      = 10000 * (∑ i ∈ range (m + 1), if growWeight l.flex (con l i) = 0 then |d i| else 0)
        - 1000 * ∑ i ∈ range (m + 1), if growWeight l.flex (con l i) = 0 then 0 else d i := by
    rw [mul_sum, mul_sum, ← sum_sub_distrib]
    apply sum_congr rfl
    intro i _
    split_ifs <;> ring
  have hFd : |∑ i ∈ range (m + 1), if growWeight l.flex (con l i) = 0 then d i else 0|
      ≤ ∑ i ∈ range (m + 1), if growWeight l.flex (con l i) = 0 then |d i| else 0 := by
    refine le_trans (abs_sum_le_sum_abs _ _) (le_of_eq ?_)
    apply sum_congr rfl
    intro i _
    split_ifs <;> simp
  have hGd : |∑ i ∈ range (m + 1), if growWeight l.flex (con l i) = 0 then 0 else d i|
      ≤ ∑ i ∈ range (m + 1), if growWeight l.flex (con l i) = 0 then 0 else |d i| := by
    refine le_trans (abs_sum_le_sum_abs _ _) (le_of_eq ?_)
    apply sum_congr rfl
    intro i _
    split_ifs <;> simp
  rw [hs2] at hsc
  rw [hsplit (fun i => |d i|)] at hnc
  -- everything adds up to the area
  have tx := placed_total hx
  rw [sum_gaps (fun i => x (2 * i + 1) - x (2 * i))] at tx
  simp only [Nat.mul_zero, Nat.zero_add] at tx
  have hxd : ∑ i ∈ range (m + 1), (x (2 * i + 2) - x (2 * i + 1))
      = ∑ i ∈ range (m + 1), d i + ∑ i ∈ range (m + 1), grown l total i := by
    rw [← sum_add_distrib]
    apply sum_congr rfl
    intro i _
    simp only [d]; ring
  have hge : ∑ i ∈ range m, (x (2 * (i + 1) + 1) - x (2 * (i + 1)))
      = m * ((spacing : ℚ) * multiplier)
        + ∑ i ∈ range m, max 0 (x (2 * (i + 1) + 1) - x (2 * (i + 1)) - (spacing : ℚ) * multiplier)
        - ∑ i ∈ range m, max 0 (-(x (2 * (i + 1) + 1) - x (2 * (i + 1)) - (spacing : ℚ) * multiplier)) := by
    have hc : (m : ℚ) * ((spacing : ℚ) * multiplier) = ∑ i ∈ range m, (spacing : ℚ) * multiplier := by
      rw [sum_const, card_range, nsmul_eq_mul]
    rw [hc, ← sum_add_distrib, ← sum_sub_distrib]
    apply sum_congr rfl
    intro i _
    rcases le_total 0 (x (2 * (i + 1) + 1) - x (2 * (i + 1)) - (spacing : ℚ) * multiplier) with h | h
    · rw [max_eq_right h, max_eq_left (by linarith)]; ring
    · rw [max_eq_left h, max_eq_right (by linarith)]; ring
  rw [hxd, hsum, hge, hab, hsplit d] at tx
  have hp0 : 0 ≤ ∑ i ∈ range m, max 0 (x (2 * (i + 1) + 1) - x (2 * (i + 1)) - (spacing : ℚ) * multiplier) :=
    sum_nonneg fun i _ => le_max_left _ _
  have hn0 : 0 ≤ ∑ i ∈ range m, max 0 (-(x (2 * (i + 1) + 1) - x (2 * (i + 1)) - (spacing : ℚ) * multiplier)) :=
    sum_nonneg fun i _ => le_max_left _ _
  have fx : 0 ≤ x 1 - x 0 := by
    have := hx.low 1 (show (1 : Nat) < 2 * (m + 1) + 2 by omega)
    rw [hx.first]; linarith
  have lx : 0 ≤ x (2 * (m + 1) + 1) - x (2 * (m + 1)) := by
    have := hx.high (2 * (m + 1)) (show (2 * (m + 1) : Nat) < 2 * (m + 1) + 2 by omega)
    rw [hx.last]; linarith
  have all : (∑ i ∈ range (m + 1), if growWeight l.flex (con l i) = 0 then |d i| else 0) = 0 ∧
      (∑ i ∈ range (m + 1), if growWeight l.flex (con l i) = 0 then 0 else |d i|) = 0 ∧
      x 1 - x 0 = 0 ∧ x (2 * (m + 1) + 1) - x (2 * (m + 1)) = 0 ∧
      ∑ i ∈ range m, max 0 (x (2 * (i + 1) + 1) - x (2 * (i + 1)) - (spacing : ℚ) * multiplier) = 0 ∧
      ∑ i ∈ range m, max 0 (-(x (2 * (i + 1) + 1) - x (2 * (i + 1)) - (spacing : ℚ) * multiplier)) = 0 := by
    have hk : (if l.flex = .legacy then (0 : ℚ) else 2) = 0 ∨
        ((if l.flex = .legacy then (0 : ℚ) else 2) = 2 ∧ 1 ≤ (l.constraints.map (growWeight l.flex)).sum) := by
      by_cases hf : l.flex = .legacy
      · rw [if_pos hf]; exact .inl rfl
      · rw [if_neg hf]; exact .inr ⟨rfl, hW1 hf⟩
    have hQ0 : 0 ≤ ((allPairs (validFill (segmentElements (m + 1)) l.constraints l.flex)).map
        fun p => |sz p.1.1 x * p.2.2 - sz p.2.1 x * p.1.2|).sum := List.sum_nonneg (by
      intro q hq
      obtain ⟨p, _, rfl⟩ := List.mem_map.1 hq
      exact abs_nonneg _)
    clear hmin hsz hbest hprop hpx' hpy hv hdz hsplit hs2 hdef yz yg hyd hzs hz0 hsum hxd hge hgr hWs hW' hW1
    generalize (∑ i ∈ range (m + 1), if growWeight l.flex (con l i) = 0 then |d i| else 0) = A at *
    generalize (∑ i ∈ range (m + 1), if growWeight l.flex (con l i) = 0 then 0 else |d i|) = B at *
    generalize (∑ i ∈ range (m + 1), if growWeight l.flex (con l i) = 0 then d i else 0) = Fd at *
    generalize (∑ i ∈ range (m + 1), if growWeight l.flex (con l i) = 0 then 0 else d i) = D at *
    generalize ∑ i ∈ range m, max 0 (x (2 * (i + 1) + 1) - x (2 * (i + 1)) - (spacing : ℚ) * multiplier) = P at *
    generalize ∑ i ∈ range m, max 0 (-(x (2 * (i + 1) + 1) - x (2 * (i + 1)) - (spacing : ℚ) * multiplier)) = N at *
    generalize ((allPairs (validFill (segmentElements (m + 1)) l.constraints l.flex)).map
        fun p => |sz p.1.1 x * p.2.2 - sz p.2.1 x * p.1.2|).sum = Q at *
    generalize (l.constraints.map (growWeight l.flex)).sum = W at *
    generalize (if l.flex = .legacy then (0 : ℚ) else 2) = k at *
    generalize x 1 - x 0 = f at *
    generalize x (2 * (m + 1) + 1) - x (2 * (m + 1)) = L at *
    have hFd1 := (abs_le.1 hFd).1
    have hFd2 := (abs_le.1 hFd).2
    have hD : D = -(Fd + f + P - N + L) := by linarith
    have hDa : |D| ≤ A + f + P + N + L := by
      rw [abs_le]; constructor <;> linarith
    have hA0 : 0 ≤ A := by linarith
    rcases hk with hk | ⟨hk, hW1⟩
    · subst hk
      have h1 : 0 ≤ W * (B - |D|) := mul_nonneg hW.le (by linarith)
      have e1 : A = 0 := by linarith
      have e2 : f = 0 := by linarith
      have e3 : L = 0 := by linarith
      have e4 : P = 0 := by linarith
      have e5 : N = 0 := by linarith
      refine ⟨e1, ?_, e2, e3, e4, e5⟩
      have h2 : W * (B - |D|) ≤ 0 := by linarith
      have h3 : B - |D| ≤ 0 := by
        by_contra hc
        have := mul_pos hW (not_le.1 hc)
        linarith
      have : |D| ≤ 0 := by linarith
      linarith [abs_nonneg D]
    · subst hk
      have h1 : B - |D| ≤ W * (B - |D|) := le_mul_of_one_le_left (by linarith) hW1
      have e1 : A = 0 := by linarith
      have e2 : f = 0 := by linarith
      have e3 : L = 0 := by linarith
      have e4 : P = 0 := by linarith
      have e5 : N = 0 := by linarith
      refine ⟨e1, ?_, e2, e3, e4, e5⟩
      have : |D| ≤ 0 := by linarith
      linarith [abs_nonneg D]
  obtain ⟨hA, hB, hf0, hl0, hP, hN⟩ := all
  constructor
  · intro i hi
    have hdi : |d i| = 0 := by
      by_cases hg : growWeight l.flex (con l i) = 0
      · have := (sum_eq_zero_iff_of_nonneg (fun i _ => by split_ifs <;> simp)).1 hA i (mem_range.2 hi)
        simpa [hg] using this
      · have := (sum_eq_zero_iff_of_nonneg (fun i _ => by split_ifs <;> simp)).1 hB i (mem_range.2 hi)
        simpa [hg] using this
    have := abs_eq_zero.1 hdi
    simp only [d] at this
    linarith
  · intro i hi
    rcases Nat.eq_zero_or_pos i with rfl | hpos
    · rw [if_neg (by omega)]; exact hf0
    by_cases hl : i < m + 1
    · rw [if_pos ⟨hpos, hl⟩]
      obtain ⟨j, rfl⟩ : ∃ j, i = j + 1 := ⟨i - 1, by omega⟩
      have h1 := (sum_eq_zero_iff_of_nonneg (fun i _ => le_max_left _ _)).1 hP j (mem_range.2 (by omega))
      have h2 := (sum_eq_zero_iff_of_nonneg (fun i _ => le_max_left _ _)).1 hN j (mem_range.2 (by omega))
      have h3 := le_max_right 0 (x (2 * (j + 1) + 1) - x (2 * (j + 1)) - (spacing : ℚ) * multiplier)
      have h4 := le_max_right 0 (-(x (2 * (j + 1) + 1) - x (2 * (j + 1)) - (spacing : ℚ) * multiplier))
      linarith
    · have : i = m + 1 := by omega
      subst this
      rw [if_neg (by omega)]; exact hl0

end Bento.Layout
