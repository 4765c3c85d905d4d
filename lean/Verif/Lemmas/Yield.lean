import Verif.Lemmas.Grow

/-!
# Rows without a fill in `FlexLegacy`: the segment that minds least gives way
-/

namespace Bento.Layout

open Casso Finset

/-- What a unit more costs a segment. -/
def stretchPrice : Constraint → ℚ
  | .fill _ => 0
  | .min _ => 10000
  | .ratio _ _ => 100000
  | .percentage _ => 1000000
  | .len _ => 10000000
  | .max _ => 100010000

/-- What a unit less costs a segment. -/
def shrinkPrice : Constraint → ℚ
  | .fill _ => 0
  | .max _ => 10000
  | .ratio _ _ => 100000
  | .percentage _ => 1000000
  | .len _ => 10000000
  | .min _ => 100010000

theorem stretchPrice_lt {c d : Constraint} (h : stretchRank c < stretchRank d) :
    stretchPrice c + 1 ≤ stretchPrice d := by
  cases c <;> cases d <;> simp [stretchRank] at h <;> norm_num [stretchPrice]

theorem shrinkPrice_lt {c d : Constraint} (h : shrinkRank c < shrinkRank d) :
    shrinkPrice c + 1 ≤ shrinkPrice d := by
  cases c <;> cases d <;> simp [shrinkRank] at h <;> norm_num [shrinkPrice]

theorem stretchPrice_bounds (c : Constraint) : 0 ≤ stretchPrice c ∧ stretchPrice c ≤ 100010000 := by
  cases c <;> norm_num [stretchPrice]

theorem shrinkPrice_bounds (c : Constraint) : 0 ≤ shrinkPrice c ∧ shrinkPrice c ≤ 100010000 := by
  cases c <;> norm_num [shrinkPrice]

theorem prices_pos {c : Constraint} (h : growWeight .legacy c = 0) :
    1 ≤ stretchPrice c ∧ 1 ≤ shrinkPrice c := by
  cases c
  case fill n =>
    have := ne_of_gt (lt_of_lt_of_le (by norm_num : (0 : ℚ) < 1 / 1000000) (le_max_left _ (n : ℚ)))
    exact absurd h this
  all_goals norm_num [stretchPrice, shrinkPrice]

/-- The cost of a segment that is `q` too long or too short. -/
theorem price_cost {total : Int} {c : Constraint} (h : growWeight .legacy c = 0)
    (area e : Element) {x : Var → ℚ} (ha : sz area x = total * multiplier) :
    cost (constraintFor area e .legacy c) x
      = stretchPrice c * max 0 (sz e x - baseSize .legacy total c * multiplier)
        + shrinkPrice c * max 0 (-(sz e x - baseSize .legacy total c * multiplier)) := by
  have hst : strong = 1000000 := rfl
  have hmd : medium = 1000 := rfl
  have habs : ∀ u : ℚ, |u| = max 0 u + max 0 (-u) := by
    intro u
    rcases le_total 0 u with h | h
    · rw [abs_of_nonneg h, max_eq_right h, max_eq_left (by linarith)]; ring
    · rw [abs_of_nonpos h, max_eq_left h, max_eq_right (by linarith)]; ring
  cases c
  case fill n =>
    have := ne_of_gt (lt_of_lt_of_le (by norm_num : (0 : ℚ) < 1 / 1000000) (le_max_left _ (n : ℚ)))
    exact absurd h this
  case len t =>
    have hb : baseSize .legacy total (.len t) = t := rfl
    rw [hb]
    simp only [constraintFor, cost_cons, cost_nil, violation_hasIntSize]
    simp only [Element.hasIntSize, Constr.constantRHS, lengthSizeEq, hst, habs, stretchPrice, shrinkPrice]
    ring
  case max t =>
    have hb : baseSize .legacy total (.max t) = t := rfl
    rw [hb]
    simp only [constraintFor, cost_cons, cost_nil, violation_hasIntSize, violation_hasMaxSize]
    simp only [Element.hasIntSize, Element.hasMaxSize, Constr.constantRHS, maxSizeLTE, maxSizeEq, hst, hmd, habs,
      stretchPrice, shrinkPrice]
    ring
  case min t =>
    have hb : baseSize .legacy total (.min t) = t := rfl
    rw [hb]
    simp only [constraintFor, if_true, cost_cons, cost_nil, violation_hasIntSize, violation_hasMinSize]
    simp only [Element.hasIntSize, Element.hasMinSize, Constr.constantRHS, minSizeGTE, minSizeEq, hst, hmd, habs,
      stretchPrice, shrinkPrice]
    ring
  case percentage p =>
    have hb : baseSize .legacy total (.percentage p) = (total : ℚ) * p / 100 := rfl
    rw [hb]
    simp only [constraintFor, cost_cons, cost_nil, violation_hasSize, eval_div, eval_mul, eval_size, ha]
    simp only [Element.hasSize, Constr.expressionRHS, percentageSizeEq, hst, habs, stretchPrice, shrinkPrice]
    rw [show (total : ℚ) * multiplier * p / 100 = total * p / 100 * multiplier by ring]
    ring
  case ratio num den =>
    have hb : baseSize .legacy total (.ratio num den) = (total : ℚ) * num / ((max 1 den : Int) : ℚ) := rfl
    rw [hb]
    simp only [constraintFor, cost_cons, cost_nil, violation_hasSize, eval_div, eval_mul, eval_size, ha]
    simp only [Element.hasSize, Constr.expressionRHS, ratioSizeEq, hst, habs, stretchPrice, shrinkPrice]
    rw [show (total : ℚ) * multiplier * num / ((max 1 den : Int) : ℚ)
      = total * num / ((max 1 den : Int) : ℚ) * multiplier by ring]
    ring

/-- The size of segment `i`, in solver units. -/
def yielded (l : Layout) (total : Int) (k i : Nat) : ℚ :=
  yieldedSize l.constraints (Spacing.value l.spacing) total k i (con l i) * multiplier

/-- In a best placement segment `k` takes what is left or gives what is missing. -/
theorem yield_exact {l : Layout} {m : Nat} (hf : l.flex = .legacy) (hn : l.constraints.length = m + 1)
    {total : Int} {a b : ℚ} (hab : b - a = total * multiplier)
    (hnf : ∀ c ∈ l.constraints, growWeight .legacy c = 0) {k : Nat} (hk : k < m + 1)
    (hup : 0 < freeSpace .legacy l.constraints (Spacing.value l.spacing) total →
      ∀ j < m + 1, j ≠ k → stretchRank (con l k) < stretchRank (con l j))
    (hdown : freeSpace .legacy l.constraints (Spacing.value l.spacing) total < 0 →
      ∀ j < m + 1, j ≠ k → shrinkRank (con l k) < shrinkRank (con l j))
    (hsz : ∀ i < m + 1,
      0 ≤ yieldedSize l.constraints (Spacing.value l.spacing) total k i (con l i) ∧
      0 ≤ yieldedSize l.constraints (Spacing.value l.spacing) total k i (con l i) + (Spacing.value l.spacing : ℚ))
    {x : Var → ℚ} (hx : Placed l.constraints.length a b x)
    (hbest : ∀ y, Placed l.constraints.length a b y →
      weightedViolation (softList l) x ≤ weightedViolation (softList l) y) :
    (∀ i < m + 1, x (2 * i + 2) - x (2 * i + 1) = yielded l total k i) ∧
    ∀ i < m + 1 + 1, x (2 * i + 1) - x (2 * i)
      = if 0 < i ∧ i < m + 1 then (Spacing.value l.spacing : ℚ) * multiplier else 0 := by
  have hm : multiplier = 100 := rfl
  have hgr : ∀ i, yielded l total k i
      = yieldedSize l.constraints (Spacing.value l.spacing) total k i (con l i) * multiplier := fun _ => rfl
  generalize hsp : Spacing.value l.spacing = spacing at *
  have hnf' : ∀ i < m + 1, growWeight .legacy (con l i) = 0 := fun i hi => hnf _ (con_mem (by omega))
  have hfree : freeSpace .legacy l.constraints spacing total
      = total - ∑ i ∈ range (m + 1), baseSize .legacy total (con l i) - m * (spacing : ℚ) := by
    unfold freeSpace
    rw [sum_con l (baseSize .legacy total), hn]
    push_cast; ring
  generalize hR : freeSpace .legacy l.constraints spacing total = R at *
  have hys : ∀ i, yieldedSize l.constraints spacing total k i (con l i)
      = baseSize .legacy total (con l i) + if i = k then R else 0 := by
    intro i; unfold yieldedSize; rw [hR]
  have hsum : ∑ i ∈ range (m + 1), yielded l total k i = (total - m * (spacing : ℚ)) * multiplier := by
    simp only [hgr, hys]
    rw [← sum_mul, sum_add_distrib, sum_ite_eq' (range (m + 1)) k (fun _ => R), if_pos (mem_range.2 hk)]
    rw [hfree]; ring
  let g : Nat → ℚ := fun i => if 0 < i ∧ i < m + 1 then (spacing : ℚ) * multiplier else 0
  have g0 : g 0 = 0 := by simp [g]
  have gl : g (m + 1) = 0 := by simp [g]
  have gi : ∀ i < m, g (i + 1) = (spacing : ℚ) * multiplier := by
    intro i hi; simp only [g]; rw [if_pos ⟨by omega, by omega⟩]
  have gsum : ∑ i ∈ range (m + 1 + 1), g i = m * ((spacing : ℚ) * multiplier) := by
    rw [sum_gaps, g0, gl, sum_congr rfl fun i hi => gi i (mem_range.1 hi)]
    simp
  have hz0 : ∀ i < m + 1, 0 ≤ yielded l total k i := by
    intro i hi
    have := (hsz i hi).1
    rw [hgr, hm]; linarith
  have hzs : ∀ i < m + 1, 0 ≤ yielded l total k i + (spacing : ℚ) * multiplier := by
    intro i hi
    have := (hsz i hi).2
    rw [hgr, hm]; linarith
  have hy : Placed (m + 1) a b (place a g (yielded l total k)) :=
    place_placed_overlap g0.ge gl.ge hz0
      (fun i hi => by rw [gi i (by omega)]; exact hzs i (by omega))
      (fun i hi => by rw [gi i (by omega)]; have := hzs (i + 1) (by omega); linarith)
      (by rw [gsum, hsum, hab]; ring)
  rw [hn] at hx hbest
  have hle := hbest _ hy
  rw [wv_eq_cost (fun c hc => (soft_softList l c hc).lt),
    wv_eq_cost (fun c hc => (soft_softList l c hc).lt)] at hle
  have hvf : validFill (segmentElements l.constraints.length) l.constraints l.flex = [] := by
    rw [validFill_eq, List.filterMap_eq_nil_iff]
    intro i hi
    rw [hf, if_pos (hnf' i (by have := List.mem_range.1 hi; omega))]
  unfold softList at hle
  simp only [cost_append, fillPairs_cost, hvf, allPairs, List.map_nil, List.sum_nil, sizes_cost, hsp] at hle
  rw [hn, hf] at hle
  have hnb : neighbourConstraints (segmentElements (m + 1)) .legacy = [] := by simp [neighbourConstraints]
  rw [hnb] at hle
  simp only [cost_nil] at hle
  generalize hyd : place a g (yielded l total k) = y at *
  have yg : ∀ i, y (2 * i + 1) - y (2 * i) = g i := fun i => by rw [← hyd]; exact place_gap _ _ _ i
  have yz : ∀ i, y (2 * i + 2) - y (2 * i + 1) = yielded l total k i :=
    fun i => by rw [← hyd]; exact place_segment _ _ _ i
  have hxa : sz (areaElement (m + 1)) x = total * multiplier := by rw [area_size hx, hab]
  have hya : sz (areaElement (m + 1)) y = total * multiplier := by rw [area_size hy, hab]
  -- the price of a unit for segment k
  obtain ⟨p, hp, hpk, hpj⟩ : ∃ p : ℚ, |p| ≤ 100010000 ∧
      (∀ u : ℚ, stretchPrice (con l k) * max 0 (R * multiplier) + shrinkPrice (con l k) * max 0 (-(R * multiplier))
        + p * (u - R * multiplier) ≤ stretchPrice (con l k) * max 0 u + shrinkPrice (con l k) * max 0 (-u)) ∧
      (∀ j < m + 1, j ≠ k → ∀ u : ℚ, p * u + |u| ≤
        stretchPrice (con l j) * max 0 u + shrinkPrice (con l j) * max 0 (-u)) := by
    have hsb := stretchPrice_bounds (con l k)
    have hkb := shrinkPrice_bounds (con l k)
    rcases lt_trichotomy R 0 with h | h | h
    · refine ⟨-shrinkPrice (con l k), by rw [abs_neg, abs_of_nonneg hkb.1]; exact hkb.2, ?_, ?_⟩
      · intro u
        rw [max_eq_left (by rw [hm]; linarith), max_eq_right (by rw [hm]; linarith)]
        have h1 := mul_nonneg hsb.1 (le_max_left 0 u)
        have h2 := mul_le_mul_of_nonneg_left (le_max_right 0 (-u)) hkb.1
        linarith
      · intro j hj hjk u
        have h1 := shrinkPrice_lt (hdown h j hj hjk)
        have h2 := prices_pos (hnf' j hj)
        rcases le_total 0 u with hu | hu
        · rw [abs_of_nonneg hu, max_eq_right hu, max_eq_left (by linarith)]
          have := mul_nonneg hkb.1 hu
          have := mul_le_mul_of_nonneg_right h2.1 hu
          linarith
        · rw [abs_of_nonpos hu, max_eq_left hu, max_eq_right (by linarith)]
          have := mul_le_mul_of_nonneg_right h1 (show 0 ≤ -u by linarith)
          linarith
    · subst h
      refine ⟨0, by norm_num, ?_, ?_⟩
      · intro u
        have h1 := mul_nonneg hsb.1 (le_max_left 0 u)
        have h2 := mul_nonneg hkb.1 (le_max_left 0 (-u))
        simp only [zero_mul, neg_zero, max_self, mul_zero]
        linarith
      · intro j hj hjk u
        have h2 := prices_pos (hnf' j hj)
        rcases le_total 0 u with hu | hu
        · rw [abs_of_nonneg hu, max_eq_right hu, max_eq_left (by linarith)]
          have := mul_le_mul_of_nonneg_right h2.1 hu
          linarith
        · rw [abs_of_nonpos hu, max_eq_left hu, max_eq_right (by linarith)]
          have := mul_le_mul_of_nonneg_right h2.2 (show 0 ≤ -u by linarith)
          linarith
    · refine ⟨stretchPrice (con l k), by rw [abs_of_nonneg hsb.1]; exact hsb.2, ?_, ?_⟩
      · intro u
        rw [max_eq_right (by rw [hm]; linarith), max_eq_left (by rw [hm]; linarith)]
        have h1 := mul_nonneg hkb.1 (le_max_left 0 (-u))
        have h2 := mul_le_mul_of_nonneg_left (le_max_right 0 u) hsb.1
        linarith
      · intro j hj hjk u
        have h1 := stretchPrice_lt (hup h j hj hjk)
        have h2 := prices_pos (hnf' j hj)
        rcases le_total 0 u with hu | hu
        · rw [abs_of_nonneg hu, max_eq_right hu, max_eq_left (by linarith)]
          have := mul_le_mul_of_nonneg_right h1 hu
          linarith
        · rw [abs_of_nonpos hu, max_eq_left hu, max_eq_right (by linarith)]
          have := mul_nonneg hsb.1 (show 0 ≤ -u by linarith)
          have := mul_le_mul_of_nonneg_right h2.2 (show 0 ≤ -u by linarith)
          linarith
  let d : Nat → ℚ := fun i => x (2 * i + 2) - x (2 * i + 1) - yielded l total k i
  have hsc : ∑ i ∈ range (m + 1),
        cost (constraintFor (areaElement (m + 1)) ⟨2 * i + 1, 2 * i + 2⟩ .legacy (con l i)) y
      + ∑ i ∈ range (m + 1), (p * d i + if i = k then 0 else |d i|)
      ≤ ∑ i ∈ range (m + 1),
        cost (constraintFor (areaElement (m + 1)) ⟨2 * i + 1, 2 * i + 2⟩ .legacy (con l i)) x := by
    rw [← sum_add_distrib]
    apply sum_le_sum
    intro i hi
    have hi := mem_range.1 hi
    have ex : sz ⟨2 * i + 1, 2 * i + 2⟩ x = d i + yielded l total k i := by
      change x (2 * i + 2) - x (2 * i + 1) = _
      simp only [d]; ring
    have ey : sz ⟨2 * i + 1, 2 * i + 2⟩ y = yielded l total k i := yz i
    rw [price_cost (total := total) (hnf' i hi) _ _ hxa, price_cost (total := total) (hnf' i hi) _ _ hya, ex, ey,
      hgr, hys]
    by_cases hik : i = k
    · subst hik
      rw [if_pos rfl, if_pos rfl]
      have := hpk (d i + R * multiplier)
      rw [show (baseSize .legacy total (con l i) + R) * multiplier
          - baseSize .legacy total (con l i) * multiplier = R * multiplier by ring,
        show d i + (baseSize .legacy total (con l i) + R) * multiplier
          - baseSize .legacy total (con l i) * multiplier = d i + R * multiplier by ring]
      linarith
    · rw [if_neg hik, if_neg hik]
      have := hpj i hi hik (d i)
      rw [show (baseSize .legacy total (con l i) + 0) * multiplier
          - baseSize .legacy total (con l i) * multiplier = 0 by ring,
        show d i + (baseSize .legacy total (con l i) + 0) * multiplier
          - baseSize .legacy total (con l i) * multiplier = d i by ring]
      simp only [neg_zero, max_self, mul_zero]
      linarith
  have v2 : required = 1001001000 := rfl
  have fx : 0 ≤ x 1 - x 0 := by
    have := hx.low 1 (show (1 : Nat) < 2 * (m + 1) + 2 by omega)
    rw [hx.first]; linarith
  have lx : 0 ≤ x (2 * (m + 1) + 1) - x (2 * (m + 1)) := by
    have := hx.high (2 * (m + 1)) (show (2 * (m + 1) : Nat) < 2 * (m + 1) + 2 by omega)
    rw [hx.last]; linarith
  have hy0 : ∑ i ∈ range m, |y (2 * (i + 1) + 1) - y (2 * (i + 1)) - (spacing : ℚ) * multiplier| = 0 := by
    apply sum_eq_zero
    intro i hi
    rw [yg, gi i (mem_range.1 hi), sub_self, abs_zero]
  unfold flexList at hle
  simp only [cost_append, fixed_cost, endsOf_spacers, cost_cons, cost_nil, violation_isEmpty] at hle
  simp only [Element.isEmpty, Constr.constantRHS, v2, sz] at hle
  rw [show y 1 - y 0 = 0 by have := yg 0; rw [g0] at this; exact this,
    show y (2 * (m + 1) + 1) - y (2 * (m + 1)) = 0 by rw [yg, gl], hy0, abs_of_nonneg fx, abs_of_nonneg lx,
    abs_zero] at hle
  -- everything adds up to the area
  have tx := placed_total hx
  rw [sum_gaps (fun i => x (2 * i + 1) - x (2 * i))] at tx
  simp only [Nat.mul_zero, Nat.zero_add] at tx
  have hxd : ∑ i ∈ range (m + 1), (x (2 * i + 2) - x (2 * i + 1))
      = ∑ i ∈ range (m + 1), d i + ∑ i ∈ range (m + 1), yielded l total k i := by
    rw [← sum_add_distrib]
    apply sum_congr rfl
    intro i _
    simp only [d]; ring
  have hge : ∑ i ∈ range m, (x (2 * (i + 1) + 1) - x (2 * (i + 1)))
      = m * ((spacing : ℚ) * multiplier)
        + ∑ i ∈ range m, (x (2 * (i + 1) + 1) - x (2 * (i + 1)) - (spacing : ℚ) * multiplier) := by
    have hc : (m : ℚ) * ((spacing : ℚ) * multiplier) = ∑ i ∈ range m, (spacing : ℚ) * multiplier := by
      rw [sum_const, card_range, nsmul_eq_mul]
    rw [hc, ← sum_add_distrib]
    apply sum_congr rfl
    intro i _
    ring
  have hE := abs_sum_le_sum_abs
    (fun i => x (2 * (i + 1) + 1) - x (2 * (i + 1)) - (spacing : ℚ) * multiplier) (range m)
  have hE0 : 0 ≤ ∑ i ∈ range m, |x (2 * (i + 1) + 1) - x (2 * (i + 1)) - (spacing : ℚ) * multiplier| :=
    sum_nonneg fun i _ => abs_nonneg _
  rw [hxd, hsum, hge, hab] at tx
  rw [sum_add_distrib, ← mul_sum] at hsc
  have hB0 : 0 ≤ ∑ i ∈ range (m + 1), (if i = k then 0 else |d i|) :=
    sum_nonneg fun i _ => by split_ifs <;> simp
  have all : (∑ i ∈ range (m + 1), if i = k then 0 else |d i|) = 0 ∧
      x 1 - x 0 = 0 ∧ x (2 * (m + 1) + 1) - x (2 * (m + 1)) = 0 ∧
      ∑ i ∈ range m, |x (2 * (i + 1) + 1) - x (2 * (i + 1)) - (spacing : ℚ) * multiplier| = 0 ∧
      ∑ i ∈ range (m + 1), d i = 0 := by
    generalize (∑ i ∈ range (m + 1), if i = k then 0 else |d i|) = B at *
    generalize ∑ i ∈ range (m + 1), d i = D at *
    generalize ∑ i ∈ range m, |x (2 * (i + 1) + 1) - x (2 * (i + 1)) - (spacing : ℚ) * multiplier| = E at *
    generalize ∑ i ∈ range m, (x (2 * (i + 1) + 1) - x (2 * (i + 1)) - (spacing : ℚ) * multiplier) = e at *
    generalize x 1 - x 0 = f at *
    generalize x (2 * (m + 1) + 1) - x (2 * (m + 1)) = L at *
    have hD : D = -(f + L + e) := by linarith
    have hpD : -(100010000 * (f + L + E)) ≤ p * D := by
      have h1 : |D| ≤ f + L + E := by
        rw [hD, abs_neg]
        have := (abs_le.1 hE).1
        have := (abs_le.1 hE).2
        rw [abs_le]; constructor <;> linarith
      have h2 : |p * D| ≤ 100010000 * (f + L + E) := by
        rw [abs_mul]
        exact mul_le_mul hp h1 (abs_nonneg _) (by norm_num)
      have := (abs_le.1 h2).1
      linarith
    have e1 : B = 0 := by linarith
    have e2 : f = 0 := by linarith
    have e3 : L = 0 := by linarith
    have e4 : E = 0 := by linarith
    refine ⟨e1, e2, e3, e4, ?_⟩
    have := (abs_le.1 hE).1
    have := (abs_le.1 hE).2
    linarith
  obtain ⟨hB, hf0, hl0, hEz, hD⟩ := all
  have hother : ∀ i < m + 1, i ≠ k → d i = 0 := by
    intro i hi hik
    have := (sum_eq_zero_iff_of_nonneg (fun i _ => by split_ifs <;> simp)).1 hB i (mem_range.2 hi)
    rw [if_neg hik] at this
    exact abs_eq_zero.1 this
  have hdk : d k = 0 := by
    rw [← hD]
    exact (sum_eq_single_of_mem k (mem_range.2 hk)
      (fun i hi hik => hother i (mem_range.1 hi) hik)).symm
  constructor
  · intro i hi
    have : d i = 0 := by
      by_cases hik : i = k
      · rw [hik]; exact hdk
      · exact hother i hi hik
    simp only [d] at this
    linarith
  · intro i hi
    rcases Nat.eq_zero_or_pos i with rfl | hpos
    · rw [if_neg (by omega)]; exact hf0
    by_cases hl : i < m + 1
    · rw [if_pos ⟨hpos, hl⟩]
      obtain ⟨j, rfl⟩ : ∃ j, i = j + 1 := ⟨i - 1, by omega⟩
      have h1 := (sum_eq_zero_iff_of_nonneg (fun i _ => abs_nonneg _)).1 hEz j (mem_range.2 (by omega))
      have h2 := abs_eq_zero.1 h1
      linarith
    · have : i = m + 1 := by omega
      subst this
      rw [if_neg (by omega)]; exact hl0

end Bento.Layout
