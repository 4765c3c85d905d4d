import Verif.Lemmas.Split
import Mathlib.Algebra.BigOperators.Ring.Finset
import Mathlib.Algebra.Order.BigOperators.Group.Finset
import Mathlib.Tactic.FieldSimp

/-!
# Moving space between segments and spacers

The cost of a placement changes by at most a weight per segment times the change of its size. So
space can be moved out of the spacers, at a gain.
-/

namespace Bento.Layout

open Casso

/-- The size of an element. -/
def sz (e : Element) (x : Var → ℚ) : ℚ := x e.stop - x e.start

/-- The cost of constraints that are not required. -/
def cost (cs : List Constr) (x : Var → ℚ) : ℚ := (cs.map fun c => c.strength * c.violation x).sum

@[simp] theorem cost_nil (x : Var → ℚ) : cost [] x = 0 := rfl

@[simp] theorem cost_cons (c : Constr) (cs : List Constr) (x : Var → ℚ) :
    cost (c :: cs) x = c.strength * c.violation x + cost cs x := by simp [cost]

@[simp] theorem cost_append (cs ds : List Constr) (x : Var → ℚ) :
    cost (cs ++ ds) x = cost cs x + cost ds x := by simp [cost]

theorem violation_nonneg (c : Constr) (x : Var → ℚ) : 0 ≤ c.violation x := by
  unfold Constr.violation
  cases c.op <;> simp

theorem cost_nonneg {cs : List Constr} {x : Var → ℚ} (h : ∀ c ∈ cs, 0 ≤ c.strength) :
    0 ≤ cost cs x := by
  apply List.sum_nonneg
  intro q hq
  obtain ⟨c, hc, rfl⟩ := List.mem_map.1 hq
  exact mul_nonneg (h c hc) (violation_nonneg c x)

theorem wv_eq_cost {cs : List Constr} {x : Var → ℚ} (h : ∀ c ∈ cs, c.strength < required) :
    weightedViolation cs x = cost cs x := by
  unfold weightedViolation cost
  congr 1
  apply List.map_congr_left
  intro c hc
  exact if_neg (not_le.2 (h c hc))

/-! ### Values -/

theorem eval_sub (a b : Expr) (x : Var → ℚ) : (a.sub b).eval x = a.eval x - b.eval x := by
  have : ∀ ts : List (Var × ℚ), ((ts.map fun t => (t.1, -t.2)).map fun t => t.2 * x t.1).sum
      = -(ts.map fun t => t.2 * x t.1).sum := by
    intro ts
    induction ts with
    | nil => simp
    | cons t ts ih => rw [List.map_cons, List.map_cons, List.sum_cons, ih, List.map_cons,
        List.sum_cons]; ring
  simp only [Expr.sub, Expr.negate, Expr.eval, List.map_append, List.sum_append, this]
  ring

theorem eval_mul (a : Expr) (k : ℚ) (x : Var → ℚ) : (a.mulConstant k).eval x = a.eval x * k := by
  have : ∀ ts : List (Var × ℚ), ((ts.map fun t => (t.1, t.2 * k)).map fun t => t.2 * x t.1).sum
      = (ts.map fun t => t.2 * x t.1).sum * k := by
    intro ts
    induction ts with
    | nil => simp
    | cons t ts ih => rw [List.map_cons, List.map_cons, List.sum_cons, ih, List.map_cons,
        List.sum_cons]; ring
  simp only [Expr.mulConstant, Expr.eval, this]
  ring

theorem eval_div (a : Expr) (k : ℚ) (x : Var → ℚ) : (a.divConstant k).eval x = a.eval x / k := by
  have : ∀ ts : List (Var × ℚ), ((ts.map fun t => (t.1, t.2 / k)).map fun t => t.2 * x t.1).sum
      = (ts.map fun t => t.2 * x t.1).sum / k := by
    intro ts
    induction ts with
    | nil => simp
    | cons t ts ih => rw [List.map_cons, List.map_cons, List.sum_cons, ih, List.map_cons,
        List.sum_cons]; ring
  simp only [Expr.divConstant, Expr.eval, this]
  ring

theorem eval_size (e : Element) (x : Var → ℚ) : e.size.eval x = sz e x := by
  simp [Element.size, Expr.varSub, Expr.eval, sz]
  ring

theorem eval_ofConstant (q : ℚ) (x : Var → ℚ) : (Expr.ofConstant q).eval x = q := by
  simp [Expr.ofConstant, Expr.eval]

theorem eval_subConstant (a : Expr) (q : ℚ) (x : Var → ℚ) :
    (a.subConstant q).eval x = a.eval x - q := by
  simp [Expr.subConstant, Expr.eval]; ring

theorem violation_hasSize (e : Element) (s : Expr) (w : ℚ) (x : Var → ℚ) :
    (e.hasSize s w).violation x = |sz e x - s.eval x| := by
  simp only [Element.hasSize, Constr.expressionRHS, Constr.violation, eval_sub, eval_size]

theorem violation_hasIntSize (e : Element) (s : Int) (w : ℚ) (x : Var → ℚ) :
    (e.hasIntSize s w).violation x = |sz e x - s * multiplier| := by
  simp only [Element.hasIntSize, Constr.constantRHS, Constr.violation, eval_subConstant, eval_size]

theorem violation_hasMinSize (e : Element) (s : Int) (w : ℚ) (x : Var → ℚ) :
    (e.hasMinSize s w).violation x = max 0 (-(sz e x - s * multiplier)) := by
  simp only [Element.hasMinSize, Constr.constantRHS, Constr.violation, eval_subConstant, eval_size]

theorem violation_hasMaxSize (e : Element) (s : Int) (w : ℚ) (x : Var → ℚ) :
    (e.hasMaxSize s w).violation x = max 0 (sz e x - s * multiplier) := by
  simp only [Element.hasMaxSize, Constr.constantRHS, Constr.violation, eval_subConstant, eval_size]

theorem violation_isEmpty (e : Element) (x : Var → ℚ) : e.isEmpty.violation x = |sz e x| := by
  simp only [Element.isEmpty, Constr.constantRHS, Constr.violation, eval_subConstant, eval_size,
    sub_zero]

theorem violation_fillPair (p q : Element × ℚ) (x : Var → ℚ) :
    (fillPair p q).violation x = |sz p.1 x * q.2 - sz q.1 x * p.2| := by
  simp only [fillPair, Constr.expressionRHS, Constr.violation, eval_sub, eval_mul, eval_size]

/-! ### Lipschitz bounds -/

theorem abs_lip (u u' t : ℚ) : |u' - t| ≤ |u - t| + |u' - u| := by
  have := abs_add_le (u - t) (u' - u)
  rwa [show u - t + (u' - u) = u' - t by ring] at this

theorem max_lip (u u' t : ℚ) : max 0 (u' - t) ≤ max 0 (u - t) + |u' - u| := by
  have h := le_abs_self (u' - u)
  have h0 := abs_nonneg (u' - u)
  have h1 := le_max_left 0 (u - t)
  have h2 := le_max_right 0 (u - t)
  apply max_le <;> linarith

theorem max_lip' (u u' t : ℚ) : max 0 (-(u' - t)) ≤ max 0 (-(u - t)) + |u' - u| := by
  have h := neg_abs_le (u' - u)
  have h0 := abs_nonneg (u' - u)
  have h1 := le_max_left 0 (-(u - t))
  have h2 := le_max_right 0 (-(u - t))
  apply max_le <;> linarith

/-- The most a constraint pays for a change of the size of its segment. -/
def lip : Constraint → ℚ
  | .min _ => 100010000
  | .max _ => 100010000
  | .len _ => 10000000
  | .percentage _ => 1000000
  | .ratio _ _ => 100000
  | .fill _ => 1000

theorem constraintFor_lip (area e : Element) (k : Constraint) {x y : Var → ℚ}
    (ha : sz area y = sz area x) :
    cost (constraintFor area e .legacy k) y
      ≤ cost (constraintFor area e .legacy k) x + lip k * |sz e y - sz e x| := by
  have st : ∀ (w : ℚ) (c : Constr), c.strength = w → c.strength = w := fun _ _ h => h
  have nums : (strong = 1000000) ∧ (medium = 1000) ∧ (weak = 1) := by
    norm_num [strong, medium, weak]
  obtain ⟨n1, n2, n3⟩ := nums
  cases k with
  | min s =>
    have h1 := max_lip' (sz e x) (sz e y) (s * multiplier)
    have h2 := abs_lip (sz e x) (sz e y) (s * multiplier)
    simp only [constraintFor, if_true, cost_cons, cost_nil, violation_hasMinSize,
      violation_hasIntSize, lip]
    simp only [Element.hasMinSize, Element.hasIntSize, Constr.constantRHS, minSizeGTE, minSizeEq,
      n1, n2]
    linarith
  | max s =>
    have h1 := max_lip (sz e x) (sz e y) (s * multiplier)
    have h2 := abs_lip (sz e x) (sz e y) (s * multiplier)
    simp only [constraintFor, cost_cons, cost_nil, violation_hasMaxSize,
      violation_hasIntSize, lip]
    simp only [Element.hasMaxSize, Element.hasIntSize, Constr.constantRHS, maxSizeLTE, maxSizeEq,
      n1, n2]
    linarith
  | len s =>
    have h2 := abs_lip (sz e x) (sz e y) (s * multiplier)
    simp only [constraintFor, cost_cons, cost_nil, violation_hasIntSize, lip]
    simp only [Element.hasIntSize, Constr.constantRHS, lengthSizeEq, n1]
    linarith
  | percentage s =>
    have h2 := abs_lip (sz e x) (sz e y) (sz area x * s / 100)
    simp only [constraintFor, cost_cons, cost_nil, violation_hasSize, eval_div, eval_mul, eval_size,
      ha, lip]
    simp only [Element.hasSize, Constr.expressionRHS, percentageSizeEq, n1]
    linarith
  | ratio s d =>
    have h2 := abs_lip (sz e x) (sz e y) (sz area x * s / ((max 1 d : Int) : ℚ))
    simp only [constraintFor, cost_cons, cost_nil, violation_hasSize, eval_div, eval_mul, eval_size,
      ha, lip]
    simp only [Element.hasSize, Constr.expressionRHS, ratioSizeEq, n1]
    linarith
  | fill s =>
    have h2 := abs_lip (sz e x) (sz e y) (sz area x)
    simp only [constraintFor, cost_cons, cost_nil, violation_hasSize, eval_size, ha, lip]
    simp only [Element.hasSize, Constr.expressionRHS, fillGrow, n2]
    linarith

theorem sizes_lip (area : Element) {x y : Var → ℚ} (ha : sz area y = sz area x)
    (P : List (Constraint × Element)) :
    cost (P.flatMap fun p => constraintFor area p.2 .legacy p.1) y
      ≤ cost (P.flatMap fun p => constraintFor area p.2 .legacy p.1) x
        + (P.map fun p => lip p.1 * |sz p.2 y - sz p.2 x|).sum := by
  induction P with
  | nil => simp
  | cons p P ih =>
    simp only [List.flatMap_cons, cost_append, List.map_cons, List.sum_cons]
    have := constraintFor_lip area p.2 p.1 ha
    linarith

/-- The weights of the elements that take part in filling are positive. -/
theorem scalingFactor_pos {flex k q} (h : scalingFactor flex k = some q) : 0 < q := by
  cases k <;> simp only [scalingFactor, reduceCtorEq, Option.some.injEq] at h
  · split_ifs at h
    simp only [Option.some.injEq] at h
    rw [← h]; norm_num
  · rw [← h]
    exact lt_of_lt_of_le (by norm_num) (le_max_left _ _)

theorem pairs_lip {x y : Var → ℚ} (V : List (Element × ℚ)) (hV : ∀ p ∈ V, 0 < p.2) :
    cost ((allPairs V).map fun p => fillPair p.1 p.2) y
      ≤ cost ((allPairs V).map fun p => fillPair p.1 p.2) x
        + 100 * (V.map Prod.snd).sum * (V.map fun p => |sz p.1 y - sz p.1 x|).sum := by
  induction V with
  | nil => simp [allPairs]
  | cons p V ih =>
    have ih := ih (fun q hq => hV q (List.mem_cons_of_mem _ hq))
    have hp := hV p List.mem_cons_self
    simp only [allPairs, List.map_append, cost_append, List.map_map, List.map_cons, List.sum_cons]
    have row : ∀ W : List (Element × ℚ), (∀ q ∈ W, 0 < q.2) →
        cost (W.map ((fun p => fillPair p.1 p.2) ∘ fun b => (p, b))) y
          ≤ cost (W.map ((fun p => fillPair p.1 p.2) ∘ fun b => (p, b))) x
            + 100 * (W.map Prod.snd).sum * |sz p.1 y - sz p.1 x|
            + 100 * p.2 * (W.map fun p => |sz p.1 y - sz p.1 x|).sum := by
      intro W hW
      induction W with
      | nil => simp
      | cons q W ihW =>
        have ihW := ihW (fun r hr => hW r (List.mem_cons_of_mem _ hr))
        have hq := hW q List.mem_cons_self
        simp only [List.map_cons, cost_cons, Function.comp, violation_fillPair, List.sum_cons]
        have hs : (fillPair p q).strength = 100 := by
          simp only [fillPair, Constr.expressionRHS, grow]
        rw [hs]
        have h1 := abs_lip (sz p.1 x * q.2 - sz q.1 x * p.2) (sz p.1 y * q.2 - sz q.1 y * p.2) 0
        rw [sub_zero, sub_zero] at h1
        have h2 : |sz p.1 y * q.2 - sz q.1 y * p.2 - (sz p.1 x * q.2 - sz q.1 x * p.2)|
            ≤ q.2 * |sz p.1 y - sz p.1 x| + p.2 * |sz q.1 y - sz q.1 x| := by
          rw [show sz p.1 y * q.2 - sz q.1 y * p.2 - (sz p.1 x * q.2 - sz q.1 x * p.2)
            = q.2 * (sz p.1 y - sz p.1 x) + (-p.2 * (sz q.1 y - sz q.1 x)) by ring]
          refine (abs_add_le _ _).trans ?_
          rw [abs_mul, abs_mul, abs_neg, abs_of_pos hq, abs_of_pos hp]
        nlinarith
    have h1 := row V (fun q hq => hV q (List.mem_cons_of_mem _ hq))
    have hd : 0 ≤ |sz p.1 y - sz p.1 x| := abs_nonneg _
    nlinarith

/-- All fill pairs, also when there are fewer than two segments. -/
theorem fillPairs_eq (segments : List Element) (constraints : List Constraint) (flex : Flex) :
    fillPairs segments constraints flex = allPairs (validFill segments constraints flex) := by
  unfold fillPairs
  split_ifs with h
  · match hv : validFill segments constraints flex with
    | [] => rfl
    | [a] => simp [allPairs]
    | a :: b :: r => rw [hv] at h; simp only [List.length_cons] at h; omega
  · rfl

/-- The part of the cost that depends on the segments only. -/
theorem segments_lip (area : Element) {x y : Var → ℚ} (ha : sz area y = sz area x)
    (P : List (Constraint × Element)) {K : ℚ}
    (hK : ((P.filterMap fun p => (scalingFactor .legacy p.1).map fun k => (p.2, k)).map
      Prod.snd).sum ≤ K) :
    cost (P.flatMap fun p => constraintFor area p.2 .legacy p.1) y +
      cost ((allPairs (P.filterMap fun p => (scalingFactor .legacy p.1).map fun k => (p.2, k))).map
        fun p => fillPair p.1 p.2) y
    ≤ cost (P.flatMap fun p => constraintFor area p.2 .legacy p.1) x +
      cost ((allPairs (P.filterMap fun p => (scalingFactor .legacy p.1).map fun k => (p.2, k))).map
        fun p => fillPair p.1 p.2) x +
      (P.map fun p => (lip p.1 + if (scalingFactor .legacy p.1).isSome then 100 * K else 0) *
        |sz p.2 y - sz p.2 x|).sum := by
  have h1 := sizes_lip area ha P
  have hpos : ∀ p ∈ P.filterMap fun p => (scalingFactor .legacy p.1).map fun k => (p.2, k),
      (0 : ℚ) < p.2 := by
    intro p hp
    obtain ⟨q, _, hq⟩ := List.mem_filterMap.1 hp
    obtain ⟨k, hk, rfl⟩ := Option.map_eq_some_iff.1 hq
    exact scalingFactor_pos hk
  have h2 := pairs_lip (x := x) (y := y) _ hpos
  have hnn : 0 ≤ ((P.filterMap fun p => (scalingFactor .legacy p.1).map fun k => (p.2, k)).map
      fun p => |sz p.1 y - sz p.1 x|).sum := by
    apply List.sum_nonneg
    intro q hq
    obtain ⟨p, _, rfl⟩ := List.mem_map.1 hq
    exact abs_nonneg _
  have h3 := mul_le_mul_of_nonneg_right (mul_le_mul_of_nonneg_left hK (by norm_num : (0:ℚ) ≤ 100)) hnn
  have h4 : ∀ P : List (Constraint × Element), (P.map fun p => lip p.1 * |sz p.2 y - sz p.2 x|).sum +
      100 * K * ((P.filterMap fun p => (scalingFactor .legacy p.1).map fun k => (p.2, k)).map
        fun p => |sz p.1 y - sz p.1 x|).sum
      = (P.map fun p => (lip p.1 + if (scalingFactor .legacy p.1).isSome then 100 * K else 0) *
        |sz p.2 y - sz p.2 x|).sum := by
    intro P
    induction P with
    | nil => simp
    | cons p P ih =>
      cases hs : scalingFactor .legacy p.1 with
      | none =>
        simp only [List.map_cons, List.sum_cons, hs, List.filterMap_cons, Option.map_none,
          Option.isSome_none, Bool.false_eq_true, if_false] at ih ⊢
        linarith
      | some k =>
        simp only [List.map_cons, List.sum_cons, hs, List.filterMap_cons, Option.map_some,
          Option.isSome_some, if_true] at ih ⊢
        linarith
  have := h4 P
  linarith

/-! ### Redistribution -/

open Finset in
/-- Sizes can be changed to reach a given total, at the least possible total change. -/
theorem redistribute {n : Nat} (hn : 0 < n) (s : Nat → ℚ) (hs : ∀ i < n, 0 ≤ s i) {L : ℚ}
    (hL : 0 ≤ L) :
    ∃ s' : Nat → ℚ, (∀ i < n, 0 ≤ s' i) ∧ ∑ i ∈ range n, s' i = L ∧
      ∑ i ∈ range n, |s' i - s i| = |L - ∑ i ∈ range n, s i| := by
  by_cases h : ∑ i ∈ range n, s i ≤ L
  · refine ⟨fun i => s i + if i = 0 then L - ∑ i ∈ range n, s i else 0, ?_, ?_, ?_⟩
    · intro i hi
      have := hs i hi
      simp only
      split_ifs <;> linarith
    · rw [sum_add_distrib, sum_ite_eq' (range n) 0, if_pos (mem_range.2 hn)]
      ring
    · have : ∀ i, |s i + (if i = 0 then L - ∑ i ∈ range n, s i else 0) - s i|
          = if i = 0 then L - ∑ i ∈ range n, s i else 0 := by
        intro i
        rw [add_sub_cancel_left]
        split_ifs
        · exact abs_of_nonneg (by linarith)
        · simp
      simp only [this]
      rw [sum_ite_eq' (range n) 0, if_pos (mem_range.2 hn), abs_of_nonneg (by linarith)]
  · push Not at h
    have hT : 0 < ∑ i ∈ range n, s i := lt_of_le_of_lt hL h
    generalize hTe : ∑ i ∈ range n, s i = T at *
    refine ⟨fun i => s i * (L / T), ?_, ?_, ?_⟩
    · intro i hi
      exact mul_nonneg (hs i hi) (div_nonneg hL hT.le)
    · rw [← sum_mul, hTe]; field_simp
    · have : ∀ i ∈ range n, |s i * (L / T) - s i| = s i * (1 - L / T) := by
        intro i hi
        have h1 := hs i (mem_range.1 hi)
        have h2 : L / T ≤ 1 := (div_le_one hT).2 h.le
        rw [show s i * (L / T) - s i = -(s i * (1 - L / T)) by ring, abs_neg, abs_of_nonneg]
        exact mul_nonneg h1 (by linarith)
      rw [sum_congr rfl this, ← sum_mul, hTe, abs_of_nonpos (by linarith)]
      field_simp
      ring

/-- Placing segments of given sizes one after the other. -/
def stack (a : ℚ) (s : Nat → ℚ) (v : Var) : ℚ := a + ∑ i ∈ Finset.range (v / 2), s i

theorem stack_placed {n : Nat} {a b : ℚ} {s : Nat → ℚ} (hs : ∀ i < n, 0 ≤ s i)
    (hsum : ∑ i ∈ Finset.range n, s i = b - a) : Placed n a b (stack a s) := by
  have mono : ∀ i ≤ n, ∑ i ∈ Finset.range i, s i ≤ ∑ i ∈ Finset.range n, s i := by
    intro i hi
    apply Finset.sum_le_sum_of_subset_of_nonneg
    · intro j hj
      have := Finset.mem_range.1 hj
      exact Finset.mem_range.2 (by omega)
    · intro j hj _; exact hs j (Finset.mem_range.1 hj)
  have nonneg : ∀ i ≤ n, 0 ≤ ∑ i ∈ Finset.range i, s i := by
    intro i hi
    apply Finset.sum_nonneg
    intro j hj
    have := Finset.mem_range.1 hj
    exact hs j (by omega)
  refine ⟨by simp [stack], ?_, ?_, ?_, ?_⟩
  · unfold stack
    rw [show ((2 * n + 1 : Nat) / 2) = n by omega, hsum]; ring
  · intro v hv
    have := nonneg (v / 2) (by have : (v : Nat) < 2 * n + 2 := hv; omega)
    unfold stack; linarith
  · intro v hv
    have := mono (v / 2) (by have : (v : Nat) < 2 * n + 2 := hv; omega)
    unfold stack; linarith
  · intro i hi
    unfold stack
    rw [show ((2 * i + 1 : Nat) / 2) = i by omega, show ((2 * i + 2 : Nat) / 2) = i + 1 by omega,
      Finset.sum_range_succ]
    have := hs i hi
    linarith

theorem stack_segment (a : ℚ) (s : Nat → ℚ) (i : Nat) :
    stack a s (2 * i + 2) - stack a s (2 * i + 1) = s i := by
  unfold stack
  rw [show ((2 * i + 1 : Nat) / 2) = i by omega, show ((2 * i + 2 : Nat) / 2) = i + 1 by omega,
    Finset.sum_range_succ]
  ring

theorem stack_spacer (a : ℚ) (s : Nat → ℚ) (i : Nat) :
    stack a s (2 * i + 1) - stack a s (2 * i) = 0 := by
  unfold stack
  rw [show ((2 * i + 1 : Nat) / 2) = i by omega, show ((2 * i : Nat) / 2) = i by omega]
  ring

/-- Segments and spacers together fill the area. -/
theorem placed_total {n : Nat} {a b : ℚ} {x : Var → ℚ} (h : Placed n a b x) :
    ∑ i ∈ Finset.range n, (x (2 * i + 2) - x (2 * i + 1)) +
      ∑ i ∈ Finset.range (n + 1), (x (2 * i + 1) - x (2 * i)) = b - a := by
  have : ∀ k : Nat, ∑ i ∈ Finset.range k, (x (2 * i + 2) - x (2 * i + 1)) +
      ∑ i ∈ Finset.range (k + 1), (x (2 * i + 1) - x (2 * i)) = x (2 * k + 1) - x 0 := by
    intro k
    induction k with
    | zero => simp
    | succ k ih =>
      rw [Finset.sum_range_succ, Finset.sum_range_succ (fun i => x (2 * i + 1) - x (2 * i))]
      have e : 2 * (k + 1) = 2 * k + 2 := by ring
      rw [e]
      linarith
  rw [this n, h.last, h.first]

end Bento.Layout
