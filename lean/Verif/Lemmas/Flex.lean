import Verif.Lemmas.Shares
import Verif.Spec.Flex

/-!
# Rows of segments of definite size in the flex modes

Every segment asks for one definite size and everything fits. The weights of the sizes outweigh
those of the gaps and of equal neighbours, so the best placement gives every segment its size; the gaps
then follow from the flex mode.
-/

namespace Bento.Layout

open Casso Finset

/-! ### Placing gaps and segments one after the other -/

/-- The placement with gaps `g` and sizes `z` from `a` on. -/
def place (a : ℚ) (g z : Nat → ℚ) (v : Var) : ℚ :=
  a + ∑ i ∈ range ((v + 1) / 2), g i + ∑ i ∈ range (v / 2), z i

theorem place_even (a : ℚ) (g z : Nat → ℚ) (i : Nat) :
    place a g z (2 * i) = a + ∑ j ∈ range i, g j + ∑ j ∈ range i, z j := by
  unfold place
  rw [show (2 * i + 1) / 2 = i by omega, show 2 * i / 2 = i by omega]

theorem place_odd (a : ℚ) (g z : Nat → ℚ) (i : Nat) :
    place a g z (2 * i + 1) = a + ∑ j ∈ range (i + 1), g j + ∑ j ∈ range i, z j := by
  unfold place
  rw [show (2 * i + 1 + 1) / 2 = i + 1 by omega, show (2 * i + 1) / 2 = i by omega]

theorem place_gap (a : ℚ) (g z : Nat → ℚ) (i : Nat) :
    place a g z (2 * i + 1) - place a g z (2 * i) = g i := by
  rw [place_odd, place_even, sum_range_succ]; ring

theorem place_segment (a : ℚ) (g z : Nat → ℚ) (i : Nat) :
    place a g z (2 * i + 2) - place a g z (2 * i + 1) = z i := by
  rw [show 2 * i + 2 = 2 * (i + 1) by ring, place_odd, place_even, sum_range_succ z]; ring

/-- Coordinates are determined by gaps and sizes. -/
theorem eq_place {n : Nat} {a b : ℚ} {x : Var → ℚ} (h : Placed n a b x) {g z : Nat → ℚ}
    (hg : ∀ i < n + 1, x (2 * i + 1) - x (2 * i) = g i)
    (hz : ∀ i < n, x (2 * i + 2) - x (2 * i + 1) = z i) :
    ∀ i < n + 1, x (2 * i) = place a g z (2 * i) ∧ x (2 * i + 1) = place a g z (2 * i + 1) := by
  intro i
  induction i with
  | zero =>
    intro hi
    have h0 : x 0 = a := h.first
    have hg0 := hg 0 hi
    have e0 : place a g z (2 * 0) = a := by rw [place_even]; simp
    have e1 := place_gap a g z 0
    refine ⟨by rw [e0]; exact h0, ?_⟩
    rw [e0] at e1
    have h0' : x (2 * 0) = a := h0
    linarith
  | succ i ih =>
    intro hi
    obtain ⟨_, h2⟩ := ih (by omega)
    have hs := hz i (by omega)
    have hs' := place_segment a g z i
    have h3 : x (2 * (i + 1)) = place a g z (2 * (i + 1)) := by
      rw [show 2 * (i + 1) = 2 * i + 2 by ring]; linarith
    refine ⟨h3, ?_⟩
    have := hg (i + 1) hi
    have := place_gap a g z (i + 1)
    linarith

theorem place_placed {n : Nat} {a b : ℚ} {g z : Nat → ℚ} (hg : ∀ i < n + 1, 0 ≤ g i)
    (hz : ∀ i < n, 0 ≤ z i) (ht : ∑ i ∈ range (n + 1), g i + ∑ i ∈ range n, z i = b - a) :
    Placed n a b (place a g z) := by
  have hlast : place a g z (2 * n + 1) = b := by rw [place_odd]; linarith
  have mono : ∀ u v : Nat, u ≤ v → v < 2 * n + 2 → place a g z u ≤ place a g z v := by
    intro u v huv hv
    unfold place
    have h1 : ∑ i ∈ range ((u + 1) / 2), g i ≤ ∑ i ∈ range ((v + 1) / 2), g i := by
      apply sum_le_sum_of_subset_of_nonneg
      · intro i hi
        simp only [mem_range] at hi ⊢; omega
      · intro i hi _
        exact hg i (by simp only [mem_range] at hi; omega)
    have h2 : ∑ i ∈ range (u / 2), z i ≤ ∑ i ∈ range (v / 2), z i := by
      apply sum_le_sum_of_subset_of_nonneg
      · intro i hi
        simp only [mem_range] at hi ⊢; omega
      · intro i hi _
        exact hz i (by simp only [mem_range] at hi; omega)
    linarith
  have hfirst : place a g z 0 = a := by simp [place]
  refine ⟨hfirst, hlast, ?_, ?_, ?_⟩
  · intro v hv
    have := mono 0 v (Nat.zero_le _) hv
    linarith
  · intro v hv
    have := mono v (2 * n + 1) (by have : v < 2 * n + 2 := hv; omega) (by omega)
    linarith
  · intro i hi
    have := place_segment a g z i
    have := hz i hi
    linarith

/-- Gaps between the segments may be negative, as long as the segments stay in order. -/
theorem place_placed_overlap {n : Nat} {a b : ℚ} {g z : Nat → ℚ} (hg0 : 0 ≤ g 0) (hgn : 0 ≤ g n)
    (hz : ∀ i < n, 0 ≤ z i) (h1 : ∀ i, i + 1 < n → 0 ≤ z i + g (i + 1))
    (h2 : ∀ i, i + 1 < n → 0 ≤ g (i + 1) + z (i + 1))
    (ht : ∑ i ∈ range (n + 1), g i + ∑ i ∈ range n, z i = b - a) :
    Placed n a b (place a g z) := by
  have hlast : place a g z (2 * n + 1) = b := by rw [place_odd]; linarith
  have hfirst : place a g z 0 = a := by simp [place]
  have seg : ∀ i < n, place a g z (2 * i + 1) ≤ place a g z (2 * i + 2) := by
    intro i hi
    have := place_segment a g z i
    have := hz i hi
    linarith
  have starts : ∀ i < n, a ≤ place a g z (2 * i + 1) := by
    intro i
    induction i with
    | zero =>
      intro _
      have := place_gap a g z 0
      simp only [Nat.mul_zero] at this ⊢
      rw [hfirst] at this
      linarith
    | succ i ih =>
      intro hi
      have e1 := place_gap a g z (i + 1)
      have e2 := place_segment a g z i
      have e3 := ih (by omega)
      have e4 := h1 i hi
      rw [show 2 * i + 2 = 2 * (i + 1) by ring] at e2
      linarith
  have stops : ∀ k i, i + k + 1 = n → place a g z (2 * i + 2) ≤ b := by
    intro k
    induction k with
    | zero =>
      intro i hi
      have e1 := place_gap a g z n
      rw [hlast] at e1
      rw [show 2 * i + 2 = 2 * n by omega]
      linarith
    | succ k ih =>
      intro i hi
      have e1 := place_gap a g z (i + 1)
      have e2 := place_segment a g z (i + 1)
      have e3 := ih (i + 1) (by omega)
      have e4 := h2 i (by omega)
      rw [show 2 * i + 2 = 2 * (i + 1) by ring]
      linarith
  have bounds : ∀ i < n, a ≤ place a g z (2 * i + 1) ∧ place a g z (2 * i + 2) ≤ b :=
    fun i hi => ⟨starts i hi, stops (n - 1 - i) i (by omega)⟩
  have hab : a ≤ b := by
    by_cases hn : n = 0
    · subst hn
      have := place_gap a g z 0
      simp only [Nat.mul_zero] at this hlast
      rw [hfirst, hlast] at this
      linarith
    · have := bounds 0 (by omega)
      have := seg 0 (by omega)
      linarith
  have all : ∀ v : Nat, v < 2 * n + 2 → a ≤ place a g z v ∧ place a g z v ≤ b := by
    intro v hv
    by_cases h0 : v = 0
    · subst h0; rw [hfirst]; exact ⟨le_refl _, hab⟩
    by_cases hl : v = 2 * n + 1
    · subst hl; rw [hlast]; exact ⟨hab, le_refl _⟩
    obtain ⟨i, hi | hi⟩ : ∃ i, v = 2 * i + 1 ∨ v = 2 * i + 2 := ⟨(v - 1) / 2, by omega⟩
    · subst hi
      have := bounds i (by omega)
      have := seg i (by omega)
      exact ⟨by linarith, by linarith⟩
    · subst hi
      have := bounds i (by omega)
      have := seg i (by omega)
      exact ⟨by linarith, by linarith⟩
  exact ⟨hfirst, hlast, fun v hv => (all v hv).1, fun v hv => (all v hv).2, seg⟩

/-! ### The spacers -/

theorem interior_spacers (m : Nat) : interior (spacerElements (m + 1))
    = (List.range m).map fun i => ⟨2 * (i + 1), 2 * (i + 1) + 1⟩ := by
  rw [spacerElements_eq]
  unfold interior
  simp only [List.length_map, List.length_range]
  cases m with
  | zero => simp
  | succ m =>
    rw [if_pos (by omega), List.range_succ_eq_map, List.map_cons, List.tail_cons, List.map_map,
      List.range_succ, List.map_append, List.map_cons, List.map_nil, List.dropLast_concat]
    apply List.map_congr_left
    intro i _
    rfl

theorem endsOf_spacers (m : Nat) (f : Element → Element → List Constr) :
    endsOf (spacerElements (m + 1)) f = f ⟨0, 1⟩ ⟨2 * (m + 1), 2 * (m + 1) + 1⟩ := by
  rw [spacerElements_eq]
  unfold endsOf
  have h1 : ((List.range (m + 1 + 1)).map fun i => (⟨2 * i, 2 * i + 1⟩ : Element)).head?
      = some ⟨0, 1⟩ := by
    rw [List.range_succ_eq_map]; rfl
  have h2 : ((List.range (m + 1 + 1)).map fun i => (⟨2 * i, 2 * i + 1⟩ : Element)).getLast?
      = some ⟨2 * (m + 1), 2 * (m + 1) + 1⟩ := by
    rw [List.range_succ, List.map_append, List.map_cons, List.map_nil, List.getLast?_concat]
  rw [h1, h2]
  simp

theorem cost_map_range (f : Nat → Constr) (n : Nat) (x : Var → ℚ) :
    cost ((List.range n).map f) x = ∑ i ∈ range n, (f i).strength * (f i).violation x := by
  unfold cost
  exact sum_map_range (fun c : Constr => c.strength * c.violation x) f n

theorem cost_flatMap_range (f : Nat → List Constr) (n : Nat) (x : Var → ℚ) :
    cost ((List.range n).flatMap f) x = ∑ i ∈ range n, cost (f i) x := by
  induction n with
  | zero => simp
  | succ n ih =>
    rw [List.range_succ, List.flatMap_append, cost_append, ih, sum_range_succ]
    simp

theorem sum_gaps (g : Nat → ℚ) (m : Nat) :
    ∑ i ∈ range (m + 1 + 1), g i = g 0 + ∑ i ∈ range m, g (i + 1) + g (m + 1) := by
  rw [sum_range_succ, sum_range_succ']; ring

/-- The inner gaps of the modes with fixed spacing. -/
theorem fixed_cost (m : Nat) (spacing : Int) (x : Var → ℚ) :
    cost (fixedSpacing (spacerElements (m + 1)) spacing) x
      = 100100100 * ∑ i ∈ range m,
          |x (2 * (i + 1) + 1) - x (2 * (i + 1)) - (spacing : ℚ) * multiplier| := by
  unfold fixedSpacing
  rw [interior_spacers, List.map_map, mul_sum]
  rw [cost_map_range]
  apply sum_congr rfl
  intro i _
  simp only [Function.comp, violation_hasSize, eval_ofConstant]
  have v1 : spacerSizeEq = 100100100 := by norm_num [spacerSizeEq, required]
  simp only [Element.hasSize, Constr.expressionRHS, v1, sz]

/-- The pairs of inner gaps. -/
def pairCost (m : Nat) (x : Var → ℚ) : ℚ :=
  cost ((interiorPairs (spacerElements (m + 1))).map fun p => p.1.hasSize p.2.size spacerSizeEq) x

theorem pairCost_nonneg (m : Nat) (x : Var → ℚ) : 0 ≤ pairCost m x := by
  apply cost_nonneg
  intro c hc
  obtain ⟨p, _, rfl⟩ := List.mem_map.1 hc
  norm_num [Element.hasSize, Constr.expressionRHS, spacerSizeEq, required]

theorem pairCost_zero_of {m : Nat} {x : Var → ℚ} {q : ℚ}
    (h : ∀ i < m, x (2 * (i + 1) + 1) - x (2 * (i + 1)) = q) : pairCost m x = 0 := by
  unfold pairCost cost
  apply List.sum_eq_zero
  intro r hr
  obtain ⟨c, hc, rfl⟩ := List.mem_map.1 hr
  obtain ⟨p, hp, rfl⟩ := List.mem_map.1 hc
  have hmem : p.1 ∈ interior (spacerElements (m + 1)) ∧ p.2 ∈ interior (spacerElements (m + 1)) := by
    unfold interiorPairs at hp
    split_ifs at hp
    · exact mem_allPairs hp
    · simp at hp
  rw [interior_spacers] at hmem
  obtain ⟨⟨i, hi, e1⟩, ⟨j, hj, e2⟩⟩ := And.intro (List.mem_map.1 hmem.1) (List.mem_map.1 hmem.2)
  simp only [violation_hasSize, eval_size, ← e1, ← e2, sz, h i (List.mem_range.1 hi),
    h j (List.mem_range.1 hj), sub_self, abs_zero, mul_zero]

theorem equal_of_pairCost {m : Nat} {x : Var → ℚ} (h : pairCost m x = 0) {i j : Nat} (hi : i < m)
    (hj : j < m) : x (2 * (i + 1) + 1) - x (2 * (i + 1)) = x (2 * (j + 1) + 1) - x (2 * (j + 1)) := by
  have hz := cost_eq_zero (x := x) (cs := (interiorPairs (spacerElements (m + 1))).map
    fun p => p.1.hasSize p.2.size spacerSizeEq) (by
      intro c hc
      obtain ⟨p, _, rfl⟩ := List.mem_map.1 hc
      norm_num [Element.hasSize, Constr.expressionRHS, spacerSizeEq, required]) (by unfold pairCost at h; exact h.le)
  by_cases hij : i = j
  · rw [hij]
  · have hi' : (⟨2 * (i + 1), 2 * (i + 1) + 1⟩ : Element) ∈ interior (spacerElements (m + 1)) := by
      rw [interior_spacers]; exact List.mem_map.2 ⟨i, List.mem_range.2 hi, rfl⟩
    have hj' : (⟨2 * (j + 1), 2 * (j + 1) + 1⟩ : Element) ∈ interior (spacerElements (m + 1)) := by
      rw [interior_spacers]; exact List.mem_map.2 ⟨j, List.mem_range.2 hj, rfl⟩
    have hpp : interiorPairs (spacerElements (m + 1)) = allPairs (interior (spacerElements (m + 1))) := by
      unfold interiorPairs
      rw [if_pos]
      rw [interior_length]; omega
    rcases allPairs_or _ hi' hj' with h | h | h
    all_goals first
      | (have := hz _ (List.mem_map.2 ⟨_, by rw [hpp]; exact h, rfl⟩)
         simp only [violation_hasSize, eval_size, sz] at this
         have := abs_eq_zero.1 this
         linarith)
      | (exfalso
         have h2 : 2 * (i + 1) = 2 * (j + 1) := congrArg Element.start h
         omega)

/-- The inner gaps of the modes with growing spacing. -/
theorem growing_cost (m : Nat) (spacing : Int) (x : Var → ℚ) :
    cost ((interior (spacerElements (m + 1))).flatMap fun s =>
      [s.hasMinSize spacing spacerSizeEq, s.hasSize (areaElement (m + 1)).size spaceGrow]) x
      = ∑ i ∈ range m, (100100100 * max 0 (-(x (2 * (i + 1) + 1) - x (2 * (i + 1)) - (spacing : ℚ) * multiplier))
          + 10 * |x (2 * (i + 1) + 1) - x (2 * (i + 1)) - sz (areaElement (m + 1)) x|) := by
  rw [interior_spacers, List.flatMap_map, cost_flatMap_range]
  apply sum_congr rfl
  intro i _
  have v1 : spacerSizeEq = 100100100 := by norm_num [spacerSizeEq, required]
  have v2 : spaceGrow = 10 := by norm_num [spaceGrow, weak]
  simp only [cost_cons, cost_nil, violation_hasSize, violation_hasMinSize, eval_size]
  simp only [Element.hasSize, Constr.expressionRHS, Element.hasMinSize, Constr.constantRHS, v1, v2, sz]
  ring

/-! ### The segments -/

/-- The size segment `i` asks for, in solver units. -/
def asked (l : Layout) (total : Int) (i : Nat) : ℚ :=
  (definiteSize total (con l i)).getD 0 * multiplier

theorem definite_cost {total : Int} {c : Constraint} {q : ℚ} (hc : definiteSize total c = some q)
    (flex : Flex) (area e : Element) {x : Var → ℚ} (ha : sz area x = total * multiplier) :
    10000 * |sz e x - q * multiplier| ≤ cost (constraintFor area e flex c) x ∧
    (sz e x = q * multiplier → cost (constraintFor area e flex c) x = 0) := by
  have hm : multiplier = 100 := rfl
  have hs : strong = 1000000 := rfl
  have hd : medium = 1000 := rfl
  cases c <;> simp only [definiteSize, Option.some.injEq, reduceCtorEq] at hc
  case len t =>
    subst hc
    simp only [constraintFor, cost_cons, cost_nil, violation_hasIntSize]
    simp only [Element.hasIntSize, Constr.constantRHS, lengthSizeEq, hs]
    have := abs_nonneg (sz e x - (t : ℚ) * multiplier)
    refine ⟨by linarith, fun h => ?_⟩
    rw [h, sub_self, abs_zero]; ring
  case max t =>
    subst hc
    simp only [constraintFor, cost_cons, cost_nil, violation_hasIntSize, violation_hasMaxSize]
    simp only [Element.hasIntSize, Element.hasMaxSize, Constr.constantRHS, maxSizeLTE, maxSizeEq, hs, hd]
    have := le_max_left 0 (sz e x - (t : ℚ) * multiplier)
    refine ⟨by linarith, fun h => ?_⟩
    rw [h, sub_self, abs_zero]; simp
  case percentage p =>
    subst hc
    simp only [constraintFor, cost_cons, cost_nil, violation_hasSize, eval_div, eval_mul, eval_size, ha]
    simp only [Element.hasSize, Constr.expressionRHS, percentageSizeEq, hs]
    rw [show (total : ℚ) * multiplier * p / 100 = total * p / 100 * multiplier by ring]
    have := abs_nonneg (sz e x - (total : ℚ) * p / 100 * multiplier)
    refine ⟨by linarith, fun h => ?_⟩
    rw [h, sub_self, abs_zero]; ring
  case ratio num den =>
    subst hc
    simp only [constraintFor, cost_cons, cost_nil, violation_hasSize, eval_div, eval_mul, eval_size, ha]
    simp only [Element.hasSize, Constr.expressionRHS, ratioSizeEq, hs]
    rw [show (total : ℚ) * multiplier * num / ((max 1 den : Int) : ℚ)
      = total * num / ((max 1 den : Int) : ℚ) * multiplier by ring]
    have := abs_nonneg (sz e x - (total : ℚ) * num / ((max 1 den : Int) : ℚ) * multiplier)
    refine ⟨by linarith, fun h => ?_⟩
    rw [h, sub_self, abs_zero]; ring

theorem sizes_cost (l : Layout) (x : Var → ℚ) :
    cost (sizeConstraints (areaElement l.constraints.length) (segmentElements l.constraints.length)
      l.constraints l.flex) x
      = ∑ i ∈ range l.constraints.length,
          cost (constraintFor (areaElement l.constraints.length) ⟨2 * i + 1, 2 * i + 2⟩ l.flex
            (con l i)) x := by
  unfold sizeConstraints
  rw [zip_segments, List.flatMap_map, cost_flatMap_range]

theorem neighbours_cost {m : Nat} {flex : Flex} (hf : flex ≠ .legacy) (x : Var → ℚ) :
    cost (neighbourConstraints (segmentElements (m + 1)) flex) x
      = ∑ i ∈ range m, |(x (2 * i + 2) - x (2 * i + 1)) - (x (2 * (i + 1) + 2) - x (2 * (i + 1) + 1))| := by
  have hz : (segmentElements (m + 1)).zip (segmentElements (m + 1)).tail
      = (List.range m).map fun i =>
          ((⟨2 * i + 1, 2 * i + 2⟩ : Element), (⟨2 * (i + 1) + 1, 2 * (i + 1) + 2⟩ : Element)) := by
    rw [segmentElements_eq]
    apply List.ext_getElem
    · simp
    · intro i h1 h2
      simp
  unfold neighbourConstraints
  simp only
  rw [if_pos hf, hz, List.map_map, cost_map_range]
  apply sum_congr rfl
  intro i _
  simp only [Function.comp, violation_hasSize, eval_size, sz]
  simp only [Element.hasSize, Constr.expressionRHS]
  have v : allSegmentGrow = 1 := rfl
  rw [v, one_mul]

theorem neighbours_lip (m : Nat) (w z : Nat → ℚ) :
    ∑ i ∈ range m, |w i - w (i + 1)|
      ≤ ∑ i ∈ range m, |z i - z (i + 1)| + 2 * ∑ i ∈ range (m + 1), |z i - w i| := by
  have key : ∑ i ∈ range m, |w i - w (i + 1)|
      ≤ ∑ i ∈ range m, |z i - z (i + 1)| + ∑ i ∈ range m, (|z i - w i| + |z (i + 1) - w (i + 1)|) := by
    rw [← sum_add_distrib]
    apply sum_le_sum
    intro i _
    have : w i - w (i + 1) = (z i - z (i + 1)) - (z i - w i) + (z (i + 1) - w (i + 1)) := by ring
    rw [this]
    have h1 := abs_add_le ((z i - z (i + 1)) - (z i - w i)) (z (i + 1) - w (i + 1))
    have h2 := abs_sub (z i - z (i + 1)) (z i - w i)
    linarith
  rw [sum_add_distrib] at key
  have e1 : ∑ i ∈ range m, |z i - w i| ≤ ∑ i ∈ range (m + 1), |z i - w i| := by
    rw [sum_range_succ _ m]
    have := abs_nonneg (z m - w m)
    linarith
  have e2 : ∑ i ∈ range m, |z (i + 1) - w (i + 1)| ≤ ∑ i ∈ range (m + 1), |z i - w i| := by
    rw [sum_range_succ' _ m]
    have := abs_nonneg (z 0 - w 0)
    linarith
  linarith

theorem no_fillPairs {l : Layout} {total : Int}
    (h : ∀ c ∈ l.constraints, (definiteSize total c).isSome) :
    fillPairs (segmentElements l.constraints.length) l.constraints l.flex = [] := by
  have : validFill (segmentElements l.constraints.length) l.constraints l.flex = [] := by
    unfold validFill
    rw [List.filterMap_eq_nil_iff]
    intro p hp
    have := h p.1 (List.of_mem_zip (show (p.1, p.2) ∈ _ from hp)).1
    cases hc : p.1 <;> rw [hc] at this <;> simp [definiteSize] at this <;> simp [scalingFactor]
  unfold fillPairs
  rw [this]; simp

/-! ### The gaps -/

/-- How far the gaps are from those of the flex mode. -/
def gapError (flex : Flex) (m : Nat) (spacing : Int) (x : Var → ℚ) : ℚ :=
  let inner := ∑ i ∈ range m, |x (2 * (i + 1) + 1) - x (2 * (i + 1)) - (spacing : ℚ) * multiplier|
  let first := x 1 - x 0
  let last := x (2 * (m + 1) + 1) - x (2 * (m + 1))
  match flex with
  | .start => inner + first
  | .end' => inner + last
  | .center => inner + |first - last|
  | _ => pairCost m x + first + last

/-- The cost of the gaps: more than that of the gaps of the flex mode, up to the total change of the
sizes. -/
theorem flex_cost_le {flex : Flex} (hf : flex ≠ .legacy) {m : Nat} {spacing : Int} {a b : ℚ}
    {x y : Var → ℚ} (hx : Placed (m + 1) a b x) (hy : Placed (m + 1) a b y)
    (hg : gapError flex m spacing y = 0)
    (hmin : flex = .spaceBetween ∨ flex = .spaceAround →
      ∀ i < m, (spacing : ℚ) * multiplier ≤ y (2 * (i + 1) + 1) - y (2 * (i + 1))) :
    cost (flexList (areaElement (m + 1)) (spacerElements (m + 1)) flex spacing) y
        + gapError flex m spacing x
      ≤ cost (flexList (areaElement (m + 1)) (spacerElements (m + 1)) flex spacing) x
        + 100 * ∑ i ∈ range (m + 1),
            |x (2 * i + 2) - x (2 * i + 1) - (y (2 * i + 2) - y (2 * i + 1))| := by
  have hA : ∀ {u : Var → ℚ}, Placed (m + 1) a b u → sz (areaElement (m + 1)) u = b - a :=
    fun h => area_size h
  have tx := placed_total hx
  have ty := placed_total hy
  rw [sum_gaps (fun i => x (2 * i + 1) - x (2 * i))] at tx
  rw [sum_gaps (fun i => y (2 * i + 1) - y (2 * i))] at ty
  simp only [Nat.mul_zero, Nat.zero_add] at tx ty
  have hδ : |∑ i ∈ range (m + 1), (x (2 * i + 2) - x (2 * i + 1))
        - ∑ i ∈ range (m + 1), (y (2 * i + 2) - y (2 * i + 1))|
      ≤ ∑ i ∈ range (m + 1), |x (2 * i + 2) - x (2 * i + 1) - (y (2 * i + 2) - y (2 * i + 1))| := by
    rw [← sum_sub_distrib]; exact abs_sum_le_sum_abs _ _
  have hσ : ∀ u : Var → ℚ, |∑ i ∈ range m, (u (2 * (i + 1) + 1) - u (2 * (i + 1))) - m * ((spacing : ℚ) * multiplier)|
      ≤ ∑ i ∈ range m, |u (2 * (i + 1) + 1) - u (2 * (i + 1)) - (spacing : ℚ) * multiplier| := by
    intro u
    have : ∑ i ∈ range m, (u (2 * (i + 1) + 1) - u (2 * (i + 1))) - m * ((spacing : ℚ) * multiplier)
        = ∑ i ∈ range m, (u (2 * (i + 1) + 1) - u (2 * (i + 1)) - (spacing : ℚ) * multiplier) := by
      rw [sum_sub_distrib]; simp
    rw [this]; exact abs_sum_le_sum_abs _ _
  have hσx := hσ x
  have hσy := hσ y
  have fx : 0 ≤ x 1 - x 0 := by
    have := hx.low 1 (show (1 : Nat) < 2 * (m + 1) + 2 by omega)
    rw [hx.first]; linarith
  have fy : 0 ≤ y 1 - y 0 := by
    have := hy.low 1 (show (1 : Nat) < 2 * (m + 1) + 2 by omega)
    rw [hy.first]; linarith
  have lx : 0 ≤ x (2 * (m + 1) + 1) - x (2 * (m + 1)) := by
    have := hx.high (2 * (m + 1)) (show (2 * (m + 1) : Nat) < 2 * (m + 1) + 2 by omega)
    rw [hx.last]; linarith
  have ly : 0 ≤ y (2 * (m + 1) + 1) - y (2 * (m + 1)) := by
    have := hy.high (2 * (m + 1)) (show (2 * (m + 1) : Nat) < 2 * (m + 1) + 2 by omega)
    rw [hy.last]; linarith
  have sx : x (2 * (m + 1) + 1) - x (2 * (m + 1)) ≤ b - a ∧ x 1 - x 0 ≤ b - a := by
    have h1 := hx.low (2 * (m + 1)) (show (2 * (m + 1) : Nat) < 2 * (m + 1) + 2 by omega)
    have h2 := hx.high 1 (show (1 : Nat) < 2 * (m + 1) + 2 by omega)
    rw [hx.last, hx.first]
    exact ⟨by linarith, by linarith⟩
  have sy : y (2 * (m + 1) + 1) - y (2 * (m + 1)) ≤ b - a ∧ y 1 - y 0 ≤ b - a := by
    have h1 := hy.low (2 * (m + 1)) (show (2 * (m + 1) : Nat) < 2 * (m + 1) + 2 by omega)
    have h2 := hy.high 1 (show (1 : Nat) < 2 * (m + 1) + 2 by omega)
    rw [hy.last, hy.first]
    exact ⟨by linarith, by linarith⟩
  have hIy : ∀ i < m, y (2 * (i + 1) + 1) - y (2 * (i + 1)) ≤ b - a := by
    intro i hi
    have h1 := hy.low (2 * (i + 1)) (show (2 * (i + 1) : Nat) < 2 * (m + 1) + 2 by omega)
    have h2 := hy.high (2 * (i + 1) + 1) (show (2 * (i + 1) + 1 : Nat) < 2 * (m + 1) + 2 by omega)
    linarith
  have v1 : spacerSizeEq = 100100100 := by norm_num [spacerSizeEq, required]
  have v2 : required = 1001001000 := rfl
  have v3 : grow = 100 := rfl
  have sσ : ∀ u : Var → ℚ, 0 ≤ ∑ i ∈ range m, |u (2 * (i + 1) + 1) - u (2 * (i + 1)) - (spacing : ℚ) * multiplier| :=
    fun u => sum_nonneg fun i _ => abs_nonneg _
  have ssx := sσ x
  have ssy := sσ y
  -- the modes with growing inner gaps
  have growing : flex = .spaceBetween ∨ flex = .spaceAround →
      cost ((interiorPairs (spacerElements (m + 1))).map (fun p => p.1.hasSize p.2.size spacerSizeEq) ++
        (interior (spacerElements (m + 1))).flatMap fun s =>
          [s.hasMinSize spacing spacerSizeEq, s.hasSize (areaElement (m + 1)).size spaceGrow]) y
        + gapError flex m spacing x
      ≤ cost ((interiorPairs (spacerElements (m + 1))).map (fun p => p.1.hasSize p.2.size spacerSizeEq) ++
        (interior (spacerElements (m + 1))).flatMap fun s =>
          [s.hasMinSize spacing spacerSizeEq, s.hasSize (areaElement (m + 1)).size spaceGrow]) x
        + 100 * ∑ i ∈ range (m + 1),
            |x (2 * i + 2) - x (2 * i + 1) - (y (2 * i + 2) - y (2 * i + 1))| := by
    intro hfl
    have hge : gapError flex m spacing y = pairCost m y + (y 1 - y 0)
        + (y (2 * (m + 1) + 1) - y (2 * (m + 1))) := by
      rcases hfl with rfl | rfl <;> rfl
    have hgx : gapError flex m spacing x = pairCost m x + (x 1 - x 0)
        + (x (2 * (m + 1) + 1) - x (2 * (m + 1))) := by
      rcases hfl with rfl | rfl <;> rfl
    rw [hge] at hg
    have py := pairCost_nonneg m y
    have px := pairCost_nonneg m x
    rw [cost_append, cost_append, growing_cost, growing_cost, hA hx, hA hy, hgx]
    change pairCost m y + _ + _ ≤ pairCost m x + _ + _
    have ey : ∑ i ∈ range m, (100100100 * max 0 (-(y (2 * (i + 1) + 1) - y (2 * (i + 1)) - (spacing : ℚ) * multiplier))
          + 10 * |y (2 * (i + 1) + 1) - y (2 * (i + 1)) - (b - a)|)
        = 10 * (m * (b - a) - ∑ i ∈ range m, (y (2 * (i + 1) + 1) - y (2 * (i + 1)))) := by
      have : (m : ℚ) * (b - a) - ∑ i ∈ range m, (y (2 * (i + 1) + 1) - y (2 * (i + 1)))
          = ∑ i ∈ range m, ((b - a) - (y (2 * (i + 1) + 1) - y (2 * (i + 1)))) := by
        rw [sum_sub_distrib (fun _ => b - a) (fun i => y (2 * (i + 1) + 1) - y (2 * (i + 1)))]
        rw [sum_const, card_range, nsmul_eq_mul]
      rw [this, mul_sum]
      apply sum_congr rfl
      intro i hi
      have h1 := hmin hfl i (mem_range.1 hi)
      have h2 := hIy i (mem_range.1 hi)
      rw [max_eq_left (by linarith), abs_of_nonpos (by linarith)]
      ring
    have ex : 10 * (m * (b - a) - ∑ i ∈ range m, (x (2 * (i + 1) + 1) - x (2 * (i + 1))))
        ≤ ∑ i ∈ range m, (100100100 * max 0 (-(x (2 * (i + 1) + 1) - x (2 * (i + 1)) - (spacing : ℚ) * multiplier))
          + 10 * |x (2 * (i + 1) + 1) - x (2 * (i + 1)) - (b - a)|) := by
      have : (m : ℚ) * (b - a) - ∑ i ∈ range m, (x (2 * (i + 1) + 1) - x (2 * (i + 1)))
          = ∑ i ∈ range m, ((b - a) - (x (2 * (i + 1) + 1) - x (2 * (i + 1)))) := by
        rw [sum_sub_distrib (fun _ => b - a) (fun i => x (2 * (i + 1) + 1) - x (2 * (i + 1)))]
        rw [sum_const, card_range, nsmul_eq_mul]
      rw [this, mul_sum]
      apply sum_le_sum
      intro i hi
      have h1 := le_max_left 0 (-(x (2 * (i + 1) + 1) - x (2 * (i + 1)) - (spacing : ℚ) * multiplier))
      have h2 := neg_abs_le (x (2 * (i + 1) + 1) - x (2 * (i + 1)) - (b - a))
      linarith
    rw [ey]
    have hd := (abs_le.1 hδ).1
    have hd0 : 0 ≤ ∑ i ∈ range (m + 1), |x (2 * i + 2) - x (2 * i + 1) - (y (2 * i + 2) - y (2 * i + 1))| :=
      le_trans (abs_nonneg _) hδ
    linarith
  have hd := (abs_le.1 hδ).1
  have hd0 : 0 ≤ ∑ i ∈ range (m + 1), |x (2 * i + 2) - x (2 * i + 1) - (y (2 * i + 2) - y (2 * i + 1))| :=
    le_trans (abs_nonneg _) hδ
  have hs1 := (abs_le.1 hσx).1
  unfold flexList
  cases flex with
  | legacy => exact absurd rfl hf
  | spaceAround => exact growing (Or.inr rfl)
  | spaceBetween =>
    have := growing (Or.inl rfl)
    simp only
    rw [cost_append _ (endsOf _ _) y, cost_append _ (endsOf _ _) x]
    simp only [endsOf_spacers, cost_cons, cost_nil, violation_isEmpty]
    simp only [Element.isEmpty, Constr.constantRHS, v2, sz]
    simp only [gapError] at hg
    have py := pairCost_nonneg m y
    have e1 : y 1 - y 0 = 0 := by linarith
    have e2 : y (2 * (m + 1) + 1) - y (2 * (m + 1)) = 0 := by linarith
    rw [e1, e2, abs_of_nonneg fx, abs_of_nonneg lx, abs_zero]
    linarith
  | start =>
    simp only [gapError] at hg ⊢
    simp only [cost_append, fixed_cost, endsOf_spacers, cost_cons, cost_nil, violation_isEmpty,
      violation_hasSize, eval_size, hA hx, hA hy]
    simp only [Element.isEmpty, Element.hasSize, Constr.constantRHS, Constr.expressionRHS, v2, v3, sz]
    have e1 : y 1 - y 0 = 0 := by linarith
    have e2 : ∑ i ∈ range m, |y (2 * (i + 1) + 1) - y (2 * (i + 1)) - (spacing : ℚ) * multiplier| = 0 := by
      linarith
    rw [e2, abs_nonpos_iff] at hσy
    rw [e1, e2, abs_of_nonneg fx, abs_of_nonpos (show y _ - y _ - (b - a) ≤ 0 by linarith [sy.1]),
      abs_of_nonpos (show x _ - x _ - (b - a) ≤ 0 by linarith [sx.1]), abs_zero]
    linarith
  | end' =>
    simp only [gapError] at hg ⊢
    simp only [cost_append, fixed_cost, endsOf_spacers, cost_cons, cost_nil, violation_isEmpty,
      violation_hasSize, eval_size, hA hx, hA hy]
    simp only [Element.isEmpty, Element.hasSize, Constr.constantRHS, Constr.expressionRHS, v2, v3, sz]
    have e1 : y (2 * (m + 1) + 1) - y (2 * (m + 1)) = 0 := by linarith
    have e2 : ∑ i ∈ range m, |y (2 * (i + 1) + 1) - y (2 * (i + 1)) - (spacing : ℚ) * multiplier| = 0 := by
      linarith
    rw [e2, abs_nonpos_iff] at hσy
    rw [e1, e2, abs_of_nonneg lx, abs_of_nonpos (show y 1 - y 0 - (b - a) ≤ 0 by linarith [sy.2]),
      abs_of_nonpos (show x 1 - x 0 - (b - a) ≤ 0 by linarith [sx.2]), abs_zero]
    linarith
  | center =>
    simp only [gapError] at hg ⊢
    simp only [cost_append, fixed_cost, endsOf_spacers, cost_cons, cost_nil,
      violation_hasSize, eval_size, hA hx, hA hy]
    simp only [Element.hasSize, Constr.expressionRHS, v1, v3, sz]
    have a1 := abs_nonneg (y 1 - y 0 - (y (2 * (m + 1) + 1) - y (2 * (m + 1))))
    have a2 := abs_nonneg (x 1 - x 0 - (x (2 * (m + 1) + 1) - x (2 * (m + 1))))
    have e1 : |y 1 - y 0 - (y (2 * (m + 1) + 1) - y (2 * (m + 1)))| = 0 := by linarith
    have e2 : ∑ i ∈ range m, |y (2 * (i + 1) + 1) - y (2 * (i + 1)) - (spacing : ℚ) * multiplier| = 0 := by
      linarith
    rw [e2, abs_nonpos_iff] at hσy
    rw [e1, e2, abs_of_nonpos (show y 1 - y 0 - (b - a) ≤ 0 by linarith [sy.2]),
      abs_of_nonpos (show x 1 - x 0 - (b - a) ≤ 0 by linarith [sx.2]),
      abs_of_nonpos (show y (2 * (m + 1) + 1) - y (2 * (m + 1)) - (b - a) ≤ 0 by linarith [sy.1]),
      abs_of_nonpos (show x (2 * (m + 1) + 1) - x (2 * (m + 1)) - (b - a) ≤ 0 by linarith [sx.1])]
    linarith

/-! ### The gaps of the flex modes -/

theorem flexGap_inner {flex : Flex} {m : Nat} {spacing : Int} {free : ℚ} {i j : Nat} (hi : i < m)
    (hj : j < m) :
    flexGap flex (m + 1) spacing free (i + 1) = flexGap flex (m + 1) spacing free (j + 1) := by
  unfold flexGap
  rw [if_pos ⟨by omega, by omega⟩, if_pos ⟨by omega, by omega⟩]

/-- The gaps take up the free cells. -/
theorem flexGap_total {flex : Flex} (hf : flex ≠ .legacy) {m : Nat} {spacing : Int} {free : ℚ}
    (h2 : flex = .spaceBetween ∨ flex = .spaceAround → 0 < m) :
    ∑ i ∈ range (m + 1 + 1), flexGap flex (m + 1) spacing free i = free := by
  have h3 : ((m + 1 : Nat) : ℚ) - 1 = m := by push_cast; ring
  rw [sum_gaps]
  have hin : ∀ q, (∀ i < m, flexGap flex (m + 1) spacing free (i + 1) = q) →
      ∑ i ∈ range m, flexGap flex (m + 1) spacing free (i + 1) = m * q := by
    intro q hq
    rw [sum_congr rfl fun i hi => hq i (mem_range.1 hi)]
    simp
  have inner : ∀ i < m, 0 < i + 1 ∧ i + 1 < m + 1 := fun i hi => ⟨by omega, by omega⟩
  have h0 : ¬ (0 < 0 ∧ 0 < m + 1) := by omega
  have hl : ¬ (0 < m + 1 ∧ m + 1 < m + 1) := by omega
  have hl' : ¬ (m + 1 = 0) := by omega
  cases flex with
  | legacy => exact absurd rfl hf
  | spaceBetween =>
    have : (m : ℚ) ≠ 0 := by have := h2 (Or.inl rfl); positivity
    rw [hin (free / m) fun i hi => by simp only [flexGap, if_pos (inner i hi), h3]]
    simp only [flexGap, if_neg h0, if_neg hl]
    field_simp; ring
  | spaceAround =>
    have : (m : ℚ) ≠ 0 := by have := h2 (Or.inr rfl); positivity
    rw [hin (free / m) fun i hi => by simp only [flexGap, if_pos (inner i hi), h3]]
    simp only [flexGap, if_neg h0, if_neg hl]
    field_simp; ring
  | start =>
    rw [hin spacing fun i hi => by simp only [flexGap, if_pos (inner i hi)]]
    simp only [flexGap, if_neg h0, if_neg hl, if_neg hl', if_true, h3]
    ring
  | end' =>
    rw [hin spacing fun i hi => by simp only [flexGap, if_pos (inner i hi)]]
    simp only [flexGap, if_neg h0, if_neg hl, if_neg hl', if_true, h3]
    ring
  | center =>
    rw [hin spacing fun i hi => by simp only [flexGap, if_pos (inner i hi)]]
    simp only [flexGap, if_neg h0, if_neg hl, h3]
    ring

theorem flexGap_outer {flex : Flex} {m : Nat} {spacing : Int} {free : ℚ} (hfit : m * (spacing : ℚ) ≤ free) {i : Nat}
    (hi : i = 0 ∨ i = m + 1) : 0 ≤ flexGap flex (m + 1) spacing free i := by
  have h3 : ((m + 1 : Nat) : ℚ) - 1 = m := by push_cast; ring
  unfold flexGap
  rw [h3, if_neg (by omega)]
  cases flex <;> simp only <;> (try split_ifs) <;> linarith

theorem flexGap_le {flex : Flex} {m : Nat} {spacing : Int} {free : ℚ} (hfit : m * (spacing : ℚ) ≤ free) {i : Nat}
    (hi : i < m) : (spacing : ℚ) ≤ flexGap flex (m + 1) spacing free (i + 1) := by
  have h3 : ((m + 1 : Nat) : ℚ) - 1 = m := by push_cast; ring
  have hm : (0 : ℚ) < m := by exact_mod_cast (by omega : 0 < m)
  have h4 : (spacing : ℚ) ≤ free / m := by rw [le_div_iff₀ hm]; linarith
  unfold flexGap
  rw [h3, if_pos ⟨by omega, by omega⟩]
  cases flex <;> first | exact h4 | exact le_refl _

theorem gapError_nonneg {flex : Flex} {m : Nat} {spacing : Int} {x : Var → ℚ}
    (fx : 0 ≤ x 1 - x 0) (lx : 0 ≤ x (2 * (m + 1) + 1) - x (2 * (m + 1))) :
    0 ≤ gapError flex m spacing x := by
  have h1 : 0 ≤ ∑ i ∈ range m, |x (2 * (i + 1) + 1) - x (2 * (i + 1)) - (spacing : ℚ) * multiplier| :=
    sum_nonneg fun i _ => abs_nonneg _
  have h2 := pairCost_nonneg m x
  have h3 := abs_nonneg (x 1 - x 0 - (x (2 * (m + 1) + 1) - x (2 * (m + 1))))
  unfold gapError
  simp only
  cases flex <;> simp only <;> linarith

/-- The gaps of the mode have no error. -/
theorem gapError_zero {flex : Flex} (hf : flex ≠ .legacy) {m : Nat} {spacing : Int} {free : ℚ}
    {y : Var → ℚ}
    (yg : ∀ i, y (2 * i + 1) - y (2 * i) = flexGap flex (m + 1) spacing free i * multiplier) :
    gapError flex m spacing y = 0 := by
  have h3 : ((m + 1 : Nat) : ℚ) - 1 = m := by push_cast; ring
  have inner : ∀ i < m, 0 < i + 1 ∧ i + 1 < m + 1 := fun i hi => ⟨by omega, by omega⟩
  have h0 : ¬ (0 < 0 ∧ 0 < m + 1) := by omega
  have hl : ¬ (0 < m + 1 ∧ m + 1 < m + 1) := by omega
  have hl' : ¬ (m + 1 = 0) := by omega
  have y1 : y 1 - y 0 = flexGap flex (m + 1) spacing free 0 * multiplier := yg 0
  have ylast := yg (m + 1)
  have hI : (∀ i < m, flexGap flex (m + 1) spacing free (i + 1) = spacing) →
      ∑ i ∈ range m, |y (2 * (i + 1) + 1) - y (2 * (i + 1)) - (spacing : ℚ) * multiplier| = 0 := by
    intro h
    apply sum_eq_zero
    intro i hi
    rw [yg (i + 1), h i (mem_range.1 hi), sub_self, abs_zero]
  have hP : pairCost m y = 0 :=
    pairCost_zero_of (q := flexGap flex (m + 1) spacing free 1 * multiplier) (fun i hi => by
      rw [yg (i + 1), flexGap_inner (j := 0) hi (by omega)])
  unfold gapError
  simp only
  rw [ylast, y1, hP]
  cases flex with
  | legacy => exact absurd rfl hf
  | spaceBetween => simp only [flexGap, if_neg h0, if_neg hl]; ring
  | spaceAround => simp only [flexGap, if_neg h0, if_neg hl]; ring
  | start =>
    simp only
    rw [hI fun i hi => by simp only [flexGap, if_pos (inner i hi)]]
    simp only [flexGap, if_neg h0, if_true]; ring
  | end' =>
    simp only
    rw [hI fun i hi => by simp only [flexGap, if_pos (inner i hi)]]
    simp only [flexGap, if_neg hl, if_neg hl']; ring
  | center =>
    simp only
    rw [hI fun i hi => by simp only [flexGap, if_pos (inner i hi)]]
    simp only [flexGap, if_neg h0, if_neg hl, sub_self, abs_zero]; ring

/-- Gaps without error are those of the mode. -/
theorem gaps_of_error {flex : Flex} (hf : flex ≠ .legacy) {m : Nat} {spacing : Int} {free : ℚ}
    (h2 : flex = .spaceBetween ∨ flex = .spaceAround → 0 < m) {x : Var → ℚ}
    (fx : 0 ≤ x 1 - x 0) (lx : 0 ≤ x (2 * (m + 1) + 1) - x (2 * (m + 1)))
    (he : gapError flex m spacing x = 0)
    (tx : x 1 - x 0 + ∑ i ∈ range m, (x (2 * (i + 1) + 1) - x (2 * (i + 1)))
      + (x (2 * (m + 1) + 1) - x (2 * (m + 1))) = free * multiplier) :
    ∀ i < m + 1 + 1, x (2 * i + 1) - x (2 * i) = flexGap flex (m + 1) spacing free i * multiplier := by
  have hm : multiplier = 100 := rfl
  have h3 : ((m + 1 : Nat) : ℚ) - 1 = m := by push_cast; ring
  have inner : ∀ i < m, 0 < i + 1 ∧ i + 1 < m + 1 := fun i hi => ⟨by omega, by omega⟩
  have h0 : ¬ (0 < 0 ∧ 0 < m + 1) := by omega
  have hl : ¬ (0 < m + 1 ∧ m + 1 < m + 1) := by omega
  have hl' : ¬ (m + 1 = 0) := by omega
  -- it is enough to know the inner gaps and one of the outer ones
  have fin : ∀ q r t : ℚ, (∀ i < m, flexGap flex (m + 1) spacing free (i + 1) = q) →
      flexGap flex (m + 1) spacing free 0 = r → flexGap flex (m + 1) spacing free (m + 1) = t →
      (∀ i < m, x (2 * (i + 1) + 1) - x (2 * (i + 1)) = q * multiplier) → x 1 - x 0 = r * multiplier →
      x (2 * (m + 1) + 1) - x (2 * (m + 1)) = t * multiplier →
      ∀ i < m + 1 + 1, x (2 * i + 1) - x (2 * i)
        = flexGap flex (m + 1) spacing free i * multiplier := by
    intro q r t hq hr ht h1 h2 h4 i hi
    cases i with
    | zero => rw [hr]; exact h2
    | succ i =>
      by_cases him : i < m
      · rw [hq i him]; exact h1 i him
      · have : i = m := by omega
        subst this
        rw [ht]; exact h4
  have hI : ∑ i ∈ range m, |x (2 * (i + 1) + 1) - x (2 * (i + 1)) - (spacing : ℚ) * multiplier| = 0 →
      (∀ i < m, x (2 * (i + 1) + 1) - x (2 * (i + 1)) = spacing * multiplier) ∧
      ∑ i ∈ range m, (x (2 * (i + 1) + 1) - x (2 * (i + 1))) = m * (spacing * multiplier) := by
    intro h
    have h1 : ∀ i < m, x (2 * (i + 1) + 1) - x (2 * (i + 1)) = spacing * multiplier := by
      intro i hi
      have := (sum_eq_zero_iff_of_nonneg fun i _ => abs_nonneg _).1 h i (mem_range.2 hi)
      have := abs_eq_zero.1 this
      linarith
    refine ⟨h1, ?_⟩
    rw [sum_congr rfl fun i hi => h1 i (mem_range.1 hi), sum_const, card_range, nsmul_eq_mul]
  have hσ0 : 0 ≤ ∑ i ∈ range m, |x (2 * (i + 1) + 1) - x (2 * (i + 1)) - (spacing : ℚ) * multiplier| :=
    sum_nonneg fun i _ => abs_nonneg _
  have hp0 := pairCost_nonneg m x
  have hS : 0 < m → pairCost m x + (x 1 - x 0) + (x (2 * (m + 1) + 1) - x (2 * (m + 1))) = 0 →
      ∀ i < m, x (2 * (i + 1) + 1) - x (2 * (i + 1)) = free / m * multiplier := by
    intro hmp h i hi
    have hp : pairCost m x = 0 := by linarith
    have hsame : ∀ j < m, x (2 * (j + 1) + 1) - x (2 * (j + 1))
        = x (2 * (i + 1) + 1) - x (2 * (i + 1)) := fun j hj => equal_of_pairCost hp hj hi
    rw [sum_congr rfl fun j hj => hsame j (mem_range.1 hj), sum_const, card_range,
      nsmul_eq_mul] at tx
    have hmp : (m : ℚ) ≠ 0 := by positivity
    apply mul_left_cancel₀ hmp
    rw [show (m : ℚ) * (free / m * multiplier) = free * multiplier by field_simp]
    linarith
  unfold gapError at he
  simp only at he
  cases flex with
  | legacy => exact absurd rfl hf
  | spaceBetween =>
    simp only at he
    refine fin (free / m) 0 0 (fun i hi => by simp only [flexGap, if_pos (inner i hi), h3])
      (by simp only [flexGap, if_neg h0]) (by simp only [flexGap, if_neg hl])
      (hS (h2 (Or.inl rfl)) he) (by linarith) (by linarith)
  | spaceAround =>
    simp only at he
    refine fin (free / m) 0 0 (fun i hi => by simp only [flexGap, if_pos (inner i hi), h3])
      (by simp only [flexGap, if_neg h0]) (by simp only [flexGap, if_neg hl])
      (hS (h2 (Or.inr rfl)) he) (by linarith) (by linarith)
  | start =>
    simp only at he
    obtain ⟨h1, h4⟩ := hI (by linarith)
    rw [h4] at tx
    refine fin spacing 0 (free - m * spacing) (fun i hi => by simp only [flexGap, if_pos (inner i hi)])
      (by simp only [flexGap, if_neg h0, if_true])
      (by simp only [flexGap, if_neg hl, if_neg hl', h3]) h1 (by linarith) (by linarith)
  | end' =>
    simp only at he
    obtain ⟨h1, h4⟩ := hI (by linarith)
    rw [h4] at tx
    refine fin spacing (free - m * spacing) 0 (fun i hi => by simp only [flexGap, if_pos (inner i hi)])
      (by simp only [flexGap, if_neg h0, if_true, h3])
      (by simp only [flexGap, if_neg hl, if_neg hl']) h1 (by linarith) (by linarith)
  | center =>
    simp only at he
    have ha := abs_nonneg (x 1 - x 0 - (x (2 * (m + 1) + 1) - x (2 * (m + 1))))
    obtain ⟨h1, h4⟩ := hI (by linarith)
    have h5 := abs_eq_zero.1
      (show |x 1 - x 0 - (x (2 * (m + 1) + 1) - x (2 * (m + 1)))| = 0 by linarith)
    rw [h4] at tx
    refine fin spacing ((free - m * spacing) / 2) ((free - m * spacing) / 2)
      (fun i hi => by simp only [flexGap, if_pos (inner i hi)])
      (by simp only [flexGap, if_neg h0, h3])
      (by simp only [flexGap, if_neg hl, h3]) h1 (by linarith) (by linarith)

/-- In a best placement every segment has the size asked for and the gaps are those of the mode. -/
theorem flex_exact {l : Layout} {m : Nat} (hn : l.constraints.length = m + 1)
    (hf : l.flex ≠ .legacy) {total : Int} {a b : ℚ} (hab : b - a = total * multiplier)
    (hdef : ∀ c ∈ l.constraints, ∃ q, definiteSize total c = some q ∧ 0 ≤ q ∧
      0 ≤ q + (Spacing.value l.spacing : ℚ))
    (hfit : definiteTotal total l.constraints + m * (Spacing.value l.spacing : ℚ) ≤ total)
    (h2 : l.flex = .spaceBetween ∨ l.flex = .spaceAround → 0 < m) {x : Var → ℚ}
    (hx : Placed l.constraints.length a b x)
    (hbest : ∀ y, Placed l.constraints.length a b y →
      weightedViolation (softList l) x ≤ weightedViolation (softList l) y) :
    (∀ i < m + 1, x (2 * i + 2) - x (2 * i + 1) = asked l total i) ∧
    ∀ i < m + 1 + 1, x (2 * i + 1) - x (2 * i)
      = flexGap l.flex (m + 1) (Spacing.value l.spacing) (total - definiteTotal total l.constraints) i
        * multiplier := by
  have hm : multiplier = 100 := rfl
  generalize hsp : Spacing.value l.spacing = spacing at *
  generalize hfree : (total : ℚ) - definiteTotal total l.constraints = free
  have hsumw : ∑ i ∈ range (m + 1), asked l total i = definiteTotal total l.constraints * multiplier := by
    unfold definiteTotal asked
    rw [← sum_mul, ← hn, sum_con l (fun c => (definiteSize total c).getD 0)]
  have hw0 : ∀ i < m + 1, 0 ≤ asked l total i := by
    intro i hi
    obtain ⟨q, hq, h0, _⟩ := hdef _ (con_mem (l := l) (i := i) (by omega))
    unfold asked
    rw [hq, hm]
    simp only [Option.getD_some]
    linarith
  have hws : ∀ i < m + 1, 0 ≤ asked l total i + (spacing : ℚ) * multiplier := by
    intro i hi
    obtain ⟨q, hq, _, h0⟩ := hdef _ (con_mem (l := l) (i := i) (by omega))
    unfold asked
    rw [hq, hm]
    simp only [Option.getD_some]
    linarith
  let g : Nat → ℚ := fun i => flexGap l.flex (m + 1) spacing free i * multiplier
  have hg0 : ∀ i, i = 0 ∨ i = m + 1 → 0 ≤ g i := by
    intro i hi
    have := flexGap_outer (flex := l.flex) (m := m) (spacing := spacing) (free := free) (by linarith) hi
    simp only [g, hm]; linarith
  have hgs : ∀ i < m, (spacing : ℚ) * multiplier ≤ g (i + 1) := by
    intro i hi
    have := flexGap_le (flex := l.flex) (m := m) (spacing := spacing) (free := free) (by linarith) hi
    simp only [g, hm]; linarith
  have htot : ∑ i ∈ range (m + 1 + 1), g i + ∑ i ∈ range (m + 1), asked l total i = b - a := by
    rw [hsumw, hab]
    simp only [g]
    rw [← sum_mul, flexGap_total hf h2, ← hfree]
    ring
  have hy : Placed (m + 1) a b (place a g (asked l total)) :=
    place_placed_overlap (hg0 0 (Or.inl rfl)) (hg0 (m + 1) (Or.inr rfl)) hw0
      (fun i hi => by have := hws i (by omega); have := hgs i (by omega); linarith)
      (fun i hi => by have := hws (i + 1) (by omega); have := hgs i (by omega); linarith) htot
  rw [hn] at hx hbest
  have hle := hbest _ hy
  rw [wv_eq_cost (fun c hc => (soft_softList l c hc).lt),
    wv_eq_cost (fun c hc => (soft_softList l c hc).lt)] at hle
  have hnf := no_fillPairs (l := l) (total := total)
    (fun c hc => by obtain ⟨q, hq, _⟩ := hdef c hc; rw [hq]; rfl)
  unfold softList at hle
  simp only [cost_append, hnf, List.map_nil, cost_nil, sizes_cost, hsp] at hle
  rw [hn] at hle
  rw [neighbours_cost hf, neighbours_cost hf] at hle
  generalize hyd : place a g (asked l total) = y at *
  have yg : ∀ i, y (2 * i + 1) - y (2 * i) = g i := fun i => by rw [← hyd]; exact place_gap _ _ _ i
  have yz : ∀ i, y (2 * i + 2) - y (2 * i + 1) = asked l total i :=
    fun i => by rw [← hyd]; exact place_segment _ _ _ i
  have herr : gapError l.flex m spacing y = 0 := gapError_zero hf yg
  have hmin : l.flex = .spaceBetween ∨ l.flex = .spaceAround →
      ∀ i < m, (spacing : ℚ) * multiplier ≤ y (2 * (i + 1) + 1) - y (2 * (i + 1)) := by
    intro hfl i hi
    rw [yg (i + 1)]
    have hmp : (0 : ℚ) < m := by have := h2 hfl; positivity
    have : g (i + 1) = free / m * multiplier := by
      simp only [g, flexGap]
      rw [if_pos ⟨by omega, by omega⟩]
      rcases hfl with h | h <;> rw [h] <;> simp
    rw [this, hm]
    have : (spacing : ℚ) ≤ free / m := by rw [le_div_iff₀ hmp]; linarith
    linarith
  have hflex := flex_cost_le (spacing := spacing) hf hx hy herr hmin
  have hxa : sz (areaElement (m + 1)) x = total * multiplier := by rw [area_size hx, hab]
  have hya : sz (areaElement (m + 1)) y = total * multiplier := by rw [area_size hy, hab]
  have hszy : ∑ i ∈ range (m + 1),
      cost (constraintFor (areaElement (m + 1)) ⟨2 * i + 1, 2 * i + 2⟩ l.flex (con l i)) y = 0 := by
    apply sum_eq_zero
    intro i hi
    obtain ⟨q, hq, h0, _⟩ := hdef _ (con_mem (l := l) (i := i) (by have := mem_range.1 hi; omega))
    refine (definite_cost hq l.flex _ _ hya).2 ?_
    have := yz i
    unfold sz
    simp only
    rw [this]
    unfold asked
    rw [hq]; rfl
  have hszx : 10000 * ∑ i ∈ range (m + 1), |x (2 * i + 2) - x (2 * i + 1) - asked l total i|
      ≤ ∑ i ∈ range (m + 1),
      cost (constraintFor (areaElement (m + 1)) ⟨2 * i + 1, 2 * i + 2⟩ l.flex (con l i)) x := by
    rw [mul_sum]
    apply sum_le_sum
    intro i hi
    obtain ⟨q, hq, h0, _⟩ := hdef _ (con_mem (l := l) (i := i) (by have := mem_range.1 hi; omega))
    have := (definite_cost hq l.flex (areaElement (m + 1)) ⟨2 * i + 1, 2 * i + 2⟩ hxa).1
    unfold sz at this
    simp only at this
    unfold asked
    rw [hq]
    exact this
  have hnb := neighbours_lip m (asked l total) (fun i => x (2 * i + 2) - x (2 * i + 1))
  simp only [yz] at hle hflex
  rw [hszy] at hle
  have hd0 : 0 ≤ ∑ i ∈ range (m + 1), |x (2 * i + 2) - x (2 * i + 1) - asked l total i| :=
    sum_nonneg fun i _ => abs_nonneg _
  have fx : 0 ≤ x 1 - x 0 := by
    have := hx.low 1 (show (1 : Nat) < 2 * (m + 1) + 2 by omega)
    rw [hx.first]; linarith
  have lx : 0 ≤ x (2 * (m + 1) + 1) - x (2 * (m + 1)) := by
    have := hx.high (2 * (m + 1)) (show (2 * (m + 1) : Nat) < 2 * (m + 1) + 2 by omega)
    rw [hx.last]; linarith
  have he0 : 0 ≤ gapError l.flex m spacing x := gapError_nonneg fx lx
  have hd : ∑ i ∈ range (m + 1), |x (2 * i + 2) - x (2 * i + 1) - asked l total i| = 0 := by linarith
  have he : gapError l.flex m spacing x = 0 := by linarith
  have hz : ∀ i < m + 1, x (2 * i + 2) - x (2 * i + 1) = asked l total i := by
    intro i hi
    have := (sum_eq_zero_iff_of_nonneg fun i _ => abs_nonneg _).1 hd i (mem_range.2 hi)
    have := abs_eq_zero.1 this
    linarith
  refine ⟨hz, gaps_of_error hf h2 fx lx he ?_⟩
  have tx := placed_total hx
  rw [sum_gaps (fun i => x (2 * i + 1) - x (2 * i)), sum_congr rfl fun i hi => hz i (mem_range.1 hi),
    hsumw, hab] at tx
  simp only [Nat.mul_zero, Nat.zero_add] at tx
  rw [← hfree]
  linarith

end Bento.Layout
