import Verif.Lemmas.Flex
import Verif.Lemmas.Whole

/-!
# Layouts of a single segment

The cost of the only segment has one minimum.
-/

namespace Bento.Layout

open Casso

/-- The cost of the gaps before and after the only segment. -/
def outerCost (flex : Flex) (x : Var → ℚ) : ℚ :=
  match flex with
  | .legacy | .spaceBetween => 1001000999 * |x 1 - x 0| + 1001000999 * |x 3 - x 2|
  | .spaceAround => 0
  | .start => 1001000999 * |x 1 - x 0| + 100 * |x 3 - x 2 - (x 3 - x 0)|
  | .center => 100 * |x 1 - x 0 - (x 3 - x 0)| + 100 * |x 3 - x 2 - (x 3 - x 0)|
      + 100100100 * |x 1 - x 0 - (x 3 - x 2)|
  | .end' => 1001000999 * |x 3 - x 2| + 100 * |x 1 - x 0 - (x 3 - x 0)|

theorem single_cost {l : Layout} {c : Constraint} (hl : l.constraints = [c]) (x : Var → ℚ) :
    weightedViolation (softList l) x
      = outerCost l.flex x + cost (constraintFor ⟨0, 3⟩ ⟨1, 2⟩ l.flex c) x := by
  rw [wv_eq_cost (fun c hc => (soft_softList l c hc).lt)]
  have hfl : fillPairs (segmentElements 1) [c] l.flex = [] := by
    unfold fillPairs
    cases c <;> cases l.flex <;> rfl
  have hnb : neighbourConstraints (segmentElements 1) l.flex = [] := by
    cases l.flex <;> rfl
  have hsz : sizeConstraints (areaElement 1) (segmentElements 1) [c] l.flex
      = constraintFor ⟨0, 3⟩ ⟨1, 2⟩ l.flex c := by
    show constraintFor ⟨0, 3⟩ ⟨1, 2⟩ l.flex c ++ [] = _
    rw [List.append_nil]
  have hn : l.constraints.length = 1 := by rw [hl]; rfl
  unfold softList
  simp only [hn]
  rw [hl, hfl, hnb, hsz]
  simp only [List.map_nil, List.append_nil, cost_append]
  congr 1
  have hint : interior (spacerElements 1) = [] := rfl
  have hends : ∀ f : Element → Element → List Constr, endsOf (spacerElements 1) f = f ⟨0, 1⟩ ⟨2, 3⟩ :=
    fun f => rfl
  have harea : areaElement 1 = ⟨0, 3⟩ := rfl
  have hpairs : interiorPairs (spacerElements 1) = [] := rfl
  have h1 : required = 1001001000 := rfl
  have h2 : spacerSizeEq = 100100100 := by unfold spacerSizeEq; rw [h1]; norm_num
  have h3 : grow = 100 := rfl
  unfold flexList outerCost
  cases l.flex <;>
    simp only [fixedSpacing, hint, hends, harea, hpairs, List.map_nil, List.flatMap_nil, List.nil_append,
      cost_cons, cost_nil, violation_isEmpty, violation_hasSize, eval_size, sz, add_zero] <;>
    simp only [Element.isEmpty, Element.hasSize, Constr.constantRHS, Constr.expressionRHS, h1, h2, h3] <;>
    ring

/-- Away from the legacy mode the cost of the size is least at one size inside the area, and grows by at
least a thousand a unit away from it. -/
theorem size_sharp {flex : Flex} (hf : flex ≠ .legacy) {total : Int} (ht : 0 ≤ total) (c : Constraint)
    {area e : Element} {x y : Var → ℚ} (hax : sz area x = total * multiplier)
    (hay : sz area y = total * multiplier) (h0 : 0 ≤ sz e x) (h1 : sz e x ≤ total * multiplier)
    (hy : sz e y = max 0 (min (total : ℚ) ((definiteSize total c).getD total)) * multiplier) :
    cost (constraintFor area e flex c) y + 1000 * |sz e x - sz e y|
      ≤ cost (constraintFor area e flex c) x := by
  have hm : multiplier = 100 := rfl
  have hs : strong = 1000000 := rfl
  have hd : medium = 1000 := rfl
  have ht' : (0 : ℚ) ≤ total := by exact_mod_cast ht
  have key : ∀ q : ℚ, max 0 (min (total : ℚ) q) * multiplier = sz e y →
      |sz e y - q * multiplier| + |sz e x - sz e y| ≤ |sz e x - q * multiplier| ∧
      (0 ≤ q → max 0 (sz e y - q * multiplier) = 0) ∧
      max 0 (sz e y - q * multiplier) ≤ max 0 (sz e x - q * multiplier) := by
    intro q hq
    rw [← hq, hm]
    rw [hm] at h1
    rcases le_total (total : ℚ) q with h | h
    · rw [min_eq_left h, max_eq_right ht']
      refine ⟨?_, fun _ => max_eq_left (by linarith), ?_⟩
      · rw [abs_of_nonpos (by linarith), abs_of_nonpos (by linarith), abs_of_nonpos (by linarith)]
        linarith
      · rw [max_eq_left (by linarith)]; exact le_max_left _ _
    · rw [min_eq_right h]
      rcases le_total 0 q with h' | h'
      · rw [max_eq_right h']
        refine ⟨by rw [sub_self, abs_zero, zero_add], fun _ => by rw [sub_self, max_self], ?_⟩
        rw [sub_self, max_self]; exact le_max_left _ _
      · rw [max_eq_left h']
        refine ⟨?_, fun h0 => ?_, ?_⟩
        · rw [abs_of_nonneg (by linarith), abs_of_nonneg (by linarith), abs_of_nonneg (by linarith)]
          linarith
        · rw [max_eq_left (by linarith)]
        · exact max_le_max (le_refl _) (by linarith)
  have hpos := abs_nonneg (sz e x - sz e y)
  cases c with
  | len t =>
    obtain ⟨k, -⟩ := key t hy.symm
    simp only [constraintFor, cost_cons, cost_nil, violation_hasIntSize]
    simp only [Element.hasIntSize, Constr.constantRHS, lengthSizeEq, hs]
    linarith
  | max t =>
    obtain ⟨k, -, k2⟩ := key t hy.symm
    simp only [constraintFor, cost_cons, cost_nil, violation_hasIntSize, violation_hasMaxSize]
    simp only [Element.hasIntSize, Element.hasMaxSize, Constr.constantRHS, maxSizeLTE, maxSizeEq, hs, hd]
    linarith
  | percentage p =>
    obtain ⟨k, -⟩ := key ((total : ℚ) * p / 100) hy.symm
    simp only [constraintFor, cost_cons, cost_nil, violation_hasSize, eval_div, eval_mul, eval_size, hax, hay]
    simp only [Element.hasSize, Constr.expressionRHS, percentageSizeEq, hs]
    rw [show (total : ℚ) * multiplier * p / 100 = total * p / 100 * multiplier by ring]
    linarith
  | ratio num den =>
    obtain ⟨k, -⟩ := key ((total : ℚ) * num / ((max 1 den : Int) : ℚ)) hy.symm
    simp only [constraintFor, cost_cons, cost_nil, violation_hasSize, eval_div, eval_mul, eval_size, hax, hay]
    simp only [Element.hasSize, Constr.expressionRHS, ratioSizeEq, hs]
    rw [show (total : ℚ) * multiplier * num / ((max 1 den : Int) : ℚ)
      = total * num / ((max 1 den : Int) : ℚ) * multiplier by ring]
    linarith
  | min t =>
    have hy' : sz e y = total * multiplier := by
      rw [hy]; simp only [definiteSize, Option.getD_none, min_self, max_eq_right ht']
    simp only [constraintFor, if_neg hf, cost_cons, cost_nil, violation_hasSize, violation_hasMinSize, eval_size,
      hax, hay]
    simp only [Element.hasSize, Element.hasMinSize, Constr.constantRHS, Constr.expressionRHS, minSizeGTE,
      fillGrow, hs, hd]
    rw [hy', sub_self, abs_zero]
    have : max 0 (-((total : ℚ) * multiplier - t * multiplier)) ≤ max 0 (-(sz e x - t * multiplier)) :=
      max_le_max (le_refl _) (by linarith)
    linarith
  | fill k =>
    have hy' : sz e y = total * multiplier := by
      rw [hy]; simp only [definiteSize, Option.getD_none, min_self, max_eq_right ht']
    simp only [constraintFor, cost_cons, cost_nil, violation_hasSize, eval_size, hax, hay]
    simp only [Element.hasSize, Constr.expressionRHS, fillGrow, hd]
    rw [hy', sub_self, abs_zero]
    linarith

/-- The cost of the size changes by at most 1.0001 · 10⁸ a unit. -/
theorem size_lipschitz (flex : Flex) {total : Int} (c : Constraint)
    {area e : Element} {x y : Var → ℚ} (hax : sz area x = total * multiplier)
    (hay : sz area y = total * multiplier) :
    cost (constraintFor area e flex c) y
      ≤ cost (constraintFor area e flex c) x + 100010000 * |sz e x - sz e y| := by
  have hs : strong = 1000000 := rfl
  have hd : medium = 1000 := rfl
  have key : ∀ q : ℚ, |sz e y - q| ≤ |sz e x - q| + |sz e x - sz e y| := by
    intro q
    have := abs_sub_abs_le_abs_sub (sz e y - q) (sz e x - q)
    rw [show sz e y - q - (sz e x - q) = -(sz e x - sz e y) by ring, abs_neg] at this
    linarith
  have key1 : ∀ q : ℚ, max 0 (sz e y - q) ≤ max 0 (sz e x - q) + |sz e x - sz e y| := by
    intro q
    have h1 := neg_abs_le (sz e x - sz e y)
    have h2 := abs_nonneg (sz e x - sz e y)
    have h3 := le_max_left 0 (sz e x - q)
    have h4 := le_max_right 0 (sz e x - q)
    exact max_le (by linarith) (by linarith)
  have key2 : ∀ q : ℚ, max 0 (-(sz e y - q)) ≤ max 0 (-(sz e x - q)) + |sz e x - sz e y| := by
    intro q
    have h1 := le_abs_self (sz e x - sz e y)
    have h2 := abs_nonneg (sz e x - sz e y)
    have h3 := le_max_left 0 (-(sz e x - q))
    have h4 := le_max_right 0 (-(sz e x - q))
    exact max_le (by linarith) (by linarith)
  have hpos := abs_nonneg (sz e x - sz e y)
  cases c with
  | len t =>
    have := key (t * multiplier)
    simp only [constraintFor, cost_cons, cost_nil, violation_hasIntSize]
    simp only [Element.hasIntSize, Constr.constantRHS, lengthSizeEq, hs]
    linarith
  | max t =>
    have := key (t * multiplier)
    have := key1 (t * multiplier)
    simp only [constraintFor, cost_cons, cost_nil, violation_hasIntSize, violation_hasMaxSize]
    simp only [Element.hasIntSize, Element.hasMaxSize, Constr.constantRHS, maxSizeLTE, maxSizeEq, hs, hd]
    linarith
  | percentage p =>
    simp only [constraintFor, cost_cons, cost_nil, violation_hasSize, eval_div, eval_mul, eval_size, hax, hay]
    simp only [Element.hasSize, Constr.expressionRHS, percentageSizeEq, hs]
    have := key ((total : ℚ) * multiplier * p / 100)
    linarith
  | ratio num den =>
    simp only [constraintFor, cost_cons, cost_nil, violation_hasSize, eval_div, eval_mul, eval_size, hax, hay]
    simp only [Element.hasSize, Constr.expressionRHS, ratioSizeEq, hs]
    have := key ((total : ℚ) * multiplier * num / ((max 1 den : Int) : ℚ))
    linarith
  | min t =>
    have k1 := key2 (t * multiplier)
    have k2 := key (t * multiplier)
    have k3 := key (total * multiplier)
    by_cases hf : flex = .legacy
    · simp only [constraintFor, if_pos hf, cost_cons, cost_nil, violation_hasIntSize, violation_hasMinSize]
      simp only [Element.hasIntSize, Element.hasMinSize, Constr.constantRHS, minSizeGTE, minSizeEq, hs, hd]
      linarith
    · simp only [constraintFor, if_neg hf, cost_cons, cost_nil, violation_hasSize, violation_hasMinSize, eval_size,
        hax, hay]
      simp only [Element.hasSize, Element.hasMinSize, Constr.constantRHS, Constr.expressionRHS, minSizeGTE,
        fillGrow, hs, hd]
      linarith
  | fill k =>
    have k3 := key (total * multiplier)
    simp only [constraintFor, cost_cons, cost_nil, violation_hasSize, eval_size, hax, hay]
    simp only [Element.hasSize, Constr.expressionRHS, fillGrow, hd]
    linarith

/-- The edges of the only segment of a best placement. -/
theorem single_exact {l : Layout} {c : Constraint} (hl : l.constraints = [c]) {total : Int}
    (ht : 0 ≤ total) {a b : ℚ} (hab : b - a = total * multiplier) {x : Var → ℚ}
    (hx : Placed 1 a b x)
    (hbest : ∀ y, Placed 1 a b y → weightedViolation (softList l) x ≤ weightedViolation (softList l) y) :
    x 2 - x 1 = singleSize l.flex total c * multiplier ∧
    (l.flex ≠ .spaceAround →
      x 1 - a = singleStart l.flex total (singleSize l.flex total c) * multiplier) := by
  have hm : multiplier = 100 := rfl
  have ht' : (0 : ℚ) ≤ total := by exact_mod_cast ht
  have x0 : x 0 = a := hx.first
  have x3 : x 3 = b := hx.last
  have l1 : a ≤ x 1 := hx.low 1 (show (1 : Nat) < 4 by omega)
  have l2 : x 2 ≤ b := hx.high 2 (show (2 : Nat) < 4 by omega)
  have l12 : x 1 ≤ x 2 := hx.ordered 0 (by omega)
  -- any other edges are no better
  have hcmp : ∀ s e : ℚ, a ≤ s → s ≤ e → e ≤ b → ∃ y : Var → ℚ, y 0 = a ∧ y 1 = s ∧ y 2 = e ∧ y 3 = b ∧
      outerCost l.flex x + cost (constraintFor ⟨0, 3⟩ ⟨1, 2⟩ l.flex c) x
        ≤ outerCost l.flex y + cost (constraintFor ⟨0, 3⟩ ⟨1, 2⟩ l.flex c) y := by
    intro s e h1 h2 h3
    refine ⟨fun v => if v = 0 then a else if v = 1 then s else if v = 2 then e else b, rfl, rfl, rfl, rfl, ?_⟩
    rw [← single_cost hl, ← single_cost hl]
    apply hbest
    refine ⟨rfl, rfl, ?_, ?_, ?_⟩
    · intro v _
      show _ ≤ (if v = 0 then a else if v = 1 then s else if v = 2 then e else b)
      split_ifs <;> linarith
    · intro v _
      show (if v = 0 then a else if v = 1 then s else if v = 2 then e else b) ≤ _
      split_ifs <;> linarith
    · intro i hi
      have : i = 0 := by omega
      subst this
      exact h2
  have hax : sz ⟨0, 3⟩ x = total * multiplier := by unfold sz; simp only; rw [x0, x3, hab]
  by_cases hstretch : l.flex = .legacy ∨ l.flex = .spaceBetween
  · obtain ⟨y, y0, y1, y2, y3, hle⟩ := hcmp a b (le_refl _) (by linarith) (le_refl _)
    have hay : sz ⟨0, 3⟩ y = total * multiplier := by unfold sz; simp only; rw [y0, y3, hab]
    have hlip := size_lipschitz l.flex c (e := ⟨1, 2⟩) hax hay
    have hout : outerCost l.flex x = 1001000999 * (x 1 - a) + 1001000999 * (b - x 2) ∧ outerCost l.flex y = 0 := by
      have e1 : |x 1 - a| = x 1 - a := abs_of_nonneg (by linarith)
      have e2 : |b - x 2| = b - x 2 := abs_of_nonneg (by linarith)
      rcases hstretch with h | h <;> rw [h] <;> unfold outerCost <;> simp only [x0, x3, y0, y1, y2, y3, e1, e2] <;>
        simp
    rw [hout.1, hout.2] at hle
    have hd : |sz (⟨1, 2⟩ : Element) x - sz ⟨1, 2⟩ y| = (x 1 - a) + (b - x 2) := by
      unfold sz
      simp only [y1, y2]
      rw [abs_of_nonpos (by linarith)]
      ring
    rw [hd] at hlip
    have e1 : x 1 = a := by linarith
    have e2 : x 2 = b := by linarith
    have hsz : singleSize l.flex total c = total := by rcases hstretch with h | h <;> rw [h] <;> rfl
    have hst : singleStart l.flex total total = 0 := by rcases hstretch with h | h <;> rw [h] <;> rfl
    rw [hsz, hst, e1, e2]
    exact ⟨by linarith, fun _ => by ring⟩
  · have hf : l.flex ≠ .legacy := fun h => hstretch (.inl h)
    have hb : l.flex ≠ .spaceBetween := fun h => hstretch (.inr h)
    have hsz : singleSize l.flex total c = max 0 (min (total : ℚ) ((definiteSize total c).getD total)) := by
      revert hf hb
      cases l.flex <;> intro hf hb <;> first | rfl | exact absurd rfl hf | exact absurd rfl hb
    generalize hw : singleSize l.flex total c = w at *
    have hw0 : 0 ≤ w := by rw [hsz]; exact le_max_left _ _
    have hw1 : w ≤ total := by rw [hsz]; exact max_le ht' (min_le_left _ _)
    have hst : 0 ≤ singleStart l.flex total w ∧ singleStart l.flex total w + w ≤ total := by
      unfold singleStart
      cases l.flex <;> simp only <;> constructor <;> linarith
    obtain ⟨y, y0, y1, y2, y3, hle⟩ := hcmp (a + singleStart l.flex total w * multiplier)
      (a + singleStart l.flex total w * multiplier + w * multiplier)
      (by rw [hm]; linarith) (by rw [hm]; linarith) (by rw [hm] at hab ⊢; linarith)
    have hay : sz ⟨0, 3⟩ y = total * multiplier := by unfold sz; simp only; rw [y0, y3, hab]
    have hszy : sz (⟨1, 2⟩ : Element) y = w * multiplier := by unfold sz; simp only; rw [y1, y2]; ring
    have hszx : sz (⟨1, 2⟩ : Element) x = x 2 - x 1 := rfl
    have hsharp := size_sharp hf ht c (e := ⟨1, 2⟩) hax hay (by rw [hszx]; linarith) (by rw [hszx]; linarith)
      (by rw [hszy, hsz])
    rw [hszy, hszx] at hsharp
    have p := abs_nonneg (x 2 - x 1 - w * multiplier)
    have p1 := le_abs_self (x 2 - x 1 - w * multiplier)
    have p2 := neg_abs_le (x 2 - x 1 - w * multiplier)
    have zero : |x 2 - x 1 - w * multiplier| = 0 → x 2 - x 1 = w * multiplier := by
      intro h; have := abs_eq_zero.1 h; linarith
    rw [hm] at hab hsharp y1 y2 p p1 p2 zero ⊢
    generalize cost (constraintFor ⟨0, 3⟩ ⟨1, 2⟩ l.flex c) x = cx at hle hsharp
    generalize cost (constraintFor ⟨0, 3⟩ ⟨1, 2⟩ l.flex c) y = cy at hle hsharp
    unfold outerCost at hle
    clear hstretch hst hsz hw hl hbest hcmp
    revert hf hb hle y1 y2
    cases l.flex <;> intro hf hb y1 y2 hle
    · exact absurd rfl hf
    · simp only [singleStart, y0, y1, y2, y3, x0, x3] at hle ⊢
      rw [abs_of_nonneg (show 0 ≤ x 1 - a by linarith), abs_of_nonpos (show b - x 2 - (b - a) ≤ 0 by linarith),
        abs_of_nonneg (show 0 ≤ a + 0 * 100 - a by linarith),
        abs_of_nonpos (show b - (a + 0 * 100 + w * 100) - (b - a) ≤ 0 by linarith)] at hle
      exact ⟨zero (by linarith), fun _ => by linarith⟩
    · simp only [singleStart, y0, y1, y2, y3, x0, x3] at hle ⊢
      rw [abs_of_nonneg (show 0 ≤ b - x 2 by linarith), abs_of_nonpos (show x 1 - a - (b - a) ≤ 0 by linarith),
        abs_of_nonneg (show 0 ≤ b - (a + (total - w) * 100 + w * 100) by linarith),
        abs_of_nonpos (show a + (total - w) * 100 - a - (b - a) ≤ 0 by linarith)] at hle
      have := zero (by linarith)
      exact ⟨this, fun _ => by linarith⟩
    · simp only [singleStart, y0, y1, y2, y3, x0, x3] at hle ⊢
      rw [abs_of_nonpos (show x 1 - a - (b - a) ≤ 0 by linarith),
        abs_of_nonpos (show b - x 2 - (b - a) ≤ 0 by linarith),
        abs_of_nonpos (show a + (total - w) / 2 * 100 - a - (b - a) ≤ 0 by linarith),
        abs_of_nonpos (show b - (a + (total - w) / 2 * 100 + w * 100) - (b - a) ≤ 0 by linarith),
        show a + (total - w) / 2 * 100 - a - (b - (a + (total - w) / 2 * 100 + w * 100)) = 0 by linarith,
        abs_zero] at hle
      have q := abs_nonneg (x 1 - a - (b - x 2))
      have := zero (by linarith)
      have q0 : |x 1 - a - (b - x 2)| = 0 := by linarith
      have := abs_eq_zero.1 q0
      exact ⟨by linarith, fun _ => by linarith⟩
    · exact absurd rfl hb
    · simp only at hle ⊢
      exact ⟨zero (by linarith), fun h => absurd rfl h⟩

/-- In `FlexSpaceAround` nothing holds the only segment in place, so that a corner has it at the start or
at the end of the area. -/
theorem single_corner {l : Layout} {c : Constraint} (hl : l.constraints = [c]) (hf : l.flex = .spaceAround)
    {inner : Rect} (h0 : 0 ≤ (l.areaBounds inner).1) {x : Var → ℚ}
    (hx : Placed 1 (((l.areaBounds inner).1 : ℚ) * multiplier) (((l.areaBounds inner).2 : ℚ) * multiplier) x)
    (hc : IsCorner (hardList l inner ++ softList l) x) :
    x 1 = ((l.areaBounds inner).1 : ℚ) * multiplier ∨ x 2 = ((l.areaBounds inner).2 : ℚ) * multiplier := by
  have hn : l.constraints.length = 1 := by rw [hl]; rfl
  have hm : multiplier = 100 := rfl
  have ha0 : 0 ≤ ((l.areaBounds inner).1 : ℚ) * multiplier := by
    have : (0 : ℚ) ≤ (l.areaBounds inner).1 := by exact_mod_cast h0
    rw [hm]; linarith
  by_contra hne
  rw [not_or] at hne
  obtain ⟨n1, n2⟩ := hne
  have x0 : x 0 = _ := hx.first
  have x3 : x 3 = _ := hx.last
  have l1 := hx.low 1 (show (1 : Nat) < 4 by omega)
  have l2 := hx.high 2 (show (2 : Nat) < 4 by omega)
  have l12 : x 1 ≤ x 2 := hx.ordered 0 (by omega)
  generalize ((l.areaBounds inner).1 : ℚ) * multiplier = a at *
  generalize ((l.areaBounds inner).2 : ℚ) * multiplier = b at *
  have g1 : a < x 1 := lt_of_le_of_ne l1 (Ne.symm n1)
  have g2 : x 2 < b := lt_of_le_of_ne l2 n2
  let y : Var → ℚ := fun v => if v = 1 then x 1 + 1 else if v = 2 then x 2 + 1 else x v
  have y1 : y 1 = x 1 + 1 := rfl
  have y2 : y 2 = x 2 + 1 := rfl
  have y0 : y 0 = x 0 := rfl
  have y3 : y 3 = x 3 := rfl
  have hz : ∀ v, x v = 0 → y v = 0 := by
    intro v hv
    have e : y v = if v = 1 then x 1 + 1 else if v = 2 then x 2 + 1 else x v := rfl
    rw [e]
    split_ifs with h1 h2
    · rw [h1] at hv; linarith
    · rw [h2] at hv; linarith
    · exact hv
  have hs1 : sz (⟨1, 2⟩ : Element) y = sz ⟨1, 2⟩ x := by unfold sz; simp only [y1, y2]; ring
  have hs2 : sz (⟨0, 3⟩ : Element) y = sz ⟨0, 3⟩ x := by unfold sz; simp only [y0, y3]
  have hkeep : ∀ k ∈ hardList l inner ++ softList l, k.expr.eval x = 0 → k.expr.eval y = 0 := by
    intro k hk hzero
    rcases List.mem_append.1 hk with hk | hk
    · unfold hardList at hk
      have hvs : layoutVars 1 = [0, 1, 2, 3] := rfl
      have hes : newElements (layoutVars 1).tail = [⟨1, 2⟩] := rfl
      have hae : areaElement 1 = ⟨0, 3⟩ := rfl
      simp only [hn, List.mem_append, areaConstraints, variableInAreaConstraints, variableConstraints,
        List.mem_flatMap, List.mem_map, hes, hae, List.mem_cons, List.not_mem_nil, or_false] at hk
      rcases hk with ((rfl | rfl) | ⟨v, hv, rfl | rfl⟩) | ⟨e, he, rfl⟩
      · simp only [Constr.constantRHS, eval_ofVar_subConstant] at hzero ⊢
        rw [y0]; exact hzero
      · simp only [Constr.constantRHS, eval_ofVar_subConstant] at hzero ⊢
        rw [y3]; exact hzero
      · simp only [Constr.variableRHS, eval_ofVar_subVariable] at hzero ⊢
        rw [hvs] at hv
        simp only [List.mem_cons, List.not_mem_nil, or_false] at hv
        rcases hv with rfl | rfl | rfl | rfl
        · rw [sub_self]
        · linarith
        · linarith
        · rw [y0, y3]; exact hzero
      · simp only [Constr.variableRHS, eval_ofVar_subVariable] at hzero ⊢
        rw [hvs] at hv
        simp only [List.mem_cons, List.not_mem_nil, or_false] at hv
        rcases hv with rfl | rfl | rfl | rfl
        · rw [y0, y3]; exact hzero
        · linarith
        · linarith
        · rw [sub_self]
      · simp only [Constr.variableRHS, eval_ofVar_subVariable] at hzero ⊢
        rw [he]
        rw [he] at hzero
        simp only at hzero ⊢
        rw [y1, y2]; linarith
    · have hsoft : softList l = constraintFor ⟨0, 3⟩ ⟨1, 2⟩ .spaceAround c := by
        unfold softList
        simp only [hn]
        rw [hl, hf]
        have hfl : fillPairs (segmentElements 1) [c] .spaceAround = [] := by
          unfold fillPairs; cases c <;> rfl
        rw [hfl]
        show [] ++ (constraintFor ⟨0, 3⟩ ⟨1, 2⟩ .spaceAround c ++ []) ++ [] ++ [] = _
        simp only [List.nil_append, List.append_nil]
      rw [hsoft] at hk
      unfold constraintFor at hk
      cases c <;> simp only [List.mem_cons, List.not_mem_nil, or_false, reduceCtorEq, if_false] at hk
      case max t =>
        rcases hk with rfl | rfl <;>
          · simp only [Element.hasMaxSize, Element.hasIntSize, Constr.constantRHS, eval_subConstant, eval_size] at *
            rw [hs1]; exact hzero
      case min t =>
        rcases hk with rfl | rfl
        · simp only [Element.hasMinSize, Constr.constantRHS, eval_subConstant, eval_size] at *
          rw [hs1]; exact hzero
        · simp only [Element.hasSize, Constr.expressionRHS, eval_sub, eval_size] at *
          rw [hs1, hs2]; exact hzero
      case len t =>
        subst hk
        simp only [Element.hasIntSize, Constr.constantRHS, eval_subConstant, eval_size] at *
        rw [hs1]; exact hzero
      case percentage t =>
        subst hk
        simp only [Element.hasSize, Constr.expressionRHS, eval_sub, eval_size, eval_mul, eval_div] at *
        rw [hs1, hs2]; exact hzero
      case ratio t d =>
        subst hk
        simp only [Element.hasSize, Constr.expressionRHS, eval_sub, eval_size, eval_mul, eval_div] at *
        rw [hs1, hs2]; exact hzero
      case fill t =>
        subst hk
        simp only [Element.hasSize, Constr.expressionRHS, eval_sub, eval_size] at *
        rw [hs1, hs2]; exact hzero
  have hmem : Constr.variableRHS .ge required (Expr.ofVar 1) 0 ∈ hardList l inner ++ softList l := by
    refine List.mem_append_left _ ?_
    unfold hardList
    simp only [hn]
    refine List.mem_append_left _ (List.mem_append_right _ ?_)
    refine List.mem_flatMap.2 ⟨1, ?_, ?_⟩
    · show (1 : Nat) ∈ [0, 1, 2, 3]; simp
    · exact List.mem_cons_self
  have := hc y hz hkeep _ hmem 1 1 (by show (1, 1) ∈ _; exact List.mem_cons_self) (by norm_num)
  rw [y1] at this
  linarith

end Bento.Layout
