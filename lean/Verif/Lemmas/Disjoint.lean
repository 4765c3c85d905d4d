import Verif.Lemmas.Flex

/-!
# Gaps come before sizes

If some gap between segments fell short of the spacing, while some segment takes room, one could fill it up and shrink
everything that takes more than it must in proportion. Sizes then change by no more than what was missing, and the
weight of a gap is above that of every wish for a size; so such a placement is not among the best. In particular
segments do not overlap, unless a negative spacing asks for it.
-/

namespace Bento.Layout

open Casso Finset

theorem cost_mono {cs : List Constr} {x y : Var → ℚ} (hs : ∀ c ∈ cs, 0 ≤ c.strength)
    (h : ∀ c ∈ cs, c.violation y ≤ c.violation x) : cost cs y ≤ cost cs x := by
  induction cs with
  | nil => simp
  | cons c cs ih =>
    rw [cost_cons, cost_cons]
    have := mul_le_mul_of_nonneg_left (h c List.mem_cons_self) (hs c List.mem_cons_self)
    have := ih (fun c hc => hs c (List.mem_cons_of_mem _ hc)) (fun c hc => h c (List.mem_cons_of_mem _ hc))
    linarith

/-- No wish for a size weighs more than a gap, in any flex mode. -/
theorem constraintFor_bound (area e : Element) (flex : Flex) (k : Constraint) {x y : Var → ℚ}
    (ha : sz area y = sz area x) :
    cost (constraintFor area e flex k) y
      ≤ cost (constraintFor area e flex k) x + 100010000 * |sz e y - sz e x| := by
  have hn := abs_nonneg (sz e y - sz e x)
  by_cases hm : ∃ s, k = .min s ∧ flex ≠ .legacy
  · obtain ⟨s, rfl, hf⟩ := hm
    have n1 : strong = 1000000 := rfl
    have n2 : medium = 1000 := rfl
    have h1 := max_lip' (sz e x) (sz e y) (s * multiplier)
    have h2 := abs_lip (sz e x) (sz e y) (sz area x)
    simp only [constraintFor, if_neg hf, cost_cons, cost_nil, violation_hasMinSize,
      violation_hasSize, eval_size, ha]
    simp only [Element.hasMinSize, Element.hasSize, Constr.constantRHS, Constr.expressionRHS, minSizeGTE, fillGrow,
      n1, n2]
    linarith
  · have he : constraintFor area e flex k = constraintFor area e .legacy k := by
      cases k with
      | min s =>
        have : flex = .legacy := by
          by_contra hf
          exact hm ⟨s, rfl, hf⟩
        rw [this]
      | _ => rfl
    rw [he]
    have h := constraintFor_lip area e k ha
    have hl : lip k ≤ 100010000 := by cases k <;> norm_num [lip]
    exact h.trans (by have := mul_le_mul_of_nonneg_right hl hn; linarith)

section
variable {m : Nat} {a b lam : ℚ} {x y : Var → ℚ}

/-- What taking all the room that elements have in proportion does to a gap, beyond filling it up. -/
def extra (lam s : ℚ) : ℚ := (1 - lam) * max 0 s - max 0 (-s)

theorem shrink_abs (h1 : lam ≤ 1) {s t : ℚ} (ht : 0 ≤ t) :
    |lam * max 0 s - t| ≤ |s - t| + extra lam s := by
  unfold extra
  rcases le_total 0 s with hs | hs
  · rw [max_eq_right hs, max_eq_left (show -s ≤ 0 by linarith), sub_zero]
    have h2 := abs_lip s (lam * s) t
    have h3 : |lam * s - s| = (1 - lam) * s := by
      rw [show lam * s - s = -((1 - lam) * s) by ring, abs_neg, abs_of_nonneg (mul_nonneg (by linarith) hs)]
    linarith
  · rw [max_eq_left hs, max_eq_right (show 0 ≤ -s by linarith)]
    rw [abs_of_nonpos (show s - t ≤ 0 by linarith), abs_of_nonpos (show lam * 0 - t ≤ 0 by linarith)]
    linarith

theorem shrink_min (h1 : lam ≤ 1) {s t : ℚ} (ht : 0 ≤ t) :
    max 0 (-(lam * max 0 s - t)) ≤ max 0 (-(s - t)) + extra lam s := by
  unfold extra
  rcases le_total 0 s with hs | hs
  · rw [max_eq_right hs, max_eq_left (show -s ≤ 0 by linarith), sub_zero]
    have h2 := le_max_left 0 (-(s - t))
    have h3 := le_max_right 0 (-(s - t))
    have h4 : 0 ≤ (1 - lam) * s := mul_nonneg (by linarith) hs
    apply max_le
    · linarith
    · have : -(lam * s - t) = -(s - t) + (1 - lam) * s := by ring
      linarith
  · rw [max_eq_left hs, max_eq_right (show 0 ≤ -s by linarith)]
    have h3 := le_max_right 0 (-(s - t))
    apply max_le <;> linarith

theorem shrink_pair (h0 : 0 ≤ lam) (h1 : lam ≤ 1) (s t : ℚ) : |lam * max 0 s - lam * max 0 t| ≤ |s - t| := by
  have e : |lam * max 0 s - lam * max 0 t| = lam * |max 0 s - max 0 t| := by
    rw [← mul_sub, abs_mul, abs_of_nonneg h0]
  have h2 : |max 0 s - max 0 t| ≤ |s - t| := by
    rcases le_total 0 s with hs | hs <;> rcases le_total 0 t with ht | ht <;>
      simp only [max_eq_left, max_eq_right, hs, ht] <;> rw [abs_le] <;>
      have := le_abs_self (s - t) <;> have := neg_abs_le (s - t) <;> constructor <;> linarith
  rw [e]
  have := mul_le_mul_of_nonneg_right h1 (abs_nonneg (max 0 s - max 0 t))
  linarith

/-- The gaps of `y` are those of `x`, filled up to `G` between segments, and what is above that shrunk. -/
structure Shrunk (m : Nat) (G lam : ℚ) (x y : Var → ℚ) : Prop where
  inner : ∀ i < m, y (2 * (i + 1) + 1) - y (2 * (i + 1)) = G + lam * max 0 (x (2 * (i + 1) + 1) - x (2 * (i + 1)) - G)
  first : y 1 - y 0 = lam * (x 1 - x 0)
  last : y (2 * (m + 1) + 1) - y (2 * (m + 1)) = lam * (x (2 * (m + 1) + 1) - x (2 * (m + 1)))

variable {G : ℚ}

theorem pairCost_shrunk (h0 : 0 ≤ lam) (h1 : lam ≤ 1) (hy : Shrunk m G lam x y) : pairCost m y ≤ pairCost m x := by
  unfold pairCost
  apply cost_mono
  · intro c hc
    obtain ⟨p, _, rfl⟩ := List.mem_map.1 hc
    norm_num [Element.hasSize, Constr.expressionRHS, spacerSizeEq, required]
  · intro c hc
    obtain ⟨p, hp, rfl⟩ := List.mem_map.1 hc
    have hmem : p.1 ∈ interior (spacerElements (m + 1)) ∧ p.2 ∈ interior (spacerElements (m + 1)) := by
      unfold interiorPairs at hp
      split_ifs at hp
      · exact mem_allPairs hp
      · simp at hp
    rw [interior_spacers] at hmem
    obtain ⟨⟨i, hi, e1⟩, ⟨j, hj, e2⟩⟩ := And.intro (List.mem_map.1 hmem.1) (List.mem_map.1 hmem.2)
    simp only [violation_hasSize, eval_size, ← e1, ← e2, sz]
    rw [hy.inner i (List.mem_range.1 hi), hy.inner j (List.mem_range.1 hj)]
    have := shrink_pair h0 h1 (x (2 * (i + 1) + 1) - x (2 * (i + 1)) - G) (x (2 * (j + 1) + 1) - x (2 * (j + 1)) - G)
    rwa [sub_sub_sub_cancel_right, ← add_sub_add_left_eq_sub _ _ G] at this

theorem fixed_shrunk (h1 : lam ≤ 1) {spacing : Int} (hG : G = spacing * multiplier)
    (hy : Shrunk m G lam x y) :
    cost (fixedSpacing (spacerElements (m + 1)) spacing) y
      ≤ cost (fixedSpacing (spacerElements (m + 1)) spacing) x
        + 100100100 * ∑ i ∈ range m, extra lam (x (2 * (i + 1) + 1) - x (2 * (i + 1)) - G) := by
  rw [fixed_cost, fixed_cost, ← mul_add, ← sum_add_distrib, ← hG]
  apply mul_le_mul_of_nonneg_left _ (by norm_num)
  apply sum_le_sum
  intro i hi
  rw [hy.inner i (mem_range.1 hi)]
  have := shrink_abs h1 (s := x (2 * (i + 1) + 1) - x (2 * (i + 1)) - G) le_rfl
  rw [sub_zero, sub_zero] at this
  rwa [add_sub_cancel_left]

theorem growing_shrunk (h1 : lam ≤ 1) {spacing : Int} (hG : G = spacing * multiplier)
    (hy : Shrunk m G lam x y)
    (ha : sz (areaElement (m + 1)) y = sz (areaElement (m + 1)) x)
    (hA : 0 < m → G ≤ sz (areaElement (m + 1)) x) :
    cost ((interior (spacerElements (m + 1))).flatMap fun s =>
      [s.hasMinSize spacing spacerSizeEq, s.hasSize (areaElement (m + 1)).size spaceGrow]) y
      ≤ cost ((interior (spacerElements (m + 1))).flatMap fun s =>
      [s.hasMinSize spacing spacerSizeEq, s.hasSize (areaElement (m + 1)).size spaceGrow]) x
        + 100100110 * ∑ i ∈ range m, extra lam (x (2 * (i + 1) + 1) - x (2 * (i + 1)) - G) := by
  rw [growing_cost, growing_cost, mul_sum, ← sum_add_distrib, ← hG]
  apply sum_le_sum
  intro i hi
  have hi := mem_range.1 hi
  have hA := hA (by omega)
  rw [hy.inner i hi, ha]
  generalize x (2 * (i + 1) + 1) - x (2 * (i + 1)) = s
  have e1 := shrink_min h1 (s := s - G) le_rfl
  have e2 := shrink_abs h1 (s := s - G) (sub_nonneg.2 hA)
  rw [sub_zero, sub_zero] at e1
  rw [sub_sub_sub_cancel_right] at e2
  rw [add_sub_cancel_left, show G + lam * max 0 (s - G) - sz (areaElement (m + 1)) x
    = lam * max 0 (s - G) - (sz (areaElement (m + 1)) x - G) by ring]
  linarith

/-- The cost of gaps at the ends that shrink, with what the cost of those between segments changes by. -/
theorem flex_ends (flex : Flex) (h0 : 0 ≤ lam) (h1 : lam ≤ 1) {spacing : Int} {E : ℚ}
    (hfix : cost (fixedSpacing (spacerElements (m + 1)) spacing) y
      ≤ cost (fixedSpacing (spacerElements (m + 1)) spacing) x + 100100100 * E)
    (hgrow : cost ((interior (spacerElements (m + 1))).flatMap fun s =>
      [s.hasMinSize spacing spacerSizeEq, s.hasSize (areaElement (m + 1)).size spaceGrow]) y
      ≤ cost ((interior (spacerElements (m + 1))).flatMap fun s =>
      [s.hasMinSize spacing spacerSizeEq, s.hasSize (areaElement (m + 1)).size spaceGrow]) x + 100100110 * E)
    (hpair : pairCost m y ≤ pairCost m x)
    (y0 : y 1 - y 0 = lam * (x 1 - x 0))
    (yn : y (2 * (m + 1) + 1) - y (2 * (m + 1)) = lam * (x (2 * (m + 1) + 1) - x (2 * (m + 1))))
    (ha : sz (areaElement (m + 1)) y = sz (areaElement (m + 1)) x)
    (hA : 0 ≤ sz (areaElement (m + 1)) x) (hf : 0 ≤ x 1 - x 0)
    (hl : 0 ≤ x (2 * (m + 1) + 1) - x (2 * (m + 1))) (hin : E ≤ 0) :
    cost (flexList (areaElement (m + 1)) (spacerElements (m + 1)) flex spacing) y
      ≤ cost (flexList (areaElement (m + 1)) (spacerElements (m + 1)) flex spacing) x
        + 100100100 * (E + (1 - lam) * (x 1 - x 0) + (1 - lam) * (x (2 * (m + 1) + 1) - x (2 * (m + 1)))) := by
  unfold pairCost at hpair
  have n1 : 0 ≤ (1 - lam) * (x 1 - x 0) := mul_nonneg (by linarith) hf
  have n2 : 0 ≤ (1 - lam) * (x (2 * (m + 1) + 1) - x (2 * (m + 1))) := mul_nonneg (by linarith) hl
  have empty : ∀ s : ℚ, 0 ≤ s → |lam * s| ≤ |s| := by
    intro s hs
    rw [abs_mul, abs_of_nonneg h0]
    have := mul_le_mul_of_nonneg_right h1 (abs_nonneg s)
    linarith
  have grown : ∀ s : ℚ, 0 ≤ s → |lam * s - sz (areaElement (m + 1)) x| ≤ |s - sz (areaElement (m + 1)) x| + (1 - lam) * s := by
    intro s hs
    have := shrink_abs h1 (s := s) hA
    unfold extra at this
    rwa [max_eq_right hs, max_eq_left (show -s ≤ 0 by linarith), sub_zero] at this
  have both : |lam * (x 1 - x 0) - lam * (x (2 * (m + 1) + 1) - x (2 * (m + 1)))|
      ≤ |x 1 - x 0 - (x (2 * (m + 1) + 1) - x (2 * (m + 1)))| := by
    have := shrink_pair h0 h1 (x 1 - x 0) (x (2 * (m + 1) + 1) - x (2 * (m + 1)))
    rwa [max_eq_right hf, max_eq_right hl] at this
  have f1 := empty _ hf
  have f2 := empty _ hl
  have f3 := grown _ hf
  have f4 := grown _ hl
  have v1 : spacerSizeEq = 100100100 := by norm_num [spacerSizeEq, required]
  have v2 : grow = 100 := by norm_num [grow, weak]
  have vE : ∀ e : Element, 0 ≤ e.isEmpty.strength := by
    intro e
    norm_num [Element.isEmpty, Constr.constantRHS, required]
  have E1 : ∀ e : Element, e.isEmpty.strength = (⟨0, 1⟩ : Element).isEmpty.strength := fun _ => rfl
  have hE := vE ⟨0, 1⟩
  have g1 := mul_le_mul_of_nonneg_left f1 hE
  have g2 := mul_le_mul_of_nonneg_left f2 hE
  have z1 : sz ⟨0, 1⟩ y = lam * (x 1 - x 0) := y0
  have z2 : sz ⟨2 * (m + 1), 2 * (m + 1) + 1⟩ y = lam * (x (2 * (m + 1) + 1) - x (2 * (m + 1))) := yn
  have z3 : sz ⟨0, 1⟩ x = x 1 - x 0 := rfl
  have z4 : sz ⟨2 * (m + 1), 2 * (m + 1) + 1⟩ x = x (2 * (m + 1) + 1) - x (2 * (m + 1)) := rfl
  have E2 : ∀ (e : Element) (t : Expr) (w : ℚ), (e.hasSize t w).strength = w := fun _ _ _ => rfl
  simp only [v1] at hgrow hpair
  cases flex <;> simp only [flexList, cost_append, endsOf_spacers, cost_cons, cost_nil, violation_isEmpty,
    violation_hasSize, eval_size, z1, z2, z3, z4, ha, E1 (⟨2 * (m + 1), 2 * (m + 1) + 1⟩ : Element), E2, v1, v2] <;>
    linarith

theorem fill_shrunk (l : Layout) (h0 : 0 ≤ lam) (h1 : lam ≤ 1)
    (hz : ∀ i < l.constraints.length, y (2 * i + 2) - y (2 * i + 1) = lam * (x (2 * i + 2) - x (2 * i + 1))) :
    cost ((fillPairs (segmentElements l.constraints.length) l.constraints l.flex).map (fun p => fillPair p.1 p.2)) y
      ≤ cost ((fillPairs (segmentElements l.constraints.length) l.constraints l.flex).map
          (fun p => fillPair p.1 p.2)) x := by
  apply cost_mono
  · intro c hc
    obtain ⟨p, _, rfl⟩ := List.mem_map.1 hc
    norm_num [fillPair, Constr.expressionRHS, grow]
  · intro c hc
    obtain ⟨p, hp, rfl⟩ := List.mem_map.1 hc
    rw [fillPairs_eq] at hp
    obtain ⟨p1, p2⟩ := mem_allPairs hp
    have seg : ∀ q : Element × ℚ, q ∈ validFill (segmentElements l.constraints.length) l.constraints l.flex →
        sz q.1 y = lam * sz q.1 x := by
      intro q hq
      unfold validFill at hq
      obtain ⟨r, hr, e⟩ := List.mem_filterMap.1 hq
      have hr2 := (List.of_mem_zip (show (r.1, r.2) ∈ _ from hr)).2
      rw [segmentElements_eq] at hr2
      obtain ⟨i, hi, e2⟩ := List.mem_map.1 hr2
      obtain ⟨k, _, e3⟩ := Option.map_eq_some_iff.1 e
      rw [← e3, ← e2]
      exact hz i (List.mem_range.1 hi)
    rw [violation_fillPair, violation_fillPair, seg _ p1, seg _ p2]
    rw [show lam * sz p.1.1 x * p.2.2 - lam * sz p.2.1 x * p.1.2
      = lam * (sz p.1.1 x * p.2.2 - sz p.2.1 x * p.1.2) by ring, abs_mul, abs_of_nonneg h0]
    have := mul_le_mul_of_nonneg_right h1 (abs_nonneg (sz p.1.1 x * p.2.2 - sz p.2.1 x * p.1.2))
    linarith

theorem neighbours_shrunk (flex : Flex) (h0 : 0 ≤ lam) (h1 : lam ≤ 1)
    (hz : ∀ i < m + 1, y (2 * i + 2) - y (2 * i + 1) = lam * (x (2 * i + 2) - x (2 * i + 1))) :
    cost (neighbourConstraints (segmentElements (m + 1)) flex) y
      ≤ cost (neighbourConstraints (segmentElements (m + 1)) flex) x := by
  by_cases hf : flex = .legacy
  · unfold neighbourConstraints
    simp [hf]
  · rw [neighbours_cost hf, neighbours_cost hf]
    apply sum_le_sum
    intro i hi
    have hi := mem_range.1 hi
    rw [hz i (by omega), hz (i + 1) (by omega), ← mul_sub, abs_mul, abs_of_nonneg h0]
    have := mul_le_mul_of_nonneg_right h1
      (abs_nonneg (x (2 * i + 2) - x (2 * i + 1) - (x (2 * (i + 1) + 2) - x (2 * (i + 1) + 1))))
    linarith
end

/-- A placement with smaller segments and cheaper gaps is better. -/
theorem shrunk_better {l : Layout} {a b lam : ℚ} {x y : Var → ℚ} {m : Nat} (hm : l.constraints.length = m + 1)
    (hx : Placed (m + 1) a b x) (hy : Placed (m + 1) a b y) (h0 : 0 ≤ lam) (h1 : lam < 1)
    (yz : ∀ i < m + 1, y (2 * i + 2) - y (2 * i + 1) = lam * (x (2 * i + 2) - x (2 * i + 1)))
    (hpos : 0 < ∑ i ∈ range (m + 1), (x (2 * i + 2) - x (2 * i + 1)))
    (hflex : cost (flexList (areaElement (m + 1)) (spacerElements (m + 1)) l.flex (Spacing.value l.spacing)) y
      ≤ cost (flexList (areaElement (m + 1)) (spacerElements (m + 1)) l.flex (Spacing.value l.spacing)) x
        - 100100100 * ((1 - lam) * ∑ i ∈ range (m + 1), (x (2 * i + 2) - x (2 * i + 1)))) :
    weightedViolation (softList l) y < weightedViolation (softList l) x := by
  have soft := fun c hc => (soft_softList l c hc).lt
  rw [wv_eq_cost soft, wv_eq_cost soft]
  unfold softList
  simp only [cost_append, hm]
  have ax := area_size hx
  have ay := area_size hy
  have hl1 : 0 < 1 - lam := by linarith
  have hfill := fill_shrunk l h0 h1.le (by rw [hm]; exact yz)
  rw [hm] at hfill
  have hnb := neighbours_shrunk l.flex h0 h1.le yz
  have hsz : cost (sizeConstraints (areaElement (m + 1)) (segmentElements (m + 1)) l.constraints l.flex) y
      ≤ cost (sizeConstraints (areaElement (m + 1)) (segmentElements (m + 1)) l.constraints l.flex) x
        + 100010000 * ((1 - lam) * ∑ k ∈ range (m + 1), (x (2 * k + 2) - x (2 * k + 1))) := by
    have c1 := sizes_cost l x
    have c2 := sizes_cost l y
    rw [hm] at c1 c2
    rw [c1, c2, mul_sum, mul_sum, ← sum_add_distrib]
    apply sum_le_sum
    intro k hk
    have hk := mem_range.1 hk
    have h := constraintFor_bound (areaElement (m + 1)) ⟨2 * k + 1, 2 * k + 2⟩ l.flex (con l k) (ay.trans ax.symm)
    refine h.trans (le_of_eq ?_)
    congr 2
    simp only [sz]
    rw [yz k hk]
    have : 0 ≤ x (2 * k + 2) - x (2 * k + 1) := by have := hx.ordered k hk; linarith
    rw [show lam * (x (2 * k + 2) - x (2 * k + 1)) - (x (2 * k + 2) - x (2 * k + 1))
      = -((1 - lam) * (x (2 * k + 2) - x (2 * k + 1))) by ring, abs_neg, abs_of_nonneg (mul_nonneg hl1.le this)]
  have q := mul_pos hl1 hpos
  linarith

/-- In the best placement either no segment takes room, or no gap falls short of the spacing. -/
theorem gaps_first {l : Layout} {a b : ℚ} {x : Var → ℚ} {m : Nat} (hm : l.constraints.length = m + 1)
    (hs : 0 ≤ Spacing.value l.spacing) (hx : Placed (m + 1) a b x)
    (hbest : ∀ y, Placed (m + 1) a b y → weightedViolation (softList l) x ≤ weightedViolation (softList l) y)
    (i : Nat) (hi : i < m + 1) (hpos : x (2 * i + 1) < x (2 * i + 2)) :
    ∀ k < m, (Spacing.value l.spacing : ℚ) * multiplier ≤ x (2 * (k + 1) + 1) - x (2 * (k + 1)) := by
  generalize hG : (Spacing.value l.spacing : ℚ) * multiplier = G
  have hG0 : 0 ≤ G := by
    rw [← hG]
    have : (0 : ℚ) ≤ Spacing.value l.spacing := by exact_mod_cast hs
    unfold multiplier
    linarith
  have hz : ∀ k < m + 1, 0 ≤ x (2 * k + 2) - x (2 * k + 1) := fun k hk => by have := hx.ordered k hk; linarith
  have hf : 0 ≤ x 1 - x 0 := by
    have := hx.low 1 (show (1 : Nat) < 2 * (m + 1) + 2 by omega)
    have := hx.first
    linarith
  have hl : 0 ≤ x (2 * (m + 1) + 1) - x (2 * (m + 1)) := by
    have := hx.high (2 * (m + 1)) (show (2 * (m + 1) : Nat) < 2 * (m + 1) + 2 by omega)
    have := hx.last
    linarith
  have htot := placed_total hx
  rw [sum_gaps (fun k => x (2 * k + 1) - x (2 * k))] at htot
  simp only [Nat.mul_zero, Nat.zero_add] at htot
  have hab : 0 ≤ b - a := by
    have := hx.low 0 (show (0 : Nat) < 2 * (m + 1) + 2 by omega)
    have := hx.high 0 (show (0 : Nat) < 2 * (m + 1) + 2 by omega)
    linarith
  have zpos : 0 < ∑ k ∈ range (m + 1), (x (2 * k + 2) - x (2 * k + 1)) := by
    apply sum_pos' (fun k hk => hz k (mem_range.1 hk))
    exact ⟨i, mem_range.2 hi, by linarith⟩
  have ax := area_size hx
  by_contra hcon
  push Not at hcon
  obtain ⟨k, hk, hneg⟩ := hcon
  by_cases hroom : m * G ≤ b - a
  · -- the gaps fit
    set Z := ∑ k ∈ range (m + 1), (x (2 * k + 2) - x (2 * k + 1)) with hZ
    set Q := ∑ k ∈ range m, max 0 (x (2 * (k + 1) + 1) - x (2 * (k + 1)) - G) with hQ
    set D := ∑ k ∈ range m, max 0 (-(x (2 * (k + 1) + 1) - x (2 * (k + 1)) - G)) with hD
    have hQD : Q - D = ∑ k ∈ range m, (x (2 * (k + 1) + 1) - x (2 * (k + 1))) - m * G := by
      rw [hQ, hD, ← sum_sub_distrib]
      have : (m : ℚ) * G = ∑ _k ∈ range m, G := by simp
      rw [this, ← sum_sub_distrib]
      apply sum_congr rfl
      intro k _
      generalize x (2 * (k + 1) + 1) - x (2 * (k + 1)) - G = t
      rcases le_total 0 t with h | h
      · rw [max_eq_right h, max_eq_left (by linarith)]; ring
      · rw [max_eq_left h, max_eq_right (by linarith)]; ring
    have hQ0 : 0 ≤ Q := sum_nonneg fun _ _ => le_max_left _ _
    have hDpos : 0 < D := by
      apply sum_pos' (fun _ _ => le_max_left _ _)
      exact ⟨k, mem_range.2 hk, lt_max_of_lt_right (by linarith)⟩
    set P := Z + (x 1 - x 0) + (x (2 * (m + 1) + 1) - x (2 * (m + 1))) + Q with hP
    have hPD : P - D = b - a - m * G := by rw [← htot, hP]; linarith
    have hPpos : 0 < P := by linarith
    set lam := (b - a - m * G) / P with hlam
    have h0 : 0 ≤ lam := div_nonneg (by linarith) hPpos.le
    have hlt : lam < 1 := by rw [hlam, div_lt_one hPpos]; linarith
    have hlP : lam * P = b - a - m * G := by rw [hlam]; field_simp
    set y := place a (fun k => if k = 0 then lam * (x 1 - x 0)
      else if k = m + 1 then lam * (x (2 * (m + 1) + 1) - x (2 * (m + 1)))
      else G + lam * max 0 (x (2 * k + 1) - x (2 * k) - G)) (fun k => lam * (x (2 * k + 2) - x (2 * k + 1))) with hy
    have yi : ∀ k < m, y (2 * (k + 1) + 1) - y (2 * (k + 1))
        = G + lam * max 0 (x (2 * (k + 1) + 1) - x (2 * (k + 1)) - G) := by
      intro k hk
      rw [hy, place_gap, if_neg (by omega), if_neg (by omega)]
    have y0 : y 1 - y 0 = lam * (x 1 - x 0) := by
      have := place_gap a (fun k => if k = 0 then lam * (x 1 - x 0)
        else if k = m + 1 then lam * (x (2 * (m + 1) + 1) - x (2 * (m + 1)))
        else G + lam * max 0 (x (2 * k + 1) - x (2 * k) - G)) (fun k => lam * (x (2 * k + 2) - x (2 * k + 1))) 0
      rw [if_pos rfl] at this
      exact this
    have yn : y (2 * (m + 1) + 1) - y (2 * (m + 1)) = lam * (x (2 * (m + 1) + 1) - x (2 * (m + 1))) := by
      rw [hy, place_gap, if_neg (by omega), if_pos rfl]
    have yz : ∀ k < m + 1, y (2 * k + 2) - y (2 * k + 1) = lam * (x (2 * k + 2) - x (2 * k + 1)) :=
      fun k _ => place_segment _ _ _ k
    have hyp : Placed (m + 1) a b y := by
      apply place_placed
      · intro k _
        split_ifs
        · exact mul_nonneg h0 hf
        · exact mul_nonneg h0 hl
        · have := mul_nonneg h0 (le_max_left 0 (x (2 * k + 1) - x (2 * k) - G))
          linarith
      · intro k hk; exact mul_nonneg h0 (hz k hk)
      · rw [sum_gaps, if_pos rfl, if_neg (by omega), if_pos rfl]
        have : ∑ k ∈ range m, (if k + 1 = 0 then lam * (x 1 - x 0)
            else if k + 1 = m + 1 then lam * (x (2 * (m + 1) + 1) - x (2 * (m + 1)))
            else G + lam * max 0 (x (2 * (k + 1) + 1) - x (2 * (k + 1)) - G)) = m * G + lam * Q := by
          rw [hQ, mul_sum]
          have : (m : ℚ) * G = ∑ _k ∈ range m, G := by simp
          rw [this, ← sum_add_distrib]
          apply sum_congr rfl
          intro k hk
          have := mem_range.1 hk
          rw [if_neg (by omega), if_neg (by omega)]
        rw [this, ← mul_sum, ← hZ]
        rw [hP] at hlP
        linarith
    have ay := area_size hyp
    have hsh : Shrunk m G lam x y := ⟨yi, y0, yn⟩
    have hE : ∑ k ∈ range m, extra lam (x (2 * (k + 1) + 1) - x (2 * (k + 1)) - G) = (1 - lam) * Q - D := by
      unfold extra
      rw [sum_sub_distrib, ← mul_sum]
    have hl1 : 0 < 1 - lam := by linarith
    have hlD : (1 - lam) * P = D := by rw [sub_mul, hlP]; linarith
    rw [hP] at hlD
    have q1 := mul_nonneg hl1.le hf
    have q2 := mul_nonneg hl1.le hl
    have q3 := mul_pos hl1 zpos
    have hfix := fixed_shrunk hlt.le hG.symm hsh
    have hgrow := growing_shrunk hlt.le hG.symm hsh (ay.trans ax.symm) (by
      intro hm0
      rw [ax]
      have : (1 : ℚ) ≤ m := by exact_mod_cast hm0
      have := mul_le_mul_of_nonneg_right this hG0
      linarith)
    rw [hE] at hfix hgrow
    have hflex := flex_ends l.flex h0 hlt.le hfix hgrow (pairCost_shrunk h0 hlt.le hsh) y0 yn (ay.trans ax.symm)
      (by rw [ax]; exact hab) hf hl (by linarith)
    have := shrunk_better hm hx hyp h0 hlt yz zpos (by rw [← hZ]; linarith)
    exact absurd (hbest y hyp) (not_le.2 this)
  · -- not even the gaps fit
    rw [not_le] at hroom
    set Z := ∑ k ∈ range (m + 1), (x (2 * k + 2) - x (2 * k + 1)) with hZ
    have hm0 : (0 : ℚ) < m := by
      have : 0 < m := by omega
      exact_mod_cast this
    set y := place a (fun k => if k = 0 then 0 else if k = m + 1 then 0 else (b - a) / m) (fun _ => 0) with hy
    have yi : ∀ k < m, y (2 * (k + 1) + 1) - y (2 * (k + 1)) = (b - a) / m := by
      intro k hk
      rw [hy, place_gap, if_neg (by omega), if_neg (by omega)]
    have y0 : y 1 - y 0 = 0 * (x 1 - x 0) := by
      have := place_gap a (fun k => if k = 0 then 0 else if k = m + 1 then 0 else (b - a) / m) (fun _ => 0) 0
      rw [if_pos rfl] at this
      rw [zero_mul]
      exact this
    have yn : y (2 * (m + 1) + 1) - y (2 * (m + 1)) = 0 * (x (2 * (m + 1) + 1) - x (2 * (m + 1))) := by
      rw [hy, place_gap, if_neg (by omega), if_pos rfl, zero_mul]
    have yz : ∀ k < m + 1, y (2 * k + 2) - y (2 * k + 1) = 0 * (x (2 * k + 2) - x (2 * k + 1)) := by
      intro k _
      rw [zero_mul]
      exact place_segment _ _ _ k
    have hyp : Placed (m + 1) a b y := by
      apply place_placed
      · intro k _
        split_ifs
        · exact le_rfl
        · exact le_rfl
        · exact div_nonneg hab hm0.le
      · intro k hk; exact le_rfl
      · rw [sum_gaps, if_pos rfl, if_neg (by omega), if_pos rfl]
        have : ∑ k ∈ range m, (if k + 1 = 0 then (0 : ℚ) else if k + 1 = m + 1 then 0 else (b - a) / m) = b - a := by
          have e : ∑ k ∈ range m, (if k + 1 = 0 then (0 : ℚ) else if k + 1 = m + 1 then 0 else (b - a) / m)
              = ∑ _k ∈ range m, (b - a) / m := by
            apply sum_congr rfl
            intro k hk
            have := mem_range.1 hk
            rw [if_neg (by omega), if_neg (by omega)]
          rw [e, sum_const, card_range, nsmul_eq_mul]
          field_simp
        rw [this]
        simp
    have ay := area_size hyp
    have lower : ∀ t : ℚ, m * t - ∑ k ∈ range m, (x (2 * (k + 1) + 1) - x (2 * (k + 1)))
        = ∑ k ∈ range m, -(x (2 * (k + 1) + 1) - x (2 * (k + 1)) - t) := by
      intro t
      have : (m : ℚ) * t = ∑ _k ∈ range m, t := by simp
      rw [this, ← sum_sub_distrib]
      apply sum_congr rfl
      intro k _
      ring
    have hdiv : (b - a) / m ≤ G := by rw [div_le_iff₀ hm0]; linarith
    have hA1 : (b - a) / m ≤ b - a := by
      rw [div_le_iff₀ hm0]
      have : (1 : ℚ) ≤ m := by
        have : 1 ≤ m := by omega
        exact_mod_cast this
      have := mul_le_mul_of_nonneg_left this hab
      linarith
    have hE : -(Z + (x 1 - x 0) + (x (2 * (m + 1) + 1) - x (2 * (m + 1))))
        = ∑ k ∈ range m, (x (2 * (k + 1) + 1) - x (2 * (k + 1))) - (b - a) := by linarith
    have hcard : (m : ℚ) * ((b - a) / m) = b - a := by field_simp
    have l1 : ∑ k ∈ range m, -(x (2 * (k + 1) + 1) - x (2 * (k + 1)) - G)
        ≤ ∑ k ∈ range m, |x (2 * (k + 1) + 1) - x (2 * (k + 1)) - G| := sum_le_sum fun _ _ => neg_le_abs _
    have l2 : ∑ k ∈ range m, -(x (2 * (k + 1) + 1) - x (2 * (k + 1)) - G)
        ≤ ∑ k ∈ range m, max 0 (-(x (2 * (k + 1) + 1) - x (2 * (k + 1)) - G)) :=
      sum_le_sum fun _ _ => le_max_right _ _
    have l3 : ∑ k ∈ range m, -(x (2 * (k + 1) + 1) - x (2 * (k + 1)) - (b - a))
        ≤ ∑ k ∈ range m, |x (2 * (k + 1) + 1) - x (2 * (k + 1)) - (b - a)| := sum_le_sum fun _ _ => neg_le_abs _
    rw [← lower] at l1 l2 l3
    have hfix : cost (fixedSpacing (spacerElements (m + 1)) (Spacing.value l.spacing)) y
        ≤ cost (fixedSpacing (spacerElements (m + 1)) (Spacing.value l.spacing)) x
          + 100100100 * -(Z + (x 1 - x 0) + (x (2 * (m + 1) + 1) - x (2 * (m + 1)))) := by
      rw [fixed_cost, fixed_cost, hG, hE]
      have e : ∑ k ∈ range m, |y (2 * (k + 1) + 1) - y (2 * (k + 1)) - G| = m * G - (b - a) := by
        rw [sum_congr rfl (g := fun _ => G - (b - a) / m) (by
          intro k hk
          rw [yi k (mem_range.1 hk), abs_of_nonpos (by linarith)]; ring)]
        rw [sum_const, card_range, nsmul_eq_mul, mul_sub, hcard]
      rw [e]
      linarith
    have hgrow : cost ((interior (spacerElements (m + 1))).flatMap fun s =>
        [s.hasMinSize (Spacing.value l.spacing) spacerSizeEq, s.hasSize (areaElement (m + 1)).size spaceGrow]) y
        ≤ cost ((interior (spacerElements (m + 1))).flatMap fun s =>
        [s.hasMinSize (Spacing.value l.spacing) spacerSizeEq, s.hasSize (areaElement (m + 1)).size spaceGrow]) x
          + 100100110 * -(Z + (x 1 - x 0) + (x (2 * (m + 1) + 1) - x (2 * (m + 1)))) := by
      rw [growing_cost, growing_cost, hG, hE, ax, ay]
      have e : ∑ k ∈ range m, (100100100 * max 0 (-(y (2 * (k + 1) + 1) - y (2 * (k + 1)) - G))
            + 10 * |y (2 * (k + 1) + 1) - y (2 * (k + 1)) - (b - a)|)
          = 100100100 * (m * G - (b - a)) + 10 * (m * (b - a) - (b - a)) := by
        rw [sum_congr rfl (g := fun _ => 100100100 * (G - (b - a) / m) + 10 * ((b - a) - (b - a) / m)) (by
          intro k hk
          rw [yi k (mem_range.1 hk), abs_of_nonpos (by linarith), max_eq_right (by linarith)]; ring)]
        rw [sum_const, card_range, nsmul_eq_mul]
        have e2 : ∀ q : ℚ, (m : ℚ) * (100100100 * (G - q) + 10 * ((b - a) - q))
            = 100100100 * (m * G - m * q) + 10 * (m * (b - a) - m * q) := by intro q; ring
        rw [e2, hcard]
      rw [e, sum_add_distrib, ← mul_sum, ← mul_sum]
      linarith
    have hpair : pairCost m y ≤ pairCost m x := by
      rw [pairCost_zero_of yi]
      exact pairCost_nonneg m x
    have hflex := flex_ends l.flex le_rfl zero_le_one hfix hgrow hpair y0 yn (ay.trans ax.symm)
      (by rw [ax]; exact hab) hf hl (by linarith)
    have := shrunk_better hm hx hyp le_rfl zero_lt_one yz zpos (by rw [← hZ]; linarith)
    exact absurd (hbest y hyp) (not_le.2 this)

/-- In the modes that leave the rest at the ends, the gaps between segments are exactly the spacing as soon as none
falls short of it. -/
theorem gaps_exact {l : Layout} {a b : ℚ} {x : Var → ℚ} {m : Nat} (hm : l.constraints.length = m + 1)
    (hflex : l.flex = .start ∨ l.flex = .center ∨ l.flex = .end')
    (hs : 0 ≤ Spacing.value l.spacing) (hx : Placed (m + 1) a b x)
    (hbest : ∀ y, Placed (m + 1) a b y → weightedViolation (softList l) x ≤ weightedViolation (softList l) y)
    (hge : ∀ k < m, (Spacing.value l.spacing : ℚ) * multiplier ≤ x (2 * (k + 1) + 1) - x (2 * (k + 1))) :
    ∀ k < m, x (2 * (k + 1) + 1) - x (2 * (k + 1)) = (Spacing.value l.spacing : ℚ) * multiplier := by
  generalize hG : (Spacing.value l.spacing : ℚ) * multiplier = G at *
  have hG0 : 0 ≤ G := by
    rw [← hG]
    have : (0 : ℚ) ≤ Spacing.value l.spacing := by exact_mod_cast hs
    unfold multiplier
    linarith
  have hf : 0 ≤ x 1 - x 0 := by
    have := hx.low 1 (show (1 : Nat) < 2 * (m + 1) + 2 by omega)
    have := hx.first
    linarith
  have hl : 0 ≤ x (2 * (m + 1) + 1) - x (2 * (m + 1)) := by
    have := hx.high (2 * (m + 1)) (show (2 * (m + 1) : Nat) < 2 * (m + 1) + 2 by omega)
    have := hx.last
    linarith
  have hz : ∀ k < m + 1, 0 ≤ x (2 * k + 2) - x (2 * k + 1) := fun k hk => by have := hx.ordered k hk; linarith
  have htot := placed_total hx
  rw [sum_gaps (fun k => x (2 * k + 1) - x (2 * k))] at htot
  simp only [Nat.mul_zero, Nat.zero_add] at htot
  have zsum : 0 ≤ ∑ k ∈ range (m + 1), (x (2 * k + 2) - x (2 * k + 1)) :=
    sum_nonneg fun k hk => hz k (mem_range.1 hk)
  set D := ∑ k ∈ range m, |x (2 * (k + 1) + 1) - x (2 * (k + 1)) - G| with hD
  have hDeq : D = ∑ k ∈ range m, (x (2 * (k + 1) + 1) - x (2 * (k + 1))) - m * G := by
    have : (m : ℚ) * G = ∑ _k ∈ range m, G := by simp
    rw [this, ← sum_sub_distrib, hD]
    apply sum_congr rfl
    intro k hk
    rw [abs_of_nonneg]
    have := hge k (mem_range.1 hk)
    linarith
  have hD0 : 0 ≤ D := sum_nonneg fun _ _ => abs_nonneg _
  have hmG : 0 ≤ m * G := mul_nonneg (Nat.cast_nonneg m) hG0
  suffices hDz : D ≤ 0 by
    intro k hk
    have h := (sum_eq_zero_iff_of_nonneg (fun i _ => abs_nonneg (x (2 * (i + 1) + 1) - x (2 * (i + 1)) - G))).1
      (le_antisymm hDz hD0) k (mem_range.2 hk)
    have := abs_eq_zero.1 h
    linarith
  by_contra hcon
  rw [not_le] at hcon
  have ax := area_size hx
  -- the share of the first end
  have key : ∀ p q : ℚ, 0 ≤ p → 0 ≤ q → p + q = D →
      ∃ y, Placed (m + 1) a b y ∧ (∀ k < m + 1, y (2 * k + 2) - y (2 * k + 1) = x (2 * k + 2) - x (2 * k + 1)) ∧
        (∀ k < m, y (2 * (k + 1) + 1) - y (2 * (k + 1)) = G) ∧ y 1 - y 0 = x 1 - x 0 + p ∧
        y (2 * (m + 1) + 1) - y (2 * (m + 1)) = x (2 * (m + 1) + 1) - x (2 * (m + 1)) + q := by
    intro p q hp hq hpq
    let g : Nat → ℚ := fun k => if k = 0 then x 1 - x 0 + p
      else if k = m + 1 then x (2 * (m + 1) + 1) - x (2 * (m + 1)) + q else G
    refine ⟨place a g (fun k => x (2 * k + 2) - x (2 * k + 1)), ?_, fun k _ => place_segment _ _ _ k, ?_, ?_, ?_⟩
    · apply place_placed
      · intro k _
        simp only [g]
        split_ifs <;> linarith
      · exact hz
      · rw [sum_gaps]
        have : ∑ k ∈ range m, g (k + 1) = m * G := by
          have : (m : ℚ) * G = ∑ _k ∈ range m, G := by simp
          rw [this]
          apply sum_congr rfl
          intro k hk
          have := mem_range.1 hk
          simp only [g]
          rw [if_neg (by omega), if_neg (by omega)]
        rw [this]
        have g0 : g 0 = x 1 - x 0 + p := if_pos rfl
        have gn : g (m + 1) = x (2 * (m + 1) + 1) - x (2 * (m + 1)) + q := by
          simp only [g]
          rw [if_neg (by omega), if_pos trivial]
        rw [g0, gn]
        linarith
    · intro k hk
      rw [place_gap]
      simp only [g]
      rw [if_neg (by omega), if_neg (by omega)]
    · have := place_gap a g (fun k => x (2 * k + 2) - x (2 * k + 1)) 0
      exact this
    · rw [place_gap]
      simp only [g]
      rw [if_neg (by omega), if_pos trivial]
  -- the rest of the cost stays
  have rest : ∀ y, Placed (m + 1) a b y →
      (∀ k < m + 1, y (2 * k + 2) - y (2 * k + 1) = x (2 * k + 2) - x (2 * k + 1)) →
      cost (flexList (areaElement (m + 1)) (spacerElements (m + 1)) l.flex (Spacing.value l.spacing)) x
        ≤ cost (flexList (areaElement (m + 1)) (spacerElements (m + 1)) l.flex (Spacing.value l.spacing)) y := by
    intro y hy yz
    have ay := area_size hy
    have hb := hbest y hy
    have soft := fun c hc => (soft_softList l c hc).lt
    rw [wv_eq_cost soft, wv_eq_cost soft] at hb
    unfold softList at hb
    simp only [cost_append, hm] at hb
    have yz' : ∀ k < m + 1, y (2 * k + 2) - y (2 * k + 1) = 1 * (x (2 * k + 2) - x (2 * k + 1)) := by
      intro k hk; rw [one_mul]; exact yz k hk
    have hfill := fill_shrunk l zero_le_one le_rfl (by rw [hm]; exact yz')
    rw [hm] at hfill
    have hnb := neighbours_shrunk l.flex zero_le_one le_rfl yz'
    have hsz : cost (sizeConstraints (areaElement (m + 1)) (segmentElements (m + 1)) l.constraints l.flex) y
        ≤ cost (sizeConstraints (areaElement (m + 1)) (segmentElements (m + 1)) l.constraints l.flex) x := by
      have c1 := sizes_cost l x
      have c2 := sizes_cost l y
      rw [hm] at c1 c2
      rw [c1, c2]
      apply sum_le_sum
      intro k hk
      have h := constraintFor_bound (areaElement (m + 1)) ⟨2 * k + 1, 2 * k + 2⟩ l.flex (con l k) (ay.trans ax.symm)
      have e : sz ⟨2 * k + 1, 2 * k + 2⟩ y - sz ⟨2 * k + 1, 2 * k + 2⟩ x = 0 := by
        simp only [sz]
        rw [yz k (mem_range.1 hk), sub_self]
      rw [e, abs_zero, mul_zero, add_zero] at h
      exact h
    linarith
  have v1 : spacerSizeEq = 100100100 := by norm_num [spacerSizeEq, required]
  have v2 : grow = 100 := by norm_num [grow, weak]
  have E2 : ∀ (e : Element) (t : Expr) (w : ℚ), (e.hasSize t w).strength = w := fun _ _ _ => rfl
  have z3 : ∀ u : Var → ℚ, sz ⟨0, 1⟩ u = u 1 - u 0 := fun _ => rfl
  have z4 : ∀ u : Var → ℚ, sz ⟨2 * (m + 1), 2 * (m + 1) + 1⟩ u = u (2 * (m + 1) + 1) - u (2 * (m + 1)) := fun _ => rfl
  have hfixx := fixed_cost m (Spacing.value l.spacing) x
  rw [hG, ← hD] at hfixx
  have hfixy : ∀ y : Var → ℚ, (∀ k < m, y (2 * (k + 1) + 1) - y (2 * (k + 1)) = G) →
      cost (fixedSpacing (spacerElements (m + 1)) (Spacing.value l.spacing)) y = 0 := by
    intro y h
    rw [fixed_cost, hG, sum_eq_zero, mul_zero]
    intro k hk
    rw [h k (mem_range.1 hk), sub_self, abs_zero]
  have far : ∀ s p : ℚ, 0 ≤ p → s + p ≤ b - a → |s + p - (b - a)| ≤ |s - (b - a)| := by
    intro s p hp h
    rw [abs_of_nonpos (by linarith), abs_of_nonpos (by linarith)]
    linarith
  rcases hflex with h | h | h
  · obtain ⟨y, hy, yz, yi, y0, yn⟩ := key 0 D le_rfl hD0 (by ring)
    have ay := area_size hy
    have hr := rest y hy yz
    rw [h] at hr
    simp only [flexList, cost_append, endsOf_spacers, cost_cons, cost_nil, violation_isEmpty, violation_hasSize,
      eval_size, z3, z4, ax, ay, E2, hfixx, hfixy y yi, y0, yn, add_zero, v2] at hr
    have := far (x (2 * (m + 1) + 1) - x (2 * (m + 1))) D hD0 (by linarith)
    linarith
  · obtain ⟨y, hy, yz, yi, y0, yn⟩ := key (D / 2) (D / 2) (by linarith) (by linarith) (by ring)
    have ay := area_size hy
    have hr := rest y hy yz
    rw [h] at hr
    simp only [flexList, cost_append, endsOf_spacers, cost_cons, cost_nil, violation_isEmpty, violation_hasSize,
      eval_size, z3, z4, ax, ay, E2, hfixx, hfixy y yi, y0, yn, v1, v2, add_sub_add_right_eq_sub] at hr
    have := far (x (2 * (m + 1) + 1) - x (2 * (m + 1))) (D / 2) (by linarith) (by linarith)
    have := far (x 1 - x 0) (D / 2) (by linarith) (by linarith)
    linarith
  · obtain ⟨y, hy, yz, yi, y0, yn⟩ := key D 0 hD0 le_rfl (by ring)
    have ay := area_size hy
    have hr := rest y hy yz
    rw [h] at hr
    simp only [flexList, cost_append, endsOf_spacers, cost_cons, cost_nil, violation_isEmpty, violation_hasSize,
      eval_size, z3, z4, ax, ay, E2, hfixx, hfixy y yi, y0, yn, add_zero, v2] at hr
    have := far (x 1 - x 0) D hD0 (by linarith)
    linarith

/-- Rearranging the gaps, with the segments as they are, does not make the best placement better. -/
theorem rearranged {l : Layout} {a b : ℚ} {x : Var → ℚ} {m : Nat} (hm : l.constraints.length = m + 1)
    (hx : Placed (m + 1) a b x)
    (hbest : ∀ y, Placed (m + 1) a b y → weightedViolation (softList l) x ≤ weightedViolation (softList l) y)
    (f e : ℚ) (g : Nat → ℚ) (hf : 0 ≤ f) (he : 0 ≤ e) (hg : ∀ k < m, 0 ≤ g k)
    (ht : f + ∑ k ∈ range m, g k + e = x 1 - x 0 + ∑ k ∈ range m, (x (2 * (k + 1) + 1) - x (2 * (k + 1)))
      + (x (2 * (m + 1) + 1) - x (2 * (m + 1)))) :
    ∃ y, Placed (m + 1) a b y ∧ y 1 - y 0 = f ∧ (∀ k < m, y (2 * (k + 1) + 1) - y (2 * (k + 1)) = g k) ∧
      y (2 * (m + 1) + 1) - y (2 * (m + 1)) = e ∧
      cost (flexList (areaElement (m + 1)) (spacerElements (m + 1)) l.flex (Spacing.value l.spacing)) x
        ≤ cost (flexList (areaElement (m + 1)) (spacerElements (m + 1)) l.flex (Spacing.value l.spacing)) y := by
  have hz : ∀ k < m + 1, 0 ≤ x (2 * k + 2) - x (2 * k + 1) := fun k hk => by have := hx.ordered k hk; linarith
  have htot := placed_total hx
  rw [sum_gaps (fun k => x (2 * k + 1) - x (2 * k))] at htot
  simp only [Nat.mul_zero, Nat.zero_add] at htot
  let h : Nat → ℚ := fun k => if k = 0 then f else if k = m + 1 then e else g (k - 1)
  have h0 : h 0 = f := if_pos rfl
  have hn : h (m + 1) = e := by
    simp only [h]
    rw [if_neg (by omega), if_pos trivial]
  have hk : ∀ k < m, h (k + 1) = g k := by
    intro k hk
    simp only [h]
    rw [if_neg (by omega), if_neg (by omega), Nat.add_sub_cancel]
  have hy : Placed (m + 1) a b (place a h fun k => x (2 * k + 2) - x (2 * k + 1)) := by
    apply place_placed
    · intro k hk'
      rcases Nat.eq_zero_or_pos k with rfl | hpos
      · rw [h0]; exact hf
      · obtain ⟨j, rfl⟩ : ∃ j, k = j + 1 := ⟨k - 1, by omega⟩
        by_cases hj : j = m
        · rw [hj, hn]; exact he
        · rw [hk j (by omega)]; exact hg j (by omega)
    · exact hz
    · rw [sum_gaps, h0, hn, sum_congr rfl (fun k hk' => hk k (mem_range.1 hk'))]
      linarith
  have yz : ∀ k < m + 1, place a h (fun k => x (2 * k + 2) - x (2 * k + 1)) (2 * k + 2)
      - place a h (fun k => x (2 * k + 2) - x (2 * k + 1)) (2 * k + 1) = x (2 * k + 2) - x (2 * k + 1) :=
    fun k _ => place_segment _ _ _ k
  refine ⟨_, hy, ?_, ?_, ?_, ?_⟩
  · have := place_gap a h (fun k => x (2 * k + 2) - x (2 * k + 1)) 0
    rw [h0] at this
    exact this
  · intro k hk'
    rw [place_gap, hk k hk']
  · rw [place_gap, hn]
  · generalize place a h (fun k => x (2 * k + 2) - x (2 * k + 1)) = y at hy yz
    have ax := area_size hx
    have ay := area_size hy
    have hb := hbest y hy
    have soft := fun c hc => (soft_softList l c hc).lt
    rw [wv_eq_cost soft, wv_eq_cost soft] at hb
    unfold softList at hb
    simp only [cost_append, hm] at hb
    have yz' : ∀ k < m + 1, y (2 * k + 2) - y (2 * k + 1) = 1 * (x (2 * k + 2) - x (2 * k + 1)) := by
      intro k hk; rw [one_mul]; exact yz k hk
    have hfill := fill_shrunk l zero_le_one le_rfl (by rw [hm]; exact yz')
    rw [hm] at hfill
    have hnb := neighbours_shrunk l.flex zero_le_one le_rfl yz'
    have hsz : cost (sizeConstraints (areaElement (m + 1)) (segmentElements (m + 1)) l.constraints l.flex) y
        ≤ cost (sizeConstraints (areaElement (m + 1)) (segmentElements (m + 1)) l.constraints l.flex) x := by
      have c1 := sizes_cost l x
      have c2 := sizes_cost l y
      rw [hm] at c1 c2
      rw [c1, c2]
      apply sum_le_sum
      intro k hk
      have h := constraintFor_bound (areaElement (m + 1)) ⟨2 * k + 1, 2 * k + 2⟩ l.flex (con l k) (ay.trans ax.symm)
      have e : sz ⟨2 * k + 1, 2 * k + 2⟩ y - sz ⟨2 * k + 1, 2 * k + 2⟩ x = 0 := by
        simp only [sz]
        rw [yz k (mem_range.1 hk), sub_self]
      rw [e, abs_zero, mul_zero, add_zero] at h
      exact h
    linarith

section
variable {l : Layout} {a b : ℚ} {x : Var → ℚ} {m : Nat}

theorem first_nonneg (hx : Placed (m + 1) a b x) : 0 ≤ x 1 - x 0 := by
  have := hx.low 1 (show (1 : Nat) < 2 * (m + 1) + 2 by omega)
  have := hx.first
  linarith

theorem last_nonneg (hx : Placed (m + 1) a b x) : 0 ≤ x (2 * (m + 1) + 1) - x (2 * (m + 1)) := by
  have := hx.high (2 * (m + 1)) (show (2 * (m + 1) : Nat) < 2 * (m + 1) + 2 by omega)
  have := hx.last
  linarith

/-- The ends take no more than the area when no gap is negative. -/
theorem ends_le (hx : Placed (m + 1) a b x) (hge : ∀ k < m, 0 ≤ x (2 * (k + 1) + 1) - x (2 * (k + 1))) :
    x 1 - x 0 + ∑ k ∈ range m, (x (2 * (k + 1) + 1) - x (2 * (k + 1)))
      + (x (2 * (m + 1) + 1) - x (2 * (m + 1))) ≤ b - a := by
  have htot := placed_total hx
  rw [sum_gaps (fun k => x (2 * k + 1) - x (2 * k))] at htot
  simp only [Nat.mul_zero, Nat.zero_add] at htot
  have : 0 ≤ ∑ k ∈ range (m + 1), (x (2 * k + 2) - x (2 * k + 1)) :=
    sum_nonneg fun k hk => by have := hx.ordered k (mem_range.1 hk); linarith
  linarith

/-- Where the room at the ends goes in the modes with fixed spacing. -/
theorem ends_fixed (hm : l.constraints.length = m + 1) (hx : Placed (m + 1) a b x)
    (hbest : ∀ y, Placed (m + 1) a b y → weightedViolation (softList l) x ≤ weightedViolation (softList l) y)
    (hge : ∀ k < m, 0 ≤ x (2 * (k + 1) + 1) - x (2 * (k + 1))) :
    (l.flex = .start → x 1 = x 0) ∧ (l.flex = .end' → x (2 * (m + 1) + 1) = x (2 * (m + 1))) ∧
    (l.flex = .center → x 1 - x 0 = x (2 * (m + 1) + 1) - x (2 * (m + 1))) := by
  have hf := first_nonneg hx
  have hl := last_nonneg hx
  have hle := ends_le hx hge
  have hin : 0 ≤ ∑ k ∈ range m, (x (2 * (k + 1) + 1) - x (2 * (k + 1))) :=
    sum_nonneg fun k hk => hge k (mem_range.1 hk)
  have ax := area_size hx
  have v1 : spacerSizeEq = 100100100 := by norm_num [spacerSizeEq, required]
  have v2 : grow = 100 := by norm_num [grow, weak]
  have E2 : ∀ (e : Element) (t : Expr) (w : ℚ), (e.hasSize t w).strength = w := fun _ _ _ => rfl
  have E1 : ∀ e : Element, e.isEmpty.strength = (⟨0, 1⟩ : Element).isEmpty.strength := fun _ => rfl
  have hE : 0 < (⟨0, 1⟩ : Element).isEmpty.strength := by
    norm_num [Element.isEmpty, Constr.constantRHS, required]
  have z3 : ∀ u : Var → ℚ, sz ⟨0, 1⟩ u = u 1 - u 0 := fun _ => rfl
  have z4 : ∀ u : Var → ℚ, sz ⟨2 * (m + 1), 2 * (m + 1) + 1⟩ u = u (2 * (m + 1) + 1) - u (2 * (m + 1)) := fun _ => rfl
  have same : ∀ y : Var → ℚ, (∀ k < m, y (2 * (k + 1) + 1) - y (2 * (k + 1)) = x (2 * (k + 1) + 1) - x (2 * (k + 1))) →
      cost (fixedSpacing (spacerElements (m + 1)) (Spacing.value l.spacing)) y
        = cost (fixedSpacing (spacerElements (m + 1)) (Spacing.value l.spacing)) x := by
    intro y h
    rw [fixed_cost, fixed_cost]
    congr 1
    apply sum_congr rfl
    intro k hk
    rw [h k (mem_range.1 hk)]
  refine ⟨fun h => ?_, fun h => ?_, fun h => ?_⟩
  · obtain ⟨y, hy, y0, yi, yn, hr⟩ := rearranged hm hx hbest 0 (x 1 - x 0 + (x (2 * (m + 1) + 1) - x (2 * (m + 1))))
      (fun k => x (2 * (k + 1) + 1) - x (2 * (k + 1))) le_rfl (by linarith) hge (by ring)
    have ay := area_size hy
    rw [h] at hr
    simp only [flexList, cost_append, endsOf_spacers, cost_cons, cost_nil, violation_isEmpty, violation_hasSize,
      eval_size, z3, z4, ax, ay, E2, same y yi, y0, yn, v2, abs_zero, mul_zero] at hr
    rw [abs_of_nonneg hf, abs_of_nonpos (show x (2 * (m + 1) + 1) - x (2 * (m + 1)) - (b - a) ≤ 0 by linarith),
      abs_of_nonpos (show x 1 - x 0 + (x (2 * (m + 1) + 1) - x (2 * (m + 1))) - (b - a) ≤ 0 by linarith)] at hr
    have := mul_nonneg hE.le hf
    linarith
  · obtain ⟨y, hy, y0, yi, yn, hr⟩ := rearranged hm hx hbest (x 1 - x 0 + (x (2 * (m + 1) + 1) - x (2 * (m + 1)))) 0
      (fun k => x (2 * (k + 1) + 1) - x (2 * (k + 1))) (by linarith) le_rfl hge (by ring)
    have ay := area_size hy
    rw [h] at hr
    simp only [flexList, cost_append, endsOf_spacers, cost_cons, cost_nil, violation_isEmpty, violation_hasSize,
      eval_size, z3, z4, ax, ay, E2, same y yi, y0, yn, v2, abs_zero, mul_zero,
      E1 ⟨2 * (m + 1), 2 * (m + 1) + 1⟩] at hr
    rw [abs_of_nonneg hl, abs_of_nonpos (show x 1 - x 0 - (b - a) ≤ 0 by linarith),
      abs_of_nonpos (show x 1 - x 0 + (x (2 * (m + 1) + 1) - x (2 * (m + 1))) - (b - a) ≤ 0 by linarith)] at hr
    have := mul_nonneg hE.le hl
    linarith
  · set h2 := (x 1 - x 0 + (x (2 * (m + 1) + 1) - x (2 * (m + 1)))) / 2 with hh2
    obtain ⟨y, hy, y0, yi, yn, hr⟩ := rearranged hm hx hbest h2 h2
      (fun k => x (2 * (k + 1) + 1) - x (2 * (k + 1))) (by linarith) (by linarith) hge (by linarith)
    have ay := area_size hy
    rw [h] at hr
    simp only [flexList, cost_append, endsOf_spacers, cost_cons, cost_nil, violation_hasSize,
      eval_size, z3, z4, ax, ay, E2, same y yi, y0, yn, v1, v2, abs_zero, mul_zero, sub_self] at hr
    rw [abs_of_nonpos (show x 1 - x 0 - (b - a) ≤ 0 by linarith),
      abs_of_nonpos (show x (2 * (m + 1) + 1) - x (2 * (m + 1)) - (b - a) ≤ 0 by linarith),
      abs_of_nonpos (show h2 - (b - a) ≤ 0 by linarith)] at hr
    have := abs_nonneg (x 1 - x 0 - (x (2 * (m + 1) + 1) - x (2 * (m + 1))))
    have : |x 1 - x 0 - (x (2 * (m + 1) + 1) - x (2 * (m + 1)))| = 0 := by linarith
    have := abs_eq_zero.1 this
    linarith

/-- Where the room goes in the modes with growing spacing. -/
theorem gaps_growing (hm : l.constraints.length = m + 1) (hflex : l.flex = .spaceBetween ∨ l.flex = .spaceAround)
    (hs : 0 ≤ Spacing.value l.spacing) (hx : Placed (m + 1) a b x)
    (hbest : ∀ y, Placed (m + 1) a b y → weightedViolation (softList l) x ≤ weightedViolation (softList l) y)
    (hge : ∀ k < m, (Spacing.value l.spacing : ℚ) * multiplier ≤ x (2 * (k + 1) + 1) - x (2 * (k + 1))) :
    (∀ i < m, ∀ j < m, x (2 * (i + 1) + 1) - x (2 * (i + 1)) = x (2 * (j + 1) + 1) - x (2 * (j + 1))) ∧
    (l.flex = .spaceBetween → 0 < m → x 1 = x 0 ∧ x (2 * (m + 1) + 1) = x (2 * (m + 1))) := by
  generalize hG : (Spacing.value l.spacing : ℚ) * multiplier = G at *
  have hG0 : 0 ≤ G := by
    rw [← hG]
    have : (0 : ℚ) ≤ Spacing.value l.spacing := by exact_mod_cast hs
    unfold multiplier
    linarith
  have hge0 : ∀ k < m, 0 ≤ x (2 * (k + 1) + 1) - x (2 * (k + 1)) := fun k hk => hG0.trans (hge k hk)
  have hf := first_nonneg hx
  have hl := last_nonneg hx
  have hle := ends_le hx hge0
  have hin : 0 ≤ ∑ k ∈ range m, (x (2 * (k + 1) + 1) - x (2 * (k + 1))) :=
    sum_nonneg fun k hk => hge0 k (mem_range.1 hk)
  rcases Nat.eq_zero_or_pos m with hm0 | hm0
  · exact ⟨fun i hi => by omega, fun _ h => by omega⟩
  have hmq : (0 : ℚ) < m := by exact_mod_cast hm0
  have ax := area_size hx
  have E1 : ∀ e : Element, e.isEmpty.strength = (⟨0, 1⟩ : Element).isEmpty.strength := fun _ => rfl
  have hE : 0 < (⟨0, 1⟩ : Element).isEmpty.strength := by
    norm_num [Element.isEmpty, Constr.constantRHS, required]
  have z3 : ∀ u : Var → ℚ, sz ⟨0, 1⟩ u = u 1 - u 0 := fun _ => rfl
  have z4 : ∀ u : Var → ℚ, sz ⟨2 * (m + 1), 2 * (m + 1) + 1⟩ u = u (2 * (m + 1) + 1) - u (2 * (m + 1)) := fun _ => rfl
  have sumG : (m : ℚ) * G ≤ ∑ k ∈ range m, (x (2 * (k + 1) + 1) - x (2 * (k + 1))) := by
    have : (m : ℚ) * G = ∑ _k ∈ range m, G := by simp
    rw [this]
    exact sum_le_sum fun k hk => hge k (mem_range.1 hk)
  have single : ∀ k < m, x (2 * (k + 1) + 1) - x (2 * (k + 1)) ≤ b - a := by
    intro k hk
    have := single_le_sum (f := fun k => x (2 * (k + 1) + 1) - x (2 * (k + 1)))
      (fun i hi => hge0 i (mem_range.1 hi)) (mem_range.2 hk)
    linarith
  have grownx : cost ((interior (spacerElements (m + 1))).flatMap fun s =>
      [s.hasMinSize (Spacing.value l.spacing) spacerSizeEq, s.hasSize (areaElement (m + 1)).size spaceGrow]) x
      = 10 * (m * (b - a) - ∑ k ∈ range m, (x (2 * (k + 1) + 1) - x (2 * (k + 1)))) := by
    rw [growing_cost, hG, ax]
    have : (m : ℚ) * (b - a) = ∑ _k ∈ range m, (b - a) := by rw [sum_const, card_range, nsmul_eq_mul]
    rw [this, ← sum_sub_distrib, mul_sum]
    apply sum_congr rfl
    intro k hk
    have h1 := hge k (mem_range.1 hk)
    have h2 := single k (mem_range.1 hk)
    rw [max_eq_left (by linarith), abs_of_nonpos (by linarith)]
    ring
  have growny : ∀ (y : Var → ℚ) (q : ℚ), sz (areaElement (m + 1)) y = b - a → G ≤ q → q ≤ b - a →
      (∀ k < m, y (2 * (k + 1) + 1) - y (2 * (k + 1)) = q) →
      cost ((interior (spacerElements (m + 1))).flatMap fun s =>
      [s.hasMinSize (Spacing.value l.spacing) spacerSizeEq, s.hasSize (areaElement (m + 1)).size spaceGrow]) y
      = 10 * (m * (b - a) - m * q) := by
    intro y q ay h1 h2 hq
    rw [growing_cost, hG, ay]
    have e1 : (m : ℚ) * (b - a) = ∑ _k ∈ range m, (b - a) := by rw [sum_const, card_range, nsmul_eq_mul]
    have e2 : (m : ℚ) * q = ∑ _k ∈ range m, q := by simp
    rw [e1, e2, ← sum_sub_distrib, mul_sum]
    apply sum_congr rfl
    intro k hk
    rw [hq k (mem_range.1 hk), max_eq_left (by linarith), abs_of_nonpos (by linarith)]
    ring
  have hp0 := pairCost_nonneg m x
  have mean : ∀ T : ℚ, m * G ≤ T → T ≤ b - a → G ≤ T / m ∧ T / m ≤ b - a ∧ (m : ℚ) * (T / m) = T := by
    intro T h1 h2
    have hT : 0 ≤ b - a := by
      have := mul_nonneg hmq.le hG0
      linarith
    refine ⟨by rw [le_div_iff₀ hmq]; linarith, ?_, by field_simp⟩
    rw [div_le_iff₀ hmq]
    have : (1 : ℚ) ≤ m := by exact_mod_cast hm0
    have := mul_le_mul_of_nonneg_left this hT
    linarith
  rcases hflex with h | h
  · obtain ⟨m1, m2, m3⟩ := mean (x 1 - x 0 + ∑ k ∈ range m, (x (2 * (k + 1) + 1) - x (2 * (k + 1)))
      + (x (2 * (m + 1) + 1) - x (2 * (m + 1)))) (by linarith) hle
    obtain ⟨y, hy, y0, yi, yn, hr⟩ := rearranged hm hx hbest 0 0 (fun _ => (x 1 - x 0
      + ∑ k ∈ range m, (x (2 * (k + 1) + 1) - x (2 * (k + 1))) + (x (2 * (m + 1) + 1) - x (2 * (m + 1)))) / m)
      le_rfl le_rfl (fun _ _ => hG0.trans m1) (by
        rw [sum_const, card_range, nsmul_eq_mul, m3]; ring)
    have ay := area_size hy
    have hpy := pairCost_zero_of yi
    rw [h] at hr
    unfold pairCost at hp0 hpy
    simp only [flexList, cost_append, endsOf_spacers, cost_cons, cost_nil, violation_isEmpty,
      z3, z4, grownx, growny y _ ay m1 m2 yi, y0, yn, abs_zero, mul_zero, hpy,
      E1 ⟨2 * (m + 1), 2 * (m + 1) + 1⟩, m3] at hr
    rw [abs_of_nonneg hf, abs_of_nonneg hl] at hr
    have q1 := mul_nonneg hE.le hf
    have q2 := mul_nonneg hE.le hl
    refine ⟨?_, fun _ _ => ⟨by linarith, by linarith⟩⟩
    have hz : pairCost m x = 0 := by unfold pairCost; linarith
    exact fun i hi j hj => equal_of_pairCost hz hi hj
  · obtain ⟨m1, m2, m3⟩ := mean (∑ k ∈ range m, (x (2 * (k + 1) + 1) - x (2 * (k + 1)))) sumG (by linarith)
    obtain ⟨y, hy, y0, yi, yn, hr⟩ := rearranged hm hx hbest (x 1 - x 0) (x (2 * (m + 1) + 1) - x (2 * (m + 1)))
      (fun _ => (∑ k ∈ range m, (x (2 * (k + 1) + 1) - x (2 * (k + 1)))) / m)
      hf hl (fun _ _ => hG0.trans m1) (by
        rw [sum_const, card_range, nsmul_eq_mul, m3])
    have ay := area_size hy
    have hpy := pairCost_zero_of yi
    rw [h] at hr
    unfold pairCost at hp0 hpy
    simp only [flexList, cost_append, grownx, growny y _ ay m1 m2 yi, hpy, m3] at hr
    refine ⟨?_, fun h' => by rw [h] at h'; cases h'⟩
    have hz : pairCost m x = 0 := by unfold pairCost; linarith
    exact fun i hi j hj => equal_of_pairCost hz hi hj
end

end Bento.Layout
