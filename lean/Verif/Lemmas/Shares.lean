import Verif.Lemmas.LenFill
import Mathlib.Algebra.BigOperators.Field

/-!
# Fills share the free space in proportion to their weights
-/

namespace Bento.Layout

open Casso Finset

variable {l : Layout} {a b : ℚ} {x : Var → ℚ}

theorem sum_con (l : Layout) (f : Constraint → ℚ) :
    (l.constraints.map f).sum = ∑ i ∈ range l.constraints.length, f (con l i) := by
  have : l.constraints = (List.range l.constraints.length).map (con l) := by
    apply List.ext_getElem
    · simp
    · intro i h1 h2
      simp [con, h1]
  conv_lhs => rw [this]
  rw [sum_map_range]

theorem shareOf_pos {c : Constraint} (h : isFill c) : 0 < shareOf c := by
  cases c <;> simp [isFill] at h
  exact lt_of_lt_of_le (by norm_num) (le_max_left _ _)

theorem shareOf_nonneg (c : Constraint) : 0 ≤ shareOf c := by
  cases c <;> simp only [shareOf, le_refl]
  exact le_trans (by norm_num) (le_max_left _ _)

theorem mem_allPairs_iff {α : Type} (xs : List α) {i j : Nat} (h : i < j) {p q : α}
    (hp : xs[i]? = some p) (hq : xs[j]? = some q) : (p, q) ∈ allPairs xs := by
  induction xs generalizing i j with
  | nil => simp at hp
  | cons y ys ih =>
    obtain ⟨j, rfl⟩ : ∃ k, j = k + 1 := ⟨j - 1, by omega⟩
    rw [List.getElem?_cons_succ] at hq
    simp only [allPairs, List.mem_append, List.mem_map]
    cases i with
    | zero =>
      simp only [List.getElem?_cons_zero, Option.some.injEq] at hp
      left
      exact ⟨q, List.mem_of_getElem? hq, by rw [hp]⟩
    | succ i =>
      rw [List.getElem?_cons_succ] at hp
      exact Or.inr (ih (by omega) hp hq)

theorem allPairs_or {α : Type} (xs : List α) {p q : α} (hp : p ∈ xs) (hq : q ∈ xs) :
    p = q ∨ (p, q) ∈ allPairs xs ∨ (q, p) ∈ allPairs xs := by
  obtain ⟨i, hi⟩ := List.getElem?_of_mem hp
  obtain ⟨j, hj⟩ := List.getElem?_of_mem hq
  rcases lt_trichotomy i j with h | h | h
  · exact Or.inr (Or.inl (mem_allPairs_iff xs h hi hj))
  · subst h; rw [hi] at hj; exact Or.inl (Option.some.inj hj)
  · exact Or.inr (Or.inr (mem_allPairs_iff xs h hj hi))

theorem cost_eq_zero {cs : List Constr} {x : Var → ℚ} (hs : ∀ c ∈ cs, 0 < c.strength)
    (h : cost cs x ≤ 0) : ∀ c ∈ cs, c.violation x = 0 := by
  induction cs with
  | nil => simp
  | cons c cs ih =>
    have h1 := mul_nonneg (hs c List.mem_cons_self).le (violation_nonneg c x)
    have h2 : 0 ≤ cost cs x := cost_nonneg fun d hd => (hs d (List.mem_cons_of_mem _ hd)).le
    rw [cost_cons] at h
    intro d hd
    rcases List.mem_cons.1 hd with rfl | hd
    · have := hs d List.mem_cons_self
      have h3 : d.strength * d.violation x = 0 := by linarith
      rcases mul_eq_zero.1 h3 with h | h
      · linarith
      · exact h
    · exact ih (fun e he => hs e (List.mem_cons_of_mem _ he)) (by linarith) d hd

/-- The shares of the fills. -/
theorem fills_share (hf : l.flex = .legacy) (h0 : Spacing.value l.spacing = 0)
    (hn : 0 < l.constraints.length) (hn2 : l.constraints.length ≤ 1000000)
    (hw : (l.constraints.map fillWeight).sum ≤ 90000) (hab : a ≤ b)
    (hlf : ∀ i < l.constraints.length, LenOrFill (con l i))
    (hfit : ∑ i ∈ range l.constraints.length, want (con l i) ≤ b - a)
    (hx : Placed l.constraints.length a b x)
    (hbest : ∀ y, Placed l.constraints.length a b y →
      weightedViolation (softList l) x ≤ weightedViolation (softList l) y)
    {i : Nat} (hi : i < l.constraints.length) (hil : isFill (con l i)) :
    x (2 * i + 2) - x (2 * i + 1) =
      (b - a - ∑ i ∈ range l.constraints.length, want (con l i)) * shareOf (con l i) /
        ∑ i ∈ range l.constraints.length, shareOf (con l i) := by
  have hg := no_gaps hf h0 hn hn2 (by omega) hab hx hbest
  have htot := no_gaps_total hx hg
  have hlens := fun {j : Nat} (hj : j < l.constraints.length) (h : ¬ isFill (con l j)) =>
    lengths_honoured hf h0 hn hn2 hw hab hlf hfit (Or.inl ⟨i, hi, hil⟩) hx hbest hj h
  have hwant : ∀ i < l.constraints.length, 0 ≤ want (con l i) := by
    intro i hi
    have := hlf i hi
    cases hc : con l i <;> rw [hc] at this <;> simp only [want, le_refl]
    simp only [LenOrFill] at this
    exact mul_nonneg (by exact_mod_cast this) (by norm_num [multiplier])
  have hwf : ∀ i, isFill (con l i) → want (con l i) = 0 := by
    intro i h
    cases hc : con l i <;> rw [hc] at h <;> simp [isFill] at h <;> rfl
  have hsf : ∀ i < l.constraints.length, ¬ isFill (con l i) → shareOf (con l i) = 0 := by
    intro i hi h
    cases hc : con l i <;> rw [hc] at h <;> simp [isFill] at h <;> rfl
  let W : ℚ := ∑ i ∈ range l.constraints.length, shareOf (con l i)
  let R : ℚ := b - a - ∑ i ∈ range l.constraints.length, want (con l i)
  have hW : 0 < W := by
    have h1 : shareOf (con l i) ≤ W :=
      single_le_sum (f := fun i => shareOf (con l i)) (fun j _ => shareOf_nonneg _) (mem_range.2 hi)
    exact lt_of_lt_of_le (shareOf_pos hil) h1
  have hR : 0 ≤ R := by simp only [R]; linarith
  let t : Nat → ℚ := fun i => want (con l i) + R * shareOf (con l i) / W
  have ht0 : ∀ i < l.constraints.length, 0 ≤ t i := by
    intro i hi
    exact add_nonneg (hwant i hi) (div_nonneg (mul_nonneg hR (shareOf_nonneg _)) hW.le)
  have hts : ∑ i ∈ range l.constraints.length, t i = b - a := by
    have h1 : ∑ i ∈ range l.constraints.length, t i
        = ∑ i ∈ range l.constraints.length, want (con l i)
          + ∑ i ∈ range l.constraints.length, R * shareOf (con l i) / W :=
      sum_add_distrib
    have h2 : ∑ i ∈ range l.constraints.length, R * shareOf (con l i) / W = R := by
      rw [← sum_div, ← mul_sum]
      exact mul_div_cancel_right₀ R hW.ne'
    rw [h1, h2]; simp only [R]; ring
  have hy := stack_placed ht0 hts
  have hle := hbest _ hy
  rw [legacy_cost hf h0, legacy_cost hf h0] at hle
  have hfy := (legacy_flex_cost hn (stack a t)).2 (by
    apply sum_eq_zero
    intro i _
    rw [stack_spacer]; simp)
  have hfx := (legacy_flex_cost hn x).2 (by
    apply sum_eq_zero
    intro i hi
    rw [hg i (mem_range.1 hi)]; simp)
  -- each segment is at most the area
  have hsle : ∀ j < l.constraints.length, x (2 * j + 2) - x (2 * j + 1) ≤ b - a := by
    intro j hj
    have h1 := hx.high (2 * j + 2) (show (2 * j + 2 : Nat) < 2 * l.constraints.length + 2 by omega)
    have h2 := hx.low (2 * j + 1) (show (2 * j + 1 : Nat) < 2 * l.constraints.length + 2 by omega)
    linarith
  have htle : ∀ j < l.constraints.length, t j ≤ b - a := by
    intro j hj
    rw [← hts]
    exact single_le_sum (f := t) (fun j hj => ht0 j (mem_range.1 hj)) (mem_range.2 hj)
  have hsz := sizes_bound (areaElement l.constraints.length) (x := x) (y := stack a t)
    (fun p => if isFill p.1 then 1000 * (sz p.2 x - sz p.2 (stack a t)) else 0)
    (l.constraints.zip (segmentElements l.constraints.length)) (by
      rw [zip_segments]
      intro p hp
      obtain ⟨i, hi, rfl⟩ := List.mem_map.1 hp
      have hi := List.mem_range.1 hi
      have hti : sz ⟨2 * i + 1, 2 * i + 2⟩ (stack a t) = t i := stack_segment a t i
      have hxi : sz ⟨2 * i + 1, 2 * i + 2⟩ x = x (2 * i + 2) - x (2 * i + 1) := rfl
      simp only
      cases hc : con l i with
      | fill k =>
        simp only [isFill, if_true, constraintFor, cost_cons, cost_nil, violation_hasSize, eval_size,
          area_size hx, area_size hy, hti, hxi]
        simp only [Element.hasSize, Constr.expressionRHS, fillGrow]
        have hm : medium = 1000 := by norm_num [medium]
        have h1 := htle i hi
        have h2 := hsle i hi
        rw [hm, abs_of_nonpos (by linarith), abs_of_nonpos (by linarith)]
        linarith
      | len k =>
        have hnf : ¬ isFill (con l i) := by rw [hc]; simp [isFill]
        have ht : t i = want (con l i) := by
          simp only [t]; rw [hsf i hi hnf]; simp
        have hl := hlens hi hnf
        simp only [isFill, Bool.false_eq_true, if_false, constraintFor, cost_cons, cost_nil,
          violation_hasIntSize, hti, hxi, ht, hl]
        linarith
      | min k => have := hlf i hi; rw [hc] at this; exact absurd this (by simp [LenOrFill])
      | max k => have := hlf i hi; rw [hc] at this; exact absurd this (by simp [LenOrFill])
      | percentage k => have := hlf i hi; rw [hc] at this; exact absurd this (by simp [LenOrFill])
      | ratio k d => have := hlf i hi; rw [hc] at this; exact absurd this (by simp [LenOrFill]))
  have hδ : ∑ i ∈ range l.constraints.length,
      (if isFill (con l i) then
        1000 * (sz ⟨2 * i + 1, 2 * i + 2⟩ x - sz ⟨2 * i + 1, 2 * i + 2⟩ (stack a t)) else 0) = 0 := by
    have : ∀ i ∈ range l.constraints.length, (if isFill (con l i) then
        1000 * (sz ⟨2 * i + 1, 2 * i + 2⟩ x - sz ⟨2 * i + 1, 2 * i + 2⟩ (stack a t)) else 0)
        = 1000 * ((x (2 * i + 2) - x (2 * i + 1)) - t i) := by
      intro i hi
      have hti : sz ⟨2 * i + 1, 2 * i + 2⟩ (stack a t) = t i := stack_segment a t i
      have hxi : sz ⟨2 * i + 1, 2 * i + 2⟩ x = x (2 * i + 2) - x (2 * i + 1) := rfl
      split_ifs with h
      · rw [hti, hxi]
      · have ht : t i = want (con l i) := by
          simp only [t]; rw [hsf i (mem_range.1 hi) h]; simp
        rw [hlens (mem_range.1 hi) h, ht]; ring
    rw [sum_congr rfl this, ← mul_sum,
      sum_sub_distrib (fun i => x (2 * i + 2) - x (2 * i + 1)) t, htot, hts]
    ring
  rw [zip_segments, sum_map_range] at hsz
  simp only at hsz
  rw [hδ] at hsz
  have hmem : ∀ j < l.constraints.length, isFill (con l j) →
      ((⟨2 * j + 1, 2 * j + 2⟩ : Element), shareOf (con l j)) ∈
      (l.constraints.zip (segmentElements l.constraints.length)).filterMap
        fun p => (scalingFactor .legacy p.1).map fun k => (p.2, k) := by
    intro j hj h
    rw [zip_segments]
    refine List.mem_filterMap.2 ⟨(con l j, ⟨2 * j + 1, 2 * j + 2⟩),
      List.mem_map.2 ⟨j, List.mem_range.2 hj, rfl⟩, ?_⟩
    simp only
    cases hc : con l j <;> rw [hc] at h <;> simp [isFill] at h <;> rfl
  have hmem' : ∀ p ∈ (l.constraints.zip (segmentElements l.constraints.length)).filterMap
      fun p => (scalingFactor .legacy p.1).map fun k => (p.2, k),
      ∃ j < l.constraints.length, isFill (con l j) ∧
        p = ((⟨2 * j + 1, 2 * j + 2⟩ : Element), shareOf (con l j)) := by
    intro p hp
    obtain ⟨q, hq, hk0⟩ := List.mem_filterMap.1 hp
    rw [zip_segments] at hq
    obtain ⟨j, hj, rfl⟩ := List.mem_map.1 hq
    obtain ⟨k, hk, rfl⟩ := Option.map_eq_some_iff.1 hk0
    clear hk0
    refine ⟨j, List.mem_range.1 hj, ?_⟩
    simp only at hk ⊢
    cases hc : con l j <;> rw [hc] at hk <;>
      simp only [scalingFactor, reduceCtorEq, if_true, Option.some.injEq] at hk
    exact ⟨rfl, by rw [← hk]; rfl⟩
  have hpy : cost ((allPairs ((l.constraints.zip (segmentElements l.constraints.length)).filterMap
        fun p => (scalingFactor .legacy p.1).map fun k => (p.2, k))).map
          fun p => fillPair p.1 p.2) (stack a t) = 0 := by
    unfold cost
    apply List.sum_eq_zero
    intro q hq
    obtain ⟨c, hc, rfl⟩ := List.mem_map.1 hq
    obtain ⟨p, hp, rfl⟩ := List.mem_map.1 hc
    obtain ⟨h1, h2⟩ := mem_allPairs hp
    obtain ⟨i, hi, hif, e1⟩ := hmem' _ h1
    obtain ⟨j, hj, hjf, e2⟩ := hmem' _ h2
    have hti : sz ⟨2 * i + 1, 2 * i + 2⟩ (stack a t) = t i := stack_segment a t i
    have htj : sz ⟨2 * j + 1, 2 * j + 2⟩ (stack a t) = t j := stack_segment a t j
    rw [violation_fillPair, e1, e2]
    simp only [hti, htj, t, hwf i hif, hwf j hjf]
    rw [show (0 + R * shareOf (con l i) / W) * shareOf (con l j)
      - (0 + R * shareOf (con l j) / W) * shareOf (con l i) = 0 by ring]
    simp
  rw [← zip_segments] at hsz
  have hpx := cost_eq_zero (x := x) (cs := (allPairs ((l.constraints.zip
      (segmentElements l.constraints.length)).filterMap
        fun p => (scalingFactor .legacy p.1).map fun k => (p.2, k))).map
          fun p => fillPair p.1 p.2) (by
      intro c hc
      obtain ⟨p, _, rfl⟩ := List.mem_map.1 hc
      norm_num [fillPair, Constr.expressionRHS, grow]) (by linarith)
  -- any two fills are in proportion
  have hprop : ∀ j < l.constraints.length, isFill (con l j) →
      (x (2 * i + 2) - x (2 * i + 1)) * shareOf (con l j)
        = (x (2 * j + 2) - x (2 * j + 1)) * shareOf (con l i) := by
    intro j hj hjf
    rcases allPairs_or _ (hmem i hi hil) (hmem j hj hjf) with h | h | h
    · simp only [Prod.mk.injEq, Element.mk.injEq] at h
      have : i = j := by
        have := h.1.1
        have h' : (2 * i + 1 : Nat) = 2 * j + 1 := this
        omega
      subst this; rfl
    · have := hpx _ (List.mem_map.2 ⟨_, h, rfl⟩)
      rw [violation_fillPair] at this
      have := abs_eq_zero.1 this
      simp only [sz] at this
      linarith
    · have := hpx _ (List.mem_map.2 ⟨_, h, rfl⟩)
      rw [violation_fillPair] at this
      have := abs_eq_zero.1 this
      simp only [sz] at this
      linarith
  have hfin : (x (2 * i + 2) - x (2 * i + 1)) * W = R * shareOf (con l i) := by
    have e1 : (x (2 * i + 2) - x (2 * i + 1)) * W
        = ∑ j ∈ range l.constraints.length,
            (x (2 * i + 2) - x (2 * i + 1)) * shareOf (con l j) := by
      rw [mul_sum]
    have e2 : R = ∑ j ∈ range l.constraints.length,
        ((x (2 * j + 2) - x (2 * j + 1)) - want (con l j)) := by
      rw [sum_sub_distrib (fun j => x (2 * j + 2) - x (2 * j + 1)) (fun j => want (con l j)), htot]
    rw [e1, e2, sum_mul]
    apply sum_congr rfl
    intro j hj
    by_cases h : isFill (con l j)
    · rw [hwf j h, sub_zero]
      exact hprop j (mem_range.1 hj) h
    · rw [hsf j (mem_range.1 hj) h, hlens (mem_range.1 hj) h]; ring
  exact (eq_div_iff hW.ne').2 hfin

/-- Translation by whole cells at non-negative coordinates. -/
theorem toCell_add {q : ℚ} (hq : 0 ≤ q) {k : Int} (hk : 0 ≤ k) :
    toCell (q + k * multiplier) = toCell q + k := by
  have rh : ∀ {q : ℚ} (_ : 0 ≤ q) {k : Int} (_ : 0 ≤ k), roundHalfAway (q + k) = roundHalfAway q + k := by
    intro q hq k hk
    have : 0 ≤ q + (k : ℚ) := add_nonneg hq (by exact_mod_cast hk)
    unfold roundHalfAway
    rw [if_pos hq, if_pos this, show q + (k : ℚ) + 1 / 2 = q + 1 / 2 + (k : ℚ) by ring,
      Int.floor_add_intCast]
  have hr : 0 ≤ roundHalfAway q := by
    have := roundHalfAway_mono hq
    rwa [show (0 : ℚ) = ((0 : Int) : ℚ) by simp, roundHalfAway_int] at this
  unfold toCell
  have e : q + (k : ℚ) * multiplier = q + ((k * 100 : Int) : ℚ) := by
    simp [multiplier]
  rw [e, rh hq (by omega)]
  have e2 : ((roundHalfAway q + k * 100 : Int) : ℚ) / multiplier
      = (roundHalfAway q : ℚ) / multiplier + (k : ℚ) := by
    simp only [multiplier]; push_cast; ring
  rw [e2, rh (div_nonneg (by exact_mod_cast hr) (by norm_num [multiplier])) hk]

end Bento.Layout

namespace Bento.Layout

open Casso Finset

theorem areaBounds_eq (l : Layout) (inner : Rect) :
    l.areaBounds inner = (lo l.direction inner, lo l.direction inner + extent l.direction inner) := by
  unfold areaBounds Rect.right Rect.bottom
  cases l.direction <;> rfl

theorem want_eq (c : Constraint) : want c = (lenOf c : ℚ) * multiplier := by
  cases c <;> simp [want, lenOf]

theorem sum_want (l : Layout) : ∑ i ∈ range l.constraints.length, want (con l i)
    = (((l.constraints.map lenOf).sum : Int) : ℚ) * multiplier := by
  rw [← sum_con l want]
  generalize l.constraints = cs
  induction cs with
  | nil => simp
  | cons c cs ih =>
    simp only [List.map_cons, List.sum_cons, ih, want_eq, Int.cast_add]; ring

theorem con_eq {l : Layout} {i : Nat} (h : i < l.constraints.length) :
    con l i = l.constraints[i] := by simp [con, h]

theorem con_mem {l : Layout} {i : Nat} (h : i < l.constraints.length) : con l i ∈ l.constraints := by
  rw [con_eq h]; exact List.getElem_mem h

theorem take_ideal (l : Layout) (total : Int) {i : Nat} (h : i < l.constraints.length) :
    idealStart l.constraints total (i + 1)
      = idealStart l.constraints total i + idealSize l.constraints total (con l i) := by
  rw [con_eq h]
  unfold idealStart
  rw [List.take_add_one, List.getElem?_eq_getElem h, List.map_append, List.sum_append]
  simp

/-- In a layout of lengths and fills, the variables are at the exact positions. -/
theorem exact_positions {l : Layout} {inner : Rect} (hf : l.flex = .legacy)
    (h0 : Spacing.value l.spacing = 0) (hn : 0 < l.constraints.length)
    (hn2 : l.constraints.length ≤ 1000000)
    (hw : (l.constraints.map fillWeight).sum ≤ 90000)
    (hlf : ∀ c ∈ l.constraints, LenOrFill c) (he : 0 ≤ extent l.direction inner)
    (hfit : (l.constraints.map lenOf).sum ≤ extent l.direction inner)
    (hfill : (∃ c ∈ l.constraints, isFill c) ∨
      (l.constraints.map lenOf).sum = extent l.direction inner)
    {x : Var → ℚ}
    (hx : Placed l.constraints.length (((l.areaBounds inner).1 : ℚ) * multiplier)
        (((l.areaBounds inner).2 : ℚ) * multiplier) x)
    (hbest : ∀ y, Placed l.constraints.length (((l.areaBounds inner).1 : ℚ) * multiplier)
          (((l.areaBounds inner).2 : ℚ) * multiplier) y →
        weightedViolation (softList l) x ≤ weightedViolation (softList l) y) :
    (∀ i < l.constraints.length, x (2 * i + 2) = x (2 * i + 1)
      + idealSize l.constraints (extent l.direction inner) (con l i) * multiplier) ∧
    (∀ i < l.constraints.length + 1, x (2 * i + 1) = ((lo l.direction inner : ℚ)
      + idealStart l.constraints (extent l.direction inner) i) * multiplier) := by
  rw [areaBounds_eq] at hx hbest
  simp only [Int.cast_add] at hx hbest
  have hm : (0 : ℚ) < multiplier := by norm_num [multiplier]
  have hab : (lo l.direction inner : ℚ) * multiplier
      ≤ ((lo l.direction inner : ℚ) + extent l.direction inner) * multiplier := by
    have : (0 : ℚ) ≤ extent l.direction inner := by exact_mod_cast he
    exact mul_le_mul_of_nonneg_right (by linarith) hm.le
  have hlf' : ∀ i < l.constraints.length, LenOrFill (con l i) := fun i hi => hlf _ (con_mem hi)
  have hR : ((lo l.direction inner : ℚ) + extent l.direction inner) * multiplier
      - (lo l.direction inner : ℚ) * multiplier
      - ∑ i ∈ range l.constraints.length, want (con l i)
      = ((extent l.direction inner - (l.constraints.map lenOf).sum : Int) : ℚ) * multiplier := by
    rw [sum_want, Int.cast_sub]; ring
  have hfitq : ∑ i ∈ range l.constraints.length, want (con l i)
      ≤ ((lo l.direction inner : ℚ) + extent l.direction inner) * multiplier
      - (lo l.direction inner : ℚ) * multiplier := by
    have : (0 : ℚ) ≤ ((extent l.direction inner - (l.constraints.map lenOf).sum : Int) : ℚ) := by
      exact_mod_cast (by omega : 0 ≤ extent l.direction inner - (l.constraints.map lenOf).sum)
    have := mul_nonneg this hm.le
    linarith
  have hfillq : (∃ i < l.constraints.length, isFill (con l i)) ∨
      ∑ i ∈ range l.constraints.length, want (con l i)
        = ((lo l.direction inner : ℚ) + extent l.direction inner) * multiplier
          - (lo l.direction inner : ℚ) * multiplier := by
    rcases hfill with ⟨c, hc, h⟩ | h
    · obtain ⟨i, hi, rfl⟩ := List.getElem_of_mem hc
      exact Or.inl ⟨i, hi, by rwa [con_eq hi]⟩
    · right
      rw [h] at hR
      simp only [sub_self, Int.cast_zero, zero_mul] at hR
      linarith
  have hsize : ∀ i < l.constraints.length, x (2 * i + 2) = x (2 * i + 1)
      + idealSize l.constraints (extent l.direction inner) (con l i) * multiplier := by
    intro i hi
    by_cases h : isFill (con l i)
    · have := fills_share hf h0 hn hn2 hw hab hlf' hfitq hx hbest hi h
      rw [hR, ← sum_con] at this
      have e : idealSize l.constraints (extent l.direction inner) (con l i)
          = ((extent l.direction inner - (l.constraints.map lenOf).sum : Int) : ℚ)
            * shareOf (con l i) / (l.constraints.map shareOf).sum := by
        cases hc : con l i <;> rw [hc] at h <;> simp [isFill] at h <;> rfl
      rw [e]
      have : x (2 * i + 2) = x (2 * i + 1) + (x (2 * i + 2) - x (2 * i + 1)) := by ring
      rw [this, ‹x (2 * i + 2) - x (2 * i + 1) = _›]
      ring
    · have := lengths_honoured hf h0 hn hn2 hw hab hlf' hfitq hfillq hx hbest hi h
      rw [want_eq] at this
      have e : idealSize l.constraints (extent l.direction inner) (con l i) = lenOf (con l i) := by
        cases hc : con l i <;> rw [hc] at h <;> simp [isFill] at h <;> rfl
      rw [e]; linarith
  refine ⟨hsize, ?_⟩
  have hg := no_gaps hf h0 hn hn2 (by omega) hab hx hbest
  intro i
  induction i with
  | zero =>
    intro _
    have := hg 0 (by omega)
    rw [show 2 * 0 = 0 by rfl] at this
    rw [show 2 * 0 + 1 = 0 + 1 by rfl, this, hx.first]
    simp [idealStart]
  | succ i ih =>
    intro hi
    have h1 := ih (by omega)
    have h2 := hsize i (by omega)
    have h3 := hg (i + 1) hi
    rw [show 2 * (i + 1) = 2 * i + 2 by ring] at h3 ⊢
    rw [h3, h2, h1, take_ideal l _ (by omega)]
    ring

end Bento.Layout
