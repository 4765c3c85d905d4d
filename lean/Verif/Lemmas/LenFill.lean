import Verif.Lemmas.Tiling

/-!
# Lengths and fills in a legacy layout
-/

namespace Bento.Layout

open Casso Finset

/-- Sizes can be changed to reach a given total, at the least possible total change. -/
theorem redistribute_on (I : Finset Nat) (s : Nat → ℚ) (hs : ∀ i ∈ I, 0 ≤ s i) {L : ℚ}
    (hL : 0 ≤ L) (hI : I.Nonempty ∨ L = 0) :
    ∃ s' : Nat → ℚ, (∀ i ∈ I, 0 ≤ s' i) ∧ ∑ i ∈ I, s' i = L ∧
      ∑ i ∈ I, |s' i - s i| = |L - ∑ i ∈ I, s i| := by
  rcases I.eq_empty_or_nonempty with rfl | ⟨z, hz⟩
  · rcases hI with h | rfl
    · exact absurd h (by simp)
    · exact ⟨s, by simp, by simp, by simp⟩
  by_cases h : ∑ i ∈ I, s i ≤ L
  · refine ⟨fun i => s i + if i = z then L - ∑ i ∈ I, s i else 0, ?_, ?_, ?_⟩
    · intro i hi
      have := hs i hi
      simp only
      split_ifs <;> linarith
    · rw [sum_add_distrib, sum_ite_eq' I z, if_pos hz]
      ring
    · have : ∀ i, |s i + (if i = z then L - ∑ i ∈ I, s i else 0) - s i|
          = if i = z then L - ∑ i ∈ I, s i else 0 := by
        intro i
        rw [add_sub_cancel_left]
        split_ifs
        · exact abs_of_nonneg (by linarith)
        · simp
      simp only [this]
      rw [sum_ite_eq' I z, if_pos hz, abs_of_nonneg (by linarith)]
  · push Not at h
    have hT : 0 < ∑ i ∈ I, s i := lt_of_le_of_lt hL h
    generalize hTe : ∑ i ∈ I, s i = T at *
    refine ⟨fun i => s i * (L / T), ?_, ?_, ?_⟩
    · intro i hi
      exact mul_nonneg (hs i hi) (div_nonneg hL hT.le)
    · rw [← sum_mul, hTe]; field_simp
    · have : ∀ i ∈ I, |s i * (L / T) - s i| = s i * (1 - L / T) := by
        intro i hi
        have h1 := hs i hi
        have h2 : L / T ≤ 1 := (div_le_one hT).2 h.le
        rw [show s i * (L / T) - s i = -(s i * (1 - L / T)) by ring, abs_neg, abs_of_nonneg]
        exact mul_nonneg h1 (by linarith)
      rw [sum_congr rfl this, ← sum_mul, hTe, abs_of_nonpos (by linarith)]
      field_simp
      ring

/-- Constraint `i`. -/
def con (l : Layout) (i : Nat) : Constraint := l.constraints.getD i (.fill 0)

theorem zip_segments (l : Layout) :
    l.constraints.zip (segmentElements l.constraints.length)
      = (List.range l.constraints.length).map fun i => (con l i, ⟨2 * i + 1, 2 * i + 2⟩) := by
  rw [segmentElements_eq]
  apply List.ext_getElem
  · simp
  · intro i h1 h2
    have : i < l.constraints.length := by simpa using h2
    simp [con, this]

theorem sizes_bound (area : Element) {x y : Var → ℚ} (δ : Constraint × Element → ℚ)
    (P : List (Constraint × Element))
    (h : ∀ p ∈ P, cost (constraintFor area p.2 .legacy p.1) y
      ≤ cost (constraintFor area p.2 .legacy p.1) x + δ p) :
    cost (P.flatMap fun p => constraintFor area p.2 .legacy p.1) y
      ≤ cost (P.flatMap fun p => constraintFor area p.2 .legacy p.1) x + (P.map δ).sum := by
  induction P with
  | nil => simp
  | cons p P ih =>
    simp only [List.flatMap_cons, cost_append, List.map_cons, List.sum_cons]
    have h1 := h p List.mem_cons_self
    have h2 := ih (fun q hq => h q (List.mem_cons_of_mem _ hq))
    linarith

theorem sum_valid (P : List (Constraint × Element)) (g : Element → ℚ) :
    ((P.filterMap fun p => (scalingFactor .legacy p.1).map fun k => (p.2, k)).map
        fun p => g p.1).sum
      = (P.map fun p => if (scalingFactor .legacy p.1).isSome then g p.2 else 0).sum := by
  induction P with
  | nil => simp
  | cons p P ih =>
    cases hs : scalingFactor .legacy p.1 with
    | none =>
      simp only [List.map_cons, List.sum_cons, hs, List.filterMap_cons, Option.map_none,
        Option.isSome_none, Bool.false_eq_true, if_false] at ih ⊢
      linarith
    | some k =>
      simp only [List.map_cons, List.sum_cons, hs, List.filterMap_cons, Option.map_some,
        Option.isSome_some, if_true] at ih ⊢
      linarith

/-- A layout of lengths and fills. -/
def LenOrFill : Constraint → Prop
  | .len t => 0 ≤ t
  | .fill _ => True
  | _ => False

/-- The length a constraint asks for, in solver units. -/
def want : Constraint → ℚ
  | .len t => t * multiplier
  | _ => 0

/-- Whether a constraint fills. -/
def isFill : Constraint → Bool
  | .fill _ => true
  | _ => false

theorem isSome_scaling {c : Constraint} : (scalingFactor .legacy c).isSome = isFill c := by
  cases c <;> simp [scalingFactor, isFill]

variable {l : Layout} {a b : ℚ} {x : Var → ℚ}

theorem seg_nonneg (hx : Placed l.constraints.length a b x) {i : Nat}
    (hi : i < l.constraints.length) : 0 ≤ x (2 * i + 2) - x (2 * i + 1) := by
  have := hx.ordered i hi; linarith

theorem no_gaps_total (hx : Placed l.constraints.length a b x)
    (hg : ∀ i < l.constraints.length + 1, x (2 * i + 1) = x (2 * i)) :
    ∑ i ∈ range l.constraints.length, (x (2 * i + 2) - x (2 * i + 1)) = b - a := by
  have := placed_total hx
  have h0 : ∑ i ∈ range (l.constraints.length + 1), (x (2 * i + 1) - x (2 * i)) = 0 := by
    apply sum_eq_zero
    intro i hi
    rw [hg i (mem_range.1 hi)]; ring
  linarith

/-- Where everything asked for fits, every length is honoured. -/
theorem lengths_honoured (hf : l.flex = .legacy) (h0 : Spacing.value l.spacing = 0)
    (hn : 0 < l.constraints.length) (hn2 : l.constraints.length ≤ 1000000)
    (hw : (l.constraints.map fillWeight).sum ≤ 90000) (hab : a ≤ b)
    (hlf : ∀ i < l.constraints.length, LenOrFill (con l i))
    (hfit : ∑ i ∈ range l.constraints.length, want (con l i) ≤ b - a)
    (hfill : (∃ i < l.constraints.length, isFill (con l i)) ∨
      ∑ i ∈ range l.constraints.length, want (con l i) = b - a)
    (hx : Placed l.constraints.length a b x)
    (hbest : ∀ y, Placed l.constraints.length a b y →
      weightedViolation (softList l) x ≤ weightedViolation (softList l) y)
    {i : Nat} (hi : i < l.constraints.length) (hil : ¬ isFill (con l i)) :
    x (2 * i + 2) - x (2 * i + 1) = want (con l i) := by
  have hg := no_gaps hf h0 hn hn2 (by omega) hab hx hbest
  have htot := no_gaps_total hx hg
  have hwant : ∀ i < l.constraints.length, 0 ≤ want (con l i) := by
    intro i hi
    have := hlf i hi
    cases hc : con l i <;> rw [hc] at this <;> simp only [want, le_refl]
    simp only [LenOrFill] at this
    exact mul_nonneg (by exact_mod_cast this) (by norm_num [multiplier])
  have hwf : ∀ i, isFill (con l i) → want (con l i) = 0 := by
    intro i h
    cases hc : con l i <;> rw [hc] at h <;> simp [isFill] at h <;> rfl
  -- the sizes, split into fills and lengths
  let s : Nat → ℚ := fun i => x (2 * i + 2) - x (2 * i + 1)
  let I := (range l.constraints.length).filter fun i => isFill (con l i)
  let J := (range l.constraints.length).filter fun i => ¬ isFill (con l i)
  have hsplit : ∀ f : Nat → ℚ, ∑ i ∈ range l.constraints.length, f i
      = ∑ i ∈ I, f i + ∑ i ∈ J, f i := by
    intro f
    exact (sum_filter_add_sum_filter_not (range l.constraints.length) _ f).symm
  have hI : ∀ i, i ∈ I ↔ i < l.constraints.length ∧ isFill (con l i) := by
    intro i; simp [I]
  have hJ : ∀ i, i ∈ J ↔ i < l.constraints.length ∧ ¬ isFill (con l i) := by
    intro i; simp [J]
  obtain ⟨u, hu0, hus, hud⟩ := redistribute_on I s
    (fun i hi => seg_nonneg hx ((hI i).1 hi).1)
    (L := b - a - ∑ i ∈ range l.constraints.length, want (con l i)) (by linarith) (by
      rcases hfill with ⟨i, hi, h⟩ | h
      · exact Or.inl ⟨i, (hI i).2 ⟨hi, h⟩⟩
      · right; linarith)
  let t : Nat → ℚ := fun i => if isFill (con l i) then u i else want (con l i)
  have ht0 : ∀ i < l.constraints.length, 0 ≤ t i := by
    intro i hi
    simp only [t]
    split_ifs with h
    · exact hu0 i ((hI i).2 ⟨hi, h⟩)
    · exact hwant i hi
  have htI : ∑ i ∈ I, t i = ∑ i ∈ I, u i :=
    sum_congr rfl fun i hi => if_pos ((hI i).1 hi).2
  have htJ : ∑ i ∈ J, t i = ∑ i ∈ range l.constraints.length, want (con l i) := by
    rw [hsplit (fun i => want (con l i))]
    have h1 : ∑ i ∈ I, want (con l i) = 0 := sum_eq_zero fun i hi => hwf i ((hI i).1 hi).2
    have h2 : ∑ i ∈ J, t i = ∑ i ∈ J, want (con l i) :=
      sum_congr rfl fun i hi => if_neg ((hJ i).1 hi).2
    linarith
  have hts : ∑ i ∈ range l.constraints.length, t i = b - a := by
    rw [hsplit t, htI, htJ, hus]; ring
  have hy := stack_placed ht0 hts
  have hle := hbest _ hy
  rw [legacy_cost hf h0, legacy_cost hf h0] at hle
  have hfy := (legacy_flex_cost hn (stack a t)).2 (by
    apply sum_eq_zero
    intro i _
    rw [stack_spacer]; simp)
  have hfx := (legacy_flex_cost hn x).2 (by
    apply sum_eq_zero
    intro i hi
    rw [hg i (mem_range.1 hi)]; simp)
  have hlen : l.constraints.length = (segmentElements l.constraints.length).length := by
    rw [segmentElements_eq]; simp
  have hK : ((((l.constraints.zip (segmentElements l.constraints.length)).filterMap
      fun p => (scalingFactor .legacy p.1).map fun k => (p.2, k)).map Prod.snd).sum : ℚ)
        ≤ 90001 := by
    refine (weights_le _ _ hlen).trans ?_
    have h1 : (((l.constraints.map fillWeight).sum : Int) : ℚ) ≤ 90000 := by exact_mod_cast hw
    have h2 : ((l.constraints.length : Nat) : ℚ) ≤ 1000000 := by exact_mod_cast hn2
    linarith
  -- the sizes
  have hsz := sizes_bound (areaElement l.constraints.length) (x := x) (y := stack a t)
    (fun p => if isFill p.1 then 1000 * |sz p.2 (stack a t) - sz p.2 x|
      else -(10000000 * |want p.1 - sz p.2 x|))
    (l.constraints.zip (segmentElements l.constraints.length)) (by
      rw [zip_segments]
      intro p hp
      obtain ⟨i, hi, rfl⟩ := List.mem_map.1 hp
      have hi := List.mem_range.1 hi
      have hti : sz ⟨2 * i + 1, 2 * i + 2⟩ (stack a t) = t i := stack_segment a t i
      simp only
      cases hc : con l i with
      | fill k =>
        have := constraintFor_lip (areaElement l.constraints.length) ⟨2 * i + 1, 2 * i + 2⟩ (.fill k)
          (x := x) (y := stack a t) (by rw [area_size hx, area_size hy])
        simp only [isFill, if_true]
        simpa only [lip] using this
      | len k =>
        have ht : t i = want (con l i) := by
          simp only [t]; rw [if_neg]; rw [hc]; simp [isFill]
        rw [hc] at ht
        simp only [isFill, Bool.false_eq_true, if_false, constraintFor, cost_cons, cost_nil,
          violation_hasIntSize, hti, ht]
        simp only [Element.hasIntSize, Constr.constantRHS, lengthSizeEq, want, sub_self, abs_zero]
        have hs : strong = 1000000 := by norm_num [strong]
        rw [hs, abs_sub_comm]
        linarith
      | min k => have := hlf i hi; rw [hc] at this; exact absurd this (by simp [LenOrFill])
      | max k => have := hlf i hi; rw [hc] at this; exact absurd this (by simp [LenOrFill])
      | percentage k => have := hlf i hi; rw [hc] at this; exact absurd this (by simp [LenOrFill])
      | ratio k d => have := hlf i hi; rw [hc] at this; exact absurd this (by simp [LenOrFill]))
  have hpos : ∀ p ∈ (l.constraints.zip (segmentElements l.constraints.length)).filterMap
      fun p => (scalingFactor .legacy p.1).map fun k => (p.2, k), (0 : ℚ) < p.2 := by
    intro p hp
    obtain ⟨q, _, hq⟩ := List.mem_filterMap.1 hp
    obtain ⟨k, hk, rfl⟩ := Option.map_eq_some_iff.1 hq
    exact scalingFactor_pos hk
  have hpr := pairs_lip (x := x) (y := stack a t) _ hpos
  rw [sum_valid _ (fun e => |sz e (stack a t) - sz e x|)] at hpr
  rw [zip_segments, sum_map_range] at hsz hpr
  simp only [isSome_scaling] at hpr
  have hmid : ∑ i ∈ range l.constraints.length,
      (if isFill (con l i) then |sz ⟨2 * i + 1, 2 * i + 2⟩ (stack a t) - sz ⟨2 * i + 1, 2 * i + 2⟩ x|
        else 0) = ∑ i ∈ I, |u i - s i| := by
    rw [hsplit]
    have h1 : ∑ i ∈ J, (if isFill (con l i) then
        |sz ⟨2 * i + 1, 2 * i + 2⟩ (stack a t) - sz ⟨2 * i + 1, 2 * i + 2⟩ x| else 0) = 0 :=
      sum_eq_zero fun i hi => if_neg ((hJ i).1 hi).2
    rw [h1, add_zero]
    apply sum_congr rfl
    intro i hi
    rw [if_pos ((hI i).1 hi).2]
    have hti : sz ⟨2 * i + 1, 2 * i + 2⟩ (stack a t) = t i := stack_segment a t i
    rw [hti]
    have : t i = u i := if_pos ((hI i).1 hi).2
    rw [this]; rfl
  have hmid2 : ∑ i ∈ range l.constraints.length,
      (if isFill (con l i) then
          1000 * |sz ⟨2 * i + 1, 2 * i + 2⟩ (stack a t) - sz ⟨2 * i + 1, 2 * i + 2⟩ x|
        else -(10000000 * |want (con l i) - sz ⟨2 * i + 1, 2 * i + 2⟩ x|))
      = 1000 * ∑ i ∈ I, |u i - s i| - 10000000 * ∑ i ∈ J, |want (con l i) - s i| := by
    rw [hsplit]
    have h1 : ∑ i ∈ J, (if isFill (con l i) then
          1000 * |sz ⟨2 * i + 1, 2 * i + 2⟩ (stack a t) - sz ⟨2 * i + 1, 2 * i + 2⟩ x|
        else -(10000000 * |want (con l i) - sz ⟨2 * i + 1, 2 * i + 2⟩ x|))
        = ∑ i ∈ J, -(10000000 * |want (con l i) - s i|) :=
      sum_congr rfl fun i hi => if_neg ((hJ i).1 hi).2
    have h2 : ∑ i ∈ I, (if isFill (con l i) then
          1000 * |sz ⟨2 * i + 1, 2 * i + 2⟩ (stack a t) - sz ⟨2 * i + 1, 2 * i + 2⟩ x|
        else -(10000000 * |want (con l i) - sz ⟨2 * i + 1, 2 * i + 2⟩ x|))
        = ∑ i ∈ I, 1000 * |u i - s i| := by
      apply sum_congr rfl
      intro i hi
      rw [if_pos ((hI i).1 hi).2]
      have hti : sz ⟨2 * i + 1, 2 * i + 2⟩ (stack a t) = t i := stack_segment a t i
      rw [hti]
      have : t i = u i := if_pos ((hI i).1 hi).2
      rw [this]; rfl
    rw [h1, h2, sum_neg_distrib, ← mul_sum, ← mul_sum]
    ring
  rw [hmid2] at hsz
  rw [hmid] at hpr
  have hE : ∑ i ∈ I, |u i - s i| ≤ ∑ i ∈ J, |want (con l i) - s i| := by
    rw [hud]
    have h1 : ∑ i ∈ range l.constraints.length, s i = b - a := htot
    rw [hsplit s] at h1
    have h2 : ∑ i ∈ range l.constraints.length, want (con l i) = ∑ i ∈ J, want (con l i) := by
      rw [hsplit (fun i => want (con l i))]
      have : ∑ i ∈ I, want (con l i) = 0 := sum_eq_zero fun i hi => hwf i ((hI i).1 hi).2
      linarith
    rw [show b - a - ∑ i ∈ range l.constraints.length, want (con l i) - ∑ i ∈ I, s i
      = -(∑ i ∈ J, (want (con l i) - s i)) by
        rw [sum_sub_distrib (fun i => want (con l i)) s]; linarith, abs_neg]
    exact abs_sum_le_sum_abs _ _
  have hU0 : 0 ≤ ∑ i ∈ I, |u i - s i| := sum_nonneg fun i _ => abs_nonneg _
  have hK' := mul_le_mul_of_nonneg_right (mul_le_mul_of_nonneg_left hK (by norm_num : (0:ℚ) ≤ 100)) hU0
  rw [zip_segments] at hle hK'
  have hz : ∑ i ∈ J, |want (con l i) - s i| = 0 := by
    have : 0 ≤ ∑ i ∈ J, |want (con l i) - s i| := sum_nonneg fun i _ => abs_nonneg _
    linarith
  have := (sum_eq_zero_iff_of_nonneg fun i _ => abs_nonneg _).1 hz i ((hJ i).2 ⟨hi, hil⟩)
  have := abs_eq_zero.1 this
  simp only [s] at this
  linarith

end Bento.Layout
