import Verif.Lemmas.Vertex
import Mathlib.Order.Interval.Finset.Defs
import Mathlib.Data.Int.Interval
import Mathlib.Data.Rat.Floor
import Mathlib.Tactic.Linarith
import Mathlib.Algebra.Order.BigOperators.Group.Finset
import Mathlib.Algebra.BigOperators.Ring.Finset

/-!
# Tableaus of difference constraints hold integers

If every constraint bounds the difference of two variables, and each of the solver's own symbols
belongs to one constraint, the tableau holds integers whose size does not grow with the number of
pivots.  Both facts follow from the uniqueness of the basic solution: a function `f` of the values
that keeps `0` and the differences of the tight constraints gives another solution, so `f` is the
identity on the values.
-/

namespace Bento.Casso
open Solver

/-- An equation between two variables (or none), a constant, and symbols of the solver. -/
structure IEqn where
  pos : Option Sym
  neg : Option Sym
  const : ℤ
  coef : Sym → ℤ

/-- The value of an optional symbol. -/
def at0 (σ : Sym → ℚ) : Option Sym → ℚ
  | none => 0
  | some s => σ s

namespace IEqn

/-- The linear part. -/
def lin (e : IEqn) (σ : Sym → ℚ) : ℚ := at0 σ e.pos - at0 σ e.neg + ∑ s, (e.coef s : ℚ) * σ s

/-- The left-hand side. -/
def eval (e : IEqn) (σ : Sym → ℚ) : ℚ := e.lin σ + e.const

theorem lin_add (e : IEqn) (σ τ : Sym → ℚ) : e.lin (fun s => σ s + τ s) = e.lin σ + e.lin τ := by
  have : ∀ o, at0 (fun s => σ s + τ s) o = at0 σ o + at0 τ o := by
    intro o; cases o <;> simp [at0]
  simp only [lin, this, mul_add, Finset.sum_add_distrib]
  ring

theorem lin_sub (e : IEqn) (σ τ : Sym → ℚ) : e.lin (fun s => σ s - τ s) = e.lin σ - e.lin τ := by
  have : ∀ o, at0 (fun s => σ s - τ s) o = at0 σ o - at0 τ o := by
    intro o; cases o <;> simp [at0]
  simp only [lin, this, mul_sub, Finset.sum_sub_distrib]
  ring

end IEqn

/-- The shape of a system of difference constraints. -/
structure Shape (E : List IEqn) : Prop where
  posExt : ∀ e ∈ E, ∀ s, e.pos = some s → s.type = .external
  negExt : ∀ e ∈ E, ∀ s, e.neg = some s → s.type = .external
  coefExt : ∀ e ∈ E, ∀ s : Sym, s.type = .external → e.coef s = 0
  unit : ∀ e ∈ E, ∀ s : Sym, s.type ≠ .dummy → e.coef s = 0 ∨ e.coef s = 1 ∨ e.coef s = -1
  once : ∀ e ∈ E, ∀ e' ∈ E, ∀ s : Sym, s.type ≠ .dummy → e.coef s ≠ 0 → e'.coef s ≠ 0 → e = e'

/-- The basic symbols determine the solution. -/
structure Basis (E : List IEqn) (basic : Sym → Prop) : Prop where
  noDum : ∀ s : Sym, basic s → s.type ≠ .dummy
  uniq : ∀ τ : Sym → ℚ, (∀ e ∈ E, e.lin τ = 0) → (∀ s, ¬ basic s → τ s = 0) → ∀ s, τ s = 0

/-- An equation none of whose own symbols is basic. -/
def Tight (basic : Sym → Prop) (e : IEqn) : Prop :=
  ∀ s : Sym, basic s → e.coef s = 0

theorem unit_sq {k : ℤ} (h : k = 0 ∨ k = 1 ∨ k = -1) (h0 : k ≠ 0) : (k : ℚ) * k = 1 := by
  rcases h with h | h | h
  · exact absurd h h0
  · rw [h]; norm_num
  · rw [h]; norm_num

section
variable {E : List IEqn} {basic : Sym → Prop}

/-- An equation has at most one basic symbol of its own. -/
theorem one_basic (hS : Shape E) (hB : Basis E basic) {e : IEqn} (he : e ∈ E) {s s' : Sym}
    (hs : basic s) (hs' : basic s') (hc : e.coef s ≠ 0) (hc' : e.coef s' ≠ 0) : s = s' := by
  classical
  by_contra hne
  have hds := hB.noDum s hs
  have hds' := hB.noDum s' hs'
  have hxs : s.type ≠ .external := fun h => hc (hS.coefExt e he s h)
  have hxs' : s'.type ≠ .external := fun h => hc' (hS.coefExt e he s' h)
  have key := hB.uniq (fun t => if t = s then (e.coef s : ℚ) else if t = s' then -(e.coef s' : ℚ) else 0)
    ?_ ?_ s
  · simp only [if_true] at key
    exact hc (by exact_mod_cast key)
  · intro e' he'
    have hz : ∀ o : Option Sym, (∀ u, o = some u → u.type = .external) →
        at0 (fun t => if t = s then (e.coef s : ℚ) else if t = s' then -(e.coef s' : ℚ) else 0) o = 0 := by
      intro o ho
      cases o with
      | none => rfl
      | some u =>
        have hu := ho u rfl
        have h1 : u ≠ s := by rintro rfl; exact hxs hu
        have h2 : u ≠ s' := by rintro rfl; exact hxs' hu
        simp [at0, h1, h2]
    unfold IEqn.lin
    rw [hz _ (hS.posExt e' he'), hz _ (hS.negExt e' he')]
    have hsum : ∑ t, (e'.coef t : ℚ) *
        (if t = s then (e.coef s : ℚ) else if t = s' then -(e.coef s' : ℚ) else 0)
        = (e'.coef s : ℚ) * e.coef s - (e'.coef s' : ℚ) * e.coef s' := by
      have : ∀ t, (e'.coef t : ℚ) *
          (if t = s then (e.coef s : ℚ) else if t = s' then -(e.coef s' : ℚ) else 0)
          = (if t = s then (e'.coef s : ℚ) * e.coef s else 0)
            - (if t = s' then (e'.coef s' : ℚ) * e.coef s' else 0) := by
        intro t
        by_cases h1 : t = s
        · have h2 : t ≠ s' := by rw [h1]; exact hne
          simp [h1, hne]
        · by_cases h2 : t = s'
          · simp [h2, Ne.symm hne]
          · simp [h1, h2]
      rw [Finset.sum_congr rfl (fun t _ => this t), Finset.sum_sub_distrib]
      simp
    rw [hsum]
    by_cases hee : e' = e
    · subst hee
      rw [unit_sq (hS.unit e' he s hds) hc, unit_sq (hS.unit e' he s' hds') hc']
      ring
    · have h1 : e'.coef s = 0 := by
        by_contra h
        exact hee (hS.once e' he' e he s hds h hc)
      have h2 : e'.coef s' = 0 := by
        by_contra h
        exact hee (hS.once e' he' e he s' hds' h hc')
      rw [h1, h2]; ring
  · intro t ht
    have h1 : t ≠ s := by rintro rfl; exact ht hs
    have h2 : t ≠ s' := by rintro rfl; exact ht hs'
    simp [h1, h2]

/-- A basic symbol of the solver belongs to an equation. -/
theorem basic_in (hS : Shape E) (hB : Basis E basic) {s : Sym} (hs : basic s)
    (hx : s.type ≠ .external) : ∃ e ∈ E, e.coef s ≠ 0 := by
  classical
  by_contra hno
  push Not at hno
  have key := hB.uniq (fun t => if t = s then 1 else 0) ?_ ?_ s
  · simp at key
  · intro e he
    have hz : ∀ o : Option Sym, (∀ u, o = some u → u.type = .external) →
        at0 (fun t => if t = s then (1 : ℚ) else 0) o = 0 := by
      intro o ho
      cases o with
      | none => rfl
      | some u =>
        have h1 : u ≠ s := by rintro rfl; exact hx (ho u rfl)
        simp [at0, h1]
    unfold IEqn.lin
    rw [hz _ (hS.posExt e he), hz _ (hS.negExt e he)]
    simp [hno e he]
  · intro t ht
    have h1 : t ≠ s := by rintro rfl; exact ht hs
    simp [h1]

/-- A function that keeps `0`, the values that are fixed and the differences of the tight equations
is the identity on the values. -/
theorem values_fixed (hS : Shape E) (hB : Basis E basic) (z : Sym → ℚ) (f : ℚ → ℚ) (h0 : f 0 = 0)
    (hnb : ∀ s : Sym, s.type = .external → ¬ basic s → f (z s) = z s)
    (ht : ∀ e ∈ E, Tight basic e →
      f (at0 z e.pos) - f (at0 z e.neg) = at0 z e.pos - at0 z e.neg) :
    ∀ s : Sym, s.type = .external → f (z s) = z s := by
  classical
  let δ : Option Sym → ℚ := fun o => f (at0 z o) - at0 z o
  let τ : Sym → ℚ := fun s =>
    if s.type = .external then f (z s) - z s
    else if h : basic s ∧ ∃ e ∈ E, e.coef s ≠ 0 then
      -(h.2.choose.coef s : ℚ) * (δ h.2.choose.pos - δ h.2.choose.neg)
    else 0
  have hδ : ∀ o : Option Sym, (∀ u, o = some u → u.type = .external) → at0 τ o = δ o := by
    intro o ho
    cases o with
    | none => simp [at0, δ, h0]
    | some u => simp [at0, δ, τ, ho u rfl]
  have hown : ∀ s : Sym, basic s → ∀ e ∈ E, e.coef s ≠ 0 →
      τ s = -(e.coef s : ℚ) * (δ e.pos - δ e.neg) := by
    intro s hs e he hc
    have hx : s.type ≠ .external := fun h => hc (hS.coefExt e he s h)
    have hex : basic s ∧ ∃ e ∈ E, e.coef s ≠ 0 := ⟨hs, e, he, hc⟩
    have hch := hex.2.choose_spec
    have : hex.2.choose = e := hS.once _ hch.1 e he s (hB.noDum s hs) hch.2 hc
    simp only [τ, if_neg hx, dif_pos hex, this]
  have key := hB.uniq τ ?_ ?_
  · intro s hs
    have := key s
    simp only [τ, hs, if_true] at this
    linarith
  · intro e he
    unfold IEqn.lin
    rw [hδ _ (hS.posExt e he), hδ _ (hS.negExt e he)]
    by_cases htight : Tight basic e
    · have hz : ∀ s, (e.coef s : ℚ) * τ s = 0 := by
        intro s
        by_cases hx : s.type = .external
        · rw [hS.coefExt e he s hx]; simp
        · by_cases hb : basic s
          · rw [htight s hb]; simp
          · have : ¬ (basic s ∧ ∃ e ∈ E, e.coef s ≠ 0) := fun h => hb h.1
            simp only [τ, if_neg hx, dif_neg this, mul_zero]
      rw [Finset.sum_congr rfl (fun s _ => hz s)]
      have := ht e he htight
      simp only [δ, Finset.sum_const_zero]
      linarith
    · unfold Tight at htight
      push Not at htight
      obtain ⟨s, hs, hc⟩ := htight
      rw [Finset.sum_eq_single s]
      · rw [hown s hs e he hc]
        have := unit_sq (hS.unit e he s (hB.noDum s hs)) hc
        have h2 : (e.coef s : ℚ) * (-(e.coef s : ℚ) * (δ e.pos - δ e.neg))
            = -((e.coef s : ℚ) * e.coef s) * (δ e.pos - δ e.neg) := by ring
        rw [h2, this]; ring
      · intro t _ hts
        by_cases hx : t.type = .external
        · rw [hS.coefExt e he t hx]; simp
        · by_cases hb : basic t
          · have : e.coef t = 0 := by
              by_contra h
              exact hts (one_basic hS hB he hb hs h hc)
            rw [this]; simp
          · have : ¬ (basic t ∧ ∃ e ∈ E, e.coef t ≠ 0) := fun h => hb h.1
            simp only [τ, if_neg hx, dif_neg this, mul_zero]
      · intro h; exact absurd (Finset.mem_univ s) h
  · intro s hs
    by_cases hx : s.type = .external
    · simp only [τ, hx, if_true, hnb s hx hs, sub_self]
    · have : ¬ (basic s ∧ ∃ e ∈ E, e.coef s ≠ 0) := fun h => hs h.1
      simp only [τ, if_neg hx, dif_neg this]

/-- The part of an equation that does not depend on basic symbols. -/
def fixedPart (k : IEqn → ℤ) (ν : Sym → ℤ) (e : IEqn) : ℤ := k e + ∑ s, e.coef s * ν s

/-- A solution with integers outside of the basis. -/
structure IntSol (E : List IEqn) (basic : Sym → Prop) (k : IEqn → ℤ) (ν : Sym → ℤ) (z : Sym → ℚ) :
    Prop where
  eqn : ∀ e ∈ E, e.lin z + k e = 0
  nonbasic : ∀ s, ¬ basic s → z s = ν s
  basic : ∀ s, basic s → ν s = 0

theorem IntSol.tight {k ν z} (hZ : IntSol E basic k ν z) {e} (he : e ∈ E) (ht : Tight basic e) :
    at0 z e.pos - at0 z e.neg = -(fixedPart k ν e : ℤ) := by
  have h := hZ.eqn e he
  have hsum : ∑ s, (e.coef s : ℚ) * z s = ((∑ s, e.coef s * ν s : ℤ) : ℚ) := by
    push_cast
    apply Finset.sum_congr rfl
    intro s _
    by_cases hb : basic s
    · rw [ht s hb]; simp
    · rw [hZ.nonbasic s hb]
  unfold IEqn.lin at h
  rw [hsum] at h
  unfold fixedPart
  push_cast at h ⊢
  linarith

theorem IntSol.loose {k ν z} (hS : Shape E) (hB : Basis E basic) (hZ : IntSol E basic k ν z) {e}
    (he : e ∈ E) {s : Sym} (hs : basic s) (hc : e.coef s ≠ 0) :
    at0 z e.pos - at0 z e.neg + (e.coef s : ℚ) * z s = -(fixedPart k ν e : ℤ) := by
  have h := hZ.eqn e he
  have hsum : ∑ t, (e.coef t : ℚ) * z t
      = (e.coef s : ℚ) * z s + ((∑ t, e.coef t * ν t : ℤ) : ℚ) := by
    have : ∀ t, (e.coef t : ℚ) * z t
        = (if t = s then (e.coef s : ℚ) * z s else 0) + (e.coef t : ℚ) * ν t := by
      intro t
      by_cases hts : t = s
      · subst hts; simp [hZ.basic t hs]
      · by_cases hb : basic t
        · have h0 : e.coef t = 0 := by
            by_contra h
            exact hts (one_basic hS hB he hb hs h hc)
          simp [hts, h0]
        · simp [hts, hZ.nonbasic t hb]
    rw [Finset.sum_congr rfl (fun t _ => this t), Finset.sum_add_distrib]
    push_cast
    simp
  unfold IEqn.lin at h
  rw [hsum] at h
  unfold fixedPart
  push_cast at h ⊢
  linarith

theorem floor_sub_of_int {x y : ℚ} {n : ℤ} (h : x - y = n) : ((⌊x⌋ : ℤ) : ℚ) - ⌊y⌋ = x - y := by
  have hx : x = y + n := by linarith
  rw [hx, Int.floor_add_intCast]
  push_cast
  ring

/-- **The values are integers.** -/
theorem IntSol.ints {k ν z} (hS : Shape E) (hB : Basis E basic) (hZ : IntSol E basic k ν z) :
    ∀ s, ∃ n : ℤ, z s = n := by
  have hext : ∀ s : Sym, s.type = .external → ∃ n : ℤ, z s = n := by
    intro s hs
    have := values_fixed hS hB z (fun q => (⌊q⌋ : ℚ)) (by simp) ?_ ?_ s hs
    · exact ⟨⌊z s⌋, this.symm⟩
    · intro t _ hb
      rw [hZ.nonbasic t hb]; simp
    · intro e he ht
      have h1 := hZ.tight he ht
      exact floor_sub_of_int (n := -fixedPart k ν e) (by rw [h1]; push_cast; ring)
  have hat : ∀ o : Option Sym, (∀ u, o = some u → u.type = .external) → ∃ n : ℤ, at0 z o = n := by
    intro o ho
    cases o with
    | none => exact ⟨0, by simp [at0]⟩
    | some u => exact hext u (ho u rfl)
  intro s
  by_cases hb : basic s
  · by_cases hx : s.type = .external
    · exact hext s hx
    · obtain ⟨e, he, hc⟩ := basic_in hS hB hb hx
      have h := hZ.loose hS hB he hb hc
      obtain ⟨p, hp⟩ := hat _ (hS.posExt e he)
      obtain ⟨q, hq⟩ := hat _ (hS.negExt e he)
      have hsq := unit_sq (hS.unit e he s (hB.noDum s hb)) hc
      refine ⟨e.coef s * (-fixedPart k ν e - p + q), ?_⟩
      have : z s = ((e.coef s : ℚ) * e.coef s) * z s := by rw [hsq]; ring
      rw [this]
      push_cast
      rw [hp, hq] at h
      have h2 : (e.coef s : ℚ) * z s = -(fixedPart k ν e : ℚ) - p + q := by linarith
      rw [mul_assoc, h2]
  · exact ⟨ν s, hZ.nonbasic s hb⟩

/-- A finite set of unit steps that covers given intervals. -/
theorem exists_cover (L : List (ℤ × ℤ)) :
    ∃ C : Finset ℤ, (C.card : ℤ) ≤ (L.map fun p => |p.1 - p.2|).sum ∧
      ∀ p ∈ L, Finset.Ico (min p.1 p.2) (max p.1 p.2) ⊆ C := by
  induction L with
  | nil => exact ⟨∅, by simp, by simp⟩
  | cons p L ih =>
    obtain ⟨C, h1, h2⟩ := ih
    refine ⟨Finset.Ico (min p.1 p.2) (max p.1 p.2) ∪ C, ?_, ?_⟩
    · have := Finset.card_union_le (Finset.Ico (min p.1 p.2) (max p.1 p.2)) C
      rw [Int.card_Ico] at this
      have h3 : (((max p.1 p.2 - min p.1 p.2).toNat : ℕ) : ℤ) = |p.1 - p.2| := by
        rw [Int.toNat_of_nonneg (by omega), abs_eq_max_neg]; omega
      simp only [List.map_cons, List.sum_cons]
      omega
    · intro q hq
      rcases List.mem_cons.1 hq with rfl | hq
      · exact Finset.subset_union_left
      · exact (h2 q hq).trans Finset.subset_union_right

/-- The number of covered steps from `0` to `n`. -/
def steps (C : Finset ℤ) (n : ℤ) : ℤ :=
  ((C ∩ Finset.Ico 0 n).card : ℤ) - ((C ∩ Finset.Ico n 0).card : ℤ)

theorem steps_sub (C : Finset ℤ) {m n : ℤ} (h : m ≤ n) :
    steps C n - steps C m = ((C ∩ Finset.Ico m n).card : ℤ) := by
  have split : ∀ a b c : ℤ, a ≤ b → b ≤ c →
      (C ∩ Finset.Ico a c).card = (C ∩ Finset.Ico a b).card + (C ∩ Finset.Ico b c).card := by
    intro a b c hab hbc
    rw [← Finset.card_union_of_disjoint]
    · congr 1
      ext x
      simp only [Finset.mem_union, Finset.mem_inter, Finset.mem_Ico]
      constructor
      · rintro ⟨h1, h2, h3⟩
        by_cases hx : x < b
        · exact Or.inl ⟨h1, h2, hx⟩
        · exact Or.inr ⟨h1, not_lt.1 hx, h3⟩
      · rintro (⟨h1, h2, h3⟩ | ⟨h1, h2, h3⟩)
        · exact ⟨h1, h2, lt_of_lt_of_le h3 hbc⟩
        · exact ⟨h1, le_trans hab h2, h3⟩
    · rw [Finset.disjoint_left]
      intro x
      simp only [Finset.mem_inter, Finset.mem_Ico]
      rintro ⟨_, _, h1⟩ ⟨_, h2, _⟩
      omega
  have empty : ∀ a b : ℤ, b ≤ a → (C ∩ Finset.Ico a b).card = 0 := by
    intro a b hab
    rw [Finset.Ico_eq_empty (by omega)]; simp
  unfold steps
  rcases le_total 0 m with hm | hm
  · rw [empty m 0 hm, empty n 0 (by omega), split 0 m n hm h]; push_cast; ring
  · rcases le_total 0 n with hn | hn
    · rw [empty 0 m hm, empty n 0 hn, split m 0 n hm hn]; push_cast; ring
    · rw [empty 0 m hm, empty 0 n hn, split m n 0 h hn]; push_cast; ring

theorem steps_zero (C : Finset ℤ) : steps C 0 = 0 := by simp [steps]

theorem steps_diff_le (C : Finset ℤ) (m n : ℤ) : |steps C n - steps C m| ≤ C.card := by
  rcases le_total m n with h | h
  · rw [steps_sub C h, abs_of_nonneg (by positivity)]
    exact_mod_cast Finset.card_le_card Finset.inter_subset_left
  · rw [abs_sub_comm, steps_sub C h, abs_of_nonneg (by positivity)]
    exact_mod_cast Finset.card_le_card Finset.inter_subset_left

theorem steps_covered (C : Finset ℤ) {m n : ℤ} (h : Finset.Ico (min m n) (max m n) ⊆ C) :
    steps C m - steps C n = m - n := by
  have key : ∀ a b : ℤ, a ≤ b → Finset.Ico a b ⊆ C → steps C b - steps C a = b - a := by
    intro a b hab hsub
    rw [steps_sub C hab, Finset.inter_eq_right.2 hsub, Int.card_Ico, Int.toNat_of_nonneg (by omega)]
  rcases le_total n m with hm | hm
  · rw [min_eq_right hm, max_eq_left hm] at h
    exact key n m hm h
  · rw [min_eq_left hm, max_eq_right hm] at h
    have := key m n hm h
    omega

/-- The sum of the sizes of the parts that do not depend on basic symbols. -/
def fixedSum (E : List IEqn) (k : IEqn → ℤ) (ν : Sym → ℤ) : ℤ := (E.map fun e => |fixedPart k ν e|).sum

/-- **The values are small.** -/
theorem IntSol.bound {k ν z} (hS : Shape E) (hB : Basis E basic) (hZ : IntSol E basic k ν z)
    (x : ℤ) (hx0 : 0 ≤ x)
    (hext : ∀ s : Sym, s.type = .external → ν s = 0 ∨ (ν s = 1 ∧ x = 1)) :
    ∀ s, basic s → |z s| ≤ ((x + fixedSum E k ν : ℤ) : ℚ) := by
  classical
  have hint := hZ.ints hS hB
  choose ζ hζ using hint
  let ζo : Option Sym → ℤ := fun o => match o with | none => 0 | some s => ζ s
  have hζo : ∀ o, at0 z o = ζo o := by
    intro o; cases o with
    | none => simp [at0, ζo]
    | some s => simp [at0, ζo, hζ]
  -- the tight equations
  let T : List IEqn := E.filter fun e => decide (Tight basic e)
  obtain ⟨C, hcard, hcov⟩ := exists_cover ((0, x) :: T.map fun e => (ζo e.pos, ζo e.neg))
  have hsum : ∀ L : List IEqn, (∀ e ∈ L, e ∈ E) →
      ((L.filter fun e => decide (Tight basic e)).map
        ((fun p : ℤ × ℤ => |p.1 - p.2|) ∘ fun e : IEqn => (ζo e.pos, ζo e.neg))).sum
        ≤ (L.map fun e => |fixedPart k ν e|).sum ∧
      ∀ e ∈ L, ¬ Tight basic e → ((L.filter fun e => decide (Tight basic e)).map
        ((fun p : ℤ × ℤ => |p.1 - p.2|) ∘ fun e : IEqn => (ζo e.pos, ζo e.neg))).sum
        + |fixedPart k ν e| ≤ (L.map fun e => |fixedPart k ν e|).sum := by
    intro L
    induction L with
    | nil => intro _; simp
    | cons e L ih =>
      intro hL
      obtain ⟨ih1, ih2⟩ := ih (fun e' he' => hL e' (List.mem_cons_of_mem _ he'))
      by_cases ht : Tight basic e
      · rw [List.filter_cons_of_pos (by simpa using ht)]
        simp only [List.map_cons, List.sum_cons, Function.comp]
        have h := hZ.tight (hL e List.mem_cons_self) ht
        rw [hζo, hζo] at h
        have h' : ζo e.pos - ζo e.neg = -fixedPart k ν e := by exact_mod_cast h
        rw [h', abs_neg]
        refine ⟨by simpa [Function.comp] using ih1, ?_⟩
        intro e' he' ht'
        rcases List.mem_cons.1 he' with rfl | he'
        · exact absurd ht ht'
        · have := ih2 e' he' ht'
          simp only [Function.comp_def] at this ⊢
          linarith
      · rw [List.filter_cons_of_neg (by simpa using ht)]
        simp only [List.map_cons, List.sum_cons]
        have := abs_nonneg (fixedPart k ν e)
        refine ⟨by linarith, ?_⟩
        intro e' he' ht'
        rcases List.mem_cons.1 he' with rfl | he'
        · linarith
        · have := ih2 e' he' ht'
          linarith
  have hcard0 : (C.card : ℤ) ≤ x + ((E.filter fun e => decide (Tight basic e)).map
        ((fun p : ℤ × ℤ => |p.1 - p.2|) ∘ fun e : IEqn => (ζo e.pos, ζo e.neg))).sum := by
    refine le_trans hcard ?_
    simp only [List.map_cons, List.sum_cons, List.map_map, zero_sub, abs_neg, abs_of_nonneg hx0]
    exact le_refl _
  have hcard' : (C.card : ℤ) ≤ x + fixedSum E k ν := by
    have := (hsum E (fun _ h => h)).1
    unfold fixedSum
    linarith
  -- the values are steps of the cover
  have hfix : ∀ s : Sym, s.type = .external → steps C (ζ s) = ζ s := by
    intro s hs
    have := values_fixed hS hB z (fun q => (steps C ⌊q⌋ : ℚ)) (by simp [steps_zero]) ?_ ?_ s hs
    · simp only [hζ, Int.floor_intCast] at this
      exact_mod_cast this
    · intro t htx hb
      rw [hZ.nonbasic t hb]
      simp only [Int.floor_intCast]
      rcases hext t htx with h | ⟨h, hx1⟩
      · rw [h, steps_zero]
      · rw [h]
        have := steps_covered C (m := 1) (n := 0) (by
          have := hcov (0, x) List.mem_cons_self
          rw [hx1] at this
          simpa using this)
        rw [steps_zero] at this
        have : steps C 1 = 1 := by omega
        rw [this]
    · intro e he ht
      simp only [hζo, Int.floor_intCast]
      have := steps_covered C (hcov (ζo e.pos, ζo e.neg) (by
        apply List.mem_cons_of_mem
        exact List.mem_map_of_mem (f := fun e : IEqn => (ζo e.pos, ζo e.neg))
          (List.mem_filter.2 ⟨he, by simpa using ht⟩)))
      exact_mod_cast this
  have hfixo : ∀ o : Option Sym, (∀ u, o = some u → u.type = .external) →
      steps C (ζo o) = ζo o := by
    intro o ho
    cases o with
    | none => simp [ζo, steps_zero]
    | some u => exact hfix u (ho u rfl)
  intro s hb
  have goal : |ζ s| ≤ x + fixedSum E k ν := by
    by_cases hx : s.type = .external
    · have := steps_diff_le C 0 (ζ s)
      rw [steps_zero, hfix s hx, sub_zero] at this
      omega
    · obtain ⟨e, he, hc⟩ := basic_in hS hB hb hx
      have h := hZ.loose hS hB he hb hc
      rw [hζo, hζo, hζ s] at h
      have h' : ζo e.pos - ζo e.neg + e.coef s * ζ s = -fixedPart k ν e := by exact_mod_cast h
      have h1 := steps_diff_le C (ζo e.neg) (ζo e.pos)
      rw [hfixo _ (hS.posExt e he), hfixo _ (hS.negExt e he)] at h1
      have h2 := (hsum E (fun _ h => h)).2 e he (fun ht => hc (ht s hb))
      have h3 : |e.coef s * ζ s| ≤ x + fixedSum E k ν := by
        have : e.coef s * ζ s = -fixedPart k ν e - (ζo e.pos - ζo e.neg) := by linarith
        rw [this]
        refine le_trans (abs_sub _ _) ?_
        rw [abs_neg]
        unfold fixedSum
        linarith
      rcases hS.unit e he s (hB.noDum s hb) with h4 | h4 | h4
      · exact absurd h4 hc
      · rw [h4] at h3; simpa using h3
      · rw [h4] at h3; simpa using h3
  rw [hζ s]
  exact_mod_cast goal

end

end Bento.Casso
