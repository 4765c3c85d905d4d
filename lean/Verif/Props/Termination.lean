import Verif.Props.Layout
import Verif.Lemmas.CassoBland
import Verif.Lemmas.Chance
import Mathlib.Probability.Distributions.Uniform

/-!
# Property C80: the solver's loop comes to an end

`optimize` is a `for` loop without a bound whose picks depend on the iteration order of Go maps.  No
stretch of picks can trap it: a long enough stretch that follows one fixed order ends it, and such a
stretch occurs with probability one when the picks are drawn independently.
-/

namespace Bento

open Casso Layout MeasureTheory

/-- What `AddConstraints` gives for all sufficiently large bounds on the number of pivots: it
returns, with or without an error. -/
def Ends (ω : Nat → Nat) (cs : List Constr) : Prop :=
  ∃ n, ∀ fuel, n ≤ fuel → Solver.new.addConstraints ω fuel cs ≠ .error .fuel

/-- **C80.** There is a number `M` that depends on the constraints only such that `AddConstraints`
comes to an end whenever `M` consecutive picks, at any point, all take the first candidate of one
fixed order of the symbols. -/
theorem C80_fixed_order {m : Nat} {cs : List Constr}
    (hv : ∀ c ∈ cs, ∀ v k, (v, k) ∈ c.expr.terms → v < m) (hb : 1 + m + symbolsFor [] cs ≤ 256) :
    ∃ M, ∀ (ω : Nat → Nat) (k : Nat), (∀ i, k ≤ i → i < k + M → ω i = 0) → Ends ω cs := by
  refine ⟨cs.length * (4 * pivotBound + 6), fun ω k hω => ⟨k + pivotBound, fun fuel hf => ?_⟩⟩
  revert hω hf
  generalize hN : pivotBound = N
  intro hω hf
  exact addConstraints_window hN hf cs k inv_new (seen := []) (fun _ _ => rfl) hv (by rw [pot_new]; exact hb) (Nat.le_refl _)
    (by simp [Solver.new]) hω

/-- **C80.** Whatever the first `k` picks were, the rest can be such that `AddConstraints` ends. -/
theorem C80_never_trapped {m : Nat} {cs : List Constr}
    (hv : ∀ c ∈ cs, ∀ v k, (v, k) ∈ c.expr.terms → v < m) (hb : 1 + m + symbolsFor [] cs ≤ 256)
    (ω : Nat → Nat) (k : Nat) : ∃ ω', (∀ i < k, ω' i = ω i) ∧ Ends ω' cs := by
  obtain ⟨M, hM⟩ := C80_fixed_order hv hb
  refine ⟨fun i => if i < k then ω i else 0, fun i hi => by simp [hi], hM _ k (fun i hi _ => ?_)⟩
  simp [Nat.not_lt.2 hi]

/-- **C80.** With independent picks, each taking the first candidate with a probability that stays
away from zero, `AddConstraints` ends with probability one. -/
theorem C80_almost_surely {m : Nat} {cs : List Constr}
    (hv : ∀ c ∈ cs, ∀ v k, (v, k) ∈ c.expr.terms → v < m) (hb : 1 + m + symbolsFor [] cs ≤ 256)
    (μ : ℕ → Measure ℕ) [∀ i, IsProbabilityMeasure (μ i)] {ε : ENNReal} (hε : ε ≠ 0)
    (h0 : ∀ i, ε ≤ μ i {0}) : ∀ᵐ ω ∂(Measure.infinitePi μ), Ends ω cs := by
  obtain ⟨M, hM⟩ := C80_fixed_order hv hb
  filter_upwards [ae_window μ hε h0 M] with ω ⟨k, hk⟩
  exact hM ω k hk

/-- The hypotheses on the picks are met by a fair die. -/
example : ∃ μ : Measure ℕ, IsProbabilityMeasure μ ∧ (6 : ENNReal)⁻¹ ≠ 0 ∧ (6 : ENNReal)⁻¹ ≤ μ {0} := by
  refine ⟨(PMF.uniformOfFinset (Finset.range 6) (Finset.nonempty_range_iff.2 (by decide))).toMeasure, inferInstance, by simp, ?_⟩
  rw [PMF.toMeasure_apply_singleton _ _ (MeasurableSet.singleton 0)]
  simp

/-- The hypotheses on the constraints are met by two variables, one of them fixed. -/
example : let cs := [Constr.constantRHS .eq required (Expr.ofVar 0) 5,
      Constr.constantRHS .ge 1 (Expr.ofVar 1) 3]
    (∀ c ∈ cs, ∀ v k, (v, k) ∈ c.expr.terms → v < 2) ∧ 1 + 2 + symbolsFor [] cs ≤ 256 := by
  refine ⟨?_, by decide⟩
  intro c hc v k h
  simp only [List.mem_cons, List.not_mem_nil, or_false] at hc
  rcases hc with rfl | rfl <;>
    · simp only [Constr.constantRHS, Expr.ofVar, Expr.subConstant, List.mem_cons, Prod.mk.injEq,
        List.not_mem_nil, or_false] at h
      rw [h.1]; decide

/-! ## Splitting an area -/

/-- `SplitWithSpacers` returns for all sufficiently large bounds on the number of pivots. -/
def Returns (ω : Nat → Nat) (l : Layout) (area : Rect) : Prop :=
  ∃ n, ∀ fuel, n ≤ fuel → ∃ segments spacers, splitWithSpacers ω fuel l area = .ok segments spacers

theorem splitWithSpacers_running {ω fuel} {l : Layout} {area : Rect}
    (h : splitWithSpacers ω fuel l area = .running) :
    Solver.new.addConstraints ω fuel (hardList l (area.inner l.padding) ++ softList l)
      = .error .fuel := by
  unfold splitWithSpacers at h
  simp only [solverConstraints_eq] at h
  cases ho : Solver.new.addConstraints ω fuel (hardList l (area.inner l.padding) ++ softList l) with
  | ok S => rw [ho] at h; cases h
  | error e =>
    cases e with
    | fuel => rfl
    | unsatisfiable => rw [ho] at h; cases h
    | unbounded => rw [ho] at h; cases h

theorem split_vars (l : Layout) (inner : Rect) : ∀ c ∈ hardList l inner ++ softList l, ∀ v k,
    (v, k) ∈ c.expr.terms → v < 2 * l.constraints.length + 2 := by
  intro c hc
  rcases List.mem_append.1 hc with hc | hc
  · exact hard_below l inner c hc
  · exact (soft_softList l c hc).below

theorem returns_of_ends {ω} {l : Layout} (area : Rect) (h : Few l)
    (he : Ends ω (hardList l (area.inner l.padding) ++ softList l)) : Returns ω l area := by
  obtain ⟨n, hn⟩ := he
  refine ⟨n, fun fuel hf => ?_⟩
  rcases split_values (ω := ω) (fuel := fuel) l area h with hr | ⟨x, hr, _⟩
  · exact absurd (splitWithSpacers_running hr) (hn fuel hf)
  · exact ⟨_, _, hr⟩

/-- **C80** for layouts: whatever the first picks were, `Split` can still return. -/
theorem C80_split_never_trapped (l : Layout) (area : Rect) (h : Few l) (ω : Nat → Nat) (k : Nat) :
    ∃ ω', (∀ i < k, ω' i = ω i) ∧ Returns ω' l area := by
  obtain ⟨ω', h1, h2⟩ := C80_never_trapped (split_vars l (area.inner l.padding))
    (budget_few h _) ω k
  exact ⟨ω', h1, returns_of_ends area h h2⟩

/-- **C80** for layouts: `Split` returns with probability one. -/
theorem C80_split_almost_surely (l : Layout) (area : Rect) (h : Few l) (μ : ℕ → Measure ℕ)
    [∀ i, IsProbabilityMeasure (μ i)] {ε : ENNReal} (hε : ε ≠ 0) (h0 : ∀ i, ε ≤ μ i {0}) :
    ∀ᵐ ω ∂(Measure.infinitePi μ), Returns ω l area := by
  filter_upwards [C80_almost_surely (split_vars l (area.inner l.padding)) (budget_few h _) μ hε h0]
    with ω he
  exact returns_of_ends area h he

/-- A header, a body and a footer are few enough constraints. -/
example : Few ⟨.vertical, [.len 3, .fill 1, .len 1], Padding.none', .legacy, .space 0⟩ :=
  by decide

/-- **C18** with probability one: `Split` returns one segment per constraint, one more spacer, and
all of them fit the padded area. -/
theorem C18_almost_surely_partial (l : Layout) (area : Rect) (h : Few l) (μ : ℕ → Measure ℕ)
    [∀ i, IsProbabilityMeasure (μ i)] {ε : ENNReal} (hε : ε ≠ 0) (h0 : ∀ i, ε ≤ μ i {0}) :
    ∀ᵐ ω ∂(Measure.infinitePi μ), ∃ n, ∀ fuel, n ≤ fuel →
      ∃ segments spacers, splitWithSpacers ω fuel l area = .ok segments spacers ∧
        segments.length = l.constraints.length ∧ spacers.length = l.constraints.length + 1 ∧
        ∀ r, r ∈ segments ∨ r ∈ spacers → Fits l.direction (area.inner l.padding) r := by
  filter_upwards [C80_split_almost_surely l area h μ hε h0] with ω ⟨n, hn⟩
  refine ⟨n, fun fuel hf => ?_⟩
  obtain ⟨a, b, hab⟩ := hn fuel hf
  rcases C18_well_formed_partial ω fuel l area h with hr | hr
  · rw [hab] at hr; cases hr
  · exact hr

/-- **C19** with probability one: with legacy flex and zero spacing the segments tile the padded
area. -/
theorem C19_almost_surely_partial (l : Layout) (area : Rect)
    (hf : l.flex = .legacy) (hs : gapOf l.spacing = 0)
    (hn : 0 < l.constraints.length) (hfew : Few l)
    (hw : (l.constraints.map fillWeight).sum ≤ 1000000) (μ : ℕ → Measure ℕ)
    [∀ i, IsProbabilityMeasure (μ i)] {ε : ENNReal} (hε : ε ≠ 0) (h0 : ∀ i, ε ≤ μ i {0}) :
    ∀ᵐ ω ∂(Measure.infinitePi μ), ∃ n, ∀ fuel, n ≤ fuel →
      ∃ segments spacers, splitWithSpacers ω fuel l area = .ok segments spacers ∧
        Tiles l.direction (area.inner l.padding) segments := by
  filter_upwards [C80_split_almost_surely l area hfew μ hε h0]
    with ω ⟨n, hr⟩
  refine ⟨n, fun fuel hfu => ?_⟩
  obtain ⟨a, b, hab⟩ := hr fuel hfu
  rcases C19_tiles_partial ω fuel l area hf hs hn hfew hw with h | h
  · rw [hab] at h; cases h
  · exact h

end Bento
