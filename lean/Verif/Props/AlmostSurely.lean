import Verif.Props.Termination
import Verif.Lemmas.Fuel
import Verif.Props.Flex
import Verif.Props.Corner

/-!
# Properties C58, C60, C61, C81, C82, C85 with probability one

The theorems about splitting an area leave two outcomes: the simplex loop has not come to an end within
`fuel` pivots, or the result is as claimed. By C80 the first outcome disappears with probability one for
all sufficiently large bounds, and the result does not depend on the bound.
-/

namespace Bento

open Casso Layout MeasureTheory

/-- With probability one over the iteration orders of the maps, `SplitWithSpacers` returns segments and
spacers with the property `P`, the same for all sufficiently large bounds on the number of pivots. -/
def AlmostSurely (l : Layout) (area : Rect) (P : List Rect → List Rect → Prop) : Prop :=
  ∀ (μ : ℕ → Measure ℕ) [∀ i, IsProbabilityMeasure (μ i)] {ε : ENNReal}, ε ≠ 0 → (∀ i, ε ≤ μ i {0}) →
    ∀ᵐ ω ∂(Measure.infinitePi μ), ∃ n segments spacers,
      (∀ fuel, n ≤ fuel → splitWithSpacers ω fuel l area = .ok segments spacers) ∧ P segments spacers

theorem almostSurely_of {l : Layout} {area : Rect} {P : List Rect → List Rect → Prop} (hfew : Few l)
    (h : ∀ ω fuel, splitWithSpacers ω fuel l area = .running ∨
      ∃ segments spacers, splitWithSpacers ω fuel l area = .ok segments spacers ∧ P segments spacers) :
    AlmostSurely l area P := by
  intro μ _ ε hε h0
  filter_upwards [C80_split_almost_surely l area hfew μ hε h0] with ω ⟨n, hn⟩
  obtain ⟨a, b, hab⟩ := hn n (Nat.le_refl _)
  rcases h ω n with hr | ⟨s, t, hs, hp⟩
  · rw [hab] at hr; cases hr
  · refine ⟨n, s, t, fun fuel hf => ?_, hp⟩
    rw [Layout.split_more hf (by rw [hs]; exact fun h => nomatch h)]
    exact hs

/-- **C60** with probability one (partial: layouts that fit the symbol counter). -/
theorem C60_almost_surely_partial (l : Layout) (area : Rect)
    (hf : l.flex = .legacy) (h0 : gapOf l.spacing = 0)
    (hn : 0 < l.constraints.length) (hfew : Few l)
    (hw : (l.constraints.map fillWeight).sum ≤ 90000)
    (hlf : ∀ c ∈ l.constraints, (∃ t, c = .len t ∧ 0 ≤ t) ∨ ∃ k, c = .fill k)
    (hfit : (l.constraints.map lenOf).sum ≤ extent l.direction (area.inner l.padding))
    (hfill : (∃ k, Constraint.fill k ∈ l.constraints) ∨
      (l.constraints.map lenOf).sum = extent l.direction (area.inner l.padding))
    (hpos : 0 ≤ lo l.direction (area.inner l.padding)) :
    AlmostSurely l area fun segments _ =>
      ∀ (i : Nat) (t : Int), l.constraints[i]? = some (Constraint.len t) →
        ∃ r, segments[i]? = some r ∧ extent l.direction r = t :=
  almostSurely_of hfew fun ω fuel => C60_lengths_exact_partial ω fuel l area hf h0 hn hfew hw hlf hfit hfill hpos

/-- **C61** with probability one (partial: layouts that fit the symbol counter). -/
theorem C61_almost_surely_partial (l : Layout) (area : Rect)
    (hf : l.flex = .legacy) (h0 : gapOf l.spacing = 0) (hfew : Few l)
    (hw : (l.constraints.map fillWeight).sum ≤ 90000)
    (hlf : ∀ c ∈ l.constraints, (∃ t, c = .len t ∧ 0 ≤ t) ∨ ∃ k, c = .fill k)
    (hfit : (l.constraints.map lenOf).sum ≤ extent l.direction (area.inner l.padding))
    (hfill : ∃ k, Constraint.fill k ∈ l.constraints) :
    AlmostSurely l area fun segments _ =>
      ∀ i r, segments[i]? = some r →
        |(lo l.direction r : ℚ) - (lo l.direction (area.inner l.padding) +
          idealStart l.constraints (extent l.direction (area.inner l.padding)) i)| ≤ 505 / 1000 ∧
        |((lo l.direction r + extent l.direction r : Int) : ℚ) -
          (lo l.direction (area.inner l.padding) +
          idealStart l.constraints (extent l.direction (area.inner l.padding)) (i + 1))|
            ≤ 505 / 1000 :=
  almostSurely_of hfew fun ω fuel => C61_fill_shares_partial ω fuel l area hf h0 hfew hw hlf hfit hfill

/-- **C82** with probability one (partial: as `C82_definite_sizes_partial`). -/
theorem C82_almost_surely_partial (l : Layout) (area : Rect)
    (h : FitsFlex l (extent l.direction (area.inner l.padding))) :
    AlmostSurely l area fun segments _ =>
      segments.length = l.constraints.length ∧
      ∀ i c r, l.constraints[i]? = some c → segments[i]? = some r →
        StandsFor (lo l.direction r) (lo l.direction (area.inner l.padding) +
          flexStart l.flex l.constraints (gapOf l.spacing)
            (extent l.direction (area.inner l.padding)) i) ∧
        StandsFor (lo l.direction r + extent l.direction r) (lo l.direction (area.inner l.padding) +
          (flexStart l.flex l.constraints (gapOf l.spacing)
            (extent l.direction (area.inner l.padding)) i +
          (definiteSize (extent l.direction (area.inner l.padding)) c).getD 0)) :=
  almostSurely_of h.few fun ω fuel => C82_definite_sizes_partial ω fuel l area h

/-- **C85** with probability one (partial: as `C85_cheapest_row_partial`). -/
theorem C85_almost_surely_partial (l : Layout) (area : Rect)
    (h : WholeRow l (extent l.direction (area.inner l.padding))) :
    AlmostSurely l area fun segments _ =>
      segments.length = l.constraints.length ∧
      ∀ row : List (ℚ × ℚ), row.length = l.constraints.length →
        (∀ p ∈ row, (lo l.direction (area.inner l.padding) : ℚ) ≤ p.1 ∧ p.1 ≤ p.2 ∧
          p.2 ≤ lo l.direction (area.inner l.padding) + extent l.direction (area.inner l.padding)) →
        rowPrice (lo l.direction (area.inner l.padding))
            (lo l.direction (area.inner l.padding) + extent l.direction (area.inner l.padding))
            (gapOf l.spacing) l.constraints (segments.map (edges l.direction))
          ≤ rowPrice (lo l.direction (area.inner l.padding))
            (lo l.direction (area.inner l.padding) + extent l.direction (area.inner l.padding))
            (gapOf l.spacing) l.constraints row :=
  almostSurely_of h.few fun _ _ => C85_cheapest_row_partial l area h

/-- **C81** with probability one (partial: `FlexLegacy` without spacing, lengths that fit and one fill):
there is one list of segments that `Split` returns whatever the order of the maps, but for orders of
probability zero. -/
theorem C81_almost_surely_partial (l : Layout) (area : Rect)
    (hf : l.flex = .legacy) (h0 : gapOf l.spacing = 0) (hfew : Few l)
    {before after : List Int} {k : Int} (hk : k ≤ 90000)
    (hl : l.constraints = before.map .len ++ .fill k :: after.map .len)
    (hb : ∀ t ∈ before, 0 ≤ t) (ha : ∀ t ∈ after, 0 ≤ t)
    (hfit : before.sum + after.sum ≤ extent l.direction (area.inner l.padding))
    (hpos : 0 ≤ lo l.direction (area.inner l.padding)) :
    ∃ segments, AlmostSurely l area fun s _ => s = segments := by
  classical
  by_cases hex : ∃ ω fuel segments spacers, splitWithSpacers ω fuel l area = .ok segments spacers
  · obtain ⟨ω₀, fuel₀, s₀, t₀, hs₀⟩ := hex
    refine ⟨s₀, almostSurely_of hfew fun ω fuel => ?_⟩
    rcases C18_well_formed_partial ω fuel l area hfew with hr | ⟨s, t, hs, _⟩
    · exact .inl hr
    · exact .inr ⟨s, t, hs, C81_one_fill_partial l area hf h0 hfew hk hl hb ha hfit hpos hs hs₀⟩
  · refine ⟨[], almostSurely_of hfew fun ω fuel => ?_⟩
    rcases C18_well_formed_partial ω fuel l area hfew with hr | ⟨s, t, hs, _⟩
    · exact .inl hr
    · exact absurd ⟨ω, fuel, s, t, hs⟩ hex

/-- **C58** with probability one (partial: systems that fit the symbol counter): `AddConstraints` returns,
without an error exactly if the required constraints have a common solution, and with one exactly if they
have none. -/
theorem C58_almost_surely_partial {m : Nat} {cs : List Constr}
    (hv : ∀ c ∈ cs, ∀ v k, (v, k) ∈ c.expr.terms → v < m) (hb : 1 + m + symbolsFor [] cs ≤ 256)
    (hw : ∀ c ∈ cs, 0 ≤ c.strength) (μ : ℕ → Measure ℕ) [∀ i, IsProbabilityMeasure (μ i)] {ε : ENNReal}
    (hε : ε ≠ 0) (h0 : ∀ i, ε ≤ μ i {0}) :
    ∀ᵐ ω ∂(Measure.infinitePi μ), ∃ n, ∀ fuel, n ≤ fuel →
      ((∃ S, Solver.new.addConstraints ω fuel cs = .ok S) ↔ ∃ x, Feasible cs x) ∧
      ((∃ e, e ≠ .fuel ∧ Solver.new.addConstraints ω fuel cs = .error e) ↔ ¬ ∃ x, Feasible cs x) := by
  filter_upwards [C80_almost_surely hv hb μ hε h0] with ω ⟨n, hn⟩
  refine ⟨n, fun fuel hf => ?_⟩
  have hend := hn fuel hf
  by_cases hx : ∃ x, Feasible cs x
  · obtain ⟨x, hx⟩ := hx
    rcases C58_no_false_refusal_partial (ω := ω) (fuel := fuel) hv hb hw hx with h | ⟨S, h, _⟩
    · exact absurd h hend
    · exact ⟨⟨fun _ => ⟨x, hx⟩, fun _ => ⟨S, h⟩⟩,
        ⟨fun ⟨e, _, he⟩ => (by rw [h] at he; cases he), fun hc => absurd ⟨x, hx⟩ hc⟩⟩
  · obtain ⟨e, h⟩ := C58_refuses_contradictions_partial (ω := ω) (fuel := fuel) hv hb hx
    refine ⟨⟨fun ⟨S, hS⟩ => (by rw [h] at hS; cases hS), fun hc => absurd hc hx⟩,
      ⟨fun _ => hx, fun _ => ⟨e, ?_, h⟩⟩⟩
    rintro rfl
    exact hend h

/-- Two contradictory requirements on one variable meet the hypotheses of C58 with probability one. -/
example : let cs := [Constr.constantRHS .ge required (Expr.ofVar 0) 5,
      Constr.constantRHS .le required (Expr.ofVar 0) 3]
    (∀ c ∈ cs, ∀ v k, (v, k) ∈ c.expr.terms → v < 1) ∧ 1 + 1 + symbolsFor [] cs ≤ 256 ∧
      (∀ c ∈ cs, 0 ≤ c.strength) ∧ ¬ ∃ x, Feasible cs x := by
  refine ⟨?_, by decide, by decide +kernel, ?_⟩
  · intro c hc v k h
    simp only [List.mem_cons, List.not_mem_nil, or_false] at hc
    rcases hc with rfl | rfl <;>
      · simp only [Constr.constantRHS, Expr.ofVar, Expr.subConstant, List.mem_cons, Prod.mk.injEq,
          List.not_mem_nil, or_false] at h
        rw [h.1]; decide
  · rintro ⟨x, hx⟩
    have h1 := hx _ (List.mem_cons_self ..) (by decide +kernel)
    have h2 := hx _ (List.mem_cons_of_mem _ (List.mem_cons_self ..)) (by decide +kernel)
    simp [Constr.Holds, Constr.constantRHS, Expr.eval, Expr.ofVar, Expr.subConstant] at h1 h2
    linarith

/-- A title row, a body and two rows at the bottom: the hypotheses of C81 with probability one. -/
example : ∃ segments, AlmostSurely
    ⟨.vertical, [.len 1, .fill 1, .len 2], Padding.none', .legacy, .space 0⟩ ⟨0, 0, 80, 24⟩
    fun s _ => s = segments :=
  C81_almost_surely_partial _ _ rfl rfl (by decide) (before := [1]) (after := [2]) (k := 1) (by decide) rfl
    (by decide) (by decide) (by decide) (by decide)

/-- A form of two lengths and a fill: the hypotheses of C60 with probability one. -/
example : AlmostSurely ⟨.vertical, [.len 3, .fill 1, .len 1], Padding.none', .legacy, .space 0⟩
    ⟨0, 0, 80, 24⟩ fun segments _ => ∀ (i : Nat) (t : Int),
      [Constraint.len 3, .fill 1, .len 1][i]? = some (Constraint.len t) →
        ∃ r, segments[i]? = some r ∧ extent .vertical r = t := by
  refine C60_almost_surely_partial _ _ rfl rfl (by decide) (by decide) (by decide) ?_ (by decide)
    (.inl ⟨1, by simp⟩) (by decide)
  intro c hc
  simp only [List.mem_cons, List.not_mem_nil, or_false] at hc
  rcases hc with rfl | rfl | rfl
  · exact .inl ⟨3, rfl, by decide⟩
  · exact .inr ⟨1, rfl⟩
  · exact .inl ⟨1, rfl, by decide⟩

end Bento
