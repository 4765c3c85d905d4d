import Verif.Lemmas.CassoComplete
import Mathlib.Data.Fintype.Pigeonhole

/-!
# Properties C20, C21, C22, C58, C59: the linear constraint solver

Specification: `Spec/Linear` (what a constraint means).  `ω` ranges over all streams of choices, so
every statement covers every order in which Go may iterate over its maps.
-/

namespace Bento

open Casso Casso.Solver

/-! ## C20 -/

/-- The changes reported by the first `FetchChanges` are the values of the variables: a reported
value is the value, and variables that are not reported have the value 0. -/
theorem C20_fetch_reports_values {ω fuel cs} {S : Solver}
    (h : Solver.new.addConstraints ω fuel cs = .ok S) (hn : S.idTick ≤ 256) :
    (∀ v q, (v, q) ∈ S.fetchChanges.2 → q = S.getValue v) ∧
    (∀ v, (∀ q, (v, q) ∉ S.fetchChanges.2) → S.getValue v = 0) := by
  obtain ⟨H, hI, _, hl, hp⟩ := addConstraints_inv cs inv_new h hn
  have hns := hI.good.chg.noClear
  have hval : ∀ (vs : List Var) (S : Solver) v q, (v, q) ∈ S.collectChanges vs → q = S.getValue v := by
    intro vs
    induction vs with
    | nil => intro S v q h; simp [collectChanges] at h
    | cons u us ih =>
      intro S v q h
      unfold collectChanges at h
      split_ifs at h
      · rcases List.mem_cons.1 h with h | h
        · cases h; rfl
        · exact ih _ _ _ h
      · exact ih _ _ _ h
  have hmem : ∀ (vs : List Var) (S : Solver) v, v ∈ vs → S.varSym v ≠ none → S.varLast v = none →
      (v, S.getValue v) ∈ S.collectChanges vs := by
    intro vs
    induction vs with
    | nil => intro S v h; simp at h
    | cons u us ih =>
      intro S v h h1 h2
      unfold collectChanges
      rcases List.mem_cons.1 h with rfl | h
      · rw [if_pos ⟨h1, by simp [h2]⟩]; exact List.mem_cons_self
      · split_ifs
        · exact List.mem_cons_of_mem _ (ih _ _ h h1 h2)
        · exact ih _ _ h h1 h2
  have hgv : ∀ v, ({ S with shouldClearChanges := true } : Solver).getValue v = S.getValue v :=
    fun v => rfl
  simp only [fetchChanges, hns, hp, Solver.new]
  simp only [Bool.false_eq_true, if_false, List.map_nil, List.nil_append]
  refine ⟨fun v q h => by have := hval _ _ v q h; exact this, ?_⟩
  intro v hv
  by_contra h0
  unfold getValue at h0
  cases hs : S.varSym v with
  | none => simp [hs] at h0
  | some s =>
    cases hr : S.rows s with
    | none => simp [hs, hr] at h0
    | some r =>
      simp only [hs, hr] at h0
      exact hv _ (hmem _ { S with shouldClearChanges := true, publicChanges := [] } v (hI.good.chg.mem v s r hs hr h0)
        (by simp [hs]) (by simp only [hl]; rfl))

/-- **C20**, for runs that use at most 255 symbols (every variable, slack, error, dummy and
artificial symbol takes one; the counter is a `uint8`).  The values reported after adding the
constraints satisfy every required constraint.

Missing for the full statement: longer runs, for which it is false, see
`C22_many_variables_false`. -/
theorem C20_required_hold_partial {ω fuel cs} {S : Solver}
    (h : Solver.new.addConstraints ω fuel cs = .ok S) (hn : S.idTick ≤ 256) :
    Feasible cs S.getValue := by
  obtain ⟨H, hI, hm, _, _⟩ := addConstraints_inv cs inv_new h hn
  obtain ⟨h1, _⟩ := inv_values hI
  intro c hc hr
  have : c ∈ H.map Entry.c := by rw [hm]; simp [hc]
  obtain ⟨e, he, rfl⟩ := List.mem_map.1 this
  exact h1 e he hr

/-! ## C21 -/

/-- **C21**, for runs that use at most 255 symbols: the reported values minimise the weighted
violation of the non-required constraints among all assignments that satisfy the required ones.

Missing for the full statement: runs with more symbols (see `C22_many_variables_false`). -/
theorem C21_minimal_violation_partial {ω fuel cs} {S : Solver}
    (h : Solver.new.addConstraints ω fuel cs = .ok S) (hn : S.idTick ≤ 256)
    (hw : ∀ c ∈ cs, 0 ≤ c.strength) (x : Var → ℚ) (hx : Feasible cs x) :
    weightedViolation cs S.getValue ≤ weightedViolation cs x := by
  obtain ⟨H, hI, hm, _, _⟩ := addConstraints_inv cs inv_new h hn
  simp only [List.map_nil, List.append_nil] at hm
  have hmem : ∀ c, c ∈ H.map Entry.c ↔ c ∈ cs := by intro c; rw [hm]; simp
  have hrev : ∀ y, weightedViolation (H.map Entry.c) y = weightedViolation cs y := by
    intro y
    rw [hm]
    unfold weightedViolation
    rw [List.map_reverse, List.sum_reverse]
  obtain ⟨_, h2⟩ := inv_values hI
  have h3 := inv_optimal hI x (fun c hc hr => hx c ((hmem c).1 hc) hr)
  rw [hrev] at h3
  have h2 := h2 (fun e he => hw e.c ((hmem e.c).1 (List.mem_map_of_mem he)))
  rw [hrev] at h2
  exact h2.trans h3

/-! ## C22 -/

/-- **C22**, for runs that use at most 255 symbols: distinct variables have distinct symbols.

Missing for the full statement: longer runs, for which it is false (`C22_many_variables_false`). -/
theorem C22_variables_distinct_partial {ω fuel cs} {S : Solver}
    (h : Solver.new.addConstraints ω fuel cs = .ok S) (hn : S.idTick ≤ 256) {v w : Var} {s : Sym}
    (hv : S.varSym v = some s) (hw : S.varSym w = some s) : v = w := by
  obtain ⟨H, hI, _, _, _⟩ := addConstraints_inv cs inv_new h hn
  have h1 := hI.good.vars.back v s hv
  rw [hI.good.vars.back w s hw] at h1
  cases h1; rfl

/-- Constraints on `m` variables use at most `m` symbols for the variables, two for each constraint,
and only one for a required constraint that brings in a variable: enough for distinct symbols when
this number is below 256. -/
theorem C22_symbol_budget {ω fuel} {m : Nat} {cs} {S : Solver}
    (h : Solver.new.addConstraints ω fuel cs = .ok S)
    (hv : ∀ c ∈ cs, ∀ v k, (v, k) ∈ c.expr.terms → v < m)
    (hb : 1 + m + symbolsFor [] cs ≤ 256) : S.idTick ≤ 1 + m + symbolsFor [] cs := by
  have gen : ∀ (cs : List Constr) {seen : List Var} {A : Solver} {H : List Entry}, Inv A H →
      (∀ v ∉ seen, A.varSym v = none) →
      (∀ c ∈ cs, ∀ v k, (v, k) ∈ c.expr.terms → v < m) → pot m A + symbolsFor seen cs ≤ 256 →
      A.addConstraints ω fuel cs = .ok S → pot m S ≤ pot m A + symbolsFor seen cs := by
    intro cs
    induction cs with
    | nil =>
      intro seen A H _ _ _ _ h
      simp only [addConstraints, Except.ok.injEq] at h
      rw [h]; simp
    | cons c cs ih =>
      intro seen A H hI hs hv hb h
      unfold addConstraints at h
      rw [symbolsFor_cons] at hb ⊢
      cases hc : A.addConstraint ω fuel c with
      | error e => rw [hc] at h; cases h
      | ok A1 =>
        rw [hc] at h
        simp only at h
        have hs1 := addConstraint_seen hs hc
        have hp : pot m A1 ≤ pot m A + need seen c := by
          unfold addConstraint at hc
          cases hi : A.insertConstraint ω fuel c with
          | error e => rw [hi] at hc; cases hc
          | ok A0 =>
            rw [hi] at hc
            simp only at hc
            have h0 := insertConstraint_pot hI.good hs (hv c List.mem_cons_self) (by omega) hi
            exact le_trans (pot_congr (k := 0) (optimize_varSym _ _ _ hc)
              (optimize_tick _ _ _ hc).le) h0
        have hi1 := idTick_le_pot m A1
        obtain ⟨tag, hI1, _⟩ := addConstraint_inv hI hc (by omega)
        have := ih hI1 hs1 (fun c hc => hv c (List.mem_cons_of_mem _ hc)) (by omega) h
        omega
  have := gen cs inv_new (seen := []) (fun _ _ => rfl) hv (by rw [pot_new]; exact hb) h
  rw [pot_new] at this
  exact le_trans (idTick_le_pot m S) this

/-- Every variable that occurs in an added constraint has an external symbol, however many
constraints there are. -/
theorem addConstraints_varSym {ω fuel} (cs : List Constr) : ∀ {A S : Solver},
    (∀ v s, A.varSym v = some s → s.type = .external) →
    A.addConstraints ω fuel cs = .ok S →
    (∀ v s, S.varSym v = some s → s.type = .external) ∧
    (∀ v, (A.varSym v).isSome → (S.varSym v).isSome) ∧
    (∀ c ∈ cs, ∀ v k, (v, k) ∈ c.expr.terms → k ≠ 0 → (S.varSym v).isSome) := by
  have terms : ∀ (ts : List (Var × ℚ)) (A : Solver) (row : Row),
      (∀ v s, A.varSym v = some s → s.type = .external) →
      (∀ v s, (A.addTerms row ts).1.varSym v = some s → s.type = .external) ∧
      (∀ v, (A.varSym v).isSome → ((A.addTerms row ts).1.varSym v).isSome) ∧
      (∀ v k, (v, k) ∈ ts → k ≠ 0 → ((A.addTerms row ts).1.varSym v).isSome) := by
    intro ts
    induction ts with
    | nil => intro A row hA; exact ⟨hA, fun _ h => h, by simp⟩
    | cons t ts ih =>
      intro A row hA
      obtain ⟨v, k⟩ := t
      unfold addTerms
      split_ifs with hk
      · obtain ⟨h1, h2, h3⟩ := ih A row hA
        refine ⟨h1, h2, ?_⟩
        intro u q hu hq
        rcases List.mem_cons.1 hu with h | h
        · cases h; exact absurd hk hq
        · exact h3 u q h hq
      · have hg : (∀ u s, (A.getVarSymbol v).1.varSym u = some s → s.type = .external) ∧
            (∀ u, (A.varSym u).isSome → ((A.getVarSymbol v).1.varSym u).isSome) ∧
            ((A.getVarSymbol v).1.varSym v).isSome := by
          unfold getVarSymbol
          cases hv : A.varSym v with
          | some s => exact ⟨hA, fun _ h => h, by simp [hv]⟩
          | none =>
            refine ⟨?_, ?_, by simp⟩
            · intro u s hu
              simp only at hu
              split_ifs at hu
              · cases hu; rfl
              · exact hA u s hu
            · intro u hu
              simp only
              split_ifs
              · rfl
              · exact hu
        obtain ⟨g1, g2, g3⟩ := hg
        have fin : ∀ row', (∀ u s, ((A.getVarSymbol v).1.addTerms row' ts).1.varSym u = some s →
              s.type = .external) ∧
            (∀ u, (A.varSym u).isSome → (((A.getVarSymbol v).1.addTerms row' ts).1.varSym u).isSome) ∧
            (∀ u q, (u, q) ∈ (v, k) :: ts → q ≠ 0 →
              (((A.getVarSymbol v).1.addTerms row' ts).1.varSym u).isSome) := by
          intro row'
          obtain ⟨h1, h2, h3⟩ := ih (A.getVarSymbol v).1 row' g1
          refine ⟨h1, fun u hu => h2 u (g2 u hu), ?_⟩
          intro u q hu hq
          rcases List.mem_cons.1 hu with h | h
          · cases h; exact h2 _ g3
          · exact h3 u q h hq
        simp only
        split
        · exact fin _
        · exact fin _
  have create : ∀ (A : Solver) (c : Constr) , (∀ v s, A.varSym v = some s → s.type = .external) →
      (∀ v s, (A.createRow c).1.varSym v = some s → s.type = .external) ∧
      (∀ v, (A.varSym v).isSome → ((A.createRow c).1.varSym v).isSome) ∧
      (∀ v k, (v, k) ∈ c.expr.terms → k ≠ 0 → ((A.createRow c).1.varSym v).isSome) := by
    intro A c hA
    have hm : ∀ (B : Solver) row, (B.addMarkers row c).1.varSym = B.varSym := by
      intro B row
      unfold addMarkers
      cases c.op <;> simp only <;> split_ifs <;> rfl
    have : (A.createRow c).1.varSym
        = (A.addTerms (Row.new c.expr.constant) c.expr.terms).1.varSym := by
      unfold createRow; simp only; exact hm _ _
    rw [this]
    exact terms _ _ _ hA
  have single : ∀ (A : Solver) (c : Constr) (B : Solver), A.addConstraint ω fuel c = .ok B →
      B.varSym = (A.createRow c).1.varSym := by
    intro A c B h
    unfold addConstraint at h
    cases hi : A.insertConstraint ω fuel c with
    | error e => rw [hi] at h; cases h
    | ok S1 =>
      rw [hi] at h
      rw [optimize_varSym _ _ _ h, insertConstraint_varSym hi]
  induction cs with
  | nil =>
    intro A S hA h
    simp only [addConstraints, Except.ok.injEq] at h
    subst h
    exact ⟨hA, fun _ h => h, by simp⟩
  | cons c cs ih =>
    intro A S hA h
    unfold addConstraints at h
    cases hc : A.addConstraint ω fuel c with
    | error e => rw [hc] at h; cases h
    | ok A1 =>
      rw [hc] at h
      simp only at h
      have hs := single A c A1 hc
      obtain ⟨c1, c2, c3⟩ := create A c hA
      rw [← hs] at c1 c2 c3
      obtain ⟨h1, h2, h3⟩ := ih c1 h
      refine ⟨h1, fun v hv => h2 v (c2 v hv), ?_⟩
      intro c' hc' v k hv hk
      rcases List.mem_cons.1 hc' with rfl | hc'
      · exact h2 v (c3 v k hv hk)
      · exact h3 c' hc' v k hv hk

/-- **C22, negation.**  Whenever more than 256 variables occur in the constraints, two of them share
a symbol, hence always have the same value: whatever the constraints say.  A layout with `n`
constraints has `2 * n + 2` variables. -/
theorem C22_many_variables_false {ω fuel cs} {S : Solver}
    (h : Solver.new.addConstraints ω fuel cs = .ok S) {m : Nat} (hm : 256 < m)
    (hall : ∀ v < m, ∃ c ∈ cs, ∃ k, (v, k) ∈ c.expr.terms ∧ k ≠ 0) :
    ∃ v w, v < m ∧ w < m ∧ v ≠ w ∧ S.varSym v = S.varSym w ∧ S.getValue v = S.getValue w := by
  obtain ⟨h1, _, h3⟩ := addConstraints_varSym cs (A := Solver.new) (by simp [Solver.new]) h
  have hsome : ∀ v < m, (S.varSym v).isSome := by
    intro v hv
    obtain ⟨c, hc, k, hk, hk0⟩ := hall v hv
    exact h3 c hc v k hk hk0
  let f : Fin m → Fin 256 := fun v => ((S.varSym v).map Sym.value).getD 0
  obtain ⟨v, w, hne, hf⟩ := Fintype.exists_ne_map_eq_of_card_lt f (by simpa using hm)
  obtain ⟨s, hs⟩ := Option.isSome_iff_exists.1 (hsome v v.2)
  obtain ⟨t, ht⟩ := Option.isSome_iff_exists.1 (hsome w w.2)
  have hst : s = t := by
    apply Casso.Sym.ext
    · simpa [f, hs, ht] using hf
    · rw [h1 _ _ hs, h1 _ _ ht]
  refine ⟨v, w, v.2, w.2, fun h => hne (Fin.ext h), by rw [hs, ht, hst], ?_⟩
  unfold getValue
  simp [hs, ht, hst]

/-- The constraints `v = v` (the variable numbered `v` equals the constant `v`), all required. -/
def fixEach (m : Nat) : List Constr :=
  (List.range m).map fun v => Constr.constantRHS .eq required (Expr.ofVar v) (v : ℚ)

/-- **C20, C21 and C58 fail beyond the size of the counter.**  The satisfiable required constraints
`v₀ = 0, …, v₂₅₆ = 256` are never solved: whatever the map order, the solver refuses them, runs
forever or reports values that violate them. -/
theorem C20_many_variables_false (ω : Nat → Nat) (fuel m : Nat) (hm : 256 < m) :
    Feasible (fixEach m) (fun v => (v : ℚ)) ∧
    ¬ ∃ S, Solver.new.addConstraints ω fuel (fixEach m) = .ok S ∧
      Feasible (fixEach m) S.getValue := by
  have ev : ∀ (x : Var → ℚ) (v : Nat),
      (Constr.constantRHS .eq required (Expr.ofVar v) (v : ℚ)).Holds x ↔ x v = v := by
    intro x v
    simp only [Constr.Holds, Constr.constantRHS, Expr.ofVar, Expr.subConstant, Expr.eval,
      List.map_cons, List.map_nil, List.sum_cons, List.sum_nil]
    constructor <;> intro h <;> linarith
  constructor
  · intro c hc _
    obtain ⟨v, _, rfl⟩ := List.mem_map.1 hc
    exact (ev _ v).2 rfl
  · rintro ⟨S, h, hf⟩
    have hval : ∀ v < m, S.getValue v = v := by
      intro v hv
      exact (ev _ v).1 (hf _ (List.mem_map.2 ⟨v, by simpa using hv, rfl⟩) (le_refl required))
    obtain ⟨v, w, hv, hw, hne, _, he⟩ := C22_many_variables_false h hm (fun v hv =>
      ⟨_, List.mem_map.2 ⟨v, by simpa using hv, rfl⟩, 1, by
        simp [Constr.constantRHS, Expr.ofVar, Expr.subConstant], one_ne_zero⟩)
    rw [hval v hv, hval w hw] at he
    exact hne (by exact_mod_cast he)

/-! ## C58 -/

/-- **C58.** `AddConstraint` refuses only what cannot be satisfied: if some assignment satisfies all
required constraints, adding them never fails (it succeeds, or the simplex loop is still running),
for every map order — as long as `m` variables and `cs.length` constraints fit the symbol counter.

Missing for the full statement: larger systems (false, `C20_many_variables_false`) and a bound on the
number of pivots, which does not exist for arbitrary pivot orders. -/
theorem C58_no_false_refusal_partial {ω fuel} {m : Nat} {cs} (hv : ∀ c ∈ cs, ∀ v k, (v, k) ∈ c.expr.terms → v < m)
    (hb : 1 + m + symbolsFor [] cs ≤ 256) (hw : ∀ c ∈ cs, 0 ≤ c.strength) {x : Var → ℚ}
    (hx : Feasible cs x) :
    Solver.new.addConstraints ω fuel cs = .error .fuel ∨
    ∃ S, Solver.new.addConstraints ω fuel cs = .ok S ∧ S.idTick ≤ 256 := by
  rcases addConstraints_complete (ω := ω) (fuel := fuel) cs inv_new (seen := []) (fun _ _ => rfl) hv (by rw [pot_new]; exact hb)
    (by simp) hw (by simp) hx with h | ⟨S, h, hp⟩
  · exact Or.inl h
  · refine Or.inr ⟨S, h, ?_⟩
    have := idTick_le_pot m S
    rw [pot_new] at hp
    omega

/-- Conversely, contradictory required constraints are always refused (or the loop still runs). -/
theorem C58_refuses_contradictions_partial {ω fuel} {m : Nat} {cs}
    (hv : ∀ c ∈ cs, ∀ v k, (v, k) ∈ c.expr.terms → v < m)
    (hb : 1 + m + symbolsFor [] cs ≤ 256) (hx : ¬ ∃ x, Feasible cs x) :
    ∃ e, Solver.new.addConstraints ω fuel cs = .error e := by
  cases h : Solver.new.addConstraints ω fuel cs with
  | error e => exact ⟨e, rfl⟩
  | ok S =>
    have := C22_symbol_budget h hv hb
    exact absurd ⟨_, C20_required_hold_partial h (by omega)⟩ hx

/-! ## C59 -/

/-- **C59, negation.**  A second `FetchChanges` reports one bogus entry "variable 0 has value 0" for
each entry of the first report (Go's `clear` of a slice zeroes it without shortening it). -/
theorem C59_second_fetch_false {ω fuel cs} {S : Solver}
    (h : Solver.new.addConstraints ω fuel cs = .ok S) (hn : S.idTick ≤ 256) :
    S.fetchChanges.1.fetchChanges.2 = S.fetchChanges.2.map fun _ => (0, 0) := by
  obtain ⟨H, hI, _, hl, hp⟩ := addConstraints_inv cs inv_new h hn
  have hns := hI.good.chg.noClear
  simp [fetchChanges, hns, hp, Solver.new, collectChanges]

/-- **C59**, for the first call only: it reports exactly values, and every variable whose value is
not the initial 0.  Missing: later calls, for which the claim is false. -/
theorem C59_first_fetch_partial {ω fuel cs} {S : Solver}
    (h : Solver.new.addConstraints ω fuel cs = .ok S) (hn : S.idTick ≤ 256) :
    (∀ v q, (v, q) ∈ S.fetchChanges.2 → q = S.getValue v) ∧
    (∀ v, S.getValue v ≠ 0 → (v, S.getValue v) ∈ S.fetchChanges.2) := by
  obtain ⟨h1, h2⟩ := C20_fetch_reports_values h hn
  refine ⟨h1, fun v hv => ?_⟩
  by_contra hc
  apply hv
  apply h2
  intro q hq
  rw [h1 v q hq] at hq
  exact hc hq

/-! ## Concrete cases -/

/-- `v₀ + v₁ ≤ 10` required, `v₀ = 7` strong, `v₁ = 7` weak. -/
def sampleConstraints : List Constr :=
  [⟨⟨[(0, 1), (1, 1)], -10⟩, .le, required⟩, ⟨⟨[(0, 1)], -7⟩, .eq, strong⟩,
   ⟨⟨[(1, 1)], -7⟩, .eq, weak⟩]

/-- Does a computation succeed with a result that passes a test? -/
def okAnd {β : Type} (p : β → Bool) : Except SolverErr β → Bool
  | .ok b => p b
  | .error _ => false

/-- The hypotheses of `C20_required_hold_partial`, `C21_minimal_violation_partial`,
`C22_variables_distinct_partial` and `C59_first_fetch_partial` hold for a run on the sample, which
ends with `v₀ = 7`, `v₁ = 3`: the required bound and the strong wish are kept, the weak one gives
way. -/
example : okAnd (fun S => decide (S.idTick ≤ 256 ∧ S.getValue 0 = 7 ∧ S.getValue 1 = 3))
    (Solver.new.addConstraints (fun _ => 0) 10 sampleConstraints) = true := by
  decide +kernel

/-- The hypotheses of `C58_no_false_refusal_partial` hold for the sample. -/
example : (∀ c ∈ sampleConstraints, ∀ v k, (v, k) ∈ c.expr.terms → v < 2) ∧
    1 + 2 + 2 * sampleConstraints.length ≤ 256 ∧ (∀ c ∈ sampleConstraints, 0 ≤ c.strength) ∧
    Feasible sampleConstraints (fun _ => 0) := by
  refine ⟨?_, by decide, ?_, ?_⟩
  · intro c hc v k hv
    simp only [sampleConstraints, List.mem_cons, List.not_mem_nil, or_false] at hc
    rcases hc with rfl | rfl | rfl <;> simp at hv <;> rcases hv with ⟨rfl, _⟩ | ⟨rfl, _⟩ <;> decide
  · intro c hc
    simp only [sampleConstraints, List.mem_cons, List.not_mem_nil, or_false] at hc
    rcases hc with rfl | rfl | rfl <;> norm_num [required, strong, weak]
  · intro c hc hr
    simp only [sampleConstraints, List.mem_cons, List.not_mem_nil, or_false] at hc
    rcases hc with rfl | rfl | rfl
    · norm_num [Constr.Holds, Expr.eval]
    · norm_num [Constr.IsRequired, required, strong] at hr
    · norm_num [Constr.IsRequired, required, weak] at hr

/-- The hypotheses of `C58_refuses_contradictions_partial`: `v₀ ≤ 0` and `v₀ ≥ 1` have no solution. -/
example : ¬ ∃ x, Feasible
    [⟨⟨[(0, 1)], 0⟩, .le, required⟩, ⟨⟨[(0, 1)], -1⟩, .ge, required⟩] x := by
  rintro ⟨x, hx⟩
  have h1 := hx _ (List.mem_cons_self) (le_refl required)
  have h2 := hx _ (List.mem_cons_of_mem _ List.mem_cons_self) (le_refl required)
  simp [Constr.Holds, Expr.eval] at h1 h2
  linarith

end Bento
