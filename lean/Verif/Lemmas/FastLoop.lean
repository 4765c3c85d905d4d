import Verif.Lemmas.FastOk
import Verif.Lemmas.Split

/-!
# Concrete runs of the solver

`split_fast` evaluates `SplitWithSpacers` with the list-based solver; `forever` shows that a run which
comes back to the same tableau goes on for ever.
-/

namespace Bento.Casso.Fast

/-! ### More fuel does not change a result -/

theorem optimize_fuel {ω : Nat → Nat} {a : Bool} : ∀ (n d k : Nat) (F : FS),
    optimize ω a n k F ≠ .error .fuel → optimize ω a (n + d) k F = optimize ω a n k F := by
  intro n
  induction n with
  | zero => intro d k F h; exact absurd rfl h
  | succ n ih =>
    intro d k F h
    rw [show n + 1 + d = (n + d) + 1 by omega]
    simp only [optimize] at h ⊢
    cases hs : step (ω k) (ω (k + 1)) (sel a F) F with
    | done => rfl
    | unbounded => rfl
    | next F' =>
      rw [hs] at h
      exact ih d _ _ h

theorem insertConstraint_fuel {ω : Nat → Nat} {n d k : Nat} {F : FS} {c : Constr}
    (h : insertConstraint ω n F k c ≠ .error .fuel) :
    insertConstraint ω (n + d) F k c = insertConstraint ω n F k c := by
  unfold insertConstraint at h ⊢
  simp only at h ⊢
  cases hs : chooseSubject (ω k) (createRow F c).2.1 (createRow F c).2.2.1 (createRow F c).2.2.2 with
  | some s => rfl
  | none =>
    rw [hs] at h
    simp only at h ⊢
    cases hd : allDummies (createRow F c).2.1 with
    | true => rfl
    | false =>
      rw [hd] at h
      simp only [Bool.false_eq_true, if_false] at h ⊢
      have : addWithArtificial ω (n + d) (createRow F c).1 (k + 1) (createRow F c).2.1 =
          addWithArtificial ω n (createRow F c).1 (k + 1) (createRow F c).2.1 := by
        unfold addWithArtificial at h ⊢
        simp only at h ⊢
        rw [optimize_fuel]
        intro he
        rw [he] at h
        exact h rfl
      rw [this]

theorem addConstraint_fuel {ω : Nat → Nat} {n d k : Nat} {F : FS} {c : Constr}
    (h : addConstraint ω n F k c ≠ .error .fuel) :
    addConstraint ω (n + d) F k c = addConstraint ω n F k c := by
  unfold addConstraint at h ⊢
  have hi : insertConstraint ω n F k c ≠ .error .fuel := by
    intro he
    rw [he] at h
    exact h rfl
  rw [insertConstraint_fuel hi]
  cases hr : insertConstraint ω n F k c with
  | error e => rfl
  | ok p =>
    rw [hr] at h
    exact optimize_fuel _ _ _ _ h

theorem addConstraints_fuel {ω : Nat → Nat} {n d : Nat} (cs : List Constr) : ∀ {F : FS} {k : Nat},
    addConstraints ω n F k cs ≠ .error .fuel →
      addConstraints ω (n + d) F k cs = addConstraints ω n F k cs := by
  induction cs with
  | nil => intro F k _; rfl
  | cons c cs ih =>
    intro F k h
    simp only [addConstraints] at h ⊢
    have hi : addConstraint ω n F k c ≠ .error .fuel := by
      intro he
      rw [he] at h
      exact h rfl
    rw [addConstraint_fuel hi]
    cases hr : addConstraint ω n F k c with
    | error e => rfl
    | ok p =>
      rw [hr] at h
      exact ih h

theorem addConstraints_append {ω : Nat → Nat} {n : Nat} (as bs : List Constr) : ∀ {F : FS} {k : Nat},
    addConstraints ω n F k (as ++ bs) =
      match addConstraints ω n F k as with
      | .error e => .error e
      | .ok p => addConstraints ω n p.1 p.2 bs := by
  induction as with
  | nil => intro F k; rfl
  | cons a as ih =>
    intro F k
    simp only [List.cons_append, addConstraints]
    cases addConstraint ω n F k a with
    | error e => rfl
    | ok p => exact ih

/-! ### Runs of the loop -/

/-- `n` pivots. -/
def run (ω : Nat → Nat) (a : Bool) : Nat → Nat → FS → Option FS
  | 0, _, F => some F
  | n + 1, k, F =>
    match step (ω k) (ω (k + 1)) (sel a F) F with
    | .next F' => run ω a n (k + 2) F'
    | _ => none

theorem run_next {ω : Nat → Nat} {a : Bool} {n k : Nat} {F F' : FS} (h : run ω a (n + 1) k F = some F') :
    ∃ G, step (ω k) (ω (k + 1)) (sel a F) F = .next G ∧ run ω a n (k + 2) G = some F' := by
  simp only [run] at h
  cases hs : step (ω k) (ω (k + 1)) (sel a F) F with
  | done => rw [hs] at h; simp at h
  | unbounded => rw [hs] at h; simp at h
  | next G => rw [hs] at h; exact ⟨G, rfl, h⟩

theorem run_short {ω : Nat → Nat} {a : Bool} : ∀ {n fuel k : Nat} {F F' : FS},
    run ω a n k F = some F' → fuel ≤ n → optimize ω a fuel k F = .error .fuel := by
  intro n
  induction n with
  | zero =>
    intro fuel k F F' _ hf
    rw [Nat.le_zero.1 hf]
    rfl
  | succ n ih =>
    intro fuel k F F' h hf
    cases fuel with
    | zero => rfl
    | succ fuel =>
      obtain ⟨G, h1, h2⟩ := run_next h
      simp only [optimize, h1]
      exact ih h2 (Nat.le_of_succ_le_succ hf)

theorem run_long {ω : Nat → Nat} {a : Bool} : ∀ {n m k : Nat} {F F' : FS},
    run ω a n k F = some F' → optimize ω a (n + m) k F = optimize ω a m (k + 2 * n) F' := by
  intro n
  induction n with
  | zero =>
    intro m k F F' h
    simp only [run, Option.some.injEq] at h
    rw [h]
    simp
  | succ n ih =>
    intro m k F F' h
    obtain ⟨G, h1, h2⟩ := run_next h
    rw [show n + 1 + m = (n + m) + 1 by omega]
    simp only [optimize, h1]
    rw [ih h2, show k + 2 + 2 * n = k + 2 * (n + 1) by omega]

theorem run_shift {ω : Nat → Nat} {a : Bool} : ∀ {n k k' : Nat} {F : FS},
    (∀ i < 2 * n, ω (k + i) = ω (k' + i)) → run ω a n k F = run ω a n k' F := by
  intro n
  induction n with
  | zero => intro k k' F _; rfl
  | succ n ih =>
    intro k k' F h
    simp only [run]
    have h0 := h 0 (by omega)
    have h1 := h 1 (by omega)
    simp only [Nat.add_zero] at h0
    rw [h0, h1]
    cases step (ω k') (ω (k' + 1)) (sel a F) F with
    | done => rfl
    | unbounded => rfl
    | next G =>
      apply ih
      intro i hi
      have := h (i + 2) (by omega)
      rw [show k + 2 + i = k + (i + 2) by omega, show k' + 2 + i = k' + (i + 2) by omega, this]

/-- A run that comes back to where it was, with picks that repeat, never ends. -/
theorem forever {ω : Nat → Nat} {a : Bool} {n k : Nat} {F : FS} (hn : 0 < n)
    (hp : ∀ i, ω (k + (i + 2 * n)) = ω (k + i)) (hr : run ω a n k F = some F) (fuel : Nat) :
    optimize ω a fuel k F = .error .fuel := by
  have hper : ∀ j i, ω (k + 2 * n * j + i) = ω (k + i) := by
    intro j
    induction j with
    | zero => intro i; simp
    | succ j ih =>
      intro i
      have : k + 2 * n * (j + 1) + i = k + ((2 * n * j + i) + 2 * n) := by rw [Nat.mul_succ]; omega
      rw [this, hp, show k + (2 * n * j + i) = k + 2 * n * j + i by omega, ih]
  have key : ∀ fuel j, optimize ω a fuel (k + 2 * n * j) F = .error .fuel := by
    intro fuel
    induction fuel using Nat.strongRecOn with
    | _ fuel ih =>
      intro j
      have hrj : run ω a n (k + 2 * n * j) F = some F := by
        rw [← hr]
        exact run_shift fun i _ => hper j i
      by_cases hf : fuel ≤ n
      · exact run_short hrj hf
      · have hfl : fuel = n + (fuel - n) := by omega
        rw [hfl, run_long hrj]
        have := ih (fuel - n) (by omega) (j + 1)
        rw [show k + 2 * n * j + 2 * n = k + 2 * n * (j + 1) by rw [Nat.mul_succ]; omega]
        exact this
  simpa using key fuel 0

/-- A computation that finds a repeated tableau while adding the constraint after the first `i`:
`p` pivots lead to it, `n` more come back to it. -/
def loops (ω : Nat → Nat) (f i p n at' : Nat) (cs : List Constr) : Bool :=
  match cs.drop i with
  | [] => false
  | c :: _ =>
    match addConstraints ω f new 0 (cs.take i) with
    | .error _ => false
    | .ok r =>
      match insertConstraint ω f r.1 r.2 c with
      | .error _ => false
      | .ok q =>
        match run ω false p q.2 q.1 with
        | none => false
        | some F => decide (q.2 + 2 * p = at') && decide (run ω false n at' F = some F)

theorem forever_of_loops {ω : Nat → Nat} {f i p n at' : Nat} {cs : List Constr}
    (h : loops ω f i p n at' cs = true) (hn : 0 < n) (hp : ∀ i, ω (at' + (i + 2 * n)) = ω (at' + i))
    (fuel : Nat) : addConstraints ω fuel new 0 cs = .error .fuel := by
  unfold loops at h
  split at h
  · simp at h
  · rename_i c rest hdrop
    split at h
    · simp at h
    · rename_i r hr
      split at h
      · simp at h
      · rename_i q hq
        split at h
        · simp at h
        · rename_i F hF
          simp only [Bool.and_eq_true, decide_eq_true_eq] at h
          obtain ⟨h1, h2⟩ := h
          have hcs : cs = cs.take i ++ c :: rest := by rw [← hdrop, List.take_append_drop]
          have big : ∀ d, addConstraints ω (f + d) new 0 cs = .error .fuel := by
            intro d
            rw [hcs, addConstraints_append]
            have e1 : addConstraints ω (f + d) new 0 (cs.take i) = .ok r := by
              rw [addConstraints_fuel, hr]
              rw [hr]; simp
            have e2 : insertConstraint ω (f + d) r.1 r.2 c = .ok q := by
              rw [insertConstraint_fuel, hq]
              rw [hq]; simp
            rw [e1]
            simp only [addConstraints, addConstraint, e2]
            have e3 : optimize ω false (f + d) q.2 q.1 = .error .fuel := by
              by_cases hfd : f + d ≤ p
              · exact run_short hF hfd
              · rw [show f + d = p + (f + d - p) by omega, run_long hF, h1]
                exact forever hn hp h2 _
            rw [e3]
          by_contra hne
          have := addConstraints_fuel (ω := ω) (n := fuel) (d := f) cs hne
          rw [Nat.add_comm, big] at this
          exact hne this.symm

end Bento.Casso.Fast

namespace Bento.Layout
open Casso

/-- `SplitWithSpacers` can be evaluated with the list-based solver. -/
theorem split_fast {ω : Nat → Nat} {fuel : Nat} (l : Layout) (area : Rect)
    (h : Few l) :
    splitWithSpacers ω fuel l area = fastSplit ω fuel l area := by
  unfold splitWithSpacers fastSplit
  simp only [solverConstraints_eq]
  generalize hin : area.inner l.padding = inner at *
  have hle : (((l.areaBounds inner).1 : ℚ) * multiplier) ≤ (((l.areaBounds inner).2 : ℚ) * multiplier) := by
    have := inner_bounds l area
    rw [hin] at this
    have h' : ((l.areaBounds inner).1 : ℚ) ≤ (l.areaBounds inner).2 := by exact_mod_cast this
    exact mul_le_mul_of_nonneg_right h' (by norm_num [multiplier])
  have hb := budget_few h inner
  have hx := (feasible_iff l inner _).2 (placed_trivial l.constraints.length hle)
  have hv : ∀ c ∈ hardList l inner ++ softList l, ∀ v k, (v, k) ∈ c.expr.terms →
      v < 2 * l.constraints.length + 2 := by
    intro c hc
    rcases List.mem_append.1 hc with hc | hc
    · exact hard_below l inner c hc
    · exact (soft_softList l c hc).below
  have hw : ∀ c ∈ hardList l inner ++ softList l, 0 ≤ c.strength := by
    intro c hc
    rcases List.mem_append.1 hc with hc | hc
    · exact le_trans (by norm_num [required]) (hard_isRequired l inner c hc)
    · exact (soft_softList l c hc).nonneg
  have hrel := Fast.Rel.addConstraints ω fuel (hardList l inner ++ softList l) _ _ _ Fast.Rel.new
  rcases C58_no_false_refusal_partial (ω := ω) (fuel := fuel) hv hb hw hx with h | ⟨S, h, hn⟩
  · rw [h] at hrel ⊢
    cases hF : Fast.addConstraints ω fuel Fast.new 0 (hardList l inner ++ softList l) with
    | ok p => rw [hF] at hrel; exact hrel.elim
    | error e =>
      rw [hF] at hrel
      rw [show e = .fuel from hrel]
  · have hfetch := C20_fetch_reports_values h hn
    have hc := changesMap_eq hfetch.1 hfetch.2
    rw [h] at hrel ⊢
    simp only [hc]
    cases hF : Fast.addConstraints ω fuel Fast.new 0 (hardList l inner ++ softList l) with
    | error e => rw [hF] at hrel; exact hrel.elim
    | ok p =>
      rw [hF] at hrel
      have hR : Fast.Rel p.1 p.2 S := hrel
      have : S.getValue = Fast.getValue p.1 := funext hR.getValue
      rw [this]

/-- If the list-based solver never ends, `SplitWithSpacers` never ends. -/
theorem running_of_fast {ω : Nat → Nat} {fuel : Nat} {l : Layout} {area : Rect} {cs : List Constr}
    (hcs : l.solverConstraints (area.inner l.padding) = some cs)
    (h : Fast.addConstraints ω fuel Fast.new 0 cs = .error .fuel) :
    splitWithSpacers ω fuel l area = .running := by
  have hrel := Fast.Rel.addConstraints ω fuel cs _ _ _ Fast.Rel.new
  rw [h] at hrel
  unfold splitWithSpacers
  simp only [hcs]
  cases hS : Solver.new.addConstraints ω fuel cs with
  | ok S => rw [hS] at hrel; exact hrel.elim
  | error e =>
    rw [hS] at hrel
    rw [← show SolverErr.fuel = e from hrel]

end Bento.Layout
