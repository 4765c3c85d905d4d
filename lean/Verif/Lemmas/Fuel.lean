import Verif.Model.Layout

/-!
# The bound on the pivots does not matter

A run of the solver that ends within some number of pivots gives the same result for every larger number.
-/

namespace Bento.Casso

theorem Solver.optimize_more {ω : Nat → Nat} {sel : Solver → Row} {m : Nat} :
    ∀ {n : Nat}, n ≤ m → ∀ {S : Solver}, Solver.optimize ω sel n S ≠ .error .fuel →
      Solver.optimize ω sel m S = Solver.optimize ω sel n S := by
  induction m with
  | zero =>
    intro n hn S h
    have : n = 0 := by omega
    rw [this]
  | succ m ih =>
    intro n hn S h
    cases n with
    | zero => exact absurd rfl h
    | succ n =>
      simp only [Solver.optimize] at h ⊢
      split
      · rfl
      · rename_i entering he
        rw [he] at h
        simp only at h
        split
        · rfl
        · rename_i leaving hl
          rw [hl] at h
          simp only at h
          split
          · rfl
          · rename_i row hr
            rw [hr] at h
            simp only at h
            exact ih (by omega) h

theorem Solver.insertConstraint_more {ω : Nat → Nat} {n m : Nat} (hnm : n ≤ m) {S : Solver} {c : Constr}
    (h : S.insertConstraint ω n c ≠ .error .fuel) :
    S.insertConstraint ω m c = S.insertConstraint ω n c := by
  unfold Solver.insertConstraint at h ⊢
  simp only at h ⊢
  split
  · rfl
  · rename_i hc
    rw [hc] at h
    simp only at h
    split
    · rfl
    · rename_i hd
      rw [if_neg hd] at h
      unfold Solver.addWithArtificialVariable at h ⊢
      simp only at h ⊢
      rw [Solver.optimize_more hnm]
      intro hf
      rw [hf] at h
      exact h rfl

theorem Solver.addConstraint_more {ω : Nat → Nat} {n m : Nat} (hnm : n ≤ m) {S : Solver} {c : Constr}
    (h : S.addConstraint ω n c ≠ .error .fuel) : S.addConstraint ω m c = S.addConstraint ω n c := by
  unfold Solver.addConstraint at h ⊢
  have hi : S.insertConstraint ω n c ≠ .error .fuel := by
    intro hf
    rw [hf] at h
    exact h rfl
  rw [Solver.insertConstraint_more hnm hi]
  cases he : S.insertConstraint ω n c with
  | error e => rfl
  | ok S1 =>
    rw [he] at h
    exact Solver.optimize_more hnm h

theorem Solver.addConstraints_more {ω : Nat → Nat} {n m : Nat} (hnm : n ≤ m) :
    ∀ (cs : List Constr) {S : Solver}, S.addConstraints ω n cs ≠ .error .fuel →
      S.addConstraints ω m cs = S.addConstraints ω n cs
  | [], _, _ => rfl
  | c :: cs, S, h => by
    unfold Solver.addConstraints at h ⊢
    have hi : S.addConstraint ω n c ≠ .error .fuel := by
      intro hf
      rw [hf] at h
      exact h rfl
    rw [Solver.addConstraint_more hnm hi]
    cases he : S.addConstraint ω n c with
    | error e => rfl
    | ok S1 =>
      rw [he] at h
      exact Solver.addConstraints_more hnm cs h

end Bento.Casso

namespace Bento.Layout

open Casso

theorem split_more {ω : Nat → Nat} {n m : Nat} (hnm : n ≤ m) {l : Layout} {area : Rect}
    (h : splitWithSpacers ω n l area ≠ .running) :
    splitWithSpacers ω m l area = splitWithSpacers ω n l area := by
  unfold splitWithSpacers at h ⊢
  simp only at h ⊢
  cases hc : l.solverConstraints (area.inner l.padding) with
  | none => rfl
  | some cs =>
    rw [hc] at h
    simp only at h ⊢
    rw [Solver.addConstraints_more hnm]
    intro hf
    rw [hf] at h
    exact h rfl

end Bento.Layout
