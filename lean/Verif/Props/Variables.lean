import Verif.Lemmas.Rename

/-!
# C94: layouts computed at the same time do not disturb each other

`NewVariable` reads the process-wide counter and adds to it in two separate operations
(`/repo/internal/casso/casso.go:30-34`), so goroutines that split at the same time can be given the
same variables. This does no harm: the variables of one goroutine are always different from each
other, and the result of a split depends on nothing else.
-/

namespace Bento

open Casso

namespace VarCounter

/-- What holds for one goroutine at any time. -/
structure Ordered (s : VarCounter) (g : Nat) : Prop where
  sorted : (s.given g).Pairwise (· < ·)
  below : ∀ v ∈ s.given g, v < s.counter
  pendingAbove : ∀ w, s.pending g = some w → w ≤ s.counter ∧ ∀ v ∈ s.given g, v < w

theorem ordered_step {s : VarCounter} (hc : s.counter + 1 < 2 ^ 64) {g : Nat} (h : s.Ordered g)
    (a : Nat) : (s.step a).Ordered g ∧ (s.step a).counter ≤ s.counter + 1 := by
  unfold step
  cases hp : s.pending a with
  | none =>
    refine ⟨⟨h.sorted, h.below, ?_⟩, Nat.le_succ _⟩
    intro w hw
    simp only at hw ⊢
    split at hw
    · cases hw
      exact ⟨le_refl _, h.below⟩
    · exact h.pendingAbove w hw
  | some v =>
    simp only
    rw [Nat.mod_eq_of_lt hc]
    refine ⟨?_, le_refl _⟩
    by_cases hg : g = a
    · subst hg
      obtain ⟨h1, h2⟩ := h.pendingAbove v hp
      refine ⟨?_, ?_, ?_⟩
      · simp only [if_true]
        rw [List.pairwise_append]
        refine ⟨h.sorted, List.pairwise_singleton _ _, ?_⟩
        intro x hx y hy
        rw [List.mem_singleton.1 hy]
        exact h2 x hx
      · intro x hx
        simp only [if_true] at hx
        simp only
        rcases List.mem_append.1 hx with hx | hx
        · exact Nat.lt_succ_of_lt (h.below x hx)
        · rw [List.mem_singleton.1 hx]
          exact Nat.lt_succ_of_le h1
      · intro w hw
        simp at hw
    · refine ⟨?_, ?_, ?_⟩
      · simp only [if_neg hg]
        exact h.sorted
      · intro x hx
        simp only [if_neg hg] at hx
        exact Nat.lt_succ_of_lt (h.below x hx)
      · intro w hw
        simp only [if_neg hg] at hw ⊢
        obtain ⟨h1, h2⟩ := h.pendingAbove w hw
        exact ⟨Nat.le_succ_of_le h1, h2⟩

theorem ordered_run (g : Nat) (schedule : List Nat) : ∀ (s : VarCounter), s.Ordered g →
    s.counter + schedule.length < 2 ^ 64 → (schedule.foldl step s).Ordered g := by
  induction schedule with
  | nil => intro s h _; exact h
  | cons a rest ih =>
    intro s h hc
    rw [List.length_cons] at hc
    obtain ⟨h1, h2⟩ := ordered_step (by omega) h a
    exact ih _ h1 (by omega)

end VarCounter

/-- **C94.** In every interleaving of fewer than 2^64 atomic operations, the variables a goroutine has
been given are in increasing order, so they are all different. -/
theorem C94_own_variables (schedule : List Nat) (h : schedule.length < 2 ^ 64) (g : Nat) :
    ((VarCounter.run schedule).given g).Pairwise (· < ·) ∧
      ((VarCounter.run schedule).given g).Nodup := by
  have key := (VarCounter.ordered_run g schedule VarCounter.start
    ⟨List.Pairwise.nil, fun _ hv => absurd hv List.not_mem_nil, fun _ hw => nomatch hw⟩
    (by simpa [VarCounter.start] using h)).sorted
  exact ⟨key, key.imp fun hxy => Nat.ne_of_lt hxy⟩

/-- **C94.** The result of a split is the same whatever the other goroutines have done: two splits of
the same area by the same layout, in two processes with arbitrary histories, with variables that one
goroutine was given in a row, have the same outcome for every map order. -/
theorem C94_split_undisturbed (schedule schedule' : List Nat) (h : schedule.length < 2 ^ 64)
    (h' : schedule'.length < 2 ^ 64) (g g' : Nat) (vars vars' : List Var) (l : Layout)
    (hv : vars <:+: (VarCounter.run schedule).given g)
    (hv' : vars' <:+: (VarCounter.run schedule').given g')
    (hl : vars.length = 2 * l.constraints.length + 2)
    (hl' : vars'.length = 2 * l.constraints.length + 2)
    (ω : Nat → Nat) (fuel : Nat) (area : Rect) :
    l.splitOf vars ω fuel area = l.splitOf vars' ω fuel area := by
  rw [Layout.splitOf_nodup vars ((C94_own_variables schedule h g).2.sublist hv.sublist) ω fuel l hl,
    Layout.splitOf_nodup vars' ((C94_own_variables schedule' h' g').2.sublist hv'.sublist) ω fuel l hl']

/-- **C94.** So the theorems about `splitWithSpacers`, which numbers the variables from 0, are about
splits with the variables that the process-wide counter gives. -/
theorem C94_numbering (schedule : List Nat) (h : schedule.length < 2 ^ 64) (g : Nat)
    (vars : List Var) (l : Layout) (hv : vars <:+: (VarCounter.run schedule).given g)
    (hl : vars.length = 2 * l.constraints.length + 2) (ω : Nat → Nat) (fuel : Nat) (area : Rect) :
    l.splitOf vars ω fuel area = l.splitWithSpacers ω fuel area :=
  Layout.splitOf_nodup vars ((C94_own_variables schedule h g).2.sublist hv.sublist) ω fuel l hl area

/-- Two goroutines that draw four variables each at the same time. -/
def twoAtOnce : List Nat := [0, 1, 0, 1, 1, 0, 0, 1, 0, 1, 0, 1, 0, 0, 1, 1]

/-- **C94.** Different goroutines can be given the same variables. -/
theorem C94_same_variables :
    (VarCounter.run twoAtOnce).given 0 = [0, 2, 4, 6] ∧
    (VarCounter.run twoAtOnce).given 1 = [0, 2, 4, 7] := by
  decide +kernel

/-- A layout of one segment draws four variables; with the numbers above both splits come out alike. -/
example (ω : Nat → Nat) (fuel : Nat) :
    Layout.splitOf [0, 2, 4, 6] ω fuel ⟨.horizontal, [.len 3], ⟨0, 0, 0, 0⟩, .legacy, .space 0⟩
      ⟨0, 0, 9, 1⟩ =
    Layout.splitOf [0, 2, 4, 7] ω fuel ⟨.horizontal, [.len 3], ⟨0, 0, 0, 0⟩, .legacy, .space 0⟩
      ⟨0, 0, 9, 1⟩ :=
  C94_split_undisturbed twoAtOnce twoAtOnce (by decide) (by decide) 0 1 _ _ _
    (by rw [C94_same_variables.1]; exact List.infix_refl _)
    (by rw [C94_same_variables.2]; exact List.infix_refl _) rfl rfl ω fuel _

/-- One goroutine alone is given all numbers in turn. -/
example : (VarCounter.run [0, 0, 0, 0, 0, 0]).given 0 = [0, 1, 2] := by decide +kernel

end Bento
