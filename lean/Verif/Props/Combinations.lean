import Verif.Lemmas.Combinations

/-!
# Property C24: the enumeration of pairs
-/

namespace Bento

open Layout

/-- **C24.** For `n ≥ 2` the enumeration terminates without panic and lists exactly the index pairs
`[i, j]` with `0 ≤ i < j < n`, … -/
theorem C24_pairs_exactly {n : Nat} (h : 2 ≤ n) :
    ∃ l, combinations n 2 = some l ∧
      (∀ p, p ∈ l ↔ ∃ i j : Int, 0 ≤ i ∧ i < j ∧ j < n ∧ p = [i, j]) ∧
      -- … in strictly increasing lexicographic order, hence each exactly once.
      l.Pairwise (fun p q => p.headI < q.headI ∨ (p.headI = q.headI ∧ p.tail.headI < q.tail.headI)) ∧
      l.Nodup := by
  refine ⟨_, combinations_two h, ?_, rowsFrom_sorted _ _ _, ?_⟩
  · intro p
    rw [mem_rowsFrom]
    constructor
    · rintro ⟨a, b, _, _, h3, h4, rfl⟩
      exact ⟨a, b, by omega, by omega, by omega, rfl⟩
    · rintro ⟨i, j, h1, h2, h3, rfl⟩
      refine ⟨i.toNat, j.toNat, by omega, by omega, by omega, by omega, ?_⟩
      rw [Int.toNat_of_nonneg h1, Int.toNat_of_nonneg (by omega)]
  · refine (rowsFrom_sorted _ _ _).imp ?_
    rintro p _ (h | ⟨_, h⟩) rfl <;> omega

/-- **C24.** In terms of the segments: a list with at least two elements yields the pairs of each
element with each later one, without index panic. -/
theorem C24_pairs_of_segments {α : Type} (xs : List α) (h : 2 ≤ xs.length) :
    ∃ ps, pairsOf xs = some ps ∧
      ∀ a b, (a, b) ∈ ps ↔ ∃ i j : Nat, i < j ∧ xs[i]? = some a ∧ xs[j]? = some b := by
  refine ⟨_, pairsOf_eq xs h, ?_⟩
  clear h
  induction xs with
  | nil => intro a b; simp [allPairs]
  | cons x xs ih =>
    intro a b
    simp only [allPairs, List.mem_append, ih, List.mem_map, Prod.mk.injEq]
    constructor
    · rintro (⟨y, hy, rfl, rfl⟩ | ⟨i, j, hij, hi, hj⟩)
      · obtain ⟨k, hk⟩ := List.mem_iff_getElem?.1 hy
        exact ⟨0, k + 1, by omega, rfl, by simpa using hk⟩
      · exact ⟨i + 1, j + 1, by omega, by simpa using hi, by simpa using hj⟩
    · rintro ⟨i, j, hij, hi, hj⟩
      obtain ⟨j, rfl⟩ : ∃ j', j = j' + 1 := ⟨j - 1, by omega⟩
      rw [List.getElem?_cons_succ] at hj
      cases i with
      | zero =>
        left
        simp only [List.getElem?_cons_zero, Option.some.injEq] at hi
        exact ⟨b, List.mem_iff_getElem?.2 ⟨j, hj⟩, hi, rfl⟩
      | succ i =>
        right
        rw [List.getElem?_cons_succ] at hi
        exact ⟨i, j, by omega, hi, hj⟩

example : ∃ ps, Layout.pairsOf ["a", "b", "c"] = some ps ∧ ("a", "c") ∈ ps := by
  obtain ⟨ps, h, hp⟩ := C24_pairs_of_segments ["a", "b", "c"] (by decide)
  exact ⟨ps, h, (hp _ _).2 ⟨0, 2, by decide, rfl, rfl⟩⟩

/-- With fewer than two elements the enumeration would panic; the callers test for this
(`layout.go:281`, `429`, `453`). -/
theorem C24_small_panics : combinations 0 2 = none ∧ combinations 1 2 = none := by
  constructor <;> rfl

example : combinations 4 2 = some [[0, 1], [0, 2], [0, 3], [1, 2], [1, 3], [2, 3]] := by decide +kernel

end Bento
