import Verif.Model.Layout
import Mathlib.Tactic.Ring
import Mathlib.Tactic.Linarith

/-!
# The enumeration of pairs
-/

namespace Bento.Layout

/-- The combinations `[i, j], …, [i, n - 1]`. -/
def rowFrom (n i j : Nat) : List (List Int) :=
  (List.range (n - j)).map fun t => [(i : Int), ((j + t : Nat) : Int)]

/-- The combinations whose first index is at least `i`; `d` rows. -/
def rowsFrom (n : Nat) : Nat → Nat → List (List Int)
  | 0, _ => []
  | d + 1, i => rowFrom n i (i + 1) ++ rowsFrom n d (i + 1)

theorem rowFrom_cons {n i j : Nat} (h : j < n) :
    rowFrom n i j = [(i : Int), (j : Int)] :: rowFrom n i (j + 1) := by
  unfold rowFrom
  obtain ⟨k, hk⟩ : ∃ k, n - j = k + 1 := ⟨n - j - 1, by omega⟩
  have hk' : n - (j + 1) = k := by omega
  rw [hk, hk', List.range_succ_eq_map, List.map_cons, List.map_map]
  refine congrArg₂ List.cons (by simp) ?_
  apply List.map_congr_left
  intro t _
  simp only [Function.comp, Nat.succ_eq_add_one]
  congr 2
  push_cast; ring

theorem next_in_row {n i j : Nat} (h : j + 1 < n) :
    nextCombination [(i : Int), (j : Int)] n 2 = [(i : Int), ((j + 1 : Nat) : Int)] := by
  have : ¬ ((j : Int) = (n : Int) + 1 - 2) := by omega
  simp [nextCombination, nextLoop, this, List.range_succ]

theorem next_row {n i : Nat} (h : i + 2 < n) :
    nextCombination [(i : Int), ((n - 1 : Nat) : Int)] n 2
      = [((i + 1 : Nat) : Int), ((i + 2 : Nat) : Int)] := by
  have h1 : (((n - 1 : Nat) : Int) = (n : Int) + 1 - 2) := by omega
  have h2 : ¬ ((i : Int) = (n : Int) - 2) := by omega
  simp [nextCombination, nextLoop, h1, h2, List.range_succ]
  omega

theorem loop_row {n i : Nat} (d : Nat) : ∀ (j m : Nat), j + 1 + d = n →
    combinationsLoop n 2 (d + m) [(i : Int), (j : Int)]
      = rowFrom n i (j + 1) ++ combinationsLoop n 2 m [(i : Int), ((n - 1 : Nat) : Int)] := by
  induction d with
  | zero =>
    intro j m h
    have hj : n - 1 = j := by omega
    have : n - (j + 1) = 0 := by omega
    simp [rowFrom, this, hj]
  | succ d ih =>
    intro j m h
    rw [show d + 1 + m = (d + m) + 1 by omega, combinationsLoop, next_in_row (by omega),
      ih (j + 1) m (by omega), rowFrom_cons (show j + 1 < n by omega)]
    rfl

theorem loop_rows {n : Nat} (d : Nat) : ∀ (i : Nat), i + 2 + d = n →
    combinationsLoop n 2 (rowsFrom n d (i + 1)).length [(i : Int), ((n - 1 : Nat) : Int)]
      = rowsFrom n d (i + 1) := by
  induction d with
  | zero => intro i _; simp [rowsFrom, combinationsLoop]
  | succ d ih =>
    intro i h
    have hlen : (rowsFrom n (d + 1) (i + 1)).length = (d + (rowsFrom n d (i + 2)).length) + 1 := by
      simp only [rowsFrom, List.length_append, rowFrom, List.length_map, List.length_range]
      have : n - (i + 1 + 1) = d + 1 := by omega
      rw [this, show i + 1 + 1 = i + 2 from rfl]; omega
    rw [hlen, combinationsLoop, next_row (by omega), loop_row d (i + 2) _ (by omega), ih (i + 1) (by omega)]
    simp only [rowsFrom]
    rw [rowFrom_cons (show i + 1 + 1 < n by omega)]
    rfl

theorem rowsFrom_length {n : Nat} (d : Nat) : ∀ (i : Nat), i + 1 + d = n →
    2 * (rowsFrom n d i).length = (d + 1) * d := by
  induction d with
  | zero => intro i _; simp [rowsFrom]
  | succ d ih =>
    intro i h
    have := ih (i + 1) (by omega)
    simp only [rowsFrom, List.length_append, rowFrom, List.length_map, List.length_range]
    have hn : n - (i + 1) = d + 1 := by omega
    rw [hn, Nat.mul_add, this]
    ring

theorem binomial_two {n : Nat} (h : 2 ≤ n) :
    binomial n 2 = some (((rowsFrom n (n - 1) 0).length : Nat) : Int) := by
  have hl := rowsFrom_length (n := n) (n - 1) 0 (by omega)
  have hmul : ((n : Int)) * ((n : Int) - 1) = 2 * (((rowsFrom n (n - 1) 0).length : Nat) : Int) := by
    have h1 : (n - 1 + 1) = n := by omega
    rw [h1] at hl
    have h2 : ((n - 1 : Nat) : Int) = (n : Int) - 1 := by omega
    have h3 : (n : Int) * ((n - 1 : Nat) : Int) = 2 * (((rowsFrom n (n - 1) 0).length : Nat) : Int) := by
      exact_mod_cast hl.symm
    rw [h2] at h3
    exact h3
  unfold binomial
  rw [if_neg (by omega), if_neg (by omega)]
  simp only
  congr 1
  by_cases h4 : n < 4
  · have : n = 2 ∨ n = 3 := by omega
    rcases this with rfl | rfl <;> rfl
  · have : ¬ ((2 : Int) > (n : Int).tdiv 2) := by
      rw [Int.tdiv_eq_ediv_of_nonneg (by omega)]; omega
    rw [if_neg this]
    have h2 : (2 : Int).toNat = 2 := rfl
    rw [h2]
    simp only [binomialLoop]
    rw [show ((n : Int) - 2 + 1) * 1 = (n : Int) - 1 by ring, Int.tdiv_one,
      show ((n : Int) - 2 + (1 + 1)) = n by ring, hmul]
    rw [show (1 + 1 : Int) = 2 by norm_num, Int.mul_tdiv_cancel_left _ (by norm_num)]

theorem combinations_two {n : Nat} (h : 2 ≤ n) :
    combinations n 2 = some (rowsFrom n (n - 1) 0) := by
  unfold combinations
  rw [show ((2 : Nat) : Int) = 2 from rfl, binomial_two h]
  simp only [Option.map_some]
  obtain ⟨d, hd⟩ : ∃ d, n = d + 2 := ⟨n - 2, by omega⟩
  have hlen : (rowsFrom n (n - 1) 0).length = (d + (rowsFrom n d 1).length) + 1 := by
    have : n - 1 = d + 1 := by omega
    rw [this]
    simp only [rowsFrom, List.length_append, rowFrom, List.length_map, List.length_range, Nat.zero_add]
    omega
  rw [hlen, if_neg (by omega)]
  have hf : (List.range 2).map (fun (i : Nat) => (i : Int)) = [((0 : Nat) : Int), ((1 : Nat) : Int)] := rfl
  rw [hf]
  congr 1
  have : ((((d + (rowsFrom n d 1).length) + 1 : Nat) : Int) - 1).toNat
      = d + (rowsFrom n d 1).length := by omega
  rw [this, loop_row d 1 _ (by omega), loop_rows d 0 (by omega)]
  rw [show n - 1 = d + 1 by omega, rowsFrom, rowFrom_cons (show 0 + 1 < n by omega)]
  rfl

/-- All pairs of a list, in order. -/
def allPairs {α : Type} : List α → List (α × α)
  | [] => []
  | x :: xs => xs.map (fun y => (x, y)) ++ allPairs xs

theorem mapM_append_some {α β : Type} {f : α → Option β} {l l' : List α} {r r' : List β}
    (h : l.mapM f = some r) (h' : l'.mapM f = some r') : (l ++ l').mapM f = some (r ++ r') := by
  rw [List.mapM_append, h, h']; rfl

theorem mapM_map_some {α β γ : Type} {g : γ → α} {f : α → Option β} {h : γ → β} (l : List γ)
    (hh : ∀ x ∈ l, f (g x) = some (h x)) : (l.map g).mapM f = some (l.map h) := by
  induction l with
  | nil => rfl
  | cons x l ih =>
    rw [List.map_cons, List.mapM_cons, hh x List.mem_cons_self,
      ih (fun y hy => hh y (List.mem_cons_of_mem _ hy))]
    rfl

theorem mapM_rowFrom {α : Type} (xs : List α) {i : Nat} {x : α} (hx : xs[i]? = some x) (j : Nat) :
    (rowFrom xs.length i j).mapM (pairAt xs) = some ((xs.drop j).map fun y => (x, y)) := by
  have h1 : (xs.drop j).map (fun y => (x, y))
      = (List.range (xs.length - j)).map fun t => (x, (xs[j + t]?).getD x) := by
    apply List.ext_getElem?
    intro k
    simp only [List.getElem?_map, List.getElem?_drop]
    by_cases hk : k < xs.length - j
    · rw [List.getElem?_range hk]
      have : j + k < xs.length := by omega
      simp [List.getElem?_eq_getElem this]
    · have h2 : xs.length ≤ j + k := by omega
      rw [List.getElem?_eq_none h2, List.getElem?_eq_none (by simp; omega)]
      rfl
  rw [h1]
  unfold rowFrom
  apply mapM_map_some
  intro t ht
  have ht' : j + t < xs.length := by have := List.mem_range.1 ht; omega
  unfold pairAt
  simp only [Int.toNat_natCast, hx, List.getElem?_eq_getElem ht']
  rw [if_neg (by omega)]
  rfl

theorem mapM_rowsFrom {α : Type} (xs : List α) (d : Nat) : ∀ (i : Nat), i + 1 + d = xs.length →
    (rowsFrom xs.length d i).mapM (pairAt xs) = some (allPairs (xs.drop i)) := by
  induction d with
  | zero =>
    intro i h
    have h1 : i < xs.length := by omega
    rw [List.drop_eq_getElem_cons h1]
    have h2 : xs.drop (i + 1) = [] := List.drop_eq_nil_of_le (by omega)
    simp [rowsFrom, allPairs, h2]
  | succ d ih =>
    intro i h
    have h1 : i < xs.length := by omega
    rw [List.drop_eq_getElem_cons h1]
    simp only [rowsFrom, allPairs]
    exact mapM_append_some (mapM_rowFrom xs (List.getElem?_eq_getElem h1) (i + 1)) (ih (i + 1) (by omega))

theorem pairsOf_eq {α : Type} (xs : List α) (h : 2 ≤ xs.length) : pairsOf xs = some (allPairs xs) := by
  unfold pairsOf
  rw [combinations_two h]
  simp only [Option.bind_some]
  rw [mapM_rowsFrom xs (xs.length - 1) 0 (by omega)]
  simp

theorem mem_rowFrom {n i j : Nat} {p : List Int} :
    p ∈ rowFrom n i j ↔ ∃ k : Nat, j ≤ k ∧ k < n ∧ p = [(i : Int), (k : Int)] := by
  unfold rowFrom
  simp only [List.mem_map, List.mem_range]
  constructor
  · rintro ⟨t, ht, rfl⟩; exact ⟨j + t, by omega, by omega, rfl⟩
  · rintro ⟨k, h1, h2, rfl⟩; exact ⟨k - j, by omega, by simp; omega⟩

theorem mem_rowsFrom {n : Nat} (d : Nat) : ∀ (i : Nat) {p : List Int},
    p ∈ rowsFrom n d i ↔ ∃ a b : Nat, i ≤ a ∧ a < i + d ∧ a < b ∧ b < n ∧ p = [(a : Int), (b : Int)] := by
  induction d with
  | zero => intro i p; simp only [rowsFrom, List.not_mem_nil, false_iff]; rintro ⟨a, b, h⟩; omega
  | succ d ih =>
    intro i p
    simp only [rowsFrom, List.mem_append, mem_rowFrom, ih]
    constructor
    · rintro (⟨k, h1, h2, rfl⟩ | ⟨a, b, h⟩)
      · exact ⟨i, k, by omega, by omega, by omega, h2, rfl⟩
      · exact ⟨a, b, by omega, by omega, h.2.2⟩
    · rintro ⟨a, b, h1, h2, h3, h4, rfl⟩
      by_cases ha : a = i
      · left; subst ha; exact ⟨b, by omega, h4, rfl⟩
      · right; exact ⟨a, b, by omega, by omega, h3, h4, rfl⟩

/-- Lexicographic order of combinations. -/
def LexLt (p q : List Int) : Prop :=
  p.headI < q.headI ∨ (p.headI = q.headI ∧ p.tail.headI < q.tail.headI)

theorem rowFrom_sorted (n i j : Nat) : (rowFrom n i j).Pairwise LexLt := by
  unfold rowFrom
  rw [List.pairwise_map]
  refine List.pairwise_lt_range.imp ?_
  intro a b hab
  right
  simp only [List.headI_cons, List.tail_cons, true_and]
  omega

theorem rowsFrom_sorted (n d : Nat) : ∀ i : Nat, (rowsFrom n d i).Pairwise LexLt := by
  induction d with
  | zero => intro i; exact List.Pairwise.nil
  | succ d ih =>
    intro i
    simp only [rowsFrom]
    rw [List.pairwise_append]
    refine ⟨rowFrom_sorted _ _ _, ih _, ?_⟩
    intro p hp q hq
    obtain ⟨k, _, _, rfl⟩ := mem_rowFrom.1 hp
    obtain ⟨a, b, h1, _, _, _, rfl⟩ := (mem_rowsFrom d (i + 1)).1 hq
    left
    simp only [List.headI_cons]
    omega

end Bento.Layout
