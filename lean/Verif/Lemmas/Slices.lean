import Verif.Model.Slices

/-!
# Lemmas on slices
-/

namespace Bento

namespace Slices

section

variable {α : Type}

/-- The slice lies in an array, and its length is within its capacity. -/
def Valid (h : Heap α) (s : Slice) : Prop := s.len ≤ s.cap ∧ s.off + s.cap ≤ (h.array s.arr).length

theorem overwrite_getElem? (l : List α) (i : Nat) (xs : List α) (k : Nat) (hi : i + xs.length ≤ l.length) :
    (overwrite l i xs)[k]? = if k < i then l[k]? else if k < i + xs.length then xs[k - i]? else l[k]? := by
  unfold overwrite
  rw [List.append_assoc, List.getElem?_append]
  have hl : (l.take i).length = i := by rw [List.length_take]; omega
  rw [hl]
  by_cases h1 : k < i
  · rw [if_pos h1, if_pos h1, List.getElem?_take_of_lt h1]
  · rw [if_neg h1, if_neg h1, List.getElem?_append]
    by_cases h2 : k < i + xs.length
    · rw [if_pos (by omega), if_pos h2]
    · rw [if_neg (by omega), if_neg h2, List.getElem?_drop]
      congr 1
      omega

theorem overwrite_length (l : List α) (i : Nat) (xs : List α) (hi : i + xs.length ≤ l.length) :
    (overwrite l i xs).length = l.length := by
  unfold overwrite
  simp only [List.length_append, List.length_take, List.length_drop]
  omega

theorem read_getElem? (h : Heap α) (s : Slice) (k : Nat) :
    (read h s)[k]? = if k < s.len then (h.array s.arr)[s.off + k]? else none := by
  unfold read
  rw [List.getElem?_take, List.getElem?_drop]

theorem read_length {h : Heap α} {s : Slice} (hs : Valid h s) : (read h s).length = s.len := by
  obtain ⟨h1, h2⟩ := hs
  unfold read
  rw [List.length_take, List.length_drop]
  omega

theorem array_lt {h : Heap α} {i : Nat} (hi : 0 < (h.array i).length) : i < h.length := by
  unfold Heap.array at hi
  by_cases hh : i < h.length
  · exact hh
  · rw [List.getElem?_eq_none (by omega)] at hi
    cases hi

theorem array_set_self {h : Heap α} {i : Nat} (hi : i < h.length) (l : List α) : Heap.array (h.set i l) i = l := by
  unfold Heap.array
  rw [List.getElem?_set_self hi]
  rfl

theorem array_set_ne {h : Heap α} {i j : Nat} (hij : i ≠ j) (l : List α) : Heap.array (h.set i l) j = h.array j := by
  unfold Heap.array
  rw [List.getElem?_set_ne hij]

theorem array_append_old {h : Heap α} {i : Nat} (hi : i < h.length) (l : List α) : Heap.array (h ++ [l]) i = h.array i := by
  unfold Heap.array
  rw [List.getElem?_append_left hi]

theorem array_append_new (h : Heap α) (l : List α) : Heap.array (h ++ [l]) h.length = l := by
  unfold Heap.array
  simp

/-- An empty slice of an array may be none of the arrays. -/
theorem array_append_length (h : Heap α) (l : List α) (i : Nat) :
    (h.array i).length ≤ (Heap.array (h ++ [l]) i).length := by
  by_cases hi : i < h.length
  · rw [array_append_old hi]
  · unfold Heap.array
    rw [List.getElem?_eq_none (by omega)]
    exact Nat.zero_le _

/-- Storing elements in an array. -/
theorem read_set {h : Heap α} {a i : Nat} {xs : List α} (hi : i + xs.length ≤ (h.array a).length) (t : Slice) (k : Nat) :
    (read (h.set a (overwrite (h.array a) i xs)) t)[k]? =
      if k < t.len then
        if t.arr = a ∧ i ≤ t.off + k ∧ t.off + k < i + xs.length then xs[t.off + k - i]? else (h.array t.arr)[t.off + k]?
      else none := by
  rw [read_getElem?]
  by_cases hk : k < t.len
  · rw [if_pos hk, if_pos hk]
    by_cases ha : t.arr = a
    · subst ha
      by_cases hl : t.arr < h.length
      · rw [array_set_self hl, overwrite_getElem? _ _ _ _ hi]
        by_cases h1 : t.off + k < i
        · rw [if_pos h1, if_neg (by omega)]
        · rw [if_neg h1]
          by_cases h2 : t.off + k < i + xs.length
          · rw [if_pos h2, if_pos ⟨rfl, by omega, h2⟩]
          · rw [if_neg h2, if_neg (by omega)]
      · rw [List.set_eq_of_length_le (by omega)]
        have : (h.array t.arr).length = 0 := by
          unfold Heap.array
          rw [List.getElem?_eq_none (by omega)]
          rfl
        rw [if_neg (by omega)]
    · rw [array_set_ne (Ne.symm ha), if_neg (by tauto)]
  · rw [if_neg hk, if_neg hk]

theorem set_lengths {h : Heap α} {a i : Nat} {xs : List α} (hi : i + xs.length ≤ (h.array a).length) (j : Nat) :
    (Heap.array (h.set a (overwrite (h.array a) i xs)) j).length = (h.array j).length := by
  by_cases ha : a = j
  · subst ha
    by_cases hl : a < h.length
    · rw [array_set_self hl, overwrite_length _ _ _ hi]
    · rw [List.set_eq_of_length_le (by omega)]
  · rw [array_set_ne ha]

theorem valid_set {h : Heap α} {a i : Nat} {xs : List α} (hi : i + xs.length ≤ (h.array a).length) {t : Slice} :
    Valid (h.set a (overwrite (h.array a) i xs)) t ↔ Valid h t := by
  unfold Valid
  rw [set_lengths hi]

/-- Nothing changes for a slice outside the place where elements are stored. -/
theorem read_set_other {h : Heap α} {a i : Nat} {xs : List α} (hi : i + xs.length ≤ (h.array a).length) {t : Slice}
    (ht : t.arr ≠ a ∨ t.off + t.len ≤ i ∨ i + xs.length ≤ t.off) :
    read (h.set a (overwrite (h.array a) i xs)) t = read h t := by
  apply List.ext_getElem?
  intro k
  rw [read_set hi, read_getElem?]
  by_cases hk : k < t.len
  · rw [if_pos hk, if_pos hk, if_neg]
    rintro ⟨h1, h2, h3⟩
    rcases ht with ht | ht | ht
    · exact ht h1
    · omega
    · omega
  · rw [if_neg hk, if_neg hk]

theorem read_alloc_new (zero : α) (spare : Nat) (h : Heap α) (xs : List α) :
    read (alloc zero spare h xs).1 (alloc zero spare h xs).2 = xs := by
  unfold alloc read
  simp only
  rw [array_append_new]
  simp

theorem valid_alloc_new (zero : α) (spare : Nat) (h : Heap α) (xs : List α) :
    Valid (alloc zero spare h xs).1 (alloc zero spare h xs).2 := by
  unfold alloc Valid
  simp only
  rw [array_append_new]
  simp

theorem read_alloc_old (zero : α) (spare : Nat) (h : Heap α) (xs : List α) {t : Slice} (ht : Valid h t) :
    read (alloc zero spare h xs).1 t = read h t := by
  apply List.ext_getElem?
  intro k
  rw [read_getElem?, read_getElem?]
  by_cases hk : k < t.len
  · rw [if_pos hk, if_pos hk]
    have : t.arr < h.length := array_lt (by have := ht.1; have := ht.2; omega)
    unfold alloc
    simp only
    rw [array_append_old this]
  · rw [if_neg hk, if_neg hk]

theorem valid_alloc_old (zero : α) (spare : Nat) (h : Heap α) (xs : List α) {t : Slice} (ht : Valid h t) :
    Valid (alloc zero spare h xs).1 t := by
  refine ⟨ht.1, Nat.le_trans ht.2 ?_⟩
  exact array_append_length h _ t.arr

theorem append_room {h : Heap α} {s : Slice} {xs : List α} (hs : Valid h s) (hr : s.len + xs.length ≤ s.cap) :
    s.off + s.len + xs.length ≤ (h.array s.arr).length := by
  have := hs.2
  omega

theorem read_append (zero : α) (spare : Nat) {h : Heap α} {s : Slice} (hs : Valid h s) (xs : List α) :
    read (append zero spare h s xs).1 (append zero spare h s xs).2 = read h s ++ xs := by
  unfold append
  by_cases hr : s.len + xs.length ≤ s.cap
  · rw [if_pos hr]
    simp only
    apply List.ext_getElem?
    intro k
    rw [read_set (append_room hs hr), List.getElem?_append, read_length hs, read_getElem?]
    simp only
    by_cases h1 : k < s.len
    · rw [if_pos (by omega), if_neg (by omega), if_pos h1, if_pos h1]
    · rw [if_neg h1]
      by_cases h2 : k < s.len + xs.length
      · rw [if_pos h2, if_pos ⟨trivial, by omega, by omega⟩]
        congr 1
        omega
      · rw [if_neg h2, List.getElem?_eq_none (by omega)]
  · rw [if_neg hr]
    exact read_alloc_new _ _ _ _

theorem valid_append (zero : α) (spare : Nat) {h : Heap α} {s : Slice} (hs : Valid h s) (xs : List α) :
    Valid (append zero spare h s xs).1 (append zero spare h s xs).2 := by
  unfold append
  by_cases hr : s.len + xs.length ≤ s.cap
  · rw [if_pos hr]
    simp only
    rw [valid_set (append_room hs hr)]
    exact ⟨hr, hs.2⟩
  · rw [if_neg hr]
    exact valid_alloc_new _ _ _ _

theorem valid_append_other (zero : α) (spare : Nat) {h : Heap α} {s t : Slice} (hs : Valid h s) (xs : List α)
    (ht : Valid h t) : Valid (append zero spare h s xs).1 t := by
  unfold append
  by_cases hr : s.len + xs.length ≤ s.cap
  · rw [if_pos hr]
    simp only
    rw [valid_set (append_room hs hr)]
    exact ht
  · rw [if_neg hr]
    exact valid_alloc_old _ _ _ _ ht

/-- Appending leaves a slice alone that does not reach into the elements behind the appended slice. -/
theorem read_append_other (zero : α) (spare : Nat) {h : Heap α} {s t : Slice} (hs : Valid h s) (xs : List α)
    (ht : Valid h t) (hd : s.len + xs.length ≤ s.cap → t.arr ≠ s.arr ∨ t.off + t.len ≤ s.off + s.len ∨
      s.off + s.len + xs.length ≤ t.off) : read (append zero spare h s xs).1 t = read h t := by
  unfold append
  by_cases hr : s.len + xs.length ≤ s.cap
  · rw [if_pos hr]
    exact read_set_other (append_room hs hr) (hd hr)
  · rw [if_neg hr]
    exact read_alloc_old _ _ _ _ ht

end

end Slices

end Bento
