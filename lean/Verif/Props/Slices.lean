import Mathlib.Data.List.Induction
import Verif.Spec.Slices
import Verif.Lemmas.Slices

/-!
# Builders and shared arrays

Property C56.
-/

namespace Bento

namespace Slices

section

variable {α : Type}

theorem run_append (zero : α) (ops : List (Op α)) (op : Op α) :
    run zero (ops ++ [op]) = (run zero ops).bind fun w => w.step zero op := by
  unfold run
  rw [List.foldlM_append]
  cases h : List.foldlM (World.step zero) (⟨[], []⟩ : World α) ops with
  | none => rfl
  | some w =>
    simp only [List.foldlM_cons, List.foldlM_nil, Option.bind_eq_bind, Option.bind_some]
    cases World.step zero w op <;> rfl

theorem expected_append (ops : List (Op α)) (op : Op α) :
    expected (ops ++ [op]) = (expected ops).bind fun vs => expectedStep vs op := by
  unfold expected
  rw [List.foldlM_append]
  cases h : List.foldlM expectedStep ([] : List (List α)) ops with
  | none => rfl
  | some w =>
    simp only [List.foldlM_cons, List.foldlM_nil, Option.bind_eq_bind, Option.bind_some]
    cases expectedStep w op <;> rfl

/-- What holds after every history. -/
structure Sound (ops : List (Op α)) (w : World α) : Prop where
  length : w.values.length = ops.length
  valid : ∀ s ∈ w.values, Valid w.heap s ∧ s.off = 0 ∧ s.arr < w.heap.length
  new : ∀ (i : Nat) xs s, ops[i]? = some (.new xs) → w.values[i]? = some s → s.len = s.cap
  bound : ∀ i xs a, .extend i xs a ∈ ops → i < ops.length

theorem heap_append_length (zero : α) (spare : Nat) (h : Heap α) (s : Slice) (xs : List α) :
    h.length ≤ (append zero spare h s xs).1.length := by
  unfold append
  split <;> simp [alloc]

theorem sound_step {zero : α} {ops : List (Op α)} {op : Op α} {w w' : World α} (h : Sound ops w)
    (hs : w.step zero op = some w') : Sound (ops ++ [op]) w' := by
  cases op with
  | new xs =>
    simp only [World.step, Option.some.injEq] at hs
    subst hs
    refine ⟨by simp [h.length], ?_, ?_, ?_⟩
    rotate_left 2
    · intro i ys a hm
      rcases List.mem_append.1 hm with hm | hm
      · have := h.bound i ys a hm
        rw [List.length_append]
        omega
      · simp at hm
    · intro s hm
      rcases List.mem_append.1 hm with hm | hm
      · obtain ⟨h1, h2, h3⟩ := h.valid s hm
        exact ⟨valid_alloc_old _ _ _ _ h1, h2, by simp [alloc]; omega⟩
      · simp only [List.mem_singleton] at hm
        subst hm
        exact ⟨valid_alloc_new _ _ _ _, rfl, by simp [alloc]⟩
    · intro i ys s h1 h2
      by_cases hi : i < ops.length
      · rw [List.getElem?_append_left hi] at h1
        rw [List.getElem?_append_left (by rw [h.length]; exact hi)] at h2
        exact h.new i ys s h1 h2
      · rw [List.getElem?_append_right (by rw [h.length]; omega)] at h2
        have := List.mem_of_getElem? h2
        simp only [List.mem_singleton] at this
        subst this
        simp [alloc]
  | extend k xs spare =>
    simp only [World.step] at hs
    cases hk : w.values[k]? with
    | none => rw [hk] at hs; cases hs
    | some v =>
      rw [hk] at hs
      simp only [Option.some.injEq] at hs
      subst hs
      obtain ⟨v1, v2, v3⟩ := h.valid v (List.mem_of_getElem? hk)
      refine ⟨by simp [h.length], ?_, ?_, ?_⟩
      rotate_left 2
      · intro i ys a hm
        have hkl := (List.getElem?_eq_some_iff.1 hk).1
        rw [h.length] at hkl
        rcases List.mem_append.1 hm with hm | hm
        · have := h.bound i ys a hm
          rw [List.length_append]
          omega
        · simp only [List.mem_singleton, Op.extend.injEq] at hm
          rw [List.length_append, hm.1]
          omega
      · intro s hm
        rcases List.mem_append.1 hm with hm | hm
        · obtain ⟨h1, h2, h3⟩ := h.valid s hm
          exact ⟨valid_append_other _ _ v1 _ h1, h2, Nat.lt_of_lt_of_le h3 (heap_append_length _ _ _ _ _)⟩
        · simp only [List.mem_singleton] at hm
          subst hm
          refine ⟨valid_append _ _ v1 _, ?_, ?_⟩
          · unfold append
            split
            · exact v2
            · rfl
          · unfold append
            split
            · simpa using v3
            · simp [alloc]
      · intro i ys s h1 h2
        by_cases hi : i < ops.length
        · rw [List.getElem?_append_left hi] at h1
          rw [List.getElem?_append_left (by rw [h.length]; exact hi)] at h2
          exact h.new i ys s h1 h2
        · rw [List.getElem?_append_right (by omega)] at h1
          have := List.mem_of_getElem? h1
          simp at this

theorem run_sound {zero : α} : ∀ {ops : List (Op α)} {w : World α}, run zero ops = some w → Sound ops w := by
  intro ops
  induction ops using List.reverseRecOn with
  | nil =>
    intro w h
    cases h
    exact ⟨rfl, by simp, by simp, by simp⟩
  | append_singleton ops op ih =>
    intro w h
    rw [run_append] at h
    obtain ⟨w0, h0, h1⟩ := Option.bind_eq_some_iff.1 h
    exact sound_step (ih h0) h1

/-- What holds after every history in which values are extended once. -/
structure Apart (ops : List (Op α)) (w : World α) : Prop where
  last : ∀ (i j : Nat) s t, w.values[i]? = some s → w.values[j]? = some t → i ≠ j → s.arr = t.arr → s.len < s.cap →
    (∀ xs a, .extend i xs a ∉ ops) → t.len < s.len
  contents : expected ops = some w.contents

theorem getElem?_snoc {β : Type} {l : List β} {a b : β} {i : Nat} (h : (l ++ [a])[i]? = some b) :
    l[i]? = some b ∨ (i = l.length ∧ b = a) := by
  by_cases hi : i < l.length
  · rw [List.getElem?_append_left hi] at h
    exact .inl h
  · rw [List.getElem?_append_right (by omega)] at h
    have h1 := (List.getElem?_eq_some_iff.1 h).1
    simp only [List.length_singleton] at h1
    have h2 := List.mem_of_getElem? h
    simp only [List.mem_singleton] at h2
    exact .inr ⟨by omega, h2⟩

theorem apart_step {zero : α} {ops : List (Op α)} {op : Op α} {w w' : World α} (hl : Linear (ops ++ [op]))
    (hso : Sound ops w) (h : Apart ops w) (hs : w.step zero op = some w') : Apart (ops ++ [op]) w' := by
  cases op with
  | new xs =>
    simp only [World.step, Option.some.injEq] at hs
    subst hs
    refine ⟨?_, ?_⟩
    · intro i j s t h1 h2 hij ha hr hn
      rcases getElem?_snoc h1 with h1 | ⟨rfl, rfl⟩
      · rcases getElem?_snoc h2 with h2 | ⟨rfl, rfl⟩
        · exact h.last i j s t h1 h2 hij ha hr fun xs a hm => hn xs a (List.mem_append_left _ hm)
        · have := (hso.valid s (List.mem_of_getElem? h1)).2.2
          simp only [alloc] at ha
          omega
      · simp [alloc] at hr
    · rw [expected_append, h.contents]
      simp only [Option.bind_some, expectedStep, World.contents, List.map_append, List.map_cons, List.map_nil,
        Option.some.injEq]
      rw [read_alloc_new]
      congr 1
      apply List.map_congr_left
      intro s hm
      exact (read_alloc_old _ _ _ _ (hso.valid s hm).1).symm
  | extend k xs spare =>
    have hx : xs ≠ [] := hl.added k xs spare (by simp)
    have hxl : 0 < xs.length := List.length_pos_iff.2 hx
    simp only [World.step] at hs
    cases hk : w.values[k]? with
    | none => rw [hk] at hs; cases hs
    | some v =>
      rw [hk] at hs
      simp only [Option.some.injEq] at hs
      subst hs
      obtain ⟨v1, v2, v3⟩ := hso.valid v (List.mem_of_getElem? hk)
      -- if there is room, nothing else reaches as far as the value
      have hroom : v.len + xs.length ≤ v.cap → ∀ j t, w.values[j]? = some t → k ≠ j → v.arr = t.arr → t.len < v.len := by
        intro hr j t ht hkj ha
        refine h.last k j v t hk ht hkj ha (by omega) ?_
        intro ys a hm
        obtain ⟨m, hm⟩ := List.mem_iff_getElem?.1 hm
        have hml := (List.getElem?_eq_some_iff.1 hm).1
        obtain ⟨zs, hz⟩ := hl.once m ops.length k ys xs a spare hml
          (by rw [List.getElem?_append_left hml]; exact hm) (by simp)
        have hkl : k < ops.length := by
          have := (List.getElem?_eq_some_iff.1 hk).1
          rw [hso.length] at this
          exact this
        rw [List.getElem?_append_left hkl] at hz
        have := hso.new k zs v hz hk
        omega
      refine ⟨?_, ?_⟩
      · intro i j s t h1 h2 hij ha hr hn
        have hik : i ≠ k := by
          rintro rfl
          exact hn xs spare (by simp)
        have hn' : ∀ xs a, .extend i xs a ∉ ops := fun xs a hm => hn xs a (List.mem_append_left _ hm)
        rcases getElem?_snoc h1 with h1 | ⟨rfl, rfl⟩
        · rcases getElem?_snoc h2 with h2 | ⟨rfl, rfl⟩
          · exact h.last i j s t h1 h2 hij ha hr hn'
          · have hsl := (hso.valid s (List.mem_of_getElem? h1)).2.2
            unfold append at ha ⊢
            split at ha
            · rename_i hv
              simp only at ha
              have a1 := hroom hv i s h1 (Ne.symm hik) ha.symm
              have a2 := h.last i k s v h1 hk hik ha hr hn'
              omega
            · simp only [alloc] at ha
              omega
        · rcases getElem?_snoc h2 with h2 | ⟨rfl, _⟩
          · have htl := (hso.valid t (List.mem_of_getElem? h2)).2.2
            unfold append at ha ⊢
            split at ha
            · rename_i hv
              rw [if_pos hv]
              simp only at ha ⊢
              by_cases hkj : k = j
              · subst hkj
                rw [hk] at h2
                cases h2
                omega
              · have := hroom hv j t h2 hkj ha
                omega
            · simp only [alloc] at ha
              omega
          · exact absurd rfl hij
      · rw [expected_append, h.contents]
        have hc : w.contents[k]? = some (read w.heap v) := by
          unfold World.contents
          rw [List.getElem?_map, hk]
          rfl
        simp only [Option.bind_some, expectedStep, hc, Option.some.injEq]
        simp only [World.contents, List.map_append, List.map_cons, List.map_nil]
        rw [read_append _ _ v1]
        congr 1
        apply List.map_congr_left
        intro s hm
        obtain ⟨j, hj⟩ := List.mem_iff_getElem?.1 hm
        obtain ⟨s1, s2, s3⟩ := hso.valid s hm
        refine (read_append_other _ _ v1 _ s1 ?_).symm
        intro hv
        by_cases hsa : s.arr = v.arr
        · refine .inr (.inl ?_)
          rw [s2, v2]
          by_cases hkj : k = j
          · subst hkj
            rw [hk] at hj
            cases hj
            omega
          · have := hroom hv j s hj hkj hsa.symm
            omega
        · exact .inl hsa

theorem Linear.front {zero : α} {ops : List (Op α)} {op : Op α} {w : World α} (h : Linear (ops ++ [op]))
    (hw : run zero ops = some w) : Linear ops := by
  refine ⟨?_, fun i xs a hm => h.added i xs a (List.mem_append_left _ hm)⟩
  intro j k i xs ys a b hjk h1 h2
  have l1 := (List.getElem?_eq_some_iff.1 h1).1
  have l2 := (List.getElem?_eq_some_iff.1 h2).1
  obtain ⟨zs, hz⟩ := h.once j k i xs ys a b hjk (by rw [List.getElem?_append_left l1]; exact h1)
    (by rw [List.getElem?_append_left l2]; exact h2)
  have hi := (run_sound hw).bound i ys b (List.mem_of_getElem? h2)
  rw [List.getElem?_append_left hi] at hz
  exact ⟨zs, hz⟩

theorem run_apart {zero : α} : ∀ {ops : List (Op α)} {w : World α}, Linear ops → run zero ops = some w → Apart ops w := by
  intro ops
  induction ops using List.reverseRecOn with
  | nil =>
    intro w _ h
    cases h
    exact ⟨by simp, rfl⟩
  | append_singleton ops op ih =>
    intro w hl h
    rw [run_append] at h
    obtain ⟨w0, h0, h1⟩ := Option.bind_eq_some_iff.1 h
    exact apart_step hl (run_sound h0) (ih (hl.front h0) h0) h1

end

end Slices

open Slices in
/-- **C56 (partial).** As long as no value other than one straight from a constructor is extended twice, all values
hold what they are expected to hold, whatever room Go leaves in its arrays. Missing: values that are extended twice,
for which it is false (`C56_siblings_false`). -/
theorem C56_linear_partial {α : Type} (zero : α) (ops : List (Op α)) (w : World α) (hl : Linear ops)
    (h : run zero ops = some w) : expected ops = some w.contents :=
  (run_apart hl h).contents

open Slices in
/-- **C56 (partial).** A builder never changes its receiver, nor any value with no more elements. -/
theorem C56_receiver_partial {α : Type} (zero : α) (ops : List (Op α)) (i spare : Nat) (xs : List α) (w w' : World α)
    (h : run zero ops = some w) (h' : run zero (ops ++ [.extend i xs spare]) = some w') (j : Nat)
    (hj : j < ops.length) (hle : (w.contents[j]?.getD []).length ≤ (w.contents[i]?.getD []).length) :
    w'.contents[j]? = w.contents[j]? := by
  rw [run_append, h] at h'
  simp only [Option.bind_some, World.step] at h'
  have hs := run_sound h
  cases hi : w.values[i]? with
  | none => rw [hi] at h'; cases h'
  | some v =>
    rw [hi] at h'
    simp only [Option.some.injEq] at h'
    subst h'
    rw [← hs.length] at hj
    have hjs : w.values[j]? = some w.values[j] := List.getElem?_eq_getElem hj
    obtain ⟨v1, v2, _⟩ := hs.valid v (List.mem_of_getElem? hi)
    obtain ⟨s1, s2, _⟩ := hs.valid w.values[j] (List.mem_of_getElem? hjs)
    unfold World.contents at hle ⊢
    simp only [List.getElem?_map, hi, hjs, Option.map_some, Option.getD_some, read_length v1, read_length s1] at hle
    rw [List.getElem?_map, List.getElem?_map, List.getElem?_append_left hj, hjs]
    simp only [Option.map_some, Option.some.injEq]
    refine read_append_other _ _ v1 _ s1 fun _ => .inr (.inl ?_)
    rw [s2, v2]
    omega

open Slices in
/-- **C56 (negation).** A layout, line, text or block built up by three calls, as Go allocates it (room for one, two
and then four elements), and then extended twice: the first of the two values shows the element of the second. -/
theorem C56_siblings_false : (run 0 [.new [], .extend 0 [1] 0, .extend 1 [2] 0, .extend 2 [3] 1, .extend 3 [4] 0,
      .extend 3 [5] 0]).map World.contents =
      some [[], [1], [1, 2], [1, 2, 3], [1, 2, 3, 5], [1, 2, 3, 5]] ∧
    expected [.new [], .extend 0 [1] 0, .extend 1 [2] 0, .extend 2 [3] 1, .extend 3 [4] 0, .extend 3 [5] 0] =
      some [[], [1], [1, 2], [1, 2, 3], [1, 2, 3, 4], [1, 2, 3, 5]] := by
  decide +kernel

open Slices in
/-- **C56 (negation).** More generally, whenever Go leaves room in the array of a value, two values derived from it
by one element each are the same. -/
theorem C56_room_false {α : Type} (zero : α) (ops : List (Op α)) (w : World α) (i : Nat) (s : Slice) (x y : α)
    (h : run zero ops = some w) (hi : w.values[i]? = some s) (hr : s.len < s.cap) :
    ∃ w', run zero (ops ++ [.extend i [x] 0] ++ [.extend i [y] 0]) = some w' ∧
      w'.contents[ops.length]? = some (read w.heap s ++ [y]) ∧
      w'.contents[ops.length + 1]? = some (read w.heap s ++ [y]) := by
  have hs := run_sound h
  obtain ⟨v1, v2, v3⟩ := hs.valid s (List.mem_of_getElem? hi)
  have hil : i < w.values.length := (List.getElem?_eq_some_iff.1 hi).1
  have hroom : s.len + 1 ≤ s.cap := hr
  have e1 : (append zero 0 w.heap s [x]).2 = { s with len := s.len + 1 } := by
    unfold append
    rw [if_pos (by simpa using hroom)]
    rfl
  have v1' := valid_append_other zero 0 v1 [x] v1
  have r1 : read (append zero 0 w.heap s [x]).1 s = read w.heap s :=
    read_append_other zero 0 v1 [x] v1 fun _ => .inr (.inl (Nat.le_refl _))
  have e2 : (append zero 0 (append zero 0 w.heap s [x]).1 s [y]).2 = { s with len := s.len + 1 } := by
    rw [append]
    rw [if_pos (by simpa using hroom)]
    rfl
  have r2 := read_append zero 0 v1' [y]
  rw [e2, r1] at r2
  refine ⟨⟨(append zero 0 (append zero 0 w.heap s [x]).1 s [y]).1,
    w.values ++ [(append zero 0 w.heap s [x]).2] ++ [(append zero 0 (append zero 0 w.heap s [x]).1 s [y]).2]⟩, ?_, ?_, ?_⟩
  · rw [run_append, run_append, h]
    simp only [Option.bind_some, World.step, hi]
    rw [List.getElem?_append_left hil, hi]
  · unfold World.contents
    rw [List.getElem?_map, e1, e2, ← hs.length]
    simp [r2]
  · unfold World.contents
    rw [List.getElem?_map, e1, e2, ← hs.length]
    simp [r2]

open Slices in
/-- Two values derived from a constructor's value, and one of them extended further, are as expected. -/
example : Linear [.new [1, 2], .extend 0 [3] 5, .extend 0 [4] 5, .extend 1 [6] 0] ∧
    (run 0 [.new [1, 2], .extend 0 [3] 5, .extend 0 [4] 5, .extend 1 [6] 0]).map World.contents =
      some [[1, 2], [1, 2, 3], [1, 2, 4], [1, 2, 3, 6]] := by
  refine ⟨⟨?_, ?_⟩, by decide +kernel⟩
  · intro j k i xs ys a b hjk h1 h2
    match j, k with
    | 0, _ => cases h1
    | 1, 2 => cases h1; exact ⟨_, rfl⟩
    | 1, 3 => cases h1; cases h2
    | 2, 3 => cases h1; cases h2
    | 1, k + 4 => cases h2
    | 2, k + 4 => cases h2
    | 3, k + 4 => cases h2
    | j + 4, _ => cases h1
    | 1, 0 | 1, 1 | 2, 0 | 2, 1 | 2, 2 | 3, 0 | 3, 1 | 3, 2 | 3, 3 => omega
  · intro i xs a hm
    simp only [List.mem_cons, Op.extend.injEq, List.not_mem_nil, or_false, reduceCtorEq, false_or] at hm
    rcases hm with ⟨_, rfl, _⟩ | ⟨_, rfl, _⟩ | ⟨_, rfl, _⟩ <;> simp

end Bento
