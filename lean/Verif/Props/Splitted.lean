import Verif.Model.Splitted
import Verif.Lemmas.FastLoop

/-!
# C137: the areas of a layout get into the variables they are meant for
-/

namespace Bento

namespace Splitted

/-- Pointer `j` is the last one to variable `v`. -/
def LastTo (areas : List (Option Nat)) (v j : Nat) : Prop :=
  areas[j]? = some (some v) ∧ ∀ j', j < j' → areas[j']? ≠ some (some v)

theorem assignFrom_spec (s : List Rect) : ∀ (areas : List (Option Nat)) (i : Nat) (mem : Memory),
    ((assignFrom s i mem areas).2 = true ↔ ∀ (j v : Nat), areas[j]? = some (some v) → i + j < s.length) ∧
    ((assignFrom s i mem areas).2 = true → ∀ v j, LastTo areas v j → s[i + j]? = some ((assignFrom s i mem areas).1 v)) ∧
    ∀ v, (∀ j : Nat, areas[j]? ≠ some (some v)) → (assignFrom s i mem areas).1 v = mem v := by
  intro areas
  induction areas with
  | nil =>
    intro i mem
    refine ⟨by simp [assignFrom], fun _ v j h => ?_, fun v _ => rfl⟩
    have := h.1
    simp at this
  | cons a areas ih =>
    intro i mem
    cases a with
    | none =>
      obtain ⟨h1, h2, h3⟩ := ih (i + 1) mem
      refine ⟨?_, ?_, ?_⟩
      · show (assignFrom s (i + 1) mem areas).2 = true ↔ _
        rw [h1]
        constructor
        · intro h j v hj
          cases j with
          | zero => simp at hj
          | succ j =>
            have := h j v (by simpa using hj)
            omega
        · intro h j v hj
          have := h (j + 1) v (by simpa using hj)
          omega
      · intro hok v j hl
        cases j with
        | zero =>
          have := hl.1
          simp at this
        | succ j =>
          have := h2 hok v j ⟨by simpa using hl.1, fun j' hj' => by
            have := hl.2 (j' + 1) (by omega)
            simpa using this⟩
          rw [show i + (j + 1) = i + 1 + j by omega]
          exact this
      · intro v hv
        exact h3 v (fun j => by simpa using hv (j + 1))
    | some u =>
      cases hs : s[i]? with
      | none =>
        have he : assignFrom s i mem (some u :: areas) = (mem, false) := by simp [assignFrom, hs]
        rw [he]
        refine ⟨⟨by simp, fun h => ?_⟩, by simp, fun v _ => rfl⟩
        have h0 := h 0 u rfl
        have := List.getElem?_eq_none_iff.1 hs
        omega
      | some r =>
        have he : assignFrom s i mem (some u :: areas) = assignFrom s (i + 1) (store mem u r) areas := by
          simp [assignFrom, hs]
        rw [he]
        obtain ⟨h1, h2, h3⟩ := ih (i + 1) (store mem u r)
        have hlt := (List.getElem?_eq_some_iff.1 hs).1
        refine ⟨?_, ?_, ?_⟩
        · rw [h1]
          constructor
          · intro h j v hj
            cases j with
            | zero => omega
            | succ j =>
              have := h j v (by simpa using hj)
              omega
          · intro h j v hj
            have := h (j + 1) v (by simpa using hj)
            omega
        · intro hok v j hl
          cases j with
          | zero =>
            have huv : u = v := by simpa using hl.1
            rw [h3 v (fun j => by
              have := hl.2 (j + 1) (by omega)
              simpa using this)]
            simp [store, huv, hs]
          | succ j =>
            have := h2 hok v j ⟨by simpa using hl.1, fun j' hj' => by
              have := hl.2 (j' + 1) (by omega)
              simpa using this⟩
            rw [show i + (j + 1) = i + 1 + j by omega]
            exact this
        · intro v hv
          rw [h3 v (fun j => by simpa using hv (j + 1))]
          have : v ≠ u := fun h => hv 0 (by simp [h])
          simp [store, this]

end Splitted

open Splitted in
/-- **C137.** `Assign` panics if and only if there is a pointer, not nil, that has no area; if it does not, a variable
holds the area of the last pointer to it; variables without a pointer are as before, even after a panic. -/
theorem C137_assign (s : List Rect) (mem : Memory) (areas : List (Option Nat)) :
    ((assign s mem areas).2 = true ↔ ∀ (j v : Nat), areas[j]? = some (some v) → j < s.length) ∧
    ((assign s mem areas).2 = true → ∀ v j, LastTo areas v j → s[j]? = some ((assign s mem areas).1 v)) ∧
    ∀ v, (∀ j : Nat, areas[j]? ≠ some (some v)) → (assign s mem areas).1 v = mem v := by
  simpa [assign] using assignFrom_spec s areas 0 mem

/-- **C137.** `Split`, if it returns, returns one area for each constraint, and one spacer more. -/
theorem C137_length (ω : Nat → Nat) (fuel : Nat) (l : Layout) (area : Rect) (segments spacers : List Rect)
    (h : Layout.splitWithSpacers ω fuel l area = .ok segments spacers) :
    segments.length = l.constraints.length ∧ spacers.length = l.constraints.length + 1 := by
  unfold Layout.splitWithSpacers at h
  simp only at h
  split at h
  · cases h
  · split at h
    · cases h
    · cases h
    · cases h
      simp [Layout.changesToRects, Layout.segmentElements_eq, Layout.spacerElements_eq]

open Splitted in
/-- **C137.** With at most as many different variables as constraints, the variables get the areas of their
constraints, one after the other, and nothing else is written. -/
theorem C137_split (ω : Nat → Nat) (fuel : Nat) (l : Layout) (area : Rect) (segments spacers : List Rect)
    (h : Layout.splitWithSpacers ω fuel l area = .ok segments spacers) (mem : Memory) (vars : List Nat)
    (hn : vars.length ≤ l.constraints.length) (hd : vars.Nodup) :
    (assign segments mem (vars.map some)).2 = true ∧
    vars.map (assign segments mem (vars.map some)).1 = segments.take vars.length ∧
    ∀ v, v ∉ vars → (assign segments mem (vars.map some)).1 v = mem v := by
  have hl := (C137_length ω fuel l area segments spacers h).1
  obtain ⟨h1, h2, h3⟩ := C137_assign segments mem (vars.map some)
  have hok := h1.2 (fun j v hj => by
    have := (List.getElem?_eq_some_iff.1 hj).1
    simp only [List.length_map] at this
    omega)
  refine ⟨hok, ?_, fun v hv => h3 v (fun j hj => ?_)⟩
  · apply List.ext_getElem
    · simp; omega
    · intro j hj hj'
      simp only [List.length_map] at hj
      have := h2 hok vars[j] j ⟨by simp [hj], fun j' hlt hj' => by
        simp only [List.getElem?_map, Option.map_eq_some_iff, Option.some.injEq, exists_eq_right] at hj'
        obtain ⟨hlt', he⟩ := List.getElem?_eq_some_iff.1 hj'
        have := (List.Nodup.getElem_inj_iff hd).1 he
        omega⟩
      obtain ⟨_, he⟩ := List.getElem?_eq_some_iff.1 this
      simp [he]
  · simp only [List.getElem?_map, Option.map_eq_some_iff, Option.some.injEq, exists_eq_right] at hj
    exact hv (List.mem_of_getElem? hj)

open Splitted in
/-- **C137.** `Unwrap`, `Unwrap2`, `Unwrap3` and `Unwrap4` of a layout with that many constraints return all its areas
in their order; they panic if there are fewer constraints. -/
theorem C137_unwrap (ω : Nat → Nat) (fuel : Nat) (l : Layout) (area : Rect) (segments spacers : List Rect)
    (h : Layout.splitWithSpacers ω fuel l area = .ok segments spacers) :
    (l.constraints.length = 1 → (unwrap segments).map (fun a => [a]) = some segments) ∧
    (l.constraints.length = 2 → (unwrap2 segments).map (fun (a, b) => [a, b]) = some segments) ∧
    (l.constraints.length = 3 → (unwrap3 segments).map (fun (a, b, c) => [a, b, c]) = some segments) ∧
    (l.constraints.length = 4 → (unwrap4 segments).map (fun (a, b, c, d) => [a, b, c, d]) = some segments) ∧
    (l.constraints.length < 1 → unwrap segments = none) ∧ (l.constraints.length < 2 → unwrap2 segments = none) ∧
    (l.constraints.length < 3 → unwrap3 segments = none) ∧ (l.constraints.length < 4 → unwrap4 segments = none) := by
  have hl := (C137_length ω fuel l area segments spacers h).1
  rw [← hl]
  rcases segments with _ | ⟨a, _ | ⟨b, _ | ⟨c, _ | ⟨d, _ | ⟨e, t⟩⟩⟩⟩⟩ <;>
    simp [unwrap, unwrap2, unwrap3, unwrap4]

open Splitted in
/-- A column of three rows; two of its areas are assigned. -/
example : ∃ segments spacers, Layout.splitWithSpacers (fun _ => 0) 100
      ⟨.vertical, [.len 1, .len 2, .len 1], Padding.none', .start, .space 0⟩ ⟨0, 0, 3, 4⟩ = .ok segments spacers ∧
    (assign segments (fun _ => ⟨0, 0, 0, 0⟩) [some 7, none, some 9]).1 7 = ⟨0, 0, 3, 1⟩ ∧
    (assign segments (fun _ => ⟨0, 0, 0, 0⟩) [some 7, none, some 9]).1 9 = ⟨0, 3, 3, 1⟩ ∧
    (assign segments (fun _ => ⟨0, 0, 0, 0⟩) [some 7, none, some 9, some 8]).2 = false := by
  refine ⟨[⟨0, 0, 3, 1⟩, ⟨0, 1, 3, 2⟩, ⟨0, 3, 3, 1⟩], [⟨0, 0, 3, 0⟩, ⟨0, 1, 3, 0⟩, ⟨0, 3, 3, 0⟩, ⟨0, 4, 3, 0⟩], ?_, ?_⟩
  · rw [Layout.split_fast _ _ (by decide)]
    decide +kernel
  · decide +kernel

end Bento
