import Verif.Props.Layout
import Verif.Lemmas.Wrapped

/-!
# Properties C18, C19, C60: layouts of everyday size in which the solver's counter wraps around

The theorems of `Props/Layout.lean` bound the number of constraints.  The layouts here are a little
larger, and the claims fail for them.  The runs are those of one legal order of the solver's maps: every
time, the first candidate is picked.
-/

namespace Bento

open Casso Layout

/-- Sixteen columns of at most one cell each. -/
def sixteenColumns : Layout :=
  ⟨.horizontal, List.replicate 16 (.max 1), Padding.none', .legacy, .space 0⟩

/-- Twenty rows of at most one cell each. -/
def twentyRows : Layout :=
  ⟨.vertical, List.replicate 20 (.max 1), Padding.none', .legacy, .space 0⟩

/-- **C18 fails for sixteen columns in an area without width.** The first column is placed in cell 1,
outside of the area. -/
theorem C18_sixteen_columns_false :
    ∃ ω fuel segments spacers, splitWithSpacers ω fuel sixteenColumns ⟨0, 0, 0, 1⟩ = .ok segments spacers ∧
      segments.head? = some ⟨1, 0, 0, 1⟩ ∧
      ¬ ∀ r ∈ segments, Fits .horizontal ⟨0, 0, 0, 1⟩ r := by
  have h := split_values_quick (ω := fun _ => 0) (fuel := 200) (m := 70) (l := sixteenColumns) (area := ⟨0, 0, 0, 1⟩)
    (vals := [0, 100]) (by decide +kernel)
  refine ⟨_, _, _, _, h, by decide +kernel, ?_⟩
  intro hall
  have := hall ⟨1, 0, 0, 1⟩ (by decide +kernel)
  revert this
  unfold Fits
  decide

/-- **C19 fails for twenty rows in ten lines.** The eleventh row starts below the twelfth, and the
fourteenth row covers the same line as the tenth. -/
theorem C19_twenty_rows_false :
    ∃ ω fuel segments spacers, splitWithSpacers ω fuel twentyRows ⟨0, 0, 80, 10⟩ = .ok segments spacers ∧
      segments[9]? = some ⟨0, 9, 80, 1⟩ ∧ segments[10]? = some ⟨0, 10, 80, 0⟩ ∧
      segments[11]? = some ⟨0, 9, 80, 0⟩ ∧ segments[13]? = some ⟨0, 9, 80, 1⟩ ∧
      ¬ Tiles .vertical ⟨0, 0, 80, 10⟩ segments := by
  have h := split_values_quick (ω := fun _ => 0) (fuel := 200) (m := 86) (l := twentyRows) (area := ⟨0, 0, 80, 10⟩)
    (vals := [0, 0, 100, 100, 200, 200, 300, 300, 400, 400, 500, 500, 600, 600, 700, 700, 800, 800, 900, 900,
      1000, 1000, 900, 900, 900, 900, 900, 900, 1000, 1000, 1000, 1000, 1000, 1000, 1000, 1000, 1000, 1000,
      1000, 1000, 1000, 1000]) (by decide +kernel)
  refine ⟨_, _, _, _, h, by decide +kernel, by decide +kernel, by decide +kernel, by decide +kernel, ?_⟩
  intro ht
  have key : ∀ (rs : List Rect) (a b : Int) (k : Nat) (r s : Rect), TilesFrom .vertical b a rs →
      rs[k]? = some r → rs[k + 1]? = some s → lo .vertical s = lo .vertical r + extent .vertical r := by
    intro rs
    induction rs with
    | nil => intro a b k r s _ hk; simp at hk
    | cons q rs ih =>
      intro a b k r s ht hk hk1
      obtain ⟨t1, _, t3⟩ := ht
      rw [List.getElem?_cons_succ] at hk1
      cases k with
      | zero =>
        simp only [List.getElem?_cons_zero, Option.some.injEq] at hk
        subst hk
        cases rs with
        | nil => simp at hk1
        | cons p rs =>
          simp only [List.getElem?_cons_zero, Option.some.injEq] at hk1
          subst hk1
          rw [t3.1, t1]
      | succ k =>
        rw [List.getElem?_cons_succ] at hk
        exact ih _ _ k r s t3 hk hk1
  have := key _ _ _ 10 ⟨0, 10, 80, 0⟩ ⟨0, 9, 80, 0⟩ ht (by decide +kernel) (by decide +kernel)
  revert this
  decide

/-- Thirty-one hidden rows and a row that fills the rest. -/
def hiddenRows : Layout :=
  ⟨.vertical, List.replicate 31 (.len 0) ++ [.fill 1], Padding.none', .legacy, .space 0⟩

/-- **C60 fails for thirty-two rows.** The last of the hidden rows gets the whole screen, and the row
that should fill it gets nothing.  (Here the last candidate is picked every time: the number in the
theorem is one less than a common multiple of 1, …, 80.) -/
theorem C60_hidden_rows_false :
    ∃ ω fuel segments spacers, splitWithSpacers ω fuel hiddenRows ⟨0, 0, 80, 24⟩ = .ok segments spacers ∧
      hiddenRows.constraints[30]? = some (.len 0) ∧ segments[30]? = some ⟨0, 0, 80, 24⟩ ∧
      hiddenRows.constraints[31]? = some (.fill 1) ∧ segments[31]? = some ⟨0, 24, 80, 0⟩ := by
  have h := split_values_quick (ω := fun _ => 32433859254793982911622772305630399) (fuel := 200) (m := 134)
    (l := hiddenRows) (area := ⟨0, 0, 80, 24⟩)
    (vals := List.replicate 62 0 ++ [2400, 2400, 2400, 2400]) (by decide +kernel)
  exact ⟨_, _, _, _, h, by decide +kernel, by decide +kernel, by decide +kernel, by decide +kernel⟩

end Bento
