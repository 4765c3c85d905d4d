import Verif.Lemmas.FloatSplit
import Verif.Lemmas.Binary64
import Verif.Props.Layout
import Verif.Lemmas.FloatTidy

/-!
# Property C96: floating point rounding does not move a segment

`Model/Layout` and `Model/Casso` compute with exact rationals, the code with `float64`.  `Model/Float`
is the same code with every addition, multiplication and division rounded.  For layouts whose
constraints compare two coordinates at a time the two agree, pivot by pivot: the rows of the simplex
tableau hold integers that are small enough for 53 bits, because the constraint matrix is that of a
network.
-/

namespace Bento

open Casso Layout

/-- **C96**. With `float64` arithmetic `SplitWithSpacers` has the same outcome as with exact
arithmetic, whatever the order of the solver's maps and however long it runs: the same rectangles, and
no panic or loop that is due to rounding. -/
theorem C96_float64_exact (ω : Nat → Nat) (fuel : Nat) {l : Layout} {area : Rect} (hfew : Few l)
    (hl : TwoAtATime l) (hf : Fits32 l area) :
    Fl.splitWithSpacers Fl.binary64 ω fuel l area = splitWithSpacers ω fuel l area :=
  Fl.split_round Fl.binary64_keeps ω fuel hfew hl hf

/-- **C96**, for any way of rounding that keeps integers of up to 53 bits: the other
rounding modes of IEEE 754, or a wider format. -/
theorem C96_any_rounding {rnd : ℚ → ℚ} (hR : KeepsIntegers rnd (2 ^ 53)) (ω : Nat → Nat) (fuel : Nat)
    {l : Layout} {area : Rect} (hfew : Few l) (hl : TwoAtATime l) (hf : Fits32 l area) :
    Fl.splitWithSpacers rnd ω fuel l area = splitWithSpacers ω fuel l area :=
  Fl.split_round hR ω fuel hfew hl hf

/-- **C96** (with C19). Without gaps the rectangles computed with `float64` tile the padded area. -/
theorem C96_float64_tiles (ω : Nat → Nat) (fuel : Nat) {l : Layout} {area : Rect} (hfew : Few l)
    (hf : l.flex = .legacy) (h0 : gapOf l.spacing = 0) (hn : 0 < l.constraints.length)
    (hs : ∀ c ∈ l.constraints, asksShare c = false) (h1 : (l.constraints.filter isFill).length ≤ 1)
    (hw : (l.constraints.map fillWeight).sum ≤ 1000000) (hfit : Fits32 l area) :
    Fl.splitWithSpacers Fl.binary64 ω fuel l area = .running ∨
    ∃ segments spacers, Fl.splitWithSpacers Fl.binary64 ω fuel l area = .ok segments spacers ∧
      Tiles l.direction (area.inner l.padding) segments := by
  rw [C96_float64_exact ω fuel hfew ⟨hs, Or.inl ⟨hf, h1⟩⟩ hfit]
  exact C19_tiles_partial ω fuel l area hf h0 hn hfew hw

/-- **C96** is false for percentages: with `float64` arithmetic the first of two centred segments is
36 cells wide although `Len(35)` is asked for and there is room for both; exact arithmetic gives it its
35 cells.  The first edge is at 449.49999999999994 hundredths of a cell instead of 449.5. -/
theorem C96_percentage_false :
    let l : Layout := ⟨.horizontal, [.len 35, .percentage 17], Padding.none', .center, .space 0⟩
    let area : Rect := ⟨0, 0, 53, 1⟩
    let ω : Nat → Nat := fun _ => 0
    Few l ∧ Fits32 l area ∧
    splitWithSpacers ω 100 l area =
      .ok [⟨5, 0, 35, 1⟩, ⟨40, 0, 9, 1⟩] [⟨0, 0, 5, 1⟩, ⟨40, 0, 0, 1⟩, ⟨49, 0, 4, 1⟩] ∧
    Fl.splitWithSpacers Fl.binary64 ω 100 l area =
      .ok [⟨4, 0, 36, 1⟩, ⟨40, 0, 9, 1⟩] [⟨0, 0, 4, 1⟩, ⟨40, 0, 0, 1⟩, ⟨49, 0, 4, 1⟩] := by
  refine ⟨by decide, ⟨by decide, by decide, by decide, by decide⟩, ?_, ?_⟩
  · rw [split_fast _ _ (by decide)]
    decide +kernel
  · exact split_of_rounded (by decide +kernel) (by decide +kernel)

/-- The hypotheses are met by a header, a body and a footer on a screen of 80 by 24. -/
example : let l : Layout := ⟨.vertical, [.len 3, .fill 1, .len 1], Padding.none', .legacy, .space 0⟩
    Few l ∧ TwoAtATime l ∧ Fits32 l ⟨0, 0, 80, 24⟩ := by
  refine ⟨by decide, ⟨by decide, Or.inl (by decide)⟩, ⟨by decide, by decide, by decide, by decide⟩⟩

/-- They are met by minimal and maximal sizes with gaps and a padding, and by a single segment at the
end of its area. -/
example : let l : Layout := ⟨.horizontal, [.min 3, .max 7, .min 0, .max 5, .len 10], ⟨1, 2, 3, 4⟩, .legacy, .space 2⟩
    Few l ∧ TwoAtATime l ∧ Fits32 l ⟨-5, 7, 80, 24⟩ := by
  refine ⟨by decide, ⟨by decide, Or.inl (by decide)⟩, ⟨by decide, by decide, by decide, by decide⟩⟩

example : let l : Layout := ⟨.horizontal, [.min 3], Padding.none', .end', .overlap 1⟩
    Few l ∧ TwoAtATime l ∧ Fits32 l ⟨0, 0, 80, 24⟩ := by
  refine ⟨by decide, ⟨by decide, Or.inr (by decide)⟩, ⟨by decide, by decide, by decide, by decide⟩⟩

/-- The rounding is that of `float64`: a tenth and a third are not represented exactly, and beyond 53
bits integers are rounded to even. -/
example : Fl.binary64 (1 / 10) = 3602879701896397 / 2 ^ 55 ∧ Fl.binary64 (1 / 3) = 6004799503160661 / 2 ^ 54 ∧
    Fl.binary64 (2 ^ 53 + 1) = 2 ^ 53 ∧ Fl.binary64 (2 ^ 53 + 3) = 2 ^ 53 + 4 ∧
    Fl.binary64 (-5 / 7) = -6433713753386423 / 2 ^ 53 := by
  decide +kernel

end Bento
