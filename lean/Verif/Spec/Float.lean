import Verif.Model.Float
import Verif.Spec.Layout

/-!
# Specifications about rounding
-/

namespace Bento
open Layout

/-- A rounding that leaves the integers up to a bound as they are, as every IEEE 754 rounding does up
to two to the number of significant bits. -/
def KeepsIntegers (rnd : ℚ → ℚ) (bound : ℤ) : Prop := ∀ n : ℤ, |n| ≤ bound → rnd n = n

/-- The number of cells a constraint mentions. -/
def cellsOf : Constraint → Int
  | .min n | .max n | .len n => n
  | _ => 0

/-- Does a constraint ask for a share of the area? -/
def asksShare : Constraint → Bool
  | .percentage _ | .ratio _ _ => true
  | _ => false

/-- Is a constraint a `Fill`? -/
def isFill : Constraint → Bool
  | .fill _ => true
  | _ => false

/-- Layouts whose constraints compare two coordinates at a time: no percentages and ratios, and either
`FlexLegacy` with at most one `Fill`, or at most one segment in any mode but `FlexCenter`. -/
structure TwoAtATime (l : Layout) : Prop where
  noShare : ∀ c ∈ l.constraints, asksShare c = false
  mode : (l.flex = .legacy ∧ (l.constraints.filter isFill).length ≤ 1) ∨
    (l.constraints.length ≤ 1 ∧ l.flex ≠ .center)

/-- All numbers of a split are within the range of 32-bit integers: the sizes and the spacing that are
asked for, and the coordinates of the area along the direction. -/
structure Fits32 (l : Layout) (area : Rect) : Prop where
  sizes : ∀ c ∈ l.constraints, |cellsOf c| ≤ 2 ^ 31
  gap : |gapOf l.spacing| ≤ 2 ^ 31
  start : |lo l.direction (area.inner l.padding)| ≤ 2 ^ 31
  stop : |lo l.direction (area.inner l.padding) + extent l.direction (area.inner l.padding)| ≤ 2 ^ 31

end Bento
