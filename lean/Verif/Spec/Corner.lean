import Verif.Spec.Linear
import Verif.Spec.Flex

/-!
# Corners of a system of constraints, and the price of a row of segments
-/

namespace Bento.Casso

/-- The assignment is determined by the constraints it meets with equality and by the variables it
sets to zero: there is no other one that does the same. -/
def IsCorner (cs : List Constr) (x : Var → ℚ) : Prop :=
  ∀ y : Var → ℚ, (∀ v, x v = 0 → y v = 0) → (∀ c ∈ cs, c.expr.eval x = 0 → c.expr.eval y = 0) →
    ∀ c ∈ cs, ∀ v k, (v, k) ∈ c.expr.terms → k ≠ 0 → y v = x v

end Bento.Casso

namespace Bento.Layout

/-- What it costs, in `FlexLegacy`, that a segment is `w` cells long although it asks for `c`, in an
area of `total` cells. -/
def sizePrice (total : ℚ) (c : Constraint) (w : ℚ) : ℚ :=
  match c with
  | .min t => 100000000 * max 0 (t - w) + 10000 * |w - t|
  | .max t => 100000000 * max 0 (w - t) + 10000 * |w - t|
  | .len t => 10000000 * |w - t|
  | .percentage p => 1000000 * |w - total * p / 100|
  | .ratio num den => 100000 * |w - total * num / ((max 1 den : Int) : ℚ)|
  | .fill _ => 1000 * |w - total|

/-- What the distances between neighbours cost. -/
def gapPrice (spacing : Int) : List (ℚ × ℚ) → ℚ
  | p :: q :: rest => 100100100 * |q.1 - p.2 - spacing| + gapPrice spacing (q :: rest)
  | _ => 0

/-- What a row of segments, given by their starts and ends, costs between `a` and `b`. -/
def rowPrice (a b : ℚ) (spacing : Int) (cs : List Constraint) (row : List (ℚ × ℚ)) : ℚ :=
  1001000999 * (row.head?.elim 0 fun p => |p.1 - a|) +
  1001000999 * (row.getLast?.elim 0 fun p => |b - p.2|) +
  gapPrice spacing row +
  (List.zipWith (fun c p => sizePrice (b - a) c (p.2 - p.1)) cs row).sum

/-- Start and end of a rectangle along a direction. -/
def edges (d : Direction) (r : Rect) : ℚ × ℚ := (lo d r, lo d r + extent d r)

/-- Constraints that ask for a whole number of cells, for at least one, or for all. -/
def AsksWhole (total : Int) (c : Constraint) : Prop :=
  (∃ t, c = .min t) ∨ (∃ k, c = .fill k) ∨ ∃ j : Int, definiteSize total c = some (j : ℚ)

/-- Whether a constraint is a fill. -/
def wantsAll : Constraint → Bool
  | .fill _ => true
  | _ => false

end Bento.Layout
