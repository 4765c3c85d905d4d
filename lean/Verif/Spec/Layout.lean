import Verif.Model.Layout

/-!
# What a split of an area looks like

Independent of the solver: where a rectangle starts and ends along a direction, when it fits an
area, when a list of rectangles tiles an area, and what the sizes asked for are.
-/

namespace Bento.Layout

/-- Where a rectangle starts along the direction. -/
def lo : Direction → Rect → Int
  | .horizontal, r => r.x
  | .vertical, r => r.y

/-- How long a rectangle is along the direction. -/
def extent : Direction → Rect → Int
  | .horizontal, r => r.width
  | .vertical, r => r.height

/-- A rectangle inside the area along the direction, with the full extent of the area across it and
a size that is not negative. -/
def Fits (d : Direction) (area r : Rect) : Prop :=
  lo d area ≤ lo d r ∧ lo d r + extent d r ≤ lo d area + extent d area ∧ 0 ≤ extent d r ∧
  match d with
  | .horizontal => r.y = area.y ∧ r.height = area.height
  | .vertical => r.x = area.x ∧ r.width = area.width

/-- The gap, in cells, that a spacing asks for between two segments; an overlap is a negative gap. -/
def gapOf : Spacing → Int
  | .space n => n
  | .overlap n => -n
  | .other => 0

/-- The number of ways to pick two out of `k`. -/
def pairsOutOf (k : Nat) : Nat := k * (k - 1) / 2

/-- Does a constraint take part in sharing the free space? -/
def sharesSpace (flex : Flex) : Constraint → Bool
  | .fill _ => true
  | .min _ => flex ≠ .legacy
  | _ => false

/-- How many wishes, as opposed to requirements, a layout states: about the gaps, about the size of
each segment (two for a minimum or a maximum), about each pair of segments that share the free space,
and, except in `FlexLegacy`, about each two neighbours. -/
def wishes (l : Layout) : Nat :=
  let n := l.constraints.length
  (match l.flex with
    | .legacy | .start | .end' => n - 1 + 2
    | .center => n - 1 + 3
    | .spaceBetween => pairsOutOf (n - 1) + 2 * (n - 1) + 2
    | .spaceAround => pairsOutOf (n - 1) + 2 * (n - 1)) +
  (l.constraints.map fun c => match c with | .min _ | .max _ => 2 | _ => 1).sum +
  pairsOutOf (l.constraints.filter (sharesSpace l.flex)).length +
  (if l.flex = .legacy then 0 else n - 1)

/-- Few enough segments and wishes for the 255 symbols of the solver.  Depending on the constraints
this allows up to 17 segments in `FlexLegacy` and up to 14 in the other modes. -/
def Few (l : Layout) : Prop := 10 * l.constraints.length + 2 * wishes l ≤ 243

instance (l : Layout) : Decidable (Few l) := inferInstanceAs (Decidable (_ ≤ _))

/-- Rectangles that follow each other without gap or overlap from `a` to `b`. -/
def TilesFrom (d : Direction) (b : Int) : Int → List Rect → Prop
  | a, [] => a = b
  | a, r :: rs => lo d r = a ∧ 0 ≤ extent d r ∧ TilesFrom d b (a + extent d r) rs

/-- Rectangles that tile an area along a direction. -/
def Tiles (d : Direction) (area : Rect) (rs : List Rect) : Prop :=
  TilesFrom d (lo d area + extent d area) (lo d area) rs

/-- The weight with which a constraint takes part in filling. -/
def fillWeight : Constraint → Int
  | .fill n => max 0 n
  | _ => 0

end Bento.Layout

namespace Bento.Layout

/-- The cells a length constraint asks for. -/
def lenOf : Constraint → Int
  | .len t => t
  | _ => 0

/-- The share of the free space a fill constraint asks for; `Fill(0)` asks for a tiny one. -/
def shareOf : Constraint → ℚ
  | .fill n => max (1 / 1000000) (n : ℚ)
  | _ => 0

/-- The exact size of a segment of an area of `total` cells: a length gets what it asks for, the
fills share the rest in proportion. -/
def idealSize (cs : List Constraint) (total : Int) (c : Constraint) : ℚ :=
  match c with
  | .fill _ => ((total - (cs.map lenOf).sum : Int) : ℚ) * shareOf c / (cs.map shareOf).sum
  | c => (lenOf c : ℚ)

/-- The exact distance of segment `i` from the start of the area. -/
def idealStart (cs : List Constraint) (total : Int) (i : Nat) : ℚ :=
  ((cs.take i).map (idealSize cs total)).sum

end Bento.Layout
