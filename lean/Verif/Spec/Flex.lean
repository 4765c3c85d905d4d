import Verif.Spec.Layout

/-!
# Where the flex modes place segments of definite size
-/

namespace Bento.Layout

/-- The size, in cells, that a constraint asks for in an area of `total` cells, for the constraints
that ask for one definite size. -/
def definiteSize (total : Int) : Constraint → Option ℚ
  | .len t => some t
  | .max t => some t
  | .percentage p => some ((total : ℚ) * p / 100)
  | .ratio num den => some ((total : ℚ) * num / ((max 1 den : Int) : ℚ))
  | _ => none

/-- The sum of the sizes asked for. -/
def definiteTotal (total : Int) (cs : List Constraint) : ℚ :=
  (cs.map fun c => (definiteSize total c).getD 0).sum

/-- Gap `i` of a row of `n` segments when `free` cells are left for the gaps: gap 0 is before the
first segment, gap `n` after the last one. -/
def flexGap (flex : Flex) (n : Nat) (spacing : Int) (free : ℚ) (i : Nat) : ℚ :=
  if 0 < i ∧ i < n then
    match flex with
    | .spaceBetween | .spaceAround => free / ((n : ℚ) - 1)
    | _ => spacing
  else
    match flex with
    | .start => if i = 0 then 0 else free - ((n : ℚ) - 1) * spacing
    | .end' => if i = 0 then free - ((n : ℚ) - 1) * spacing else 0
    | .center => (free - ((n : ℚ) - 1) * spacing) / 2
    | _ => 0

/-- The distance of segment `i` from the start of the area: the gaps up to it and the segments before
it. -/
def flexStart (flex : Flex) (cs : List Constraint) (spacing total : Int) (i : Nat) : ℚ :=
  ((List.range (i + 1)).map
      (flexGap flex cs.length spacing ((total : ℚ) - definiteTotal total cs))).sum +
    definiteTotal total (cs.take i)

/-- The size, in cells, of the only segment of a layout: `FlexLegacy` and `FlexSpaceBetween` stretch it
over the whole area; otherwise it has the size it asks for, cut down to what there is, and takes all
there is if it only asks for a minimum or a share. -/
def singleSize (flex : Flex) (total : Int) (c : Constraint) : ℚ :=
  match flex with
  | .legacy | .spaceBetween => total
  | _ => max 0 (min (total : ℚ) ((definiteSize total c).getD total))

/-- The distance of the only segment, of the given size, from the start of the area, in the modes other
than `FlexSpaceAround` (which leaves it open). -/
def singleStart (flex : Flex) (total : Int) (size : ℚ) : ℚ :=
  match flex with
  | .end' => total - size
  | .center => (total - size) / 2
  | _ => 0

/-- A whole coordinate that stands for an exact one: at most 0.505 away, and equal if the exact one is
whole. -/
def StandsFor (k : Int) (q : ℚ) : Prop := |(k : ℚ) - q| ≤ 505 / 1000 ∧ ∀ j : Int, q = j → k = j

end Bento.Layout
