import Verif.Spec.Flex

/-!
# Where growing segments are placed

A fill grows, and outside of `FlexLegacy` a minimum grows too. If some segment grows, all others have
the size they ask for, the spacing between the segments is kept, nothing is left at the ends, and the
growing segments share the rest.
-/

namespace Bento.Layout

/-- The weight with which a segment takes part in sharing the free space: zero for one that does not
grow, a tiny one for `Fill(0)`. -/
def growWeight (flex : Flex) : Constraint → ℚ
  | .fill n => max (1 / 1000000) (n : ℚ)
  | .min _ => if flex = .legacy then 0 else 1
  | _ => 0

/-- The size, in cells, of a segment that does not grow in an area of `total` cells; zero for one that
grows. -/
def baseSize (flex : Flex) (total : Int) : Constraint → ℚ
  | .min t => if flex = .legacy then t else 0
  | c => (definiteSize total c).getD 0

/-- The cells that are left for the segments that grow. -/
def freeSpace (flex : Flex) (cs : List Constraint) (spacing total : Int) : ℚ :=
  total - (cs.map (baseSize flex total)).sum - ((cs.length : ℚ) - 1) * spacing

/-- The size, in cells, of the segment with constraint `c` of the row `cs`. -/
def grownSize (flex : Flex) (cs : List Constraint) (spacing total : Int) (c : Constraint) : ℚ :=
  baseSize flex total c +
    freeSpace flex cs spacing total * growWeight flex c / (cs.map (growWeight flex)).sum

/-- The sizes of the segments of the row `cs`. -/
def grownSizes (flex : Flex) (cs : List Constraint) (spacing total : Int) : List ℚ :=
  cs.map (grownSize flex cs spacing total)

/-- Where segment `i` of a row of segments of these sizes starts, if the spacing is kept between them and
nothing is left before the first. -/
def rowStart (sizes : List ℚ) (spacing : Int) (i : Nat) : ℚ :=
  ((sizes.take i).map fun q => q + (spacing : ℚ)).sum

/-- The order in which the segments of a `FlexLegacy` row without a fill are stretched when there is
space left. -/
def stretchRank : Constraint → Nat
  | .fill _ => 0
  | .min _ => 1
  | .ratio _ _ => 2
  | .percentage _ => 3
  | .len _ => 4
  | .max _ => 5

/-- The order in which they are shrunk when there is not enough space. -/
def shrinkRank : Constraint → Nat
  | .fill _ => 0
  | .max _ => 1
  | .ratio _ _ => 2
  | .percentage _ => 3
  | .len _ => 4
  | .min _ => 5

/-- The size of segment `i` of the row if segment `k` takes what is left or gives what is missing. -/
def yieldedSize (cs : List Constraint) (spacing total : Int) (k i : Nat) (c : Constraint) : ℚ :=
  baseSize .legacy total c + if i = k then freeSpace .legacy cs spacing total else 0

/-- The sizes of the segments of the row `cs` if segment `k` gives way. -/
def yieldedSizes (cs : List Constraint) (spacing total : Int) (k : Nat) : List ℚ :=
  cs.mapIdx fun i c => yieldedSize cs spacing total k i c

/-- The size, in cells, that a segment asks for in `FlexLegacy`; a fill asks for everything. -/
def wishedSize (total : Int) : Constraint → ℚ
  | .fill _ => total
  | .min t => t
  | c => (definiteSize total c).getD 0

/-- A row of whole cells in which the segments that mind least give way first: the segments and the
spacing fill the area; space that is left goes only to segments that are first in the order of
stretching; a segment lacks space only if all that come before it in the order of shrinking have
nothing at all; and none has too much while another has too little. (A size below zero counts as zero.) -/
structure FairRow (total spacing : Int) (cs : List Constraint) (sizes : List ℚ) : Prop where
  length : sizes.length = cs.length
  nonneg : ∀ s ∈ sizes, 0 ≤ s
  full : sizes.sum + ((cs.length : ℚ) - 1) * spacing = total
  stretched : ∀ (i j : Nat) (c d : Constraint) (s : ℚ), cs[i]? = some c → cs[j]? = some d →
    sizes[j]? = some s → stretchRank c < stretchRank d → s ≤ max 0 (wishedSize total d)
  shrunk : ∀ (i j : Nat) (c d : Constraint) (r s : ℚ), cs[i]? = some c → cs[j]? = some d →
    sizes[i]? = some r → sizes[j]? = some s → shrinkRank c < shrinkRank d →
    s < wishedSize total d → r = 0
  notBoth : ∀ (i j : Nat) (c d : Constraint) (r s : ℚ), cs[i]? = some c → cs[j]? = some d →
    sizes[i]? = some r → sizes[j]? = some s → s < wishedSize total d → r ≤ max 0 (wishedSize total c)

end Bento.Layout
