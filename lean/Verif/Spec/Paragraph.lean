import Verif.Model.Paragraph
import Verif.Spec.Reflow
import Verif.Spec.Text

/-!
# What a paragraph should show
-/

namespace Bento

/-- The grapheme that starts at column `k` of a row. -/
def atColumn : List StyledGrapheme → Nat → Option StyledGrapheme
  | [], _ => none
  | g :: rest, k =>
    if g.g.width = 0 then atColumn rest k
    else if k = 0 then some g
    else if k < g.g.width then none
    else atColumn rest (k - g.g.width)

/-- The first column of a row of `w` columns in an area of `total` columns. -/
def Alignment.lead (a : Alignment) (total w : Nat) : Nat :=
  match a with
  | .none | .left => 0
  | .center => total / 2 - w / 2
  | .right => total - w

/-- The grapheme a row shows at column `k` of an area of `total` columns. -/
def WrappedLine.shownAt (l : WrappedLine) (total k : Nat) : Option StyledGrapheme :=
  if l.alignment.lead total (columns l.line).toNat ≤ k then
    atColumn l.line (k - l.alignment.lead total (columns l.line).toNat)
  else none

/-- The cell as it is after showing the grapheme, if there is one. -/
def Cell.showing (g : Option StyledGrapheme) (c : Cell) : Cell :=
  match g with
  | some g => c.put (if g.g.symbol = "" then " " else g.g.symbol) g.style
  | none => c

/-- The row of the composed text that the position shows, counted from the first visible one. -/
def rowAt (ls : List WrappedLine) (scrollY : Int) (area : Rect) (q : Position) : Option WrappedLine :=
  if 0 ≤ q.y - area.y + scrollY then ls[(q.y - area.y + scrollY).toNat]? else none

/-- The grapheme shown at a position of the area. -/
def rowsShown (ls : List WrappedLine) (scrollY : Int) (area : Rect) (q : Position) :
    Option StyledGrapheme :=
  (rowAt ls scrollY area q).bind fun l => l.shownAt area.width.toNat (q.x - area.x).toNat

end Bento
