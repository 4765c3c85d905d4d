import Verif.Lemmas.Buffer

/-!
# What it means to draw only inside a region
-/

namespace Bento

/-- The drawing operation does not panic, keeps the shape of the buffer, and changes only cells of the
region. -/
def Confined (b : Buffer) (op : Option Buffer) (S : Position → Prop) : Prop :=
  ∃ b', op = some b' ∧ b'.area = b.area ∧ b'.WF ∧ ∀ q, ¬ S q → b'.cellAt q = b.cellAt q

/-- The cells of a rectangle that are in the buffer. -/
def Clipped (b : Buffer) (area : Rect) (q : Position) : Prop :=
  area.contains q = true ∧ b.area.contains q = true

/-- The symbol shown at a position. -/
def Buffer.symbolAt (b : Buffer) (p : Position) : Option String := (b.cellAt p).map Cell.symbol

/-- The cells of a buffer after a list of changes has been applied to consecutive cells of row `y`,
starting at column `x` and never reaching column `right`. -/
def Buffer.overlay (b : Buffer) (x y right : Int) (fs : List (Cell → Cell)) (q : Position) :
    Option Cell :=
  if q.y = y ∧ x ≤ q.x ∧ q.x < right then
    match fs[(q.x - x).toNat]? with
    | some f => (b.cellAt q).map f
    | none => b.cellAt q
  else b.cellAt q

/-- What writing a text cell does: the symbol and the style. -/
def Cell.put (symbol : String) (style : Style) (c : Cell) : Cell := (c.setSymbol symbol).setStyle style

end Bento
