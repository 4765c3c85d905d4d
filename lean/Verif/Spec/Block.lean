import Verif.Model.Block
import Verif.Spec.WideText

/-!
# What a block's frame is
-/

namespace Bento

/-- The side is bordered. -/
def Block.Has (b : Block) (side : Nat) : Prop := b.borders &&& side ≠ 0

/-- The side has a border or a title. -/
def Block.Takes (b : Block) (side : Nat) (p : TitlePosition) : Prop :=
  b.Has side ∨ ∃ t ∈ b.titles, (t.position.getD b.titlesPosition) = p

/-- The cells of an area that belong to its border or to its title rows. -/
def Block.OnFrame (b : Block) (area : Rect) (q : Position) : Prop :=
  (b.Has 8 ∧ q.x = area.x) ∨ (b.Has 2 ∧ q.x = area.x + area.width - 1) ∨
    (b.Takes 1 .top ∧ q.y = area.y) ∨ (b.Takes 4 .bottom ∧ q.y = area.y + area.height - 1)

/-- The symbol of a border cell that lies on the given sides. -/
def BorderSet.symbol (s : BorderSet) (left top right bottom : Bool) : Option String :=
  if left && top then some s.topLeft
  else if left && bottom then some s.bottomLeft
  else if right && top then some s.topRight
  else if right && bottom then some s.bottomRight
  else if left then some s.verticalLeft
  else if right then some s.verticalRight
  else if top then some s.horizontalTop
  else if bottom then some s.horizontalBottom
  else none

/-- A cell with the given border symbol, if there is one, in the given style. -/
def Cell.bordered (style : Style) (symbol : Option String) (c : Cell) : Cell :=
  match symbol with
  | some s => (c.setSymbol s).setStyle style
  | none => c

/-- The row a title at the given position belongs on. -/
def TitlePosition.row (area : Rect) : TitlePosition → Int
  | .top => area.y
  | .bottom => area.y + area.height - 1

/-- The titles that go on the given row with the given alignment, in the order given: a title without a
position or an alignment of its own has those of the block. -/
def titlesOf (position : TitlePosition) (alignment : Alignment) (ts : List Title) (p : TitlePosition)
    (a : Alignment) : List Title :=
  ts.filter fun t => t.position.getD position = p ∧
    (if t.alignment = .none then alignment else t.alignment) = a

/-- The number of columns that titles take side by side, each with a free column behind it. -/
def titlesWidth (u : Uniseg) (ts : List Title) : Nat :=
  (ts.map fun t => u.columns (t.line.clusters u) + 1).sum

/-- The column of the first of these titles, counted from the side border, if there are `columns` columns
between the side borders. -/
def titlesStart (u : Uniseg) (a : Alignment) (columns : Nat) (ts : List Title) : Nat :=
  a.before (columns - (titlesWidth u ts - 1))

end Bento
