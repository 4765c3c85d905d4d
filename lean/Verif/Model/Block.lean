import Verif.Model.Text

/-!
# Blocks

Models `/repo/widget/blockwidget/block.go`, `border.go`, `title.go` and `/repo/internal/bit/bit.go`.
A Go panic is `none`.
-/

namespace Bento

/-- `/repo/widget/blockwidget/border.go:34` — `Side`, a bit set. -/
macro "Side" : term => `(Nat)

namespace Block

/-- `/repo/widget/blockwidget/border.go:37` — `SideNone`. -/
def sideNone : Side := 0
/-- `/repo/widget/blockwidget/border.go:38` — `SideTop`. -/
def sideTop : Side := 1
/-- `/repo/widget/blockwidget/border.go:39` — `SideRight`. -/
def sideRight : Side := 2
/-- `/repo/widget/blockwidget/border.go:40` — `SideBottom`. -/
def sideBottom : Side := 4
/-- `/repo/widget/blockwidget/border.go:41` — `SideLeft`. -/
def sideLeft : Side := 8
/-- `/repo/widget/blockwidget/border.go:42` — `SideAll`. -/
def sideAll : Side := sideTop ||| sideRight ||| sideBottom ||| sideLeft

/-- `/repo/widget/blockwidget/border.go:45-47` and `/repo/internal/bit/bit.go` — `intersects`. -/
def intersects (a b : Side) : Bool := a &&& b != 0

/-- `/repo/widget/blockwidget/border.go:49-51` and `/repo/internal/bit/bit.go` — `contains`. -/
def hasSides (a b : Side) : Bool := a &&& b == b

end Block

/-- `/repo/widget/blockwidget/border.go:94-103` — `BorderSet`. -/
structure BorderSet where
  topLeft : String
  topRight : String
  bottomLeft : String
  bottomRight : String
  verticalLeft : String
  verticalRight : String
  horizontalTop : String
  horizontalBottom : String
  deriving DecidableEq, Repr, Inhabited

/-- `/repo/widget/blockwidget/border.go:54-63` — the sharp border set. -/
def BorderSet.sharp : BorderSet := ⟨"┌", "┐", "└", "┘", "│", "│", "─", "─"⟩

/-- `/repo/widget/blockwidget/title.go:8-13` — `TitlePosition`. -/
inductive TitlePosition
  | top
  | bottom
  deriving DecidableEq, Repr, Inhabited

/-- `/repo/widget/blockwidget/title.go:15-19` — `Title`. -/
structure Title where
  alignment : Alignment
  position : Option TitlePosition
  line : Line
  deriving DecidableEq, Repr, Inhabited

/-- `/repo/widget/blockwidget/block.go:12-24` — `Block`. -/
structure Block where
  titles : List Title
  titlesStyle : Style
  titlesAlignment : Alignment
  titlesPosition : TitlePosition
  borders : Side
  borderStyle : Style
  borderSet : BorderSet
  style : Style
  padding : Padding
  deriving DecidableEq, Repr, Inhabited

namespace Block

/-- `/repo/widget/blockwidget/block.go:26-37` — `New`. -/
def new : Block :=
  { titles := [], titlesStyle := ⟨none, none, 0, 0⟩, titlesAlignment := .left, titlesPosition := .top,
    borders := sideNone, borderStyle := Style.new, borderSet := BorderSet.sharp, style := Style.new,
    padding := ⟨0, 0, 0, 0⟩ }

/-- `/repo/widget/blockwidget/block.go:70-77` — `WithTitle`. -/
def withTitle (b : Block) (t : Title) : Block :=
  let t : Title := if t.alignment ≠ .none then { t with line := { t.line with alignment := t.alignment } }
    else t
  { b with titles := b.titles ++ [t] }

/-- `/repo/widget/blockwidget/block.go:92-105` — `WithBorderSides`. -/
def withBorderSides (b : Block) (borders : List Side) : Block :=
  if borders = [] then { b with borders := sideAll }
  else { b with borders := borders.foldl (fun a s => a ||| s) sideNone }

/-- `/repo/widget/blockwidget/block.go:88-90` — `Bordered`. -/
def bordered (b : Block) : Block := b.withBorderSides []

/-- `/repo/widget/blockwidget/block.go:154-157` and `418-421` — the position of a title. -/
def positionOf (b : Block) (t : Title) : TitlePosition := t.position.getD b.titlesPosition

/-- `/repo/widget/blockwidget/block.go:152-165` — `hasTitleAtPosition`. -/
def hasTitleAt (b : Block) (p : TitlePosition) : Bool := b.titles.any fun t => b.positionOf t = p

/-- `/repo/widget/blockwidget/block.go:122-150` — `Inner`. -/
def inner (b : Block) (area : Rect) : Rect :=
  let i := area
  let i : Rect := if intersects b.borders sideLeft then
    { i with x := min (i.x + 1) i.right, width := max 0 (i.width - 1) } else i
  let i : Rect := if intersects b.borders sideTop || b.hasTitleAt .top then
    { i with y := min (i.y + 1) i.bottom, height := max 0 (i.height - 1) } else i
  let i : Rect := if intersects b.borders sideRight then { i with width := max 0 (i.width - 1) } else i
  let i : Rect := if intersects b.borders sideBottom || b.hasTitleAt .bottom then
    { i with height := max 0 (i.height - 1) } else i
  { x := i.x + b.padding.left
    y := i.y + b.padding.top
    width := max 0 (i.width - b.padding.left - b.padding.right)
    height := max 0 (i.height - b.padding.top - b.padding.bottom) }

/-- The chain `CellAt(p).SetSymbol(s).SetStyle(b.borderStyle)` of `renderBorders` at each of the given
positions, in order. -/
def drawAt (b : Block) (symbol : String) (ps : List Position) (buf : Buffer) : Option Buffer :=
  ps.foldlM (fun buf p => buf.modifyCell p fun c => (c.setSymbol symbol).setStyle b.borderStyle) buf

/-- The positions of `for y := area.Top(); y < area.Bottom(); y++` in column `x`. -/
def columnOf (area : Rect) (x : Int) : List Position :=
  (List.range (area.bottom - area.top).toNat).map fun i : Nat => ⟨x, area.top + (i : Int)⟩

/-- The positions of `for x := area.Left(); x < area.Right(); x++` in row `y`. -/
def rowOf (area : Rect) (y : Int) : List Position :=
  (List.range (area.right - area.left).toNat).map fun i : Nat => ⟨area.left + (i : Int), y⟩

/-- One of the drawing functions of `renderBorders`: `drawAt` if the sides are there. -/
def drawIf (b : Block) (sides : Side) (symbol : String) (ps : List Position) (buf : Buffer) :
    Option Buffer :=
  if hasSides b.borders sides then b.drawAt symbol ps buf else some buf

/-- `/repo/widget/blockwidget/block.go:179-297` — `renderBorders` and the functions it calls. -/
def renderBorders (b : Block) (area : Rect) (buf : Buffer) : Option Buffer := do
  let buf ← b.drawIf sideLeft b.borderSet.verticalLeft (columnOf area area.left) buf
  let buf ← b.drawIf sideTop b.borderSet.horizontalTop (rowOf area area.top) buf
  let buf ← b.drawIf sideRight b.borderSet.verticalRight (columnOf area (area.right - 1)) buf
  let buf ← b.drawIf sideBottom b.borderSet.horizontalBottom (rowOf area (area.bottom - 1)) buf
  let buf ← b.drawIf (sideRight ||| sideBottom) b.borderSet.bottomRight
    [⟨area.right - 1, area.bottom - 1⟩] buf
  let buf ← b.drawIf (sideRight ||| sideTop) b.borderSet.topRight [⟨area.right - 1, area.top⟩] buf
  let buf ← b.drawIf (sideLeft ||| sideBottom) b.borderSet.bottomLeft [⟨area.left, area.bottom - 1⟩] buf
  b.drawIf (sideLeft ||| sideTop) b.borderSet.topLeft [⟨area.left, area.top⟩] buf

/-- `/repo/widget/blockwidget/block.go:414-440` — `filterTitles`. -/
def filterTitles (b : Block) (position : TitlePosition) (alignment : Alignment) : List Title :=
  b.titles.filter fun t =>
    b.positionOf t = position &&
      (if t.alignment ≠ .none then t.alignment else b.titlesAlignment) = alignment

/-- `/repo/widget/blockwidget/block.go:442-470` — `titlesArea`. -/
def titlesArea (b : Block) (area : Rect) (position : TitlePosition) : Rect :=
  let leftBorder : Int := if hasSides b.borders sideLeft then 1 else 0
  let rightBorder : Int := if hasSides b.borders sideRight then 1 else 0
  { x := area.left + leftBorder
    y := match position with | .top => area.top | .bottom => area.bottom - 1
    width := max 0 (area.width - leftBorder - rightBorder)
    height := 1 }

/-- `/repo/widget/blockwidget/block.go:332-333`, `379-380` and `406-407` — drawing one title. -/
def drawTitle (u : Uniseg) (b : Block) (t : Title) (titleArea : Rect) (buf : Buffer) : Option Buffer := do
  let buf ← buf.setStyle titleArea b.titlesStyle
  t.line.render u titleArea buf

/-- `/repo/widget/blockwidget/block.go:317-336` — the loop of `renderRightTitles`. -/
def rightLoop (u : Uniseg) (b : Block) : List Title → Rect → Buffer → Option Buffer
  | [], _, buf => some buf
  | t :: rest, ta, buf =>
    if ta.isEmpty then some buf
    else do
      let titleWidth : Int := t.line.width u
      let buf ← b.drawTitle u t
        { x := max 0 (max ta.left (ta.right - titleWidth)), y := ta.y,
          width := min ta.width titleWidth, height := ta.height } buf
      rightLoop u b rest { ta with width := max 0 (ta.width - titleWidth - 1) } buf

/-- `/repo/widget/blockwidget/block.go:363-384` and `391-411` — the loops of `renderCenterTitles` and
`renderLeftTitles`. -/
def leftLoop (u : Uniseg) (b : Block) : List Title → Rect → Buffer → Option Buffer
  | [], _, buf => some buf
  | t :: rest, ta, buf =>
    if ta.isEmpty then some buf
    else do
      let titleWidth : Int := t.line.width u
      let buf ← b.drawTitle u t
        { x := ta.x, y := ta.y, width := min titleWidth ta.width, height := ta.height } buf
      leftLoop u b rest
        { ta with x := ta.x + titleWidth + 1, width := max 0 (ta.width - titleWidth - 1) } buf

/-- `/repo/widget/blockwidget/block.go:311-337` — `renderRightTitles`. -/
def renderRightTitles (u : Uniseg) (b : Block) (position : TitlePosition) (area : Rect) (buf : Buffer) :
    Option Buffer :=
  rightLoop u b (b.filterTitles position .right).reverse (b.titlesArea area position) buf

/-- `/repo/widget/blockwidget/block.go:342-350` — the total width of the titles. -/
def totalWidth (u : Uniseg) (titles : List Title) : Int :=
  max 0 ((titles.map fun t => (t.line.width u : Int) + 1).sum - 1)

/-- `/repo/widget/blockwidget/block.go:339-385` — `renderCenterTitles`. -/
def renderCenterTitles (u : Uniseg) (b : Block) (position : TitlePosition) (area : Rect) (buf : Buffer) :
    Option Buffer :=
  let titles := b.filterTitles position .center
  let ta := b.titlesArea area position
  leftLoop u b titles
    { ta with x := ta.left + Int.tdiv (max 0 (ta.width - totalWidth u titles)) 2 } buf

/-- `/repo/widget/blockwidget/block.go:387-412` — `renderLeftTitles`. -/
def renderLeftTitles (u : Uniseg) (b : Block) (position : TitlePosition) (area : Rect) (buf : Buffer) :
    Option Buffer :=
  leftLoop u b (b.filterTitles position .left) (b.titlesArea area position) buf

/-- `/repo/widget/blockwidget/block.go:304-309` — `renderTitlePosition`. -/
def renderTitlePosition (u : Uniseg) (b : Block) (position : TitlePosition) (area : Rect)
    (buf : Buffer) : Option Buffer := do
  let buf ← b.renderRightTitles u position area buf
  let buf ← b.renderCenterTitles u position area buf
  b.renderLeftTitles u position area buf

/-- `/repo/widget/blockwidget/block.go:299-302` — `renderTitles`. -/
def renderTitles (u : Uniseg) (b : Block) (area : Rect) (buf : Buffer) : Option Buffer := do
  let buf ← b.renderTitlePosition u .top area buf
  b.renderTitlePosition u .bottom area buf

/-- `/repo/widget/blockwidget/block.go:167-177` — `Render`; the area is intersected with itself. -/
def render (u : Uniseg) (b : Block) (area : Rect) (buf : Buffer) : Option Buffer :=
  let area := area.intersection area
  if area.isEmpty then some buf
  else do
    let buf ← buf.setStyle area b.style
    let buf ← b.renderBorders area buf
    b.renderTitles u area buf

end Block

end Bento
