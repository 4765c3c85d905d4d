/-!
# Geometry: `Position`, `Rect`, `Padding`

Models `/repo/position.go`, `/repo/rect.go`, `/repo/padding.go`.
Go `int` is modelled by unbounded `Int` (overflow of 64-bit coordinates is out of scope).
-/

namespace Bento

/-- `/repo/position.go:3-5` — `type Position struct { X, Y int }`. -/
@[ext] structure Position where
  x : Int
  y : Int
  deriving DecidableEq, Repr, Inhabited

/-- `/repo/rect.go:3-7` — `type Rect struct { Position; Width, Height int }`
(the embedded `Position` is flattened). -/
@[ext] structure Rect where
  x : Int
  y : Int
  width : Int
  height : Int
  deriving DecidableEq, Repr, Inhabited

/-- `/repo/padding.go:3-5` — `type Padding struct`. -/
@[ext] structure Padding where
  top : Int
  right : Int
  bottom : Int
  left : Int
  deriving DecidableEq, Repr, Inhabited

namespace Rect

/-- The Go zero value `Rect{}`. -/
def zero : Rect := ⟨0, 0, 0, 0⟩

/-- `/repo/rect.go:9-11` — `NewRect`. -/
def new (width height : Int) : Rect := ⟨0, 0, width, height⟩

/-- `/repo/rect.go:13-17` — `Rect.Positioned`. -/
def positioned (r : Rect) (x y : Int) : Rect := { r with x := x, y := y }

/-- `/repo/rect.go:29-31` — `Rect.IsEmpty` (only tests `== 0`, as in the source). -/
def isEmpty (r : Rect) : Bool := r.width == 0 || r.height == 0

/-- `/repo/rect.go:33-35` — `Rect.Area`. -/
def area (r : Rect) : Int := r.width * r.height

/-- `/repo/rect.go:37-39` — `Rect.Left`. -/
def left (r : Rect) : Int := r.x

/-- `/repo/rect.go:41-43` — `Rect.Right`. -/
def right (r : Rect) : Int := r.x + r.width

/-- `/repo/rect.go:45-47` — `Rect.Top`. -/
def top (r : Rect) : Int := r.y

/-- `/repo/rect.go:49-51` — `Rect.Bottom`. -/
def bottom (r : Rect) : Int := r.y + r.height

/-- `/repo/rect.go:53-69` — `Rect.Inner`. -/
def inner (r : Rect) (p : Padding) : Rect :=
  let horizontal := p.right + p.left
  let vertical := p.top + p.bottom
  if r.width < horizontal ∨ r.height < vertical then zero
  else
    { x := r.x + p.left
      y := r.y + p.top
      width := max 0 (r.width - horizontal)
      height := max 0 (r.height - vertical) }

/-- `/repo/rect.go:71-83` — `Rect.Intersection`. -/
def intersection (r other : Rect) : Rect :=
  let x1 := max r.x other.x
  let y1 := max r.y other.y
  let x2 := min r.right other.right
  let y2 := min r.bottom other.bottom
  { x := x1, y := y1, width := max 0 (x2 - x1), height := max 0 (y2 - y1) }

/-- `/repo/rect.go:85-87` — `Rect.Contains`. -/
def contains (r : Rect) (p : Position) : Bool :=
  p.x ≥ r.x && p.x < r.right && p.y ≥ r.y && p.y < r.bottom

/-- `/repo/rect.go:95-105` — the loop of `Rect.Rows` from line `fwd` while `fwd < back`;
`n` bounds the number of iterations (`n = back - fwd` at the call). -/
def rowsLoop (r : Rect) (back : Int) : Nat → Int → List Rect
  | 0, _ => []
  | n + 1, fwd =>
    if fwd < back then
      { x := r.x, y := fwd, width := r.width, height := 1 } :: rowsLoop r back n (fwd + 1)
    else []

/-- `/repo/rect.go:89-108` — `Rect.Rows`. -/
def rows (r : Rect) : List Rect :=
  rowsLoop r r.bottom (r.bottom - r.y).toNat r.y

/-- `/repo/rect.go:110-116` — `Rect.IndentX`. -/
def indentX (r : Rect) (offset : Int) : Rect :=
  { x := r.x + offset, y := r.y, width := max 0 (r.width - offset), height := r.height }

/-- `/repo/rect.go:124-129` — the loop of `Rect.Columns`, bounded like `rowsLoop`. -/
def columnsLoop (r : Rect) (back : Int) : Nat → Int → List Rect
  | 0, _ => []
  | n + 1, fwd =>
    if fwd < back then
      (new 1 r.height).positioned fwd r.y :: columnsLoop r back n (fwd + 1)
    else []

/-- `/repo/rect.go:118-132` — `Rect.Columns`. -/
def columns (r : Rect) : List Rect :=
  columnsLoop r r.right (r.right - r.x).toNat r.x

end Rect

namespace Padding

/-- `/repo/padding.go:7-34` — `NewPadding`; the panic of the `default` case is `none`. -/
def new : List Int → Option Padding
  | [] => some ⟨0, 0, 0, 0⟩
  | [side] => some ⟨side, side, side, side⟩
  | [vertical, horizontal] => some ⟨vertical, horizontal, vertical, horizontal⟩
  | [a, b, c, d] => some ⟨a, b, c, d⟩
  | _ => none

/-- The padding `NewPadding()` used as a base all over the code. -/
def none' : Padding := ⟨0, 0, 0, 0⟩

/-- `/repo/padding.go:36-39` — `WithTop`. -/
def withTop (p : Padding) (s : Int) : Padding := { p with top := s }

/-- `/repo/padding.go:41-44` — `WithRight`. -/
def withRight (p : Padding) (s : Int) : Padding := { p with right := s }

/-- `/repo/padding.go:46-49` — `WithBottom`. -/
def withBottom (p : Padding) (s : Int) : Padding := { p with bottom := s }

/-- `/repo/padding.go:51-54` — `WithLeft`; the source assigns `p.Bottom`. -/
def withLeft (p : Padding) (s : Int) : Padding := { p with bottom := s }

end Padding

end Bento
