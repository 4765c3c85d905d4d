import Verif.Model.Geometry
import Verif.Model.Style
import Verif.Model.Uniseg

/-!
# Buffer

Models `/repo/buffer.go`.  The slice `content` is a `List Cell`; a Go panic is `none`.
`CellAt` returns a pointer into the slice in Go; here reading is `cellAt` and writing through the
pointer is `modifyCell`.
-/

namespace Bento

/-- `/repo/buffer.go:10-15` — `type Buffer struct`. -/
@[ext] structure Buffer where
  area : Rect
  content : List Cell
  deriving DecidableEq, Repr, Inhabited

/-- The integers `lo, lo+1, …, hi-1`: the values of the loop variable of
`for i := lo; i < hi; i++`. -/
def intRange (lo hi : Int) : List Int := (List.range (hi - lo).toNat).map (fun (i : Nat) => lo + i)

/-- `/repo/terminal.go:8-12` — `type PositionedCell struct`. -/
structure PositionedCell where
  cell : Cell
  pos : Position
  deriving DecidableEq, Repr

namespace Buffer

/-- `/repo/buffer.go:21-33` — `NewBufferFilled`; `make` with a negative capacity panics. -/
def newFilled (area : Rect) (cell : Cell) : Option Buffer :=
  if area.area < 0 then none
  else some ⟨area, List.replicate area.area.toNat cell⟩

/-- `/repo/buffer.go:17-19` — `NewBufferEmpty`. -/
def newEmpty (area : Rect) : Option Buffer := newFilled area Cell.empty

/-- `/repo/buffer.go:81-90` — `Buffer.PosOf` (Go `%` and `/` truncate; division by a zero width
panics). -/
def posOf (b : Buffer) (index : Nat) : Option Position :=
  if index ≥ b.content.length then none
  else if b.area.width = 0 then none
  else some ⟨Int.tmod index b.area.width + b.area.x, Int.tdiv index b.area.width + b.area.y⟩

/-- `/repo/buffer.go:141-153` — `Buffer.indexOf`. -/
def indexOf (b : Buffer) (p : Position) : Option Int :=
  if b.area.contains p then
    let y := max 0 (p.y - b.area.y)
    let x := max 0 (p.x - b.area.x)
    some (y * b.area.width + x)
  else none

/-- `/repo/buffer.go:132-134` — `Buffer.CellAt`, reading. -/
def cellAt (b : Buffer) (p : Position) : Option Cell := do
  let i ← b.indexOf p
  if i < 0 then none else b.content[i.toNat]?

/-- `/repo/buffer.go:132-134` — `Buffer.CellAt`, followed by a modification `f` through the
returned pointer. -/
def modifyCell (b : Buffer) (p : Position) (f : Cell → Cell) : Option Buffer := do
  let i ← b.indexOf p
  if 0 ≤ i ∧ i.toNat < b.content.length then
    some { b with content := b.content.modify i.toNat f }
  else none

/-- `/repo/buffer.go:97-101` — `Buffer.Reset`. -/
def reset (b : Buffer) : Buffer := { b with content := b.content.map Cell.reset }

/-- `/repo/buffer.go:123-126` — the loop resetting the `n` cells right of `x - 1` that a wide symbol
covers. -/
def resetLoop (y : Int) : Nat → Int → Buffer → Option Buffer
  | 0, _, b => some b
  | n + 1, x, b => do
    let b ← b.modifyCell ⟨x, y⟩ Cell.reset
    resetLoop y n (x + 1) b

/-- `/repo/buffer.go:112-127` — the loop of `SetStringN` over the graphemes (symbol, width);
returns the buffer and the final `x`. -/
def setStringLoop (y : Int) (style : Style) : List (String × Nat) → Int → Int → Buffer →
    Option (Buffer × Int)
  | [], x, _, b => some (b, x)
  | (symbol, width) :: rest, x, remainingWidth, b =>
    if remainingWidth > 0 then do
      let b ← b.modifyCell ⟨x, y⟩ (fun c => (c.setSymbol symbol).setStyle style)
      let b ← resetLoop y (width - 1) (x + 1) b
      setStringLoop y style rest (x + max 1 (width : Int)) (remainingWidth - width) b
    else some (b, x)

/-- `/repo/buffer.go:107-130` — `Buffer.SetStringN`; returns the buffer and the new `x`
(the returned `y` is the argument). -/
def setStringN (u : Uniseg) (b : Buffer) (x y : Int) (value : String) (maxWidth : Int)
    (style : Style) : Option (Buffer × Int) :=
  let remainingWidth := min maxWidth (max 0 (b.area.right - x))
  setStringLoop y style ((u.graphemes value).map (fun g => (g, u.width g))) x remainingWidth b

/-- Go's `math.MaxInt` on 64-bit platforms. -/
def maxInt : Int := 9223372036854775807

/-- `/repo/buffer.go:92-95` — `Buffer.SetString`. -/
def setString (u : Uniseg) (b : Buffer) (x y : Int) (value : String) (style : Style) :
    Option Buffer :=
  (b.setStringN u x y value maxInt style).map Prod.fst

/-- `/repo/buffer.go:155-169` — `Buffer.Resize`; `slices.Delete` with a negative index panics. -/
def resize (b : Buffer) (area : Rect) : Option Buffer :=
  let length := area.area
  if (b.content.length : Int) > length then
    if length < 0 then none
    else some ⟨area, b.content.take length.toNat⟩
  else
    let toAdd := length - b.content.length
    some ⟨area, b.content ++ List.replicate toAdd.toNat Cell.empty⟩

/-- `/repo/buffer.go:174-180` — the positions visited by the double loop of `Buffer.SetStyle`,
in order. -/
def positionsOf (area : Rect) : List Position :=
  (intRange area.top area.bottom).flatMap (fun y =>
    (intRange area.left area.right).map (fun x => ⟨x, y⟩))

/-- `/repo/buffer.go:171-181` — `Buffer.SetStyle`. -/
def setStyle (b : Buffer) (area : Rect) (style : Style) : Option Buffer :=
  let area := b.area.intersection area
  (positionsOf area).foldlM (fun b pos => b.modifyCell pos (Cell.setStyle style)) b

/-- `/repo/buffer.go:55-76` — the loop of `Diff` at index `i` over the remaining cells of the
previous and the next buffer. `sw` is `uniseg.StringWidth`. -/
def diffLoop (sw : String → Nat) (b : Buffer) :
    List Cell → List Cell → (i invalidated toSkip : Nat) → Option (List PositionedCell)
  | previous :: prevRest, current :: nextRest, i, invalidated, toSkip => do
    let emit := !current.skip && (current != previous || decide (invalidated > 0)) && toSkip == 0
    let head ← if emit then (b.posOf i).map (fun pos => [⟨current, pos⟩]) else some []
    let previousWidth := sw previous.symbol
    let currentWidth := sw current.symbol
    let toSkip := max 0 (currentWidth - 1)
    let affectedWidth := max previousWidth currentWidth
    let invalidated := max 0 (max invalidated affectedWidth - 1)
    let tail ← diffLoop sw b prevRest nextRest (i + 1) invalidated toSkip
    some (head ++ tail)
  | _, _, _, _, _ => some []

/-- `/repo/buffer.go:45-79` — `Buffer.Diff`. -/
def diff (u : Uniseg) (b other : Buffer) : Option (List PositionedCell) :=
  diffLoop u.stringWidth b b.content other.content 0 0 0

end Buffer

end Bento
