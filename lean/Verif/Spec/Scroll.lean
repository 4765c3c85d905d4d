import Verif.Model.Scroll
import Verif.Spec.Text

/-!
# Rounding, positions and the parts of a scrollbar
-/

namespace Bento

namespace Scroll

/-- What the theorems assume of `int(math.Round(float64(a) / float64(b)))` for numbers up to `2^53`, which
are exact in float64: it does not decrease with `a`, and is exact if `b` divides `a`. -/
structure Rounds (rd : Int → Int → Int) : Prop where
  mono : ∀ a a' b, 0 ≤ a → a ≤ a' → a' ≤ 2 ^ 53 → 0 < b → b ≤ 2 ^ 53 → rd a b ≤ rd a' b
  exact : ∀ k b, 0 ≤ k → k * b ≤ 2 ^ 53 → 0 < b → b ≤ 2 ^ 53 → rd (k * b) b = k

/-- Rounding the exact quotient, half upwards. -/
def nearest (a b : Int) : Int := (2 * a + b) / (2 * b)

/-- The operations on the scroll position. -/
inductive Op
  | next
  | prev
  | first
  | last
  | scroll (forward : Bool)

/-- The function of the API for each of them. -/
def Op.run : Op → State → State
  | .next => State.next
  | .prev => State.prev
  | .first => State.first
  | .last => State.last
  | .scroll forward => fun s => s.scroll forward

/-- The calls on a state. -/
inductive Call
  | move (op : Op)
  | position (p : Int)
  | viewport (v : Int)

/-- The function of the API for each of them. -/
def Call.run : Call → State → State
  | .move op => op.run
  | .position p => fun s => s.setPosition p
  | .viewport v => fun s => s.setViewportContentLen v

/-- Where a call leads to from a position in a content of `n` lines. -/
def Call.lead (n : Int) : Call → Int → Int
  | .move .next, p => if p + 1 < n then p + 1 else if n = 0 then min (p + 1) 0 else n - 1
  | .move (.scroll true), p => if p + 1 < n then p + 1 else if n = 0 then min (p + 1) 0 else n - 1
  | .move .prev, p => if 0 < p then p - 1 else 0
  | .move (.scroll false), p => if 0 < p then p - 1 else 0
  | .move .first, _ => 0
  | .move .last, _ => if n = 0 then 0 else n - 1
  | .position q, _ => q
  | .viewport _, p => p

/-- The viewport that a call sets. -/
def Call.viewport? : Call → Option Int
  | .viewport v => some v
  | _ => none

/-- The number in a call is one that positions can have. -/
def Call.Small : Call → Prop
  | .position p => -2 ^ 62 ≤ p ∧ p ≤ 2 ^ 62
  | _ => True

/-- The strip on the side that the orientation names. -/
def Orientation.strip (o : Orientation) (area : Rect) : Rect :=
  match o with
  | .verticalLeft => ⟨area.x, area.y, 1, area.height⟩
  | .verticalRight => ⟨area.x + area.width - 1, area.y, 1, area.height⟩
  | .horizontalTop => ⟨area.x, area.y, area.width, 1⟩
  | .horizontalBottom => ⟨area.x, area.y + area.height - 1, area.width, 1⟩

/-- The `i`-th cell of the strip. -/
def Orientation.cell (o : Orientation) (strip : Rect) (i : Nat) : Position :=
  if o.isVertical then ⟨strip.x, strip.y + i⟩ else ⟨strip.x + i, strip.y⟩

/-- What the `i`-th cell of a bar with arrow heads shows: `start` cells of track, `thumb` cells of thumb,
`rest` cells of track. -/
def part (s : Scroll) (start thumb rest i : Nat) : Option (String × Style) :=
  if i = 0 then s.beginSymbol.map fun v => (v, s.beginStyle)
  else if i ≤ start then s.trackSymbol.map fun v => (v, s.trackStyle)
  else if i ≤ start + thumb then some (s.thumbSymbol, s.thumbStyle)
  else if i ≤ start + thumb + rest then s.trackSymbol.map fun v => (v, s.trackStyle)
  else s.endSymbol.map fun v => (v, s.endStyle)

/-- A symbol of one cell. -/
def OneCell (u : Uniseg) (v : String) : Prop := u.graphemes v = [v] ∧ u.width v = 1

end Scroll

end Bento
