import Verif.Model.ListWidget

/-!
# The scrollbar

Models `/repo/widget/scrollwidget/scroll.go`, `state.go`, `orientation.go` and `direction.go`. The float64
computation `int(math.Round(float64(a) / float64(b)))` is a parameter; the theorems say what they assume
of it. Go's `int` wraps around at 64 bits where products and sums of lengths are computed.
-/

namespace Bento

namespace Scroll

open ListWidget (wrap64)

/-- `/repo/widget/scrollwidget/orientation.go:3-10` — `Orientation`. -/
inductive Orientation
  | verticalRight
  | verticalLeft
  | horizontalBottom
  | horizontalTop
  deriving DecidableEq, Repr

/-- `/repo/widget/scrollwidget/orientation.go:12-19` — `IsVertical`. -/
def Orientation.isVertical : Orientation → Bool
  | .verticalRight | .verticalLeft => true
  | .horizontalBottom | .horizontalTop => false

/-- `/repo/widget/scrollwidget/state.go:22-26` — `State`. -/
structure State where
  contentLen : Int
  position : Int
  viewportContentLen : Int
  deriving DecidableEq, Repr

namespace State

/-- `/repo/widget/scrollwidget/state.go:32-38` — `NewState`. -/
def new (contentLen : Int) : State := ⟨contentLen, 0, 0⟩

/-- `/repo/widget/scrollwidget/state.go:40-43` — `SetPosition`. -/
def setPosition (s : State) (position : Int) : State := { s with position := position }

/-- `/repo/widget/scrollwidget/state.go:45-48` — `SetViewportContentLen`. -/
def setViewportContentLen (s : State) (l : Int) : State := { s with viewportContentLen := l }

/-- `/repo/widget/scrollwidget/state.go:51-53` — `Prev`. -/
def prev (s : State) : State := { s with position := max 0 (wrap64 (s.position - 1)) }

/-- `/repo/widget/scrollwidget/state.go:56-58` — `Next`. -/
def next (s : State) : State :=
  { s with position := min (wrap64 (s.position + 1)) (max 0 (wrap64 (s.contentLen - 1))) }

/-- `/repo/widget/scrollwidget/state.go:60-62` — `First`. -/
def first (s : State) : State := { s with position := 0 }

/-- `/repo/widget/scrollwidget/state.go:64-66` — `Last`. -/
def last (s : State) : State := { s with position := max 0 (wrap64 (s.contentLen - 1)) }

/-- `/repo/widget/scrollwidget/state.go:68-75` — `Scroll`, forwards or backwards
(`/repo/widget/scrollwidget/direction.go:3-8`). -/
def scroll (s : State) (forward : Bool) : State := if forward then s.next else s.prev

end State

end Scroll

/-- `/repo/widget/scrollwidget/scroll.go:14-28` — `Scroll`. -/
structure Scroll where
  orientation : Scroll.Orientation
  thumbStyle : Style
  thumbSymbol : String
  trackStyle : Style
  trackSymbol : Option String
  beginStyle : Style
  beginSymbol : Option String
  endStyle : Style
  endSymbol : Option String

namespace Scroll

open ListWidget (wrap64)

/-- `/repo/widget/scrollwidget/scroll.go:30-49` — `New`, with the symbols of
`/repo/widget/scrollwidget/set.go:41-60` and `/repo/symbol`; the horizontal set has empty arrow heads. -/
def new (o : Orientation) : Scroll :=
  if o.isVertical then
    ⟨o, Style.new, "█", Style.new, some "║", Style.new, some "▲", Style.new, some "▼"⟩
  else ⟨o, Style.new, "█", Style.new, some "═", Style.new, some "", Style.new, some ""⟩

/-- `/repo/widget/scrollwidget/scroll.go:244-281` — `scrollbarArea`. The two horizontal orientations are the
wrong way round in the source. -/
def scrollbarArea (s : Scroll) (area : Rect) : Option Rect :=
  match s.orientation with
  | .verticalLeft => area.columns.head?
  | .verticalRight => area.columns.getLast?
  | .horizontalBottom => area.rows.head?
  | .horizontalTop => area.rows.getLast?

/-- `/repo/widget/scrollwidget/scroll.go:51-73` — `Inner`. -/
def inner (s : Scroll) (area : Rect) : Rect :=
  match s.scrollbarArea area with
  | none => Rect.zero
  | some bar =>
    area.inner (match s.orientation with
      | .horizontalBottom => Padding.none'.withBottom bar.height
      | .horizontalTop => Padding.none'.withTop bar.height
      | .verticalLeft => Padding.none'.withLeft bar.width
      | .verticalRight => Padding.none'.withRight bar.width)

/-- The size of an area along the scrollbar. -/
def along (s : Scroll) (area : Rect) : Int := if s.orientation.isVertical then area.height else area.width

/-- `/repo/widget/scrollwidget/scroll.go:168-188` — `trackLenExcludingArrowHeads`. -/
def trackLen (u : Uniseg) (s : Scroll) (area : Rect) : Int :=
  let startLen : Int := match s.beginSymbol with | some v => u.stringWidth v | none => 0
  let endLen : Int := match s.endSymbol with | some v => u.stringWidth v | none => 0
  max 0 (s.along area - (startLen + endLen))

/-- `/repo/widget/scrollwidget/scroll.go:232-242` — `viewportLen`. -/
def viewportLen (s : Scroll) (area : Rect) (state : State) : Int :=
  if state.viewportContentLen ≠ 0 then state.viewportContentLen else s.along area

/-- `/repo/widget/scrollwidget/scroll.go:200-230` — `partLens`; `rd a b` stands for
`int(math.Round(float64(a) / float64(b)))`. -/
def partLens (rd : Int → Int → Int) (u : Uniseg) (s : Scroll) (area : Rect) (state : State) : Int × Int × Int :=
  let trackLen := s.trackLen u area
  let viewportLen := s.viewportLen area state
  let maxPosition := max 0 (wrap64 (state.contentLen - 1))
  let startPosition := max 0 (min maxPosition state.position)
  let maxViewportPosition := wrap64 (maxPosition + viewportLen)
  let endPosition := wrap64 (startPosition + viewportLen)
  let thumbStart := max 0 (min (trackLen - 1) (rd (wrap64 (startPosition * trackLen)) maxViewportPosition))
  let thumbEnd := max 0 (min trackLen (rd (wrap64 (endPosition * trackLen)) maxViewportPosition))
  let thumbLen := max 1 (max 0 (thumbEnd - thumbStart))
  let trackEndLen := max 0 (trackLen - thumbStart - thumbLen)
  (thumbStart, thumbLen, trackEndLen)

/-- `/repo/widget/scrollwidget/scroll.go:110-161` — `barSymbols`: the arrow heads take a place in the list
even if they are not set. -/
def barSymbols (rd : Int → Int → Int) (u : Uniseg) (s : Scroll) (area : Rect) (state : State) :
    List (Option (String × Style)) :=
  let (start, thumb, rest) := s.partLens rd u area state
  let begin := s.beginSymbol.map fun v => (v, s.beginStyle)
  let track := s.trackSymbol.map fun v => (v, s.trackStyle)
  let fin := s.endSymbol.map fun v => (v, s.endStyle)
  [begin] ++ List.replicate start.toNat track ++ List.replicate thumb.toNat (some (s.thumbSymbol, s.thumbStyle)) ++
    List.replicate rest.toNat track ++ [fin]

/-- `/repo/widget/scrollwidget/scroll.go:91-102` — the drawing loop. -/
def drawLoop (u : Uniseg) : List (Rect × Option (String × Style)) → Buffer → Option Buffer
  | [], b => some b
  | (_, none) :: rest, b => drawLoop u rest b
  | (r, some (symbol, style)) :: rest, b => do
    let b ← b.setString u r.x r.y symbol style
    drawLoop u rest b

/-- `/repo/widget/scrollwidget/scroll.go:75-103` — `RenderStateful`. -/
def render (rd : Int → Int → Int) (u : Uniseg) (s : Scroll) (area : Rect) (b : Buffer) (state : State) :
    Option Buffer :=
  if state.contentLen = 0 ∨ s.trackLen u area = 0 then some b
  else match s.scrollbarArea area with
    | none => some b
    | some bar => drawLoop u ((bar.columns.flatMap Rect.rows).zip (s.barSymbols rd u bar state)) b

end Scroll

end Bento
