import Verif.Model.Block
import Verif.Model.Layout
import Verif.Model.Input

/-!
# The text input widget

Models `/repo/widget/inputwidget/state.go` and `input.go`. A Go panic is `none`.

The state's grapheme slice is a value here. In `deleteWhile`, `DeleteUnderCursor` and `Input.split` the
code appends to a prefix of the slice while it still holds a suffix of it; each write lands on an index
that the suffix no longer needs, or stores what was there, so the values are those of fresh slices. This
is proved for the slices themselves (`Model/Slices`, C76).
-/

namespace Bento

namespace InputField

/-- `/repo/widget/inputwidget/state.go:14-21` — `State`. -/
structure State where
  cursor : Int
  showCursor : Bool
  graphemes : List Grapheme
  offset : Int
  deriving DecidableEq, Repr

namespace State

/-- `/repo/widget/inputwidget/state.go:23-27` — `NewState`. -/
def new : State := ⟨0, true, [], 0⟩

/-- `/repo/widget/inputwidget/state.go:29-31` — `State.String`. -/
def string (s : State) : String := graphemesString s.graphemes

/-- `/repo/widget/inputwidget/state.go:175-180` — `clampCursor`. -/
def clampCursor (s : State) (cursor : Int) : Int := min (max 0 cursor) s.graphemes.length

/-- `/repo/widget/inputwidget/state.go:33-36` — `setCursor`. -/
def setCursor (s : State) (cursor : Int) : State := { s with cursor := s.clampCursor cursor }

/-- `/repo/widget/inputwidget/state.go:42-44` — `MoveCursorLeft`. -/
def moveCursorLeft (s : State) : State := s.setCursor (s.cursor - 1)

/-- `/repo/widget/inputwidget/state.go:46-48` — `MoveCursorRight`. -/
def moveCursorRight (s : State) : State := s.setCursor (s.cursor + 1)

/-- `/repo/widget/inputwidget/state.go:50-53` — `MoveCursorBegin`. -/
def moveCursorBegin (s : State) : State := { s.setCursor 0 with offset := 0 }

/-- `/repo/widget/inputwidget/state.go:55-57` — `MoveCursorEnd`. -/
def moveCursorEnd (s : State) : State := s.setCursor s.graphemes.length

/-- `/repo/widget/inputwidget/state.go:63` — `slices.Insert` of one grapheme at the cursor; panics when
the cursor is not a position of the slice. -/
def insert (s : State) (g : Grapheme) : Option State :=
  if 0 ≤ s.cursor ∧ s.cursor ≤ s.graphemes.length then
    some { s with
      graphemes := s.graphemes.take s.cursor.toNat ++ g :: s.graphemes.drop s.cursor.toNat }
  else none

/-- `/repo/widget/inputwidget/state.go:62-65` — the loop of `Append`. -/
def appendLoop (u : Uniseg) : List String → State → Option State
  | [], s => some s
  | c :: rest, s => do
    let s ← s.insert (Grapheme.new u c)
    appendLoop u rest s.moveCursorRight

/-- `/repo/widget/inputwidget/state.go:59-66` — `Append`. -/
def append (u : Uniseg) (content : String) (s : State) : Option State :=
  appendLoop u (u.graphemes content) s

/-- `/repo/widget/inputwidget/state.go:68-71` — `DeleteLine`. -/
def deleteLine (s : State) : State := { s with graphemes := [], cursor := 0 }

/-- `/repo/widget/inputwidget/state.go:182-188` — `underCursor`. -/
def underCursor (s : State) : Option Grapheme :=
  if s.graphemes.length = 0 ∨ s.cursor = 0 then some Grapheme.empty
  else if s.cursor < 1 then none
  else s.graphemes[(s.cursor - 1).toNat]?

/-- `/repo/widget/inputwidget/state.go:204-217` — `splitAtCursor`: what is before, under and after the
cursor. -/
def splitAtCursor (s : State) : Option (List Grapheme × Grapheme × List Grapheme) :=
  if s.graphemes.length = 0 ∨ s.cursor = 0 then some ([], Grapheme.empty, s.graphemes)
  else if s.cursor < 1 then none
  else
    match s.graphemes[(s.cursor - 1).toNat]? with
    | none => none
    | some under =>
      some (s.graphemes.take (s.cursor - 1).toNat, under, s.graphemes.drop s.cursor.toNat)

/-- `/repo/widget/inputwidget/state.go:91-102` — the loop of `deleteWhile`, on the graphemes before the
cursor from the last to the first; returns what is left of them (in that order), the current grapheme and
the cursor. -/
def whileLoop (cond : Grapheme → Bool) (len : Int) : List Grapheme → Grapheme → Int →
    List Grapheme × Grapheme × Int
  | [], current, cursor => ([], if cond current then Grapheme.empty else current, cursor)
  | g :: before, current, cursor =>
    if cond current then whileLoop cond len before g (min (max 0 (cursor - 1)) len)
    else (g :: before, current, cursor)

/-- `/repo/widget/inputwidget/state.go:88-106` — `deleteWhile`. -/
def deleteWhile (cond : Grapheme → Bool) (s : State) : Option State := do
  let (before, under, after) ← s.splitAtCursor
  let r := whileLoop cond s.graphemes.length before.reverse under s.cursor
  some { s with graphemes := r.1.reverse ++ r.2.1 :: after, cursor := r.2.2 }

/-- `/repo/widget/inputwidget/state.go:73-86` — `DeleteWordUnderCursor`. -/
def deleteWordUnderCursor (s : State) : Option State := do
  let current ← s.underCursor
  if current.isEmpty then some s
  else do
    let s ← if current.isWhitespace then s.deleteWhile Grapheme.isWhitespace else some s
    s.deleteWhile fun g => !g.isEmpty && !g.isWhitespace

/-- `/repo/widget/inputwidget/state.go:108-113` — `DeleteUnderCursor`. -/
def deleteUnderCursor (s : State) : Option State := do
  let (before, _, after) ← s.splitAtCursor
  some ({ s with graphemes := before ++ after } : State).moveCursorLeft

/-- `string(runes)`: a rune that is not a Unicode scalar value becomes U+FFFD. -/
def runesString (rs : List Nat) : String :=
  String.ofList (rs.map fun r => if h : r.isValidChar then Char.ofNatAux r h else Char.ofNat 0xFFFD)

/-- `/repo/widget/inputwidget/state.go:123-173` — `TryUpdate` and `update` for a key; the flag tells
whether the key was handled. `MoveWordLeft` and `MoveWordRight` do nothing. -/
def update (u : Uniseg) (key : Key) (s : State) : Option (State × Bool) :=
  if key.type = Input.keyLeft then some (s.moveCursorLeft, true)
  else if key.type = Input.keyShiftLeft then some (s, true)
  else if key.type = Input.keyRight then some (s.moveCursorRight, true)
  else if key.type = Input.keyShiftRight then some (s, true)
  else if key.type = 127 ∨ key.type = Input.keyDelete then s.deleteUnderCursor.map (·, true)
  else if key.type = 1 then some (s.moveCursorBegin, true)
  else if key.type = 5 then some (s.moveCursorEnd, true)
  else if key.type = 23 then s.deleteWordUnderCursor.map (·, true)
  else if key.type = Input.keyRunes ∨ key.type = Input.keySpace then
    (s.append u (runesString key.runes)).map (·, true)
  else some (s, false)

/-- `/repo/widget/inputwidget/state.go:190-202` — `isEmpty`. -/
def isEmpty (s : State) : Bool := s.graphemes.all Grapheme.isEmpty

/-! ### The visible part -/

/-- `/repo/widget/inputwidget/state.go:231-239` — the graphemes that fit from the offset on; returns the
width used and the index after the last one. -/
def fitLoop (maxWidth : Int) : List Grapheme → Int → Int → Int × Int
  | [], width, last => (width, last)
  | g :: rest, width, last =>
    if width + g.width > maxWidth then (width, last) else fitLoop maxWidth rest (width + g.width) (last + 1)

/-- An index into a slice; panics outside. -/
def at? (gs : List Grapheme) (i : Int) : Option Grapheme := if i < 0 then none else gs[i.toNat]?

/-- `/repo/widget/inputwidget/state.go:251-255` — the loop that gives up graphemes at the front; the list
is what follows the first visible index. -/
def shrinkFront (maxWidth : Int) : List Grapheme → Int → Int → Option (Int × Int)
  | [], width, first => if width > maxWidth then none else some (width, first)
  | g :: rest, width, first =>
    if width > maxWidth then shrinkFront maxWidth rest (max 0 (width - g.width)) (first + 1)
    else some (width, first)

/-- `/repo/widget/inputwidget/state.go:246-256` — the loop that extends the visible part to the back, `n`
times; returns the width, the first and the last index. -/
def growLoop (maxWidth : Int) (gs : List Grapheme) : Nat → Int → Int → Int → Option (Int × Int × Int)
  | 0, width, first, last => some (width, first, last)
  | n + 1, width, first, last => do
    let g ← at? gs last
    let (width, first) ← shrinkFront maxWidth (gs.drop first.toNat) (width + g.width) first
    growLoop maxWidth gs n width first (last + 1)

/-- `/repo/widget/inputwidget/state.go:263-267` — the loop that gives up graphemes at the back; `last` is
a number of graphemes here. -/
def shrinkBack (maxWidth : Int) (gs : List Grapheme) : Nat → Int → Option (Int × Int)
  | 0, width => if width > maxWidth then none else some (width, 0)
  | last + 1, width =>
    if width > maxWidth then do
      let g ← gs[last]?
      shrinkBack maxWidth gs last (max 0 (width - g.width))
    else some (width, last + 1)

/-- `/repo/widget/inputwidget/state.go:258-268` — the loop that extends the visible part to the front, `n`
times. -/
def backLoop (maxWidth : Int) (gs : List Grapheme) : Nat → Int → Int → Int → Option (Int × Int × Int)
  | 0, width, first, last => some (width, first, last)
  | n + 1, width, first, last => do
    let g ← at? gs (first - 1)
    let (width, last) ← shrinkBack maxWidth gs last.toNat (width + g.width)
    backLoop maxWidth gs n width (first - 1) last

/-- `/repo/widget/inputwidget/state.go:219-278` — `getBounds`. The loops of lines 246 and 258 change only
one of the two numbers they compare, by one each time, so their number of rounds is known beforehand. -/
def getBounds (s : State) (maxWidth : Int) : Option (Int × Int) :=
  if s.graphemes.length = 0 then some (0, 0)
  else
    let offset := min s.offset (max 0 ((s.graphemes.length : Int) - 1))
    if offset < 0 then none
    else do
      let (width, last) := fitLoop maxWidth (s.graphemes.drop offset.toNat) 0 offset
      let index := if s.cursor ≠ 0 then min (s.cursor - 1) last else offset
      let (width, first, last) ← growLoop maxWidth s.graphemes (index - last + 1).toNat width offset last
      let (_, first, last) ← backLoop maxWidth s.graphemes (first - index).toNat width first last
      if s.cursor - first ≥ last then some (first + (s.cursor - last), last + (s.cursor - last))
      else some (first, last)

end State

/-- `/repo/widget/inputwidget/input.go:14-24` — `Input`. -/
structure Widget where
  block : Option Block
  style : Style
  alignment : Alignment
  placeholder : List Grapheme
  placeholderStyle : Style
  cursorStyle : Style
  vertical : Flex
  prompt : String
  promptStyle : Style

/-- `/repo/internal/sliceutil/sliceutil.go:19-25` — `Skip`; panics for a negative number. -/
def skip (gs : List Grapheme) (n : Int) : Option (List Grapheme) :=
  if n < 0 then none else some (gs.drop n.toNat)

/-- `/repo/internal/sliceutil/sliceutil.go:13-17` — `Take`; panics for a negative number. -/
def take (gs : List Grapheme) (n : Int) : Option (List Grapheme) :=
  if n < 0 then none else some (gs.take n.toNat)

namespace Widget

/-- `/repo/widget/inputwidget/input.go:156-184` — `split`: the text before the cursor, at the cursor and
after it. -/
def split (i : Widget) (s : State) : Option (Span × Span × Span) :=
  if s.isEmpty then
    match i.placeholder with
    | [] => some (Span.new "", Span.new "", Span.new "")
    | p :: rest =>
      some (Span.new "", ⟨i.placeholderStyle, p.symbol⟩, ⟨i.placeholderStyle, graphemesString rest⟩)
  else do
    let (before, under, after) ← s.splitAtCursor
    match after with
    | [] => some (Span.new (graphemesString (before ++ [under])), Span.new "", Span.new "")
    | c :: rest =>
      some (Span.new (graphemesString (before ++ [under])), Span.new c.symbol,
        Span.new (graphemesString rest))

/-- `/repo/widget/inputwidget/input.go:132-138` — the cursor is made visible. -/
def cursorSpan (i : Widget) (s : State) (cursor : Span) : Span :=
  if s.showCursor then
    ⟨cursor.style.patched i.cursorStyle, if cursor.content = "" then " " else cursor.content⟩
  else cursor

/-- `/repo/widget/inputwidget/input.go:119-151` — the line that is shown in a row of the given width, and
the state with its new offset. The zero `Span` of line 140 has no content. -/
def line (u : Uniseg) (i : Widget) (width : Int) (s : State) : Option (Line × State) := do
  let (first, last) ← s.getBounds (width - u.stringWidth i.prompt - 1)
  let s : State := { s with offset := first }
  let rest ← skip s.graphemes s.offset
  let visible ← take rest (last - first)
  let (before, cursor, after) ← i.split ⟨s.cursor - s.offset, false, visible, s.offset⟩
  let prompt : Span := if i.prompt ≠ "" then ⟨i.promptStyle, i.prompt⟩ else ⟨Style.new, ""⟩
  some (⟨Style.new, [prompt, before, i.cursorSpan s cursor, after], i.alignment⟩, s)

/-- `/repo/widget/inputwidget/input.go:119-153` — `RenderStateful` after the vertical split. -/
def renderRow (u : Uniseg) (i : Widget) (row : Rect) (b : Buffer) (s : State) : Option (Buffer × State) := do
  let (line, s) ← i.line u row.width s
  let b ← line.render u row b
  some (b, s)

/-- `/repo/widget/inputwidget/input.go:112-117` — the layout of the vertical split. -/
def rowLayout (i : Widget) : Layout := ⟨.vertical, [.len 1], ⟨0, 0, 0, 0⟩, i.vertical, .space 0⟩

/-- `/repo/widget/inputwidget/input.go:104-154` — `RenderStateful`; `none` is a panic or a solver that has
not come to an end (see `Layout.splitWithSpacers`). -/
def render (ω : Nat → Nat) (fuel : Nat) (u : Uniseg) (i : Widget) (area : Rect) (b : Buffer) (s : State) :
    Option (Buffer × State) := do
  let b ← b.setStyle area i.style
  let (area, b) ←
    match i.block with
    | none => some (area, b)
    | some block => (block.render u area b).map fun b => (block.inner area, b)
  match Layout.splitWithSpacers ω fuel i.rowLayout area with
  | .ok [row] _ => i.renderRow u row b s
  | _ => none

end Widget

end InputField

end Bento
