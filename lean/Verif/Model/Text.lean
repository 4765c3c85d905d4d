import Verif.Model.Buffer

/-!
# Spans, lines and texts

Models `/repo/widget/textwidget/span.go`, `line.go`, `text.go`. A Go panic is `none`.
-/

namespace Bento

/-- `/repo/alignment.go` — `Alignment`. -/
inductive Alignment
  | none
  | left
  | center
  | right
  deriving DecidableEq, Repr, Inhabited

/-- `/repo/widget/textwidget/span.go:202-206` — `StyledGrapheme`. -/
structure StyledGrapheme where
  g : Grapheme
  style : Style
  deriving DecidableEq, Repr, Inhabited

/-- `/repo/widget/textwidget/span.go:13-16` — `Span`. -/
structure Span where
  style : Style
  content : String
  deriving DecidableEq, Repr, Inhabited

/-- `/repo/widget/textwidget/line.go:95-99` — `Line`. -/
structure Line where
  style : Style
  spans : List Span
  alignment : Alignment
  deriving DecidableEq, Repr, Inhabited

/-- `/repo/widget/textwidget/text.go:9-13` — `Text`. -/
structure Text where
  style : Style
  lines : List Line
  alignment : Alignment
  deriving DecidableEq, Repr, Inhabited

/-- `unicode.IsControl`: category Cc. -/
def isControlRune (c : Char) : Bool := c.toNat < 32 || (127 ≤ c.toNat && c.toNat < 160)

namespace Span

/-- `/repo/widget/textwidget/span.go:18-23` — `NewSpan`. -/
def new (s : String) : Span := ⟨Style.new, s⟩

/-- `/repo/widget/textwidget/span.go:39-41` — `Span.Width`. -/
def width (u : Uniseg) (s : Span) : Nat := u.stringWidth s.content

/-- `/repo/widget/textwidget/span.go:87-109` — `Span.StyledGraphemes`: clusters with a control
character are left out. -/
def styledGraphemes (u : Uniseg) (s : Span) (style : Style) : List StyledGrapheme :=
  ((u.graphemes s.content).filter fun c => !c.toList.any isControlRune).map fun c =>
    ⟨Grapheme.new u c, style.patched s.style⟩

/-- `/repo/widget/textwidget/span.go:79-81` — the loop over the cells hidden by a wide grapheme; `n`
is the number of cells. -/
def hideLoop (y : Int) : Nat → Int → Buffer → Option Buffer
  | 0, _, b => some b
  | n + 1, x, b => do
    let b ← b.modifyCell ⟨x, y⟩ Cell.reset
    hideLoop y n (x + 1) b

/-- `/repo/widget/textwidget/span.go:63-77` — where a grapheme goes and how it is written. -/
def putGrapheme (area : Rect) (first : Bool) (x y : Int) (gr : StyledGrapheme) (b : Buffer) :
    Option Buffer :=
  if first then b.modifyCell ⟨x, y⟩ (fun c => (c.setSymbol gr.g.symbol).setStyle gr.style)
  else if x = area.x then b.modifyCell ⟨x, y⟩ (fun c => (c.appendSymbol gr.g.symbol).setStyle gr.style)
  else if gr.g.width = 0 then
    b.modifyCell ⟨x - 1, y⟩ (fun c => (c.appendSymbol gr.g.symbol).setStyle gr.style)
  else b.modifyCell ⟨x, y⟩ (fun c => (c.setSymbol gr.g.symbol).setStyle gr.style)

/-- `/repo/widget/textwidget/span.go:55-84` — the loop of `Span.Render`. -/
def renderLoop (area : Rect) (y : Int) : List StyledGrapheme → Bool → Int → Buffer → Option Buffer
  | [], _, _, b => some b
  | gr :: rest, first, x, b =>
    let nextX := x + gr.g.width
    if nextX > area.right then some b
    else do
      let b ← putGrapheme area first x y gr b
      let b ← hideLoop y (gr.g.width - 1) (x + 1) b
      renderLoop area y rest false nextX b

/-- `/repo/widget/textwidget/span.go:47-85` — `Span.Render`. -/
def render (u : Uniseg) (s : Span) (area : Rect) (b : Buffer) : Option Buffer :=
  let area := area.intersection b.area
  if area.isEmpty then some b
  else renderLoop area area.y (s.styledGraphemes u Style.new) true area.x b

/-- `/repo/widget/textwidget/span.go:182-197` — the loop of `unicodeTruncateStart` over the clusters.
The state handed to `FirstGraphemeClusterInString` makes it continue the segmentation of the whole
string. At the end of the string the width is 0. -/
def truncateLoop (u : Uniseg) (maxWidth : Int) : List String → Int → String × Nat
  | [], _ => ("", 0)
  | c :: rest, currentWidth =>
    if u.width c = 0 then ("", 0)
    else if currentWidth - u.width c ≤ maxWidth then
      (String.join rest, u.stringWidth (String.join rest))
    else truncateLoop u maxWidth rest (currentWidth - u.width c)

/-- `/repo/widget/textwidget/span.go:173-200` — `unicodeTruncateStart`. -/
def truncateStart (u : Uniseg) (s : String) (maxWidth : Int) : String × Nat :=
  if (u.stringWidth s : Int) ≤ maxWidth then (s, u.stringWidth s)
  else truncateLoop u maxWidth (u.graphemes s) (u.stringWidth s)

/-- `/repo/widget/textwidget/span.go:124-128` — `_SpanAfterWidth`. -/
structure After where
  span : Span
  width : Int
  offset : Int
  deriving DecidableEq, Repr

/-- `/repo/widget/textwidget/span.go:130-171` — `spansAfterWidth`. -/
def afterWidth (u : Uniseg) : List Span → Int → List After
  | [], _ => []
  | s :: rest, skipWidth =>
    let spanWidth : Int := s.width u
    if skipWidth ≥ spanWidth then afterWidth u rest (max 0 (skipWidth - spanWidth))
    else
      let availableWidth := max 0 (spanWidth - skipWidth)
      if spanWidth ≤ availableWidth then ⟨s, spanWidth, 0⟩ :: afterWidth u rest 0
      else
        let t := truncateStart u s.content availableWidth
        ⟨⟨s.style, t.1⟩, t.2, max 0 (availableWidth - t.2)⟩ :: afterWidth u rest 0

/-- `/repo/widget/textwidget/span.go:112-121` — the loop of `renderSpans`. -/
def renderAll (u : Uniseg) : List After → Rect → Buffer → Option Buffer
  | [], _, b => some b
  | s :: rest, area, b =>
    let area := area.indentX s.offset
    if area.isEmpty then some b
    else do
      let b ← s.span.render u area b
      renderAll u rest (area.indentX s.width) b

/-- `/repo/widget/textwidget/span.go:111-122` — `renderSpans`. -/
def renderSpans (u : Uniseg) (spans : List Span) (area : Rect) (skipWidth : Int) (b : Buffer) :
    Option Buffer :=
  renderAll u (afterWidth u spans skipWidth) area b

end Span

namespace Line

/-- `/repo/widget/textwidget/line.go:101-107` — `NewLine`. -/
def new (spans : List Span) : Line := ⟨Style.new, spans, .none⟩

/-- `/repo/widget/textwidget/line.go:279-287` — `Line.Width`. -/
def width (u : Uniseg) (l : Line) : Nat := (l.spans.map (Span.width u)).sum

/-- `/repo/widget/textwidget/line.go:123-133` — `Line.String`. -/
def string (l : Line) : String := String.join (l.spans.map Span.content)

/-- `/repo/widget/textwidget/line.go:150-160` — `Line.StyledGraphemes`. -/
def styledGraphemes (u : Uniseg) (l : Line) (base : Style) : List StyledGrapheme :=
  l.spans.flatMap fun s => s.styledGraphemes u (base.patched l.style)

/-- `/repo/widget/textwidget/line.go:237-240` — the alignment in force. -/
def alignmentIn (l : Line) (parent : Alignment) : Alignment :=
  if l.alignment = .none then parent else l.alignment

/-- `/repo/widget/textwidget/line.go:247-257` and `266-273` — half or all of the free (or missing)
columns, depending on the alignment. -/
def share (a : Alignment) (d : Int) : Int :=
  match a with
  | .left => 0
  | .none => 0
  | .center => Int.tdiv (max 0 d) 2
  | .right => max 0 d

/-- `/repo/widget/textwidget/line.go:214-277` — `Line.renderWithAlignment`. -/
def renderAligned (u : Uniseg) (l : Line) (area : Rect) (parent : Alignment) (b : Buffer) :
    Option Buffer :=
  let area := area.intersection b.area
  if area.isEmpty then some b
  else
    let lineWidth : Int := l.width u
    if lineWidth = 0 then some b
    else do
      let area : Rect := { area with height := 1 }
      let b ← b.setStyle { area with width := min area.width lineWidth } l.style
      let alignment := l.alignmentIn parent
      if lineWidth ≤ area.width then
        Span.renderSpans u l.spans (area.indentX (share alignment (area.width - lineWidth))) 0 b
      else
        Span.renderSpans u l.spans area (share alignment (lineWidth - area.width)) b

/-- `/repo/widget/textwidget/line.go:210-212` — `Line.Render`. -/
def render (u : Uniseg) (l : Line) (area : Rect) (b : Buffer) : Option Buffer :=
  l.renderAligned u area .none b

end Line

namespace Text

/-- `/repo/widget/textwidget/text.go:77-82` — the loop of `Text.Render`. -/
def renderLines (u : Uniseg) (parent : Alignment) : List Line → List Rect → Buffer → Option Buffer
  | l :: ls, r :: rs, b => do
    let b ← l.renderAligned u r parent b
    renderLines u parent ls rs b
  | _, _, b => some b

/-- `/repo/widget/textwidget/text.go:70-83` — `Text.Render`. -/
def render (u : Uniseg) (t : Text) (area : Rect) (b : Buffer) : Option Buffer := do
  let area := area.intersection b.area
  let b ← b.setStyle area t.style
  renderLines u t.alignment t.lines area.rows b

end Text

/-! ### Splitting strings into lines -/

/-- `bufio.MaxScanTokenSize`: a scanner stops at a line of this many bytes or more. -/
def maxToken : Nat := 65536

/-- The number of bytes of a text. -/
def byteSize (cs : List Char) : Nat := (cs.map Char.utf8Size).sum

/-- `bufio.ScanLines`: a carriage return before the newline is dropped. -/
def dropCR (cs : List Char) : List Char := if cs.getLast? = some '\r' then cs.dropLast else cs

/-- `bufio.Scanner` with `ScanLines`: the lines, each without its line end; an empty last line is not
delivered; a line that is too long ends the scan. -/
def scanLines : Nat → List Char → List (List Char)
  | 0, _ => []
  | _ + 1, [] => []
  | n + 1, c :: cs =>
    let line := (c :: cs).takeWhile (· ≠ '\n')
    if byteSize line ≥ maxToken then []
    else
      match (c :: cs).dropWhile (· ≠ '\n') with
      | [] => [dropCR line]
      | _ :: rest => dropCR line :: scanLines n rest

/-- `/repo/widget/textwidget/line.go:109-121` — `NewLineStr`. -/
def newLineStr (cs : List Char) : Line :=
  Line.new ((scanLines (cs.length + 1) cs).map fun l => Span.new (String.ofList l))

/-- `/repo/widget/textwidget/line.go:19-37` — `NewLinesStr`, for the one string that
`/repo/widget/textwidget/text.go:15-19` — `NewTextStr` hands to it. -/
def newLinesStr (cs : List Char) : List Line :=
  if cs = [] then [newLineStr []]
  else (scanLines (cs.length + 1) cs).map newLineStr

/-- `/repo/widget/textwidget/text.go:15-27` — `NewTextStr`. -/
def newTextStr (cs : List Char) : Text := ⟨Style.new, newLinesStr cs, .none⟩

/-- `/repo/widget/textwidget/line.go:39-53` — `Lines.String`, as a list of characters. -/
def linesString (ls : List Line) : List Char :=
  List.intercalate ['\n'] (ls.map fun l => l.string.toList)

end Bento
