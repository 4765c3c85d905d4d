import Verif.Model.Text

/-!
# Composing rows from text lines: the word wrapper and the line truncator

Models `/repo/internal/reflow`.

Go's `clear` on a slice sets every element to the zero value and keeps the length; `StyledGrapheme.cleared`
does the same. The zero grapheme has width 0 and the empty symbol.

The pending lines that are handed from line to line through `pendingLinePool` are modelled as values:
a slice enters the pool only after it has been popped from `wrappedLines` and replaced as
`currentLine`, and it is cleared before it is used again, so no two live slices share memory. A slice of
length 0 never has capacity here (`append` and `slices.Clone` never produce one), so `cap > 0` is
modelled as `≠ []`.
-/

namespace Bento

/-- The Go zero value of `/repo/widget/textwidget/span.go:202-206` — `StyledGrapheme`. -/
def StyledGrapheme.zero : StyledGrapheme := ⟨Grapheme.empty, Style.new⟩

/-- Go's `clear` on a slice of styled graphemes. -/
def StyledGrapheme.cleared (l : List StyledGrapheme) : List StyledGrapheme :=
  l.map fun _ => StyledGrapheme.zero

/-- `/repo/internal/reflow/reflow.go:12-16` — `WrappedLine`. -/
structure WrappedLine where
  line : List StyledGrapheme
  width : Int
  alignment : Alignment
  deriving Repr, DecidableEq

/-- `/repo/internal/reflow/reflow.go:18-21` — `InputLine`. -/
structure InputLine where
  graphemes : List StyledGrapheme
  alignment : Alignment
  deriving Repr, DecidableEq

namespace Wrap

open StyledGrapheme (cleared)

/-- The variables of the loop in `/repo/internal/reflow/wrapper.go:40-133` — `processInput`, together
with the fields of the wrapper it changes. -/
structure State where
  queue : List (List StyledGrapheme)
  pendingLine : List StyledGrapheme
  pendingWord : List StyledGrapheme
  pendingWhitespace : List StyledGrapheme
  lineWidth : Int
  wordWidth : Int
  whitespaceWidth : Int
  nonWhitespacePrevious : Bool
  deriving Repr, DecidableEq

/-- `/repo/internal/reflow/wrapper.go:74-87` — the pending word goes to the pending line. -/
def State.flush (trim : Bool) (s : State) : State :=
  let keep := !s.pendingLine.isEmpty || !trim
  { s with
    pendingLine := (if keep then s.pendingLine ++ s.pendingWhitespace else s.pendingLine) ++ s.pendingWord
    pendingWord := cleared s.pendingWord
    pendingWhitespace := []
    lineWidth := (if keep then s.lineWidth + s.whitespaceWidth else s.lineWidth) + s.wordWidth
    wordWidth := 0
    whitespaceWidth := 0 }

/-- `/repo/internal/reflow/wrapper.go:101-117` — whitespace that still fits on the finished line is
dropped. Returns what is left and its width. -/
def dropFront : List StyledGrapheme → Int → Int → List StyledGrapheme × Int
  | [], _, ws => ([], ws)
  | g :: rest, remaining, ws =>
    if (g.g.width : Int) > remaining then (g :: rest, ws)
    else dropFront rest (remaining - g.g.width) (ws - g.g.width)

/-- `/repo/internal/reflow/wrapper.go:94-117` — the pending line is finished. -/
def State.emit (max : Int) (s : State) : State :=
  let r := dropFront s.pendingWhitespace (Max.max 0 (max - s.lineWidth)) s.whitespaceWidth
  { s with
    queue := s.queue ++ [s.pendingLine]
    pendingLine := cleared s.pendingLine
    lineWidth := 0
    pendingWhitespace := r.1
    whitespaceWidth := r.2 }

/-- `/repo/internal/reflow/wrapper.go:124-132` — the grapheme joins the pending whitespace or word. -/
def State.push (g : StyledGrapheme) (s : State) : State :=
  if g.g.isWhitespace then
    { s with
      whitespaceWidth := s.whitespaceWidth + g.g.width
      pendingWhitespace := s.pendingWhitespace ++ [g]
      nonWhitespacePrevious := false }
  else
    { s with
      wordWidth := s.wordWidth + g.g.width
      pendingWord := s.pendingWord ++ [g]
      nonWhitespacePrevious := true }

/-- `/repo/internal/reflow/wrapper.go:67-73` — does the pending word end before the grapheme? -/
def State.ends (max : Int) (trim : Bool) (g : StyledGrapheme) (s : State) : Bool :=
  let none := s.pendingLine.isEmpty
  (s.nonWhitespacePrevious && g.g.isWhitespace) ||
    (none && trim && decide (s.wordWidth + g.g.width > max)) ||
    (none && trim && decide (s.whitespaceWidth + g.g.width > max)) ||
    (none && !trim && decide (s.wordWidth + s.whitespaceWidth + g.g.width > max))

/-- `/repo/internal/reflow/wrapper.go:90-93` — is the line finished before the grapheme? -/
def State.full (max : Int) (g : StyledGrapheme) (s : State) : Bool :=
  decide (s.lineWidth ≥ max) ||
    (decide (g.g.width > 0) && decide (s.lineWidth + s.whitespaceWidth + s.wordWidth ≥ max))

/-- `/repo/internal/reflow/wrapper.go:90-132` — the second half of the loop body. -/
def State.place (max : Int) (g : StyledGrapheme) (s : State) : State :=
  if s.full max g then
    let s := s.emit max
    if g.g.isWhitespace && s.pendingWhitespace.isEmpty then s else s.push g
  else s.push g

/-- `/repo/internal/reflow/wrapper.go:59-133` — one iteration of the loop. -/
def State.step (max : Int) (trim : Bool) (s : State) (g : StyledGrapheme) : State :=
  if (g.g.width : Int) > max then s
  else State.place max g (if s.ends max trim g then s.flush trim else s)

/-- `/repo/internal/reflow/wrapper.go:135-155` — what is pending at the end of the input line. Returns
the queue and the pending word. -/
def State.finish (trim : Bool) (s : State) : List (List StyledGrapheme) × List StyledGrapheme :=
  let queue :=
    if s.pendingLine.isEmpty && s.pendingWord.isEmpty && !s.pendingWhitespace.isEmpty then s.queue ++ [[]]
    else s.queue
  let line :=
    (if !s.pendingLine.isEmpty || !trim then s.pendingLine ++ s.pendingWhitespace else s.pendingLine) ++
      s.pendingWord
  let queue := if line.isEmpty then queue else queue ++ [line]
  (if queue.isEmpty then [[]] else queue, cleared s.pendingWord)

end Wrap

/-- `/repo/internal/reflow/wrapper.go:13-24` — `WordWrapper`. `pendingWhitespace` is not a field here: it
is cleared before it is used (line 56). The pool is a stack. -/
structure WordWrapper where
  inputLines : List InputLine
  maxLineWidth : Int
  wrappedLines : List (List StyledGrapheme)
  currentAlignment : Alignment
  currentLine : List StyledGrapheme
  trim : Bool
  pendingWord : List StyledGrapheme
  pool : List (List StyledGrapheme)
  deriving Repr, DecidableEq

namespace WordWrapper

open StyledGrapheme (cleared)

/-- `/repo/internal/reflow/wrapper.go:26-38` — `NewWordWrapper`. -/
def new (lines : List InputLine) (maxLineWidth : Int) (trim : Bool) : WordWrapper :=
  ⟨lines, maxLineWidth, [], .left, [], trim, [], []⟩

/-- `/repo/internal/reflow/wrapper.go:41-57` — the state before the first grapheme. -/
def start (w : WordWrapper) : Wrap.State :=
  { queue := w.wrappedLines
    pendingLine := cleared (w.pool.headD [])
    pendingWord := cleared w.pendingWord
    pendingWhitespace := []
    lineWidth := 0
    wordWidth := 0
    whitespaceWidth := 0
    nonWhitespacePrevious := false }

/-- `/repo/internal/reflow/wrapper.go:40-156` — `processInput`. -/
def processInput (w : WordWrapper) (graphemes : List StyledGrapheme) : WordWrapper :=
  let s := graphemes.foldl (Wrap.State.step w.maxLineWidth w.trim) w.start
  let r := s.finish w.trim
  { w with wrappedLines := r.1, pendingWord := r.2, pool := w.pool.tail }

/-- `/repo/internal/reflow/wrapper.go:158-165` — `replaceCurrentLine`. -/
def replaceCurrentLine (w : WordWrapper) (line : List StyledGrapheme) : WordWrapper :=
  { w with
    currentLine := line
    pool := if w.currentLine.isEmpty then w.pool else w.currentLine :: w.pool }

/-- `/repo/internal/reflow/wrapper.go:174-189` — the next wrapped line, if there is one. -/
def pop (w : WordWrapper) (input : List InputLine) : Option (WrappedLine × WordWrapper) :=
  match w.wrappedLines with
  | line :: rest =>
    some (⟨line, (line.map fun g => (g.g.width : Int)).sum, w.currentAlignment⟩,
      replaceCurrentLine { w with wrappedLines := rest, inputLines := input } line)
  | [] => none

/-- `/repo/internal/reflow/wrapper.go:173-201` — the loop of `NextLine`, over the input lines that are
left. -/
def nextLoop : List InputLine → WordWrapper → Option (WrappedLine × WordWrapper)
  | [], w => pop w []
  | l :: input, w =>
    match pop w (l :: input) with
    | some r => some r
    | none => nextLoop input (processInput { w with currentAlignment := l.alignment } l.graphemes)

/-- `/repo/internal/reflow/wrapper.go:167-202` — `WordWrapper.NextLine`. -/
def nextLine (w : WordWrapper) : Option (WrappedLine × WordWrapper) :=
  if w.maxLineWidth = 0 then none else nextLoop w.inputLines w

end WordWrapper

/-- `/repo/internal/reflow/truncator.go:12-17` — `LineTruncator`. -/
structure LineTruncator where
  inputLines : List InputLine
  maxLineWidth : Int
  currentLine : List StyledGrapheme
  horizontalOffset : Int
  deriving Repr, DecidableEq

namespace LineTruncator

/-- `/repo/internal/reflow/truncator.go:19-30` — `NewLineTruncator` and `SetHorizontalOffset`. -/
def new (lines : List InputLine) (maxLineWidth horizontalOffset : Int) : LineTruncator :=
  ⟨lines, maxLineWidth, [], horizontalOffset⟩

/-- `/repo/internal/reflow/truncator.go:104-115` — the loop of `trimOffset`. -/
def trimLoop (u : Uniseg) : List String → Int → List String
  | [], _ => []
  | c :: rest, offset => if (u.width c : Int) > offset then c :: rest else trimLoop u rest (offset - u.width c)

/-- `/repo/internal/reflow/truncator.go:99-116` — `trimOffset`. -/
def trimOffset (u : Uniseg) (src : String) (offset : Int) : String :=
  String.join (trimLoop u (u.graphemes src) offset)

/-- `/repo/internal/reflow/truncator.go:63-76` — the symbol kept of a grapheme and the offset left. -/
def cut (u : Uniseg) (a : Alignment) (offset : Int) (g : StyledGrapheme) : String × Int :=
  if offset = 0 ∨ a ≠ .left then (g.g.symbol, offset)
  else if (g.g.width : Int) > offset then (trimOffset u g.g.symbol offset, 0)
  else ("", offset - g.g.width)

/-- The variables of the loops of `/repo/internal/reflow/truncator.go:33-97` — `NextLine`. -/
structure State where
  line : List StyledGrapheme
  width : Int
  offset : Int

/-- `/repo/internal/reflow/truncator.go:54-83` — the loop over the graphemes of one input line. -/
def lineLoop (u : Uniseg) (max : Int) (a : Alignment) : List StyledGrapheme → State → State
  | [], s => s
  | g :: rest, s =>
    if (g.g.width : Int) > max then lineLoop u max a rest s
    else if s.width + g.g.width > max then s
    else
      let c := cut u a s.offset g
      lineLoop u max a rest
        ⟨s.line ++ [⟨Grapheme.new u c.1, g.style⟩], s.width + u.stringWidth c.1, c.2⟩

/-- `/repo/internal/reflow/truncator.go:47-84` — the loop over all the input lines that are left. -/
def linesLoop (u : Uniseg) (max : Int) : List InputLine → State → State
  | [], s => s
  | l :: rest, s => linesLoop u max rest (lineLoop u max l.alignment l.graphemes s)

/-- `/repo/internal/reflow/truncator.go:32-97` — `LineTruncator.NextLine`. The loop runs over every input
line, so `lastIndex` is the last one and no input line is left afterwards. -/
def nextLine (u : Uniseg) (t : LineTruncator) : Option (WrappedLine × LineTruncator) :=
  if t.maxLineWidth = 0 then none
  else
    match t.inputLines.getLast? with
    | none => none
    | some last =>
      let s := linesLoop u t.maxLineWidth t.inputLines
        ⟨StyledGrapheme.cleared t.currentLine, 0, t.horizontalOffset⟩
      some (⟨s.line, s.width, last.alignment⟩,
        { t with inputLines := [], currentLine := s.line })

end LineTruncator

end Bento
