import Verif.Model.ListWidget
import Verif.Model.Paragraph
import Verif.Model.Popup
import Verif.Model.Tabs
import Verif.Model.Gauge
import Verif.Model.Throbber
import Verif.Model.InputField

/-!
# Constructors and builders

The remaining constructors and the `With…` methods of the widgets, of the texts and of `Layout`. For each type there
is an inductive of its builder calls, and `apply` is the body of the called method. The methods have value receivers:
they return a changed copy. (What `append` does to arrays that are shared is in `Model/Slices.lean`.)
-/

namespace Bento

/-! ### Layouts -/

/-- `/repo/layout.go:63-71` — `NewLayout`. -/
def Layout.new (constraints : List Constraint) : Layout :=
  ⟨.vertical, constraints, Padding.none', .legacy, .space 0⟩

/-- `/repo/layout.go:73-104` — the builders of `Layout`. -/
inductive Layout.Call
  | vertical | horizontal
  | withDirection (d : Direction)
  | withPadding (p : Padding)
  | withFlex (f : Flex)
  | withSpacing (s : Spacing)
  | withConstraints (cs : List Constraint)

/-- `/repo/layout.go:73-104`. -/
def Layout.Call.apply (l : Layout) : Layout.Call → Layout
  | .vertical => { l with direction := .vertical }
  | .horizontal => { l with direction := .horizontal }
  | .withDirection d => { l with direction := d }
  | .withPadding p => { l with padding := p }
  | .withFlex f => { l with flex := f }
  | .withSpacing s => { l with spacing := s }
  | .withConstraints cs => { l with constraints := l.constraints ++ cs }

/-! ### Texts -/

/-- `/repo/widget/textwidget/line.go:135-148,162-182` — the builders of `Line`. -/
inductive Line.Call
  | withSpans (ss : List Span)
  | withSpansStr (ss : List String)
  | withStyle (s : Style)
  | withAlignment (a : Alignment)
  | right | center | left

/-- `/repo/widget/textwidget/line.go:135-148,162-182`. -/
def Line.Call.apply (l : Line) : Line.Call → Line
  | .withSpans ss => { l with spans := l.spans ++ ss }
  | .withSpansStr ss => { l with spans := ss.foldl (fun spans s => spans ++ [Span.new s]) l.spans }
  | .withStyle s => { l with style := s }
  | .withAlignment a => { l with alignment := a }
  | .right => { l with alignment := .right }
  | .center => { l with alignment := .center }
  | .left => { l with alignment := .left }

/-- `/repo/widget/textwidget/text.go:21-27` — `NewText`. -/
def Text.new (lines : List Line) : Text := ⟨Style.new, lines, .none⟩

/-- `/repo/widget/textwidget/text.go:29-32,47-68` — the builders of `Text`, without `WithLinesStr`. -/
inductive Text.Call
  | withLines (ls : List Line)
  | withStyle (s : Style)
  | withAlignment (a : Alignment)
  | left | right | center

/-- `/repo/widget/textwidget/text.go:29-32,47-68`. -/
def Text.Call.apply (t : Text) : Text.Call → Text
  | .withLines ls => { t with lines := t.lines ++ ls }
  | .withStyle s => { t with style := s }
  | .withAlignment a => { t with alignment := a }
  | .left => { t with alignment := .left }
  | .right => { t with alignment := .right }
  | .center => { t with alignment := .center }

/-! ### Blocks -/

/-- `/repo/widget/blockwidget/border.go:8-17` — `BorderType`; `other` is any other integer. -/
inductive BorderType
  | sharp | rounded | double | thick | other
  deriving DecidableEq, Repr

namespace BorderSet

/-- `/repo/widget/blockwidget/border.go:105-108` — `WithTopLeft`. -/
def withTopLeft (b : BorderSet) (s : String) : BorderSet := { b with topLeft := s }

/-- `/repo/widget/blockwidget/border.go:110-113` — `WithTopRight`. -/
def withTopRight (b : BorderSet) (s : String) : BorderSet := { b with topRight := s }

/-- `/repo/widget/blockwidget/border.go:115-118` — `WithBottomLeft`. -/
def withBottomLeft (b : BorderSet) (s : String) : BorderSet := { b with bottomLeft := s }

/-- `/repo/widget/blockwidget/border.go:120-123` — `WithBottomRight`. -/
def withBottomRight (b : BorderSet) (s : String) : BorderSet := { b with bottomRight := s }

/-- `/repo/widget/blockwidget/border.go:65-69` with the symbols of `/repo/symbol/line.go` — the rounded set. -/
def rounded : BorderSet :=
  (((sharp.withTopLeft "╭").withTopRight "╮").withBottomLeft "╰").withBottomRight "╯"

/-- `/repo/widget/blockwidget/border.go:71-80` with the symbols of `/repo/symbol/line.go` — the thick set. -/
def thick : BorderSet := ⟨"┏", "┓", "┗", "┛", "┃", "┃", "━", "━"⟩

/-- `/repo/widget/blockwidget/border.go:82-91` with the symbols of `/repo/symbol/line.go` — the double set. -/
def double : BorderSet := ⟨"╔", "╗", "╚", "╝", "║", "║", "═", "═"⟩

end BorderSet

/-- `/repo/widget/blockwidget/border.go:19-32` — `BorderType.Set`. -/
def BorderType.set : BorderType → BorderSet
  | .sharp => .sharp
  | .rounded => .rounded
  | .double => .double
  | .thick => .thick
  | .other => .sharp

/-- `/repo/widget/blockwidget/title.go:21-25` — `NewTitle`. -/
def Title.new (line : Line) : Title := ⟨.none, none, line⟩

/-- `/repo/widget/blockwidget/title.go:31-59` — the builders of `Title`. -/
inductive Title.Call
  | withPosition (p : TitlePosition)
  | withAlignment (a : Alignment)
  | top | bottom | right | left | center

/-- `/repo/widget/blockwidget/title.go:31-59`. -/
def Title.Call.apply (t : Title) : Title.Call → Title
  | .withPosition p => { t with position := some p }
  | .withAlignment a => { t with alignment := a }
  | .top => { t with position := some .top }
  | .bottom => { t with position := some .bottom }
  | .right => { t with alignment := .right }
  | .left => { t with alignment := .left }
  | .center => { t with alignment := .center }

/-- `/repo/widget/blockwidget/block.go:39-120` — the builders of `Block`. -/
inductive Block.Call
  | rounded | sharp | thick | double
  | withTitlesStyle (s : Style)
  | withTitlesAlignment (a : Alignment)
  | withStyle (s : Style)
  | withTitle (t : Title)
  | withTitlePosition (p : TitlePosition)
  | withTitleStr (s : String)
  | bordered
  | withBorderSides (ss : List Side)
  | withBorderType (t : BorderType)
  | withPadding (p : Padding)
  | withBorderStyle (s : Style)

/-- `/repo/widget/blockwidget/block.go:39-120`. -/
def Block.Call.apply (b : Block) : Block.Call → Block
  | .rounded => { b with borderSet := BorderType.rounded.set }
  | .sharp => { b with borderSet := BorderType.sharp.set }
  | .thick => { b with borderSet := BorderType.thick.set }
  | .double => { b with borderSet := BorderType.double.set }
  | .withTitlesStyle s => { b with titlesStyle := s }
  | .withTitlesAlignment a => { b with titlesAlignment := a }
  | .withStyle s => { b with style := s }
  | .withTitle t => b.withTitle t
  | .withTitlePosition p => { b with titlesPosition := p }
  | .withTitleStr s => b.withTitle (Title.new (newLineStr s.toList))
  | .bordered => b.bordered
  | .withBorderSides ss => b.withBorderSides ss
  | .withBorderType t => { b with borderSet := t.set }
  | .withPadding p => { b with padding := p }
  | .withBorderStyle s => { b with borderStyle := s }

/-! ### Lists -/

/-- `/repo/widget/listwidget/list.go:58-70` — `New`. -/
def ListWidget.new (items : List Text) : ListWidget :=
  { items := items, block := none, style := Style.new, direction := .topToBottom, highlightStyle := Style.new,
    highlightSymbol := "", repeatHighlightSymbol := false, highlightSpacing := .whenSelected, scrollPadding := 0 }

/-- `/repo/widget/listwidget/list.go:72-80,187-220` — the builders of `List`. -/
inductive ListWidget.Call
  | withItems (ts : List Text)
  | withScrollPadding (p : Int)
  | withDirection (d : ListWidget.Direction)
  | withHighlightSpacing (s : ListWidget.HighlightSpacing)
  | withRepeatHighlightSymbol (r : Bool)
  | withHighlightStyle (s : Style)
  | withHighlightSymbol (s : String)
  | withStyle (s : Style)
  | withBlock (b : Block)

/-- `/repo/widget/listwidget/list.go:72-80,187-220`. -/
def ListWidget.Call.apply (l : ListWidget) : ListWidget.Call → ListWidget
  | .withItems ts => { l with items := ts }
  | .withScrollPadding p => { l with scrollPadding := p }
  | .withDirection d => { l with direction := d }
  | .withHighlightSpacing s => { l with highlightSpacing := s }
  | .withRepeatHighlightSymbol r => { l with repeatHighlightSymbol := r }
  | .withHighlightStyle s => { l with highlightStyle := s }
  | .withHighlightSymbol s => { l with highlightSymbol := s }
  | .withStyle s => { l with style := s }
  | .withBlock b => { l with block := some b }

/-- `/repo/widget/listwidget/list.go:183-185` — `Render`: with a new state, which is dropped. -/
def ListWidget.renderFresh (u : Uniseg) (l : ListWidget) (area : Rect) (b : Buffer) : Option Buffer :=
  (l.render u area b State.new).map Prod.fst

/-! ### Input fields -/

/-- `/repo/widget/inputwidget/input.go:26-38` — `New`. -/
def InputField.Widget.new : InputField.Widget :=
  { block := none, style := Style.new, alignment := .left, placeholder := [],
    placeholderStyle := (Style.new.withModifier Modifier.dim).withModifier Modifier.italic,
    cursorStyle := Style.new.withModifier Modifier.reversed, vertical := .legacy, prompt := "",
    promptStyle := Style.new }

/-- `/repo/widget/inputwidget/input.go:40-102` — the builders of `Input`. -/
inductive InputField.Call
  | withPrompt (s : String)
  | withPromptStyle (s : Style)
  | left | center | right | top | middle | bottom
  | withVertical (f : Flex)
  | withBlock (b : Block)
  | withPlaceholder (s : String)
  | withPlaceholderStyle (s : Style)
  | withCursorStyle (s : Style)
  | withAlignment (a : Alignment)

/-- `/repo/widget/inputwidget/input.go:40-102`. -/
def InputField.Call.apply (u : Uniseg) (w : InputField.Widget) : InputField.Call → InputField.Widget
  | .withPrompt s => { w with prompt := s }
  | .withPromptStyle s => { w with promptStyle := s }
  | .left => { w with alignment := .left }
  | .center => { w with alignment := .center }
  | .right => { w with alignment := .right }
  | .top => { w with vertical := .start }
  | .middle => { w with vertical := .center }
  | .bottom => { w with vertical := .end' }
  | .withVertical f => { w with vertical := f }
  | .withBlock b => { w with block := some b }
  | .withPlaceholder s => { w with placeholder := newGraphemes u s }
  | .withPlaceholderStyle s => { w with placeholderStyle := s }
  | .withCursorStyle s => { w with cursorStyle := s }
  | .withAlignment a => { w with alignment := a }

/-! ### Paragraphs -/

/-- `/repo/widget/paragraphwidget/paragraph.go:38-83` — the builders of `Paragraph`; a `Wrap` is its flag, see
`/repo/widget/paragraphwidget/wrap.go:9-16`. -/
inductive Paragraph.Call
  | withStyle (s : Style)
  | withScroll (vertical horizontal : Int)
  | right | left | center
  | withBlock (b : Block)
  | withWrap (trim : Bool)
  | wrapped

/-- `/repo/widget/paragraphwidget/paragraph.go:38-83`. -/
def Paragraph.Call.apply (p : Paragraph) : Paragraph.Call → Paragraph
  | .withStyle s => { p with style := s }
  | .withScroll vertical horizontal => { p with scroll := ⟨horizontal, vertical⟩ }
  | .right => { p with alignment := .right }
  | .left => { p with alignment := .left }
  | .center => { p with alignment := .center }
  | .withBlock b => { p with block := some b }
  | .withWrap trim => { p with wrap := some trim }
  | .wrapped => { p with wrap := some false }

/-! ### Popups -/

/-- `/repo/widget/popupwidget/popup.go:32-85` — the builders of `Popup`. -/
inductive Popup.Call
  | withBlock (b : Block)
  | withStyle (s : Style)
  | withHeight (c : Constraint)
  | withWidth (c : Constraint)
  | withPadding (p : Padding)
  | top | middle | bottom | left | center | right

/-- `/repo/widget/popupwidget/popup.go:32-85`. -/
def Popup.Call.apply (p : Popup) : Popup.Call → Popup
  | .withBlock b => { p with block := some b }
  | .withStyle s => { p with style := s }
  | .withHeight c => { p with height := c }
  | .withWidth c => { p with width := c }
  | .withPadding x => { p with padding := x }
  | .top => { p with vertical := .start }
  | .middle => { p with vertical := .center }
  | .bottom => { p with vertical := .end' }
  | .left => { p with horizontal := .start }
  | .center => { p with horizontal := .center }
  | .right => { p with horizontal := .end' }

/-! ### Tabs -/

/-- `/repo/widget/tabswidget/tabs.go:36-91` — the builders of `Tabs`. -/
inductive Tabs.Call
  | withStyle (s : Style)
  | withPaddingLeft (l : Line)
  | withPaddingLeftStr (s : String)
  | withPaddingRight (l : Line)
  | withPaddingRightStr (s : String)
  | withDivider (d : Span)
  | withDividerStr (s : String)
  | withHighlightStyle (s : Style)
  | withBlock (b : Block)
  | withTitles (ls : List Line)
  | select (i : Int)
  | unselect

/-- `/repo/widget/tabswidget/tabs.go:36-91`. -/
def Tabs.Call.apply (t : Tabs) : Tabs.Call → Tabs
  | .withStyle s => { t with style := s }
  | .withPaddingLeft l => { t with paddingLeft := l }
  | .withPaddingLeftStr s => { t with paddingLeft := newLineStr s.toList }
  | .withPaddingRight l => { t with paddingRight := l }
  | .withPaddingRightStr s => { t with paddingRight := newLineStr s.toList }
  | .withDivider d => { t with divider := d }
  | .withDividerStr s => { t with divider := Span.new s }
  | .withHighlightStyle s => { t with highlightStyle := s }
  | .withBlock b => { t with block := some b }
  | .withTitles ls => { t with titles := ls }
  | .select i => t.select i
  | .unselect => t.unselect

/-! ### Gauges -/

/-- `/repo/widget/gaugewidget/gauge.go:43-103` — the builders of `Gauge`. -/
inductive Gauge.Call
  | withRatio (r : ℚ)
  | withPercent (n : Int)
  | withLabel (l : Span)
  | withLabelStr (s : String)
  | withStyle (s : Style)
  | withGaugeStyle (s : Style)
  | withUnicode (b : Bool)

/-- `/repo/widget/gaugewidget/gauge.go:43-103`; `none` if the method panics. -/
def Gauge.Call.apply (rnd : ℚ → ℚ) (g : Gauge) : Gauge.Call → Option Gauge
  | .withRatio r => g.withRatio r
  | .withPercent n => g.withPercent rnd n
  | .withLabel l => some (g.withLabel l)
  | .withLabelStr s => some (g.withLabelStr s)
  | .withStyle s => some { g with style := s }
  | .withGaugeStyle s => some { g with gaugeStyle := s }
  | .withUnicode b => some (g.withUnicode b)

end Bento
