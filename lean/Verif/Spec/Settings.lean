import Verif.Model.Builders

/-!
# Settings

What each builder call is documented to set: for each setting of a widget, the value a call gives it, if it is a call
for that setting. A setting has the value of the last call for it, and its default if there is none.
-/

namespace Bento

/-- The value of the last call that sets something, or the default. -/
def lastOf {σ α : Type} (sets : σ → Option α) (default : α) (calls : List σ) : α :=
  ((calls.filterMap sets).getLast?).getD default

/-- Everything that was added, in order. -/
def allOf {σ α : Type} (adds : σ → List α) (initial : List α) (calls : List σ) : List α :=
  initial ++ (calls.map adds).flatten

namespace Layout.Call

def direction? : Layout.Call → Option Direction
  | .vertical => some .vertical
  | .horizontal => some .horizontal
  | .withDirection d => some d
  | _ => none

def padding? : Layout.Call → Option Padding
  | .withPadding p => some p
  | _ => none

def flex? : Layout.Call → Option Flex
  | .withFlex f => some f
  | _ => none

def spacing? : Layout.Call → Option Spacing
  | .withSpacing s => some s
  | _ => none

def constraints : Layout.Call → List Constraint
  | .withConstraints cs => cs
  | _ => []

end Layout.Call

namespace Line.Call

def style? : Line.Call → Option Style
  | .withStyle s => some s
  | _ => none

def alignment? : Line.Call → Option Alignment
  | .withAlignment a => some a
  | .right => some .right
  | .center => some .center
  | .left => some .left
  | _ => none

/-- The spans of strings have no style of their own. -/
def spans : Line.Call → List Span
  | .withSpans ss => ss
  | .withSpansStr ss => ss.map fun s => ⟨Style.new, s⟩
  | _ => []

end Line.Call

namespace Text.Call

def style? : Text.Call → Option Style
  | .withStyle s => some s
  | _ => none

def alignment? : Text.Call → Option Alignment
  | .withAlignment a => some a
  | .right => some .right
  | .center => some .center
  | .left => some .left
  | _ => none

def lines : Text.Call → List Line
  | .withLines ls => ls
  | _ => []

end Text.Call

namespace Title.Call

def position? : Title.Call → Option TitlePosition
  | .withPosition p => some p
  | .top => some .top
  | .bottom => some .bottom
  | _ => none

def alignment? : Title.Call → Option Alignment
  | .withAlignment a => some a
  | .right => some .right
  | .center => some .center
  | .left => some .left
  | _ => none

end Title.Call

namespace Block.Call

/-- Corners, then the vertical and the horizontal lines. -/
def borderSet? : Block.Call → Option BorderSet
  | .rounded | .withBorderType .rounded => some ⟨"╭", "╮", "╰", "╯", "│", "│", "─", "─"⟩
  | .sharp | .withBorderType .sharp | .withBorderType .other => some ⟨"┌", "┐", "└", "┘", "│", "│", "─", "─"⟩
  | .thick | .withBorderType .thick => some ⟨"┏", "┓", "┗", "┛", "┃", "┃", "━", "━"⟩
  | .double | .withBorderType .double => some ⟨"╔", "╗", "╚", "╝", "║", "║", "═", "═"⟩
  | _ => none

def titlesStyle? : Block.Call → Option Style
  | .withTitlesStyle s => some s
  | _ => none

def titlesAlignment? : Block.Call → Option Alignment
  | .withTitlesAlignment a => some a
  | _ => none

def titlesPosition? : Block.Call → Option TitlePosition
  | .withTitlePosition p => some p
  | _ => none

def style? : Block.Call → Option Style
  | .withStyle s => some s
  | _ => none

def borderStyle? : Block.Call → Option Style
  | .withBorderStyle s => some s
  | _ => none

def padding? : Block.Call → Option Padding
  | .withPadding p => some p
  | _ => none

/-- Whether a call turns the border of a side on or off: with no sides, all are on. -/
def sideOn? (side : Side) : Block.Call → Option Bool
  | .bordered => some true
  | .withBorderSides ss => some (ss.isEmpty || ss.any fun s => s &&& side != 0)
  | _ => none

/-- The titles a call adds; a title's alignment, if it has one, becomes that of its line. -/
def titles : Block.Call → List Title
  | .withTitle t => [⟨t.alignment, t.position,
      { t.line with alignment := match t.alignment with | .none => t.line.alignment | a => a }⟩]
  | .withTitleStr s => [⟨.none, none, newLineStr s.toList⟩]
  | _ => []

end Block.Call

namespace ListWidget.Call

def items? : ListWidget.Call → Option (List Text)
  | .withItems ts => some ts
  | _ => none

def scrollPadding? : ListWidget.Call → Option Int
  | .withScrollPadding p => some p
  | _ => none

def direction? : ListWidget.Call → Option ListWidget.Direction
  | .withDirection d => some d
  | _ => none

def highlightSpacing? : ListWidget.Call → Option ListWidget.HighlightSpacing
  | .withHighlightSpacing s => some s
  | _ => none

def repeatHighlightSymbol? : ListWidget.Call → Option Bool
  | .withRepeatHighlightSymbol r => some r
  | _ => none

def highlightStyle? : ListWidget.Call → Option Style
  | .withHighlightStyle s => some s
  | _ => none

def highlightSymbol? : ListWidget.Call → Option String
  | .withHighlightSymbol s => some s
  | _ => none

def style? : ListWidget.Call → Option Style
  | .withStyle s => some s
  | _ => none

def block? : ListWidget.Call → Option (Option Block)
  | .withBlock b => some (some b)
  | _ => none

end ListWidget.Call

namespace InputField.Call

def prompt? : InputField.Call → Option String
  | .withPrompt s => some s
  | _ => none

def promptStyle? : InputField.Call → Option Style
  | .withPromptStyle s => some s
  | _ => none

def alignment? : InputField.Call → Option Alignment
  | .withAlignment a => some a
  | .left => some .left
  | .center => some .center
  | .right => some .right
  | _ => none

def vertical? : InputField.Call → Option Flex
  | .withVertical f => some f
  | .top => some .start
  | .middle => some .center
  | .bottom => some .end'
  | _ => none

def block? : InputField.Call → Option (Option Block)
  | .withBlock b => some (some b)
  | _ => none

/-- The placeholder in grapheme clusters, each with its width. -/
def placeholder? (u : Uniseg) : InputField.Call → Option (List Grapheme)
  | .withPlaceholder s => some ((u.graphemes s).map fun c => ⟨c, u.width c⟩)
  | _ => none

def placeholderStyle? : InputField.Call → Option Style
  | .withPlaceholderStyle s => some s
  | _ => none

def cursorStyle? : InputField.Call → Option Style
  | .withCursorStyle s => some s
  | _ => none

end InputField.Call

namespace Paragraph.Call

def style? : Paragraph.Call → Option Style
  | .withStyle s => some s
  | _ => none

def scrollDown? : Paragraph.Call → Option Int
  | .withScroll vertical _ => some vertical
  | _ => none

def scrollRight? : Paragraph.Call → Option Int
  | .withScroll _ horizontal => some horizontal
  | _ => none

def alignment? : Paragraph.Call → Option Alignment
  | .left => some .left
  | .center => some .center
  | .right => some .right
  | _ => none

def block? : Paragraph.Call → Option (Option Block)
  | .withBlock b => some (some b)
  | _ => none

def wrap? : Paragraph.Call → Option (Option Bool)
  | .withWrap t => some (some t)
  | .wrapped => some (some false)
  | _ => none

end Paragraph.Call

namespace Popup.Call

def block? : Popup.Call → Option (Option Block)
  | .withBlock b => some (some b)
  | _ => none

def style? : Popup.Call → Option Style
  | .withStyle s => some s
  | _ => none

def height? : Popup.Call → Option Constraint
  | .withHeight c => some c
  | _ => none

def width? : Popup.Call → Option Constraint
  | .withWidth c => some c
  | _ => none

def padding? : Popup.Call → Option Padding
  | .withPadding p => some p
  | _ => none

def vertical? : Popup.Call → Option Flex
  | .top => some .start
  | .middle => some .center
  | .bottom => some .end'
  | _ => none

def horizontal? : Popup.Call → Option Flex
  | .left => some .start
  | .center => some .center
  | .right => some .end'
  | _ => none

end Popup.Call

namespace Tabs.Call

def style? : Tabs.Call → Option Style
  | .withStyle s => some s
  | _ => none

def paddingLeft? : Tabs.Call → Option Line
  | .withPaddingLeft l => some l
  | .withPaddingLeftStr s => some (newLineStr s.toList)
  | _ => none

def paddingRight? : Tabs.Call → Option Line
  | .withPaddingRight l => some l
  | .withPaddingRightStr s => some (newLineStr s.toList)
  | _ => none

def divider? : Tabs.Call → Option Span
  | .withDivider d => some d
  | .withDividerStr s => some ⟨Style.new, s⟩
  | _ => none

def highlightStyle? : Tabs.Call → Option Style
  | .withHighlightStyle s => some s
  | _ => none

def block? : Tabs.Call → Option (Option Block)
  | .withBlock b => some (some b)
  | _ => none

def titles? : Tabs.Call → Option (List Line)
  | .withTitles ls => some ls
  | _ => none

def selected? : Tabs.Call → Option (Option Int)
  | .select i => some (some i)
  | .unselect => some none
  | _ => none

end Tabs.Call

namespace Gauge.Call

/-- The progress; a percentage is divided by a hundred in floating point. -/
def ratio? (rnd : ℚ → ℚ) : Gauge.Call → Option ℚ
  | .withRatio r => some r
  | .withPercent n => some (rnd ((n : ℚ) / 100))
  | _ => none

def label? : Gauge.Call → Option (Option Span)
  | .withLabel l => some (some l)
  | .withLabelStr s => some (some ⟨Style.new, s⟩)
  | _ => none

def style? : Gauge.Call → Option Style
  | .withStyle s => some s
  | _ => none

def gaugeStyle? : Gauge.Call → Option Style
  | .withGaugeStyle s => some s
  | _ => none

def unicode? : Gauge.Call → Option Bool
  | .withUnicode b => some b
  | _ => none

/-- A percentage has to be between 0 and 100. -/
def Legal : Gauge.Call → Prop
  | .withPercent n => 0 ≤ n ∧ n ≤ 100
  | _ => True

end Gauge.Call

end Bento
