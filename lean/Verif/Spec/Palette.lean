import Verif.Spec.Terminal
import Verif.Spec.Control
import Verif.Spec.Side
import Verif.Model.Tabs
import Verif.Model.Gauge
import Verif.Model.Scroll
import Verif.Model.ListWidget
import Verif.Model.Paragraph
import Verif.Model.InputField
import Verif.Model.Clear
import Verif.Model.Throbber

/-!
# What widgets may be made of, so that the terminal can show them
-/

namespace Bento

/-- Symbols of one column that the terminal can print and that do not join when they stand side by side. -/
structure Plainly (u : Uniseg) (S : String → Prop) : Prop where
  space : S " "
  column : ∀ s, S s → u.width s = 1
  single : ∀ s, S s → u.graphemes s = [s]
  printable : ∀ s, S s → Printable s
  apart : Separable u S

/-- Symbols of one or two columns that the terminal can print and that do not join when they stand side by side. -/
structure Neatly (u : Uniseg) (S : String → Prop) : Prop where
  space : S " "
  blank : u.width " " = 1
  column : ∀ s, S s → u.width s = 1 ∨ u.width s = 2
  single : ∀ s, S s → u.graphemes s = [s]
  printable : ∀ s, S s → Printable s
  apart : Separable u S

/-- Styles the terminal can show: the colours can be converted, and no `Hidden` and no `RapidBlink`. -/
structure Style.Shown (T : Termenv) (s : Style) : Prop where
  fg : ∀ c, s.fg = some c → ((T.convert c).bind (Color.shown T)).isSome = true
  bg : ∀ c, s.bg = some c → ((T.convert c).bind (Color.shown T)).isSome = true
  modifier : ∀ i, i = 5 ∨ i = 7 ∨ 9 ≤ i → s.addModifier.getLsbD i = false

/-- What a string is made of. -/
def Uniseg.MadeOf (u : Uniseg) (S : String → Prop) (s : String) : Prop := ∀ c ∈ u.graphemes s, S c

/-- What a widget is made of: symbols from `S` and styles from `St`. -/
structure Span.MadeOf (u : Uniseg) (S : String → Prop) (St : Style → Prop) (s : Span) : Prop where
  style : St s.style
  text : u.MadeOf S s.content

structure Line.MadeOf (u : Uniseg) (S : String → Prop) (St : Style → Prop) (l : Line) : Prop where
  style : St l.style
  spans : ∀ s ∈ l.spans, s.MadeOf u S St

structure Text.MadeOf (u : Uniseg) (S : String → Prop) (St : Style → Prop) (t : Text) : Prop where
  style : St t.style
  lines : ∀ l ∈ t.lines, l.MadeOf u S St

structure Block.MadeOf (u : Uniseg) (S : String → Prop) (St : Style → Prop) (k : Block) : Prop where
  style : St k.style
  borderStyle : St k.borderStyle
  titlesStyle : St k.titlesStyle
  symbols : ∀ s ∈ k.symbols, S s
  titles : ∀ t ∈ k.titles, t.line.MadeOf u S St

structure Paragraph.MadeOf (u : Uniseg) (S : String → Prop) (St : Style → Prop) (p : Paragraph) : Prop where
  style : St p.style
  text : p.text.MadeOf u S St
  block : ∀ k ∈ p.block, k.MadeOf u S St

structure ListWidget.MadeOf (u : Uniseg) (S : String → Prop) (St : Style → Prop) (l : ListWidget) : Prop where
  style : St l.style
  highlightStyle : St l.highlightStyle
  symbol : u.MadeOf S l.highlightSymbol
  items : ∀ t ∈ l.items, t.MadeOf u S St
  block : ∀ k ∈ l.block, k.MadeOf u S St

structure Tabs.MadeOf (u : Uniseg) (S : String → Prop) (St : Style → Prop) (t : Tabs) : Prop where
  style : St t.style
  highlightStyle : St t.highlightStyle
  titles : ∀ l ∈ t.titles, l.MadeOf u S St
  left : t.paddingLeft.MadeOf u S St
  right : t.paddingRight.MadeOf u S St
  divider : t.divider.MadeOf u S St
  block : ∀ k ∈ t.block, k.MadeOf u S St

structure Gauge.MadeOf (rnd : ℚ → ℚ) (u : Uniseg) (S : String → Prop) (St : Style → Prop) (g : Gauge) : Prop where
  style : St g.style
  gaugeStyle : St g.gaugeStyle
  label : (g.shownLabel rnd).MadeOf u S St
  bar : ∀ s ∈ ["█", "▉", "▊", "▋", "▌", "▍", "▎", "▏"], S s

structure Scroll.MadeOf (u : Uniseg) (S : String → Prop) (St : Style → Prop) (s : Scroll) : Prop where
  styles : St s.beginStyle ∧ St s.trackStyle ∧ St s.endStyle ∧ St s.thumbStyle
  begins : ∀ v ∈ s.beginSymbol, u.MadeOf S v
  track : ∀ v ∈ s.trackSymbol, u.MadeOf S v
  ends : ∀ v ∈ s.endSymbol, u.MadeOf S v
  thumb : u.MadeOf S s.thumbSymbol

structure InputField.Widget.MadeOf (u : Uniseg) (S : String → Prop) (St : Style → Prop) (i : InputField.Widget) :
    Prop where
  style : St i.style
  cursorStyle : St i.cursorStyle
  promptStyle : St i.promptStyle
  placeholderStyle : St i.placeholderStyle
  prompt : u.MadeOf S i.prompt
  placeholder : ∀ g ∈ i.placeholder, S g.symbol
  block : ∀ k ∈ i.block, k.MadeOf u S St

structure Popup.MadeOf (u : Uniseg) (S : String → Prop) (St : Style → Prop) (p : Popup) : Prop where
  style : St p.style
  block : ∀ k ∈ p.block, k.MadeOf u S St

structure Throbber.MadeOf (u : Uniseg) (S : String → Prop) (St : Style → Prop) (t : Throbber) : Prop where
  style : St t.style
  frames : ∀ n f, Throbber.frameOf t.set n = some f → ({ newTextStr f with style := t.style } : Text).MadeOf u S St

/-- A cell the terminal shows in one column. -/
structure Cell.Showable (u : Uniseg) (T : Termenv) (S : String → Prop) (c : Cell) : Prop where
  displayable : c.Displayable T S
  column : u.width c.symbol = 1
  shown : c.skip = false

/-- Everything that can be drawn with the widgets of the library, one after the other, out of symbols of `S` and
styles of `St`. -/
inductive Drawing (u : Uniseg) (S : String → Prop) (St : Style → Prop) : (Buffer → Option Buffer) → Prop
  | nothing : Drawing u S St some
  | both {f g} (hf : Drawing u S St f) (hg : Drawing u S St g) : Drawing u S St fun b => (f b).bind g
  | span {s : Span} (h : s.MadeOf u S St) (area : Rect) : Drawing u S St (s.render u area)
  | line {l : Line} (h : l.MadeOf u S St) (area : Rect) : Drawing u S St (l.render u area)
  | text {t : Text} (h : t.MadeOf u S St) (area : Rect) : Drawing u S St (t.render u area)
  | block {k : Block} (h : k.MadeOf u S St) (area : Rect) : Drawing u S St (k.render u area)
  | paragraph {p : Paragraph} (h : p.MadeOf u S St) (area : Rect) : Drawing u S St (p.render u area)
  | list {l : ListWidget} (h : l.MadeOf u S St) (area : Rect) (s : ListWidget.State) :
      Drawing u S St fun b => (l.render u area b s).map Prod.fst
  | tabs {t : Tabs} (h : t.MadeOf u S St) (area : Rect) : Drawing u S St (t.render u area)
  | gauge {rnd : ℚ → ℚ} {g : Gauge} (h : g.MadeOf rnd u S St) (area : Rect) : Drawing u S St (g.render rnd u area)
  | scroll (rd : Int → Int → Int) {s : Scroll} (h : s.MadeOf u S St) (area : Rect) (state : Scroll.State) :
      Drawing u S St fun b => s.render rd u area b state
  | clear (area : Rect) : Drawing u S St (Bento.clear area)
  | fill {f : Fill} (hs : S f.symbol) (hst : St f.style) (area : Rect) : Drawing u S St (f.render area)
  | input (ω : Nat → Nat) (fuel : Nat) {i : InputField.Widget} (h : i.MadeOf u S St) (area : Rect)
      {s : InputField.State} (hs : ∀ g ∈ s.graphemes, S g.symbol) :
      Drawing u S St fun b => (i.render ω fuel u area b s).map Prod.fst
  | popup (ω ω' : Nat → Nat) (fuel : Nat) {p : Popup} (h : p.MadeOf u S St) (area : Rect) :
      Drawing u S St fun b => (p.render ω ω' fuel u area b).value
  | throbber (ω ω' : Nat → Nat) (fuel : Nat) {t : Throbber} (h : t.MadeOf u S St) (area : Rect) (s : Throbber.State) :
      Drawing u S St fun b => (t.render ω ω' fuel u area b s).value

end Bento
