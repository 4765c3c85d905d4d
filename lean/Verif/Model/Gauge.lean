import Verif.Model.Layout
import Verif.Model.Text

/-!
# The gauge

Models `/repo/widget/gaugewidget/gauge.go`. A finite float64 is a rational number; `rnd` stands for the
rounding of an exact product or quotient to float64, and the theorems say what they assume of it. The field
`block` is left out: no function of the package sets it.
-/

namespace Bento

/-- `/repo/widget/gaugewidget/gauge.go:15-22` — `Gauge`. -/
structure Gauge where
  ratio : ℚ
  label : Option Span
  useUnicode : Bool
  style : Style
  gaugeStyle : Style

namespace Gauge

open Layout (roundHalfAway)

/-- `/repo/widget/gaugewidget/gauge.go:24-33` — `New`. -/
def new : Gauge := ⟨0, none, false, Style.new, Style.new⟩

/-- `/repo/widget/gaugewidget/gauge.go:43-50` — `WithRatio`; `none` if it panics. -/
def withRatio (g : Gauge) (ratio : ℚ) : Option Gauge :=
  if ratio < 0 ∧ ratio > 1 then none else some { g with ratio := ratio }

/-- `/repo/widget/gaugewidget/gauge.go:59-66` — `WithPercent`; `none` if it panics. -/
def withPercent (rnd : ℚ → ℚ) (g : Gauge) (percent : Int) : Option Gauge :=
  if percent < 0 ∨ percent > 100 then none else some { g with ratio := rnd (percent / 100) }

/-- `/repo/widget/gaugewidget/gauge.go:71-74` — `WithLabel`. -/
def withLabel (g : Gauge) (label : Span) : Gauge := { g with label := some label }

/-- `/repo/widget/gaugewidget/gauge.go:77-81` — `WithLabelStr`. -/
def withLabelStr (g : Gauge) (label : String) : Gauge := { g with label := some (Span.new label) }

/-- `/repo/widget/gaugewidget/gauge.go:100-103` — `WithUnicode`. -/
def withUnicode (g : Gauge) (unicode : Bool) : Gauge := { g with useUnicode := unicode }

/-- `/repo/widget/gaugewidget/gauge.go:169-190` — `getUnicodeBlock`; the product with 8 is exact. -/
def unicodeBlock (frac : ℚ) : String :=
  match roundHalfAway (frac * 8) with
  | 1 => "▏"
  | 2 => "▎"
  | 3 => "▍"
  | 4 => "▌"
  | 5 => "▋"
  | 6 => "▊"
  | 7 => "▉"
  | 8 => "█"
  | _ => " "

/-- `math.Mod(q, 1)`: the rest of a division truncated towards zero. -/
def mod1 (q : ℚ) : ℚ := if 0 ≤ q then q - ⌊q⌋ else q - ⌈q⌉

/-- `/repo/widget/gaugewidget/gauge.go:123-126` — the label that is drawn. -/
def shownLabel (rnd : ℚ → ℚ) (g : Gauge) : Span :=
  g.label.getD (Span.new (toString (roundHalfAway (rnd (g.ratio * 100))) ++ "%"))

/-- `/repo/widget/gaugewidget/gauge.go:132-137` — the columns drawn as full. -/
def fillWidth (rnd : ℚ → ℚ) (g : Gauge) (width : Int) : Int :=
  if g.useUnicode then ⌊rnd (width * g.ratio)⌋ else roundHalfAway (rnd (width * g.ratio))

/-- `/repo/widget/gaugewidget/gauge.go:150-164` — the cells written by the loops, in order. -/
def writes (rnd : ℚ → ℚ) (g : Gauge) (area : Rect) (labelCol labelRow labelWidth : Int) :
    List (Position × (Cell → Cell)) :=
  let stop := area.left + g.fillWidth rnd area.width
  let fg := g.gaugeStyle.fg.getD .reset
  let bg := g.gaugeStyle.bg.getD .reset
  (intRange area.top area.bottom).flatMap fun y =>
    ((intRange area.left stop).map fun x =>
      (⟨x, y⟩, fun c =>
        if x < labelCol ∨ x ≥ labelCol + labelWidth ∨ y ≠ labelRow then
          ((c.setSymbol "█").setFg fg).setBg bg
        else ((c.setSymbol " ").setFg fg).setBg bg)) ++
    if g.useUnicode ∧ g.ratio < 1 then
      [(⟨stop, y⟩, Cell.setSymbol (unicodeBlock (mod1 (rnd (area.width * g.ratio)))))]
    else []

/-- `/repo/widget/gaugewidget/gauge.go:116-167` — `render`. Lengths divided by two are not negative. -/
def renderGauge (rnd : ℚ → ℚ) (u : Uniseg) (g : Gauge) (area : Rect) (b : Buffer) : Option Buffer :=
  if area.isEmpty then some b
  else do
    let b ← b.setStyle area g.gaugeStyle
    let label := g.shownLabel rnd
    let labelWidth := min area.width (label.width u)
    let labelCol := area.left + (area.width - labelWidth).tdiv 2
    let labelRow := area.top + area.height.tdiv 2
    let b ← (g.writes rnd area labelCol labelRow labelWidth).foldlM (fun b w => b.modifyCell w.1 w.2) b
    let (b, _) ← b.setStringN u labelCol labelRow label.content labelWidth label.style
    return b

/-- `/repo/widget/gaugewidget/gauge.go:105-114` — `Render`. -/
def render (rnd : ℚ → ℚ) (u : Uniseg) (g : Gauge) (area : Rect) (b : Buffer) : Option Buffer := do
  let b ← b.setStyle area g.style
  g.renderGauge rnd u area b

end Gauge

end Bento
