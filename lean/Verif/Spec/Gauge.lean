import Verif.Model.Gauge
import Verif.Spec.Text

/-!
# What a gauge shows
-/

namespace Bento

namespace Gauge

/-- What the theorems assume of rounding to float64: it keeps the order and integers up to `2^53`, and its
relative error is at most `2^-52` away from the subnormal numbers. -/
structure FloatRound (rnd : ℚ → ℚ) : Prop where
  mono : ∀ p q : ℚ, 0 ≤ p → p ≤ q → q ≤ 2 ^ 53 → rnd p ≤ rnd q
  int : ∀ n : Int, 0 ≤ n → n ≤ 2 ^ 53 → rnd n = n
  close : ∀ q : ℚ, 1 / 2 ^ 100 ≤ q → q ≤ 2 ^ 53 → |rnd q - q| ≤ q / 2 ^ 52

/-- The cell `q` of a gauge's area: the first `n` columns are full blocks in the colours of the gauge, the
column behind them shows `tip`, if there is one, and the label, centred and cut to the width, is on the middle
row. -/
def gaugeCell (g : Gauge) (label : List String) (labelStyle : Style) (area : Rect) (n : Int) (tip : Option String)
    (q : Position) (c : Cell) : Cell :=
  let base := (c.setStyle g.style).setStyle g.gaugeStyle
  let bar : Cell :=
    if q.x < area.x + n then
      { base with symbol := "█", fg := g.gaugeStyle.fg.getD .reset, bg := g.gaugeStyle.bg.getD .reset }
    else if q.x = area.x + n then { base with symbol := tip.getD base.symbol }
    else base
  let shown := label.take area.width.toNat
  let first := area.x + (area.width - shown.length) / 2
  if q.y = area.y + area.height / 2 ∧ first ≤ q.x then
    match shown[(q.x - first).toNat]? with
    | some v => Cell.setStyle labelStyle { bar with symbol := v }
    | none => bar
  else bar

/-- The eighths of a block, from the left. -/
def eighths : List String := [" ", "▏", "▎", "▍", "▌", "▋", "▊", "▉", "█"]

end Gauge

end Bento
