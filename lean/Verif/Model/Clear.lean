import Verif.Model.Buffer

/-!
# Clearing and filling

Models `/repo/widget/clearwidget/clear.go` and `/repo/widget/fillwidget/fill.go`.
-/

namespace Bento

/-- The positions of the double loops, column by column. -/
def columnPositions (area : Rect) : List Position :=
  (intRange area.left area.right).flatMap fun x => (intRange area.top area.bottom).map fun y => ⟨x, y⟩

/-- `/repo/widget/clearwidget/clear.go:15-21` — `Clear.Render`. -/
def clear (area : Rect) (b : Buffer) : Option Buffer :=
  (columnPositions area).foldlM (fun b p => b.modifyCell p Cell.reset) b

/-- `/repo/widget/fillwidget/fill.go:7-10` — `Fill`. -/
structure Fill where
  symbol : String
  style : Style

/-- `/repo/widget/fillwidget/fill.go:12-17` — `New`. -/
def Fill.new (symbol : String) : Fill := ⟨symbol, Style.new⟩

/-- `/repo/widget/fillwidget/fill.go:24-36` — `Fill.Render`. -/
def Fill.render (f : Fill) (area : Rect) (b : Buffer) : Option Buffer :=
  (columnPositions area).foldlM
    (fun b p => b.modifyCell p fun c => (c.reset.setStyle f.style).setSymbol f.symbol) b

end Bento
