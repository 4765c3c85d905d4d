import Verif.Spec.Text
import Verif.Spec.ListWidget

/-!
# What texts and lists do to every cell, styles included

For text whose symbols take one column each.
-/

namespace Bento

/-- What column `k` of a row of `w` columns becomes when a line is drawn to it: the style of the line is on the leftmost
columns, as many as the line is long, and the symbols with the styles of their spans are where the alignment puts them. -/
def Line.cellIn (u : Uniseg) (l : Line) (parent : Alignment) (w k : Nat) (c : Cell) : Cell :=
  let c := if k < min w (l.clusters u).length then c.setStyle l.style else c
  match (if l.alignment = .none then parent else l.alignment).shown w (l.styledClusters u) k with
  | some (s, st) => c.put s st
  | none => c

/-- What a cell becomes when a text is drawn to an area: the style of the text is everywhere, and line `j` is in row `j`. -/
def Text.cellIn (u : Uniseg) (t : Text) (area : Rect) (q : Position) (c : Cell) : Cell :=
  if area.contains q = true then
    match t.lines[(q.y - area.y).toNat]? with
    | some l => l.cellIn u t.alignment area.width.toNat (q.x - area.x).toNat (c.setStyle t.style)
    | none => c.setStyle t.style
  else c

/-- What a cell of the rows of an item becomes: first the style of the item over that of the list; then the text, behind the
column for the highlight symbol if there is one; then that column, in the style of the item; and at last, if the item is
selected, the highlight style. -/
def ListWidget.itemCell (u : Uniseg) (l : ListWidget) (spacing selected : Bool) (row : Rect) (t : Text) (q : Position)
    (c : Cell) : Cell :=
  let style := l.style.patched t.style
  let symbol := u.graphemes l.highlightSymbol
  let k := (q.x - row.x).toNat
  let n := if spacing then symbol.length else 0
  let c := t.cellIn u ⟨row.x + n, row.y, max 0 (row.width - n), row.height⟩ q (c.setStyle style)
  let c := if k < n then
      c.put (if selected = true ∧ (q.y = row.y ∨ l.repeatHighlightSymbol = true) then symbol[k]?.getD " " else " ") style
    else c
  if selected then c.setStyle l.highlightStyle else c

end Bento
