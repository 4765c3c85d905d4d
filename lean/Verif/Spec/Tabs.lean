import Verif.Model.Tabs
import Verif.Spec.Text

/-!
# What a row of styled text does to the cells, and the strip of tabs
-/

namespace Bento

/-- What printing a text does to the columns it takes: a symbol and a style in the first column of
every cluster, a blank in the others. -/
def columnsOf (u : Uniseg) (style : Style) (v : String) : List (Cell → Cell) :=
  (u.graphemes v).flatMap fun g => Cell.put g style :: List.replicate (u.width g - 1) Cell.reset

/-- The columns of a line: every span in the style of the line, overlaid by its own. -/
def Line.columns (u : Uniseg) (l : Line) : List (Cell → Cell) :=
  l.spans.flatMap fun s => columnsOf u (l.style.patched s.style) s.content

/-- The columns of a tab: padding, title, padding. The title of the selected tab is highlighted. -/
def Tabs.tab (u : Uniseg) (t : Tabs) (i : Nat) (title : Line) : List (Cell → Cell) :=
  t.paddingLeft.columns u ++
  (if t.selected = some (i : Int) then (title.columns u).map (fun f c => (f c).setStyle t.highlightStyle)
    else title.columns u) ++
  t.paddingRight.columns u

/-- The columns of the whole strip: the tabs with the divider between them. -/
def Tabs.strip (u : Uniseg) (t : Tabs) : List (Cell → Cell) :=
  List.intercalate (columnsOf u t.divider.style t.divider.content) (t.titles.mapIdx (t.tab u))

/-- The texts of a strip, in the order of drawing. -/
def Tabs.texts (t : Tabs) : List String :=
  List.intercalate [t.divider.content] (t.titles.map fun l =>
    (t.paddingLeft.spans ++ l.spans ++ t.paddingRight.spans).map Span.content)

/-- No cluster is without width. -/
def Visible (u : Uniseg) (v : String) : Prop := ∀ g ∈ u.graphemes v, 1 ≤ u.width g

/-- The widths of the clusters of some texts, one after the other. -/
def widthsOf (u : Uniseg) (vs : List String) : List Nat :=
  vs.flatMap fun v => (u.graphemes v).map u.width

/-- A row of symbols of these widths can be cut after `n` columns: no symbol lies across the cut. -/
def CutsAt (ws : List Nat) (n : Int) : Prop :=
  ∀ k, ((ws.take k).sum : Int) < n → ((ws.take (k + 1)).sum : Int) ≤ n

end Bento
