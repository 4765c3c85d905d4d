import Verif.Model.Text
import Verif.Spec.Widget

/-!
# What showing a line of text at an alignment means
-/

namespace Bento

/-- A law of text segmentation used only where the start of a text is cut off: what follows the first
cluster is segmented as before. -/
def Uniseg.Suffix (u : Uniseg) : Prop :=
  ∀ s c rest, u.graphemes s = c :: rest → u.graphemes (String.join rest) = rest

/-- A cluster that takes one column and is shown. -/
def Uniseg.Narrow (u : Uniseg) (c : String) : Prop :=
  u.width c = 1 ∧ c.toList.any isControlRune = false

/-- The rectangle lies in the buffer. -/
def Inside (b : Buffer) (r : Rect) : Prop :=
  b.area.x ≤ r.x ∧ r.x + r.width ≤ b.area.x + b.area.width ∧ b.area.y ≤ r.y ∧
    r.y + r.height ≤ b.area.y + b.area.height ∧ 0 ≤ r.width ∧ 0 ≤ r.height

/-- The clusters of a line. -/
def Line.clusters (u : Uniseg) (l : Line) : List String := l.spans.flatMap fun s => u.graphemes s.content

/-- A line of single-width text. -/
def Line.NarrowText (u : Uniseg) (l : Line) : Prop :=
  ∀ s ∈ l.spans, ∀ c ∈ u.graphemes s.content, u.Narrow c

/-- The number of columns before the text, out of `d` free ones. -/
def Alignment.before (a : Alignment) (d : Nat) : Nat :=
  match a with
  | .none | .left => 0
  | .center => d / 2
  | .right => d

/-- The clusters of a line, each with the style of its span. -/
def Line.styledClusters (u : Uniseg) (l : Line) : List (String × Style) :=
  l.spans.flatMap fun s => (u.graphemes s.content).map fun c => (c, s.style)

/-- What column `k` of a row of `w` columns shows of a text of single-width symbols, if it shows
any of it. -/
def Alignment.shown {α : Type} (a : Alignment) (w : Nat) (cs : List α) (k : Nat) : Option α :=
  if cs.length ≤ w then
    if k < a.before (w - cs.length) then Option.none else cs[k - a.before (w - cs.length)]?
  else cs[k + a.before (cs.length - w)]?

end Bento
