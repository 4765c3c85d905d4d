import Verif.Model.Layout
import Verif.Model.Block
import Verif.Model.Clear

/-!
# Popups

Models `/repo/widget/popupwidget/popup.go`. The layouts are solved with a map order and a bound on the pivots,
as in `Model/Layout.lean`; each of the two nested layouts has a map order of its own.
-/

namespace Bento

/-- `/repo/widget/popupwidget/popup.go:11-18` — `Popup`. The content is a widget: a function that draws into
an area. -/
structure Popup where
  block : Option Block
  horizontal : Flex
  vertical : Flex
  style : Style
  width : Constraint
  height : Constraint
  content : Option (Rect → Buffer → Option Buffer)
  padding : Padding

namespace Popup

/-- The result of drawing or measuring something that needs a layout: a value, a panic, or a simplex loop that is
still running after the given number of pivots. -/
inductive Result (α : Type)
  | ok (a : α)
  | panics
  | running

/-- `/repo/widget/popupwidget/popup.go:20-30` — `New`. -/
def new : Popup := ⟨none, .center, .center, Style.new, .percentage 60, .percentage 20, none, Padding.none'⟩

/-- `/repo/layout.go:38-40,115-119` — `Split` followed by `Unwrap`, which panics if there is no segment. -/
def unwrap : Layout.Outcome → Result Rect
  | .ok (r :: _) _ => .ok r
  | .ok [] _ => .panics
  | .panics => .panics
  | .running => .running

/-- `/repo/widget/popupwidget/popup.go:88-93,103-107` — the area of the popup: the vertical layout, and then
the horizontal one inside it. Both apply the padding. -/
def place (ω ω' : Nat → Nat) (fuel : Nat) (p : Popup) (area : Rect) : Result Rect :=
  match unwrap (Layout.splitWithSpacers ω fuel ⟨.vertical, [p.height], p.padding, p.vertical, .space 0⟩ area) with
  | .panics => .panics
  | .running => .running
  | .ok area =>
    unwrap (Layout.splitWithSpacers ω' fuel ⟨.horizontal, [p.width], p.padding, p.horizontal, .space 0⟩ area)

/-- `/repo/widget/popupwidget/popup.go:87-100` — `Inner`. -/
def inner (ω ω' : Nat → Nat) (fuel : Nat) (p : Popup) (area : Rect) : Result Rect :=
  match p.place ω ω' fuel area with
  | .panics => .panics
  | .running => .running
  | .ok area => .ok (match p.block with | some block => block.inner area | none => area)

/-- `/repo/widget/popupwidget/popup.go:109-114` — drawing the popup once its area is known. The content is not
drawn. -/
def draw (u : Uniseg) (p : Popup) (area : Rect) (b : Buffer) : Option Buffer := do
  let b ← clear area b
  let b ← b.setStyle area p.style
  match p.block with
  | some block => block.render u area b
  | none => some b

/-- `/repo/widget/popupwidget/popup.go:102-115` — `Render`. -/
def render (ω ω' : Nat → Nat) (fuel : Nat) (u : Uniseg) (p : Popup) (area : Rect) (b : Buffer) : Result Buffer :=
  match p.place ω ω' fuel area with
  | .panics => .panics
  | .running => .running
  | .ok area => match p.draw u area b with
    | some b => .ok b
    | none => .panics

end Popup

end Bento
