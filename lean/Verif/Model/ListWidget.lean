import Verif.Model.Block
import Verif.Model.Input

/-!
# The list widget

Models `/repo/widget/listwidget/list.go` and `state.go`. A Go panic is `none`. Go's `int` wraps around at
64 bits in the additions of `state.go`; the sums of item heights and screen coordinates stay exact.
-/

namespace Bento

namespace ListWidget

/-- Go's 64-bit `int` arithmetic. -/
def wrap64 (i : Int) : Int := (i + 2 ^ 63) % 2 ^ 64 - 2 ^ 63

/-- `/repo/widget/listwidget/state.go:12-15` — `State`. -/
structure State where
  offset : Int
  selected : Option Int
  deriving DecidableEq, Repr

namespace State

/-- `/repo/widget/listwidget/state.go:17-25` — `NewState`; also `new(State)` of list.go:184. -/
def new : State := ⟨0, none⟩

/-- `/repo/widget/listwidget/state.go:67-69` — `SetOffset`. -/
def setOffset (s : State) (offset : Int) : State := { s with offset := offset }

/-- `/repo/widget/listwidget/state.go:71-74` — `Select`. -/
def select (s : State) (index : Int) : State := { s with selected := some (max 0 index) }

/-- `/repo/widget/listwidget/state.go:76-84` — `SelectNext`. -/
def selectNext (s : State) : State :=
  s.select (match s.selected with | none => 0 | some i => wrap64 (i + 1))

/-- `/repo/widget/listwidget/state.go:86-94` — `SelectPrevious`. -/
def selectPrevious (s : State) : State :=
  s.select (match s.selected with | none => Buffer.maxInt | some i => max 0 (wrap64 (i - 1)))

/-- `/repo/widget/listwidget/state.go:96-98` — `SelectFirst`. -/
def selectFirst (s : State) : State := s.select 0

/-- `/repo/widget/listwidget/state.go:100-102` — `SelectLast`. -/
def selectLast (s : State) : State := s.select Buffer.maxInt

/-- `/repo/widget/listwidget/state.go:104-112` — `ScrollDownBy`. -/
def scrollDownBy (s : State) (amount : Int) : State := s.select (wrap64 (s.selected.getD 0 + amount))

/-- `/repo/widget/listwidget/state.go:114-122` — `ScrollUpBy`. -/
def scrollUpBy (s : State) (amount : Int) : State := s.select (wrap64 (s.selected.getD 0 - amount))

/-- `/repo/widget/listwidget/state.go:124-127` — `Unselect`. -/
def unselect (_ : State) : State := ⟨0, none⟩

/-- `/repo/widget/listwidget/state.go:134-140` — `Selected`. -/
def selectedIn (s : State) (max_ : Int) : Option Int := s.selected.map fun i => min max_ (max 0 i)

/-- `/repo/widget/listwidget/state.go:27-65` — `TryUpdate` and `update` for a key, by the key's name; the
flag tells whether it was handled. -/
def update (key : Key) (s : State) : State × Bool :=
  let name := Input.keyString key
  if name = "ctrl+u".toList.map Char.toNat then (s.scrollUpBy 8, true)
  else if name = "ctrl+d".toList.map Char.toNat then (s.scrollDownBy 8, true)
  else if name = "G".toList.map Char.toNat then (s.selectLast, true)
  else if name = "g".toList.map Char.toNat then (s.selectFirst, true)
  else if name = "j".toList.map Char.toNat ∨ name = "down".toList.map Char.toNat then (s.selectNext, true)
  else if name = "k".toList.map Char.toNat ∨ name = "up".toList.map Char.toNat then (s.selectPrevious, true)
  else (s, false)

end State

/-! ### The items shown -/

/-- The sum of the heights of the items with indices `from` to `to`, `/repo/widget/listwidget/list.go:316-318`. -/
def around (hs : List Nat) (fromIdx toIdx : Int) : Nat :=
  ((hs.take (toIdx + 1).toNat).drop fromIdx.toNat).sum

/-- `/repo/widget/listwidget/list.go:310-325` — the padding is reduced until the items around the selected
one fit. The loop counts down, so it is a recursion on the padding. -/
def paddingLoop (hs : List Nat) (selected lastValid maxHeight : Int) : Nat → Nat
  | 0 => 0
  | p + 1 =>
    if (around hs (max 0 (selected - (p + 1))) (min lastValid (selected + (p + 1))) : Int) ≤ maxHeight then p + 1
    else paddingLoop hs selected lastValid maxHeight p

/-- `/repo/widget/listwidget/list.go:299-336` — `applyScrollPaddingToSelectedIndex`. A negative padding
is not changed by the loop. -/
def applyScrollPadding (hs : List Nat) (scrollPadding selected maxHeight first last : Int) : Int :=
  let lastValid := max 0 ((hs.length : Int) - 1)
  let selected := min selected lastValid
  let padding : Int :=
    if 0 < scrollPadding then (paddingLoop hs selected lastValid maxHeight scrollPadding.toNat : Int)
    else scrollPadding
  let res :=
    if min lastValid (selected + padding) ≥ last then selected + padding
    else if max 0 (selected - padding) < first then max 0 (selected - padding)
    else selected
  min res lastValid

/-- `/repo/widget/listwidget/list.go:235-243` — the items that fit from the offset on. -/
def fitLoop (maxHeight : Int) : List Nat → Int → Int → Int × Int
  | [], height, last => (height, last)
  | h :: rest, height, last =>
    if height + h > maxHeight then (height, last) else fitLoop maxHeight rest (height + h) (last + 1)

/-- An index into a slice; panics outside. -/
def at? (hs : List Nat) (i : Int) : Option Nat := if i < 0 then none else hs[i.toNat]?

/-- `/repo/widget/listwidget/list.go:269-274` — the loop that hides items at the front; the list is what
follows the first index. -/
def shrinkFront (maxHeight : Int) : List Nat → Int → Int → Option (Int × Int)
  | [], height, first => if height > maxHeight then none else some (height, first)
  | h :: rest, height, first =>
    if height > maxHeight then shrinkFront maxHeight rest (max 0 (height - h)) (first + 1)
    else some (height, first)

/-- `/repo/widget/listwidget/list.go:262-275` — the loop that shows items at the back, `n` times. -/
def growLoop (maxHeight : Int) (hs : List Nat) : Nat → Int → Int → Int → Option (Int × Int × Int)
  | 0, height, first, last => some (height, first, last)
  | n + 1, height, first, last => do
    let h ← at? hs last
    let (height, first) ← shrinkFront maxHeight (hs.drop first.toNat) (height + h) first
    growLoop maxHeight hs n height first (last + 1)

/-- `/repo/widget/listwidget/list.go:285-289` — the loop that hides items at the back. -/
def shrinkBack (maxHeight : Int) (hs : List Nat) : Nat → Int → Option (Int × Int)
  | 0, height => if height > maxHeight then none else some (height, 0)
  | last + 1, height =>
    if height > maxHeight then do
      let h ← hs[last]?
      shrinkBack maxHeight hs last (max 0 (height - h))
    else some (height, last + 1)

/-- `/repo/widget/listwidget/list.go:279-290` — the loop that shows items at the front, `n` times. -/
def backLoop (maxHeight : Int) (hs : List Nat) : Nat → Int → Int → Int → Option (Int × Int × Int)
  | 0, height, first, last => some (height, first, last)
  | n + 1, height, first, last => do
    let h ← at? hs (first - 1)
    let (height, last) ← shrinkBack maxHeight hs last.toNat (height + h)
    backLoop maxHeight hs n height (first - 1) last

/-- `/repo/widget/listwidget/list.go:223-293` — `getItemsBounds`. The outer loops change only one of the
two numbers they compare, by one each time, so their number of rounds is known beforehand. -/
def getItemsBounds (hs : List Nat) (scrollPadding : Int) (selected : Option Int) (offset maxHeight : Int) :
    Option (Int × Int) :=
  let offset := min offset (max 0 ((hs.length : Int) - 1))
  if offset < 0 then none
  else do
    let (height, last) := fitLoop maxHeight (hs.drop offset.toNat) 0 offset
    let index :=
      match selected with
      | none => offset
      | some s => applyScrollPadding hs scrollPadding s maxHeight offset last
    let (height, first, last) ← growLoop maxHeight hs (index - last + 1).toNat height offset last
    let (_, first, last) ← backLoop maxHeight hs (first - index).toNat height first last
    some (first, last)

/-! ### Rendering -/

/-- `/repo/widget/listwidget/list.go:13-18` — `Direction`. -/
inductive Direction
  | topToBottom
  | bottomToTop
  deriving DecidableEq, Repr

/-- `/repo/widget/listwidget/list.go:20-26` — `HighlightSpacing`. -/
inductive HighlightSpacing
  | whenSelected
  | always
  | never
  deriving DecidableEq, Repr

/-- `/repo/widget/listwidget/list.go:28-39` — `shouldAdd`. -/
def HighlightSpacing.shouldAdd : HighlightSpacing → Bool → Bool
  | .whenSelected, hasSelection => hasSelection
  | .always, _ => true
  | .never, _ => false

end ListWidget

/-- `/repo/widget/listwidget/list.go:46-56` — `List`. -/
structure ListWidget where
  items : List Text
  block : Option Block
  style : Style
  direction : ListWidget.Direction
  highlightStyle : Style
  highlightSymbol : String
  repeatHighlightSymbol : Bool
  highlightSpacing : ListWidget.HighlightSpacing
  scrollPadding : Int

namespace ListWidget

/-- `/repo/widget/textwidget/text.go:39-41` — `Text.Height`: the number of lines. -/
def itemHeight (t : Text) : Nat := t.lines.length

/-- `/repo/widget/listwidget/list.go:166-173` — the column with the highlight symbol, from line `j` on,
`n` lines. -/
def symbolLoop (u : Uniseg) (l : ListWidget) (isSelected : Bool) (x y width : Int) (style : Style) :
    Nat → Nat → Buffer → Option Buffer
  | 0, _, b => some b
  | n + 1, j, b => do
    let symbol :=
      if isSelected && (j == 0 || l.repeatHighlightSymbol) then l.highlightSymbol
      else String.ofList (List.replicate (u.stringWidth l.highlightSymbol) ' ')
    let (b, _) ← b.setStringN u x (y + j) symbol width style
    symbolLoop u l isSelected x y width style n (j + 1) b

/-- `/repo/widget/listwidget/list.go:141-178` — the body of the loop for one item in its row. -/
def renderItem (u : Uniseg) (l : ListWidget) (spacing isSelected : Bool) (row : Rect) (item : Text) (b : Buffer) :
    Option Buffer := do
  let itemStyle := l.style.patched item.style
  let b ← b.setStyle row itemStyle
  let w : Int := u.stringWidth l.highlightSymbol
  let itemArea : Rect := if spacing then ⟨row.x + w, row.y, max 0 (row.width - w), row.height⟩ else row
  let b ← item.render u itemArea b
  let b ← if spacing then symbolLoop u l isSelected row.x row.y row.width itemStyle (itemHeight item) 0 b
    else some b
  if isSelected then b.setStyle row l.highlightStyle else some b

/-- `/repo/widget/listwidget/list.go:114-139` — the loop over the visible items; `i` is the index of the
first of them, `currentHeight` the height used so far. -/
def itemLoop (u : Uniseg) (l : ListWidget) (spacing : Bool) (selected : Option Int) (area : Rect) :
    List Text → Int → Int → Buffer → Option Buffer
  | [], _, _, b => some b
  | item :: rest, i, currentHeight, b => do
    let y :=
      match l.direction with
      | .bottomToTop => area.bottom - (currentHeight + itemHeight item)
      | .topToBottom => area.y + currentHeight
    let b ← renderItem u l spacing (selected == some i) ⟨area.x, y, area.width, itemHeight item⟩ item b
    itemLoop u l spacing selected area rest (i + 1) (currentHeight + itemHeight item) b

/-- `/repo/widget/listwidget/list.go:95-97` — a selection beyond the last item becomes the last item. -/
def clampSelection (n : Nat) (s : State) : State :=
  match s.selected with
  | some i => if i ≥ n then s.select (max 0 ((n : Int) - 1)) else s
  | none => s

/-- `/repo/widget/listwidget/list.go:91-179` — `RenderStateful` after the block has been drawn. -/
def renderItems (u : Uniseg) (l : ListWidget) (area : Rect) (b : Buffer) (s : State) : Option (Buffer × State) :=
  if area.isEmpty || l.items.length == 0 then some (b, s)
  else do
    let s := clampSelection l.items.length s
    let (first, last) ← getItemsBounds (l.items.map itemHeight) l.scrollPadding s.selected s.offset area.height
    let s : State := { s with offset := first }
    let spacing := l.highlightSpacing.shouldAdd s.selected.isSome
    if first < 0 ∨ last - first < 0 then none
    else do
      let b ← itemLoop u l spacing s.selected area ((l.items.drop first.toNat).take (last - first).toNat) first 0 b
      some (b, s)

/-- `/repo/widget/listwidget/list.go:82-180` — `RenderStateful`. -/
def render (u : Uniseg) (l : ListWidget) (area : Rect) (b : Buffer) (s : State) : Option (Buffer × State) := do
  let b ← b.setStyle area l.style
  match l.block with
  | none => renderItems u l area b s
  | some block => do
    let b ← block.render u area b
    renderItems u l (block.inner area) b s

end ListWidget

end Bento
