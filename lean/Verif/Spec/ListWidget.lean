import Verif.Model.ListWidget
import Verif.Spec.WideText

/-!
# What a list shows and how its selection moves
-/

namespace Bento

namespace ListWidget

/-- The height of the items from index `i` up to index `j`. -/
def heightOf (hs : List Nat) (i j : Nat) : Int := ((((hs.take j).drop i).sum : Nat) : Int)

/-- The commands that move the selection. -/
inductive Move
  | next
  | previous
  | first
  | last
  | down (amount : Int)
  | up (amount : Int)
  | select (index : Int)
  | unselect
  deriving DecidableEq, Repr

/-- What they mean in a list of `n` items. -/
def Move.target (n : Int) : Move → Option Int → Option Int
  | .next, none => some 0
  | .next, some i => some (min (n - 1) (i + 1))
  | .previous, none => some (n - 1)
  | .previous, some i => some (max 0 (i - 1))
  | .first, _ => some 0
  | .last, _ => some (n - 1)
  | .down a, i => some (max 0 (min (n - 1) (i.getD 0 + a)))
  | .up a, i => some (max 0 (min (n - 1) (i.getD 0 - a)))
  | .select j, _ => some (max 0 (min (n - 1) j))
  | .unselect, _ => none

/-- The function of the API for each command. -/
def Move.run : Move → State → State
  | .next => State.selectNext
  | .previous => State.selectPrevious
  | .first => State.selectFirst
  | .last => State.selectLast
  | .down a => fun s => s.scrollDownBy a
  | .up a => fun s => s.scrollUpBy a
  | .select j => fun s => s.select j
  | .unselect => State.unselect

/-- Amounts far from the limits of 64-bit integers. -/
def Move.Small : Move → Prop
  | .down a | .up a => -2 ^ 62 ≤ a ∧ a ≤ 2 ^ 62
  | _ => True

/-- The part of the area in which the items are drawn. -/
def content (l : ListWidget) (area : Rect) : Rect := (l.block.map fun k => k.inner area).getD area

/-- Commands, each followed by drawing the list to some area of some buffer. -/
def session (u : Uniseg) (l : ListWidget) : List (Move × Rect × Buffer) → State → Option State
  | [], s => some s
  | (m, area, b) :: rest, s => do
    let r ← render u l area b (m.run s)
    session u l rest r.2

/-- A text of blanks is segmented into blanks. -/
def Blanks (u : Uniseg) : Prop :=
  ∀ n, u.graphemes (String.ofList (List.replicate n ' ')) = List.replicate n " "

/-- What column `k` of line `j` of an item's rows shows, if anything: first the highlight symbol or blanks
(if there is a column for it), then the line of the item, aligned in the remaining columns. -/
def shownSymbol (u : Uniseg) (l : ListWidget) (spacing selected : Bool) (width : Nat) (item : Text) (j k : Nat) :
    Option String :=
  let w := if spacing then (u.graphemes l.highlightSymbol).length else 0
  if k < w then
    if selected = true ∧ (j = 0 ∨ l.repeatHighlightSymbol = true) then (u.graphemes l.highlightSymbol)[k]?
    else some " "
  else match item.lines[j]? with
    | some line => u.aligned (if line.alignment = .none then item.alignment else line.alignment) (width - w)
        (line.clusters u) (k - w)
    | none => none

/-- The rows of the `i`-th of the shown items: below the items before it, or above them in the other
direction. -/
def rowsOf (l : ListWidget) (area : Rect) (items : List Text) (i : Nat) (item : Text) : Rect :=
  let before : Int := (((items.take i).map fun t => t.lines.length).sum : Nat)
  { x := area.x
    y := match l.direction with
      | .topToBottom => area.y + before
      | .bottomToTop => area.y + area.height - before - item.lines.length
    width := area.width
    height := item.lines.length }

/-- The key names that move the selection. -/
def keyMove (name : List Nat) : Option Move :=
  [("ctrl+u", Move.up 8), ("ctrl+d", .down 8), ("G", .last), ("g", .first), ("j", .next), ("down", .next),
    ("k", .previous), ("up", .previous)].findSome? fun p =>
      if name = p.1.toList.map Char.toNat then some p.2 else none

end ListWidget

end Bento
