import Verif.Model.ListExample
import Verif.Spec.ListWidget
import Verif.Spec.Palette

/-!
# What the example program with a list shows

The picture that `examples/list` shows. Nothing here uses the functions that draw.
-/

namespace Bento.ListExample

open Input ListWidget

/-- The symbols of the program: the printable characters of ASCII and the lines of its two frames. -/
def Symbols (s : String) : Prop :=
  (∃ c : Char, 32 ≤ c.toNat ∧ c.toNat < 127 ∧ s = String.ofList [c]) ∨
    s ∈ ["╭", "╮", "╰", "╯", "│", "─", "┏", "┓", "┗", "┛", "━", "┃"]

/-- The colours of the selected item can be shown. -/
structure Colours (T : Termenv) : Prop where
  reset : T.convert .reset = some .reset
  black : ((T.convert (.ansi 0)).bind (Color.shown T)).isSome = true
  blue : ((T.convert (.ansi 4)).bind (Color.shown T)).isSome = true

/-- What a user has in mind: the selected item, the first item shown, and whether the popup is there. -/
structure Ideal where
  selected : Option Int
  top : Nat
  popup : Bool

/-- A message: keys move the selection among the hundred items, the space bar shows and hides the popup. -/
def Ideal.handle (e : Ideal) : Msg → Ideal
  | .key k =>
    match keyMove (keyString k) with
    | some m => { e with selected := m.target 100 e.selected }
    | none => if keyString k = [32] then { e with popup := !e.popup } else e
  | _ => e

/-- How many items, of two rows each, fit inside of the frame. -/
def shownItems (area : Rect) : Nat := (area.height - 2).toNat / 2

/-- A frame scrolls no further than it must. -/
def Ideal.draw (e : Ideal) (area : Rect) : Ideal :=
  { e with top := match e.selected with
    | none => e.top
    | some i => max (min e.top i.toNat) (i.toNat + 1 - shownItems area) }

/-- The two lines of an item. -/
def itemText (i r : Nat) : List Char := if r = 0 then ("Item #" ++ toString (i + 1)).toList else "Description".toList

/-- Column `k` of row `r` inside of the frame. -/
def listCell (e : Ideal) (area : Rect) (k r : Nat) : Cell :=
  let i := e.top + r / 2
  let text := itemText i (r % 2)
  if r / 2 < shownItems area ∧ i < 100 then
    let selected : Bool := e.selected = some (i : Int)
    ⟨(((if selected = true ∧ r % 2 = 0 then ['>', ' '] else [' ', ' ']) ++ text)[k]?.map fun c => String.ofList [c]).getD " ",
      if selected then .ansi 0 else .reset, if selected then .ansi 4 else .reset,
      if 2 ≤ k ∧ k < 2 + text.length then (if r % 2 = 0 then Modifier.bold else Modifier.italic ||| Modifier.dim) else 0, false⟩
  else ⟨" ", .reset, .reset, 0, false⟩

/-- Column `i` of row `j` of the frame around the list. -/
def frameSymbol (w h i j : Int) : String :=
  if j = 0 then
    if i = 0 then "╭" else if i = w - 1 then "╮"
    else ("List".toList[(i - 1).toNat]?.map fun c => String.ofList [c]).getD "─"
  else if j = h - 1 then
    if i = 0 then "╰" else if i = w - 1 then "╯"
    else if w - 10 ≤ i then ("100 items".toList[(i - (w - 10)).toNat]?.map fun c => String.ofList [c]).getD "─"
    else "─"
  else "│"

/-- The popup. -/
def popupRows : List String :=
  ["┏Popup━━━━━━━━━━━━━━━━━━━━━━━┓",
   "┃        Hello, world!       ┃",
   "┗━━━━━━━━━━━━━━━━━━━━━━━━━━━━┛"]

/-- The place of the popup: in the middle. -/
def popupArea (area : Rect) : Rect := ⟨area.x + (area.width - 29) / 2, area.y + (area.height - 2) / 2, 30, 3⟩

/-- The cells of the program. -/
def pictureCell (e : Ideal) (area : Rect) (q : Position) : Cell :=
  let p := popupArea area
  let i := q.x - area.x
  let j := q.y - area.y
  if e.popup = true ∧ p.contains q = true then
    ⟨(((popupRows[(q.y - p.y).toNat]?.bind fun s => s.toList[(q.x - p.x).toNat]?).map fun c => String.ofList [c]).getD " "),
      .reset, .reset, 0, false⟩
  else if i = 0 ∨ i = area.width - 1 ∨ j = 0 ∨ j = area.height - 1 then
    ⟨frameSymbol area.width area.height i j, .reset, .reset, 0, false⟩
  else listCell e area (i - 1).toNat (j - 1).toNat

/-- Room for the program: for one item, and for the popup. -/
structure Roomy (area : Rect) : Prop where
  left : 0 ≤ area.x
  top : 0 ≤ area.y
  rows : 4 ≤ area.height
  columns : 30 ≤ area.width

/-- The model after a message, or after none. -/
def after (m : Model) : Option Msg → Model
  | some g => (update m (.user g)).1
  | none => m

/-- The same in the user's mind. -/
def Ideal.after (e : Ideal) : Option Msg → Ideal
  | some g => e.handle g
  | none => e

/-- The program runs: it is drawn, and it is drawn again after every message. -/
inductive Session (u : Uniseg) : Model → Ideal → Prop
  | start : Session u program.start ⟨none, 0, false⟩
  /-- a message, or none, and the frame after it -/
  | frame {m e} (h : Session u m e) (msg : Option Msg) (area : Rect) (hroom : Roomy area) (ω : Nat → Nat → Nat)
      (fuel : Nat) (b b' : Buffer) (m' : Model) (hd : render ω fuel u (after m msg) area b = some (b', m')) :
      Session u m' ((e.after msg).draw area)

/-- A solver that has not come to an end: one of those of the two places of the popup. -/
def Running (ω : Nat → Nat → Nat) (fuel : Nat) (area : Rect) : Prop :=
  popup.place (ω 0) (ω 1) fuel area = .running ∨ popup.place (ω 2) (ω 3) fuel area = .running

end Bento.ListExample
