import Verif.Model.Console
import Verif.Spec.Keys

/-!
# What is done at a Windows console

Modifiers are bits of a number: right and left alt, right and left ctrl, shift. Mouse buttons are bits, too; the
console says which buttons are down, not which one changed.
-/

namespace Bento.Console

/-- Which modifiers are pressed. -/
def mods (state : Nat) : Keys.Mods where
  shift := state.testBit 4
  alt := state.testBit 0 || state.testBit 1
  ctrl := state.testBit 2 || state.testBit 3

/-- The virtual key codes of the arrow keys, of home and end. -/
def cursorKeys : List (Nat × String) :=
  [(0x26, "up"), (0x28, "down"), (0x27, "right"), (0x25, "left"), (0x24, "home"), (0x23, "end")]

/-- The virtual key codes of other keys that type nothing. -/
def plainKeys : List (Nat × String) :=
  [(0x0D, "enter"), (0x08, "backspace"), (0x1B, "esc"), (0x21, "pgup"), (0x22, "pgdown"), (0x2E, "delete")]

/-- The tabulator, whose name has `shift` but not `ctrl`. -/
def tabCode : Nat := 0x09

def spaceCode : Nat := 0x20

def shiftCode : Nat := 0x10

/-- Codes of keys that have a meaning of their own. -/
def ownCodes : List Nat := cursorKeys.map Prod.fst ++ plainKeys.map Prod.fst ++ [tabCode, spaceCode]

/-- A key with no meaning of its own goes down. -/
def KeyRecord.Types (r : KeyRecord) : Prop := r.keyDown = true ∧ r.code ∉ ownCodes ∧ r.code ≠ shiftCode

/-! ### The mouse -/

inductive Button where
  | left | right | middle | backward | forward
  deriving DecidableEq, Repr

/-- The number of a button in messages. -/
def Button.number : Button → Nat
  | .left => 1
  | .middle => 2
  | .right => 3
  | .backward => 8
  | .forward => 9

/-- The bit of a button in records. -/
def Button.bit : Button → Nat
  | .left => 1
  | .right => 2
  | .middle => 4
  | .backward => 8
  | .forward => 16

/-- The buttons that are down. -/
structure Held where
  left : Bool := false
  right : Bool := false
  middle : Bool := false
  backward : Bool := false
  forward : Bool := false
  deriving DecidableEq, Repr

def Held.has (h : Held) : Button → Bool
  | .left => h.left
  | .right => h.right
  | .middle => h.middle
  | .backward => h.backward
  | .forward => h.forward

def Held.set (h : Held) (b : Button) (v : Bool) : Held :=
  match b with
  | .left => { h with left := v }
  | .right => { h with right := v }
  | .middle => { h with middle := v }
  | .backward => { h with backward := v }
  | .forward => { h with forward := v }

/-- The number that a record has for the buttons that are down. -/
def Held.code (h : Held) : Nat :=
  (if h.left then 1 else 0) + (if h.right then 2 else 0) + (if h.middle then 4 else 0) +
    (if h.backward then 8 else 0) + (if h.forward then 16 else 0)

/-- The button that a movement is made with: of the buttons that are down the first one in this order. -/
def Held.dragging (h : Held) : Nat :=
  if h.left then 1 else if h.middle then 2 else if h.right then 3 else if h.backward then 8
  else if h.forward then 9 else 0

inductive Act where
  | press (b : Button)
  /-- The second press of a double click. -/
  | again (b : Button)
  | release (b : Button)
  | move
  | wheel (up : Bool)
  | tilt (right : Bool)
  deriving DecidableEq, Repr

/-- Something is done with the mouse. -/
structure Gesture where
  act : Act
  x : Int
  y : Int
  state : Nat
  deriving DecidableEq, Repr

/-- The buttons that are down afterwards. -/
def Act.after (h : Held) : Act → Held
  | .press b => h.set b true
  | .again b => h.set b true
  | .release b => h.set b false
  | _ => h

/-- What can be done: only buttons that are up are pressed, and only those that are down released. -/
def Act.Possible (h : Held) : Act → Prop
  | .press b => h.has b = false
  | .again b => h.has b = false
  | .release b => h.has b = true
  | _ => True

def Act.flags : Act → Nat
  | .press _ => 0
  | .release _ => 0
  | .move => 1
  | .again _ => 2
  | .wheel _ => 4
  | .tilt _ => 8

/-- The direction of a wheel in a record. -/
def Act.direction : Act → Int
  | .wheel true => 1
  | .wheel false => -1
  | .tilt true => 1
  | .tilt false => -1
  | _ => 0

/-- Which button does what, as a message says it. -/
def Act.told (h : Held) : Act → Nat × MouseAction
  | .press b => (b.number, .press)
  | .again b => (b.number, .press)
  | .release b => (b.number, .release)
  | .move => (h.dragging, .motion)
  | .wheel up => (if up then 4 else 5, .press)
  | .tilt right => (if right then 7 else 6, .press)

/-- The record of a gesture. -/
def Gesture.record (h : Held) (g : Gesture) : Record :=
  .mouse ⟨g.x, g.y, (g.act.after h).code, g.state, g.act.flags, g.act.direction⟩

/-- The message for a gesture. -/
def Gesture.message (h : Held) (g : Gesture) : Msg :=
  .mouse { x := g.x, y := g.y, shift := (mods g.state).shift, alt := (mods g.state).alt,
           ctrl := (mods g.state).ctrl, action := (g.act.told h).2, button := (g.act.told h).1 }

def Possible (h : Held) : List Gesture → Prop
  | [] => True
  | g :: gs => g.act.Possible h ∧ Possible (g.act.after h) gs

def records (h : Held) : List Gesture → List Record
  | [] => []
  | g :: gs => g.record h :: records (g.act.after h) gs

def expected (h : Held) : List Gesture → List Msg
  | [] => []
  | g :: gs => g.message h :: expected (g.act.after h) gs

/-! ### Sizes -/

/-- The sizes that the console reports. -/
def sizesIn (rs : List Record) : List (Int × Int) :=
  rs.filterMap fun | .size w h => some (w, h) | _ => none

/-- The sizes that the app is told. -/
def sizesOut (ms : List Msg) : List (Int × Int) :=
  ms.filterMap fun | .size w h => some (w, h) | _ => none

end Bento.Console
