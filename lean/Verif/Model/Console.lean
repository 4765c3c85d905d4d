import Verif.Model.Input

/-!
# Reading the Windows console (`/repo/key_windows.go`)

The records that the console delivers become messages. Records, the numbers of keys, buttons and flags are those
of the Windows console; `ControlKeyState.Contains`, of the library `coninput`, tells whether one of the given keys
is pressed (`contains`). Records are read sixteen at a time, but what is kept from one to the next is kept over
all reads, so a list of records stands for all reads. Giving up when the context is done is in `Model/App.lean`.
-/

namespace Bento.Console

/-- `coninput.KeyEventRecord`: a key goes down or up. -/
structure KeyRecord where
  keyDown : Bool
  repeatCount : Nat
  /-- The virtual key code. -/
  code : Nat
  char : Rune
  /-- The control key state. -/
  state : Nat
  deriving DecidableEq, Repr

/-- `coninput.MouseEventRecord`. -/
structure MouseRecord where
  x : Int
  y : Int
  buttons : Nat
  state : Nat
  flags : Nat
  wheel : Int
  deriving DecidableEq, Repr

/-- The records that `readConInputs` tells apart; focus and menu records, which it ignores, and unknown ones are
`other`. -/
inductive Record where
  | key (r : KeyRecord)
  | size (width height : Int)
  | mouse (r : MouseRecord)
  | other
  deriving DecidableEq, Repr

/-- `coninput.ControlKeyState.Contains`. -/
def contains (state keys : Nat) : Bool := (state &&& keys) != 0

/-- `/repo/key_windows.go:180-248`, the four ways to press an arrow key, home or end. -/
def withModifiers (shift ctrl : Bool) (both s c plain : KeyType) : KeyType :=
  if shift && ctrl then both else if shift then s else if ctrl then c else plain

/-- `/repo/key_windows.go:261-317` — the control characters with ctrl. `KeyCtrlCloseBracket` is 29. -/
def controlType (char : Rune) (code : Nat) : KeyType :=
  if char = 64 then 0
  else if 1 ≤ char ∧ char ≤ 26 then (char : Int)
  else if char = 27 then 29
  else if char = 28 then 28
  else if char = 31 then 31
  else if code = 0xDB then 27
  else Input.keyRunes

/-- `/repo/key_windows.go:161-328` — `keyType`. -/
def keyType (e : KeyRecord) : KeyType :=
  let shift := contains e.state 0x10
  let ctrl := contains e.state (0x8 ||| 0x4)
  match e.code with
  | 0x0D => 13
  | 0x08 => 127
  | 0x09 => if shift then Input.keyShiftTab else 9
  | 0x20 => Input.keyRunes
  | 0x1B => 27
  | 0x26 => withModifiers shift ctrl Input.keyCtrlShiftUp Input.keyShiftUp Input.keyCtrlUp Input.keyUp
  | 0x28 => withModifiers shift ctrl Input.keyCtrlShiftDown Input.keyShiftDown Input.keyCtrlDown Input.keyDown
  | 0x27 => withModifiers shift ctrl Input.keyCtrlShiftRight Input.keyShiftRight Input.keyCtrlRight Input.keyRight
  | 0x25 => withModifiers shift ctrl Input.keyCtrlShiftLeft Input.keyShiftLeft Input.keyCtrlLeft Input.keyLeft
  | 0x24 => withModifiers shift ctrl Input.keyCtrlShiftHome Input.keyShiftHome Input.keyCtrlHome Input.keyHome
  | 0x23 => withModifiers shift ctrl Input.keyCtrlShiftEnd Input.keyShiftEnd Input.keyCtrlEnd Input.keyEnd
  | 0x21 => Input.keyPgUp
  | 0x22 => Input.keyPgDown
  | 0x2E => Input.keyDelete
  | _ => if (e.state &&& (0x8 ||| 0x4)) = 0 then Input.keyRunes else controlType e.char e.code

/-- `/repo/key_windows.go:41-56` — the message for a key. -/
def keyOf (e : KeyRecord) : Key :=
  let t := keyType e
  ⟨t, if t = Input.keyRunes then [e.char] else [], contains e.state (0x2 ||| 0x1), false⟩

/-- `/repo/key_windows.go:91-128` — `mouseEventButton`. -/
def mouseEventButton (p s : Nat) : Nat × MouseAction :=
  let btn := p ^^^ s
  let action := if (btn &&& s) = 0 then MouseAction.release else .press
  if btn = 0 then
    (if (s &&& 0x1) > 0 then 1 else if (s &&& 0x4) > 0 then 2 else if (s &&& 0x2) > 0 then 3
      else if (s &&& 0x8) > 0 then 8 else if (s &&& 0x10) > 0 then 9 else 0, action)
  else
    (match btn with
      | 0x1 => 1
      | 0x2 => 3
      | 0x4 => 2
      | 0x8 => 8
      | 0x10 => 9
      | _ => 0, action)

/-- `/repo/key_windows.go:130-159` — `mouseEvent`. -/
def mouseEvent (p : Nat) (e : MouseRecord) : MouseEvent :=
  let ev (button : Nat) (action : MouseAction) : MouseEvent :=
    { x := e.x, y := e.y, shift := contains e.state 0x10, alt := contains e.state (0x2 ||| 0x1),
      ctrl := contains e.state (0x8 ||| 0x4), action := action, button := button }
  match e.flags with
  | 0 | 2 => let b := mouseEventButton p e.buttons; ev b.1 b.2
  | 4 => ev (if e.wheel > 0 then 4 else 5) .press
  | 8 => ev (if e.wheel > 0 then 7 else 6) .press
  | 1 => ev (mouseEventButton p e.buttons).1 .motion
  | _ => ev 0 .press

/-- What the reader sends. -/
inductive Msg where
  | key (k : Key)
  | mouse (m : MouseEvent)
  | size (width height : Int)
  deriving DecidableEq, Repr

/-- `/repo/key_windows.go:24-25` — what is kept between records: the last state of the mouse buttons and the last
size. -/
structure State where
  buttons : Nat := 0
  size : Int × Int := (0, 0)
  deriving DecidableEq, Repr

/-- `/repo/key_windows.go:32-72` — the messages for a record. -/
def readRecord (s : State) : Record → State × List Msg
  | .key e => if !e.keyDown || e.code == 0x10 then (s, []) else (s, List.replicate e.repeatCount (.key (keyOf e)))
  | .size w h => if (w, h) ≠ s.size then ({ s with size := (w, h) }, [.size w h]) else (s, [])
  | .mouse e => ({ s with buttons := e.buttons }, [.mouse (mouseEvent s.buttons e)])
  | .other => (s, [])

/-- `/repo/key_windows.go:23-89` — `readConInputs`. -/
def readFrom (s : State) : List Record → List Msg
  | [] => []
  | r :: rs => (readRecord s r).2 ++ readFrom (readRecord s r).1 rs

/-- `/repo/key_windows.go:23-25` — from the beginning. -/
def readRecords (rs : List Record) : List Msg := readFrom {} rs

end Bento.Console
