import Verif.Model.Utf8

/-!
# Mouse reports (`/repo/mouse.go`)
-/

namespace Bento

/-- `/repo/mouse.go:71-75` — `MouseAction`. -/
inductive MouseAction
  | press | release | motion
  deriving DecidableEq, Repr

/-- `/repo/mouse.go:17-25` — `MouseEvent`. The button is its number, `/repo/mouse.go:103-116`: 0 none,
1 left, 2 middle, 3 right, 4–7 wheel, 8–11 further buttons. -/
structure MouseEvent where
  x : Int
  y : Int
  shift : Bool
  alt : Bool
  ctrl : Bool
  action : MouseAction
  button : Nat
  deriving DecidableEq, Repr

/-- `/repo/mouse.go:28-31` — `IsWheel`. -/
def MouseEvent.isWheel (m : MouseEvent) : Bool :=
  m.button == 4 || m.button == 5 || m.button == 6 || m.button == 7

/-- `/repo/mouse.go:77-81` — `mouseActions`. -/
def MouseAction.name : MouseAction → String
  | .press => "press"
  | .release => "release"
  | .motion => "motion"

/-- `/repo/mouse.go:118-131` — `mouseButtons`; the empty string for a button that is not in the map. -/
def mouseButtonName : Nat → String
  | 0 => "none"
  | 1 => "left"
  | 2 => "middle"
  | 3 => "right"
  | 4 => "wheel up"
  | 5 => "wheel down"
  | 6 => "wheel left"
  | 7 => "wheel right"
  | 8 => "backward"
  | 9 => "forward"
  | 10 => "button 10"
  | 11 => "button 11"
  | _ => ""

/-- `/repo/mouse.go:34-67` — `MouseEvent.String`. The names of actions are never empty. -/
def MouseEvent.string (m : MouseEvent) : String :=
  let s := (if m.ctrl then "ctrl+" else "") ++ (if m.alt then "alt+" else "") ++
    (if m.shift then "shift+" else "")
  if m.button = 0 then
    if m.action = .motion ∨ m.action = .release then s ++ m.action.name else s ++ "unknown"
  else if m.isWheel then s ++ mouseButtonName m.button
  else s ++ mouseButtonName m.button ++ (" " ++ m.action.name)

namespace Mouse

/-- `e & mask` for masks below 256; only the low eight bits of the two's complement matter. -/
def masked (e : Int) (mask : Nat) : Nat := (e % 256).toNat &&& mask

/-- `/repo/mouse.go:217-228` — button and action without the motion bit. -/
def buttonOf (e : Int) : Nat × MouseAction :=
  if masked e 128 ≠ 0 then (8 + masked e 3, .press)
  else if masked e 64 ≠ 0 then (4 + masked e 3, .press)
  else if masked e 3 = 3 then (0, .release)
  else (1 + masked e 3, .press)

/-- `/repo/mouse.go:199-241` — `parseMouseButton`. -/
def parseMouseButton (b : Int) (isSGR : Bool) : MouseEvent :=
  let e := if isSGR then b else b - 32
  let ba := buttonOf e
  let m : MouseEvent :=
    { x := 0, y := 0, shift := masked e 4 ≠ 0, alt := masked e 8 ≠ 0, ctrl := masked e 16 ≠ 0,
      action := ba.2, button := ba.1 }
  if masked e 32 ≠ 0 ∧ ¬ m.isWheel then { m with action := .motion } else m

/-- `/repo/mouse.go:187-196` — `parseX10MouseEvent` on the bytes after `ESC [ M`. -/
def parseX10 (b0 b1 b2 : Byte) : MouseEvent :=
  { parseMouseButton b0 false with x := (b1 : Int) - 32 - 1, y := (b2 : Int) - 32 - 1 }

/-- `\d` -/
def isDigit (b : Byte) : Bool := decide (48 ≤ b) && decide (b ≤ 57)

/-- The value of a string of digits. -/
def digitsValue (ds : List Byte) : Nat := ds.foldl (fun v d => 10 * v + (d - 48)) 0

/-- `strconv.Atoi` on a non-empty string of digits, its error ignored: values that do not fit are
replaced by the largest `int`. -/
def atoi (ds : List Byte) : Int := min (digitsValue ds) (2 ^ 63 - 1)

/-- A match of `(\d+);(\d+);(\d+)([Mm])`: the submatches and the length. -/
structure SGRMatch where
  b : List Byte
  x : List Byte
  y : List Byte
  release : Bool
  len : Nat
  deriving DecidableEq, Repr

/-- `/repo/input.go:613` — `mouseSGRRegex` at the start of the input. Since a digit is neither a
semicolon nor a letter, greedy matching never has to backtrack. -/
def sgrAt (s : List Byte) : Option SGRMatch :=
  let d1 := s.takeWhile isDigit
  let r1 := s.dropWhile isDigit
  match r1 with
  | 59 :: t1 =>
    let d2 := t1.takeWhile isDigit
    let r2 := t1.dropWhile isDigit
    match r2 with
    | 59 :: t2 =>
      let d3 := t2.takeWhile isDigit
      let r3 := t2.dropWhile isDigit
      match r3 with
      | c :: _ =>
        if d1 ≠ [] ∧ d2 ≠ [] ∧ d3 ≠ [] ∧ (c = 77 ∨ c = 109) then
          some ⟨d1, d2, d3, c == 109, d1.length + 1 + d2.length + 1 + d3.length + 1⟩
        else none
      | [] => none
    | _ => none
  | _ => none

/-- `mouseSGRRegex` anywhere in the input: the leftmost match, and where it ends. -/
def sgrFind : List Byte → Option (SGRMatch × Nat)
  | [] => none
  | c :: s =>
    match sgrAt (c :: s) with
    | some m => some (m, m.len)
    | none => (sgrFind s).map fun p => (p.1, p.2 + 1)

/-- `/repo/mouse.go:154-173` — `parseSGRMouseEvent` from the submatches. -/
def parseSGR (s : SGRMatch) : MouseEvent :=
  let m := parseMouseButton (atoi s.b) true
  let m1 := if m.action ≠ .motion ∧ ¬ m.isWheel ∧ s.release then { m with action := .release } else m
  { m1 with x := atoi s.x - 1, y := atoi s.y - 1 }

end Mouse

end Bento
