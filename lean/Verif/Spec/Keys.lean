import Verif.Spec.Input

/-!
# Which bytes stand for which key

What terminals send for the keys that are no characters, as their manuals say (xterm's control
sequences, with the variants of rxvt and of the Linux console), and how an application calls such a
key: the modifiers in the order alt, ctrl, shift, and then the key. Independent of the tables of the
library.
-/

namespace Bento.Keys

/-- The modifiers of a key. -/
structure Mods where
  shift : Bool := false
  alt : Bool := false
  ctrl : Bool := false
  deriving DecidableEq, Repr

/-- All modifiers. -/
def Mods.all : List Mods :=
  [false, true].flatMap fun c => [false, true].flatMap fun a => [false, true].map fun s => ⟨s, a, c⟩

/-- The digit for modifiers: one more than 1 for shift, 2 for alt and 4 for control. -/
def Mods.digit (m : Mods) : Byte :=
  49 + (if m.shift then 1 else 0) + (if m.alt then 2 else 0) + (if m.ctrl then 4 else 0)

/-- How a key with modifiers is called. -/
def called (m : Mods) (key : String) : List Rune :=
  ((if m.alt then "alt+" else "") ++ (if m.ctrl then "ctrl+" else "") ++
    (if m.shift then "shift+" else "") ++ key).toList.map Char.toNat

/-- `ESC [` -/
def csi (s : List Byte) : List Byte := 27 :: 91 :: s

/-- xterm, keys with a letter: `ESC [ letter`, with modifiers `ESC [ 1 ; digit letter`. -/
def letterKey (letter : Byte) (m : Mods) : List Byte :=
  if m = {} then csi [letter] else csi [49, 59, m.digit, letter]

/-- xterm, keys with a number: `ESC [ number ~`, with modifiers `ESC [ number ; digit ~`. -/
def numberKey (n : Nat) (m : Mods) : List Byte :=
  if m = {} then csi (Input.decimal n ++ [126]) else csi (Input.decimal n ++ [59, m.digit, 126])

/-- The letters of the arrow keys, of home and end. -/
def letters : List (Byte × String) :=
  [(65, "up"), (66, "down"), (67, "right"), (68, "left"), (72, "home"), (70, "end")]

/-- The numbers of the function keys: the gaps come from the keyboard of the VT220. -/
def functionNumber (f : Nat) : Nat :=
  f + if f ≤ 5 then 10 else if f ≤ 10 then 11 else if f ≤ 14 then 12 else if f ≤ 16 then 13 else 14

/-- The name of a function key. -/
def functionName (f : Nat) : String := "f" ++ toString f

/-- What a terminal sends for each key with each choice of modifiers that the library is to know, and
how it is called. -/
def xterm : List (List Byte × List Rune) :=
  -- arrow keys, home and end with all modifiers
  (letters.flatMap fun l => Mods.all.map fun m => (letterKey l.1 m, called m l.2)) ++
  -- page up and page down with alt and ctrl
  ([(5, "pgup"), (6, "pgdown")].flatMap fun l =>
    [{}, { alt := true }, { ctrl := true }, { alt := true, ctrl := true }].map fun m =>
      (numberKey l.1 m, called m l.2)) ++
  -- delete alone and with alt, insert alone; home and end have numbers, too
  [(numberKey 3 {}, called {} "delete"), (numberKey 3 { alt := true }, called { alt := true } "delete"),
   (numberKey 2 {}, called {} "insert"), (numberKey 1 {}, called {} "home"),
   (numberKey 4 {}, called {} "end"), (csi [90], called { shift := true } "tab")] ++
  -- F1 to F4: `ESC O P` to `ESC O S`, with alt a letter key
  ((List.range 4).flatMap fun i =>
    [([27, 79, 80 + i], called {} (functionName (i + 1))),
     (letterKey (80 + i) { alt := true }, called { alt := true } (functionName (i + 1)))]) ++
  -- function keys by their numbers; F5 to F16 with alt
  ((List.range 20).map fun i => (numberKey (functionNumber (i + 1)) {}, called {} (functionName (i + 1)))) ++
  (((List.range 16).drop 4).map fun i =>
    (numberKey (functionNumber (i + 1)) { alt := true }, called { alt := true } (functionName (i + 1)))) ++
  -- shift adds twelve to F1 to F8
  ((List.range 4).map fun i =>
    (letterKey (80 + i) { shift := true }, called {} (functionName (i + 13)))) ++
  (((List.range 8).drop 4).map fun i =>
    (numberKey (functionNumber (i + 1)) { shift := true }, called {} (functionName (i + 13))))

/-- What rxvt sends otherwise: small letters for arrows with shift, home and end as 7 and 8, the last
character `$` for shift, `^` for ctrl and `@` for both. -/
def rxvt : List (List Byte × List Rune) :=
  [(csi [97], called { shift := true } "up"), (csi [98], called { shift := true } "down"),
   (csi [99], called { shift := true } "right"), (csi [100], called { shift := true } "left")] ++
  ([(55, "home"), (56, "end")].flatMap fun l =>
    [(csi [l.1, 126], called {} l.2), (csi [l.1, 36], called { shift := true } l.2),
     (csi [l.1, 94], called { ctrl := true } l.2), (csi [l.1, 64], called { ctrl := true, shift := true } l.2)]) ++
  [(csi [53, 94], called { ctrl := true } "pgup"), (csi [54, 94], called { ctrl := true } "pgdown")]

/-- What the Linux console sends for F1 to F5. -/
def console : List (List Byte × List Rune) :=
  (List.range 5).map fun i => (csi [91, 65 + i], called {} (functionName (i + 1)))

/-- Arrow keys of a keypad in application mode: `ESC O A` to `ESC O D`. -/
def keypad : List (List Byte × List Rune) :=
  (letters.take 4).map fun l => ([27, 79, l.1], called {} l.2)

/-- What all these terminals send. -/
def sent : List (List Byte × List Rune) := xterm ++ rxvt ++ console ++ keypad

/-- Sequences the library knows that none of these terminals sends for the key it takes them for. -/
def odd : List (List Byte × List Rune) :=
  [(csi [79, 65], called { shift := true } "up"), (csi [79, 66], called { shift := true } "down"),
   (csi [79, 67], called { shift := true } "right"), (csi [79, 68], called { shift := true } "left"),
   (csi [79, 97], called { alt := true, ctrl := true } "up"),
   (csi [79, 98], called { alt := true, ctrl := true } "down"),
   (csi [79, 99], called { alt := true, ctrl := true } "right"),
   (csi [79, 100], called { alt := true, ctrl := true } "left"),
   (csi [51, 59, 50, 126], called { alt := true } "insert")]

/-- A control character, typed as the key with ctrl: `ctrl+a` is 1, `ctrl+z` 26, and so on; some of
them are keys of their own. -/
def controlName (c : Byte) : List Rune :=
  if c = 9 then called {} "tab" else if c = 13 then called {} "enter" else if c = 27 then called {} "esc"
  else if c = 127 then called {} "backspace"
  else called { ctrl := true } "" ++ [if 1 ≤ c ∧ c ≤ 26 then 96 + c else 64 + c]

/-! ### Mouse buttons -/

/-- The buttons in the reports of xterm. -/
def buttons : List (Nat × String) :=
  [(0, "left"), (1, "middle"), (2, "right"), (64, "wheel up"), (65, "wheel down"), (66, "wheel left"),
   (67, "wheel right"), (128, "backward"), (129, "forward"), (130, "button 10"), (131, "button 11")]

/-- How mouse modifiers are called: here control comes first. -/
def mouseMods (m : Mods) : String :=
  (if m.ctrl then "ctrl+" else "") ++ (if m.alt then "alt+" else "") ++ (if m.shift then "shift+" else "")

/-- The modifiers in the code of a report: 4 for shift, 8 for alt (xterm calls it meta), 16 for ctrl. -/
def Mods.bits (m : Mods) : Nat :=
  (if m.shift then 4 else 0) + (if m.alt then 8 else 0) + (if m.ctrl then 16 else 0)

/-- An SGR report. -/
def sgr (code x y : Nat) (last : Byte) : List Byte :=
  [27, 91, 60] ++ Input.decimal code ++ [59] ++ Input.decimal x ++ [59] ++ Input.decimal y ++ [last]

end Bento.Keys
