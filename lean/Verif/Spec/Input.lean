import Verif.Model.Input

/-!
# What a terminal sends

Independent of the decoder: the UTF-8 encoding (RFC 3629), decimal numbers, and the mouse reports of
xterm.
-/

namespace Bento.Input

/-- The code points that have a UTF-8 encoding. -/
def Scalar (r : Rune) : Prop := r < 0xD800 ∨ (0xE000 ≤ r ∧ r < 0x110000)

instance (r : Rune) : Decidable (Scalar r) := inferInstanceAs (Decidable (_ ∨ _))

/-- The UTF-8 encoding of a code point. -/
def encodeRune (r : Rune) : List Byte :=
  if r < 0x80 then [r]
  else if r < 0x800 then [0xC0 + r / 64, 0x80 + r % 64]
  else if r < 0x10000 then [0xE0 + r / 4096, 0x80 + r / 64 % 64, 0x80 + r % 64]
  else [0xF0 + r / 262144, 0x80 + r / 4096 % 64, 0x80 + r / 64 % 64, 0x80 + r % 64]

/-- The UTF-8 encoding of a text. -/
def encodeText (t : List Rune) : List Byte := t.flatMap encodeRune

/-- Printable characters: no C0 control characters, no DEL, and not the replacement character that
stands for invalid input. -/
def Printable (r : Rune) : Prop := Scalar r ∧ 32 ≤ r ∧ r ≠ 127 ∧ r ≠ 0xFFFD

instance (r : Rune) : Decidable (Printable r) := inferInstanceAs (Decidable (_ ∧ _))

/-- The text carried by a message. -/
def Msg.text : Msg → List Rune
  | .key k => k.runes
  | _ => []

/-- A number in decimal. -/
def decimal (n : Nat) : List Byte :=
  if n < 10 then [48 + n] else decimal (n / 10) ++ [48 + n % 10]
termination_by n
decreasing_by omega

/-- The button part of the code of a mouse report: 0–2 the main buttons, 3 none, 64–67 the wheel,
128–131 further buttons. -/
def buttonCode (button : Nat) : Nat :=
  if button = 0 then 3 else if button < 4 then button - 1 else if button < 8 then 64 + (button - 4)
  else 128 + (button - 8)

/-- The code of a mouse report: button, 4 for shift, 8 for alt, 16 for control, 32 for motion. -/
def reportCode (m : MouseEvent) : Nat :=
  buttonCode m.button + (if m.shift then 4 else 0) + (if m.alt then 8 else 0) +
    (if m.ctrl then 16 else 0) + (if m.action = .motion then 32 else 0)

/-- The SGR report of a mouse event: `ESC [ < code ; x ; y M`, with `m` for the release of a
button, positions counted from 1. -/
def sgrReport (m : MouseEvent) : List Byte :=
  [27, 91, 60] ++ decimal (reportCode m) ++ [59] ++ decimal (m.x + 1).toNat ++ [59] ++
    decimal (m.y + 1).toNat ++ [if m.action = .release then 109 else 77]

/-- The events an SGR report can tell: wheel buttons are only pressed; without a button there is
only motion; positions are not negative. -/
def SGREvent (m : MouseEvent) : Prop :=
  m.button ≤ 11 ∧ (m.button = 0 → m.action = .motion) ∧
  (4 ≤ m.button ∧ m.button ≤ 7 → m.action = .press) ∧
  0 ≤ m.x ∧ 0 ≤ m.y ∧ m.x < 2 ^ 63 - 1 ∧ m.y < 2 ^ 63 - 1

/-- The X10 report of a mouse event: `ESC [ M`, then code, x and y as bytes, 32 added, positions
counted from 1. -/
def x10Report (m : MouseEvent) : List Byte :=
  [27, 91, 77, 32 + reportCode m, 32 + (m.x + 1).toNat, 32 + (m.y + 1).toNat]

/-- The events an X10 report can tell: a release does not say of which button; positions are at most
222. -/
def X10Event (m : MouseEvent) : Prop :=
  m.button ≤ 11 ∧ (m.button = 0 → m.action ≠ .press) ∧
  (4 ≤ m.button ∧ m.button ≤ 7 → m.action = .press) ∧
  (m.action = .release → m.button = 0) ∧
  0 ≤ m.x ∧ 0 ≤ m.y ∧ m.x ≤ 222 ∧ m.y ≤ 222

end Bento.Input

namespace Bento.Input

/-- The key sequences a terminal may send: those of the table in the source, control characters,
space, double escape, and each of them after an escape, which means Alt. -/
inductive Known : List Byte → Key → Prop
  | seq {s k} : (s, k) ∈ sequences → Known s k
  | control {c : Nat} : 1 ≤ c ∧ c ≤ 31 ∨ c = 127 → c ≠ 27 → Known [c] ⟨c, [], false, false⟩
  | space : Known [32] ⟨keySpace, [32], false, false⟩
  | alt {s k} : Known s k → k.alt = false → Known (27 :: s) { k with alt := true }
  | escape : Known [27, 27] ⟨27, [], true, false⟩

/-- The valid characters of a byte string: encodings are read, a byte where no encoding starts is
skipped, and so is the replacement character. -/
inductive ValidRunes : List Byte → List Rune → Prop
  | nil : ValidRunes [] []
  | char {r rest rs} : Scalar r → r ≠ 0xFFFD → ValidRunes rest rs →
      ValidRunes (encodeRune r ++ rest) (r :: rs)
  | replacement {rest rs} : ValidRunes rest rs → ValidRunes (encodeRune 0xFFFD ++ rest) rs
  | invalid {b rest rs} : (∀ r, Scalar r → ¬ encodeRune r <+: b :: rest) → ValidRunes rest rs →
      ValidRunes (b :: rest) rs

/-- A paste whose end has not arrived: it begins with `ESC [ 200 ~`, and no `ESC [ 201 ~` follows. -/
def OpenPaste (b : List Byte) : Prop :=
  [27, 91, 50, 48, 48, 126] <+: b ∧ ¬ [27, 91, 50, 48, 49, 126] <:+: b.drop 6

end Bento.Input
