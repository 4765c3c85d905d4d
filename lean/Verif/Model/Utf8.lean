/-!
# UTF-8

Bytes and code points are natural numbers. Values of 256 and more do not occur in the program; the
theorems hold for them anyway.
-/

namespace Bento

/-- A byte, a natural number. (A macro, so that arithmetic sees the type.) -/
macro "Byte" : term => `(Nat)

/-- A code point, a natural number. -/
macro "Rune" : term => `(Nat)

namespace Utf8

/-- `utf8.RuneError`, returned by the Go standard library for invalid encodings. -/
def runeError : Rune := 0xFFFD

/-- A continuation byte in a given range. -/
def cont (lo hi b : Byte) : Bool := decide (lo ≤ b) && decide (b ≤ hi)

/-- The range of the second byte for a given first byte (Go's `acceptRanges`). -/
def second (b0 : Byte) : Byte × Byte :=
  if b0 = 0xE0 then (0xA0, 0xBF)
  else if b0 = 0xED then (0x80, 0x9F)
  else if b0 = 0xF0 then (0x90, 0xBF)
  else if b0 = 0xF4 then (0x80, 0x8F)
  else (0x80, 0xBF)

/-- `utf8.DecodeRune` of the Go standard library, used in `/repo/input.go:675,764`: the first code
point and its width, or `(RuneError, 1)` for an invalid encoding, or `(RuneError, 0)` for no bytes. -/
def decodeRune : List Byte → Rune × Nat
  | [] => (runeError, 0)
  | b0 :: rest =>
    if b0 < 0x80 then (b0, 1)
    else if 0xC2 ≤ b0 ∧ b0 ≤ 0xDF then
      match rest with
      | b1 :: _ => if cont 0x80 0xBF b1 then ((b0 - 0xC0) * 64 + (b1 - 0x80), 2) else (runeError, 1)
      | _ => (runeError, 1)
    else if 0xE0 ≤ b0 ∧ b0 ≤ 0xEF then
      match rest with
      | b1 :: b2 :: _ =>
        if cont (second b0).1 (second b0).2 b1 && cont 0x80 0xBF b2 then
          ((b0 - 0xE0) * 4096 + (b1 - 0x80) * 64 + (b2 - 0x80), 3)
        else (runeError, 1)
      | _ => (runeError, 1)
    else if 0xF0 ≤ b0 ∧ b0 ≤ 0xF4 then
      match rest with
      | b1 :: b2 :: b3 :: _ =>
        if cont (second b0).1 (second b0).2 b1 && cont 0x80 0xBF b2 && cont 0x80 0xBF b3 then
          ((b0 - 0xF0) * 262144 + (b1 - 0x80) * 4096 + (b2 - 0x80) * 64 + (b3 - 0x80), 4)
        else (runeError, 1)
      | _ => (runeError, 1)
    else (runeError, 1)

end Utf8

end Bento
