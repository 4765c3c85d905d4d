import Verif.Spec.Input

/-!
# What a person does at the terminal, and what the terminal sends for it
-/

namespace Bento.Input

/-- Something done at the terminal. -/
inductive Gesture
  /-- a character is typed -/
  | char (r : Rune)
  /-- a character is typed with Alt held down -/
  | alt (r : Rune)
  /-- a key is pressed for which the terminal sends the sequence `s` -/
  | key (s : List Byte) (k : Key)
  /-- the escape key -/
  | escape
  /-- the mouse is used -/
  | mouse (m : MouseEvent)
  /-- text is pasted -/
  | paste (t : List Rune)

namespace Gesture

/-- What the terminal sends. -/
def bytes : Gesture → List Byte
  | char r => encodeRune r
  | alt r => 27 :: encodeRune r
  | key s _ => s
  | escape => [27]
  | mouse m => sgrReport m
  | paste t => [27, 91, 50, 48, 48, 126] ++ encodeText t ++ [27, 91, 50, 48, 49, 126]

/-- The message the program should get. -/
def msg : Gesture → Msg
  | char r => .key ⟨if r = 32 then keySpace else keyRunes, [r], false, false⟩
  | alt r => .key ⟨keyRunes, [r], true, false⟩
  | key _ k => .key k
  | escape => .key ⟨27, [], false, false⟩
  | mouse m => .mouse m
  | paste t => .key ⟨keyRunes, t, false, true⟩

/-- What can be done: printable characters; with Alt, none of space (a key of its own), `[` and `O`, which begin the
sequences of other keys; keys whose sequences are known, but for Alt with escape; mouse events that have a report;
pasted text without the mark that ends it. -/
def Valid : Gesture → Prop
  | char r => Printable r
  | alt r => Printable r ∧ r ≠ 32 ∧ r ≠ 91 ∧ r ≠ 79
  | key s k => Known s k ∧ s ≠ [27, 27]
  | escape => True
  | mouse m => SGREvent m
  | paste t => (∀ r ∈ t, Scalar r ∧ r ≠ 0xFFFD) ∧ ¬ [27, 91, 50, 48, 49, 126] <:+: encodeText t

end Gesture

/-- A message in pieces: several characters typed in a row may come as one message. -/
def Msg.pieces : Msg → List Msg
  | .key k =>
    if k.type = keyRunes ∧ k.alt = false ∧ k.paste = false then k.runes.map fun r => .key ⟨keyRunes, [r], false, false⟩
    else [.key k]
  | m => [m]

/-- What is read at once: an escape comes last in it, and it does not fill the buffer then. -/
def Together (gs : List Gesture) : Prop :=
  ∀ before after, gs = before ++ .escape :: after → after = [] ∧ (gs.flatMap Gesture.bytes).length ≠ 256

end Bento.Input
