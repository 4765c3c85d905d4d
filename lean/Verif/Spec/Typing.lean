import Verif.Spec.Gestures
import Verif.Spec.InputField
import Verif.Spec.Palette
import Verif.Props.InputRow

/-!
# Typing into an input field
-/

namespace Bento

open Input InputField

/-- The text of a code point. -/
def runeText (r : Rune) : String := String.ofList [Char.ofNat r]

/-- What a gesture means to a text field; `none` for Ctrl+W. -/
def Input.Gesture.edit : Gesture → Option Edit
  | .char r => some (.type (runeText r))
  | .alt r => some (.type (runeText r))
  | .key _ k => keyEdit k
  | .escape => some .nothing
  | .mouse _ => some .nothing
  | .paste t => some (.type (String.join (t.map runeText)))

/-- The characters of a gesture are all in `S`. -/
def Input.Gesture.Made (S : String → Prop) : Gesture → Prop
  | .char r => S (runeText r)
  | .alt r => S (runeText r)
  | .key _ k => ∀ r ∈ k.runes, S (runeText r)
  | .paste t => ∀ r ∈ t, S (runeText r)
  | _ => True

/-- Gestures that are read together, with characters from `S` and without Ctrl+W. -/
structure TypedTogether (S : String → Prop) (gs : List Gesture) : Prop where
  valid : ∀ g ∈ gs, g.Valid
  together : Together gs
  made : ∀ g ∈ gs, g.Made S
  edits : ∀ g ∈ gs, g.edit ≠ none

/-- The program passes on every key message to the state of its input field, and nothing else. -/
def InputField.handle (u : Uniseg) (s : State) : Msg → Option State
  | .key k => (s.update u k).map (·.1)
  | _ => some s

/-- What the program does with the bytes that arrive in some reads. -/
def InputField.handleReads (u : Uniseg) (reads : List (List Gesture)) (s : State) : Option State :=
  ((readAll [] (reads.map fun gs => gs.flatMap Gesture.bytes)).1.map Prod.snd).foldlM (handle u) s

/-- What the row of a text field shows, apart from its alignment: the prompt and the text, or else the placeholder;
a blank for the cursor if there is nothing at it. -/
def InputField.fieldText (u : Uniseg) (i : InputField.Widget) (showCursor : Bool) (e : Editor) : List String :=
  u.graphemes i.prompt ++
  if e.before ++ e.after = [] then
    if i.placeholder = [] then (if showCursor then [" "] else []) else i.placeholder.map Grapheme.symbol
  else e.before ++ e.after ++ if e.after = [] ∧ showCursor = true then [" "] else []

/-- What the row of a text field shows, each symbol with its style: the prompt in its style; then the text, in which the
symbol at the cursor, or the blank behind the text, has the style of the cursor; or else the placeholder in its style, the
first symbol with the style of the cursor over it. -/
def InputField.styledText (u : Uniseg) (i : InputField.Widget) (showCursor : Bool) (e : Editor) : List (String × Style) :=
  let cursor (style : Style) : Style := if showCursor then style.patched i.cursorStyle else style
  let plain (c : String) : String × Style := (c, Style.new)
  (u.graphemes i.prompt).map (fun c => (c, i.promptStyle)) ++
  if e.before ++ e.after = [] then
    match i.placeholder.map Grapheme.symbol with
    | [] => if showCursor then [(" ", cursor Style.new)] else []
    | c :: rest => (c, cursor i.placeholderStyle) :: rest.map fun c => (c, i.placeholderStyle)
  else e.before.map plain ++
    match e.after with
    | [] => if showCursor then [(" ", cursor Style.new)] else []
    | c :: rest => (c, cursor Style.new) :: rest.map plain

/-- A place for a text field: one row at least, not above or to the left of the origin. -/
structure InputField.Placed (i : InputField.Widget) (area : Rect) : Prop where
  vertical : i.vertical ≠ .spaceAround
  left : 0 ≤ area.x
  top : 0 ≤ (content i area).y
  padding : ∀ k ∈ i.block, 0 ≤ k.padding.left ∧ 0 ≤ k.padding.right ∧ 0 ≤ k.padding.top ∧ 0 ≤ k.padding.bottom
  row : 1 ≤ (content i area).height

/-- Room for the prompt, the text and the cursor behind it. -/
def InputField.Room (u : Uniseg) (i : InputField.Widget) (area : Rect) (e : Editor) : Prop :=
  (u.stringWidth i.prompt : Int) + (e.before ++ e.after).length + 1 ≤ (content i area).width

/-- Typing into a text field and drawing it where it has room, in any order. -/
inductive TypingSession (u : Uniseg) (S : String → Prop) : State → Editor → Prop
  | start (showCursor : Bool) : TypingSession u S { State.new with showCursor := showCursor } ⟨[], []⟩
  /-- some reads, the last one not filling the buffer -/
  | read {s e} (h : TypingSession u S s e) (reads : List (List Gesture)) (hr : ∀ gs ∈ reads, TypedTogether S gs)
      (hlast : ∀ gs, reads.getLast? = some gs → (gs.flatMap Gesture.bytes).length ≠ 256)
      (s' : State) (hs : handleReads u reads s = some s') :
      TypingSession u S s' ((reads.flatten.filterMap Gesture.edit).foldl (Editor.step u) e)
  /-- the field is drawn -/
  | draw {s e} (h : TypingSession u S s e) (i : InputField.Widget) (area : Rect) (hp : Placed i area)
      (hroom : Room u i area e) (ω : Nat → Nat) (fuel : Nat) (b b' : Buffer) (s' : State)
      (hd : i.render ω fuel u area b s = some (b', s')) : TypingSession u S s' e

end Bento
