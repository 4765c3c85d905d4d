import Verif.Model.InputField
import Verif.Spec.Text

/-!
# What a text input is: a list of clusters with a cursor
-/

namespace Bento

namespace InputField

/-- An editor: the clusters before the cursor and those after it. -/
structure Editor where
  before : List String
  after : List String
  deriving DecidableEq, Repr

/-- What a user can do with it. -/
inductive Edit
  | type (s : String)
  | left
  | right
  | home
  | fin
  | backspace
  | clear
  | nothing
  deriving DecidableEq, Repr

/-- The effect of an edit. -/
def Editor.step (u : Uniseg) (e : Editor) : Edit → Editor
  | .type s => ⟨e.before ++ u.graphemes s, e.after⟩
  | .left =>
    match e.before.getLast? with
    | none => e
    | some c => ⟨e.before.dropLast, c :: e.after⟩
  | .right =>
    match e.after with
    | [] => e
    | c :: rest => ⟨e.before ++ [c], rest⟩
  | .home => ⟨[], e.before ++ e.after⟩
  | .fin => ⟨e.before ++ e.after, []⟩
  | .backspace => ⟨e.before.dropLast, e.after⟩
  | .clear => ⟨[], []⟩
  | .nothing => e

/-- The state stands for the editor. -/
def State.Shows (s : State) (e : Editor) : Prop :=
  s.graphemes.map Grapheme.symbol = e.before ++ e.after ∧ s.cursor = e.before.length

/-- The text a key types: its code points, with U+FFFD in place of what is none (a surrogate, or a number
that is too large). -/
def keyText (k : Key) : String :=
  String.ofList (k.runes.map fun r =>
    if r < 0xD800 ∨ (0xDFFF < r ∧ r < 0x110000) then Char.ofNat r else '\uFFFD')

/-- What a key means to an editor; `none` for Ctrl+W, which deletes a word. -/
def keyEdit (k : Key) : Option Edit :=
  if k.type = 23 then none
  else some (
    if k.type = -5 then .left
    else if k.type = -4 then .right
    else if k.type = 1 then .home
    else if k.type = 5 then .fin
    else if k.type = 127 ∨ k.type = -13 then .backspace
    else if k.type = -1 ∨ k.type = -15 then .type (keyText k)
    else .nothing)

/-- What is left of the text before the cursor after its last word, and the blanks behind it, have been
deleted. -/
def withoutWord (before : List Grapheme) : List Grapheme :=
  ((before.reverse.dropWhile Grapheme.isWhitespace).dropWhile fun g => !g.isWhitespace).reverse

/-- The columns of the graphemes from index `i` up to index `j`. -/
def columnsOf (gs : List Grapheme) (i j : Nat) : Int :=
  (((gs.take j).drop i).map fun g => (g.width : Int)).sum

/-- The width of some graphemes. -/
def widthOf (gs : List Grapheme) : Int := (gs.map fun g => (g.width : Int)).sum

/-- The prompt. -/
def Widget.promptSpan (i : Widget) : Span := if i.prompt = "" then ⟨Style.new, ""⟩ else ⟨i.promptStyle, i.prompt⟩

/-- The line that shows a part of the text: the prompt, what is before the cursor, the symbol at the cursor
(a space at the end of the text) in the cursor's style and what follows it. -/
def Widget.textLine (i : Widget) (showCursor : Bool) (before after : List Grapheme) : Line :=
  let symbol := (after.head?.map Grapheme.symbol).getD (if showCursor then " " else "")
  let style := if showCursor then Style.new.patched i.cursorStyle else Style.new
  ⟨Style.new, [i.promptSpan, ⟨Style.new, graphemesString before⟩, ⟨style, symbol⟩,
    ⟨Style.new, graphemesString after.tail⟩], i.alignment⟩

/-- What a line for a row of the given width has to be: it shows a part of the text around the cursor that
leaves room for the prompt and the cursor; if there is something before the cursor, some of it is in the
part. The text and the cursor stay, the offset is where the part begins. -/
def Widget.Window (u : Uniseg) (i : Widget) (width : Int) (s : State) (l : Line) (s' : State) : Prop :=
  ∃ pre before after post : List Grapheme,
    s.graphemes = pre ++ before ++ after ++ post ∧ s.cursor = (pre ++ before).length ∧
    (0 < s.cursor → before ≠ []) ∧ widthOf (before ++ after) + u.stringWidth i.prompt + 1 ≤ width ∧
    s' = { s with offset := pre.length } ∧
    (s.graphemes ≠ [] → (∀ g ∈ s.graphemes, g.symbol ≠ "") → l = i.textLine s.showCursor before after)

/-- Graphemes that stay apart when they are joined: typed one after another, clusters can merge (a letter
and a combining accent). -/
def Separate (u : Uniseg) (gs : List Grapheme) : Prop :=
  ∀ part, part <:+: gs → u.graphemes (graphemesString part) = part.map Grapheme.symbol

/-- The symbol at the cursor. -/
def cursorText (showCursor : Bool) (after : List Grapheme) : List String :=
  match after.head? with
  | some g => [g.symbol]
  | none => if showCursor then [" "] else []

end InputField

end Bento
