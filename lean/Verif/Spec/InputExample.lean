import Verif.Model.InputExample
import Verif.Spec.Typing

/-!
# What the example program with an input field shows

The picture that `examples/input` shows. Nothing here uses the functions that draw.
-/

namespace Bento.InputExample

open Input InputField

/-- The symbols of the program: the printable characters of ASCII, the lines of its frame and the background. -/
def Symbols (s : String) : Prop :=
  (∃ c : Char, 32 ≤ c.toNat ∧ c.toNat < 127 ∧ s = String.ofList [c]) ∨ s ∈ ["┏", "┓", "┗", "┛", "━", "┃", "╲"]

/-- The place of the popup: three rows in the middle, and three fifths of the columns, from the first fifth to the fourth,
both rounded. -/
def popupArea (area : Rect) : Rect :=
  ⟨area.x + (area.width + 2) / 5, area.y + (area.height - 2) / 2, (4 * area.width + 2) / 5 - (area.width + 2) / 5, 3⟩

/-- The place of the field, inside of the frame of the popup. -/
def fieldArea (area : Rect) : Rect :=
  ⟨(popupArea area).x + 1, (popupArea area).y + 1, (popupArea area).width - 2, 1⟩

/-- The field: the prompt and the text with a reversed cursor, or the placeholder, dim and italic, its first character
reversed. -/
def fieldCells (e : Editor) : List (String × Modifier) :=
  [(">", 0), (" ", 0)] ++
  if e.before ++ e.after = [] then
    ("P", Modifier.dim ||| Modifier.italic ||| Modifier.reversed) ::
      "laceholder...".toList.map fun c => (String.ofList [c], Modifier.dim ||| Modifier.italic)
  else e.before.map (fun c => (c, 0)) ++ (e.after.headD " ", Modifier.reversed) :: e.after.tail.map fun c => (c, 0)

/-- Column `i` of row `j` of the popup of `w` columns: a thick frame with the title, and the field inside of it. -/
def popupCell (e : Editor) (w i j : Int) : String × Modifier :=
  if i = 0 then (if j = 0 then "┏" else if j = 1 then "┃" else "┗", 0)
  else if i = w - 1 then (if j = 0 then "┓" else if j = 1 then "┃" else "┛", 0)
  else if j = 0 then ((("Input".toList[(i - 1).toNat]?).map fun c => String.ofList [c]).getD "━", 0)
  else if j = 1 then ((fieldCells e)[(i - 1).toNat]?).getD (" ", 0)
  else ("━", 0)

/-- The cells of the program: the popup, and the background around it. There are no colours. -/
def pictureCell (e : Editor) (area : Rect) (q : Position) : Cell :=
  let r := popupArea area
  let c := if r.contains q = true then popupCell e r.width (q.x - r.x) (q.y - r.y) else ("╲", Modifier.dim)
  ⟨c.1, .reset, .reset, c.2, false⟩

/-- Room for the program: three rows, and columns for the frame, the prompt, the text and the cursor behind it. -/
structure Roomy (e : Editor) (area : Rect) : Prop where
  left : 0 ≤ area.x
  top : 0 ≤ area.y
  rows : 3 ≤ area.height
  columns : ((e.before ++ e.after).length : Int) + 5 ≤ (popupArea area).width

/-- What the program does with the messages that arrive. -/
def handleAll (u : Uniseg) (msgs : List Msg) (s : State) : Option State :=
  msgs.foldlM (fun s m => (update u s (.user m)).map Prod.fst) s

/-- What the program does with the bytes that arrive in some reads. -/
def handleReads (u : Uniseg) (reads : List (List Gesture)) (s : State) : Option State :=
  handleAll u ((readAll [] (reads.map fun gs => gs.flatMap Gesture.bytes)).1.map Prod.snd) s

/-- The program runs: something is typed, clicked or pasted, and the program is drawn where it has room. The editor is
what a plain editor would hold. -/
inductive Session (u : Uniseg) (S : String → Prop) : State → Editor → Prop
  | start : Session u S State.new ⟨[], []⟩
  /-- some reads, the last one not filling the buffer -/
  | read {s e} (h : Session u S s e) (reads : List (List Gesture)) (hr : ∀ gs ∈ reads, TypedTogether S gs)
      (hlast : ∀ gs, reads.getLast? = some gs → (gs.flatMap Gesture.bytes).length ≠ 256)
      (s' : State) (hs : handleReads u reads s = some s') :
      Session u S s' ((reads.flatten.filterMap Gesture.edit).foldl (Editor.step u) e)
  /-- the program is drawn -/
  | draw {s e} (h : Session u S s e) (area : Rect) (hroom : Roomy e area) (ω : Nat → Nat → Nat) (fuel : Nat)
      (b b' : Buffer) (s' : State) (hd : render ω fuel u s area b = some (b', s')) : Session u S s' e

/-- A solver that has not come to an end: one of those of the two places of the popup and of the row of the field. -/
def Running (ω : Nat → Nat → Nat) (fuel : Nat) (area : Rect) : Prop :=
  popup.place (ω 0) (ω 1) fuel area = .running ∨ popup.place (ω 2) (ω 3) fuel area = .running ∨
  Layout.splitWithSpacers (ω 4) fuel (lineLayout .legacy) (fieldArea area) = .running

end Bento.InputExample
