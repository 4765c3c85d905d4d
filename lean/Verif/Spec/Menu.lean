import Verif.Spec.Gestures
import Verif.Spec.ListWidget
import Verif.Spec.Palette

/-!
# Moving about in a list with the keyboard
-/

namespace Bento

open Input ListWidget

/-- What a gesture means to a list. -/
def Input.Gesture.move : Gesture → Option Move
  | .char r =>
    if r = 'j'.toNat then some .next else if r = 'k'.toNat then some .previous
    else if r = 'g'.toNat then some .first else if r = 'G'.toNat then some .last else none
  | .key _ k =>
    if k.alt = true then none
    else if k.type = keyDown then some .next else if k.type = keyUp then some .previous
    else if k.type = 4 then some (.down 8) else if k.type = 21 then some (.up 8) else none
  | _ => none

/-- What is read at once while somebody moves about in a list: no two characters come together, unless one of them is
a space, and the buffer is not filled. -/
structure MenuRead (gs : List Gesture) : Prop where
  valid : ∀ g ∈ gs, g.Valid
  together : Together gs
  room : (gs.flatMap Gesture.bytes).length ≠ 256
  alone : ∀ before r r' after, gs = before ++ .char r :: .char r' :: after → r = 32 ∨ r' = 32

/-- The program passes on every key message to the state of its list, and nothing else. -/
def ListWidget.handle (s : ListWidget.State) : Msg → ListWidget.State
  | .key k => (State.update k s).1
  | _ => s

/-- After every message the list is drawn, to any area that leaves room for its items, in any buffer. -/
inductive ListWidget.Handled (u : Uniseg) (l : ListWidget) : List Msg → ListWidget.State → ListWidget.State → Prop
  | done (s : ListWidget.State) : Handled u l [] s s
  | message {m ms s s' s''} (area : Rect) (b b' : Buffer) (ha : (content l area).isEmpty = false)
      (hd : render u l area b (handle s m) = some (b', s')) (h : Handled u l ms s' s'') : Handled u l (m :: ms) s s''

/-- A state in which the selection, if there is one, is an item of the list. -/
structure ListWidget.State.Within (l : ListWidget) (s : ListWidget.State) : Prop where
  offset : 0 ≤ s.offset
  selected : ∀ i ∈ s.selected, 0 ≤ i ∧ i < l.items.length

end Bento
