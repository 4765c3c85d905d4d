import Verif.Model.Tabs
import Verif.Model.Terminal

/-!
# Text without control characters
-/

namespace Bento

/-- The control characters of Unicode (category Cc): C0, DEL and C1. Escape sequences begin with one of
them, in seven bits (ESC) or in eight (CSI, OSC, DCS). -/
def Control (c : Char) : Prop := c.val.toNat ≤ 0x1F ∨ (0x7F ≤ c.val.toNat ∧ c.val.toNat ≤ 0x9F)

/-- A text without control characters. -/
def Harmless (s : String) : Prop := ∀ c ∈ s.toList, ¬ Control c

/-- No cell shows a control character. -/
def Buffer.Harmless (b : Buffer) : Prop := ∀ c ∈ b.content, Bento.Harmless c.symbol

/-- Whatever the operation draws, it draws no control characters. -/
def DrawsHarmless (op : Buffer → Option Buffer) : Prop :=
  ∀ b b', b.Harmless → op b = some b' → b'.Harmless

/-- The symbols a block can draw its borders with. -/
def Block.symbols (b : Block) : List String :=
  [b.borderSet.topLeft, b.borderSet.topRight, b.borderSet.bottomLeft, b.borderSet.bottomRight,
    b.borderSet.verticalLeft, b.borderSet.verticalRight, b.borderSet.horizontalTop, b.borderSet.horizontalBottom]

/-- The border symbols, which the program chooses, are not control characters; nothing is asked of the titles. -/
def Block.HarmlessBorders (b : Block) : Prop := ∀ s ∈ b.symbols, Bento.Harmless s

/-- The texts of a tab bar have no control characters. -/
structure Tabs.HarmlessText (t : Tabs) : Prop where
  titles : ∀ l ∈ t.titles, ∀ s ∈ l.spans, Bento.Harmless s.content
  divider : Bento.Harmless t.divider.content
  left : ∀ s ∈ t.paddingLeft.spans, Bento.Harmless s.content
  right : ∀ s ∈ t.paddingRight.spans, Bento.Harmless s.content

/-- Neither of the two buffers of a terminal holds a control character. -/
def Terminal.Harmless (t : Terminal) : Prop := t.cur.Harmless ∧ t.prev.Harmless

/-- What one `Draw` after another, with resizes in between, makes of a new terminal, if the widgets draw no
control characters; writes may fail at any point. -/
inductive Terminal.Session (u : Uniseg) (T : Termenv) : Terminal → Prop
  | new {viewport : Viewport} {w h : Int} {t : Terminal} (e : Terminal.new viewport w h = some t) : Session u T t
  | draw {t t' : Terminal} {w : Widget} {faults : Nat → Option Nat} {out : List Char} {ok : Bool}
      (h : Session u T t) (hw : ∀ r, DrawsHarmless fun b => (w r b).map Prod.fst)
      (e : t.draw u T w faults = some (t', out, ok)) : Session u T t'
  | resize {t t' : Terminal} {area : Rect} {fault : Option Nat} {out : List Char} {ok : Bool}
      (h : Session u T t) (e : t.resize T area fault = some (t', out, ok)) : Session u T t'

instance (c : Char) : Decidable (Control c) := by unfold Control; infer_instance
instance (s : String) : Decidable (Harmless s) := by unfold Harmless; infer_instance
instance (b : Buffer) : Decidable b.Harmless := by unfold Buffer.Harmless; infer_instance
instance (b : Block) : Decidable b.HarmlessBorders := by unfold Block.HarmlessBorders; infer_instance

end Bento
