import Verif.Lemmas.Buffer
import Verif.Model.Popup

/-!
# Drawing side by side
-/

namespace Bento

/-- Drawing that treats every cell by itself: whether it panics does not depend on what the buffer shows, and what
it leaves in a cell depends only on what was in this cell. -/
def Cellwise (f : Buffer → Option Buffer) : Prop :=
  ∀ b c : Buffer, b.WF → c.WF → b.area = c.area →
    (f b = none ∧ f c = none) ∨
    ∃ b' c', f b = some b' ∧ f c = some c' ∧ b'.WF ∧ c'.WF ∧ b'.area = b.area ∧ c'.area = c.area ∧
      ∀ q, b.cellAt q = c.cellAt q → b'.cellAt q = c'.cellAt q

/-- Drawing that changes no cell outside of an area of a buffer. -/
def Within (window area : Rect) (f : Buffer → Option Buffer) : Prop :=
  ∀ b b' : Buffer, b.WF → b.area = window → f b = some b' → ∀ q, area.contains q = false → b'.cellAt q = b.cellAt q

/-- No cell belongs to both. -/
def Rect.Apart (r s : Rect) : Prop := ∀ q, r.contains q = true → s.contains q = false

/-- The buffer, if something that needs a layout has come to an end without a panic. -/
def Popup.Result.value {α : Type} : Popup.Result α → Option α
  | .ok a => some a
  | _ => none

/-- Drawing one thing after the other. -/
def drawAll (fs : List (Buffer → Option Buffer)) (b : Buffer) : Option Buffer := fs.foldlM (fun b f => f b) b

end Bento
