import Verif.Model.Resize

/-!
# A window that has stopped changing
-/

namespace Bento.Resize

/-- The window does not change. -/
def Still (cs : List Step) : Prop := ∀ w, .window w ∉ cs

/-- Asking for the size does not fail. -/
def Answered (cs : List Step) : Prop := .onceAsks false ∉ cs ∧ .listenerAsks false ∉ cs

/-- The app does nothing more by itself. -/
def Settled (s : State) : Prop := ∀ c, (∀ w, c ≠ .window w) → step s c = none

/-- The app has registered for the signal, and the goroutine that asks once is done. -/
def Listening (s : State) : Prop := s.listener ≠ .fresh ∧ s.once = .finished

end Bento.Resize
