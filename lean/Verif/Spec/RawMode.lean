import Verif.Model.RawMode

/-!
# When raw mode is on

Whether raw mode is on after some calls, and what it means that it is never enabled while it is on.
-/

namespace Bento.RawMode

/-- Whether raw mode is on after the calls, if `on` tells whether it was on before. -/
def onAfter (on : Bool) : List Call → Bool
  | [] => on
  | .enable ok :: cs => onAfter (on || ok) cs
  | .disable ok :: cs => onAfter (on && !ok) cs

/-- Raw mode is never enabled while it is on. -/
def NeverTwice (on : Bool) : List Call → Prop
  | [] => True
  | .enable ok :: cs => on = false ∧ NeverTwice (on || ok) cs
  | .disable ok :: cs => NeverTwice (on && !ok) cs

end Bento.RawMode
