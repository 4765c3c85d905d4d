import Verif.Model.Geometry

/-!
# Raw mode (`/repo/terminal_backend_unix.go`, `/repo/terminal_backend.go`)

The settings of a terminal device are of any type; `term.MakeRaw` returns the settings it found and changes the
device, `term.Restore` sets settings. Both can fail, and then change nothing. Only the input is modelled: on Unix
nothing ever sets `prevOutputState`.
-/

namespace Bento.RawMode

/-- The device, and `prevInputState` of `DefaultBackend` (`/repo/terminal_backend.go:46-53`). -/
structure State (α : Type) where
  settings : α
  prev : Option α
  deriving DecidableEq, Repr

/-- A call, with whether the device accepts the new settings. -/
inductive Call where
  | enable (ok : Bool)
  | disable (ok : Bool)
  deriving DecidableEq, Repr

/-- What `term.IsTerminal` and `term.File` say about the input, and what raw mode is. -/
structure Input (α : Type) where
  isFile : Bool
  isTerminal : Bool
  raw : α → α

/-- `/repo/terminal_backend_unix.go:9-20` — `EnableRawMode`. The second result tells whether it succeeds. -/
def enable {α : Type} (i : Input α) (s : State α) (ok : Bool) : State α × Bool :=
  if i.isFile && i.isTerminal then
    if ok then (⟨i.raw s.settings, some s.settings⟩, true) else (s, false)
  else (s, true)

/-- `/repo/terminal_backend.go:85-105`, `291-298` — `DisableRawMode`. -/
def disable {α : Type} (i : Input α) (s : State α) (ok : Bool) : State α × Bool :=
  match s.prev with
  | none => (s, true)
  | some p => if i.isFile then (if ok then ({ s with settings := p }, true) else (s, false)) else (s, true)

/-- A call. -/
def call {α : Type} (i : Input α) (s : State α) : Call → State α × Bool
  | .enable ok => enable i s ok
  | .disable ok => disable i s ok

/-- Calls, one after the other. -/
def calls {α : Type} (i : Input α) (s : State α) : List (Call) → State α
  | [] => s
  | c :: cs => calls i (call i s c).1 cs

end Bento.RawMode
