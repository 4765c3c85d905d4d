import Verif.Model.Geometry

/-!
# How an app learns the size of its window (`/repo/app.go`, `/repo/tty.go`, `/repo/signals_unix.go`)

The window, the channel of the signal `SIGWINCH`, the goroutine that asks for the size once, and the goroutine that
asks whenever the signal arrives; on Unix. What else the event loop does is left out (`Model/App.lean`): it takes a
message at some time, and a send and the taking are one step. The context is never done, and `Resize` succeeds.
-/

namespace Bento.Resize

/-- Width and height. -/
abbrev Size := Int × Int

/-- The goroutine that asks for the initial size. -/
inductive Once where
  /-- `/repo/app.go:288` -/
  | fresh
  /-- `/repo/tty.go:107` -/
  | sending (s : Size)
  | finished
  deriving DecidableEq, Repr

/-- The goroutine of `listenForResize`. -/
inductive Listener where
  /-- `/repo/signals_unix.go:15-17`: not yet registered. -/
  | fresh
  /-- `/repo/signals_unix.go:25-29` -/
  | waiting
  /-- `/repo/signals_unix.go:31`, `/repo/tty.go:92` -/
  | checking
  /-- `/repo/tty.go:107` -/
  | sending (s : Size)
  deriving DecidableEq, Repr

structure State where
  /-- The size of the window. -/
  window : Size
  /-- Whether the channel, which holds one signal, holds one (`/repo/signals_unix.go:16`). -/
  signal : Bool
  once : Once
  listener : Listener
  /-- The size of the app's terminal: that of `NewTerminal` or of the last `WindowSizeMsg`. -/
  app : Size
  deriving DecidableEq, Repr

inductive Step where
  /-- Somebody changes the size of the window. -/
  | window (s : Size)
  /-- `signal.Notify`. -/
  | register
  /-- The signal is taken from the channel. -/
  | take
  /-- The size is found, or not. -/
  | onceAsks (ok : Bool)
  | listenerAsks (ok : Bool)
  /-- The event loop takes the message and resizes the terminal. -/
  | onceSends
  | listenerSends
  deriving DecidableEq, Repr

/-- `/repo/app.go:120-149`, `216` — the app starts with the size of the window. -/
def State.start (s : Size) : State := ⟨s, false, .fresh, .fresh, s⟩

/-- `/repo/app.go:284-294`, `314-316`, `/repo/tty.go:92-108`, `/repo/signals_unix.go:15-33` — a step; `none` if it is
not possible. A signal that finds the channel full is dropped, and one for which nobody has registered is, too. -/
def step (s : State) : Step → Option State
  | .window w => some { s with window := w, signal := s.signal || (s.listener != .fresh) }
  | .register => if s.listener = .fresh then some { s with listener := .waiting } else none
  | .take => if s.listener = .waiting ∧ s.signal = true then some { s with listener := .checking, signal := false } else none
  | .onceAsks ok =>
    if s.once = .fresh then some { s with once := if ok then .sending s.window else .finished } else none
  | .listenerAsks ok =>
    if s.listener = .checking then some { s with listener := if ok then .sending s.window else .waiting } else none
  | .onceSends =>
    match s.once with
    | .sending w => some { s with once := .finished, app := w }
    | _ => none
  | .listenerSends =>
    match s.listener with
    | .sending w => some { s with listener := .waiting, app := w }
    | _ => none

/-- Steps, one after the other. -/
def run (s : State) : List Step → Option State
  | [] => some s
  | c :: cs =>
    match step s c with
    | none => none
    | some s => run s cs

end Bento.Resize
