import Verif.Spec.App
import Verif.Model.Throbber

/-!
# A program with a throbber

What a program does that animates a throbber as the library intends, and where its ticks are while the app runs. Nothing
here uses the functions of the event loop.
-/

namespace Bento.App

section

variable {σ μ : Type}

/-- Which user messages are ticks, and which commands send them. -/
structure Ticks (μ : Type) where
  ofMsg : μ → Option Throbber.Tick
  ofCmd : Cmd → Option Throbber.Tick

variable (T : Ticks μ)

/-- The ticks in a message. -/
def Ticks.inMsg : Option (Msg μ) → List Throbber.Tick
  | some (.user m) => (T.ofMsg m).toList
  | some (.batch cmds) | some (.sequence cmds) => (cmds.filterMap id).filterMap T.ofCmd
  | _ => []

/-- The ticks in commands that are to be called. -/
def Ticks.inCmds (cmds : List (Option Cmd)) : List Throbber.Tick := (cmds.filterMap id).filterMap T.ofCmd

/-- The ticks in a goroutine of a batch. -/
def Ticks.inMember : Member μ → List Throbber.Tick
  | .call c => T.inCmds [c]
  | .send m => T.inMsg m
  | .finished => []

/-- The ticks in a goroutine: in commands that it calls or is going to call, and in messages that it sends. -/
def Ticks.inThread : Thread μ → List Throbber.Tick
  | .initCmd c | .call c => (T.ofCmd c).toList
  | .send m => T.inMsg m
  | .seq rest => T.inCmds rest
  | .seqCall c rest => (T.ofCmd c).toList ++ T.inCmds rest
  | .seqSend m rest => T.inMsg m ++ T.inCmds rest
  | .seqWait members rest => members.flatMap T.inMember ++ T.inCmds rest
  | .readSend m => (T.ofMsg m).toList
  | _ => []

/-- The ticks in the hands of the event loop. -/
def Ticks.inMain : Main σ → List Throbber.Tick
  | .command _ c => T.inCmds [c]
  | _ => []

/-- All ticks on their way to `Update`. -/
def Ticks.onTheWay (s : State σ μ) : List Throbber.Tick := T.inMain s.main ++ s.threads.flatMap T.inThread

/-- How many ticks the event loop has taken. -/
def Ticks.taken (trace : List (Event σ μ)) : Nat :=
  (App.taken trace).countP fun m => !(T.inMsg m).isEmpty

/-- The input of the terminal does not contain ticks. -/
def Ticks.NotTyped (cs : List (Choice μ)) : Prop := ∀ i m, .thread i (.input m) ∈ cs → T.ofMsg m = none

/-- A program that starts a new throbber in `Init`, hands its ticks to `TryUpdate` and returns the command it gets; its
other commands have nothing to do with the throbber. -/
structure Animated (p : Program σ μ) (throbber : σ → Throbber.State) : Prop where
  new : (throbber p.start).frame = 0 ∧ (throbber p.start).tag = 0 ∧ 0 < (throbber p.start).id
  init : ∃ c, p.init = some (some c) ∧ T.ofCmd c = some (throbber p.start).tick
  sends : ∀ c t k, T.ofCmd c = some t → ∃ m, p.call c k = .returns (some (.user m)) ∧ T.ofMsg m = some t
  accepts : ∀ md m t th t', (throbber md).id = (throbber p.start).id → 0 ≤ (throbber md).tag →
    T.ofMsg m = some t → (throbber md).tryUpdate t = some (th, t') →
    ∃ md' c, p.update md (.user m) = some (md', some c) ∧ throbber md' = th ∧ T.ofCmd c = some t'
  rest : ∀ md g md' c, p.update md g = some (md', c) →
    (∀ m t, g = .user m → T.ofMsg m = some t → (throbber md).tryUpdate t = none) →
    throbber md' = throbber md ∧ T.inCmds [c] = []
  others : ∀ c k m, T.ofCmd c = none → p.call c k = .returns m → T.inMsg m = []

/-- The model that the event loop holds after `Init`. -/
def Program.model? (p : Program σ μ) : Main σ → Option σ
  | .draw0 | .reader | .resize | .commands => some p.start
  | .select m | .command m _ | .draw m | .quit m | .lastDraw m => some m
  | _ => none

end

end Bento.App
