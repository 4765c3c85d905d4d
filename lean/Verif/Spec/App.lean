import Verif.Model.App

/-!
# What an event loop is to do

Independent of the goroutines of the code: a sequential loop over the messages, the order in which the commands
of a sequence run, and the life of a command.
-/

namespace Bento

namespace App

section

variable {σ μ : Type}

/-- What the user of an app can see of its event loop. -/
inductive Visible (σ μ : Type) where
  | took (m : Option (Msg μ))
  | updated (m : Msg μ) (c : Option Cmd)
  | drew (m : σ)
  deriving DecidableEq, Repr

/-- The visible part of what happened. -/
def visible (trace : List (Event σ μ)) : List (Visible σ μ) :=
  trace.filterMap fun
    | .delivered _ _ m => some (.took m)
    | .updated m c => some (.updated m c)
    | .drew m => some (.drew m)
    | _ => none

/-- The messages taken by the event loop, in order. -/
def taken (trace : List (Event σ μ)) : List (Option (Msg μ)) :=
  trace.filterMap fun
    | .delivered _ _ m => some m
    | _ => none

/-- A sequential event loop: each message other than nil is given to `Update`, then the model is drawn; the quit
message ends it with a last draw. -/
def reference (p : Program σ μ) (md : σ) : List (Option (Msg μ)) → List (Visible σ μ)
  | [] => []
  | none :: ms => .took none :: reference p md ms
  | some .quit :: _ => [.took (some .quit), .drew md]
  | some m :: ms => .took (some m) ::
    match p.update md m with
    | none => []
    | some (md, c) => .updated m c :: .drew md :: reference p md ms

/-- The model after some messages, as long as the loop neither quits nor panics. -/
def model (p : Program σ μ) (md : σ) : List (Option (Msg μ)) → Option σ
  | [] => some md
  | none :: ms => model p md ms
  | some .quit :: _ => none
  | some m :: ms =>
    match p.update md m with
    | none => none
    | some (md, _) => model p md ms

/-- The sequences among some messages. -/
def sequences (ms : List (Option (Msg μ))) : List (List (Option Cmd)) :=
  ms.filterMap fun
    | some (.sequence cmds) => some cmds
    | _ => none

/-- The sequences that got a goroutine. -/
def begun (trace : List (Event σ μ)) : List (List (Option Cmd)) :=
  trace.filterMap fun
    | .spawned _ cmds => some cmds
    | _ => none

/-- How often `Update` returned a command. -/
def returned (c : Cmd) (trace : List (Event σ μ)) : Nat :=
  trace.countP fun
    | .updated _ c' => c' == some c
    | _ => false

/-- How often a command started, other than in a batch of a sequence. -/
def startedTimes (c : Cmd) (trace : List (Event σ μ)) : Nat :=
  trace.countP fun
    | .started _ none c' => c' == some c
    | _ => false

/-- The goroutine that an event belongs to. -/
def Event.thread : Event σ μ → Option Nat
  | .started i _ _ => some i
  | .delivered i _ _ => some i
  | .dropped i _ _ => some i
  | _ => none

/-- The place in a batch that an event belongs to. -/
def Event.member : Event σ μ → Option Nat
  | .started _ j _ => j
  | .delivered _ j _ => j
  | .dropped _ j _ => j
  | _ => none

/-- What goroutine `i` did. -/
def doings (i : Nat) (trace : List (Event σ μ)) : List (Event σ μ) :=
  trace.filter fun e => e.thread == some i

/-- A command is called, returns a message, and the message is delivered, or given up. -/
def Single (p : Program σ μ) (i : Nat) (j : Option Nat) (c : Cmd) (m : Option (Msg μ)) (es : List (Event σ μ)) :
    Prop :=
  (∃ k, p.call c k = .returns m) ∧
    (es = [.started i j (some c), .delivered i j m] ∨ es = [.started i j (some c), .dropped i j m])

/-- A command of a sequence runs: either as any command, or, if it returns a batch, all commands of the batch run
side by side. -/
def Whole (p : Program σ μ) (i : Nat) (c : Option Cmd) (es : List (Event σ μ)) : Prop :=
  match c with
  | none => es = []
  | some c =>
    (∃ m, (∀ cmds, m ≠ some (.batch cmds)) ∧ Single p i none c m es) ∨
    ∃ k cmds rest, p.call c k = .returns (some (.batch cmds)) ∧ es = .started i none (some c) :: rest ∧
      (∀ e ∈ rest, ∃ j < cmds.length, e.member = some j) ∧
      ∀ j c', cmds[j]? = some c' → ∃ c m, c' = some c ∧ Single p i (some j) c m (rest.filter (·.member == some j))

/-- A command of a sequence has started. -/
def Begun (p : Program σ μ) (i : Nat) (c : Cmd) (es : List (Event σ μ)) : Prop :=
  es = [.started i none (some c)] ∨
  ∃ k cmds rest, p.call c k = .returns (some (.batch cmds)) ∧ es = .started i none (some c) :: rest ∧
    (∀ e ∈ rest, ∃ j < cmds.length, e.member = some j) ∧
    ∀ j c', cmds[j]? = some c' →
      rest.filter (·.member == some j) = [] ∨
      (∃ c, c' = some c ∧ rest.filter (·.member == some j) = [.started i (some j) (some c)]) ∨
      ∃ c m, c' = some c ∧ Single p i (some j) c m (rest.filter (·.member == some j))

/-- Commands ran one after the other. -/
inductive Past (p : Program σ μ) (i : Nat) : List (Option Cmd) → List (Event σ μ) → Prop where
  | nil : Past p i [] []
  | snoc {cs : List (Option Cmd)} {es : List (Event σ μ)} {c : Option Cmd} {es' : List (Event σ μ)} :
      Past p i cs es → Whole p i c es' → Past p i (cs ++ [c]) (es ++ es')

/-- The commands of a sequence run one after the other; the last one that started may still be running. -/
def InOrder (p : Program σ μ) (i : Nat) (cmds : List (Option Cmd)) (es : List (Event σ μ)) : Prop :=
  ∃ before after es₁ es₂, cmds = before ++ after ∧ es = es₁ ++ es₂ ∧ Past p i before es₁ ∧
    (es₂ = [] ∨ ∃ c after', after = some c :: after' ∧ Begun p i c es₂)

end

end App

end Bento
