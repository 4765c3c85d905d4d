import Verif.Model.App

/-!
# Executions that go on for ever

An execution of an app that never ends, a scheduler that lets everyone have their turn again and again, and an
app that keeps running.
-/

namespace Bento

namespace App

section

variable {σ μ : Type}

/-- A step, or a moment at which nothing happens. -/
def move (p : Program σ μ) (s : State σ μ) : Option (Choice μ) → Option (State σ μ)
  | none => if s.crashed then none else some s
  | some c => step p s c

/-- An execution of a process that never ends. It may rest, even for ever. -/
structure Execution (p : Program σ μ) where
  state : Nat → State σ μ
  choice : Nat → Option (Choice μ)
  start : state 0 = .start σ μ
  next : ∀ n, move p (state n) (choice n) = some (state (n + 1))

/-- Those who take turns: the goroutine of `Run`, another goroutine, a message of a goroutine, the command that
`Update` returned, and the command that `Init` returned. -/
inductive Turn where
  | run
  | goroutine (i : Nat)
  | message (i : Nat)
  | command
  | first (i : Nat)

/-- Whether a goroutine goes on by itself. Nobody has to type or to resize the window. -/
def ThreadChoice.alone : ThreadChoice μ → Prop
  | .input _ => False
  | .eof => False
  | .inputError => False
  | .sized _ _ => False
  | .unsized => False
  | _ => True

/-- Whose turn a step is. -/
def Turn.takes : Turn → Choice μ → Prop
  | .run, .main _ => True
  | .goroutine i, .thread j a => i = j ∧ a.alone
  | .message i, .message j _ _ => i = j
  | .command, .fromMain _ => True
  | .first i, .fromInit j _ => i = j
  | _, _ => False

/-- Whoever can go on again and again does go on again and again. This includes the functions behind commands:
a call that can end does end. -/
def Execution.Fair {p : Program σ μ} (e : Execution p) : Prop :=
  ∀ t : Turn, (∀ n, ∃ m, n ≤ m ∧ ∃ c, t.takes c ∧ (step p (e.state m) c).isSome = true) →
    ∀ n, ∃ m, n ≤ m ∧ ∃ c, e.choice m = some c ∧ t.takes c

/-- From some moment on the event loop runs, and the context is never done. -/
def Execution.KeepsRunning {p : Program σ μ} (e : Execution p) : Prop :=
  ∃ n, ∀ m, n ≤ m → (e.state m).done = false ∧
    ((∃ md, (e.state m).main = .select md) ∨ (∃ md c, (e.state m).main = .command md c) ∨
      ∃ md, (e.state m).main = .draw md)

/-- The message of command `c`, which goroutine `i` runs, has arrived. -/
def Arrived (p : Program σ μ) (i : Nat) (c : Cmd) (trace : List (Event σ μ)) : Prop :=
  ∃ k m, p.call c k = .returns m ∧ .delivered i none m ∈ trace

end

end App

end Bento
