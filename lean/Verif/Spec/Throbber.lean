import Verif.Model.Throbber

/-!
# A program with throbbers

Any number of throbbers, and the tick messages on their way to them. A message is handed to every throbber, as
programs do that do not route messages by their ID.
-/

namespace Bento.Throbber

/-- A message on its way, and whether it comes from the timer started by an accepted tick. -/
structure Pending where
  timer : Bool
  msg : Tick
  deriving DecidableEq

structure Sys where
  lastId : Int
  throbbers : List State
  pending : List Pending

/-- What can happen: a throbber is made, the `Tick` command of one is run, or one of the messages on their way
arrives. -/
inductive Event
  | make
  | start (throbber : Nat)
  | arrive (message : Nat)

/-- Hands a message to all throbbers in turn; returns their states and the new timers. -/
def offer (m : Tick) : List State → List State × List Pending
  | [] => ([], [])
  | s :: rest =>
    let (states, timers) := offer m rest
    match s.tryUpdate m with
    | some (s', m') => (s' :: states, ⟨true, m'⟩ :: timers)
    | none => (s :: states, timers)

def step (s : Sys) : Event → Sys
  | .make => { s with lastId := s.lastId + 1, throbbers := s.throbbers ++ [State.new (s.lastId + 1)] }
  | .start j => match s.throbbers[j]? with
    | some t => { s with pending := s.pending ++ [⟨false, t.tick⟩] }
    | none => s
  | .arrive i => match s.pending[i]? with
    | some p =>
      { s with throbbers := (offer p.msg s.throbbers).1,
               pending := s.pending.eraseIdx i ++ (offer p.msg s.throbbers).2 }
    | none => s

def run (events : List Event) : Sys := events.foldl step ⟨0, [], []⟩

end Bento.Throbber
