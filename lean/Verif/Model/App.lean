import Verif.Model.Geometry

/-!
# The event loop

Models `/repo/app.go`, `/repo/cmd.go`, `/repo/tty.go` and `/repo/signals_unix.go`: the goroutines of a running
app as a machine that takes one step at a time. Unbuffered channels become steps that two goroutines take
together; a `select` becomes a choice between steps. What the surroundings decide (the scheduler, the results of
commands and of terminal operations, cancellation from outside) is the `Choice` given to each step, so all
executions are the runs of all lists of choices.

Simplifications. A model is a value and `Update` takes no time of its own: other goroutines cannot see it. Of the
terminal only raw mode, the alternate screen and the visibility of the cursor are kept; an operation that fails
changes none of them. `GetSize` never reports a size together with an error
(`/repo/terminal_backend.go:221-238`), so `checkResize` sends no errors. The cancelling of the input reader and
`waitForReadLoop`, which nothing calls, are left out. The list of handlers is read as one value (the code reads
it without a lock). A call of a command of a batch in a sequence starts and ends in one step.
-/

namespace Bento

namespace App

/-- `/repo/app.go:24` — `Cmd`: function values are told apart by a number. -/
abbrev Cmd := Nat

/-- `/repo/app.go:22`, `/repo/cmd.go:5-21` — the messages that the event loop knows, and all others. The nil
message is `none` of `Option Msg`. -/
inductive Msg (μ : Type) where
  | user (m : μ)
  | quit
  | size (width height : Int)
  | batch (cmds : List (Option Cmd))
  | sequence (cmds : List (Option Cmd))
  deriving DecidableEq, Repr

/-- What comes of calling a command. -/
inductive Outcome (μ : Type) where
  | returns (m : Option (Msg μ))
  | panics
  deriving DecidableEq, Repr

/-- `/repo/app.go:36-41` — `Model`, and the functions behind the commands. `none` is a panic. -/
structure Program (σ μ : Type) where
  /-- The model given to `NewApp`. -/
  start : σ
  init : Option (Option Cmd)
  update : σ → Msg μ → Option (σ × Option Cmd)
  /-- The `k`-th way in which a call can end. -/
  call : Cmd → Nat → Outcome μ

/-- `/repo/cmd.go:38-58` — `Batch`: no command, one of the given ones, or a function that returns a
`BatchMsg`. -/
inductive Batched where
  | nil
  | same (c : Cmd)
  | returns (cmds : List (Option Cmd))
  deriving DecidableEq, Repr

/-- `/repo/cmd.go:38-58` — `Batch`. -/
def batch (cmds : List (Option Cmd)) : Batched :=
  match cmds.filterMap id with
  | [] => .nil
  | [c] => .same c
  | valid => .returns (valid.map some)

/-- `/repo/app.go:361-367`, `388-398`, `/repo/tty.go:26-51` — the stages of `shutdown`. -/
inductive Stage where
  | cancel | wait | paste | cursor | raw | alt
  deriving DecidableEq, Repr

/-- What `Run` returns: a model without an error; a model with `ErrKilled`, another error or an error of
`shutdown`; or, after a panic, what the results hold at that moment. -/
inductive Result (σ : Type) where
  | ok (m : σ)
  | killed (m : σ)
  | error (m : σ)
  | unrestored (m : σ)
  | recovered (m : Option σ)
  deriving DecidableEq, Repr

/-- Where the goroutine of `Run` (`/repo/app.go:190-235`) is. -/
inductive Main (σ : Type) where
  /-- `init` (`/repo/app.go:376-386`, `/repo/tty.go:12-22`): about to enable raw mode, … -/
  | raw
  /-- … to hide the cursor, … -/
  | cursor
  /-- … to enable the alternate screen. -/
  | alt
  /-- `/repo/app.go:204` -/
  | model
  /-- `/repo/app.go:205` -/
  | draw0
  /-- `/repo/app.go:207` -/
  | reader
  /-- `/repo/app.go:213` -/
  | resize
  /-- `/repo/app.go:216` -/
  | commands
  /-- `/repo/app.go:298` -/
  | select (m : σ)
  /-- `/repo/app.go:347`: sending the command. -/
  | command (m : σ) (c : Option Cmd)
  /-- `/repo/app.go:348` -/
  | draw (m : σ)
  /-- `/repo/app.go:372`: sending the error of a draw. -/
  | failed
  /-- `/repo/app.go:312`, about to look at the context (`/repo/app.go:219`). -/
  | quit (m : σ)
  /-- `/repo/app.go:228` -/
  | lastDraw (m : σ)
  /-- In `shutdown`, with the results that are to be returned. -/
  | closing (r : Result σ) (stage : Stage)
  | returned (r : Result σ)
  deriving DecidableEq, Repr

/-- `/repo/app.go:330-333` — a goroutine for one command of a `BatchMsg` in a sequence. -/
inductive Member (μ : Type) where
  | call (c : Option Cmd)
  | send (m : Option (Msg μ))
  | finished
  deriving DecidableEq, Repr

/-- Where another goroutine is. -/
inductive Thread (μ : Type) where
  /-- `/repo/app.go:179-186` -/
  | initCmd (c : Cmd)
  /-- `/repo/app.go:249-261` -/
  | commands
  /-- `/repo/app.go:279` -/
  | call (c : Cmd)
  /-- `/repo/app.go:280` -/
  | send (m : Option (Msg μ))
  /-- `/repo/app.go:355`: a command panicked. -/
  | rescue (stage : Stage)
  /-- `/repo/app.go:320`: the rest of a sequence. -/
  | seq (rest : List (Option Cmd))
  /-- `/repo/app.go:325` -/
  | seqCall (c : Cmd) (rest : List (Option Cmd))
  /-- `/repo/app.go:340` -/
  | seqSend (m : Option (Msg μ)) (rest : List (Option Cmd))
  /-- `/repo/app.go:336` -/
  | seqWait (members : List (Member μ)) (rest : List (Option Cmd))
  /-- `/repo/tty.go:70`: in `readInputs`, waiting for input. -/
  | reading
  /-- `/repo/tty.go:70`: in `readInputs`, sending a message. -/
  | readSend (m : μ)
  /-- `/repo/tty.go:72-75` -/
  | readErr
  /-- `/repo/tty.go:92`, called once (`/repo/app.go:288`), or by `listenForResize` (`loop`). -/
  | size (loop : Bool)
  /-- `/repo/tty.go:107` -/
  | sizeSend (loop : Bool) (width height : Int)
  | finished
  deriving DecidableEq, Repr

/-- Whether `shutdown` waits for the goroutine (`/repo/app.go:177`, `263`, `293`). -/
def Thread.isHandler {μ : Type} : Thread μ → Bool
  | .initCmd _ => true
  | .commands => true
  | .size loop => loop
  | .sizeSend loop _ _ => loop
  | _ => false

/-- What happens, for the record. Goroutines are named by their number; those of a batch in a sequence also by
their place in the batch. -/
inductive Event (σ μ : Type) where
  /-- The function of a command is called. -/
  | started (i : Nat) (member : Option Nat) (c : Option Cmd)
  /-- The event loop takes a message from a goroutine. -/
  | delivered (i : Nat) (member : Option Nat) (m : Option (Msg μ))
  /-- A goroutine gives a message up, because the context is done. -/
  | dropped (i : Nat) (member : Option Nat) (m : Option (Msg μ))
  /-- A goroutine for a sequence starts. -/
  | spawned (i : Nat) (cmds : List (Option Cmd))
  /-- `Update` returns. -/
  | updated (m : Msg μ) (c : Option Cmd)
  /-- A frame of a model is drawn. -/
  | drew (m : σ)
  | cancelled
  /-- A stage of `shutdown` fails. -/
  | failed (stage : Stage)
  deriving DecidableEq, Repr

structure State (σ μ : Type) where
  main : Main σ
  threads : List (Thread μ)
  /-- Whether the context is done. -/
  done : Bool
  raw : Bool
  alt : Bool
  hidden : Bool
  /-- A panic that nobody recovers ended the process. -/
  crashed : Bool
  trace : List (Event σ μ)
  deriving DecidableEq, Repr

/-- `/repo/app.go:120-149` — the state in which `appRunner.Run` begins. -/
def State.start (σ μ : Type) : State σ μ := ⟨.raw, [], false, false, false, false, false, []⟩

/-- How a draw ends. The frame decides whether the cursor is visible afterwards
(`/repo/terminal.go`, `Draw`). -/
inductive Drawn where
  | ok (hidden : Bool)
  | error
  | panics
  deriving DecidableEq, Repr

inductive MainChoice where
  | op (ok : Bool)
  | drawn (d : Drawn)
  deriving DecidableEq, Repr

inductive ThreadChoice (μ : Type) where
  /-- Go on; `k` chooses how a call ends. -/
  | go (k : Nat)
  /-- Go on in a goroutine of a batch. -/
  | member (j k : Nat)
  /-- Take the `ctx.Done()` case. -/
  | giveUp
  | memberGiveUp (j : Nat)
  /-- A stage of `shutdown`. -/
  | op (ok : Bool)
  /-- Input arrives, ends, or fails. -/
  | input (m : μ)
  | eof
  | inputError
  /-- The size of the window is found, or not. -/
  | sized (width height : Int)
  | unsized
  deriving DecidableEq, Repr

inductive Choice (μ : Type) where
  /-- The context is cancelled from outside. -/
  | cancel
  | main (a : MainChoice)
  | thread (i : Nat) (a : ThreadChoice μ)
  /-- Goroutine `i`, or the `j`-th one of its batch, hands a message to the event loop; `ok` tells whether
  resizing the terminal succeeds, if it comes to that. -/
  | message (i j : Nat) (ok : Bool)
  /-- The read loop hands an error to the event loop. -/
  | error (i : Nat)
  /-- The event loop hands its command to goroutine `j`. -/
  | fromMain (j : Nat)
  /-- Goroutine `i` hands the first command to goroutine `j`. -/
  | fromInit (i j : Nat)
  deriving DecidableEq, Repr

section

variable {σ μ : Type}

def State.log (s : State σ μ) (e : List (Event σ μ)) : State σ μ := { s with trace := s.trace ++ e }

def State.spawn (s : State σ μ) (ts : List (Thread μ)) : State σ μ := { s with threads := s.threads ++ ts }

def State.put (s : State σ μ) (i : Nat) (t : Thread μ) : State σ μ := { s with threads := s.threads.set i t }

def State.at (s : State σ μ) (m : Main σ) : State σ μ := { s with main := m }

/-- What a stage of `shutdown` leads to. -/
inductive Closed where
  | more (stage : Stage)
  | finished
  | failed
  deriving DecidableEq, Repr

/-- `/repo/app.go:361-367`, `388-398`, `412-424`, `/repo/tty.go:26-51` — a stage of `shutdown`. -/
def shutdown (s : State σ μ) (stage : Stage) (ok : Bool) : Option (State σ μ × Closed) :=
  match stage with
  | .cancel => some ({ s with done := true }.log [.cancelled], .more .wait)
  | .wait => if s.threads.any Thread.isHandler then none else some (s, .more .paste)
  | .paste => if ok then some (s, .more .cursor) else some (s.log [.failed .paste], .failed)
  | .cursor => if ok then some ({ s with hidden := false }, .more .raw) else some (s.log [.failed .cursor], .failed)
  | .raw => if ok then some ({ s with raw := false }, .more .alt) else some (s.log [.failed .raw], .failed)
  | .alt => if ok then some ({ s with alt := false }, .finished) else some (s.log [.failed .alt], .failed)

/-- `/repo/app.go:369-374` — `draw`, with what follows. -/
def drawn (s : State σ μ) (m : σ) (d : Drawn) (next : Main σ) (r : Option σ) : State σ μ :=
  match d with
  | .ok hidden => ({ s with hidden := hidden }.log [.drew m]).at next
  | .error => s.at .failed
  | .panics => s.at (.closing (.recovered r) .cancel)

/-- `/repo/app.go:190-235`, `296-300`, `353-374` — a step of the goroutine of `Run` alone. -/
def mainStep (p : Program σ μ) (s : State σ μ) (a : MainChoice) : Option (State σ μ) :=
  match s.main, a with
  | .raw, .op true => some ({ s with raw := true }.at .cursor)
  | .raw, .op false => some (s.at (.returned (.error p.start)))
  | .cursor, .op true => some ({ s with hidden := true }.at .alt)
  | .cursor, .op false => some (s.at (.returned (.error p.start)))
  | .alt, .op true => some ({ s with alt := true }.at .model)
  | .alt, .op false => some (s.at (.returned (.error p.start)))
  | .model, .op _ =>
    match p.init with
    | none => some (s.at (.closing (.recovered none) .cancel))
    | some none => some (s.at .draw0)
    | some (some c) => some ((s.spawn [.initCmd c]).at .draw0)
  | .draw0, .drawn d => some (drawn s p.start d .reader none)
  | .reader, .op true => some ((s.spawn [.reading]).at .resize)
  | .reader, .op false => some (s.at (.returned (.error p.start)))
  | .resize, .op _ => some ((s.spawn [.size false, .size true]).at .commands)
  | .commands, .op _ => some ((s.spawn [.commands]).at (.select p.start))
  | .select m, .op _ => if s.done then some (s.at (.returned (.killed m))) else none
  | .draw m, .drawn d => some (drawn s m d (.select m) none)
  | .quit m, .op _ => if s.done then some (s.at (.returned (.killed m))) else some (s.at (.lastDraw m))
  | .lastDraw m, .drawn d => some (drawn s m d (.closing (.ok m) .cancel) (some m))
  | .closing r stage, .op ok =>
    match shutdown s stage ok with
    | none => none
    | some (s, .more stage) => some (s.at (.closing r stage))
    | some (s, .finished) => some (s.at (.returned r))
    | some (s, .failed) =>
      match r with
      | .ok m => some (s.at (.returned (.unrestored m)))
      | r => some (s.at (.returned r))
  | _, _ => none

/-- Where `checkResize` goes on (`/repo/tty.go:92-108`, `/repo/signals_unix.go:24-32`). -/
def afterSize (loop : Bool) : Thread μ := if loop then .size true else .finished

/-- `/repo/app.go:174-188`, `237-294`, `317-359`, `/repo/tty.go:67-108`, `/repo/signals_unix.go:15-33` — a step
of another goroutine alone. -/
def threadStep (p : Program σ μ) (s : State σ μ) (i : Nat) (t : Thread μ) (a : ThreadChoice μ) :
    Option (State σ μ) :=
  match t, a with
  | .initCmd _, .giveUp => if s.done then some (s.put i .finished) else none
  | .commands, .giveUp => if s.done then some (s.put i .finished) else none
  | .call c, .go k =>
    match p.call c k with
    | .returns m => some (s.put i (.send m))
    | .panics => some (s.put i (.rescue .cancel))
  | .send m, .giveUp => if s.done then some ((s.log [.dropped i none m]).put i .finished) else none
  | .rescue stage, .op ok =>
    match shutdown s stage ok with
    | none => none
    | some (s, .more stage) => some (s.put i (.rescue stage))
    | some (s, _) => some (s.put i .finished)
  | .seq [], .go _ => some (s.put i .finished)
  | .seq (none :: rest), .go _ => some (s.put i (.seq rest))
  | .seq (some c :: rest), .go _ => some ((s.log [.started i none (some c)]).put i (.seqCall c rest))
  | .seqCall c rest, .go k =>
    match p.call c k with
    | .returns (some (.batch cmds)) => some (s.put i (.seqWait (cmds.map .call) rest))
    | .returns m => some (s.put i (.seqSend m rest))
    | .panics => some { s with crashed := true }
  | .seqSend m rest, .giveUp => if s.done then some ((s.log [.dropped i none m]).put i (.seq rest)) else none
  | .seqWait members rest, .member j k =>
    match members[j]? with
    | some (.call (some c)) =>
      match p.call c k with
      | .returns m => some ((s.log [.started i (some j) (some c)]).put i (.seqWait (members.set j (.send m)) rest))
      | .panics => some { s with crashed := true }
    | some (.call none) => some { s with crashed := true }
    | _ => none
  | .seqWait members rest, .memberGiveUp j =>
    match members[j]? with
    | some (.send m) =>
      if s.done then some ((s.log [.dropped i (some j) m]).put i (.seqWait (members.set j .finished) rest)) else none
    | _ => none
  | .seqWait members rest, .go _ =>
    if members.all fun | .finished => true | _ => false then some (s.put i (.seq rest)) else none
  | .reading, .input m => some (s.put i (.readSend m))
  | .reading, .eof => some (s.put i .finished)
  | .reading, .inputError => some (s.put i .readErr)
  | .readSend m, .giveUp => if s.done then some ((s.log [.dropped i none (some (.user m))]).put i .readErr) else none
  | .readErr, .giveUp => if s.done then some (s.put i .finished) else none
  | .size loop, .sized w h => some (s.put i (.sizeSend loop w h))
  | .size loop, .unsized => some (s.put i (afterSize loop))
  | .size true, .giveUp => if s.done then some (s.put i .finished) else none
  | .sizeSend loop w h, .giveUp =>
    if s.done then some ((s.log [.dropped i none (some (.size w h))]).put i (afterSize loop)) else none
  | _, _ => none

/-- The message that a goroutine is sending on `a.msgs`, the member of a batch that sends it, and the goroutine
afterwards (`/repo/app.go:237-242`; `/repo/key_other.go`, `readAnsiInputs`). -/
def offer (t : Thread μ) (j : Nat) : Option (Option (Msg μ) × Option Nat × Thread μ) :=
  match t with
  | .send m => some (m, none, .finished)
  | .seqSend m rest => some (m, none, .seq rest)
  | .seqWait members rest =>
    match members[j]? with
    | some (.send m) => some (m, some j, .seqWait (members.set j .finished) rest)
    | _ => none
  | .readSend m => some (some (.user m), none, .reading)
  | .sizeSend loop w h => some (some (.size w h), none, afterSize loop)
  | _ => none

/-- `/repo/app.go:345-348` — `Update`. -/
def update (p : Program σ μ) (s : State σ μ) (md : σ) (m : Msg μ) : State σ μ :=
  match p.update md m with
  | none => s.at (.closing (.recovered none) .cancel)
  | some (md', c) => (s.log [.updated m c]).at (.command md' c)

/-- `/repo/app.go:305-348` — the event loop with model `md` has taken a message. -/
def receive (p : Program σ μ) (s : State σ μ) (md : σ) (m : Option (Msg μ)) (ok : Bool) : State σ μ :=
  match m with
  | none => s
  | some .quit => s.at (.quit md)
  | some (.size w h) => if ok then update p s md (.size w h) else s.at (.returned (.error md))
  | some (.sequence cmds) =>
    update p ((s.log [.spawned s.threads.length cmds]).spawn [.seq cmds]) md (.sequence cmds)
  | some m => update p s md m

/-- `/repo/app.go:257-282` — the goroutine of `handleCommands` takes a command. -/
def accept (s : State σ μ) (c : Option Cmd) : State σ μ :=
  match c with
  | none => s
  | some c => (s.log [.started s.threads.length none (some c)]).spawn [.call c]

/-- A step of the app; `none` if the choice is not possible. -/
def step (p : Program σ μ) (s : State σ μ) (choice : Choice μ) : Option (State σ μ) :=
  if s.crashed then none
  else match choice with
  | .cancel => some ({ s with done := true }.log [.cancelled])
  | .main a => mainStep p s a
  | .thread i a =>
    match s.threads[i]? with
    | none => none
    | some t => threadStep p s i t a
  | .message i j ok =>
    match s.main, s.threads[i]? with
    | .select md, some t =>
      match offer t j with
      | none => none
      | some (m, member, t) => some (receive p ((s.log [.delivered i member m]).put i t) md m ok)
    | _, _ => none
  | .error i =>
    match s.main, s.threads[i]? with
    | .select md, some .readErr => some ((s.put i .finished).at (.returned (.error md)))
    | _, _ => none
  | .fromMain j =>
    match s.main, s.threads[j]? with
    | .command md c, some .commands => some ((accept s c).at (.draw md))
    | _, _ => none
  | .fromInit i j =>
    match s.threads[i]?, s.threads[j]? with
    | some (.initCmd c), some .commands => some (accept (s.put i .finished) (some c))
    | _, _ => none

/-- A run of the app from a state. -/
def runFrom (p : Program σ μ) (s : State σ μ) : List (Choice μ) → Option (State σ μ)
  | [] => some s
  | c :: cs =>
    match step p s c with
    | none => none
    | some s => runFrom p s cs

/-- A run of the app. -/
def run (p : Program σ μ) (cs : List (Choice μ)) : Option (State σ μ) := runFrom p (.start σ μ) cs

end

end App

end Bento
