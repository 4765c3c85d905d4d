import Verif.Model.Layout

/-!
# The numbers of solver variables

`/repo/internal/casso/casso.go:26-34`: `NewVariable` reads a counter shared by the whole process and
adds one to it in a second, separate atomic operation. `Model/Layout` numbers the variables of a
split from 0; here the numbers are those that the counter gives, in any interleaving of goroutines,
and the split is modelled for arbitrary numbers.
-/

namespace Bento

open Casso

/-- `/repo/internal/casso/casso.go:26-34` — the counter, the goroutines that have read it and not yet
added to it (with the value read), and what each goroutine has been given so far. -/
structure VarCounter where
  counter : Nat
  pending : Nat → Option Nat
  given : Nat → List Var

namespace VarCounter

/-- The process at its start. -/
def start : VarCounter := ⟨0, fun _ => none, fun _ => []⟩

/-- `/repo/internal/casso/casso.go:30-34` — one atomic operation of goroutine `g`, which does nothing
but call `NewVariable`: the `Load`, or the deferred `Add` on the 64-bit counter, after which the call
returns. -/
def step (s : VarCounter) (g : Nat) : VarCounter :=
  match s.pending g with
  | none => { s with pending := fun h => if h = g then some s.counter else s.pending h }
  | some v =>
    { counter := (s.counter + 1) % 2 ^ 64
      pending := fun h => if h = g then none else s.pending h
      given := fun h => if h = g then s.given g ++ [v] else s.given h }

/-- The process after a schedule: which goroutine makes the next atomic operation. -/
def run (schedule : List Nat) : VarCounter := schedule.foldl step start

end VarCounter

namespace Layout

/-- `/repo/layout.go:156-159` for arbitrary variables. -/
def areaElementOf (vars : List Var) : Element := ⟨vars.headD 0, vars.getLastD 0⟩

/-- `/repo/layout.go:161-194` for arbitrary variables; compare `solverConstraints`. -/
def solverConstraintsOf (vars : List Var) (l : Layout) (inner : Rect) : Option (List Constr) :=
  let area := areaElementOf vars
  let bounds := l.areaBounds inner
  (flexConstraints area (newElements vars) l.flex (Spacing.value l.spacing)).bind fun flex =>
  (fillConstraints (newElements vars.tail) l.constraints l.flex).map fun fill =>
    areaConstraints area ((bounds.1 : ℚ) * multiplier) ((bounds.2 : ℚ) * multiplier) ++
    variableInAreaConstraints vars area ++
    variableConstraints vars ++
    flex ++
    sizeConstraints area (newElements vars.tail) l.constraints l.flex ++
    fill ++
    neighbourConstraints (newElements vars.tail) l.flex

/-- `/repo/layout.go:106-113,121-207` — `SplitWithSpacers` when `NewVariable` has given the numbers
`vars`; compare `splitWithSpacers`. -/
def splitOf (vars : List Var) (ω : Nat → Nat) (fuel : Nat) (l : Layout) (area : Rect) : Outcome :=
  let inner := area.inner l.padding
  match l.solverConstraintsOf vars inner with
  | none => .panics
  | some cs =>
    match Solver.new.addConstraints ω fuel cs with
    | .error .fuel => .running
    | .error _ => .panics
    | .ok S =>
      let changes := changesMap S.fetchChanges.2
      .ok (changesToRects changes (newElements vars.tail) inner l.direction)
          (changesToRects changes (newElements vars) inner l.direction)

end Layout

end Bento
