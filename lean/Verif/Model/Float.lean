import Verif.Model.Layout
import Mathlib.Data.Int.Log
import Mathlib.Data.Rat.Floor

/-!
# The solver with floating point rounding

`Model/Casso` computes with exact rationals.  Here the same functions of
`/repo/internal/casso/casso.go`, `/repo/internal/casso/solver.go` and `/repo/layout.go` are modelled
with every arithmetic operation rounded: `rnd` is applied to the exact result of each addition,
multiplication and division, as IEEE 754 prescribes for `float64`.  Negation is exact.  `binary64` is
the rounding of `float64` itself.

Simplifications, beside those of `Model/Casso` other than the exact arithmetic:

* No overflow, infinities, subnormal numbers or `NaN` (a `float64` is a rational here).
* As in `Model/Casso` a row's cells are a total function with `0` for "no entry"; a cell stored as an
  exact zero could only come from an underflow.
* Go may fuse `x*y + z` into one rounding; here each operation is rounded on its own.
-/

namespace Bento.Casso.Fl

/-- Round half to even. -/
def roundHalfEven (q : ℚ) : Int :=
  if q - ⌊q⌋ < 1 / 2 then ⌊q⌋
  else if 1 / 2 < q - ⌊q⌋ then ⌊q⌋ + 1
  else if ⌊q⌋ % 2 = 0 then ⌊q⌋ else ⌊q⌋ + 1

/-- The rounding of `float64` (IEEE 754 binary64, round to nearest even): 53 significant bits. -/
def binary64 (q : ℚ) : ℚ :=
  let ulp : ℚ := (2 : ℚ) ^ (Int.log 2 |q| - 52)
  roundHalfEven (q / ulp) * ulp

/-- `/repo/internal/casso/casso.go:292-300` — `nearZero`. -/
def nearZero (value : ℚ) : Bool :=
  if value < 0 then decide (-value < 1 / 100000000) else decide (value < 1 / 100000000)

section Rows
variable (rnd : ℚ → ℚ)

/-- `/repo/internal/casso/casso.go:228-246` — `InsertSymbol`. -/
def insertSymbol (r : Row) (s : Sym) (coefficient : ℚ) : Row :=
  ⟨fun t =>
    if t = s then
      if r.cells s ≠ 0 then
        if nearZero (rnd (r.cells s + coefficient)) then 0 else rnd (r.cells s + coefficient)
      else if nearZero coefficient then 0 else coefficient
    else r.cells t, r.constant⟩

/-- `/repo/internal/casso/casso.go:248-257` — `InsertRow`; each symbol of `other` is inserted once, and
inserting it changes its own cell only. -/
def insertRow (r other : Row) (coefficient : ℚ) : Row × Bool :=
  (⟨fun t =>
      if other.cells t ≠ 0 then (insertSymbol rnd r t (rnd (other.cells t * coefficient))).cells t
      else r.cells t,
    rnd (r.constant + rnd (other.constant * coefficient))⟩,
   decide (rnd (other.constant * coefficient) ≠ 0))

/-- `/repo/internal/casso/casso.go:263-272` — `SolveForSymbol`. -/
def solveForSymbol (r : Row) (s : Sym) : Row :=
  let coeff := rnd (-1 / r.cells s)
  ⟨fun t => if t = s then 0 else if r.cells t ≠ 0 then rnd (r.cells t * coeff) else 0,
   rnd (r.constant * coeff)⟩

/-- `/repo/internal/casso/casso.go:274-277` — `SolveForSymbols`. -/
def solveForSymbols (r : Row) (lhs rhs : Sym) : Row :=
  solveForSymbol rnd (insertSymbol rnd r lhs (-1)) rhs

/-- `/repo/internal/casso/casso.go:283-290` — `Substitute`. -/
def substituteRow (r : Row) (s : Sym) (row : Row) : Row × Bool :=
  if r.cells s ≠ 0 then insertRow rnd (r.remove s) row (r.cells s) else (r, false)

/-- `/repo/internal/casso/solver.go:269-277` — the variables whose rows change their constant. -/
def substChanged (S : Solver) (symbol : Sym) (row : Row) : List Var :=
  allSyms.filterMap fun b =>
    match S.rows b with
    | some r =>
      if b.type = .external ∧ (substituteRow rnd r symbol row).2 then some (S.varOf b) else none
    | none => none

/-- `/repo/internal/casso/solver.go:268-289` — `substitute`. -/
def substitute (S : Solver) (symbol : Sym) (row : Row) : Solver :=
  (substChanged rnd S symbol row).foldl Solver.varChanged
    { S with
      rows := fun b => (S.rows b).map fun r => (substituteRow rnd r symbol row).1
      objective := (substituteRow rnd S.objective symbol row).1
      artificial := S.artificial.map fun r => (substituteRow rnd r symbol row).1 }

/-- `/repo/internal/casso/solver.go:102-109`, `250-256`, `220-221` — as `Solver.pivotIn`. -/
def pivotIn (S : Solver) (symbol : Sym) (row : Row) : Solver :=
  let S1 := substitute rnd S symbol row
  let S2 := if symbol.type = .external ∧ row.constant ≠ 0 then S1.varChanged (S1.varOf symbol) else S1
  { S2 with rows := fun b => if b = symbol then some row else S2.rows b }

/-- `/repo/internal/casso/solver.go:299-304` — the rows that may leave, with their ratio. -/
def leavingRatio (S : Solver) (entering t : Sym) : Option ℚ :=
  match S.rows t with
  | some r =>
    if t.type ≠ .external ∧ r.cells entering < 0 then some (rnd (-r.constant / r.cells entering))
    else none
  | none => none

/-- `/repo/internal/casso/solver.go:291-323` — `getLeavingRow`. -/
def getLeavingRow (ω : Nat → Nat) (k : Nat) (S : Solver) (entering : Sym) : Option Sym :=
  pick ω k (allSyms.filter fun t =>
    match leavingRatio rnd S entering t with
    | some q => allSyms.all fun u =>
        match leavingRatio rnd S entering u with
        | some q' => decide (q ≤ q')
        | none => true
    | none => false)

/-- `/repo/internal/casso/solver.go:236-258` — `optimize`. -/
def optimize (ω : Nat → Nat) (sel : Solver → Row) : Nat → Solver → Except SolverErr Solver
  | 0, _ => .error .fuel
  | fuel + 1, S =>
    match Solver.getEnteringSymbol ω S.clock (sel S) with
    | none => .ok S
    | some entering =>
      match getLeavingRow rnd ω (S.clock + 1) S entering with
      | none => .error .unbounded
      | some leaving =>
        match S.rows leaving with
        | none => .error .unbounded
        | some row =>
          optimize ω sel fuel
            (pivotIn rnd { S with rows := fun b => if b = leaving then none else S.rows b
                                  clock := S.clock + 2 }
              entering (solveForSymbols rnd row leaving entering))

/-- `/repo/internal/casso/solver.go:329-339` — the loop of `createRow` over the terms. -/
def addTerms (S : Solver) (row : Row) : List (Var × ℚ) → Solver × Row
  | [] => (S, row)
  | (v, k) :: ts =>
    if nearZero k then addTerms S row ts
    else
      let (S1, s) := S.getVarSymbol v
      match S1.rows s with
      | some other => addTerms S1 (insertRow rnd row other k).1 ts
      | none => addTerms S1 (insertSymbol rnd row s k) ts

/-- `/repo/internal/casso/solver.go:343-403` — the part of `createRow` that adds slack, error and
dummy symbols. -/
def addMarkers (S : Solver) (row : Row) (c : Constr) : Solver × Row × Tag :=
  let ineq (coeff : ℚ) : Solver × Row × Tag :=
    let slack := symbolAt S.idTick .slack
    if c.strength < required then
      let err := symbolAt (S.idTick + 1) .error
      ({ S with idTick := S.idTick + 2, objective := insertSymbol rnd S.objective err c.strength },
        insertSymbol rnd (insertSymbol rnd row slack coeff) err (-coeff), ⟨slack, some err⟩)
    else
      ({ S with idTick := S.idTick + 1 }, insertSymbol rnd row slack coeff, ⟨slack, none⟩)
  match c.op with
  | .ge => ineq (-1)
  | .le => ineq 1
  | .eq =>
    if c.strength < required then
      let errPlus := symbolAt S.idTick .error
      let errMinus := symbolAt (S.idTick + 1) .error
      ({ S with
          idTick := S.idTick + 2
          objective :=
            insertSymbol rnd (insertSymbol rnd S.objective errPlus c.strength) errMinus c.strength },
        insertSymbol rnd (insertSymbol rnd row errPlus (-1)) errMinus 1, ⟨errPlus, some errMinus⟩)
    else
      let dummy := symbolAt S.idTick .dummy
      ({ S with idTick := S.idTick + 1 }, insertSymbol rnd row dummy 1, ⟨dummy, none⟩)

/-- `/repo/internal/casso/solver.go:325-410` — `createRow`. -/
def createRow (S : Solver) (c : Constr) : Solver × Row × Tag :=
  let (S1, row1) := addTerms rnd S (Row.new c.expr.constant) c.expr.terms
  let (S2, row2, tag) := addMarkers rnd S1 row1 c
  (S2, if row2.constant < 0 then row2.reverseSign else row2, tag)

/-- `/repo/internal/casso/solver.go:204-233` — `addWithArtificialVariable` after its call of
`optimize`. -/
def finishArtificial (ω : Nat → Nat) (art : Sym) (S : Solver) : Solver × Bool :=
  let success := nearZero S.artificialRow.constant
  let S1 := { S with artificial := none }
  match S1.rows art with
  | some row =>
    let S2 := { S1 with rows := fun b => if b = art then none else S1.rows b }
    if row.noCells then (S2, success)
    else
      match Solver.anyPivotableSymbol ω S2.clock row with
      | none => (S2, false)
      | some entering =>
        let S3 := { S2 with clock := S2.clock + 1 }
        ((pivotIn rnd S3 entering (solveForSymbols rnd row art entering)).removeSymbol art, success)
  | none => (S1.removeSymbol art, success)

/-- `/repo/internal/casso/solver.go:191-234` — `addWithArtificialVariable`. -/
def addWithArtificialVariable (ω : Nat → Nat) (fuel : Nat) (S : Solver) (row : Row) :
    Except SolverErr (Solver × Bool) :=
  let art := symbolAt S.idTick .slack
  match optimize rnd ω Solver.artificialRow fuel
      { S with
        idTick := S.idTick + 1
        rows := fun b => if b = art then some row else S.rows b
        artificial := some row } with
  | .error e => .error e
  | .ok S1 => .ok (finishArtificial rnd ω art S1)

/-- `/repo/internal/casso/solver.go:77-110` — `AddConstraint` up to the final optimisation. -/
def insertConstraint (ω : Nat → Nat) (fuel : Nat) (S : Solver) (c : Constr) :
    Except SolverErr Solver :=
  let (S1, row, tag) := createRow rnd S c
  let S2 := { S1 with clock := S1.clock + 1 }
  match Solver.chooseSubject ω S1.clock row tag with
  | some subject => .ok (pivotIn rnd S2 subject (solveForSymbol rnd row subject))
  | none =>
    if Solver.allDummies row then
      if nearZero row.constant = false then .error .unsatisfiable
      else .ok (pivotIn rnd S2 tag.marker (solveForSymbol rnd row tag.marker))
    else
      match addWithArtificialVariable rnd ω fuel S2 row with
      | .error e => .error e
      | .ok (S3, true) => .ok S3
      | .ok (_, false) => .error .unsatisfiable

/-- `/repo/internal/casso/solver.go:72-119` — `AddConstraint`. -/
def addConstraint (ω : Nat → Nat) (fuel : Nat) (S : Solver) (c : Constr) : Except SolverErr Solver :=
  match insertConstraint rnd ω fuel S c with
  | .error e => .error e
  | .ok S1 => optimize rnd ω Solver.objective fuel S1

/-- `/repo/internal/casso/solver.go:62-70` — `AddConstraints`. -/
def addConstraints (ω : Nat → Nat) (fuel : Nat) (S : Solver) : List Constr → Except SolverErr Solver
  | [] => .ok S
  | c :: cs =>
    match addConstraint rnd ω fuel S c with
    | .error e => .error e
    | .ok S1 => addConstraints ω fuel S1 cs

/-- A constraint with its numbers rounded: what the layout hands to the solver
(`/repo/internal/casso/operators.go:5-49`, `/repo/layout.go:161-194`). -/
def roundConstr (c : Constr) : Constr :=
  ⟨⟨c.expr.terms.map fun t => (t.1, rnd t.2), rnd c.expr.constant⟩, c.op, rnd c.strength⟩

/-- `/repo/layout.go:221-222` — a solver coordinate in cells; `math.Round` is exact, the division is
rounded. -/
def toCell (q : ℚ) : Int :=
  Layout.roundHalfAway (rnd ((Layout.roundHalfAway q : ℚ) / Layout.multiplier))

/-- `/repo/layout.go:217-249` — the rectangle of one element. -/
def elementRect (changes : Var → ℚ) (area : Rect) (direction : Direction) (e : Layout.Element) :
    Rect :=
  let start := toCell rnd (changes e.start)
  let stop := toCell rnd (changes e.stop)
  let size := max 0 (stop - start)
  match direction with
  | .horizontal => { x := start, y := area.y, width := size, height := area.height }
  | .vertical => { x := area.x, y := start, width := area.width, height := size }

/-- `/repo/layout.go:106-113,121-207` — `SplitWithSpacers` with rounding `rnd`. -/
def splitWithSpacers (ω : Nat → Nat) (fuel : Nat) (l : Layout) (area : Rect) : Layout.Outcome :=
  let inner := area.inner l.padding
  match l.solverConstraints inner with
  | none => .panics
  | some cs =>
    match addConstraints rnd ω fuel Solver.new (cs.map (roundConstr rnd)) with
    | .error .fuel => .running
    | .error _ => .panics
    | .ok S =>
      let changes := Layout.changesMap S.fetchChanges.2
      .ok ((Layout.segmentElements l.constraints.length).map
            (elementRect rnd changes inner l.direction))
          ((Layout.spacerElements l.constraints.length).map
            (elementRect rnd changes inner l.direction))

end Rows

end Bento.Casso.Fl
