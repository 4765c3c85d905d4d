import Mathlib.Algebra.Field.Rat
import Mathlib.Algebra.Order.Field.Rat

/-!
# The linear constraint solver

Models `/repo/internal/casso/casso.go`, `/repo/internal/casso/operators.go` and
`/repo/internal/casso/solver.go`, function by function.

Simplifications, stated once and used by every definition below:

* `float64` is modelled by exact rationals `ℚ`; consequently `nearZero` (casso.go:292-300, absolute
  value below `1e-8`) is the exact test for zero.  The `NaN` a variable starts with (solver.go:419)
  is `none`.
* A Go map with numeric values whose stored values are never zero (`_Row.cells`: `InsertSymbol`
  deletes and never stores a near-zero value, the other operations multiply by non-zero factors) is
  a total function that is `0` where the map has no entry.  `len(cells) == 0` is "zero everywhere".
* Go iterates over maps in an arbitrary order.  Every place where the order matters picks one of
  several candidates; the pick is made by an arbitrary stream of numbers `ω : Nat → Nat` consulted
  at position `clock`, so a theorem for all `ω` covers every iteration order.
* `optimize` is a `for` loop without bound; it is modelled with fuel, `SolverErr.fuel` standing for
  "still running".
* `Constraint` is a pointer (casso.go:90) and every `NewConstraint` makes a fresh one; the duplicate
  test of `AddConstraint` (solver.go:73-75), which compares pointers, and the map `cns`, which is only
  read by that test, are left out.  The fields `edits`, `infeasibleRows`, `_VariableData.id` are
  written but never read and are left out.
-/

namespace Bento.Casso

/-- `/repo/internal/casso/casso.go:11-16` — the constant `Required`. -/
def required : ℚ := 1001001000
/-- `/repo/internal/casso/casso.go:11-16` — the constant `Strong`. -/
def strong : ℚ := 1000000
/-- `/repo/internal/casso/casso.go:11-16` — the constant `Medium`. -/
def medium : ℚ := 1000
/-- `/repo/internal/casso/casso.go:11-16` — the constant `Weak`. -/
def weak : ℚ := 1

/-- `/repo/internal/casso/casso.go:18-24` — `RelationOperator`. -/
inductive RelOp
  | le | eq | ge
  deriving DecidableEq, Repr

/-- `/repo/internal/casso/casso.go:28` — `type Variable uint64`. -/
abbrev Var := Nat

/-- `/repo/internal/casso/casso.go:36-39,53-56` — `Expression` with its `Term`s
(pairs of variable and coefficient). -/
structure Expr where
  terms : List (Var × ℚ)
  constant : ℚ
  deriving Repr

namespace Expr

/-- `/repo/internal/casso/casso.go:58-60` — `NewExpressionFromConstant`. -/
def ofConstant (v : ℚ) : Expr := ⟨[], v⟩

/-- `/repo/internal/casso/casso.go:62-64,126-131` — a single variable with coefficient one. -/
def ofVar (v : Var) : Expr := ⟨[(v, 1)], 0⟩

/-- `/repo/internal/casso/casso.go:73-82` — `Expression.Negate`. -/
def negate (e : Expr) : Expr := ⟨e.terms.map (fun t => (t.1, -t.2)), -e.constant⟩

/-- `/repo/internal/casso/operators.go:5-7` — `Variable.Sub`. -/
def varSub (v other : Var) : Expr := ⟨[(v, 1), (other, -1)], 0⟩

/-- `/repo/internal/casso/operators.go:9-12` — `Expression.SubConstant`. -/
def subConstant (e : Expr) (c : ℚ) : Expr := ⟨e.terms, e.constant - c⟩

/-- `/repo/internal/casso/operators.go:14-21` — `Expression.Sub`. -/
def sub (e other : Expr) : Expr := ⟨e.terms ++ other.negate.terms, e.constant + other.negate.constant⟩

/-- `/repo/internal/casso/operators.go:23-27` — `Expression.SubVariable`. -/
def subVariable (e : Expr) (v : Var) : Expr := ⟨e.terms ++ [(v, -1)], e.constant⟩

/-- `/repo/internal/casso/operators.go:29-38` — `Expression.MulConstant`. -/
def mulConstant (e : Expr) (k : ℚ) : Expr := ⟨e.terms.map (fun t => (t.1, t.2 * k)), e.constant * k⟩

/-- `/repo/internal/casso/operators.go:40-49` — `Expression.DivConstant`. -/
def divConstant (e : Expr) (k : ℚ) : Expr := ⟨e.terms.map (fun t => (t.1, t.2 / k)), e.constant / k⟩

end Expr

/-- `/repo/internal/casso/casso.go:84-90` — `ConstraintData`: `expression op 0` with a strength. -/
structure Constr where
  expr : Expr
  op : RelOp
  strength : ℚ
  deriving Repr

/-- `/repo/internal/casso/casso.go:133-143,150-156` — `rel.ExpressionLHS(l).ConstantRHS(v)`. -/
def Constr.constantRHS (op : RelOp) (strength : ℚ) (lhs : Expr) (v : ℚ) : Constr :=
  ⟨lhs.subConstant v, op, strength⟩

/-- `/repo/internal/casso/casso.go:133-143,158-164` — `rel.ExpressionLHS(l).ExpressionRHS(r)`. -/
def Constr.expressionRHS (op : RelOp) (strength : ℚ) (lhs rhs : Expr) : Constr :=
  ⟨lhs.sub rhs, op, strength⟩

/-- `/repo/internal/casso/casso.go:133-143,166-172` — `rel.ExpressionLHS(l).VariableRHS(v)`. -/
def Constr.variableRHS (op : RelOp) (strength : ℚ) (lhs : Expr) (v : Var) : Constr :=
  ⟨lhs.subVariable v, op, strength⟩

/-- `/repo/internal/casso/casso.go:174-182` — `SymbolType`; `SymbolTypeInvalid` is modelled by
`Option.none` where a symbol may be invalid. -/
inductive SymType
  | external | slack | error | dummy
  deriving DecidableEq, Repr

/-- `/repo/internal/casso/casso.go:184-187` — `_Symbol`; `Value` is a `uint8`. -/
@[ext] structure Sym where
  value : Fin 256
  type : SymType
  deriving DecidableEq, Repr

/-- All symbols: the domain of every symbol-keyed map. -/
def allSyms : List Sym :=
  (List.finRange 256).flatMap fun v =>
    [⟨v, .external⟩, ⟨v, .slack⟩, ⟨v, .error⟩, ⟨v, .dummy⟩]

/-- `/repo/internal/casso/casso.go:196-199` — `_Row`. -/
@[ext] structure Row where
  cells : Sym → ℚ
  constant : ℚ

namespace Row

/-- `/repo/internal/casso/casso.go:201-206` — `newRow`. -/
def new (constant : ℚ) : Row := ⟨fun _ => 0, constant⟩

/-- `/repo/internal/casso/casso.go:215-221` — `reverseSign`. -/
def reverseSign (r : Row) : Row := ⟨fun s => -r.cells s, -r.constant⟩

/-- `/repo/internal/casso/casso.go:228-246` — `InsertSymbol`. -/
def insertSymbol (r : Row) (s : Sym) (coefficient : ℚ) : Row :=
  ⟨fun t => if t = s then r.cells s + coefficient else r.cells t, r.constant⟩

/-- `/repo/internal/casso/casso.go:248-257` — `InsertRow`: the new row and whether its constant
changed. -/
def insertRow (r other : Row) (coefficient : ℚ) : Row × Bool :=
  (⟨fun t => r.cells t + other.cells t * coefficient, r.constant + other.constant * coefficient⟩,
   decide (other.constant * coefficient ≠ 0))

/-- `/repo/internal/casso/casso.go:259-261` — `Remove`. -/
def remove (r : Row) (s : Sym) : Row := ⟨fun t => if t = s then 0 else r.cells t, r.constant⟩

/-- `/repo/internal/casso/casso.go:263-272` — `SolveForSymbol`. -/
def solveForSymbol (r : Row) (s : Sym) : Row :=
  ⟨fun t => if t = s then 0 else r.cells t * (-1 / r.cells s), r.constant * (-1 / r.cells s)⟩

/-- `/repo/internal/casso/casso.go:274-277` — `SolveForSymbols`. -/
def solveForSymbols (r : Row) (lhs rhs : Sym) : Row :=
  (r.insertSymbol lhs (-1)).solveForSymbol rhs

/-- `/repo/internal/casso/casso.go:283-290` — `Substitute`: the new row and whether its constant
changed. -/
def substitute (r : Row) (s : Sym) (row : Row) : Row × Bool :=
  if r.cells s ≠ 0 then (r.remove s).insertRow row (r.cells s) else (r, false)

/-- `len(row.cells) == 0`, e.g. `/repo/internal/casso/solver.go:210`. -/
def noCells (r : Row) : Bool := allSyms.all fun t => decide (r.cells t = 0)

end Row

/-- `/repo/internal/casso/solver.go:13-16` — `_Tag`. -/
structure Tag where
  marker : Sym
  other : Option Sym

/-- `/repo/internal/casso/solver.go:30-43` — the `Solver` (see the file header for omitted fields).
`varSym v` is `varData[v].symbol`, `varLast v` is `varData[v].constant`.  `idTick` counts without
bound here; `symbolAt` reduces it to the `uint8` the code uses.  `clock` is the position in the
stream of map-order choices. -/
structure Solver where
  varSym : Var → Option Sym
  varLast : Var → Option ℚ
  varForSymbol : Sym → Option Var
  publicChanges : List (Var × ℚ)
  changed : List Var
  shouldClearChanges : Bool
  rows : Sym → Option Row
  objective : Row
  artificial : Option Row
  idTick : Nat
  clock : Nat

/-- The errors of `AddConstraint` (solver.go:82,98,245); `fuel` means "still running". -/
inductive SolverErr
  | unsatisfiable | unbounded | fuel
  deriving DecidableEq, Repr

/-- `_Symbol{Value: s.idTick, Type: t}` with `idTick` a `uint8`
(`/repo/internal/casso/solver.go:42,193,350,356,374,377,391,415`). -/
def symbolAt (tick : Nat) (t : SymType) : Sym :=
  ⟨⟨tick % 256, Nat.mod_lt _ (by decide)⟩, t⟩

/-- The pick made by a `for … range map` loop that returns the first candidate it meets. -/
def pick (ω : Nat → Nat) (k : Nat) (cands : List Sym) : Option Sym :=
  cands[ω k % cands.length]?

namespace Solver

/-- `/repo/internal/casso/solver.go:45-60` — `NewSolver`. -/
def new : Solver where
  varSym := fun _ => none
  varLast := fun _ => none
  varForSymbol := fun _ => none
  publicChanges := []
  changed := []
  shouldClearChanges := false
  rows := fun _ => none
  objective := Row.new 0
  artificial := none
  idTick := 1
  clock := 0

/-- `/repo/internal/casso/solver.go:260-266` — `varChanged`. -/
def varChanged (S : Solver) (v : Var) : Solver :=
  if S.shouldClearChanges then { S with changed := [v], shouldClearChanges := false }
  else if v ∈ S.changed then S
  else { S with changed := v :: S.changed }

/-- `s.varForSymbol[symbol]`: a missing entry reads as variable 0. -/
def varOf (S : Solver) (s : Sym) : Var := (S.varForSymbol s).getD 0

/-- The variables whose rows change their constant when `symbol` is replaced by `row`
(`/repo/internal/casso/solver.go:269-277`). -/
def substChanged (S : Solver) (symbol : Sym) (row : Row) : List Var :=
  allSyms.filterMap fun b =>
    match S.rows b with
    | some r => if b.type = .external ∧ (r.substitute symbol row).2 then some (S.varOf b) else none
    | none => none

/-- `/repo/internal/casso/solver.go:268-289` — `substitute`. -/
def substitute (S : Solver) (symbol : Sym) (row : Row) : Solver :=
  (S.substChanged symbol row).foldl varChanged
    { S with
      rows := fun b => (S.rows b).map fun r => (r.substitute symbol row).1
      objective := (S.objective.substitute symbol row).1
      artificial := S.artificial.map fun r => (r.substitute symbol row).1 }

/-- `/repo/internal/casso/solver.go:102-109`, `250-256`, `220-221` — substitute a solved row and make
its symbol basic.  (The third place has no `varChanged` test, but there the symbol is a slack or an
error symbol, for which the test is false.) -/
def pivotIn (S : Solver) (symbol : Sym) (row : Row) : Solver :=
  let S1 := S.substitute symbol row
  let S2 := if symbol.type = .external ∧ row.constant ≠ 0 then S1.varChanged (S1.varOf symbol) else S1
  { S2 with rows := fun b => if b = symbol then some row else S2.rows b }

/-- `/repo/internal/casso/solver.go:460-468` — `getEnteringSymbol`. -/
def getEnteringSymbol (ω : Nat → Nat) (k : Nat) (objective : Row) : Option Sym :=
  pick ω k (allSyms.filter fun t => decide (t.type ≠ .dummy) && decide (objective.cells t < 0))

/-- `/repo/internal/casso/solver.go:299-304` — the rows that may leave for `entering`, with their
ratio `-constant / coefficient`. -/
def leavingRatio (S : Solver) (entering t : Sym) : Option ℚ :=
  match S.rows t with
  | some r =>
    if t.type ≠ .external ∧ r.cells entering < 0 then some (-r.constant / r.cells entering) else none
  | none => none

/-- `/repo/internal/casso/solver.go:291-323` — `getLeavingRow`.  The loop keeps the first row with a
strictly smaller ratio, so over all iteration orders it returns any row of minimal ratio. -/
def getLeavingRow (ω : Nat → Nat) (k : Nat) (S : Solver) (entering : Sym) : Option Sym :=
  pick ω k (allSyms.filter fun t =>
    match S.leavingRatio entering t with
    | some q => allSyms.all fun u =>
        match S.leavingRatio entering u with
        | some q' => decide (q ≤ q')
        | none => true
    | none => false)

/-- `/repo/internal/casso/solver.go:236-258` — `optimize`; `sel` is the objective pointed to
(`&s.objective` or `s.artificial`). -/
def optimize (ω : Nat → Nat) (sel : Solver → Row) : Nat → Solver → Except SolverErr Solver
  | 0, _ => .error .fuel
  | fuel + 1, S =>
    match getEnteringSymbol ω S.clock (sel S) with
    | none => .ok S
    | some entering =>
      match getLeavingRow ω (S.clock + 1) S entering with
      | none => .error .unbounded
      | some leaving =>
        match S.rows leaving with
        | none => .error .unbounded
        | some row =>
          optimize ω sel fuel
            (pivotIn { S with rows := fun b => if b = leaving then none else S.rows b
                              clock := S.clock + 2 }
              entering (row.solveForSymbols leaving entering))

/-- `/repo/internal/casso/solver.go:412-429` — `getVarSymbol`. -/
def getVarSymbol (S : Solver) (v : Var) : Solver × Sym :=
  match S.varSym v with
  | some s => (S, s)
  | none =>
    let s := symbolAt S.idTick .external
    ({ S with
        varSym := fun u => if u = v then some s else S.varSym u
        varForSymbol := fun t => if t = s then some v else S.varForSymbol t
        idTick := S.idTick + 1 }, s)

/-- `/repo/internal/casso/solver.go:329-339` — the loop of `createRow` over the terms. -/
def addTerms (S : Solver) (row : Row) : List (Var × ℚ) → Solver × Row
  | [] => (S, row)
  | (v, k) :: ts =>
    if k = 0 then addTerms S row ts
    else
      let (S1, s) := S.getVarSymbol v
      match S1.rows s with
      | some other => addTerms S1 (row.insertRow other k).1 ts
      | none => addTerms S1 (row.insertSymbol s k) ts

/-- `/repo/internal/casso/solver.go:343-403` — the part of `createRow` that adds slack, error and
dummy symbols. -/
def addMarkers (S : Solver) (row : Row) (c : Constr) : Solver × Row × Tag :=
  let ineq (coeff : ℚ) : Solver × Row × Tag :=
    let slack := symbolAt S.idTick .slack
    if c.strength < required then
      let err := symbolAt (S.idTick + 1) .error
      ({ S with idTick := S.idTick + 2, objective := S.objective.insertSymbol err c.strength },
        (row.insertSymbol slack coeff).insertSymbol err (-coeff), ⟨slack, some err⟩)
    else
      ({ S with idTick := S.idTick + 1 }, row.insertSymbol slack coeff, ⟨slack, none⟩)
  match c.op with
  | .ge => ineq (-1)
  | .le => ineq 1
  | .eq =>
    if c.strength < required then
      let errPlus := symbolAt S.idTick .error
      let errMinus := symbolAt (S.idTick + 1) .error
      ({ S with
          idTick := S.idTick + 2
          objective := (S.objective.insertSymbol errPlus c.strength).insertSymbol errMinus c.strength },
        (row.insertSymbol errPlus (-1)).insertSymbol errMinus 1, ⟨errPlus, some errMinus⟩)
    else
      let dummy := symbolAt S.idTick .dummy
      ({ S with idTick := S.idTick + 1 }, row.insertSymbol dummy 1, ⟨dummy, none⟩)

/-- `/repo/internal/casso/solver.go:325-410` — `createRow`. -/
def createRow (S : Solver) (c : Constr) : Solver × Row × Tag :=
  let (S1, row1) := S.addTerms (Row.new c.expr.constant) c.expr.terms
  let (S2, row2, tag) := S1.addMarkers row1 c
  (S2, if row2.constant < 0 then row2.reverseSign else row2, tag)

/-- `/repo/internal/casso/solver.go:431-448` — `chooseSubject`. -/
def chooseSubject (ω : Nat → Nat) (k : Nat) (row : Row) (tag : Tag) : Option Sym :=
  match pick ω k (allSyms.filter fun t => decide (t.type = .external) && decide (row.cells t ≠ 0)) with
  | some s => some s
  | none =>
    (tag.marker :: tag.other.toList).find? fun s =>
      (decide (s.type = .slack) || decide (s.type = .error)) && decide (row.cells s < 0)

/-- `/repo/internal/casso/solver.go:450-458` — `allDummies`. -/
def allDummies (row : Row) : Bool :=
  allSyms.all fun t => decide (row.cells t = 0) || decide (t.type = .dummy)

/-- `/repo/internal/casso/solver.go:470-479` — `anyPivotableSymbol`. -/
def anyPivotableSymbol (ω : Nat → Nat) (k : Nat) (row : Row) : Option Sym :=
  pick ω k (allSyms.filter fun t =>
    (decide (t.type = .slack) || decide (t.type = .error)) && decide (row.cells t ≠ 0))

/-- `/repo/internal/casso/solver.go:224-231` — remove a symbol from all rows and the objective. -/
def removeSymbol (S : Solver) (art : Sym) : Solver :=
  { S with
    rows := fun b => (S.rows b).map fun r => r.remove art
    objective := S.objective.remove art }

/-- The row pointed to by `s.artificial`. -/
def artificialRow (S : Solver) : Row := S.artificial.getD (Row.new 0)

/-- `/repo/internal/casso/solver.go:204-233` — `addWithArtificialVariable` after its call of
`optimize`. -/
def finishArtificial (ω : Nat → Nat) (art : Sym) (S : Solver) : Solver × Bool :=
  let success := decide (S.artificialRow.constant = 0)
  let S1 := { S with artificial := none }
  match S1.rows art with
  | some row =>
    let S2 := { S1 with rows := fun b => if b = art then none else S1.rows b }
    if row.noCells then (S2, success)
    else
      match anyPivotableSymbol ω S2.clock row with
      | none => (S2, false)
      | some entering =>
        let S3 := { S2 with clock := S2.clock + 1 }
        ((S3.pivotIn entering (row.solveForSymbols art entering)).removeSymbol art, success)
  | none => (S1.removeSymbol art, success)

/-- `/repo/internal/casso/solver.go:191-234` — `addWithArtificialVariable`. -/
def addWithArtificialVariable (ω : Nat → Nat) (fuel : Nat) (S : Solver) (row : Row) :
    Except SolverErr (Solver × Bool) :=
  let art := symbolAt S.idTick .slack
  match optimize ω artificialRow fuel
      { S with
        idTick := S.idTick + 1
        rows := fun b => if b = art then some row else S.rows b
        artificial := some row } with
  | .error e => .error e
  | .ok S1 => .ok (finishArtificial ω art S1)

/-- `/repo/internal/casso/solver.go:77-110` — `AddConstraint` up to the final optimisation. -/
def insertConstraint (ω : Nat → Nat) (fuel : Nat) (S : Solver) (c : Constr) :
    Except SolverErr Solver :=
  let (S1, row, tag) := S.createRow c
  let S2 := { S1 with clock := S1.clock + 1 }
  match chooseSubject ω S1.clock row tag with
  | some subject => .ok (S2.pivotIn subject (row.solveForSymbol subject))
  | none =>
    if allDummies row then
      if row.constant ≠ 0 then .error .unsatisfiable
      else .ok (S2.pivotIn tag.marker (row.solveForSymbol tag.marker))
    else
      match S2.addWithArtificialVariable ω fuel row with
      | .error e => .error e
      | .ok (S3, true) => .ok S3
      | .ok (_, false) => .error .unsatisfiable

/-- `/repo/internal/casso/solver.go:72-119` — `AddConstraint`. -/
def addConstraint (ω : Nat → Nat) (fuel : Nat) (S : Solver) (c : Constr) : Except SolverErr Solver :=
  match S.insertConstraint ω fuel c with
  | .error e => .error e
  | .ok S1 => optimize ω Solver.objective fuel S1

/-- `/repo/internal/casso/solver.go:62-70` — `AddConstraints`. -/
def addConstraints (ω : Nat → Nat) (fuel : Nat) (S : Solver) : List Constr → Except SolverErr Solver
  | [] => .ok S
  | c :: cs =>
    match S.addConstraint ω fuel c with
    | .error e => .error e
    | .ok S1 => addConstraints ω fuel S1 cs

/-- `/repo/internal/casso/solver.go:160-168` — `GetValue`. -/
def getValue (S : Solver) (v : Var) : ℚ :=
  match S.varSym v with
  | some s =>
    match S.rows s with
    | some row => row.constant
    | none => 0
  | none => 0

/-- `/repo/internal/casso/solver.go:135-155` — the loop of `FetchChanges` over the changed variables. -/
def collectChanges (S : Solver) : List Var → List (Var × ℚ)
  | [] => []
  | v :: vs =>
    if S.varSym v ≠ none ∧ S.varLast v ≠ some (S.getValue v) then
      (v, S.getValue v) :: collectChanges S vs
    else collectChanges S vs

/-- `/repo/internal/casso/solver.go:125-158` — `FetchChanges`.  Go's `clear` of a slice keeps its
length and zeroes its elements. -/
def fetchChanges (S : Solver) : Solver × List (Var × ℚ) :=
  let S1 := if S.shouldClearChanges then { S with changed := [], shouldClearChanges := false }
            else { S with shouldClearChanges := true }
  let new := S1.collectChanges S1.changed
  let all := S1.publicChanges.map (fun _ => (0, 0)) ++ new
  ({ S1 with
      publicChanges := all
      varLast := fun v => if new.any (fun c => c.1 == v) then some (S1.getValue v) else S1.varLast v },
   all)

end Solver

end Bento.Casso
