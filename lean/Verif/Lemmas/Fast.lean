import Verif.Model.Layout

/-!
# A list-based solver

The model of the solver keeps its tableau as functions on all symbols, which is convenient for proofs
and useless for running it.  This file defines the same solver on association lists; symbols are
numbers.  `Lemmas/FastOk.lean` proves that it computes the same results, so that concrete runs of the
model can be evaluated.
-/

namespace Bento.Casso.Fast

/-- The number of a symbol: its position in `allSyms`. -/
def code (s : Sym) : Nat :=
  4 * s.value.val + match s.type with | .external => 0 | .slack => 1 | .error => 2 | .dummy => 3

/-- The number of the symbol with the given counter and type. -/
def symAt (tick : Nat) (t : Nat) : Nat := 4 * (tick % 256) + t

/-- Coefficients: the value at a key is the sum of its entries. -/
abbrev Cells := List (Nat × ℚ)

def get : Cells → Nat → ℚ
  | [], _ => 0
  | (k, v) :: l, n => if k = n then v + get l n else get l n

/-- Drop a zero. -/
def consNZ (k : Nat) (v : ℚ) (l : Cells) : Cells := if v = 0 then l else (k, v) :: l

def mergeOne (k : Nat) (v : ℚ) (rest : Cells → Cells) : Cells → Cells
  | [] => (k, v) :: rest []
  | (k', w) :: ys =>
    if k < k' then (k, v) :: rest ((k', w) :: ys)
    else if k' < k then (k', w) :: mergeOne k v rest ys
    else consNZ k (v + w) (rest ys)

/-- Add two lists of coefficients that are sorted by key. -/
def merge : Cells → Cells → Cells
  | [], ys => ys
  | (k, v) :: xs, ys => mergeOne k v (merge xs) ys

def scale (c : ℚ) (l : Cells) : Cells := l.map fun p => (p.1, p.2 * c)

def drop (n : Nat) (l : Cells) : Cells := l.filter fun p => p.1 ≠ n

structure LRow where
  cells : Cells
  const : ℚ
  deriving DecidableEq

namespace LRow

def insertSymbol (r : LRow) (s : Nat) (k : ℚ) : LRow := ⟨merge r.cells [(s, k)], r.const⟩

def insertRow (r o : LRow) (k : ℚ) : LRow := ⟨merge r.cells (scale k o.cells), r.const + o.const * k⟩

def solveForSymbol (r : LRow) (s : Nat) : LRow :=
  let c := -1 / get r.cells s
  ⟨scale c (drop s r.cells), r.const * c⟩

def solveForSymbols (r : LRow) (l e : Nat) : LRow := (r.insertSymbol l (-1)).solveForSymbol e

def substitute (r : LRow) (s : Nat) (row : LRow) : LRow :=
  let c := get r.cells s
  if c = 0 then r else (⟨drop s r.cells, r.const⟩ : LRow).insertRow row c

def negate (r : LRow) : LRow := ⟨scale (-1) r.cells, -r.const⟩

def noCells (r : LRow) : Bool := r.cells.all fun p => decide (1024 ≤ p.1) || decide (get r.cells p.1 = 0)

end LRow

/-- Rows by key; the first entry counts. -/
abbrev Rows := List (Nat × LRow)

def find {α : Type} : List (Nat × α) → Nat → Option α
  | [], _ => none
  | (k, v) :: l, n => if k = n then some v else find l n

def dropRow (n : Nat) (l : Rows) : Rows := l.filter fun p => p.1 ≠ n

/-- Insert before the first larger key. -/
def insertRow (k : Nat) (r : LRow) : Rows → Rows
  | [] => [(k, r)]
  | (k', r') :: l => if k < k' then (k, r) :: (k', r') :: l else (k', r') :: insertRow k r l

structure FS where
  rows : Rows
  objective : LRow
  artificial : Option LRow
  tick : Nat
  vars : List (Nat × Nat)
  deriving DecidableEq

def new : FS := ⟨[], ⟨[], 0⟩, none, 1, []⟩

/-- Insert into a list of increasing numbers. -/
def insertSorted (n : Nat) : List Nat → List Nat
  | [] => [n]
  | m :: l => if n < m then n :: m :: l else if m < n then m :: insertSorted n l else m :: l

def sorted (l : List Nat) : List Nat := l.foldr insertSorted []

def pick (w : Nat) (cands : List Nat) : Option Nat := (sorted cands)[w % (sorted cands).length]?

def pivotIn (F : FS) (s : Nat) (row : LRow) : FS :=
  { F with
    rows := insertRow s row (dropRow s (F.rows.map fun p => (p.1, p.2.substitute s row)))
    objective := F.objective.substitute s row
    artificial := F.artificial.map fun r => r.substitute s row }

def entering (w : Nat) (obj : LRow) : Option Nat :=
  pick w ((obj.cells.map Prod.fst).filter fun n =>
    decide (n < 1024) && decide (n % 4 ≠ 3) && decide (get obj.cells n < 0))

def ratio (F : FS) (e n : Nat) : Option ℚ :=
  if n < 1024 ∧ n % 4 ≠ 0 then
    match find F.rows n with
    | some r =>
      let c := get r.cells e
      if c < 0 then some (-r.const / c) else none
    | none => none
  else none

/-- The numbers with a ratio. -/
def ratios (F : FS) (e : Nat) : List (Nat × ℚ) :=
  F.rows.filterMap fun p => (ratio F e p.1).map fun q => (p.1, q)

def lowest : List (Nat × ℚ) → Option ℚ
  | [] => none
  | (_, q) :: l =>
    match lowest l with
    | none => some q
    | some q' => if q ≤ q' then some q else some q'

def leaving (w : Nat) (F : FS) (e : Nat) : Option Nat :=
  let rs := ratios F e
  match lowest rs with
  | none => none
  | some m => pick w ((rs.filter fun p => decide (p.2 ≤ m)).map Prod.fst)

inductive Step
  | done
  | unbounded
  | next (F : FS)
  deriving DecidableEq

def step (w w' : Nat) (obj : LRow) (F : FS) : Step :=
  match entering w obj with
  | none => .done
  | some e =>
    match leaving w' F e with
    | none => .unbounded
    | some l =>
      match find F.rows l with
      | none => .unbounded
      | some row => .next (pivotIn { F with rows := dropRow l F.rows } e (row.solveForSymbols l e))

/-- The row to minimise. -/
def sel : Bool → FS → LRow
  | false, F => F.objective
  | true, F => F.artificial.getD ⟨[], 0⟩

/-- `k` is the position in the stream of picks. -/
def optimize (ω : Nat → Nat) (art : Bool) : Nat → Nat → FS → Except SolverErr (FS × Nat)
  | 0, _, _ => .error .fuel
  | fuel + 1, k, F =>
    match step (ω k) (ω (k + 1)) (sel art F) F with
    | .done => .ok (F, k)
    | .unbounded => .error .unbounded
    | .next F' => optimize ω art fuel (k + 2) F'

def varSymbol (F : FS) (v : Nat) : FS × Nat :=
  match find F.vars v with
  | some s => (F, s)
  | none =>
    let s := symAt F.tick 0
    ({ F with vars := (v, s) :: F.vars, tick := F.tick + 1 }, s)

def addTerms (F : FS) (row : LRow) : List (Var × ℚ) → FS × LRow
  | [] => (F, row)
  | (v, k) :: ts =>
    if k = 0 then addTerms F row ts
    else
      let p := varSymbol F v
      match find p.1.rows p.2 with
      | some other => addTerms p.1 (row.insertRow other k) ts
      | none => addTerms p.1 (row.insertSymbol p.2 k) ts

def addMarkers (F : FS) (row : LRow) (c : Constr) : FS × LRow × Nat × Option Nat :=
  let ineq (coeff : ℚ) : FS × LRow × Nat × Option Nat :=
    let slack := symAt F.tick 1
    if c.strength < required then
      let err := symAt (F.tick + 1) 2
      ({ F with tick := F.tick + 2, objective := F.objective.insertSymbol err c.strength },
        (row.insertSymbol slack coeff).insertSymbol err (-coeff), slack, some err)
    else
      ({ F with tick := F.tick + 1 }, row.insertSymbol slack coeff, slack, none)
  match c.op with
  | .ge => ineq (-1)
  | .le => ineq 1
  | .eq =>
    if c.strength < required then
      let plus := symAt F.tick 2
      let minus := symAt (F.tick + 1) 2
      ({ F with
          tick := F.tick + 2
          objective := (F.objective.insertSymbol plus c.strength).insertSymbol minus c.strength },
        (row.insertSymbol plus (-1)).insertSymbol minus 1, plus, some minus)
    else
      let dummy := symAt F.tick 3
      ({ F with tick := F.tick + 1 }, row.insertSymbol dummy 1, dummy, none)

def createRow (F : FS) (c : Constr) : FS × LRow × Nat × Option Nat :=
  let p := addTerms F ⟨[], c.expr.constant⟩ c.expr.terms
  let q := addMarkers p.1 p.2 c
  (q.1, if q.2.1.const < 0 then q.2.1.negate else q.2.1, q.2.2)

def pivotable (row : LRow) (n : Nat) : Bool :=
  (decide (n % 4 = 1) || decide (n % 4 = 2)) && decide (get row.cells n < 0)

def chooseSubject (w : Nat) (row : LRow) (marker : Nat) (other : Option Nat) : Option Nat :=
  match pick w ((row.cells.map Prod.fst).filter fun n =>
      decide (n < 1024) && decide (n % 4 = 0) && decide (get row.cells n ≠ 0)) with
  | some s => some s
  | none =>
    if pivotable row marker then some marker
    else
      match other with
      | some o => if pivotable row o then some o else none
      | none => none

def anyPivotable (w : Nat) (row : LRow) : Option Nat :=
  pick w ((row.cells.map Prod.fst).filter fun n =>
    decide (n < 1024) && (decide (n % 4 = 1) || decide (n % 4 = 2)) && decide (get row.cells n ≠ 0))

def allDummies (row : LRow) : Bool :=
  row.cells.all fun p => decide (1024 ≤ p.1) || decide (p.1 % 4 = 3) || decide (get row.cells p.1 = 0)

def removeSymbol (F : FS) (s : Nat) : FS :=
  { F with
    rows := F.rows.map fun p => (p.1, ⟨drop s p.2.cells, p.2.const⟩)
    objective := ⟨drop s F.objective.cells, F.objective.const⟩ }

def finishArtificial (ω : Nat → Nat) (art : Nat) (F : FS) (k : Nat) : (FS × Nat) × Bool :=
  let success := decide ((sel true F).const = 0)
  let F1 := { F with artificial := none }
  match find F1.rows art with
  | some row =>
    let F2 := { F1 with rows := dropRow art F1.rows }
    if row.noCells then ((F2, k), success)
    else
      match anyPivotable (ω k) row with
      | none => ((F2, k), false)
      | some e => ((removeSymbol (pivotIn F2 e (row.solveForSymbols art e)) art, k + 1), success)
  | none => ((removeSymbol F1 art, k), success)

def addWithArtificial (ω : Nat → Nat) (fuel : Nat) (F : FS) (k : Nat) (row : LRow) :
    Except SolverErr ((FS × Nat) × Bool) :=
  let art := symAt F.tick 1
  match optimize ω true fuel k
      { F with
        tick := F.tick + 1
        rows := insertRow art row (dropRow art F.rows)
        artificial := some row } with
  | .error e => .error e
  | .ok (F1, k) => .ok (finishArtificial ω art F1 k)

def insertConstraint (ω : Nat → Nat) (fuel : Nat) (F : FS) (k : Nat) (c : Constr) :
    Except SolverErr (FS × Nat) :=
  let p := createRow F c
  let F1 := p.1
  let row := p.2.1
  match chooseSubject (ω k) row p.2.2.1 p.2.2.2 with
  | some subject => .ok (pivotIn F1 subject (row.solveForSymbol subject), k + 1)
  | none =>
    if allDummies row then
      if row.const ≠ 0 then .error .unsatisfiable
      else .ok (pivotIn F1 p.2.2.1 (row.solveForSymbol p.2.2.1), k + 1)
    else
      match addWithArtificial ω fuel F1 (k + 1) row with
      | .error e => .error e
      | .ok (r, true) => .ok r
      | .ok (_, false) => .error .unsatisfiable

def addConstraint (ω : Nat → Nat) (fuel : Nat) (F : FS) (k : Nat) (c : Constr) :
    Except SolverErr (FS × Nat) :=
  match insertConstraint ω fuel F k c with
  | .error e => .error e
  | .ok (F1, k1) => optimize ω false fuel k1 F1

def addConstraints (ω : Nat → Nat) (fuel : Nat) (F : FS) (k : Nat) : List Constr → Except SolverErr (FS × Nat)
  | [] => .ok (F, k)
  | c :: cs =>
    match addConstraint ω fuel F k c with
    | .error e => .error e
    | .ok (F1, k1) => addConstraints ω fuel F1 k1 cs

def getValue (F : FS) (v : Nat) : ℚ :=
  match find F.vars v with
  | some s => match find F.rows s with | some r => r.const | none => 0
  | none => 0

end Bento.Casso.Fast

namespace Bento.Layout
open Casso

/-- `SplitWithSpacers` on lists. -/
def fastSplit (ω : Nat → Nat) (fuel : Nat) (l : Layout) (area : Rect) : Outcome :=
  let inner := area.inner l.padding
  match l.solverConstraints inner with
  | none => .panics
  | some cs =>
    match Fast.addConstraints ω fuel Fast.new 0 cs with
    | .error .fuel => .running
    | .error _ => .panics
    | .ok (F, _) =>
      .ok (changesToRects (Fast.getValue F) (segmentElements l.constraints.length) inner l.direction)
          (changesToRects (Fast.getValue F) (spacerElements l.constraints.length) inner l.direction)

end Bento.Layout
