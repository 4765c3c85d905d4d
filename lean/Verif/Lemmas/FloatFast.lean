import Verif.Lemmas.FastOk
import Verif.Model.Float

/-!
# A list-based solver with rounding

The counterpart of `Lemmas/Fast` and `Lemmas/FastOk` for the rounded solver of `Model/Float`: concrete
runs of it can be evaluated.
-/

namespace Bento.Casso.FlFast

open Fast (Cells LRow FS get)

/-- The non-zero values of a function at some numbers, in increasing order. -/
def tab (ks : List Nat) (f : Nat → ℚ) : Cells :=
  (Fast.sorted ks).filterMap fun n => let v := f n; if v = 0 then none else some (n, v)

def keys (r : LRow) : List Nat := r.cells.map Prod.fst

section
variable (rnd : ℚ → ℚ)

/-- The new value of a cell with value `v` into which `k` is inserted. -/
def put (v k : ℚ) : ℚ :=
  if v ≠ 0 then (let w := rnd (v + k); if Fl.nearZero w then 0 else w)
  else if Fl.nearZero k then 0 else k

def insertSymbol (r : LRow) (s : Nat) (k : ℚ) : LRow :=
  ⟨tab (s :: keys r) fun n => if n = s then put rnd (get r.cells n) k else get r.cells n, r.const⟩

def insertRow (r o : LRow) (k : ℚ) : LRow :=
  ⟨tab (keys r ++ keys o) fun n =>
      let w := get o.cells n
      if w ≠ 0 then put rnd (get r.cells n) (rnd (w * k)) else get r.cells n,
    rnd (r.const + rnd (o.const * k))⟩

def solveForSymbol (r : LRow) (s : Nat) : LRow :=
  let c := rnd (-1 / get r.cells s)
  ⟨tab (keys r) fun n =>
      if n = s then 0 else let v := get r.cells n; if v ≠ 0 then rnd (v * c) else 0,
    rnd (r.const * c)⟩

def solveForSymbols (r : LRow) (l e : Nat) : LRow := solveForSymbol rnd (insertSymbol rnd r l (-1)) e

def substituteRow (r : LRow) (s : Nat) (row : LRow) : LRow :=
  let c := get r.cells s
  if c = 0 then r else insertRow rnd ⟨Fast.drop s r.cells, r.const⟩ row c

def pivotIn (F : FS) (s : Nat) (row : LRow) : FS :=
  { F with
    rows := Fast.insertRow s row (Fast.dropRow s (F.rows.map fun p => (p.1, substituteRow rnd p.2 s row)))
    objective := substituteRow rnd F.objective s row
    artificial := F.artificial.map fun r => substituteRow rnd r s row }

def ratio (F : FS) (e n : Nat) : Option ℚ :=
  if n < 1024 ∧ n % 4 ≠ 0 then
    match Fast.find F.rows n with
    | some r =>
      let c := get r.cells e
      if c < 0 then some (rnd (-r.const / c)) else none
    | none => none
  else none

def ratios (F : FS) (e : Nat) : List (Nat × ℚ) :=
  F.rows.filterMap fun p => (ratio rnd F e p.1).map fun q => (p.1, q)

def leaving (w : Nat) (F : FS) (e : Nat) : Option Nat :=
  let rs := ratios rnd F e
  match Fast.lowest rs with
  | none => none
  | some m => Fast.pick w ((rs.filter fun p => decide (p.2 ≤ m)).map Prod.fst)

def step (w w' : Nat) (obj : LRow) (F : FS) : Fast.Step :=
  match Fast.entering w obj with
  | none => .done
  | some e =>
    match leaving rnd w' F e with
    | none => .unbounded
    | some l =>
      match Fast.find F.rows l with
      | none => .unbounded
      | some row =>
        .next (pivotIn rnd { F with rows := Fast.dropRow l F.rows } e (solveForSymbols rnd row l e))

def optimize (ω : Nat → Nat) (art : Bool) : Nat → Nat → FS → Except SolverErr (FS × Nat)
  | 0, _, _ => .error .fuel
  | fuel + 1, k, F =>
    match step rnd (ω k) (ω (k + 1)) (Fast.sel art F) F with
    | .done => .ok (F, k)
    | .unbounded => .error .unbounded
    | .next F' => optimize ω art fuel (k + 2) F'

def addTerms (F : FS) (row : LRow) : List (Var × ℚ) → FS × LRow
  | [] => (F, row)
  | (v, k) :: ts =>
    if Fl.nearZero k then addTerms F row ts
    else
      let p := Fast.varSymbol F v
      match Fast.find p.1.rows p.2 with
      | some other => addTerms p.1 (insertRow rnd row other k) ts
      | none => addTerms p.1 (insertSymbol rnd row p.2 k) ts

def addMarkers (F : FS) (row : LRow) (c : Constr) : FS × LRow × Nat × Option Nat :=
  let ineq (coeff : ℚ) : FS × LRow × Nat × Option Nat :=
    let slack := Fast.symAt F.tick 1
    if c.strength < required then
      let err := Fast.symAt (F.tick + 1) 2
      ({ F with tick := F.tick + 2, objective := insertSymbol rnd F.objective err c.strength },
        insertSymbol rnd (insertSymbol rnd row slack coeff) err (-coeff), slack, some err)
    else
      ({ F with tick := F.tick + 1 }, insertSymbol rnd row slack coeff, slack, none)
  match c.op with
  | .ge => ineq (-1)
  | .le => ineq 1
  | .eq =>
    if c.strength < required then
      let plus := Fast.symAt F.tick 2
      let minus := Fast.symAt (F.tick + 1) 2
      ({ F with
          tick := F.tick + 2
          objective := insertSymbol rnd (insertSymbol rnd F.objective plus c.strength) minus c.strength },
        insertSymbol rnd (insertSymbol rnd row plus (-1)) minus 1, plus, some minus)
    else
      let dummy := Fast.symAt F.tick 3
      ({ F with tick := F.tick + 1 }, insertSymbol rnd row dummy 1, dummy, none)

def createRow (F : FS) (c : Constr) : FS × LRow × Nat × Option Nat :=
  let p := addTerms rnd F ⟨[], c.expr.constant⟩ c.expr.terms
  let q := addMarkers rnd p.1 p.2 c
  (q.1, if q.2.1.const < 0 then q.2.1.negate else q.2.1, q.2.2)

def finishArtificial (ω : Nat → Nat) (art : Nat) (F : FS) (k : Nat) : (FS × Nat) × Bool :=
  let success := Fl.nearZero (Fast.sel true F).const
  let F1 := { F with artificial := none }
  match Fast.find F1.rows art with
  | some row =>
    let F2 := { F1 with rows := Fast.dropRow art F1.rows }
    if row.noCells then ((F2, k), success)
    else
      match Fast.anyPivotable (ω k) row with
      | none => ((F2, k), false)
      | some e =>
        ((Fast.removeSymbol (pivotIn rnd F2 e (solveForSymbols rnd row art e)) art, k + 1), success)
  | none => ((Fast.removeSymbol F1 art, k), success)

def addWithArtificial (ω : Nat → Nat) (fuel : Nat) (F : FS) (k : Nat) (row : LRow) :
    Except SolverErr ((FS × Nat) × Bool) :=
  let art := Fast.symAt F.tick 1
  match optimize rnd ω true fuel k
      { F with
        tick := F.tick + 1
        rows := Fast.insertRow art row (Fast.dropRow art F.rows)
        artificial := some row } with
  | .error e => .error e
  | .ok (F1, k) => .ok (finishArtificial rnd ω art F1 k)

def insertConstraint (ω : Nat → Nat) (fuel : Nat) (F : FS) (k : Nat) (c : Constr) :
    Except SolverErr (FS × Nat) :=
  let p := createRow rnd F c
  let F1 := p.1
  let row := p.2.1
  match Fast.chooseSubject (ω k) row p.2.2.1 p.2.2.2 with
  | some subject => .ok (pivotIn rnd F1 subject (solveForSymbol rnd row subject), k + 1)
  | none =>
    if Fast.allDummies row then
      if Fl.nearZero row.const = false then .error .unsatisfiable
      else .ok (pivotIn rnd F1 p.2.2.1 (solveForSymbol rnd row p.2.2.1), k + 1)
    else
      match addWithArtificial rnd ω fuel F1 (k + 1) row with
      | .error e => .error e
      | .ok (r, true) => .ok r
      | .ok (_, false) => .error .unsatisfiable

def addConstraint (ω : Nat → Nat) (fuel : Nat) (F : FS) (k : Nat) (c : Constr) :
    Except SolverErr (FS × Nat) :=
  match insertConstraint rnd ω fuel F k c with
  | .error e => .error e
  | .ok (F1, k1) => optimize rnd ω false fuel k1 F1

def addConstraints (ω : Nat → Nat) (fuel : Nat) (F : FS) (k : Nat) : List Constr → Except SolverErr (FS × Nat)
  | [] => .ok (F, k)
  | c :: cs =>
    match addConstraint rnd ω fuel F k c with
    | .error e => .error e
    | .ok (F1, k1) => addConstraints ω fuel F1 k1 cs

end

end Bento.Casso.FlFast
