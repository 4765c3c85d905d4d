import Verif.Lemmas.Fast

/-!
# A solver for the kernel

`Lemmas/Fast.lean` runs the solver on lists of rational numbers, which the kernel can only do for
small layouts.  This file is the same solver once more, written for the kernel: fractions without
proofs, recursors instead of recursive definitions, a bit mask of the symbols of each row, and every
new row is evaluated before it is used (the functions pass their results on to a continuation).

A computation is a test that says yes or no; no also stands for every way to fail, a division by zero
among them.  `Lemmas/QuickOk.lean` proves that a yes means that the list solver gives the result that
the test was about.
-/

namespace Bento.Casso.Quick

noncomputable section

/-- The fraction `num / (den + 1)`. -/
structure Frac where
  num : Int
  den : Nat

namespace Frac

def norm (n : Int) (d : Nat) : Frac :=
  ⟨n / (Nat.gcd n.natAbs d : Nat), Nat.sub (Nat.div d (Nat.gcd n.natAbs d)) 1⟩

/-- `m - n` -/
def sub' (m n : Nat) : Int :=
  @Nat.rec (fun _ => Int) (Int.ofNat (Nat.sub m n)) (fun d _ => Int.negSucc d) (Nat.sub n m)

def addInt (a b : Int) : Int :=
  @Int.rec (fun _ => Int)
    (fun m => @Int.rec (fun _ => Int) (fun n => Int.ofNat (Nat.add m n)) (fun n => sub' m (Nat.succ n)) b)
    (fun m => @Int.rec (fun _ => Int) (fun n => sub' n (Nat.succ m))
      (fun n => Int.negSucc (Nat.succ (Nat.add m n))) b) a

def negNat (n : Nat) : Int := @Nat.rec (fun _ => Int) (Int.ofNat 0) (fun d _ => Int.negSucc d) n

def mulInt (a b : Int) : Int :=
  @Int.rec (fun _ => Int)
    (fun m => @Int.rec (fun _ => Int) (fun n => Int.ofNat (Nat.mul m n)) (fun n => negNat (Nat.mul m (Nat.succ n))) b)
    (fun m => @Int.rec (fun _ => Int) (fun n => negNat (Nat.mul (Nat.succ m) n))
      (fun n => Int.ofNat (Nat.mul (Nat.succ m) (Nat.succ n))) b) a

def add (a b : Frac) : Frac :=
  cond (Nat.beq (Nat.add a.den b.den) 0) ⟨addInt a.num b.num, 0⟩
    (norm (a.num * (b.den + 1) + b.num * (a.den + 1)) ((a.den + 1) * (b.den + 1)))

def mul (a b : Frac) : Frac :=
  cond (Nat.beq (Nat.add a.den b.den) 0) ⟨mulInt a.num b.num, 0⟩
    (norm (a.num * b.num) ((a.den + 1) * (b.den + 1)))

def neg (a : Frac) : Frac := ⟨Int.neg a.num, a.den⟩

/-- `-1 / a` -/
def ninv (a : Frac) : Frac :=
  @Int.rec (fun _ => Frac) (fun n => norm (-(a.den + 1 : Int)) n) (fun n => norm (a.den + 1) (n + 1)) a.num

def lt0 (a : Frac) : Bool := @Int.rec (fun _ => Bool) (fun _ => false) (fun _ => true) a.num

def is0 (a : Frac) : Bool := @Int.rec (fun _ => Bool) (fun n => Nat.beq n 0) (fun _ => false) a.num

def le (a b : Frac) : Bool := !(add b (neg a)).lt0

def ofRat (q : ℚ) : Frac := ⟨q.num, Nat.sub q.den 1⟩

def zero : Frac := ⟨0, 0⟩
def one : Frac := ⟨1, 0⟩
def negOne : Frac := ⟨-1, 0⟩

end Frac

/-! ### Evaluation -/

def forceNat (n : Nat) (k : Nat → Bool) : Bool :=
  @Nat.rec (fun _ => Bool) (k 0) (fun m _ => k (Nat.succ m)) n

def forceInt (z : Int) (k : Int → Bool) : Bool :=
  @Int.rec (fun _ => Bool) (fun n => forceNat n fun n => k (Int.ofNat n))
    (fun n => forceNat n fun n => k (Int.negSucc n)) z

def forceFrac (q : Frac) (k : Frac → Bool) : Bool :=
  forceInt q.num fun n => forceNat q.den fun d => k ⟨n, d⟩

abbrev Cells := List (Nat × Frac)

/-- Evaluate the coefficients; the keys are evaluated already. -/
def forceCells (l : Cells) : (Cells → Bool) → Bool :=
  @List.rec (Nat × Frac) (fun _ => (Cells → Bool) → Bool) (fun k => k [])
    (fun p _ ih k => forceFrac p.2 fun q => ih fun t => k ((p.1, q) :: t)) l

/-! ### Cells -/

/-- The coefficient at a key; the keys are in order. -/
def get (n : Nat) (l : Cells) : Frac :=
  @List.rec (Nat × Frac) (fun _ => Frac) Frac.zero (fun p _ ih => cond (Nat.beq p.1 n) p.2 ih) l

def consNZ (k : Nat) (v : Frac) (l : Cells) : Cells := cond v.is0 l ((k, v) :: l)

def mergeOne (k : Nat) (v : Frac) (rest : Cells → Cells) (l : Cells) : Cells :=
  @List.rec (Nat × Frac) (fun _ => Cells) ((k, v) :: rest [])
    (fun q t ih => cond (Nat.ble (Nat.succ k) q.1) ((k, v) :: rest (q :: t))
      (cond (Nat.ble (Nat.succ q.1) k) (q :: ih) (consNZ k (v.add q.2) (rest t)))) l

def merge (xs : Cells) : Cells → Cells :=
  @List.rec (Nat × Frac) (fun _ => Cells → Cells) (fun ys => ys) (fun p _ ih ys => mergeOne p.1 p.2 ih ys) xs

def scale (c : Frac) (l : Cells) : Cells :=
  @List.rec (Nat × Frac) (fun _ => Cells) [] (fun p _ ih => (p.1, p.2.mul c) :: ih) l

def drop (n : Nat) (l : Cells) : Cells :=
  @List.rec (Nat × Frac) (fun _ => Cells) [] (fun p _ ih => cond (Nat.beq p.1 n) ih (p :: ih)) l

def maskOf (l : Cells) : Nat :=
  @List.rec (Nat × Frac) (fun _ => Nat) 0 (fun p _ ih => Nat.lor (Nat.shiftLeft 1 p.1) ih) l

def has (m n : Nat) : Bool := Nat.beq (Nat.land 1 (Nat.shiftRight m n)) 1

/-! ### Rows -/

structure QRow where
  cells : Cells
  const : Frac
  mask : Nat

def withRow (cells : Cells) (const : Frac) (k : QRow → Bool) : Bool :=
  forceCells cells fun c => forceFrac const fun q => forceNat (maskOf c) fun m => k ⟨c, q, m⟩

def insertSymbol (r : QRow) (s : Nat) (c : Frac) : (QRow → Bool) → Bool :=
  withRow (merge r.cells [(s, c)]) r.const

def insertInto (r o : QRow) (c : Frac) : (QRow → Bool) → Bool :=
  withRow (merge r.cells (scale c o.cells)) (r.const.add (o.const.mul c))

/-- Solve for a symbol; division by zero fails. -/
def solveForSymbol (r : QRow) (s : Nat) (k : QRow → Bool) : Bool :=
  cond (get s r.cells).is0 false <|
    forceFrac (get s r.cells).ninv fun c => withRow (scale c (drop s r.cells)) (r.const.mul c) k

def solveForSymbols (r : QRow) (l e : Nat) (k : QRow → Bool) : Bool :=
  insertSymbol r l Frac.negOne fun r => solveForSymbol r e k

def substitute (r : QRow) (s : Nat) (row : QRow) (k : QRow → Bool) : Bool :=
  cond (has r.mask s)
    (forceFrac (get s r.cells) fun c => cond c.is0 (k r) <|
      withRow (merge (drop s r.cells) (scale c row.cells)) (r.const.add (row.const.mul c)) k)
    (k r)

def removed (r : QRow) (s : Nat) (k : QRow → Bool) : Bool :=
  cond (has r.mask s) (withRow (drop s r.cells) r.const k) (k r)

def negate (r : QRow) (k : QRow → Bool) : Bool :=
  withRow (scale Frac.negOne r.cells) r.const.neg k

abbrev Rows := List (Nat × QRow)

def find {α : Type} (n : Nat) (l : List (Nat × α)) : Option α :=
  @List.rec (Nat × α) (fun _ => Option α) none (fun p _ ih => cond (Nat.beq p.1 n) (some p.2) ih) l

def mapRows (f : QRow → (QRow → Bool) → Bool) (l : Rows) : (Rows → Bool) → Bool :=
  @List.rec (Nat × QRow) (fun _ => (Rows → Bool) → Bool) (fun k => k [])
    (fun p _ ih k => f p.2 fun r => ih fun t => k ((p.1, r) :: t)) l

def dropRow (n : Nat) (l : Rows) : (Rows → Bool) → Bool :=
  @List.rec (Nat × QRow) (fun _ => (Rows → Bool) → Bool) (fun k => k [])
    (fun p _ ih k => cond (Nat.beq p.1 n) (ih k) (ih fun t => k (p :: t))) l

def insertRow (n : Nat) (r : QRow) (l : Rows) : (Rows → Bool) → Bool :=
  @List.rec (Nat × QRow) (fun _ => (Rows → Bool) → Bool) (fun k => k [(n, r)])
    (fun p t ih k => cond (Nat.ble (Nat.succ n) p.1) (k ((n, r) :: p :: t)) (ih fun t => k (p :: t))) l

structure QS where
  rows : Rows
  objective : QRow
  artificial : Option QRow
  tick : Nat
  vars : List (Nat × Nat)

def new : QS := ⟨[], ⟨[], Frac.zero, 0⟩, none, 1, []⟩

def onArtificial (f : QRow → (QRow → Bool) → Bool) (a : Option QRow) (k : Option QRow → Bool) : Bool :=
  @Option.rec QRow (fun _ => Bool) (k none) (fun r => f r fun r => k (some r)) a

def pivotIn (F : QS) (s : Nat) (row : QRow) (k : QS → Bool) : Bool :=
  mapRows (fun r => substitute r s row) F.rows fun rows =>
  dropRow s rows fun rows =>
  insertRow s row rows fun rows =>
  substitute F.objective s row fun obj =>
  onArtificial (fun r => substitute r s row) F.artificial fun art =>
  k ⟨rows, obj, art, F.tick, F.vars⟩

/-! ### Choices -/

/-- The keys of the cells that pass a test. -/
def keys (t : Nat → Frac → Bool) (l : Cells) : List Nat :=
  @List.rec (Nat × Frac) (fun _ => List Nat) [] (fun p _ ih => cond (t p.1 p.2) (p.1 :: ih) ih) l

def allCells (t : Nat → Frac → Bool) (l : Cells) : Bool :=
  @List.rec (Nat × Frac) (fun _ => Bool) true (fun p _ ih => cond (t p.1 p.2) ih false) l

def small (n : Nat) : Bool := Nat.ble (Nat.succ n) 1024

/-- The type of a symbol. -/
def typ (n t : Nat) : Bool := Nat.beq (Nat.mod n 4) t

def entering (w : Nat) (obj : QRow) : Option Nat :=
  Fast.pick w (keys (fun n v => cond (small n) (cond (typ n 3) false v.lt0) false) obj.cells)

def ratios (e : Nat) (l : Rows) : List (Nat × Frac) :=
  @List.rec (Nat × QRow) (fun _ => List (Nat × Frac)) []
    (fun p _ ih => cond (has p.2.mask e)
      (cond (small p.1) (cond (typ p.1 0) ih
        (cond (get e p.2.cells).lt0 ((p.1, p.2.const.mul (get e p.2.cells).ninv) :: ih) ih)) ih) ih) l

def lowest (l : List (Nat × Frac)) : Option Frac :=
  @List.rec (Nat × Frac) (fun _ => Option Frac) none
    (fun p _ ih => @Option.rec Frac (fun _ => Option Frac) (some p.2)
      (fun q => cond (p.2.le q) (some p.2) (some q)) ih) l

def leaving (w : Nat) (l : Rows) (e : Nat) : Option Nat :=
  @Option.rec Frac (fun _ => Option Nat) none
    (fun m => Fast.pick w (keys (fun _ v => v.le m) (ratios e l))) (lowest (ratios e l))

def sel (art : Bool) (F : QS) : QRow :=
  cond art (@Option.rec QRow (fun _ => QRow) ⟨[], Frac.zero, 0⟩ (fun r => r) F.artificial) F.objective

def optimize (ω : Nat → Nat) (art : Bool) (fuel : Nat) : Nat → QS → (QS → Nat → Bool) → Bool :=
  @Nat.rec (fun _ => Nat → QS → (QS → Nat → Bool) → Bool) (fun _ _ _ => false)
    (fun _ ih i F k =>
      @Option.rec Nat (fun _ => Bool) (k F i)
        (fun e => forceNat e fun e =>
          @Option.rec Nat (fun _ => Bool) false
            (fun l => forceNat l fun l =>
              @Option.rec QRow (fun _ => Bool) false
                (fun row => dropRow l F.rows fun rows =>
                  solveForSymbols row l e fun row =>
                  pivotIn { F with rows := rows } e row fun F => ih (i + 2) F k)
                (find l F.rows))
            (leaving (ω (i + 1)) F.rows e))
        (entering (ω i) (sel art F))) fuel

/-! ### Adding a constraint -/

def varSymbol (F : QS) (v : Nat) (k : QS → Nat → Bool) : Bool :=
  @Option.rec Nat (fun _ => Bool)
    (forceNat (Fast.symAt F.tick 0) fun s => forceNat (F.tick + 1) fun t =>
      k { F with vars := (v, s) :: F.vars, tick := t } s)
    (fun s => k F s) (find v F.vars)

def addTerms (ts : List (Var × ℚ)) : QS → QRow → (QS → QRow → Bool) → Bool :=
  @List.rec (Var × ℚ) (fun _ => QS → QRow → (QS → QRow → Bool) → Bool) (fun F row k => k F row)
    (fun p _ ih F row k =>
      forceFrac (Frac.ofRat p.2) fun c =>
      cond c.is0 (ih F row k) <|
      forceNat p.1 fun v =>
      varSymbol F v fun F s =>
      @Option.rec QRow (fun _ => Bool) (insertSymbol row s c fun row => ih F row k)
        (fun other => insertInto row other c fun row => ih F row k) (find s F.rows)) ts

def addIneq (F : QS) (row : QRow) (soft : Bool) (strength coeff : Frac)
    (k : QS → QRow → Nat → Option Nat → Bool) : Bool :=
  forceNat (Fast.symAt F.tick 1) fun slack =>
  insertSymbol row slack coeff fun row =>
  cond soft
    (forceNat (Fast.symAt (F.tick + 1) 2) fun err =>
      forceNat (F.tick + 2) fun t =>
      insertSymbol row err coeff.neg fun row =>
      insertSymbol F.objective err strength fun obj =>
      k { F with tick := t, objective := obj } row slack (some err))
    (forceNat (F.tick + 1) fun t => k { F with tick := t } row slack none)

def addMarkers (F : QS) (row : QRow) (c : Constr) (k : QS → QRow → Nat → Option Nat → Bool) : Bool :=
  forceFrac (Frac.ofRat c.strength) fun strength =>
  match c.op with
  | .ge => addIneq F row (decide (c.strength < required)) strength Frac.negOne k
  | .le => addIneq F row (decide (c.strength < required)) strength Frac.one k
  | .eq =>
    cond (decide (c.strength < required))
      (forceNat (Fast.symAt F.tick 2) fun plus =>
        forceNat (Fast.symAt (F.tick + 1) 2) fun minus =>
        forceNat (F.tick + 2) fun t =>
        insertSymbol F.objective plus strength fun obj =>
        insertSymbol obj minus strength fun obj =>
        insertSymbol row plus Frac.negOne fun row =>
        insertSymbol row minus Frac.one fun row =>
        k { F with tick := t, objective := obj } row plus (some minus))
      (forceNat (Fast.symAt F.tick 3) fun dummy =>
        forceNat (F.tick + 1) fun t =>
        insertSymbol row dummy Frac.one fun row =>
        k { F with tick := t } row dummy none)

def createRow (F : QS) (c : Constr) (k : QS → QRow → Nat → Option Nat → Bool) : Bool :=
  withRow [] (Frac.ofRat c.expr.constant) fun row =>
  addTerms c.expr.terms F row fun F row =>
  addMarkers F row c fun F row marker other =>
  cond row.const.lt0 (negate row fun row => k F row marker other) (k F row marker other)

def pivotable (row : QRow) (n : Nat) : Bool :=
  cond (cond (typ n 1) true (typ n 2)) (get n row.cells).lt0 false

def chooseSubject (w : Nat) (row : QRow) (marker : Nat) (other : Option Nat) : Option Nat :=
  @Option.rec Nat (fun _ => Option Nat)
    (cond (pivotable row marker) (some marker)
      (@Option.rec Nat (fun _ => Option Nat) none (fun o => cond (pivotable row o) (some o) none) other))
    (fun s => some s)
    (Fast.pick w (keys (fun n v => cond (small n) (cond (typ n 0) (!v.is0) false) false) row.cells))

def anyPivotable (w : Nat) (row : QRow) : Option Nat :=
  Fast.pick w (keys (fun n v => cond (small n) (cond (cond (typ n 1) true (typ n 2)) (!v.is0) false) false)
    row.cells)

def allDummies (row : QRow) : Bool :=
  allCells (fun n v => cond (small n) (cond (typ n 3) true v.is0) true) row.cells

def noCells (row : QRow) : Bool := allCells (fun n v => cond (small n) v.is0 true) row.cells

def removeSymbol (F : QS) (s : Nat) (k : QS → Bool) : Bool :=
  mapRows (fun r => removed r s) F.rows fun rows =>
  removed F.objective s fun obj =>
  k { F with rows := rows, objective := obj }

/-- Only successful endings. -/
def finishArtificial (ω : Nat → Nat) (art : Nat) (F : QS) (i : Nat) (k : QS → Nat → Bool) : Bool :=
  cond (sel true F).const.is0
    (@Option.rec QRow (fun _ => Bool)
      (removeSymbol { F with artificial := none } art fun F => k F i)
      (fun row => dropRow art F.rows fun rows =>
        cond (noCells row) (k { F with rows := rows, artificial := none } i) <|
        @Option.rec Nat (fun _ => Bool) false
          (fun e => forceNat e fun e => solveForSymbols row art e fun row =>
            pivotIn { F with rows := rows, artificial := none } e row fun F =>
            removeSymbol F art fun F => k F (i + 1))
          (anyPivotable (ω i) row))
      (find art F.rows))
    false

def addWithArtificial (ω : Nat → Nat) (fuel : Nat) (F : QS) (i : Nat) (row : QRow)
    (k : QS → Nat → Bool) : Bool :=
  forceNat (Fast.symAt F.tick 1) fun art =>
  forceNat (F.tick + 1) fun t =>
  dropRow art F.rows fun rows =>
  insertRow art row rows fun rows =>
  optimize ω true fuel i { F with tick := t, rows := rows, artificial := some row } fun F i =>
  finishArtificial ω art F i k

def insertConstraint (ω : Nat → Nat) (fuel : Nat) (F : QS) (i : Nat) (c : Constr)
    (k : QS → Nat → Bool) : Bool :=
  createRow F c fun F row marker other =>
  @Option.rec Nat (fun _ => Bool)
    (cond (allDummies row)
      (cond row.const.is0 (solveForSymbol row marker fun row => pivotIn F marker row fun F => k F (i + 1)) false)
      (addWithArtificial ω fuel F (i + 1) row k))
    (fun s => forceNat s fun s => solveForSymbol row s fun row => pivotIn F s row fun F => k F (i + 1))
    (chooseSubject (ω i) row marker other)

def addConstraint (ω : Nat → Nat) (fuel : Nat) (F : QS) (i : Nat) (c : Constr) (k : QS → Nat → Bool) : Bool :=
  insertConstraint ω fuel F i c fun F i => optimize ω false fuel i F k

def addConstraints (ω : Nat → Nat) (fuel : Nat) (cs : List Constr) : QS → Nat → (QS → Nat → Bool) → Bool :=
  @List.rec Constr (fun _ => QS → Nat → (QS → Nat → Bool) → Bool) (fun F i k => k F i)
    (fun c _ ih F i k => addConstraint ω fuel F i c fun F i => ih F i k) cs

def getValue (F : QS) (v : Nat) : Frac :=
  @Option.rec Nat (fun _ => Frac) Frac.zero
    (fun s => @Option.rec QRow (fun _ => Frac) Frac.zero (fun r => r.const) (find s F.rows)) (find v F.vars)

end

end Bento.Casso.Quick
