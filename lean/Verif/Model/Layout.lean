import Verif.Model.Geometry
import Verif.Model.Casso
import Mathlib.Algebra.Order.Floor.Defs
import Mathlib.Data.Rat.Floor

/-!
# Layouts

Models `/repo/layout.go`, with the types of `/repo/constraint.go`, `/repo/flex.go`,
`/repo/spacing.go`, `/repo/direction.go`.

Simplifications:

* `float64` is modelled by exact rationals, Go `int` by unbounded `Int` (see `Model/Casso`).
* `casso.NewVariable` hands out fresh numbers from a global counter; the numbers are only used as map
  keys, and the variables of one split are numbered from 0 here. `Model/Variables` models the counter
  itself; C94 proves that the numbers make no difference.
* `Direction` and `Flex` are Go integers of which only the named constants are modelled.
-/

namespace Bento

open Casso

/-- `/repo/direction.go` — `Direction`. -/
inductive Direction
  | horizontal | vertical
  deriving DecidableEq, Repr

/-- `/repo/constraint.go:11-18` — the six implementations of `Constraint`. -/
inductive Constraint
  | min (n : Int) | max (n : Int) | len (n : Int) | percentage (n : Int) | ratio (num den : Int)
  | fill (n : Int)
  deriving DecidableEq, Repr

/-- `/repo/flex.go:3-12` — `Flex`. -/
inductive Flex
  | legacy | start | end' | center | spaceBetween | spaceAround
  deriving DecidableEq, Repr

/-- `/repo/spacing.go:3-8` — `Spacing`, an empty interface; `other` is any other dynamic type. -/
inductive Spacing
  | space (n : Int) | overlap (n : Int) | other
  deriving DecidableEq, Repr

/-- `/repo/layout.go:54-60` — `Layout`. -/
structure Layout where
  direction : Direction
  constraints : List Constraint
  padding : Padding
  flex : Flex
  spacing : Spacing
  deriving Repr

namespace Layout

/-- `/repo/layout.go:10` — `_floatPrecisionMultiplier`. -/
def multiplier : ℚ := 100

/-! `/repo/layout.go:12-26` — the strengths. -/

/-- `/repo/layout.go:13` -/
def spacerSizeEq : ℚ := required / 10
/-- `/repo/layout.go:14` -/
def minSizeGTE : ℚ := strong * 100
/-- `/repo/layout.go:15` -/
def maxSizeLTE : ℚ := strong * 100
/-- `/repo/layout.go:17` -/
def lengthSizeEq : ℚ := strong * 10
/-- `/repo/layout.go:18` -/
def percentageSizeEq : ℚ := strong
/-- `/repo/layout.go:19` -/
def ratioSizeEq : ℚ := strong / 10
/-- `/repo/layout.go:20` -/
def minSizeEq : ℚ := medium * 10
/-- `/repo/layout.go:21` -/
def maxSizeEq : ℚ := medium * 10
/-- `/repo/layout.go:22` -/
def grow : ℚ := 100
/-- `/repo/layout.go:23` -/
def fillGrow : ℚ := medium
/-- `/repo/layout.go:24` -/
def spaceGrow : ℚ := weak * 10
/-- `/repo/layout.go:25` -/
def allSegmentGrow : ℚ := weak

/-- `/repo/layout.go:624-626` — `_Element`. -/
structure Element where
  start : Var
  stop : Var
  deriving DecidableEq, Repr

/-- `/repo/layout.go:610-622` — `newElements`: consecutive pairs, a last odd variable is dropped. -/
def newElements : List Var → List Element
  | a :: b :: t => ⟨a, b⟩ :: newElements t
  | _ => []

namespace Element

/-- `/repo/layout.go:635-637` — `size`. -/
def size (e : Element) : Expr := Expr.varSub e.stop e.start

/-- `/repo/layout.go:639-644` — `isEmpty`. -/
def isEmpty (e : Element) : Constr := Constr.constantRHS .eq (required - 1) e.size 0

/-- `/repo/layout.go:646-654` — `hasSize`. -/
def hasSize (e : Element) (size : Expr) (strength : ℚ) : Constr :=
  Constr.expressionRHS .eq strength e.size size

/-- `/repo/layout.go:656-664` — `hasMaxSize`. -/
def hasMaxSize (e : Element) (size : Int) (strength : ℚ) : Constr :=
  Constr.constantRHS .le strength e.size ((size : ℚ) * multiplier)

/-- `/repo/layout.go:666-674` — `hasMinSize`. -/
def hasMinSize (e : Element) (size : Int) (strength : ℚ) : Constr :=
  Constr.constantRHS .ge strength e.size ((size : ℚ) * multiplier)

/-- `/repo/layout.go:676-684` — `hasIntSize`. -/
def hasIntSize (e : Element) (size : Int) (strength : ℚ) : Constr :=
  Constr.constantRHS .eq strength e.size ((size : ℚ) * multiplier)

end Element

/-- `/repo/layout.go:733-735` — the loop of `binomial`, at iteration `i` with `fuel` iterations left. -/
def binomialLoop (n k : Int) : Nat → Int → Int → Int
  | 0, _, b => b
  | fuel + 1, i, b => binomialLoop n k fuel (i + 1) (((n - k + i) * b).tdiv i)

/-- `/repo/layout.go:721-737` — `binomial`; `none` is a panic. -/
def binomial (n k : Int) : Option Int :=
  if n < 0 ∨ k < 0 then none
  else if n < k then none
  else
    let k := if k > n.tdiv 2 then n - k else k
    some (binomialLoop n k k.toNat 1 1)

/-- `/repo/layout.go:709-718` — the loop of `nextCombination`, looking at position `j` (`j + 1` is the
first argument). -/
def nextLoop (n : Int) (k : Nat) : Nat → List Int → List Int
  | 0, s => s
  | j + 1, s =>
    if s[j]?.getD 0 = n + j - k then nextLoop n k j s
    else
      s.take j ++ (List.range (k - j)).map fun (l : Nat) => s[j]?.getD 0 + 1 + (l : Int)

/-- `/repo/layout.go:708-719` — `nextCombination` on a slice of length `k`. -/
def nextCombination (s : List Int) (n : Int) (k : Nat) : List Int := nextLoop n k k s

/-- `/repo/layout.go:698-703` — the loop of `combinations`. -/
def combinationsLoop (n : Int) (k : Nat) : Nat → List Int → List (List Int)
  | 0, _ => []
  | fuel + 1, s => nextCombination s n k :: combinationsLoop n k fuel (nextCombination s n k)

/-- `/repo/layout.go:686-706` — `combinations`; `none` is a panic. -/
def combinations (n : Int) (k : Nat) : Option (List (List Int)) :=
  (binomial n k).map fun combins =>
    if combins ≤ 0 then []
    else
      let first := (List.range k).map fun (i : Nat) => (i : Int)
      first :: combinationsLoop n k (combins - 1).toNat first

/-- Read the two indices of a combination out of a list (`indices[0], indices[1]`, then indexing). -/
def pairAt {α : Type} (xs : List α) (indices : List Int) : Option (α × α) :=
  match indices with
  | i :: j :: _ =>
    match xs[i.toNat]?, xs[j.toNat]? with
    | some a, some b => if i < 0 ∨ j < 0 then none else some (a, b)
    | _, _ => none
  | _ => none

/-- The pairs enumerated by `combinations(len(xs), 2)`
(`/repo/layout.go:285-292`, `430-433`, `454-457`); `none` is a panic. -/
def pairsOf {α : Type} (xs : List α) : Option (List (α × α)) :=
  (combinations xs.length 2).bind fun l => l.mapM (pairAt xs)

/-- `/repo/layout.go:591-608` — `configureArea`. -/
def areaConstraints (area : Element) (areaStart areaEnd : ℚ) : List Constr :=
  [Constr.constantRHS .eq required (Expr.ofVar area.start) areaStart,
   Constr.constantRHS .eq required (Expr.ofVar area.stop) areaEnd]

/-- `/repo/layout.go:570-589` — `configureVariableInAreaConstraints`. -/
def variableInAreaConstraints (vars : List Var) (area : Element) : List Constr :=
  vars.flatMap fun v =>
    [Constr.variableRHS .ge required (Expr.ofVar v) area.start,
     Constr.variableRHS .le required (Expr.ofVar v) area.stop]

/-- `/repo/layout.go:549-568` — `configureVariableConstraints`; the loop runs over the same pairs as
`newElements(variables[1:])`. -/
def variableConstraints (vars : List Var) : List Constr :=
  (newElements vars.tail).map fun e =>
    Constr.variableRHS .le required (Expr.ofVar e.start) e.stop

/-- `/repo/layout.go:404-408` — `spacers[1 : len(spacers)-1]` if there are more than two. -/
def interior (spacers : List Element) : List Element :=
  if spacers.length > 2 then spacers.tail.dropLast else []

/-- `/repo/layout.go:414-418`, `485-489`, `505-511`, `526-530` — the inner spacers have the given
size. -/
def fixedSpacing (spacers : List Element) (spacing : Int) : List Constr :=
  (interior spacers).map fun s =>
    s.hasSize (Expr.ofConstant ((spacing : ℚ) * multiplier)) spacerSizeEq

/-- `/repo/layout.go:429-450`, `453-473` — the inner spacers are equal, at least the given size, and
grow. -/
def growingSpacing (area : Element) (spacers : List Element) (spacing : Int) :
    Option (List Constr) :=
  let inner := interior spacers
  (if inner.length ≥ 2 then pairsOf inner else some []).map fun pairs =>
    pairs.map (fun p => p.1.hasSize p.2.size spacerSizeEq) ++
    inner.flatMap fun s => [s.hasMinSize spacing spacerSizeEq, s.hasSize area.size spaceGrow]

/-- `/repo/layout.go:397-547` — `configureFlexConstraints`; `none` is a panic. -/
def flexConstraints (area : Element) (spacers : List Element) (flex : Flex) (spacing : Int) :
    Option (List Constr) :=
  -- `if len(spacers) >= 2 { first, last := … }`
  let ends (f : Element → Element → List Constr) : List Constr :=
    match spacers.head?, spacers.getLast? with
    | some first, some last => if spacers.length ≥ 2 then f first last else []
    | _, _ => []
  match flex with
  | .legacy =>
    some (fixedSpacing spacers spacing ++ ends fun first last => [first.isEmpty, last.isEmpty])
  | .spaceAround => growingSpacing area spacers spacing
  | .spaceBetween =>
    (growingSpacing area spacers spacing).map fun cs =>
      cs ++ ends fun first last => [first.isEmpty, last.isEmpty]
  | .start =>
    some (fixedSpacing spacers spacing ++
      ends fun first last => [first.isEmpty, last.hasSize area.size grow])
  | .center =>
    some (fixedSpacing spacers spacing ++
      ends fun first last => [first.hasSize area.size grow, last.hasSize area.size grow,
        first.hasSize last.size spacerSizeEq])
  | .end' =>
    some (fixedSpacing spacers spacing ++
      ends fun first last => [last.isEmpty, first.hasSize area.size grow])

/-- `/repo/layout.go:337-391` — the body of the loop of `configureConstraints`. -/
def constraintFor (area segment : Element) (flex : Flex) : Constraint → List Constr
  | .max size => [segment.hasMaxSize size maxSizeLTE, segment.hasIntSize size maxSizeEq]
  | .min size =>
    [segment.hasMinSize size minSizeGTE,
     if flex = .legacy then segment.hasIntSize size minSizeEq
     else segment.hasSize area.size fillGrow]
  | .len length => [segment.hasIntSize length lengthSizeEq]
  | .percentage p =>
    [segment.hasSize ((area.size.mulConstant (p : ℚ)).divConstant 100) percentageSizeEq]
  | .ratio num den =>
    [segment.hasSize ((area.size.mulConstant (num : ℚ)).divConstant ((max 1 den : Int) : ℚ))
      ratioSizeEq]
  | .fill _ => [segment.hasSize area.size fillGrow]

/-- `/repo/layout.go:326-395` — `configureConstraints`. -/
def sizeConstraints (area : Element) (segments : List Element) (constraints : List Constraint)
    (flex : Flex) : List Constr :=
  (constraints.zip segments).flatMap fun p => constraintFor area p.2 flex p.1

/-- `/repo/layout.go:294-309` — `getScalingFactor` for the constraints that take part in filling
(`none` for the others, `/repo/layout.go:270-278`). -/
def scalingFactor (flex : Flex) : Constraint → Option ℚ
  | .fill n => some (max (1 / 1000000) (n : ℚ))
  | .min _ => if flex = .legacy then none else some 1
  | _ => none

/-- `/repo/layout.go:266-279` — the segments that take part in filling, with their scaling factors. -/
def validFill (segments : List Element) (constraints : List Constraint) (flex : Flex) :
    List (Element × ℚ) :=
  (constraints.zip segments).filterMap fun p =>
    (scalingFactor flex p.1).map fun k => (p.2, k)

/-- `/repo/layout.go:311-317` — the constraint for one pair. -/
def fillPair (l r : Element × ℚ) : Constr :=
  Constr.expressionRHS .eq grow (l.1.size.mulConstant r.2) (r.1.size.mulConstant l.2)

/-- `/repo/layout.go:255-324` — `configureFillConstraints`; `none` is a panic. -/
def fillConstraints (segments : List Element) (constraints : List Constraint) (flex : Flex) :
    Option (List Constr) :=
  let valid := validFill segments constraints flex
  if valid.length < 2 then some []
  else (pairsOf valid).map fun pairs => pairs.map fun p => fillPair p.1 p.2

/-- `/repo/layout.go:185-194` — neighbouring segments have equal size. -/
def neighbourConstraints : List Element → Flex → List Constr
  | segments, flex =>
    if flex ≠ .legacy then
      (segments.zip segments.tail).map fun p => p.1.hasSize p.2.size allSegmentGrow
    else []

/-- `/repo/layout.go:147-154` — the spacing as a number. -/
def Spacing.value : Spacing → Int
  | .space n => n
  | .overlap n => -n
  | .other => 0

/-- `/repo/layout.go:137-142` — the variables of a layout with `n` constraints. -/
def layoutVars (n : Nat) : List Var := List.range (2 * n + 2)

/-- `/repo/layout.go:144` -/
def spacerElements (n : Nat) : List Element := newElements (layoutVars n)

/-- `/repo/layout.go:145` -/
def segmentElements (n : Nat) : List Element := newElements (layoutVars n).tail

/-- `/repo/layout.go:156-159` -/
def areaElement (n : Nat) : Element := ⟨0, 2 * n + 1⟩

/-- `/repo/layout.go:126-135` — start and end of the inner area along the direction. -/
def areaBounds (l : Layout) (inner : Rect) : Int × Int :=
  match l.direction with
  | .horizontal => (inner.x, inner.right)
  | .vertical => (inner.y, inner.bottom)

/-- `/repo/layout.go:161-194` — all constraints, in the order in which they are added; `none` is a
panic. -/
def solverConstraints (l : Layout) (inner : Rect) : Option (List Constr) :=
  let n := l.constraints.length
  let area := areaElement n
  let bounds := l.areaBounds inner
  (flexConstraints area (spacerElements n) l.flex (Spacing.value l.spacing)).bind fun flex =>
  (fillConstraints (segmentElements n) l.constraints l.flex).map fun fill =>
    areaConstraints area ((bounds.1 : ℚ) * multiplier) ((bounds.2 : ℚ) * multiplier) ++
    variableInAreaConstraints (layoutVars n) area ++
    variableConstraints (layoutVars n) ++
    flex ++
    sizeConstraints area (segmentElements n) l.constraints l.flex ++
    fill ++
    neighbourConstraints (segmentElements n) l.flex

/-- `math.Round`: half away from zero. -/
def roundHalfAway (q : ℚ) : Int :=
  if 0 ≤ q then ⌊q + 1 / 2⌋ else -⌊-q + 1 / 2⌋

/-- `/repo/layout.go:221-222` — a solver coordinate in cells. -/
def toCell (q : ℚ) : Int := roundHalfAway ((roundHalfAway q : ℚ) / multiplier)

/-- `/repo/layout.go:198-201` — the map built from the fetched changes; missing entries read as 0. -/
def changesMap (fetched : List (Var × ℚ)) : Var → ℚ :=
  fetched.foldl (fun m c => fun v => if v = c.1 then c.2 else m v) (fun _ => 0)

/-- `/repo/layout.go:217-249` — the rectangle of one element. -/
def elementRect (changes : Var → ℚ) (area : Rect) (direction : Direction) (e : Element) : Rect :=
  let start := toCell (changes e.start)
  let stop := toCell (changes e.stop)
  let size := max 0 (stop - start)
  match direction with
  | .horizontal => { x := start, y := area.y, width := size, height := area.height }
  | .vertical => { x := area.x, y := start, width := area.width, height := size }

/-- `/repo/layout.go:209-253` — `changesToRects`. -/
def changesToRects (changes : Var → ℚ) (elements : List Element) (area : Rect)
    (direction : Direction) : List Rect :=
  elements.map (elementRect changes area direction)

/-- The outcome of `SplitWithSpacers`: the two slices, a panic, or a simplex loop that is still
running after the given number of pivots. -/
inductive Outcome
  | ok (segments spacers : List Rect)
  | panics
  | running
  deriving DecidableEq, Repr

/-- `/repo/layout.go:106-113,121-207` — `SplitWithSpacers`, for a map order `ω` and a bound `fuel` on
the pivots of each optimisation. -/
def splitWithSpacers (ω : Nat → Nat) (fuel : Nat) (l : Layout) (area : Rect) : Outcome :=
  let inner := area.inner l.padding
  match l.solverConstraints inner with
  | none => .panics
  | some cs =>
    match Solver.new.addConstraints ω fuel cs with
    | .error .fuel => .running
    | .error _ => .panics
    | .ok S =>
      let changes := changesMap S.fetchChanges.2
      .ok (changesToRects changes (segmentElements l.constraints.length) inner l.direction)
          (changesToRects changes (spacerElements l.constraints.length) inner l.direction)

end Layout

end Bento
