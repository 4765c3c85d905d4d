import Verif.Lemmas.Combinations
import Verif.Lemmas.Rounding
import Verif.Spec.Linear
import Verif.Spec.Layout
import Mathlib.Tactic.IntervalCases

/-!
# Facts about the constraints of a layout
-/

namespace Bento.Layout

open Casso

theorem newElements_range' (k : Nat) : ∀ s : Nat,
    newElements (List.range' s (2 * k)) = (List.range k).map fun i => ⟨s + 2 * i, s + 2 * i + 1⟩ := by
  induction k with
  | zero => intro s; simp [newElements]
  | succ k ih =>
    intro s
    rw [show 2 * (k + 1) = 2 * k + 1 + 1 by ring, List.range'_succ, List.range'_succ]
    simp only [newElements]
    rw [ih, List.range_succ_eq_map, List.map_cons, List.map_map]
    refine congrArg₂ List.cons (by simp) ?_
    apply List.map_congr_left
    intro i _
    simp only [Function.comp, Nat.succ_eq_add_one]
    congr 1 <;> ring

theorem newElements_range'_odd (k : Nat) : ∀ s : Nat,
    newElements (List.range' s (2 * k + 1)) = (List.range k).map fun i => ⟨s + 2 * i, s + 2 * i + 1⟩ := by
  induction k with
  | zero => intro s; simp [newElements, List.range'_succ]
  | succ k ih =>
    intro s
    rw [show 2 * (k + 1) + 1 = (2 * k + 1) + 1 + 1 by ring, List.range'_succ, List.range'_succ]
    simp only [newElements]
    rw [ih, List.range_succ_eq_map, List.map_cons, List.map_map]
    refine congrArg₂ List.cons (by simp) ?_
    apply List.map_congr_left
    intro i _
    simp only [Function.comp, Nat.succ_eq_add_one]
    congr 1 <;> ring

/-- Spacer `i` lies between the variables `2 i` and `2 i + 1`. -/
theorem spacerElements_eq (n : Nat) :
    spacerElements n = (List.range (n + 1)).map fun i => ⟨2 * i, 2 * i + 1⟩ := by
  unfold spacerElements layoutVars
  rw [List.range_eq_range', show 2 * n + 2 = 2 * (n + 1) by ring, newElements_range']
  apply List.map_congr_left
  intro i _
  simp

/-- Segment `i` lies between the variables `2 i + 1` and `2 i + 2`. -/
theorem segmentElements_eq (n : Nat) :
    segmentElements n = (List.range n).map fun i => ⟨2 * i + 1, 2 * i + 2⟩ := by
  unfold segmentElements layoutVars
  rw [List.range_eq_range', List.range'_succ, List.tail_cons, newElements_range'_odd]
  apply List.map_congr_left
  intro i _
  congr 1 <;> ring

theorem spacerElements_lt {n : Nat} {e : Element} (h : e ∈ spacerElements n) :
    e.start < 2 * n + 2 ∧ e.stop < 2 * n + 2 := by
  rw [spacerElements_eq] at h
  obtain ⟨i, hi, rfl⟩ := List.mem_map.1 h
  have := List.mem_range.1 hi
  exact ⟨show (2 * i : Nat) < 2 * n + 2 by omega, show (2 * i + 1 : Nat) < 2 * n + 2 by omega⟩

theorem segmentElements_lt {n : Nat} {e : Element} (h : e ∈ segmentElements n) :
    e.start < 2 * n + 2 ∧ e.stop < 2 * n + 2 := by
  rw [segmentElements_eq] at h
  obtain ⟨i, hi, rfl⟩ := List.mem_map.1 h
  have := List.mem_range.1 hi
  exact ⟨show (2 * i + 1 : Nat) < 2 * n + 2 by omega, show (2 * i + 2 : Nat) < 2 * n + 2 by omega⟩

/-! ### Well-behaved constraints -/

/-- All variables of an expression are below `m`. -/
def ExprBelow (m : Nat) (e : Expr) : Prop := ∀ v k, (v, k) ∈ e.terms → v < m

/-- All variables of an element are below `m`. -/
def ElemBelow (m : Nat) (e : Element) : Prop := e.start < m ∧ e.stop < m

/-- A constraint that is not required, with variables below `m`. -/
structure Soft (m : Nat) (c : Constr) : Prop where
  below : ExprBelow m c.expr
  nonneg : 0 ≤ c.strength
  lt : c.strength < required

theorem exprBelow_size {m e} (h : ElemBelow m e) : ExprBelow m e.size := by
  intro v k hv
  simp only [Element.size, Expr.varSub, List.mem_cons, Prod.mk.injEq, List.not_mem_nil, or_false] at hv
  rcases hv with ⟨rfl, _⟩ | ⟨rfl, _⟩
  · exact h.2
  · exact h.1

theorem exprBelow_constant (m : Nat) (k : ℚ) : ExprBelow m (Expr.ofConstant k) := by
  intro v k hv; simp [Expr.ofConstant] at hv

theorem exprBelow_ofVar {m v : Nat} (h : v < m) : ExprBelow m (Expr.ofVar v) := by
  intro u k hu
  simp only [Expr.ofVar, List.mem_singleton, Prod.mk.injEq] at hu
  rw [hu.1]; exact h

theorem exprBelow_sub {m a b} (ha : ExprBelow m a) (hb : ExprBelow m b) : ExprBelow m (a.sub b) := by
  intro v k hv
  simp only [Expr.sub, Expr.negate, List.mem_append, List.mem_map] at hv
  rcases hv with hv | ⟨⟨u, q⟩, hu, he⟩
  · exact ha v k hv
  · cases he; exact hb _ _ hu

theorem exprBelow_subConstant {m a k} (ha : ExprBelow m a) : ExprBelow m (a.subConstant k) := ha

theorem exprBelow_subVariable {m a v} (ha : ExprBelow m a) (hv : v < m) :
    ExprBelow m (a.subVariable v) := by
  intro u k hu
  simp only [Expr.subVariable, List.mem_append, List.mem_singleton, Prod.mk.injEq] at hu
  rcases hu with hu | ⟨rfl, _⟩
  · exact ha u k hu
  · exact hv

theorem exprBelow_mul {m a k} (ha : ExprBelow m a) : ExprBelow m (a.mulConstant k) := by
  intro u q hu
  simp only [Expr.mulConstant, List.mem_map] at hu
  obtain ⟨⟨w, r⟩, hw, he⟩ := hu
  cases he; exact ha _ _ hw

theorem exprBelow_div {m a k} (ha : ExprBelow m a) : ExprBelow m (a.divConstant k) := by
  intro u q hu
  simp only [Expr.divConstant, List.mem_map] at hu
  obtain ⟨⟨w, r⟩, hw, he⟩ := hu
  cases he; exact ha _ _ hw

theorem soft_isEmpty {m e} (h : ElemBelow m e) : Soft m e.isEmpty :=
  ⟨exprBelow_subConstant (exprBelow_size h),
   by norm_num [Element.isEmpty, Constr.constantRHS, required],
   by norm_num [Element.isEmpty, Constr.constantRHS, required]⟩

theorem soft_hasSize {m e s w} (h : ElemBelow m e) (hs : ExprBelow m s) (h0 : 0 ≤ w)
    (h1 : w < required) : Soft m (e.hasSize s w) :=
  ⟨exprBelow_sub (exprBelow_size h) hs, h0, h1⟩

theorem soft_hasIntSize {m e s w} (h : ElemBelow m e) (h0 : 0 ≤ w)
    (h1 : w < required) : Soft m (e.hasIntSize s w) :=
  ⟨exprBelow_subConstant (exprBelow_size h), h0, h1⟩

theorem soft_hasMinSize {m e s w} (h : ElemBelow m e) (h0 : 0 ≤ w)
    (h1 : w < required) : Soft m (e.hasMinSize s w) :=
  ⟨exprBelow_subConstant (exprBelow_size h), h0, h1⟩

theorem soft_hasMaxSize {m e s w} (h : ElemBelow m e) (h0 : 0 ≤ w)
    (h1 : w < required) : Soft m (e.hasMaxSize s w) :=
  ⟨exprBelow_subConstant (exprBelow_size h), h0, h1⟩

/-- The strengths lie between 0 and `Required`. -/
theorem strengths_soft : (0 ≤ spacerSizeEq ∧ spacerSizeEq < required) ∧
    (0 ≤ minSizeGTE ∧ minSizeGTE < required) ∧ (0 ≤ maxSizeLTE ∧ maxSizeLTE < required) ∧
    (0 ≤ lengthSizeEq ∧ lengthSizeEq < required) ∧
    (0 ≤ percentageSizeEq ∧ percentageSizeEq < required) ∧
    (0 ≤ ratioSizeEq ∧ ratioSizeEq < required) ∧ (0 ≤ minSizeEq ∧ minSizeEq < required) ∧
    (0 ≤ maxSizeEq ∧ maxSizeEq < required) ∧ (0 ≤ grow ∧ grow < required) ∧
    (0 ≤ fillGrow ∧ fillGrow < required) ∧ (0 ≤ spaceGrow ∧ spaceGrow < required) ∧
    (0 ≤ allSegmentGrow ∧ allSegmentGrow < required) := by
  norm_num [spacerSizeEq, minSizeGTE, maxSizeLTE, lengthSizeEq, percentageSizeEq, ratioSizeEq,
    minSizeEq, maxSizeEq, grow, fillGrow, spaceGrow, allSegmentGrow, required, strong, medium, weak]

theorem mem_interior {spacers : List Element} {e} (h : e ∈ interior spacers) : e ∈ spacers := by
  unfold interior at h
  split_ifs at h
  · exact List.mem_of_mem_tail (List.dropLast_subset _ h)
  · simp at h

theorem mem_allPairs {α : Type} {xs : List α} {p : α × α} (h : p ∈ allPairs xs) :
    p.1 ∈ xs ∧ p.2 ∈ xs := by
  induction xs with
  | nil => simp [allPairs] at h
  | cons x xs ih =>
    simp only [allPairs, List.mem_append, List.mem_map] at h
    rcases h with ⟨y, hy, rfl⟩ | h
    · exact ⟨List.mem_cons_self, List.mem_cons_of_mem _ hy⟩
    · exact ⟨List.mem_cons_of_mem _ (ih h).1, List.mem_cons_of_mem _ (ih h).2⟩

theorem allPairs_length {α : Type} (xs : List α) :
    2 * (allPairs xs).length = xs.length * (xs.length - 1) := by
  induction xs with
  | nil => rfl
  | cons x xs ih =>
    simp only [allPairs, List.length_append, List.length_map, List.length_cons, Nat.add_sub_cancel]
    rw [Nat.mul_add, ih]
    cases xs.length with
    | zero => rfl
    | succ k => simp only [Nat.add_sub_cancel]; ring

/-- The first and last spacer, as used by `flexConstraints`. -/
def endsOf (spacers : List Element) (f : Element → Element → List Constr) : List Constr :=
  match spacers.head?, spacers.getLast? with
  | some first, some last => if spacers.length ≥ 2 then f first last else []
  | _, _ => []

/-- The pairs of inner spacers. -/
def interiorPairs (spacers : List Element) : List (Element × Element) :=
  if (interior spacers).length ≥ 2 then allPairs (interior spacers) else []

theorem growingSpacing_eq (area : Element) (spacers : List Element) (spacing : Int) :
    growingSpacing area spacers spacing = some
      ((interiorPairs spacers).map (fun p => p.1.hasSize p.2.size spacerSizeEq) ++
        (interior spacers).flatMap fun s =>
          [s.hasMinSize spacing spacerSizeEq, s.hasSize area.size spaceGrow]) := by
  unfold growingSpacing interiorPairs
  simp only
  by_cases h : (interior spacers).length ≥ 2
  · rw [if_pos h, if_pos h, pairsOf_eq _ h]; rfl
  · rw [if_neg h, if_neg h]; rfl

/-- The flex constraints without panic. -/
def flexList (area : Element) (spacers : List Element) (flex : Flex) (spacing : Int) : List Constr :=
  let growing := (interiorPairs spacers).map (fun p => p.1.hasSize p.2.size spacerSizeEq) ++
    (interior spacers).flatMap fun s =>
      [s.hasMinSize spacing spacerSizeEq, s.hasSize area.size spaceGrow]
  match flex with
  | .legacy =>
    fixedSpacing spacers spacing ++ endsOf spacers fun first last => [first.isEmpty, last.isEmpty]
  | .spaceAround => growing
  | .spaceBetween => growing ++ endsOf spacers fun first last => [first.isEmpty, last.isEmpty]
  | .start =>
    fixedSpacing spacers spacing ++
      endsOf spacers fun first last => [first.isEmpty, last.hasSize area.size grow]
  | .center =>
    fixedSpacing spacers spacing ++
      endsOf spacers fun first last => [first.hasSize area.size grow, last.hasSize area.size grow,
        first.hasSize last.size spacerSizeEq]
  | .end' =>
    fixedSpacing spacers spacing ++
      endsOf spacers fun first last => [last.isEmpty, first.hasSize area.size grow]

theorem flexConstraints_eq (area : Element) (spacers : List Element) (flex : Flex) (spacing : Int) :
    flexConstraints area spacers flex spacing = some (flexList area spacers flex spacing) := by
  unfold flexConstraints flexList
  cases flex <;> simp only [growingSpacing_eq, Option.map_some] <;> rfl

/-- The pairs of filling segments. -/
def fillPairs (segments : List Element) (constraints : List Constraint) (flex : Flex) :
    List ((Element × ℚ) × (Element × ℚ)) :=
  if (validFill segments constraints flex).length < 2 then []
  else allPairs (validFill segments constraints flex)

theorem fillConstraints_eq (segments : List Element) (constraints : List Constraint) (flex : Flex) :
    fillConstraints segments constraints flex
      = some ((fillPairs segments constraints flex).map fun p => fillPair p.1 p.2) := by
  unfold fillConstraints fillPairs
  simp only
  by_cases h : (validFill segments constraints flex).length < 2
  · rw [if_pos h, if_pos h]; rfl
  · rw [if_neg h, if_neg h, pairsOf_eq _ (by omega)]; rfl

/-- The required constraints of a layout. -/
def hardList (l : Layout) (inner : Rect) : List Constr :=
  let n := l.constraints.length
  areaConstraints (areaElement n) (((l.areaBounds inner).1 : ℚ) * multiplier)
      (((l.areaBounds inner).2 : ℚ) * multiplier) ++
    variableInAreaConstraints (layoutVars n) (areaElement n) ++
    variableConstraints (layoutVars n)

theorem gapOf_eq (s : Spacing) : gapOf s = Spacing.value s := by cases s <;> rfl

/-- The other constraints of a layout. -/
def softList (l : Layout) : List Constr :=
  let n := l.constraints.length
  flexList (areaElement n) (spacerElements n) l.flex (Spacing.value l.spacing) ++
    sizeConstraints (areaElement n) (segmentElements n) l.constraints l.flex ++
    (fillPairs (segmentElements n) l.constraints l.flex).map (fun p => fillPair p.1 p.2) ++
    neighbourConstraints (segmentElements n) l.flex

/-- Building the constraints never panics. -/
theorem solverConstraints_eq (l : Layout) (inner : Rect) :
    l.solverConstraints inner = some (hardList l inner ++ softList l) := by
  unfold solverConstraints hardList softList
  simp only [flexConstraints_eq, fillConstraints_eq, Option.bind_some, Option.map_some,
    List.append_assoc]

theorem mem_endsOf {spacers : List Element} {f : Element → Element → List Constr} {c : Constr}
    (h : c ∈ endsOf spacers f) : ∃ a ∈ spacers, ∃ b ∈ spacers, c ∈ f a b := by
  unfold endsOf at h
  split at h
  · rename_i a b ha hb
    split_ifs at h
    · exact ⟨a, List.mem_of_head? ha, b, List.mem_of_getLast? hb, h⟩
    · simp at h
  · simp at h

theorem areaElement_below (n : Nat) : ElemBelow (2 * n + 2) (areaElement n) := by
  constructor <;> simp [areaElement]

theorem soft_flexList {n : Nat} {flex spacing} :
    ∀ c ∈ flexList (areaElement n) (spacerElements n) flex spacing, Soft (2 * n + 2) c := by
  obtain ⟨s1, -, -, -, -, -, -, -, s9, -, s11, -⟩ := strengths_soft
  have hA := exprBelow_size (areaElement_below n)
  have hS : ∀ e ∈ spacerElements n, ElemBelow (2 * n + 2) e := fun e he => spacerElements_lt he
  have hI : ∀ e ∈ interior (spacerElements n), ElemBelow (2 * n + 2) e :=
    fun e he => hS e (mem_interior he)
  have hF : ∀ c ∈ fixedSpacing (spacerElements n) spacing, Soft (2 * n + 2) c := by
    intro c hc
    obtain ⟨e, he, rfl⟩ := List.mem_map.1 hc
    exact soft_hasSize (hI e he) (exprBelow_constant _ _) s1.1 s1.2
  have hG : ∀ c ∈ (interiorPairs (spacerElements n)).map
        (fun p => p.1.hasSize p.2.size spacerSizeEq) ++
      (interior (spacerElements n)).flatMap (fun s =>
        [s.hasMinSize spacing spacerSizeEq, s.hasSize (areaElement n).size spaceGrow]),
      Soft (2 * n + 2) c := by
    intro c hc
    rcases List.mem_append.1 hc with hc | hc
    · obtain ⟨p, hp, rfl⟩ := List.mem_map.1 hc
      unfold interiorPairs at hp
      split_ifs at hp
      · have := mem_allPairs hp
        exact soft_hasSize (hI _ this.1) (exprBelow_size (hI _ this.2)) s1.1 s1.2
      · simp at hp
    · obtain ⟨e, he, hc⟩ := List.mem_flatMap.1 hc
      simp only [List.mem_cons, List.not_mem_nil, or_false] at hc
      rcases hc with rfl | rfl
      · exact soft_hasMinSize (hI e he) s1.1 s1.2
      · exact soft_hasSize (hI e he) hA s11.1 s11.2
  intro c hc
  unfold flexList at hc
  cases flex <;> simp only at hc
  case spaceAround => exact hG c hc
  all_goals
    rcases List.mem_append.1 hc with hc | hc
    · first | exact hF c hc | exact hG c hc
    · obtain ⟨a, ha, b, hb, hc⟩ := mem_endsOf hc
      simp only [List.mem_cons, List.not_mem_nil, or_false] at hc
      first
        | (rcases hc with rfl | rfl | rfl)
        | (rcases hc with rfl | rfl)
      all_goals first
        | exact soft_isEmpty (hS _ ha)
        | exact soft_isEmpty (hS _ hb)
        | exact soft_hasSize (hS _ ha) hA s9.1 s9.2
        | exact soft_hasSize (hS _ hb) hA s9.1 s9.2
        | exact soft_hasSize (hS _ ha) (exprBelow_size (hS _ hb)) s1.1 s1.2

theorem soft_softList (l : Layout) : ∀ c ∈ softList l, Soft (2 * l.constraints.length + 2) c := by
  obtain ⟨-, s2, s3, s4, s5, s6, s7, s8, s9, s10, -, s12⟩ := strengths_soft
  have hA := exprBelow_size (areaElement_below l.constraints.length)
  have hS : ∀ e ∈ segmentElements l.constraints.length,
      ElemBelow (2 * l.constraints.length + 2) e := fun e he => segmentElements_lt he
  intro c hc
  unfold softList at hc
  simp only [List.mem_append] at hc
  rcases hc with ((hc | hc) | hc) | hc
  · exact soft_flexList c hc
  · obtain ⟨⟨k, e⟩, hp, hc⟩ := List.mem_flatMap.1 hc
    have he := hS e (List.of_mem_zip hp).2
    cases k <;> simp only [constraintFor, List.mem_cons, List.not_mem_nil, or_false] at hc
    · rcases hc with rfl | rfl
      · exact soft_hasMinSize he s2.1 s2.2
      · split_ifs
        · exact soft_hasIntSize he s7.1 s7.2
        · exact soft_hasSize he hA s10.1 s10.2
    · rcases hc with rfl | rfl
      · exact soft_hasMaxSize he s3.1 s3.2
      · exact soft_hasIntSize he s8.1 s8.2
    · subst hc; exact soft_hasIntSize he s4.1 s4.2
    · subst hc; exact soft_hasSize he (exprBelow_div (exprBelow_mul hA)) s5.1 s5.2
    · subst hc; exact soft_hasSize he (exprBelow_div (exprBelow_mul hA)) s6.1 s6.2
    · subst hc; exact soft_hasSize he hA s10.1 s10.2
  · obtain ⟨p, hp, rfl⟩ := List.mem_map.1 hc
    unfold fillPairs at hp
    split_ifs at hp
    · simp at hp
    · obtain ⟨h1, h2⟩ := mem_allPairs hp
      have hv : ∀ q ∈ validFill (segmentElements l.constraints.length) l.constraints l.flex,
          ElemBelow (2 * l.constraints.length + 2) q.1 := by
        intro q hq
        obtain ⟨r, hr, hq⟩ := List.mem_filterMap.1 hq
        obtain ⟨k, _, rfl⟩ := Option.map_eq_some_iff.1 hq
        exact hS _ (List.of_mem_zip hr).2
      exact ⟨exprBelow_sub (exprBelow_mul (exprBelow_size (hv _ h1)))
        (exprBelow_mul (exprBelow_size (hv _ h2))), s9.1, s9.2⟩
  · unfold neighbourConstraints at hc
    simp only at hc
    split_ifs at hc
    · obtain ⟨p, hp, rfl⟩ := List.mem_map.1 hc
      have := List.of_mem_zip (show (p.1, p.2) ∈ _ from hp)
      exact soft_hasSize (hS _ this.1) (exprBelow_size (hS _ (List.mem_of_mem_tail this.2)))
        s12.1 s12.2
    · simp at hc

/-! ### The required constraints -/

theorem holds_constantRHS_ofVar (w : ℚ) (v : Var) (q : ℚ) (x : Var → ℚ) :
    (Constr.constantRHS .eq w (Expr.ofVar v) q).Holds x ↔ x v = q := by
  simp only [Constr.Holds, Constr.constantRHS, Expr.ofVar, Expr.subConstant, Expr.eval,
    List.map_cons, List.map_nil, List.sum_cons, List.sum_nil]
  constructor <;> intro h <;> linarith

theorem holds_ge (w : ℚ) (v u : Var) (x : Var → ℚ) :
    (Constr.variableRHS .ge w (Expr.ofVar v) u).Holds x ↔ x u ≤ x v := by
  simp only [Constr.Holds, Constr.variableRHS, Expr.ofVar, Expr.subVariable, Expr.eval,
    List.map_append, List.map_cons, List.map_nil, List.sum_append, List.sum_cons, List.sum_nil]
  constructor <;> intro h <;> linarith

theorem holds_le (w : ℚ) (v u : Var) (x : Var → ℚ) :
    (Constr.variableRHS .le w (Expr.ofVar v) u).Holds x ↔ x v ≤ x u := by
  simp only [Constr.Holds, Constr.variableRHS, Expr.ofVar, Expr.subVariable, Expr.eval,
    List.map_append, List.map_cons, List.map_nil, List.sum_append, List.sum_cons, List.sum_nil]
  constructor <;> intro h <;> linarith

/-- What the required constraints say. -/
structure Placed (n : Nat) (a b : ℚ) (x : Var → ℚ) : Prop where
  first : x 0 = a
  last : x (2 * n + 1) = b
  low : ∀ v < 2 * n + 2, a ≤ x v
  high : ∀ v < 2 * n + 2, x v ≤ b
  ordered : ∀ i < n, x (2 * i + 1) ≤ x (2 * i + 2)

theorem hard_isRequired (l : Layout) (inner : Rect) : ∀ c ∈ hardList l inner, c.IsRequired := by
  intro c hc
  unfold hardList at hc
  simp only [List.mem_append, areaConstraints, variableInAreaConstraints, variableConstraints,
    List.mem_flatMap, List.mem_map, List.mem_cons, List.not_mem_nil, or_false] at hc
  rcases hc with ((rfl | rfl) | ⟨v, _, rfl | rfl⟩) | ⟨e, _, rfl⟩ <;> exact le_refl required

theorem hard_below (l : Layout) (inner : Rect) :
    ∀ c ∈ hardList l inner, ExprBelow (2 * l.constraints.length + 2) c.expr := by
  intro c hc
  unfold hardList at hc
  simp only [List.mem_append, areaConstraints, variableInAreaConstraints, variableConstraints,
    List.mem_flatMap, List.mem_map, List.mem_cons, List.not_mem_nil, or_false] at hc
  have hA := areaElement_below l.constraints.length
  rcases hc with ((rfl | rfl) | ⟨v, hv, rfl | rfl⟩) | ⟨e, he, rfl⟩
  · exact exprBelow_subConstant (exprBelow_ofVar hA.1)
  · exact exprBelow_subConstant (exprBelow_ofVar hA.2)
  · exact exprBelow_subVariable (exprBelow_ofVar (List.mem_range.1 hv)) hA.1
  · exact exprBelow_subVariable (exprBelow_ofVar (List.mem_range.1 hv)) hA.2
  · have := segmentElements_lt (show e ∈ segmentElements _ from he)
    exact exprBelow_subVariable (exprBelow_ofVar this.1) this.2

theorem hard_iff (l : Layout) (inner : Rect) (x : Var → ℚ) :
    (∀ c ∈ hardList l inner, c.Holds x) ↔
      Placed l.constraints.length (((l.areaBounds inner).1 : ℚ) * multiplier)
        (((l.areaBounds inner).2 : ℚ) * multiplier) x := by
  unfold hardList
  simp only [List.mem_append, areaConstraints, variableInAreaConstraints, variableConstraints,
    List.mem_flatMap, List.mem_map, List.mem_cons, List.not_mem_nil, or_false]
  have hseg : newElements (layoutVars l.constraints.length).tail
      = segmentElements l.constraints.length := rfl
  rw [hseg, segmentElements_eq]
  constructor
  · intro h
    have h0 := (holds_constantRHS_ofVar _ _ _ _).1 (h _ (Or.inl (Or.inl (Or.inl rfl))))
    have h1 := (holds_constantRHS_ofVar _ _ _ _).1 (h _ (Or.inl (Or.inl (Or.inr rfl))))
    refine ⟨h0, h1, ?_, ?_, ?_⟩
    · intro v hv
      have := (holds_ge _ _ _ _).1 (h _ (Or.inl (Or.inr ⟨v, List.mem_range.2 hv, Or.inl rfl⟩)))
      rw [← h0]; exact this
    · intro v hv
      have := (holds_le _ _ _ _).1 (h _ (Or.inl (Or.inr ⟨v, List.mem_range.2 hv, Or.inr rfl⟩)))
      rw [← h1]; exact this
    · intro i hi
      exact (holds_le _ _ _ _).1 (h _ (Or.inr ⟨⟨2 * i + 1, 2 * i + 2⟩,
        List.mem_map.2 ⟨i, List.mem_range.2 hi, rfl⟩, rfl⟩))
  · intro h c hc
    rcases hc with ((rfl | rfl) | ⟨v, hv, rfl | rfl⟩) | ⟨e, he, rfl⟩
    · exact (holds_constantRHS_ofVar _ _ _ _).2 h.first
    · exact (holds_constantRHS_ofVar _ _ _ _).2 h.last
    · refine (holds_ge _ _ _ _).2 ?_
      have := h.low v (List.mem_range.1 hv)
      rw [← h.first] at this; exact this
    · refine (holds_le _ _ _ _).2 ?_
      have := h.high v (List.mem_range.1 hv)
      rw [← h.last] at this; exact this
    · obtain ⟨i, hi, rfl⟩ := List.mem_map.1 he
      exact (holds_le _ _ _ _).2 (h.ordered i (List.mem_range.1 hi))

theorem feasible_iff (l : Layout) (inner : Rect) (x : Var → ℚ) :
    Feasible (hardList l inner ++ softList l) x ↔
      Placed l.constraints.length (((l.areaBounds inner).1 : ℚ) * multiplier)
        (((l.areaBounds inner).2 : ℚ) * multiplier) x := by
  rw [← hard_iff]
  constructor
  · intro h c hc
    exact h c (List.mem_append_left _ hc) (hard_isRequired l inner c hc)
  · intro h c hc hr
    rcases List.mem_append.1 hc with hc | hc
    · exact h c hc
    · exact absurd hr (not_le.2 (soft_softList l c hc).lt)

/-- Segments stacked at the start satisfy the required constraints. -/
theorem placed_trivial (n : Nat) {a b : ℚ} (h : a ≤ b) :
    Placed n a b (fun v => if v = 2 * n + 1 then b else a) := by
  refine ⟨?_, by simp, ?_, ?_, ?_⟩
  · exact if_neg (show ¬ ((0 : Nat) = 2 * n + 1) by omega)
  · intro v _; split_ifs
    · exact h
    · exact le_refl a
  · intro v _; split_ifs
    · exact le_refl b
    · exact h
  · intro i hi
    have h1 : ¬ (2 * i + 1 = 2 * n + 1) := by omega
    have h2 : ¬ (2 * i + 2 = 2 * n + 1) := by omega
    simp only [h1, h2, if_false, le_refl]

theorem inner_bounds (l : Layout) (area : Rect) :
    (l.areaBounds (area.inner l.padding)).1 ≤ (l.areaBounds (area.inner l.padding)).2 := by
  have h : 0 ≤ (area.inner l.padding).width ∧ 0 ≤ (area.inner l.padding).height := by
    unfold Rect.inner
    simp only
    split_ifs
    · simp [Rect.zero]
    · constructor <;> exact le_max_left _ _
  unfold areaBounds Rect.right Rect.bottom
  cases l.direction <;> simp only <;> omega

/-! ### The changes map -/

theorem changesMap_eq {fetched : List (Var × ℚ)} {x : Var → ℚ}
    (h1 : ∀ v q, (v, q) ∈ fetched → q = x v) (h2 : ∀ v, (∀ q, (v, q) ∉ fetched) → x v = 0) :
    changesMap fetched = x := by
  classical
  have gen : ∀ (l : List (Var × ℚ)) (m : Var → ℚ), (∀ v q, (v, q) ∈ l → q = x v) →
      ∀ v, l.foldl (fun m c => fun v => if v = c.1 then c.2 else m v) m v
        = if ∃ q, (v, q) ∈ l then x v else m v := by
    intro l
    induction l with
    | nil => intro m _ v; simp
    | cons c l ih =>
      intro m h v
      rw [List.foldl_cons, ih _ (fun v q hq => h v q (List.mem_cons_of_mem _ hq)) v]
      by_cases hl : ∃ q, (v, q) ∈ l
      · obtain ⟨q, hq⟩ := hl
        rw [if_pos ⟨q, hq⟩, if_pos ⟨q, List.mem_cons_of_mem _ hq⟩]
      · rw [if_neg hl]
        by_cases hv : v = c.1
        · have : c.2 = x v := by
            rw [hv]; exact h c.1 c.2 List.mem_cons_self
          rw [if_pos hv, if_pos ⟨c.2, by rw [hv]; exact List.mem_cons_self⟩, this]
        · rw [if_neg hv, if_neg]
          rintro ⟨q, hq⟩
          rcases List.mem_cons.1 hq with hq | hq
          · exact hv (by rw [← hq])
          · exact hl ⟨q, hq⟩
  funext v
  unfold changesMap
  rw [gen fetched _ h1 v]
  split_ifs with h
  · rfl
  · exact (h2 v (fun q hq => h ⟨q, hq⟩)).symm

/-! ### Counting -/

theorem newElements_length_le (vs : List Var) : ∀ k, vs.length ≤ 2 * k + 1 → (newElements vs).length ≤ k := by
  intro k
  induction k generalizing vs with
  | zero =>
    intro h
    match vs, h with
    | [], _ => simp [newElements]
    | [_], _ => simp [newElements]
    | _ :: _ :: _, h => simp only [List.length_cons] at h; omega
  | succ k ih =>
    intro h
    match vs, h with
    | [], _ => simp [newElements]
    | [_], _ => simp [newElements]
    | _ :: _ :: t, h =>
      simp only [List.length_cons] at h
      have := ih t (by omega)
      simp only [newElements, List.length_cons]; omega

theorem hardList_length (l : Layout) (inner : Rect) :
    (hardList l inner).length = 5 * l.constraints.length + 6 := by
  unfold hardList
  have h1 : (newElements (List.range (2 * l.constraints.length + 2)).tail).length = l.constraints.length := by
    have : newElements (List.range (2 * l.constraints.length + 2)).tail
      = segmentElements l.constraints.length := rfl
    rw [this, segmentElements_eq]; simp
  have h2 : ∀ (xs : List Var) (e : Element), (variableInAreaConstraints xs e).length = 2 * xs.length := by
    intro xs e
    induction xs with
    | nil => rfl
    | cons x xs ih =>
      unfold variableInAreaConstraints at ih ⊢
      rw [List.flatMap_cons, List.length_append, ih]
      simp only [List.length_cons, List.length_nil]; omega
  simp only [List.length_append, h2, variableConstraints, List.length_map, h1, areaConstraints,
    layoutVars, List.length_range, List.length_cons, List.length_nil]
  omega

theorem interior_length (n : Nat) : (interior (spacerElements n)).length = n - 1 := by
  have hl : (spacerElements n).length = n + 1 := by rw [spacerElements_eq]; simp
  unfold interior
  split_ifs with h
  · simp only [List.length_dropLast, List.length_tail]; omega
  · simp only [List.length_nil]; omega

theorem endsOf_length_le {spacers f k} (h : ∀ a b, (f a b).length ≤ k) :
    (endsOf spacers f).length ≤ k := by
  unfold endsOf
  split
  · split_ifs
    · exact h _ _
    · simp
  · simp

theorem flexList_length_le {n : Nat} {flex spacing} :
    (flexList (areaElement n) (spacerElements n) flex spacing).length ≤
      match flex with
      | .legacy | .start | .end' => n - 1 + 2
      | .center => n - 1 + 3
      | .spaceBetween => pairsOutOf (n - 1) + 2 * (n - 1) + 2
      | .spaceAround => pairsOutOf (n - 1) + 2 * (n - 1) := by
  have hI := interior_length n
  have hF : (fixedSpacing (spacerElements n) spacing).length = n - 1 := by
    unfold fixedSpacing; rw [List.length_map, hI]
  have hP : (interiorPairs (spacerElements n)).length ≤ pairsOutOf (n - 1) := by
    unfold interiorPairs pairsOutOf
    split_ifs with h
    · have := allPairs_length (interior (spacerElements n))
      rw [hI] at this; omega
    · simp
  have hG : ((interiorPairs (spacerElements n)).map
        (fun p => p.1.hasSize p.2.size spacerSizeEq) ++
      (interior (spacerElements n)).flatMap (fun s =>
        [s.hasMinSize spacing spacerSizeEq, s.hasSize (areaElement n).size spaceGrow])).length
      ≤ pairsOutOf (n - 1) + 2 * (n - 1) := by
    have h2 : ∀ xs : List Element, (xs.flatMap fun s =>
        [s.hasMinSize spacing spacerSizeEq, s.hasSize (areaElement n).size spaceGrow]).length
        = 2 * xs.length := by
      intro xs
      induction xs with
      | nil => rfl
      | cons x xs ih =>
        rw [List.flatMap_cons, List.length_append, ih]
        simp only [List.length_cons, List.length_nil]; omega
    rw [List.length_append, List.length_map, h2, hI]
    omega
  have e2 : ∀ f : Element → Element → List Constr, (∀ a b, (f a b).length = 2) →
      (endsOf (spacerElements n) f).length ≤ 2 := fun f hf => endsOf_length_le (fun a b => (hf a b).le)
  have e3 : ∀ f : Element → Element → List Constr, (∀ a b, (f a b).length = 3) →
      (endsOf (spacerElements n) f).length ≤ 3 := fun f hf => endsOf_length_le (fun a b => (hf a b).le)
  unfold flexList
  have g2 := e2 (fun first last => [first.isEmpty, last.isEmpty]) (fun _ _ => rfl)
  have g3 := e2 (fun first last => [first.isEmpty, last.hasSize (areaElement n).size grow]) (fun _ _ => rfl)
  have g4 := e2 (fun first last => [last.isEmpty, first.hasSize (areaElement n).size grow]) (fun _ _ => rfl)
  have g5 := e3 (fun first last => [first.hasSize (areaElement n).size grow,
    last.hasSize (areaElement n).size grow, first.hasSize last.size spacerSizeEq]) (fun _ _ => rfl)
  cases flex <;> simp only [List.length_append, hF] <;> simp only [List.length_append] at hG <;> omega

end Bento.Layout
