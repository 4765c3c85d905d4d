import Verif.Lemmas.Flex
import Verif.Lemmas.Vertex
import Verif.Spec.Corner

/-!
# Rows whose sizes are whole numbers of cells

Between the edges of a `FlexLegacy` layout without fills that share, every constraint is about one
difference of two coordinates. Cutting all coordinates down to whole cells keeps every such constraint
that holds with equality, and a corner is determined by those: so its coordinates are whole.
-/

namespace Bento.Layout

open Casso Finset

/-- The outcome in terms of a best placement that is a corner. -/
theorem split_corner {ω : Nat → Nat} {fuel : Nat} (l : Layout) (area : Rect) (hfew : Few l) :
    splitWithSpacers ω fuel l area = .running ∨
    ∃ x : Var → ℚ,
      splitWithSpacers ω fuel l area = .ok
        (changesToRects x (segmentElements l.constraints.length) (area.inner l.padding) l.direction)
        (changesToRects x (spacerElements l.constraints.length) (area.inner l.padding) l.direction) ∧
      Placed l.constraints.length (((l.areaBounds (area.inner l.padding)).1 : ℚ) * multiplier)
        (((l.areaBounds (area.inner l.padding)).2 : ℚ) * multiplier) x ∧
      (∀ y, Placed l.constraints.length (((l.areaBounds (area.inner l.padding)).1 : ℚ) * multiplier)
          (((l.areaBounds (area.inner l.padding)).2 : ℚ) * multiplier) y →
        weightedViolation (softList l) x ≤ weightedViolation (softList l) y) ∧
      IsCorner (hardList l (area.inner l.padding) ++ softList l) x := by
  unfold splitWithSpacers
  simp only [solverConstraints_eq]
  generalize hin : area.inner l.padding = inner at *
  have hle : (((l.areaBounds inner).1 : ℚ) * multiplier) ≤ (((l.areaBounds inner).2 : ℚ) * multiplier) := by
    have := inner_bounds l area
    rw [hin] at this
    have h' : ((l.areaBounds inner).1 : ℚ) ≤ (l.areaBounds inner).2 := by exact_mod_cast this
    exact mul_le_mul_of_nonneg_right h' (by norm_num [multiplier])
  have hx := (feasible_iff l inner _).2 (placed_trivial l.constraints.length hle)
  have hv : ∀ c ∈ hardList l inner ++ softList l, ∀ v k, (v, k) ∈ c.expr.terms →
      v < 2 * l.constraints.length + 2 := by
    intro c hc
    rcases List.mem_append.1 hc with hc | hc
    · exact hard_below l inner c hc
    · exact (soft_softList l c hc).below
  have hw : ∀ c ∈ hardList l inner ++ softList l, 0 ≤ c.strength := by
    intro c hc
    rcases List.mem_append.1 hc with hc | hc
    · exact le_trans (by norm_num [required]) (hard_isRequired l inner c hc)
    · exact (soft_softList l c hc).nonneg
  rcases C58_no_false_refusal_partial (ω := ω) (fuel := fuel) hv (budget_few hfew inner) hw hx with h | ⟨S, h, hn⟩
  · left; rw [h]
  · right
    have hfetch := C20_fetch_reports_values h hn
    have hc := changesMap_eq hfetch.1 hfetch.2
    refine ⟨S.getValue, ?_, (feasible_iff l inner _).1 (C20_required_hold_partial h hn), ?_, ?_⟩
    · rw [h]; simp only [hc]
    · intro y hy
      have := C21_minimal_violation_partial h hn hw y ((feasible_iff l inner y).2 hy)
      rw [wv_append, wv_append, wv_hard, wv_hard] at this
      linarith
    · obtain ⟨H, hI, hm, _, _⟩ := addConstraints_inv _ inv_new h hn
      simp only [List.map_nil, List.append_nil] at hm
      intro y hy0 hyt c hc v k hvk hk
      have hmem : c ∈ H.map Entry.c := by rw [hm]; exact List.mem_reverse.2 hc
      obtain ⟨e, he, rfl⟩ := List.mem_map.1 hmem
      refine inv_vertex hI y hy0 (fun e he => hyt e.c ?_) (hI.vars e he v k hvk hk)
      have : e.c ∈ H.map Entry.c := List.mem_map_of_mem he
      rw [hm] at this
      exact List.mem_reverse.1 this

/-! ### Cutting down to whole cells -/

/-- The next whole cell below. -/
def wholeBelow (q : ℚ) : ℚ := (⌊q / 100⌋ : ℚ) * 100

theorem wholeBelow_add (q : ℚ) (k : Int) : wholeBelow (q + k * 100) = wholeBelow q + k * 100 := by
  unfold wholeBelow
  rw [show (q + k * 100) / 100 = q / 100 + k by ring, Int.floor_add_intCast]
  push_cast; ring

theorem wholeBelow_int (k : Int) : wholeBelow ((k : ℚ) * 100) = k * 100 := by
  simp [wholeBelow]

theorem wholeBelow_zero : wholeBelow 0 = 0 := by simp [wholeBelow]

/-- A difference that is a whole number of cells is kept. -/
theorem wholeBelow_sub {p q : ℚ} {k : Int} (h : p - q = k * 100) :
    wholeBelow p - wholeBelow q = k * 100 := by
  have : p = q + k * 100 := by linarith
  rw [this, wholeBelow_add]; ring

theorem eval_ofVar_subVariable (u v : Var) (x : Var → ℚ) :
    ((Expr.ofVar u).subVariable v).eval x = x u - x v := by
  simp [Expr.ofVar, Expr.subVariable, Expr.eval]; ring

theorem eval_ofVar_subConstant (v : Var) (k : ℚ) (x : Var → ℚ) :
    ((Expr.ofVar v).subConstant k).eval x = x v - k := by
  simp [Expr.ofVar, Expr.subConstant, Expr.eval]; ring

theorem validFill_length (l : Layout) (hf : l.flex = .legacy) :
    (validFill (segmentElements l.constraints.length) l.constraints l.flex).length
      = (l.constraints.filter wantsAll).length := by
  have key : ∀ (cs : List Constraint) (es : List Element), cs.length ≤ es.length →
      (validFill es cs l.flex).length = (cs.filter wantsAll).length := by
    intro cs
    induction cs with
    | nil => intro es _; simp [validFill]
    | cons c cs ih =>
      intro es he
      cases es with
      | nil => simp at he
      | cons e es =>
        have := ih es (by simpa using he)
        unfold validFill at this ⊢
        rw [List.zip_cons_cons]
        rw [List.filterMap_cons, List.filter_cons]
        cases c <;> simp only [scalingFactor, wantsAll, hf, Option.map, if_true, Bool.false_eq_true,
          if_false, List.length_cons] <;> rw [hf] at this <;> first | exact this | exact congrArg (· + 1) this
  apply key
  rw [segmentElements_eq]; simp

/-- The coordinates of a corner of a row that asks for whole sizes are whole. -/
theorem corner_whole {l : Layout} {inner : Rect} (hf : l.flex = .legacy)
    (hw : ∀ c ∈ l.constraints,
      AsksWhole ((l.areaBounds inner).2 - (l.areaBounds inner).1) c)
    (h1 : (l.constraints.filter wantsAll).length ≤ 1) {x : Var → ℚ}
    (hx : Placed l.constraints.length (((l.areaBounds inner).1 : ℚ) * multiplier)
      (((l.areaBounds inner).2 : ℚ) * multiplier) x)
    (hc : IsCorner (hardList l inner ++ softList l) x) :
    ∀ v < 2 * l.constraints.length + 2, ∃ k : Int, x v = k * multiplier := by
  have hm : multiplier = 100 := rfl
  have hfirst := hx.first
  have hlast := hx.last
  rw [hm] at hfirst hlast
  have hsize : x (2 * l.constraints.length + 1) - x 0
      = (((l.areaBounds inner).2 - (l.areaBounds inner).1 : Int) : ℚ) * 100 := by
    rw [hfirst, hlast]; push_cast; ring
  have hsize' := wholeBelow_sub hsize
  have harea : ∀ y : Var → ℚ, sz (areaElement l.constraints.length) y
      = y (2 * l.constraints.length + 1) - y 0 := fun y => rfl
  have hkeep : ∀ c ∈ hardList l inner ++ softList l, c.expr.eval x = 0 →
      c.expr.eval (fun v => wholeBelow (x v)) = 0 := by
    intro c hmem hz
    have hint : ∀ (e : Element) (t : Int), sz e x - (t : ℚ) * multiplier = 0 →
        sz e (fun v => wholeBelow (x v)) - (t : ℚ) * multiplier = 0 := by
      intro e t h
      have h' : x e.stop - x e.start = (t : ℚ) * 100 := by
        rw [hm] at h; unfold sz at h; linarith
      have := wholeBelow_sub h'
      rw [hm]; unfold sz; simp only; linarith
    have hzero : ∀ (e : Element), sz e x = 0 → sz e (fun v => wholeBelow (x v)) = 0 := by
      intro e h
      have := hint e 0 (by rw [h]; norm_num)
      simpa using this
    rcases List.mem_append.1 hmem with hmem | hmem
    · unfold hardList at hmem
      simp only [List.mem_append, areaConstraints, variableInAreaConstraints, variableConstraints,
        List.mem_flatMap, List.mem_map, List.mem_cons, List.not_mem_nil, or_false] at hmem
      have hvv : ∀ u v : Var, x u - x v = 0 → wholeBelow (x u) - wholeBelow (x v) = 0 := by
        intro u v h
        rw [show x u = x v by linarith]; ring
      rcases hmem with ((rfl | rfl) | ⟨v, hv, rfl | rfl⟩) | ⟨e, he, rfl⟩
      · simp only [Constr.constantRHS, eval_ofVar_subConstant] at hz ⊢
        rw [hm] at hz ⊢
        rw [show x (areaElement l.constraints.length).start = ((l.areaBounds inner).1 : ℚ) * 100 by
          linarith, wholeBelow_int]
        ring
      · simp only [Constr.constantRHS, eval_ofVar_subConstant] at hz ⊢
        rw [hm] at hz ⊢
        rw [show x (areaElement l.constraints.length).stop = ((l.areaBounds inner).2 : ℚ) * 100 by
          linarith, wholeBelow_int]
        ring
      · simp only [Constr.variableRHS, eval_ofVar_subVariable] at hz ⊢
        exact hvv _ _ hz
      · simp only [Constr.variableRHS, eval_ofVar_subVariable] at hz ⊢
        exact hvv _ _ hz
      · simp only [Constr.variableRHS, eval_ofVar_subVariable] at hz ⊢
        exact hvv _ _ hz
    · unfold softList at hmem
      simp only at hmem
      rw [hf] at hmem
      have hpairs : fillPairs (segmentElements l.constraints.length) l.constraints .legacy = [] := by
        unfold fillPairs
        have := validFill_length l hf
        rw [hf] at this
        rw [if_pos (by omega)]
      rw [hpairs] at hmem
      simp only [neighbourConstraints, ne_eq, not_true_eq_false, if_false, List.map_nil,
        List.append_nil, flexList] at hmem
      rcases List.mem_append.1 hmem with hmem | hmem
      · rcases List.mem_append.1 hmem with hmem | hmem
        · obtain ⟨e, _, rfl⟩ := List.mem_map.1 hmem
          simp only [Element.hasSize, Constr.expressionRHS, eval_sub, eval_size, eval_ofConstant] at hz ⊢
          exact hint e _ hz
        · obtain ⟨a, _, b, _, hmem⟩ := mem_endsOf hmem
          simp only [List.mem_cons, List.not_mem_nil, or_false] at hmem
          rcases hmem with rfl | rfl
          · simp only [Element.isEmpty, Constr.constantRHS, eval_subConstant, eval_size, sub_zero] at hz ⊢
            exact hzero _ hz
          · simp only [Element.isEmpty, Constr.constantRHS, eval_subConstant, eval_size, sub_zero] at hz ⊢
            exact hzero _ hz
      · unfold sizeConstraints at hmem
        obtain ⟨p, hp, hmem⟩ := List.mem_flatMap.1 hmem
        have hp1 := hw p.1 (List.of_mem_zip (show (p.1, p.2) ∈ _ from hp)).1
        obtain ⟨c', e⟩ := p
        simp only at hp1 hmem
        have hfrac : ∀ (q : ℚ) (j : Int),
            ((((l.areaBounds inner).2 - (l.areaBounds inner).1 : Int) : ℚ)) * q = j →
            sz e x - (x (2 * l.constraints.length + 1) - x 0) * q = 0 →
            sz e (fun v => wholeBelow (x v)) - (wholeBelow (x (2 * l.constraints.length + 1))
              - wholeBelow (x 0)) * q = 0 := by
          intro q j hj h
          have e1 : ∀ T : ℚ, T * 100 * q = (T * q) * 100 := fun T => by ring
          rw [hsize, e1, hj] at h
          rw [hsize', e1, hj]
          have := hint e j (by rw [hm]; exact h)
          rw [hm] at this
          exact this
        cases c' with
        | min t =>
          simp only [constraintFor, if_true, List.mem_cons, List.not_mem_nil, or_false] at hmem
          rcases hmem with rfl | rfl <;>
          · simp only [Element.hasMinSize, Element.hasIntSize, Constr.constantRHS, eval_subConstant,
              eval_size] at hz ⊢
            exact hint e t hz
        | max t =>
          simp only [constraintFor, List.mem_cons, List.not_mem_nil, or_false] at hmem
          rcases hmem with rfl | rfl <;>
          · simp only [Element.hasMaxSize, Element.hasIntSize, Constr.constantRHS, eval_subConstant,
              eval_size] at hz ⊢
            exact hint e t hz
        | len t =>
          simp only [constraintFor, List.mem_cons, List.not_mem_nil, or_false] at hmem
          subst hmem
          simp only [Element.hasIntSize, Constr.constantRHS, eval_subConstant, eval_size] at hz ⊢
          exact hint e t hz
        | percentage t =>
          simp only [constraintFor, List.mem_cons, List.not_mem_nil, or_false] at hmem
          subst hmem
          obtain ⟨_, h⟩ | ⟨_, h⟩ | ⟨j, hj⟩ := hp1
          · cases h
          · cases h
          · simp only [definiteSize, Option.some.injEq] at hj
            simp only [Element.hasSize, Constr.expressionRHS, eval_sub, eval_size, eval_div, eval_mul,
              harea] at hz ⊢
            have := hfrac ((t : ℚ) / 100) j (by rw [← hj]; ring) (by rw [← hz]; ring)
            rw [← this]; ring
        | ratio num den =>
          simp only [constraintFor, List.mem_cons, List.not_mem_nil, or_false] at hmem
          subst hmem
          obtain ⟨_, h⟩ | ⟨_, h⟩ | ⟨j, hj⟩ := hp1
          · cases h
          · cases h
          · simp only [definiteSize, Option.some.injEq] at hj
            simp only [Element.hasSize, Constr.expressionRHS, eval_sub, eval_size, eval_div, eval_mul,
              harea] at hz ⊢
            have := hfrac ((num : ℚ) / ((max 1 den : Int) : ℚ)) j (by rw [← hj]; ring)
              (by rw [← hz]; ring)
            rw [← this]; ring
        | fill k =>
          simp only [constraintFor, List.mem_cons, List.not_mem_nil, or_false] at hmem
          subst hmem
          simp only [Element.hasSize, Constr.expressionRHS, eval_sub, eval_size, harea] at hz ⊢
          have := hfrac 1 _ (mul_one _) (by rw [← hz]; ring)
          rw [← this]; ring
  intro v hv
  have h0 : ∀ v, x v = 0 → wholeBelow (x v) = 0 := fun v h => by rw [h]; exact wholeBelow_zero
  have hmem : Constr.variableRHS .ge required (Expr.ofVar v) (areaElement l.constraints.length).start
      ∈ hardList l inner ++ softList l := by
    apply List.mem_append_left
    unfold hardList
    simp only [List.mem_append, variableInAreaConstraints, List.mem_flatMap]
    exact Or.inl (Or.inr ⟨v, List.mem_range.2 hv, List.mem_cons_self⟩)
  have := hc (fun v => wholeBelow (x v)) h0 hkeep _ hmem v 1 (by
    simp [Constr.variableRHS, Expr.ofVar, Expr.subVariable]) one_ne_zero
  exact ⟨⌊x v / 100⌋, by rw [hm]; exact this.symm⟩

/-! ### The price of a row -/

theorem abs_scale (q : ℚ) : |q * 100| = 100 * |q| := by
  rw [abs_mul, abs_of_pos (by norm_num : (0 : ℚ) < 100)]; ring

theorem max_scale (q : ℚ) : max 0 (q * 100) = 100 * max 0 q := by
  rcases le_total 0 q with h | h
  · rw [max_eq_right h, max_eq_right (by linarith)]; ring
  · rw [max_eq_left h, max_eq_left (by linarith)]; ring

/-- The starts and ends of the segments in cells. -/
def rowOf (n : Nat) (x : Var → ℚ) : List (ℚ × ℚ) :=
  (List.range n).map fun i => (x (2 * i + 1) / 100, x (2 * i + 2) / 100)

theorem gapPrice_range (spacing : Int) (m : Nat) : ∀ f : Nat → ℚ × ℚ,
    gapPrice spacing ((List.range (m + 1)).map f)
      = 100100100 * ∑ i ∈ range m, |(f (i + 1)).1 - (f i).2 - spacing| := by
  induction m with
  | zero => intro f; simp [gapPrice]
  | succ m ih =>
    intro f
    have := ih fun i => f (i + 1)
    rw [List.range_succ_eq_map, List.map_cons, List.map_map, sum_range_succ', mul_add, ← this]
    rw [List.range_succ_eq_map (n := m), List.map_cons, List.map_cons, gapPrice]
    have he : (f ∘ Nat.succ) = fun i => f (i + 1) := rfl
    rw [he]
    simp only [zero_add]
    ring

theorem zipWith_range {β γ : Type} (g : β → γ → ℚ) (cs : List β) (d : β) (f : Nat → γ) :
    (List.zipWith g cs ((List.range cs.length).map f)).sum
      = ∑ i ∈ range cs.length, g (cs.getD i d) (f i) := by
  induction cs generalizing f with
  | nil => simp
  | cons c cs ih =>
    rw [List.length_cons, List.range_succ_eq_map, List.map_cons, List.map_map, List.zipWith_cons_cons,
      List.sum_cons, sum_range_succ', add_comm]
    have := ih (fun i => f (i + 1))
    rw [show ((f ∘ Nat.succ)) = fun i => f (i + 1) from rfl, this]
    simp

theorem size_cost {area e : Element} {x : Var → ℚ} {total : ℚ} (ha : sz area x = total * 100)
    (c : Constraint) : cost (constraintFor area e .legacy c) x
      = 100 * sizePrice total c (x e.stop / 100 - x e.start / 100) := by
  have hm : multiplier = 100 := rfl
  have hs : strong = 1000000 := rfl
  have hd : medium = 1000 := rfl
  have hz : sz e x = (x e.stop / 100 - x e.start / 100) * 100 := by unfold sz; ring
  generalize x e.stop / 100 - x e.start / 100 = w at hz
  have e1 : ∀ t : ℚ, w * 100 - t * 100 = (w - t) * 100 := fun t => by ring
  cases c with
  | min t =>
    simp only [constraintFor, if_true, cost_cons, cost_nil, violation_hasIntSize, violation_hasMinSize,
      hz, hm, e1, abs_scale, sizePrice]
    simp only [Element.hasIntSize, Element.hasMinSize, Constr.constantRHS, minSizeGTE, minSizeEq, hs, hd,
      ← neg_mul, neg_sub, max_scale]
    ring
  | max t =>
    simp only [constraintFor, cost_cons, cost_nil, violation_hasIntSize, violation_hasMaxSize,
      hz, hm, e1, abs_scale, max_scale, sizePrice]
    simp only [Element.hasIntSize, Element.hasMaxSize, Constr.constantRHS, maxSizeLTE, maxSizeEq, hs, hd]
    ring
  | len t =>
    simp only [constraintFor, cost_cons, cost_nil, violation_hasIntSize,
      hz, hm, e1, abs_scale, sizePrice]
    simp only [Element.hasIntSize, Constr.constantRHS, lengthSizeEq, hs]
    ring
  | percentage t =>
    simp only [constraintFor, cost_cons, cost_nil, violation_hasSize, eval_div, eval_mul, eval_size,
      hz, ha, sizePrice]
    rw [show w * 100 - total * 100 * (t : ℚ) / 100 = (w - total * t / 100) * 100 by ring, abs_scale]
    simp only [Element.hasSize, Constr.expressionRHS, percentageSizeEq, hs]
    ring
  | ratio num den =>
    simp only [constraintFor, cost_cons, cost_nil, violation_hasSize, eval_div, eval_mul, eval_size,
      hz, ha, sizePrice]
    rw [show w * 100 - total * 100 * (num : ℚ) / ((max 1 den : Int) : ℚ)
      = (w - total * num / ((max 1 den : Int) : ℚ)) * 100 by ring, abs_scale]
    simp only [Element.hasSize, Constr.expressionRHS, ratioSizeEq, hs]
    ring
  | fill k =>
    simp only [constraintFor, cost_cons, cost_nil, violation_hasSize, eval_size,
      hz, ha, e1, abs_scale, sizePrice]
    simp only [Element.hasSize, Constr.expressionRHS, fillGrow, hd]
    ring

/-- What the solver minimises is the price of the row. -/
theorem soft_price {l : Layout} (hf : l.flex = .legacy) {m : Nat} (hn : l.constraints.length = m + 1)
    (h1 : (l.constraints.filter wantsAll).length ≤ 1) {a b : ℚ} {x : Var → ℚ}
    (h0 : x 0 = a * 100) (hl : x (2 * l.constraints.length + 1) = b * 100) :
    weightedViolation (softList l) x
      = 100 * rowPrice a b (Spacing.value l.spacing) l.constraints (rowOf l.constraints.length x) := by
  rw [wv_eq_cost fun c hc => (soft_softList l c hc).lt]
  have hm : multiplier = 100 := rfl
  have hpairs : fillPairs (segmentElements l.constraints.length) l.constraints .legacy = [] := by
    unfold fillPairs
    have := validFill_length l hf
    rw [hf] at this
    rw [if_pos (by omega)]
  have ha : sz (areaElement l.constraints.length) x = (b - a) * 100 := by
    unfold sz areaElement
    simp only [h0, hl]; ring
  unfold softList
  simp only [hf, hpairs, neighbourConstraints, ne_eq, not_true_eq_false, if_false, List.map_nil,
    List.append_nil, flexList, cost_append]
  have hsz := sizes_cost l x
  rw [hf] at hsz
  rw [hsz]
  have hs1 : ∀ i ∈ range l.constraints.length,
      cost (constraintFor (areaElement l.constraints.length) ⟨2 * i + 1, 2 * i + 2⟩ .legacy (con l i)) x
        = 100 * sizePrice (b - a) (con l i) (x (2 * i + 2) / 100 - x (2 * i + 1) / 100) :=
    fun i _ => size_cost ha (con l i)
  rw [sum_congr rfl hs1, ← mul_sum]
  unfold rowPrice rowOf
  rw [zipWith_range (fun c (p : ℚ × ℚ) => sizePrice (b - a) c (p.2 - p.1)) l.constraints (.fill 0)]
  rw [show (∑ i ∈ range l.constraints.length, sizePrice (b - a) (con l i)
      (x (2 * i + 2) / 100 - x (2 * i + 1) / 100))
    = ∑ i ∈ range l.constraints.length, sizePrice (b - a) (l.constraints.getD i (.fill 0))
      (x (2 * i + 2) / 100 - x (2 * i + 1) / 100) from rfl]
  generalize (∑ i ∈ range l.constraints.length, sizePrice (b - a) (l.constraints.getD i (.fill 0))
      (x (2 * i + 2) / 100 - x (2 * i + 1) / 100)) = P
  rw [hn, fixed_cost, endsOf_spacers, gapPrice_range]
  have hgap : ∀ i ∈ range m,
      |x (2 * (i + 1) + 1) - x (2 * (i + 1)) - (Spacing.value l.spacing : ℚ) * multiplier|
        = 100 * |x (2 * (i + 1) + 1) / 100 - x (2 * i + 2) / 100 - (Spacing.value l.spacing : ℚ)| := by
    intro i _
    rw [← abs_scale, hm]
    congr 1
    rw [show 2 * (i + 1) = 2 * i + 2 by ring]
    ring
  rw [sum_congr rfl hgap, ← mul_sum]
  have hhead : ((List.range (m + 1)).map fun i => (x (2 * i + 1) / 100, x (2 * i + 2) / 100)).head?
      = some (x 1 / 100, x 2 / 100) := by
    rw [List.range_succ_eq_map]; rfl
  have hlast : ((List.range (m + 1)).map fun i => (x (2 * i + 1) / 100, x (2 * i + 2) / 100)).getLast?
      = some (x (2 * m + 1) / 100, x (2 * m + 2) / 100) := by
    rw [List.range_succ]; simp
  rw [hhead, hlast]
  simp only [Option.elim, cost_cons, cost_nil, violation_isEmpty]
  simp only [sz, Element.isEmpty, Constr.constantRHS]
  rw [hn] at hl
  have e1 : x 1 - x 0 = (x 1 / 100 - a) * 100 := by rw [h0]; ring
  have e2 : x (2 * (m + 1) + 1) - x (2 * (m + 1)) = (b - x (2 * m + 2) / 100) * 100 := by
    rw [hl, show 2 * (m + 1) = 2 * m + 2 by ring]; ring
  rw [e1, e2, abs_scale, abs_scale]
  have hr : required - 1 = 1001000999 := by norm_num [required]
  rw [hr]
  ring

/-- Every row of segments between `a` and `b` is the row of an assignment. -/
theorem exists_placed {n : Nat} (hn : 0 < n) {a b : ℚ} {row : List (ℚ × ℚ)} (hlen : row.length = n)
    (hrow : ∀ p ∈ row, a ≤ p.1 ∧ p.1 ≤ p.2 ∧ p.2 ≤ b) :
    ∃ y, Placed n (a * multiplier) (b * multiplier) y ∧ rowOf n y = row := by
  have hm : multiplier = 100 := rfl
  -- the other row as an assignment
  let y : Var → ℚ := fun v =>
    if v = 0 then a * 100
    else if v = 2 * n + 1 then b * 100
    else if v % 2 = 1 then (row.getD (v / 2) (0, 0)).1 * 100
    else (row.getD (v / 2 - 1) (0, 0)).2 * 100
  have hget : ∀ i < n, row.getD i (0, 0) ∈ row := by
    intro i hi
    rw [List.getD_eq_getElem?_getD, List.getElem?_eq_getElem (by omega)]
    exact List.getElem_mem _
  have hodd : ∀ i < n, y (2 * i + 1) = (row.getD i (0, 0)).1 * 100 := by
    intro i hi
    show (if (2 * i + 1 : Nat) = 0 then a * 100 else if (2 * i + 1 : Nat) = 2 * n + 1
      then b * 100 else _) = _
    rw [if_neg (by omega), if_neg (by omega), if_pos (show (2 * i + 1 : Nat) % 2 = 1 by omega),
      show (2 * i + 1) / 2 = i by omega]
  have heven : ∀ i < n, y (2 * i + 2) = (row.getD i (0, 0)).2 * 100 := by
    intro i hi
    show (if (2 * i + 2 : Nat) = 0 then a * 100 else if (2 * i + 2 : Nat) = 2 * n + 1
      then b * 100 else _) = _
    rw [if_neg (by omega), if_neg (by omega), if_neg (show ¬ (2 * i + 2 : Nat) % 2 = 1 by omega),
      show (2 * i + 2) / 2 - 1 = i by omega]
  have hab : a ≤ b := by
    obtain ⟨h1, h2, h3⟩ := hrow _ (hget 0 hn)
    linarith
  have hyb : ∀ v < 2 * n + 2, a * 100 ≤ y v ∧ y v ≤ b * 100 := by
    intro v hv
    by_cases h0 : v = 0
    · subst h0
      have : y 0 = a * 100 := rfl
      rw [this]; constructor <;> linarith
    by_cases h1 : v = 2 * n + 1
    · have : y v = b * 100 := by
        show (if v = 0 then a * 100 else if v = 2 * n + 1 then b * 100 else _) = _
        rw [if_neg h0, if_pos h1]
      rw [this]; constructor <;> linarith
    rcases Nat.mod_two_eq_zero_or_one v with hp | hp
    · obtain ⟨i, rfl⟩ : ∃ i, v = 2 * i + 2 := ⟨v / 2 - 1, by omega⟩
      have hi : i < n := by omega
      obtain ⟨q1, q2, q3⟩ := hrow _ (hget i hi)
      rw [heven i hi]; constructor <;> linarith
    · obtain ⟨i, rfl⟩ : ∃ i, v = 2 * i + 1 := ⟨v / 2, by omega⟩
      have hi : i < n := by omega
      obtain ⟨q1, q2, q3⟩ := hrow _ (hget i hi)
      rw [hodd i hi]; constructor <;> linarith
  have hy : Placed n (a * multiplier) (b * multiplier) y := by
    refine ⟨rfl, ?_, fun v hv => (hyb v hv).1, fun v hv => (hyb v hv).2, fun i hi => ?_⟩
    · show (if (2 * n + 1 : Nat) = 0 then a * 100 else
        if (2 * n + 1 : Nat) = 2 * n + 1 then b * 100 else _) = _
      rw [if_neg (by omega), if_pos rfl, hm]
    · rw [hodd i hi, heven i hi]
      have := (hrow _ (hget i hi)).2.1
      linarith
  have hrowy : rowOf n y = row := by
    unfold rowOf
    apply List.ext_getElem
    · simp [hlen]
    · intro i h1 h2
      have hi : i < n := by simpa using h1
      simp only [List.getElem_map, List.getElem_range]
      rw [hodd i hi, heven i hi, List.getD_eq_getElem?_getD, List.getElem?_eq_getElem h2]
      simp
  exact ⟨y, hy, hrowy⟩

end Bento.Layout
