import Verif.Lemmas.Layout
import Verif.Props.Casso
import Verif.Spec.Layout

/-!
# From the solver to the rectangles
-/

namespace Bento.Layout

open Casso

/-! ## The symbols a layout takes -/

theorem symbolsFor_append (cs ds : List Constr) : ∀ seen,
    symbolsFor seen (cs ++ ds)
      = symbolsFor seen cs + symbolsFor (seen ++ cs.flatMap Constr.vars) ds := by
  induction cs with
  | nil => intro seen; simp [symbolsFor]
  | cons c cs ih =>
    intro seen
    rw [List.cons_append, symbolsFor_cons, symbolsFor_cons, ih, List.flatMap_cons, List.append_assoc]
    omega

/-- The constraints that keep the variables in the area bring in every variable not seen before. -/
theorem symbolsFor_inArea (area : Element) (vs : List Var) : ∀ seen : List Var, area.start ∈ seen →
    area.stop ∈ seen → vs.Nodup →
    symbolsFor seen (variableInAreaConstraints vs area)
      ≤ 3 * vs.length + (vs.filter (· ∈ seen)).length := by
  induction vs with
  | nil => intro seen _ _ _; simp [variableInAreaConstraints, symbolsFor]
  | cons v vs ih =>
    intro seen h1 h2 hnd
    have hcons : variableInAreaConstraints (v :: vs) area
        = [Constr.variableRHS .ge required (Expr.ofVar v) area.start,
           Constr.variableRHS .le required (Expr.ofVar v) area.stop]
          ++ variableInAreaConstraints vs area := rfl
    rw [hcons, symbolsFor_append]
    have hnd' := List.nodup_cons.1 hnd
    have hvars : ([Constr.variableRHS .ge required (Expr.ofVar v) area.start,
           Constr.variableRHS .le required (Expr.ofVar v) area.stop]).flatMap Constr.vars
        = [v, area.start, v, area.stop] := rfl
    rw [hvars]
    have hih := ih (seen ++ [v, area.start, v, area.stop]) (by simp [h1]) (by simp [h2]) hnd'.2
    have hf : (vs.filter (· ∈ seen ++ [v, area.start, v, area.stop])).length
        = (vs.filter (· ∈ seen)).length := by
      congr 1
      apply List.filter_congr
      intro u hu
      have hne : u ≠ v := by rintro rfl; exact hnd'.1 hu
      simp only [List.mem_append, List.mem_cons, List.not_mem_nil, or_false, decide_eq_decide]
      constructor
      · rintro (h | h | h | h | h)
        · exact h
        · exact absurd h hne
        · rw [h]; exact h1
        · exact absurd h hne
        · rw [h]; exact h2
      · exact Or.inl
    rw [hf] at hih
    have hc2 := need_le (seen ++ [v, area.start]) (Constr.variableRHS .le required (Expr.ofVar v) area.stop)
    have htwo : symbolsFor seen [Constr.variableRHS .ge required (Expr.ofVar v) area.start,
           Constr.variableRHS .le required (Expr.ofVar v) area.stop]
        ≤ need seen (Constr.variableRHS .ge required (Expr.ofVar v) area.start) + 2 := by
      rw [symbolsFor_cons, symbolsFor_cons]
      have : (Constr.variableRHS .ge required (Expr.ofVar v) area.start).vars = [v, area.start] := rfl
      rw [this, show ∀ s, symbolsFor s [] = 0 from fun _ => rfl]
      omega
    by_cases hv : v ∈ seen
    · have hc1 := need_le seen (Constr.variableRHS .ge required (Expr.ofVar v) area.start)
      rw [List.filter_cons_of_pos (by simpa using hv), List.length_cons, List.length_cons]
      omega
    · have hc1 : need seen (Constr.variableRHS .ge required (Expr.ofVar v) area.start) = 1 := by
        unfold need
        refine if_pos ⟨le_refl required, (v, 1), ?_, one_ne_zero, hv, ?_⟩
        · simp [Constr.variableRHS, Expr.subVariable, Expr.ofVar]
        · have hne : area.start ≠ v := by rintro h; exact hv (h ▸ h1)
          simp [Constr.vars, Constr.variableRHS, Expr.subVariable, Expr.ofVar, List.count_cons, hne]
      rw [List.filter_cons_of_neg (by simpa using hv), List.length_cons]
      omega

/-- The symbols of the constraints that must hold. -/
theorem symbolsFor_hard (l : Layout) (inner : Rect) :
    symbolsFor [] (hardList l inner) ≤ 8 * l.constraints.length + 10 := by
  unfold hardList
  simp only
  generalize (((l.areaBounds inner).1 : ℚ) * multiplier) = a
  generalize (((l.areaBounds inner).2 : ℚ) * multiplier) = b
  generalize l.constraints.length = n
  have hlast : symbolsFor (([] : List Var) ++ (areaConstraints (areaElement n) a b ++
      variableInAreaConstraints (layoutVars n) (areaElement n)).flatMap Constr.vars)
      (variableConstraints (layoutVars n)) ≤ 2 * n := by
    refine (symbolsFor_le _ _).trans ?_
    have h1 : (newElements (layoutVars n).tail).length = n := by
      have : newElements (layoutVars n).tail = segmentElements n := rfl
      rw [this, segmentElements_eq]; simp
    rw [variableConstraints, List.length_map, h1]
  have harea : symbolsFor [] (areaConstraints (areaElement n) a b) = 2 := by
    have e : areaElement n = ⟨0, 2 * n + 1⟩ := rfl
    have h1 : need [] (Constr.constantRHS .eq required (Expr.ofVar 0) a) = 1 :=
      if_pos ⟨le_refl required, (0, 1), by simp [Constr.constantRHS, Expr.subConstant, Expr.ofVar],
        one_ne_zero, by simp, by simp [Constr.vars, Constr.constantRHS, Expr.subConstant, Expr.ofVar]⟩
    have h2 : need [0] (Constr.constantRHS .eq required (Expr.ofVar (2 * n + 1)) b) = 1 :=
      if_pos ⟨le_refl required, (2 * n + 1, 1), by
          simp [Constr.constantRHS, Expr.subConstant, Expr.ofVar],
        one_ne_zero, by simp, by simp [Constr.vars, Constr.constantRHS, Expr.subConstant, Expr.ofVar]⟩
    rw [e]
    unfold areaConstraints
    rw [symbolsFor_cons, symbolsFor_cons, h1]
    have : ([] : List Var) ++ (Constr.constantRHS .eq required (Expr.ofVar 0) a).vars = [0] := rfl
    rw [this, h2]
    rfl
  have hin : symbolsFor [0, 2 * n + 1] (variableInAreaConstraints (layoutVars n) (areaElement n))
      ≤ 3 * (2 * n + 2) + 2 := by
    have e : areaElement n = ⟨0, 2 * n + 1⟩ := rfl
    refine (symbolsFor_inArea (areaElement n) (layoutVars n) [0, 2 * n + 1]
      (by simp [e]) (by simp [e]) List.nodup_range).trans ?_
    have hl : (layoutVars n).length = 2 * n + 2 := List.length_range
    rw [hl]
    have : ((layoutVars n).filter (· ∈ [0, 2 * n + 1])).length ≤ 2 := by
      have hnd : ((layoutVars n).filter (· ∈ [0, 2 * n + 1])).Nodup := List.nodup_range.filter _
      have hsub : (layoutVars n).filter (· ∈ [0, 2 * n + 1]) ⊆ [0, 2 * n + 1] := by
        intro u hu
        simpa using (List.mem_filter.1 hu).2
      exact (List.subperm_of_subset hnd hsub).length_le
    exact Nat.add_le_add_left this _
  rw [symbolsFor_append, symbolsFor_append, harea]
  have hv : ([] : List Var) ++ (areaConstraints (areaElement n) a b).flatMap Constr.vars
      = [0, 2 * n + 1] := rfl
  rw [hv]
  omega

theorem pairsOutOf_eq {α : Type} (xs : List α) : (allPairs xs).length = pairsOutOf xs.length := by
  unfold pairsOutOf
  rw [← allPairs_length]; omega

/-- A layout states at most as many constraints that are not required as the specification counts. -/
theorem softList_length_le (l : Layout) : (softList l).length ≤ wishes l := by
  have hseg : (segmentElements l.constraints.length).length = l.constraints.length := by
    rw [segmentElements_eq]; simp
  have h0 : (flexList (areaElement l.constraints.length) (spacerElements l.constraints.length) l.flex
        (Spacing.value l.spacing)).length ≤
      match l.flex with
      | .legacy | .start | .end' => l.constraints.length - 1 + 2
      | .center => l.constraints.length - 1 + 3
      | .spaceBetween =>
        pairsOutOf (l.constraints.length - 1) + 2 * (l.constraints.length - 1) + 2
      | .spaceAround => pairsOutOf (l.constraints.length - 1) + 2 * (l.constraints.length - 1) :=
    flexList_length_le
  have h1 : (sizeConstraints (areaElement l.constraints.length)
      (segmentElements l.constraints.length) l.constraints l.flex).length
      ≤ (l.constraints.map fun c => match c with | .min _ | .max _ => 2 | _ => 1).sum := by
    unfold sizeConstraints
    have : ∀ (cs : List Constraint) (es : List Element), ((cs.zip es).flatMap fun p =>
        constraintFor (areaElement l.constraints.length) p.2 l.flex p.1).length
        ≤ (cs.map fun c => match c with | .min _ | .max _ => 2 | _ => 1).sum := by
      intro cs
      induction cs with
      | nil => simp
      | cons c cs ih =>
        intro es
        cases es with
        | nil => simp
        | cons e es =>
          rw [List.zip_cons_cons, List.flatMap_cons, List.length_append, List.map_cons, List.sum_cons]
          have h := ih es
          have : (constraintFor (areaElement l.constraints.length) e l.flex c).length
              ≤ match c with | .min _ | .max _ => 2 | _ => 1 := by
            cases c <;> simp [constraintFor]
          simp only
          omega
    exact this _ _
  have h2 : ((fillPairs (segmentElements l.constraints.length) l.constraints l.flex).map
      (fun p => fillPair p.1 p.2)).length
      ≤ pairsOutOf (l.constraints.filter (sharesSpace l.flex)).length := by
    have hvl : (validFill (segmentElements l.constraints.length) l.constraints l.flex).length
        = (l.constraints.filter (sharesSpace l.flex)).length := by
      unfold validFill
      have : ∀ (cs : List Constraint) (es : List Element), cs.length ≤ es.length →
          ((cs.zip es).filterMap fun p => (scalingFactor l.flex p.1).map fun k => (p.2, k)).length
          = (cs.filter (sharesSpace l.flex)).length := by
        intro cs
        induction cs with
        | nil => intro es _; rfl
        | cons c cs ih =>
          intro es he
          cases es with
          | nil => simp at he
          | cons e es =>
            have h := ih es (by simpa using he)
            rw [List.zip_cons_cons]
            by_cases hs : sharesSpace l.flex c = true
            · obtain ⟨k, hk⟩ : ∃ k, scalingFactor l.flex c = some k := by
                cases c <;> simp_all [sharesSpace, scalingFactor]
              rw [List.filter_cons_of_pos hs, List.filterMap_cons_some (b := (e, k)) (by simp [hk]),
                List.length_cons, List.length_cons, h]
            · have hk : scalingFactor l.flex c = none := by
                cases c <;> simp_all [sharesSpace, scalingFactor]
              rw [List.filter_cons_of_neg hs, List.filterMap_cons_none (by simp [hk]), h]
      exact this _ _ hseg.ge
    rw [List.length_map]
    unfold fillPairs
    split_ifs
    · simp
    · rw [pairsOutOf_eq, hvl]
  have h3 : (neighbourConstraints (segmentElements l.constraints.length) l.flex).length
      ≤ if l.flex = .legacy then 0 else l.constraints.length - 1 := by
    unfold neighbourConstraints
    simp only [ne_eq, ite_not]
    split_ifs
    · simp
    · rw [List.length_map, List.length_zip, List.length_tail, hseg]; omega
  unfold softList wishes
  simp only [List.length_append]
  exact Nat.add_le_add (Nat.add_le_add (Nat.add_le_add h0 h1) h2) h3

/-- Layouts that stay within the symbols of the solver. -/
theorem budget_few {l : Layout} (h : Few l) (inner : Rect) :
    1 + (2 * l.constraints.length + 2) + symbolsFor [] (hardList l inner ++ softList l) ≤ 256 := by
  unfold Few at h
  rw [symbolsFor_append]
  have h1 := symbolsFor_hard l inner
  have h2 := symbolsFor_le (softList l) ([] ++ (hardList l inner).flatMap Constr.vars)
  have h3 := softList_length_le l
  omega

theorem few_length {l : Layout} (h : Few l) : l.constraints.length ≤ 1000000 := by
  unfold Few at h; omega

theorem pairsOutOf_mono {a b : Nat} (h : a ≤ b) : pairsOutOf a ≤ pairsOutOf b :=
  Nat.div_le_div_right (Nat.mul_le_mul h (by omega))

/-- A few constraints of whatever kind are few enough. -/
theorem few_of_small {l : Layout} (h : l.constraints.length ≤ 7 ∨
    (l.flex ≠ .spaceAround ∧ l.flex ≠ .spaceBetween ∧ l.constraints.length ≤ 9) ∨
    (l.flex = .legacy ∧ l.constraints.length ≤ 10)) : Few l := by
  have hs : ∀ cs : List Constraint,
      (cs.map fun c => match c with | .min _ | .max _ => 2 | _ => 1).sum ≤ 2 * cs.length ∧
      (cs.map fun c => match c with | .min _ | .max _ => 2 | _ => 1).sum
        + (cs.filter (sharesSpace .legacy)).length ≤ 2 * cs.length := by
    intro cs
    induction cs with
    | nil => simp
    | cons c cs ih =>
      rw [List.filter_cons, List.map_cons, List.sum_cons, List.length_cons]
      cases c <;> simp only [sharesSpace] <;> simp at ih ⊢ <;> omega
  obtain ⟨h1, h2⟩ := hs l.constraints
  have hp := List.length_filter_le (sharesSpace l.flex) l.constraints
  unfold Few wishes
  simp only
  generalize (l.constraints.map fun c => match c with | .min _ | .max _ => 2 | _ => 1).sum = s at *
  rcases h with h | ⟨ha, hb, h⟩ | ⟨hl, h⟩
  · generalize (l.constraints.filter (sharesSpace l.flex)).length = f at *
    generalize l.constraints.length = n at *
    have := pairsOutOf_mono hp
    cases l.flex <;> interval_cases n <;> simp [pairsOutOf] at * <;> omega
  · generalize (l.constraints.filter (sharesSpace l.flex)).length = f at *
    generalize l.constraints.length = n at *
    have := pairsOutOf_mono hp
    cases hfl : l.flex <;> simp only [hfl, ne_eq, not_true_eq_false, reduceCtorEq] at ha hb ⊢ <;>
      interval_cases n <;> simp [pairsOutOf] at * <;> omega
  · rw [hl] at hp ⊢
    generalize (l.constraints.filter (sharesSpace .legacy)).length = f at *
    generalize l.constraints.length = n at *
    simp only [if_true]
    interval_cases n <;> interval_cases f <;> simp [pairsOutOf] <;> omega

theorem wv_append (cs ds : List Constr) (x : Var → ℚ) :
    weightedViolation (cs ++ ds) x = weightedViolation cs x + weightedViolation ds x := by
  simp [weightedViolation]

theorem wv_hard (l : Layout) (inner : Rect) (x : Var → ℚ) :
    weightedViolation (hardList l inner) x = 0 := by
  unfold weightedViolation
  apply List.sum_eq_zero
  intro q hq
  obtain ⟨c, hc, rfl⟩ := List.mem_map.1 hq
  exact if_pos (hard_isRequired l inner c hc)

/-- The outcome in terms of a best placement. -/
theorem split_values {ω : Nat → Nat} {fuel : Nat} (l : Layout) (area : Rect) (hfew : Few l) :
    splitWithSpacers ω fuel l area = .running ∨
    ∃ x : Var → ℚ,
      splitWithSpacers ω fuel l area = .ok
        (changesToRects x (segmentElements l.constraints.length) (area.inner l.padding) l.direction)
        (changesToRects x (spacerElements l.constraints.length) (area.inner l.padding) l.direction) ∧
      Placed l.constraints.length (((l.areaBounds (area.inner l.padding)).1 : ℚ) * multiplier)
        (((l.areaBounds (area.inner l.padding)).2 : ℚ) * multiplier) x ∧
      ∀ y, Placed l.constraints.length (((l.areaBounds (area.inner l.padding)).1 : ℚ) * multiplier)
          (((l.areaBounds (area.inner l.padding)).2 : ℚ) * multiplier) y →
        weightedViolation (softList l) x ≤ weightedViolation (softList l) y := by
  unfold splitWithSpacers
  simp only [solverConstraints_eq]
  generalize hin : area.inner l.padding = inner at *
  have hle : (((l.areaBounds inner).1 : ℚ) * multiplier) ≤ (((l.areaBounds inner).2 : ℚ) * multiplier) := by
    have := inner_bounds l area
    rw [hin] at this
    have h' : ((l.areaBounds inner).1 : ℚ) ≤ (l.areaBounds inner).2 := by exact_mod_cast this
    exact mul_le_mul_of_nonneg_right h' (by norm_num [multiplier])
  have hx := (feasible_iff l inner _).2 (placed_trivial l.constraints.length hle)
  have hv : ∀ c ∈ hardList l inner ++ softList l, ∀ v k, (v, k) ∈ c.expr.terms →
      v < 2 * l.constraints.length + 2 := by
    intro c hc
    rcases List.mem_append.1 hc with hc | hc
    · exact hard_below l inner c hc
    · exact (soft_softList l c hc).below
  have hw : ∀ c ∈ hardList l inner ++ softList l, 0 ≤ c.strength := by
    intro c hc
    rcases List.mem_append.1 hc with hc | hc
    · exact le_trans (by norm_num [required]) (hard_isRequired l inner c hc)
    · exact (soft_softList l c hc).nonneg
  rcases C58_no_false_refusal_partial (ω := ω) (fuel := fuel) hv (budget_few hfew inner) hw hx with h | ⟨S, h, hn⟩
  · left; rw [h]
  · right
    have hfetch := C20_fetch_reports_values h hn
    have hc := changesMap_eq hfetch.1 hfetch.2
    refine ⟨S.getValue, ?_, (feasible_iff l inner _).1 (C20_required_hold_partial h hn), ?_⟩
    · rw [h]; simp only [hc]
    · intro y hy
      have := C21_minimal_violation_partial h hn hw y ((feasible_iff l inner y).2 hy)
      rw [wv_append, wv_append, wv_hard, wv_hard] at this
      linarith

/-- The rectangle of an element between two placed variables fits. -/
theorem elementRect_fits (l : Layout) (area : Rect) {n : Nat} {x : Var → ℚ}
    (hx : Placed n (((l.areaBounds (area.inner l.padding)).1 : ℚ) * multiplier)
        (((l.areaBounds (area.inner l.padding)).2 : ℚ) * multiplier) x)
    {e : Element} (he : ElemBelow (2 * n + 2) e) :
    Fits l.direction (area.inner l.padding) (elementRect x (area.inner l.padding) l.direction e) := by
  have h1 := toCell_mono (hx.low _ he.1)
  have h2 := toCell_mono (hx.high _ he.1)
  have h3 := toCell_mono (hx.low _ he.2)
  have h4 := toCell_mono (hx.high _ he.2)
  rw [toCell_int] at h1 h2 h3 h4
  generalize area.inner l.padding = inner at *
  unfold Fits elementRect
  unfold areaBounds Rect.right Rect.bottom at h1 h2 h3 h4
  cases hd : l.direction <;> simp only [hd, lo, extent] at h1 h2 h3 h4 ⊢ <;>
    exact ⟨by omega, by omega, by omega, trivial, trivial⟩


end Bento.Layout
