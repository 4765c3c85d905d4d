import Verif.Lemmas.CassoHist

/-!
# From the tableau to variable values and back
-/

namespace Bento.Casso
open Solver

theorem getValue_eq {S : Solver} {v s} (h : S.varSym v = some s) : S.getValue v = basicSol S s := by
  unfold getValue basicSol
  simp only [h]
  cases S.rows s <;> rfl

/-- The expression of a constraint of the history, evaluated with symbols or with variables. -/
theorem termsEval_eq {S : Solver} {σ : Sym → ℚ} {x : Var → ℚ} (ts : List (Var × ℚ))
    (hv : ∀ v k, (v, k) ∈ ts → k ≠ 0 → (S.varSym v).isSome)
    (hx : ∀ v s, S.varSym v = some s → σ s = x v) :
    termsEval S σ ts = (ts.map fun t => t.2 * x t.1).sum := by
  unfold termsEval
  congr 1
  apply List.map_congr_left
  intro t ht
  obtain ⟨v, k⟩ := t
  by_cases hk : k = 0
  · simp [hk]
  · obtain ⟨s, hs⟩ := Option.isSome_iff_exists.1 (hv v k ht hk)
    simp [vsym, hs, hx v s hs]

theorem eqnEval_eq {S : Solver} {σ : Sym → ℚ} {x : Var → ℚ} (c : Constr) (tag : Tag)
    (hv : ∀ v k, (v, k) ∈ c.expr.terms → k ≠ 0 → (S.varSym v).isSome)
    (hx : ∀ v s, S.varSym v = some s → σ s = x v) :
    eqnEval S c tag σ = c.expr.eval x + tagEval c.op tag σ := by
  unfold eqnEval Expr.eval
  rw [termsEval_eq _ hv hx]

/-- A non-negative valuation of the markers makes a required constraint hold and pays for the
violation of the others. -/
theorem holds_of_eqn {c : Constr} {tag : Tag} {n n'} (hT : TagOK c tag n n') {σ : Sym → ℚ}
    (hσ : Adm σ) {E : ℚ} (hE : E + tagEval c.op tag σ = 0) :
    (c.IsRequired → match c.op with | .le => E ≤ 0 | .eq => E = 0 | .ge => 0 ≤ E) ∧
    (¬ c.IsRequired → 0 ≤ c.strength →
      c.strength * (match c.op with | .le => max 0 E | .eq => |E| | .ge => max 0 (-E))
        ≤ tagCost c.op c.strength tag σ) := by
  have hm := hσ.1 tag.marker hT.notExt
  have hty := hT.markerType
  cases hoth : tag.other with
  | none =>
    have hreq : c.IsRequired := by
      by_contra h
      have := hT.otherIff.2 h
      simp [hoth] at this
    refine ⟨fun _ => ?_, fun h => absurd hreq h⟩
    rw [hoth] at hty
    cases hop : c.op with
    | le => simp only [tagEval, hop, hoth] at hE ⊢; linarith
    | ge => simp only [tagEval, hop, hoth] at hE ⊢; linarith
    | eq =>
      simp only [hop] at hty
      have := hσ.2 tag.marker hty
      simp only [tagEval, hop, hoth] at hE ⊢; linarith
  | some o =>
    have hreq : ¬ c.IsRequired := hT.otherIff.1 (by simp [hoth])
    refine ⟨fun h => absurd h hreq, fun _ hw => ?_⟩
    have ho := hσ.1 o (by rw [hT.otherType o hoth]; simp)
    cases hop : c.op with
    | le =>
      simp only [tagEval, tagCost, hop, hoth] at hE ⊢
      exact mul_le_mul_of_nonneg_left (max_le ho (by linarith)) hw
    | ge =>
      simp only [tagEval, tagCost, hop, hoth] at hE ⊢
      exact mul_le_mul_of_nonneg_left (max_le ho (by linarith)) hw
    | eq =>
      simp only [tagEval, tagCost, hop, hoth] at hE ⊢
      rw [← mul_add]
      exact mul_le_mul_of_nonneg_left (abs_le.2 ⟨by linarith, by linarith⟩) hw

/-- Values for the markers of one constraint. -/
theorem exists_markers (c : Constr) (hw : ¬ c.IsRequired ∨ c.IsRequired) (E : ℚ)
    (hreq : c.IsRequired → match c.op with | .le => E ≤ 0 | .eq => E = 0 | .ge => 0 ≤ E) :
    ∃ m o : ℚ, 0 ≤ m ∧ 0 ≤ o ∧ (c.IsRequired → c.op = .eq → m = 0) ∧
      (c.IsRequired → E + (match c.op with | .le => m | .ge => -m | .eq => m) = 0) ∧
      (¬ c.IsRequired → E + (match c.op with | .le => m - o | .ge => -m + o | .eq => -m + o) = 0) ∧
      (¬ c.IsRequired → (match c.op with | .eq => c.strength * m + c.strength * o | _ => c.strength * o)
        = c.strength * (match c.op with | .le => max 0 E | .eq => |E| | .ge => max 0 (-E))) := by
  have hmx : max 0 E - max 0 (-E) = E := by
    rcases le_total 0 E with h | h
    · rw [max_eq_right h, max_eq_left (by linarith)]; ring
    · rw [max_eq_left h, max_eq_right (by linarith)]; ring
  have hab : max 0 E + max 0 (-E) = |E| := by
    rcases le_total 0 E with h | h
    · rw [max_eq_right h, max_eq_left (by linarith), abs_of_nonneg h]; ring
    · rw [max_eq_left h, max_eq_right (by linarith), abs_of_nonpos h]; ring
  rcases hw with hw | hw
  · cases hop : c.op with
    | le =>
      refine ⟨max 0 (-E), max 0 E, le_max_left _ _, le_max_left _ _, fun h => absurd h hw,
        fun h => absurd h hw, fun _ => ?_, fun _ => rfl⟩
      simp only; linarith
    | ge =>
      refine ⟨max 0 E, max 0 (-E), le_max_left _ _, le_max_left _ _, fun h => absurd h hw,
        fun h => absurd h hw, fun _ => ?_, fun _ => rfl⟩
      simp only; linarith
    | eq =>
      refine ⟨max 0 E, max 0 (-E), le_max_left _ _, le_max_left _ _, fun h => absurd h hw,
        fun h => absurd h hw, fun _ => ?_, fun _ => ?_⟩
      · simp only; linarith
      · simp only; rw [← hab]; ring
  · have := hreq hw
    cases hop : c.op with
    | le =>
      simp only [hop] at this
      exact ⟨-E, 0, by linarith, le_refl _, by simp, fun _ => by simp, fun h => absurd hw h,
        fun h => absurd hw h⟩
    | ge =>
      simp only [hop] at this
      exact ⟨E, 0, by linarith, le_refl _, by simp, fun _ => by simp, fun h => absurd hw h,
        fun h => absurd hw h⟩
    | eq =>
      simp only [hop] at this
      exact ⟨0, 0, by linarith, le_refl _, by simp, fun _ => by simp [this], fun h => absurd hw h,
        fun h => absurd hw h⟩

/-- Change two symbols. -/
def setTag (σ : Sym → ℚ) (tag : Tag) (m o : ℚ) (s : Sym) : ℚ :=
  if s = tag.marker then m else if some s = tag.other then o else σ s

theorem tagEval_congr {op tag} {σ τ : Sym → ℚ} (h1 : σ tag.marker = τ tag.marker)
    (h2 : ∀ o, tag.other = some o → σ o = τ o) : tagEval op tag σ = tagEval op tag τ := by
  unfold tagEval
  cases hop : op <;> cases ho : tag.other <;> simp only [h1] <;> rw [h2 _ ho]

theorem tagCost_congr {op w tag} {σ τ : Sym → ℚ} (h1 : σ tag.marker = τ tag.marker)
    (h2 : ∀ o, tag.other = some o → σ o = τ o) : tagCost op w tag σ = tagCost op w tag τ := by
  unfold tagCost
  cases hop : op <;> cases ho : tag.other <;> simp only [h1] <;> rw [h2 _ ho]

/-- Every assignment of the variables that satisfies the required constraints extends to a valuation
of all symbols whose cost is the weighted violation. -/
theorem exists_extension {S : Solver} (hV : Vars S) (x : Var → ℚ) :
    ∀ (H : List Entry) (n : Nat), HistOK H n → HistVars S H →
      (∀ e ∈ H, e.c.IsRequired → e.c.Holds x) →
      ∃ σ : Sym → ℚ, (∀ v s, S.varSym v = some s → σ s = x v) ∧ Adm σ ∧ histSol S H σ ∧
        histCost H σ = weightedViolation (H.map Entry.c) x := by
  intro H
  induction H with
  | nil =>
    intro n _ _ _
    refine ⟨fun s => if s.type = .external then x ((S.varForSymbol s).getD 0) else 0, ?_, ?_, ?_, ?_⟩
    · intro v s hv
      simp [hV.type v s hv, hV.back v s hv]
    · constructor
      · intro s hs; simp [hs]
      · intro s hs; simp [hs]
    · intro e he; simp at he
    · simp [histCost, weightedViolation]
  | cons e H ih =>
    intro n hH hvars hreq
    obtain ⟨a, b, hb, hT, hH'⟩ := hH
    obtain ⟨σ, h1, h2, h3, h4⟩ := ih a hH' (fun e' he' => hvars e' (List.mem_cons_of_mem _ he'))
      (fun e' he' => hreq e' (List.mem_cons_of_mem _ he'))
    obtain ⟨m, o, hm, ho, hmd, hq1, hq2, hq3⟩ := exists_markers e.c (Decidable.em _).symm (e.c.expr.eval x)
      (fun h => by
        have := hreq e List.mem_cons_self h
        unfold Constr.Holds at this
        exact this)
    have hme : setTag σ e.tag m o e.tag.marker = m := by simp [setTag]
    have hoe : ∀ s, e.tag.other = some s → setTag σ e.tag m o s = o := by
      intro s hs
      have : s ≠ e.tag.marker := (hT.ne s hs).symm
      simp [setTag, this, hs]
    have hext : ∀ v s, S.varSym v = some s → setTag σ e.tag m o s = x v := by
      intro v s hv
      have hse := hV.type v s hv
      have hs1 : s ≠ e.tag.marker := by rintro rfl; exact hT.notExt hse
      have hs2 : some s ≠ e.tag.other := by
        intro h
        have := hT.otherType s h.symm
        rw [hse] at this; cases this
      simp [setTag, hs1, hs2, h1 v s hv]
    have hold : ∀ e' ∈ H, setTag σ e.tag m o e'.tag.marker = σ e'.tag.marker ∧
        ∀ s, e'.tag.other = some s → setTag σ e.tag m o s = σ s := by
      intro e' he'
      have hlt := hH'.lt e' he'
      have gen : ∀ s : Sym, s.value.val < a → setTag σ e.tag m o s = σ s := by
        intro s hs
        have hs1 : s ≠ e.tag.marker := by
          rintro rfl; have := hT.markerGe; omega
        have hs2 : some s ≠ e.tag.other := by
          intro h; have := hT.otherGe s h.symm; omega
        simp [setTag, hs1, hs2]
      exact ⟨gen _ hlt.1, fun s hs => gen s (hlt.2 s hs)⟩
    refine ⟨setTag σ e.tag m o, hext, ?_, ?_, ?_⟩
    · constructor
      · intro s hs
        unfold setTag
        split_ifs
        · exact hm
        · exact ho
        · exact h2.1 s hs
      · intro s hs
        unfold setTag
        split_ifs with hs1 hs2
        · have hty := hT.markerType
          rw [← hs1, hs] at hty
          cases hoth : e.tag.other with
          | some q => rw [hoth] at hty; cases hop : e.c.op <;> simp [hop] at hty
          | none =>
            rw [hoth] at hty
            apply hmd
            · by_contra hr
              have := hT.otherIff.2 hr
              simp [hoth] at this
            · cases hop : e.c.op with
              | eq => rfl
              | le => simp [hop] at hty
              | ge => simp [hop] at hty
        · have := hT.otherType s hs2.symm
          rw [hs] at this; cases this
        · exact h2.2 s hs
    · intro e' he'
      rcases List.mem_cons.1 he' with rfl | he'
      · rw [eqnEval_eq _ _ (hvars _ List.mem_cons_self) hext]
        cases hoth : e'.tag.other with
        | none =>
          have hr : e'.c.IsRequired := by
            by_contra hr
            have := hT.otherIff.2 hr
            simp [hoth] at this
          have := hq1 hr
          cases hop : e'.c.op <;> simp only [hop, tagEval, hoth, hme] at this ⊢ <;> linarith
        | some q =>
          have hr : ¬ e'.c.IsRequired := hT.otherIff.1 (by simp [hoth])
          have := hq2 hr
          have hq := hoe q hoth
          cases hop : e'.c.op <;> simp only [hop, tagEval, hoth, hme, hq] at this ⊢ <;> linarith
      · have h5 := h3 e' he'
        have hv' := hvars e' (List.mem_cons_of_mem _ he')
        rw [eqnEval_eq _ _ hv' h1] at h5
        rw [eqnEval_eq _ _ hv' hext, tagEval_congr (hold e' he').1 (hold e' he').2]
        exact h5
    · simp only [histCost, weightedViolation, List.map_cons, List.sum_cons] at h4 ⊢
      have hrest : (H.map fun e' => tagCost e'.c.op e'.c.strength e'.tag (setTag σ e.tag m o)).sum
          = (H.map fun e' => tagCost e'.c.op e'.c.strength e'.tag σ).sum := by
        congr 1
        apply List.map_congr_left
        intro e' he'
        exact tagCost_congr (hold e' he').1 (hold e' he').2
      rw [hrest, h4]
      refine congrArg₂ (· + ·) ?_ rfl
      cases hoth : e.tag.other with
      | none =>
        have hr : e.c.IsRequired := by
          by_contra hr
          have := hT.otherIff.2 hr
          simp [hoth] at this
        rw [if_pos hr]
        cases hop : e.c.op <;> simp [tagCost, hoth]
      | some q =>
        have hr : ¬ e.c.IsRequired := hT.otherIff.1 (by simp [hoth])
        rw [if_neg hr]
        have := hq3 hr
        have hq := hoe q hoth
        unfold Constr.violation
        cases hop : e.c.op <;> simp only [hop, tagCost, hoth, hme, hq] at this ⊢ <;> exact this

/-- The reported values satisfy the required constraints and their violation is at most the value of
the objective. -/
theorem inv_values {S : Solver} {H : List Entry} (hI : Inv S H) :
    (∀ e ∈ H, e.c.IsRequired → e.c.Holds S.getValue) ∧
    ((∀ e ∈ H, 0 ≤ e.c.strength) → weightedViolation (H.map Entry.c) S.getValue ≤ S.objective.constant) := by
  have hsol := sol_basicSol hI.good.tab
  have hadm := adm_basicSol hI.good.tab
  have hΦ := (hI.good.sol _).1 hsol
  have hobj : S.objective.constant = histCost H (basicSol S) := by
    rw [← eval_basicSol (S := S) S.objective hI.good.tab.nbObj]
    exact hI.good.obj _ hsol
  have hx : ∀ v s, S.varSym v = some s → basicSol S s = S.getValue v :=
    fun v s h => (getValue_eq h).symm
  have hTag : ∀ (H : List Entry) n, HistOK H n → ∀ e ∈ H, ∃ a b, TagOK e.c e.tag a b := by
    intro H
    induction H with
    | nil => intro n _ e he; simp at he
    | cons e H ih =>
      intro n hH e' he'
      obtain ⟨a, b, _, hT, hH'⟩ := hH
      rcases List.mem_cons.1 he' with rfl | he'
      · exact ⟨a, b, hT⟩
      · exact ih a hH' e' he'
  have key : ∀ e ∈ H, (e.c.IsRequired → e.c.Holds S.getValue) ∧
      (¬ e.c.IsRequired → 0 ≤ e.c.strength → e.c.strength * e.c.violation S.getValue
        ≤ tagCost e.c.op e.c.strength e.tag (basicSol S)) := by
    intro e he
    obtain ⟨a, b, hT⟩ := hTag H _ hI.hist e he
    have h1 := hΦ e he
    rw [eqnEval_eq _ _ (hI.vars e he) hx] at h1
    have := holds_of_eqn hT hadm h1
    unfold Constr.Holds Constr.violation
    exact this
  refine ⟨fun e he => (key e he).1, fun hw => ?_⟩
  have hcost0 : ∀ e ∈ H, 0 ≤ tagCost e.c.op e.c.strength e.tag (basicSol S) := by
    intro e he
    obtain ⟨a, b, hT⟩ := hTag H _ hI.hist e he
    have hm := hadm.1 e.tag.marker hT.notExt
    unfold tagCost
    cases ho : e.tag.other with
    | none => cases e.c.op <;> simp
    | some o =>
      have ho' := hadm.1 o (by rw [hT.otherType o ho]; simp)
      cases e.c.op
      · exact mul_nonneg (hw e he) ho'
      · exact add_nonneg (mul_nonneg (hw e he) hm) (mul_nonneg (hw e he) ho')
      · exact mul_nonneg (hw e he) ho'
  rw [hobj]
  unfold weightedViolation histCost
  rw [List.map_map]
  apply List.sum_le_sum
  intro e he
  simp only [Function.comp]
  split_ifs with hr
  · exact hcost0 e he
  · exact (key e he).2 hr (hw e he)

/-- The objective is the least weighted violation. -/
theorem inv_optimal {S : Solver} {H : List Entry} (hI : Inv S H) (x : Var → ℚ)
    (hx : Feasible (H.map Entry.c) x) :
    S.objective.constant ≤ weightedViolation (H.map Entry.c) x := by
  obtain ⟨σ, _, h2, h3, h4⟩ := exists_extension hI.good.vars x H _ hI.hist hI.vars
    (fun e he hr => hx e.c (List.mem_map_of_mem he) hr)
  rw [← h4, ← hI.good.obj σ ((hI.good.sol σ).2 h3)]
  exact constant_le_eval h2 hI.good.tab.extObj hI.optimal

end Bento.Casso
