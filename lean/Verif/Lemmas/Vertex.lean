import Verif.Lemmas.CassoVal

/-!
# The solver's answer is a corner

The values are those of the basic solution, in which all symbols outside of the basis are zero, so
they are determined by the constraints that hold with equality.
-/

namespace Bento.Casso
open Solver

/-- What remains of a constraint's equation when its symbols are zero unless they are in use. -/
theorem markers_in_use {c : Constr} {tag : Tag} {n n'} (hT : TagOK c tag n n') {β : Sym → ℚ}
    {E E' : ℚ} (hE : E + tagEval c.op tag β = 0) (hz : E = 0 → E' = 0) :
    ∃ m o : ℚ, (β tag.marker = 0 → m = 0) ∧ (∀ s, tag.other = some s → β s = 0 → o = 0) ∧
      ∀ τ : Sym → ℚ, τ tag.marker = m → (∀ s, tag.other = some s → τ s = o) →
        E' + tagEval c.op tag τ = 0 := by
  have key : ∀ k : ℚ, k = 1 ∨ k = -1 → ∀ other : Option Sym, tag.other = other →
      (∀ τ : Sym → ℚ, tagEval c.op tag τ = match other with
        | none => k * τ tag.marker
        | some s => k * τ tag.marker - k * τ s) →
      ∃ m o : ℚ, (β tag.marker = 0 → m = 0) ∧ (∀ s, tag.other = some s → β s = 0 → o = 0) ∧
        ∀ τ : Sym → ℚ, τ tag.marker = m → (∀ s, tag.other = some s → τ s = o) →
          E' + tagEval c.op tag τ = 0 := by
    intro k hk other ho hev
    have hkk : k * k = 1 := by rcases hk with rfl | rfl <;> norm_num
    by_cases h0 : E' = 0
    · refine ⟨0, 0, fun _ => rfl, fun _ _ _ => rfl, ?_⟩
      intro τ hm hs
      rw [hev τ]
      cases other with
      | none => simp [hm, h0]
      | some s => simp [hm, hs s ho, h0]
    · have hE0 : E ≠ 0 := fun h => h0 (hz h)
      rw [hev β] at hE
      by_cases hm0 : β tag.marker = 0
      · cases other with
        | none => simp [hm0] at hE; exact absurd hE hE0
        | some s =>
          refine ⟨0, k * E', fun _ => rfl, ?_, ?_⟩
          · intro s' hs' hβ
            rw [ho] at hs'
            cases hs'
            simp only [hm0, hβ] at hE
            simp at hE
            exact absurd hE hE0
          · intro τ hm hs
            rw [hev τ]
            simp only [hm, hs s ho]
            rw [← mul_assoc, hkk]
            ring
      · refine ⟨-(k * E'), 0, fun h => absurd h hm0, fun _ _ _ => rfl, ?_⟩
        intro τ hm hs
        rw [hev τ]
        cases other with
        | none =>
          simp only [hm]
          rw [mul_neg, ← mul_assoc, hkk]
          ring
        | some s =>
          simp only [hm, hs s ho]
          rw [mul_neg, ← mul_assoc, hkk]
          ring
  cases ho : tag.other with
  | none =>
    rw [← ho]
    cases hop : c.op
    · rw [← hop]; exact key 1 (Or.inl rfl) none ho (fun τ => by rw [hop]; simp [tagEval, ho])
    · rw [← hop]; exact key 1 (Or.inl rfl) none ho (fun τ => by rw [hop]; simp [tagEval, ho])
    · rw [← hop]; exact key (-1) (Or.inr rfl) none ho (fun τ => by rw [hop]; simp [tagEval, ho])
  | some s =>
    rw [← ho]
    cases hop : c.op
    · rw [← hop]; exact key 1 (Or.inl rfl) (some s) ho (fun τ => by rw [hop]; simp [tagEval, ho])
    · rw [← hop]; exact key (-1) (Or.inr rfl) (some s) ho (fun τ => by
        rw [hop]; simp [tagEval, ho])
    · rw [← hop]; exact key (-1) (Or.inr rfl) (some s) ho (fun τ => by
        rw [hop]; simp [tagEval, ho])

/-- An assignment under which every constraint that was met exactly is met exactly extends to a
solution of the equations in which only symbols in use are not zero. -/
theorem exists_in_use {S : Solver} (hV : Vars S) (x : Var → ℚ) (β : Sym → ℚ) (y : Var → ℚ)
    (hβ : ∀ v s, S.varSym v = some s → β s = y v) (hzero : ∀ v, y v = 0 → x v = 0) :
    ∀ (H : List Entry) (n : Nat), HistOK H n → HistVars S H → histSol S H β →
      (∀ e ∈ H, e.c.expr.eval y = 0 → e.c.expr.eval x = 0) →
      ∃ σ : Sym → ℚ, (∀ v s, S.varSym v = some s → σ s = x v) ∧
        (∀ s, β s = 0 → σ s = 0) ∧ histSol S H σ := by
  classical
  intro H
  induction H with
  | nil =>
    intro n _ _ _ _
    refine ⟨fun s => if h : ∃ v, S.varSym v = some s then x h.choose else 0, ?_, ?_, ?_⟩
    · intro v s hv
      have h : ∃ v, S.varSym v = some s := ⟨v, hv⟩
      simp only [dif_pos h]
      have h1 := hV.back _ _ h.choose_spec
      rw [hV.back v s hv] at h1
      rw [Option.some.inj h1]
    · intro s hs
      by_cases h : ∃ v, S.varSym v = some s
      · simp only [dif_pos h]
        exact hzero _ (by rw [← hβ _ _ h.choose_spec]; exact hs)
      · simp only [dif_neg h]
    · intro e he; simp at he
  | cons e H ih =>
    intro n hH hvars hsol hreq
    obtain ⟨a, b, hb, hT, hH'⟩ := hH
    obtain ⟨σ, h1, h2, h3⟩ := ih a hH' (fun e' he' => hvars e' (List.mem_cons_of_mem _ he'))
      (fun e' he' => hsol e' (List.mem_cons_of_mem _ he'))
      (fun e' he' => hreq e' (List.mem_cons_of_mem _ he'))
    have hE := hsol e List.mem_cons_self
    rw [eqnEval_eq _ _ (hvars _ List.mem_cons_self) hβ] at hE
    obtain ⟨m, o, hm, ho, hq⟩ := markers_in_use hT hE (hreq e List.mem_cons_self)
    have hme : setTag σ e.tag m o e.tag.marker = m := by simp [setTag]
    have hoe : ∀ s, e.tag.other = some s → setTag σ e.tag m o s = o := by
      intro s hs
      have : s ≠ e.tag.marker := (hT.ne s hs).symm
      simp [setTag, this, hs]
    have hext : ∀ v s, S.varSym v = some s → setTag σ e.tag m o s = x v := by
      intro v s hv
      have hse := hV.type v s hv
      have hs1 : s ≠ e.tag.marker := by rintro rfl; exact hT.notExt hse
      have hs2 : some s ≠ e.tag.other := by
        intro h
        have := hT.otherType s h.symm
        rw [hse] at this; cases this
      simp [setTag, hs1, hs2, h1 v s hv]
    have hold : ∀ e' ∈ H, setTag σ e.tag m o e'.tag.marker = σ e'.tag.marker ∧
        ∀ s, e'.tag.other = some s → setTag σ e.tag m o s = σ s := by
      intro e' he'
      have hlt := hH'.lt e' he'
      have gen : ∀ s : Sym, s.value.val < a → setTag σ e.tag m o s = σ s := by
        intro s hs
        have hs1 : s ≠ e.tag.marker := by
          rintro rfl; have := hT.markerGe; omega
        have hs2 : some s ≠ e.tag.other := by
          intro h; have := hT.otherGe s h.symm; omega
        simp [setTag, hs1, hs2]
      exact ⟨gen _ hlt.1, fun s hs => gen s (hlt.2 s hs)⟩
    refine ⟨setTag σ e.tag m o, hext, ?_, ?_⟩
    · intro s hs
      unfold setTag
      split_ifs with hs1 hs2
      · exact hm (hs1 ▸ hs)
      · exact ho s hs2.symm hs
      · exact h2 s hs
    · intro e' he'
      rcases List.mem_cons.1 he' with rfl | he'
      · rw [eqnEval_eq _ _ (hvars _ List.mem_cons_self) hext]
        exact hq _ hme hoe
      · have h5 := h3 e' he'
        have hv' := hvars e' (List.mem_cons_of_mem _ he')
        rw [eqnEval_eq _ _ hv' h1] at h5
        rw [eqnEval_eq _ _ hv' hext, tagEval_congr (hold e' he').1 (hold e' he').2]
        exact h5

/-- A solution that is zero outside of the basis is the basic solution. -/
theorem sol_unique {S : Solver} (hT : Tab S) {σ : Sym → ℚ} (h : Sol S σ)
    (hz : ∀ s, S.rows s = none → σ s = 0) : σ = basicSol S := by
  funext s
  cases hr : S.rows s with
  | none => rw [hz s hr, basicSol_none hr]
  | some r =>
    rw [h s r hr, basicSol_some hr]
    unfold Row.eval
    have : ∀ t, r.cells t * σ t = 0 := by
      intro t
      cases ht : S.rows t with
      | none => rw [hz t ht, mul_zero]
      | some r' => rw [hT.nb s r t r' hr ht, zero_mul]
    simp [this]

/-- **The values are a corner**: an assignment that meets exactly every constraint the values meet
exactly, and is zero where they are zero, agrees with them. -/
theorem inv_vertex {S : Solver} {H : List Entry} (hI : Inv S H) (x : Var → ℚ)
    (hzero : ∀ v, S.getValue v = 0 → x v = 0)
    (htight : ∀ e ∈ H, e.c.expr.eval S.getValue = 0 → e.c.expr.eval x = 0)
    {v : Var} (hv : (S.varSym v).isSome) : x v = S.getValue v := by
  have hx : ∀ v s, S.varSym v = some s → basicSol S s = S.getValue v :=
    fun v s h => (getValue_eq h).symm
  obtain ⟨σ, h1, h2, h3⟩ := exists_in_use hI.good.vars x (basicSol S) S.getValue hx hzero H _
    hI.hist hI.vars ((hI.good.sol _).1 (sol_basicSol hI.good.tab)) htight
  have := sol_unique hI.good.tab ((hI.good.sol _).2 h3) (fun s hs => h2 s (basicSol_none hs))
  obtain ⟨s, hs⟩ := Option.isSome_iff_exists.1 hv
  rw [← h1 v s hs, ← hx v s hs, this]

end Bento.Casso
