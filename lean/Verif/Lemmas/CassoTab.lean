import Verif.Lemmas.CassoRow

/-!
# The tableau invariant and its preservation by pivoting
-/

namespace Bento.Casso
open Solver

section fields
variable (S : Solver) (v : Var) (vs : List Var)

@[simp] theorem varChanged_rows : (S.varChanged v).rows = S.rows := by
  unfold varChanged; split_ifs <;> rfl
@[simp] theorem varChanged_objective : (S.varChanged v).objective = S.objective := by
  unfold varChanged; split_ifs <;> rfl
@[simp] theorem varChanged_artificial : (S.varChanged v).artificial = S.artificial := by
  unfold varChanged; split_ifs <;> rfl
@[simp] theorem varChanged_idTick : (S.varChanged v).idTick = S.idTick := by
  unfold varChanged; split_ifs <;> rfl
@[simp] theorem varChanged_varSym : (S.varChanged v).varSym = S.varSym := by
  unfold varChanged; split_ifs <;> rfl
@[simp] theorem varChanged_varForSymbol : (S.varChanged v).varForSymbol = S.varForSymbol := by
  unfold varChanged; split_ifs <;> rfl
@[simp] theorem varChanged_varLast : (S.varChanged v).varLast = S.varLast := by
  unfold varChanged; split_ifs <;> rfl
@[simp] theorem varChanged_publicChanges : (S.varChanged v).publicChanges = S.publicChanges := by
  unfold varChanged; split_ifs <;> rfl
@[simp] theorem varChanged_clear (h : S.shouldClearChanges = false) :
    (S.varChanged v).shouldClearChanges = false := by
  unfold varChanged; split_ifs <;> first | rfl | assumption
theorem varChanged_mem : v ∈ (S.varChanged v).changed := by
  unfold varChanged; split_ifs <;> simp_all
theorem varChanged_sub (h : S.shouldClearChanges = false) {u} (hu : u ∈ S.changed) :
    u ∈ (S.varChanged v).changed := by
  unfold varChanged; split_ifs <;> simp_all

@[simp] theorem fold_rows : (vs.foldl varChanged S).rows = S.rows := by
  induction vs generalizing S <;> simp_all
@[simp] theorem fold_objective : (vs.foldl varChanged S).objective = S.objective := by
  induction vs generalizing S <;> simp_all
@[simp] theorem fold_artificial : (vs.foldl varChanged S).artificial = S.artificial := by
  induction vs generalizing S <;> simp_all
@[simp] theorem fold_idTick : (vs.foldl varChanged S).idTick = S.idTick := by
  induction vs generalizing S <;> simp_all
@[simp] theorem fold_varSym : (vs.foldl varChanged S).varSym = S.varSym := by
  induction vs generalizing S <;> simp_all
@[simp] theorem fold_varForSymbol : (vs.foldl varChanged S).varForSymbol = S.varForSymbol := by
  induction vs generalizing S <;> simp_all
@[simp] theorem fold_varLast : (vs.foldl varChanged S).varLast = S.varLast := by
  induction vs generalizing S <;> simp_all
@[simp] theorem fold_publicChanges : (vs.foldl varChanged S).publicChanges = S.publicChanges := by
  induction vs generalizing S <;> simp_all
theorem fold_clear (h : S.shouldClearChanges = false) :
    (vs.foldl varChanged S).shouldClearChanges = false := by
  induction vs generalizing S <;> simp_all
theorem fold_sub (h : S.shouldClearChanges = false) {u} (hu : u ∈ S.changed) :
    u ∈ (vs.foldl varChanged S).changed := by
  induction vs generalizing S with
  | nil => simpa using hu
  | cons a t ih => exact ih _ (varChanged_clear _ _ h) (varChanged_sub _ _ h hu)
theorem fold_mem (h : S.shouldClearChanges = false) {u} (hu : u ∈ vs) :
    u ∈ (vs.foldl varChanged S).changed := by
  induction vs generalizing S with
  | nil => simp at hu
  | cons a t ih =>
    rcases List.mem_cons.1 hu with rfl | hu
    · exact fold_sub _ _ (varChanged_clear _ _ h) (varChanged_mem _ _)
    · exact ih _ (varChanged_clear _ _ h) hu

end fields

section pivotFields
variable (S : Solver) (s : Sym) (row : Row)

theorem pivotIn_rows : (S.pivotIn s row).rows =
    fun b => if b = s then some row else (S.rows b).map fun r => (r.substitute s row).1 := by
  unfold pivotIn Solver.substitute
  simp only
  split_ifs <;> simp
theorem pivotIn_objective : (S.pivotIn s row).objective = (S.objective.substitute s row).1 := by
  unfold pivotIn Solver.substitute
  simp only
  split_ifs <;> simp
theorem pivotIn_artificial :
    (S.pivotIn s row).artificial = S.artificial.map fun r => (r.substitute s row).1 := by
  unfold pivotIn Solver.substitute
  simp only
  split_ifs <;> simp
@[simp] theorem pivotIn_idTick : (S.pivotIn s row).idTick = S.idTick := by
  unfold pivotIn Solver.substitute
  simp only
  split_ifs <;> simp
@[simp] theorem pivotIn_varSym : (S.pivotIn s row).varSym = S.varSym := by
  unfold pivotIn Solver.substitute
  simp only
  split_ifs <;> simp
@[simp] theorem pivotIn_varForSymbol : (S.pivotIn s row).varForSymbol = S.varForSymbol := by
  unfold pivotIn Solver.substitute
  simp only
  split_ifs <;> simp
@[simp] theorem pivotIn_varLast : (S.pivotIn s row).varLast = S.varLast := by
  unfold pivotIn Solver.substitute
  simp only
  split_ifs <;> simp
@[simp] theorem pivotIn_publicChanges : (S.pivotIn s row).publicChanges = S.publicChanges := by
  unfold pivotIn Solver.substitute
  simp only
  split_ifs <;> simp
theorem pivotIn_clear (h : S.shouldClearChanges = false) :
    (S.pivotIn s row).shouldClearChanges = false := by
  unfold pivotIn Solver.substitute
  simp only
  split_ifs
  · apply varChanged_clear; apply fold_clear; exact h
  · apply fold_clear; exact h
theorem pivotIn_sub (h : S.shouldClearChanges = false) {u} (hu : u ∈ S.changed) :
    u ∈ (S.pivotIn s row).changed := by
  unfold pivotIn Solver.substitute
  simp only
  split_ifs
  · apply varChanged_sub
    · apply fold_clear; exact h
    · apply fold_sub
      · exact h
      · exact hu
  · apply fold_sub
    · exact h
    · exact hu
theorem pivotIn_mem_subst (h : S.shouldClearChanges = false) {u}
    (hu : u ∈ S.substChanged s row) : u ∈ (S.pivotIn s row).changed := by
  unfold pivotIn Solver.substitute
  simp only
  split_ifs
  · apply varChanged_sub
    · apply fold_clear; exact h
    · apply fold_mem
      · exact h
      · exact hu
  · apply fold_mem
    · exact h
    · exact hu
theorem pivotIn_mem_sym (hs : s.type = .external) (hr : row.constant ≠ 0) :
    S.varOf s ∈ (S.pivotIn s row).changed := by
  unfold pivotIn
  simp only
  rw [if_pos ⟨hs, hr⟩]
  have : (S.substitute s row).varOf s = S.varOf s := by
    unfold Solver.substitute varOf; simp
  rw [this]
  exact varChanged_mem _ _
end pivotFields

/-- The valuations that satisfy all rows of the tableau. -/
def Sol (S : Solver) (σ : Sym → ℚ) : Prop := ∀ b r, S.rows b = some r → σ b = r.eval σ

/-- The tableau invariant. -/
structure Tab (S : Solver) : Prop where
  nb : ∀ b r b' r', S.rows b = some r → S.rows b' = some r' → r.cells b' = 0
  nbObj : ∀ b r, S.rows b = some r → S.objective.cells b = 0
  nbArt : ∀ a b r, S.artificial = some a → S.rows b = some r → a.cells b = 0
  ext : ∀ b r t, S.rows b = some r → b.type ≠ .external → t.type = .external → r.cells t = 0
  extObj : ∀ t : Sym, t.type = .external → S.objective.cells t = 0
  extArt : ∀ a (t : Sym), S.artificial = some a → t.type = .external → a.cells t = 0
  feas : ∀ b r, S.rows b = some r → b.type ≠ .external → 0 ≤ r.constant
  dumC : ∀ b r, S.rows b = some r → b.type = .dummy → r.constant = 0
  dum : ∀ b r t, S.rows b = some r → b.type = .dummy → t.type ≠ .dummy → r.cells t = 0

/-- Symbols numbered `n` or more occur nowhere. -/
structure Fresh (S : Solver) (n : Nat) : Prop where
  basic : ∀ s, n ≤ s.value.val → S.rows s = none
  cell : ∀ s b r, n ≤ s.value.val → S.rows b = some r → r.cells s = 0
  obj : ∀ s, n ≤ s.value.val → S.objective.cells s = 0
  art : ∀ s a, n ≤ s.value.val → S.artificial = some a → a.cells s = 0

/-- The two maps between variables and symbols agree. -/
structure Vars (S : Solver) : Prop where
  type : ∀ v s, S.varSym v = some s → s.type = .external
  back : ∀ v s, S.varSym v = some s → S.varForSymbol s = some v
  lt : ∀ v s, S.varSym v = some s → s.value.val < S.idTick

/-- Every variable with a non-zero value is recorded as changed. -/
structure Chg (S : Solver) : Prop where
  noClear : S.shouldClearChanges = false
  mem : ∀ v s r, S.varSym v = some s → S.rows s = some r → r.constant ≠ 0 → v ∈ S.changed

/-- What is needed to make `s` basic with the row `row`. -/
structure PivotOK (S : Solver) (s : Sym) (row : Row) : Prop where
  notBasic : S.rows s = none
  rowSym : row.cells s = 0
  rowNb : ∀ b r, S.rows b = some r → row.cells b = 0
  rowExt : s.type ≠ .external → ∀ t : Sym, t.type = .external → row.cells t = 0
  rowFeas : s.type ≠ .external → 0 ≤ row.constant
  rowsFeas : ∀ b r, S.rows b = some r → b.type ≠ .external →
    0 ≤ r.constant + row.constant * r.cells s
  dumC : s.type = .dummy → row.constant = 0
  dum : s.type = .dummy → ∀ t : Sym, t.type ≠ .dummy → row.cells t = 0

theorem pivotIn_rows_cases {S : Solver} {s row b r} (h : (S.pivotIn s row).rows b = some r) :
    (b = s ∧ r = row) ∨ (b ≠ s ∧ ∃ r₀, S.rows b = some r₀ ∧ r = (r₀.substitute s row).1) := by
  rw [pivotIn_rows] at h
  by_cases hb : b = s
  · left
    simp only [hb, if_true, Option.some.injEq] at h
    exact ⟨hb, h.symm⟩
  · right
    simp only [hb, if_false, Option.map_eq_some_iff] at h
    obtain ⟨r₀, h₀, h₁⟩ := h
    exact ⟨hb, r₀, h₀, h₁.symm⟩

theorem tab_pivotIn {S : Solver} {s row} (hT : Tab S) (hP : PivotOK S s row) :
    Tab (S.pivotIn s row) := by
  have nbGen : ∀ (r₀ : Row) (b' : Sym), (∀ b r, S.rows b = some r → r₀.cells b = 0) →
      ((S.pivotIn s row).rows b').isSome → (r₀.substitute s row).1.cells b' = 0 := by
    intro r₀ b' h0 hb'
    obtain ⟨r', hr'⟩ := Option.isSome_iff_exists.1 hb'
    rw [Row.subst_cells]
    rcases pivotIn_rows_cases hr' with ⟨rfl, _⟩ | ⟨hne, r₁, h₁, _⟩
    · simp [hP.rowSym]
    · simp [hne, h0 b' r₁ h₁, hP.rowNb b' r₁ h₁]
  have extGen : ∀ (r₀ : Row), (∀ t : Sym, t.type = .external → r₀.cells t = 0) →
      ∀ t : Sym, t.type = .external → (r₀.substitute s row).1.cells t = 0 := by
    intro r₀ h0 t ht
    rw [Row.subst_cells]
    by_cases hs : s.type = .external
    · simp [h0 t ht, h0 s hs]
    · simp [h0 t ht, hP.rowExt hs t ht]
  refine ⟨?_, ?_, ?_, ?_, ?_, ?_, ?_, ?_, ?_⟩
  · intro b r b' r' h h'
    rcases pivotIn_rows_cases h with ⟨rfl, rfl⟩ | ⟨hne, r₁, h₁, rfl⟩
    · rcases pivotIn_rows_cases h' with ⟨rfl, _⟩ | ⟨hne', r₂, h₂, _⟩
      · exact hP.rowSym
      · exact hP.rowNb b' r₂ h₂
    · exact nbGen r₁ b' (fun b₂ r₂ h₂ => hT.nb _ _ _ _ h₁ h₂) (by simp [h'])
  · intro b r h
    rw [pivotIn_objective]
    exact nbGen _ b hT.nbObj (by simp [h])
  · intro a b r ha h
    rw [pivotIn_artificial, Option.map_eq_some_iff] at ha
    obtain ⟨a₀, ha₀, rfl⟩ := ha
    exact nbGen _ b (fun b₂ r₂ h₂ => hT.nbArt _ _ _ ha₀ h₂) (by simp [h])
  · intro b r t h hb ht
    rcases pivotIn_rows_cases h with ⟨rfl, rfl⟩ | ⟨hne, r₁, h₁, rfl⟩
    · exact hP.rowExt hb t ht
    · exact extGen r₁ (fun t ht => hT.ext _ _ t h₁ hb ht) t ht
  · rw [pivotIn_objective]
    exact extGen _ hT.extObj
  · intro a t ha ht
    rw [pivotIn_artificial, Option.map_eq_some_iff] at ha
    obtain ⟨a₀, ha₀, rfl⟩ := ha
    exact extGen _ (fun t ht => hT.extArt _ t ha₀ ht) t ht
  · intro b r h hb
    rcases pivotIn_rows_cases h with ⟨rfl, rfl⟩ | ⟨hne, r₁, h₁, rfl⟩
    · exact hP.rowFeas hb
    · rw [Row.subst_constant]; exact hP.rowsFeas b r₁ h₁ hb
  · intro b r h hb
    rcases pivotIn_rows_cases h with ⟨rfl, rfl⟩ | ⟨hne, r₁, h₁, rfl⟩
    · exact hP.dumC hb
    · rw [Row.subst_constant, hT.dumC b r₁ h₁ hb]
      by_cases hs : s.type = .dummy
      · simp [hP.dumC hs]
      · simp [hT.dum b r₁ s h₁ hb hs]
  · intro b r t h hb ht
    rcases pivotIn_rows_cases h with ⟨rfl, rfl⟩ | ⟨hne, r₁, h₁, rfl⟩
    · exact hP.dum hb t ht
    · rw [Row.subst_cells, hT.dum b r₁ t h₁ hb ht]
      by_cases hs : s.type = .dummy
      · simp [hP.dum hs t ht]
      · simp [hT.dum b r₁ s h₁ hb hs]

theorem fresh_pivotIn {S : Solver} {s row n} (hF : Fresh S n) (hs : s.value.val < n)
    (hrow : ∀ t : Sym, n ≤ t.value.val → row.cells t = 0) : Fresh (S.pivotIn s row) n := by
  have gen : ∀ (r₀ : Row) (t : Sym), n ≤ t.value.val → r₀.cells t = 0 →
      (r₀.substitute s row).1.cells t = 0 := by
    intro r₀ t ht h0
    rw [Row.subst_cells]
    simp [h0, hrow t ht]
  refine ⟨?_, ?_, ?_, ?_⟩
  · intro t ht
    rw [pivotIn_rows]
    have : t ≠ s := by rintro rfl; omega
    simp [this, hF.basic t ht]
  · intro t b r ht h
    rcases pivotIn_rows_cases h with ⟨rfl, rfl⟩ | ⟨hne, r₁, h₁, rfl⟩
    · exact hrow t ht
    · exact gen _ t ht (hF.cell t b r₁ ht h₁)
  · intro t ht
    rw [pivotIn_objective]
    exact gen _ t ht (hF.obj t ht)
  · intro t a ht ha
    rw [pivotIn_artificial, Option.map_eq_some_iff] at ha
    obtain ⟨a₀, ha₀, rfl⟩ := ha
    exact gen _ t ht (hF.art t a₀ ht ha₀)

theorem vars_pivotIn {S : Solver} {s row} (hV : Vars S) : Vars (S.pivotIn s row) :=
  ⟨by simpa using hV.type, by simpa using hV.back, by simpa using hV.lt⟩

theorem chg_pivotIn {S : Solver} {s row} (hV : Vars S) (hC : Chg S) : Chg (S.pivotIn s row) := by
  refine ⟨pivotIn_clear _ _ _ hC.noClear, ?_⟩
  intro v t r hv h hr
  rw [pivotIn_varSym] at hv
  rcases pivotIn_rows_cases h with ⟨rfl, rfl⟩ | ⟨hne, r₁, h₁, rfl⟩
  · have := pivotIn_mem_sym S t r (hV.type _ _ hv) hr
    rwa [varOf, hV.back _ _ hv] at this
  · by_cases h0 : r₁.constant = 0
    · apply pivotIn_mem_subst _ _ _ hC.noClear
      unfold substChanged
      rw [List.mem_filterMap]
      refine ⟨t, mem_allSyms t, ?_⟩
      simp only [h₁]
      rw [Row.subst_constant, h0, zero_add] at hr
      rw [if_pos ⟨hV.type _ _ hv, by rw [Row.subst_changed]; simpa using hr⟩]
      simp [varOf, hV.back _ _ hv]
    · exact pivotIn_sub _ _ _ hC.noClear (hC.mem v t r₁ hv h₁ h0)

theorem sol_pivotIn {S : Solver} {s row} (hnb : S.rows s = none) (σ : Sym → ℚ) :
    Sol (S.pivotIn s row) σ ↔ Sol S σ ∧ σ s = row.eval σ := by
  constructor
  · intro h
    have hs : σ s = row.eval σ := h s row (by rw [pivotIn_rows]; simp)
    refine ⟨fun b r hb => ?_, hs⟩
    have hne : b ≠ s := by rintro rfl; simp [hnb] at hb
    have := h b (r.substitute s row).1 (by rw [pivotIn_rows]; simp [hne, hb])
    rwa [Row.eval_subst _ _ _ _ hs] at this
  · rintro ⟨h, hs⟩ b r hb
    rcases pivotIn_rows_cases hb with ⟨rfl, rfl⟩ | ⟨hne, r₁, h₁, rfl⟩
    · exact hs
    · rw [Row.eval_subst _ _ _ _ hs]; exact h b r₁ h₁

/-- The basic solution: parametric symbols at zero. -/
def basicSol (S : Solver) (s : Sym) : ℚ :=
  match S.rows s with
  | some r => r.constant
  | none => 0

theorem basicSol_some {S : Solver} {s r} (h : S.rows s = some r) : basicSol S s = r.constant := by
  simp [basicSol, h]
theorem basicSol_none {S : Solver} {s} (h : S.rows s = none) : basicSol S s = 0 := by
  simp [basicSol, h]

theorem eval_basicSol {S : Solver} (r : Row) (h : ∀ b r', S.rows b = some r' → r.cells b = 0) :
    r.eval (basicSol S) = r.constant := by
  have : r.eval (basicSol S) = r.eval (fun _ => 0) := by
    apply Row.eval_congr
    intro t ht
    cases hb : S.rows t with
    | none => exact basicSol_none hb
    | some r' => exact absurd (h t r' hb) ht
  rw [this]
  simp [Row.eval]

theorem sol_basicSol {S : Solver} (hT : Tab S) : Sol S (basicSol S) := by
  intro b r h
  rw [basicSol_some h, eval_basicSol r (fun b' r' h' => hT.nb _ _ _ _ h h')]

/-- Non-negative on restricted symbols, zero on dummies. -/
def Adm (σ : Sym → ℚ) : Prop :=
  (∀ s : Sym, s.type ≠ .external → 0 ≤ σ s) ∧ ∀ s : Sym, s.type = .dummy → σ s = 0

theorem adm_basicSol {S : Solver} (hT : Tab S) : Adm (basicSol S) := by
  constructor
  · intro s hs
    cases h : S.rows s with
    | none => rw [basicSol_none h]
    | some r => rw [basicSol_some h]; exact hT.feas s r h hs
  · intro s hs
    cases h : S.rows s with
    | none => rw [basicSol_none h]
    | some r => rw [basicSol_some h]; exact hT.dumC s r h hs

/-- The solution with one parametric symbol raised to `t`. -/
def raiseSol (S : Solver) (e : Sym) (t : ℚ) (s : Sym) : ℚ :=
  match S.rows s with
  | some r => r.constant + r.cells e * t
  | none => if s = e then t else 0

theorem eval_raiseSol {S : Solver} (r : Row) (e : Sym) (t : ℚ)
    (h : ∀ b r', S.rows b = some r' → r.cells b = 0) :
    r.eval (raiseSol S e t) = r.constant + r.cells e * t := by
  have : r.eval (raiseSol S e t) = r.eval (fun s => if s = e then t else 0) := by
    apply Row.eval_congr
    intro u hu
    cases hb : S.rows u with
    | none => simp [raiseSol, hb]
    | some r' => exact absurd (h u r' hb) hu
  rw [this]
  simp [Row.eval]

theorem sol_raiseSol {S : Solver} (hT : Tab S) (e : Sym) (t : ℚ) :
    Sol S (raiseSol S e t) := by
  intro b r h
  rw [eval_raiseSol r e t (fun b' r' h' => hT.nb _ _ _ _ h h')]
  simp [raiseSol, h]

end Bento.Casso
