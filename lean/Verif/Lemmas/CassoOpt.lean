import Verif.Lemmas.CassoTab
import Mathlib.Algebra.Order.Field.Basic

/-!
# The optimisation loop keeps the invariant and stops at an optimum
-/

namespace Bento.Casso
open Solver

/-- The invariant between and during calls: the tableau is well formed, its solutions are exactly
those of `Φ`, and on them the objective is `κ` and the artificial objective is `α`. -/
structure Good (Φ : (Sym → ℚ) → Prop) (κ α : (Sym → ℚ) → ℚ) (S : Solver) : Prop where
  tab : Tab S
  fresh : Fresh S S.idTick
  vars : Vars S
  chg : Chg S
  sol : ∀ σ, Sol S σ ↔ Φ σ
  obj : ∀ σ, Sol S σ → S.objective.eval σ = κ σ
  art : ∀ a σ, S.artificial = some a → Sol S σ → a.eval σ = α σ

/-- Take a row out of the tableau. -/
def dropRow (S : Solver) (l : Sym) (c : Nat) : Solver :=
  { S with rows := fun b => if b = l then none else S.rows b, clock := c }

theorem dropRow_some {S : Solver} {l c b r} (h : (dropRow S l c).rows b = some r) :
    b ≠ l ∧ S.rows b = some r := by
  unfold dropRow at h
  by_cases hb : b = l
  · simp [hb] at h
  · simp only [hb, if_false] at h; exact ⟨hb, h⟩

theorem dropRow_of {S : Solver} {l c b r} (hb : b ≠ l) (h : S.rows b = some r) :
    (dropRow S l c).rows b = some r := by
  simp [dropRow, hb, h]

theorem tab_dropRow {S : Solver} (hT : Tab S) (l : Sym) (c : Nat) : Tab (dropRow S l c) := by
  refine ⟨?_, ?_, ?_, ?_, hT.extObj, hT.extArt, ?_, ?_, ?_⟩
  · intro b r b' r' h h'
    exact hT.nb _ _ _ _ (dropRow_some h).2 (dropRow_some h').2
  · intro b r h; exact hT.nbObj _ _ (dropRow_some h).2
  · intro a b r ha h; exact hT.nbArt _ _ _ ha (dropRow_some h).2
  · intro b r t h hb ht; exact hT.ext _ _ _ (dropRow_some h).2 hb ht
  · intro b r h hb; exact hT.feas _ _ (dropRow_some h).2 hb
  · intro b r h hb; exact hT.dumC _ _ (dropRow_some h).2 hb
  · intro b r t h hb ht; exact hT.dum _ _ _ (dropRow_some h).2 hb ht

theorem fresh_dropRow {S : Solver} {n} (hF : Fresh S n) (l : Sym) (c : Nat) :
    Fresh (dropRow S l c) n := by
  refine ⟨?_, ?_, hF.obj, hF.art⟩
  · intro s hs
    unfold dropRow
    by_cases h : s = l <;> simp [h, hF.basic s hs]
  · intro s b r hs h; exact hF.cell s b r hs (dropRow_some h).2

theorem chg_dropRow {S : Solver} (hC : Chg S) (l : Sym) (c : Nat) : Chg (dropRow S l c) :=
  ⟨hC.noClear, fun v s r hv h hr => hC.mem v s r hv (dropRow_some h).2 hr⟩

theorem vars_dropRow {S : Solver} (hV : Vars S) (l : Sym) (c : Nat) : Vars (dropRow S l c) :=
  ⟨hV.type, hV.back, hV.lt⟩

theorem solves_cells (r : Row) (l e t : Sym) (hle : l ≠ e) :
    (r.solveForSymbols l e).cells t =
      if t = e then 0 else (if t = l then r.cells l - 1 else r.cells t) * (-1 / r.cells e) := by
  unfold Row.solveForSymbols Row.solveForSymbol Row.insertSymbol
  simp only [Ne.symm hle, if_false]
  by_cases h : t = e
  · simp [h]
  · by_cases h' : t = l <;> simp [h, h', sub_eq_add_neg]

theorem solves_constant (r : Row) (l e : Sym) (hle : l ≠ e) :
    (r.solveForSymbols l e).constant = r.constant * (-1 / r.cells e) := by
  unfold Row.solveForSymbols Row.solveForSymbol Row.insertSymbol
  simp [Ne.symm hle]

/-- Exchanging a basic symbol `l` for `e`. -/
theorem good_exchange {Φ κ α} {S : Solver} (hG : Good Φ κ α S) {l e : Sym} {row : Row} (c : Nat)
    (hl : S.rows l = some row) (he : S.rows e = none) (hce : row.cells e ≠ 0)
    (hlf : e.value.val < S.idTick)
    (hP : PivotOK (dropRow S l c) e (row.solveForSymbols l e)) :
    Good Φ κ α ((dropRow S l c).pivotIn e (row.solveForSymbols l e)) := by
  have hle : l ≠ e := by rintro rfl; simp [hl] at he
  have hlt : l.value.val < S.idTick := by
    by_contra h
    have := hG.fresh.basic l (by omega)
    simp [hl] at this
  have hsol : ∀ σ, Sol ((dropRow S l c).pivotIn e (row.solveForSymbols l e)) σ ↔ Sol S σ := by
    intro σ
    rw [sol_pivotIn hP.notBasic, Row.solves_iff _ _ _ hle hce]
    constructor
    · rintro ⟨h1, h2⟩ b r hb
      by_cases hbl : b = l
      · subst hbl; rw [hl] at hb; cases hb; exact h2
      · exact h1 b r (dropRow_of hbl hb)
    · intro h
      exact ⟨fun b r hb => h b r (dropRow_some hb).2, h l row hl⟩
  refine ⟨tab_pivotIn (tab_dropRow hG.tab l c) hP, ?_, vars_pivotIn (vars_dropRow hG.vars l c),
    chg_pivotIn (vars_dropRow hG.vars l c) (chg_dropRow hG.chg l c), ?_, ?_, ?_⟩
  · rw [pivotIn_idTick]
    refine fresh_pivotIn (fresh_dropRow hG.fresh l c) hlf ?_
    intro t ht
    change S.idTick ≤ t.value.val at ht
    have h1 : t ≠ e := by rintro rfl; omega
    have h2 : t ≠ l := by rintro rfl; omega
    rw [solves_cells _ _ _ _ hle]
    simp [h1, h2, hG.fresh.cell t l row ht hl]
  · intro σ; rw [hsol, hG.sol]
  · intro σ hσ
    have h2 := ((sol_pivotIn hP.notBasic σ).1 hσ).2
    rw [pivotIn_objective, Row.eval_subst _ _ _ _ h2]
    exact hG.obj σ ((hsol σ).1 hσ)
  · intro a σ ha hσ
    have h2 := ((sol_pivotIn hP.notBasic σ).1 hσ).2
    rw [pivotIn_artificial, Option.map_eq_some_iff] at ha
    obtain ⟨a₀, ha₀, rfl⟩ := ha
    rw [Row.eval_subst _ _ _ _ h2]
    exact hG.art a₀ σ ha₀ ((hsol σ).1 hσ)

/-- What `optimize` uses about the row it minimises. -/
structure SelFacts (sel : Solver → Row) (κ' : (Sym → ℚ) → ℚ) (S : Solver) : Prop where
  nb : ∀ b r, S.rows b = some r → (sel S).cells b = 0
  ext : ∀ t : Sym, t.type = .external → (sel S).cells t = 0
  fresh : ∀ t : Sym, S.idTick ≤ t.value.val → (sel S).cells t = 0
  eval : ∀ σ, Sol S σ → (sel S).eval σ = κ' σ

theorem selFacts_objective {Φ κ α} {S : Solver} (hG : Good Φ κ α S) :
    SelFacts Solver.objective κ S :=
  ⟨hG.tab.nbObj, hG.tab.extObj, hG.fresh.obj, hG.obj⟩

theorem selFacts_artificial {Φ κ α} {S : Solver} (hG : Good Φ κ α S)
    (h : S.artificial.isSome = true) : SelFacts artificialRow α S := by
  obtain ⟨a, ha⟩ := Option.isSome_iff_exists.1 h
  have hr : S.artificialRow = a := by simp [artificialRow, ha]
  refine ⟨?_, ?_, ?_, ?_⟩
  · intro b r hb; rw [hr]; exact hG.tab.nbArt a b r ha hb
  · intro t ht; rw [hr]; exact hG.tab.extArt a t ha ht
  · intro t ht; rw [hr]; exact hG.fresh.art t a ht ha
  · intro σ hσ; rw [hr]; exact hG.art a σ ha hσ

theorem entering_some {ω k obj e} (h : getEnteringSymbol ω k obj = some e) :
    e.type ≠ .dummy ∧ obj.cells e < 0 := by
  have := pick_some h
  simpa [mem_allSyms] using this

theorem entering_none {ω k obj} (h : getEnteringSymbol ω k obj = none) (t : Sym)
    (ht : t.type ≠ .dummy) : 0 ≤ obj.cells t := by
  have := pick_none h
  rw [List.filter_eq_nil_iff] at this
  have := this t (mem_allSyms t)
  simpa [ht] using this

theorem leavingRatio_some {S : Solver} {e t q} (h : S.leavingRatio e t = some q) :
    ∃ r, S.rows t = some r ∧ t.type ≠ .external ∧ r.cells e < 0 ∧ q = -r.constant / r.cells e := by
  unfold leavingRatio at h
  cases hr : S.rows t with
  | none => simp [hr] at h
  | some r =>
    simp only [hr] at h
    split_ifs at h with hc
    · simp only [Option.some.injEq] at h
      exact ⟨r, rfl, hc.1, hc.2, h.symm⟩

theorem leavingRatio_of {S : Solver} {e t r} (hr : S.rows t = some r) (ht : t.type ≠ .external)
    (hc : r.cells e < 0) : S.leavingRatio e t = some (-r.constant / r.cells e) := by
  simp [leavingRatio, hr, ht, hc]

theorem leaving_some {ω k} {S : Solver} {e l} (h : getLeavingRow ω k S e = some l) :
    ∃ r, S.rows l = some r ∧ l.type ≠ .external ∧ r.cells e < 0 ∧
      ∀ t r', S.rows t = some r' → t.type ≠ .external → r'.cells e < 0 →
        -r.constant / r.cells e ≤ -r'.constant / r'.cells e := by
  have := pick_some h
  rw [List.mem_filter] at this
  obtain ⟨_, h2⟩ := this
  cases hq : S.leavingRatio e l with
  | none => simp [hq] at h2
  | some q =>
    simp only [hq] at h2
    obtain ⟨r, hr, hl, hc, rfl⟩ := leavingRatio_some hq
    refine ⟨r, hr, hl, hc, ?_⟩
    intro t r' hr' ht hc'
    rw [List.all_eq_true] at h2
    have := h2 t (mem_allSyms t)
    rw [leavingRatio_of hr' ht hc'] at this
    simpa using this

theorem exists_min (f : Sym → Option ℚ) (l : List Sym) (s : Sym) (hs : s ∈ l) (q : ℚ)
    (hq : f s = some q) :
    ∃ m ∈ l, ∃ q, f m = some q ∧ ∀ u ∈ l, ∀ q', f u = some q' → q ≤ q' := by
  induction l generalizing s q with
  | nil => simp at hs
  | cons a t ih =>
    by_cases hex : ∃ u ∈ t, ∃ q, f u = some q
    · obtain ⟨u, hu, q₁, hq₁⟩ := hex
      obtain ⟨m, hm, qm, hqm, hmin⟩ := ih u hu q₁ hq₁
      cases ha : f a with
      | none =>
        refine ⟨m, List.mem_cons_of_mem _ hm, qm, hqm, ?_⟩
        intro u hu q' hq'
        rcases List.mem_cons.1 hu with rfl | hu
        · simp [ha] at hq'
        · exact hmin u hu q' hq'
      | some qa =>
        by_cases hlt : qa < qm
        · refine ⟨a, List.mem_cons_self, qa, ha, ?_⟩
          intro u hu q' hq'
          rcases List.mem_cons.1 hu with rfl | hu
          · rw [ha] at hq'; cases hq'; exact le_refl _
          · exact le_trans hlt.le (hmin u hu q' hq')
        · refine ⟨m, List.mem_cons_of_mem _ hm, qm, hqm, ?_⟩
          intro u hu q' hq'
          rcases List.mem_cons.1 hu with rfl | hu
          · rw [ha] at hq'; cases hq'; exact not_lt.1 hlt
          · exact hmin u hu q' hq'
    · have hsa : s = a := by
        rcases List.mem_cons.1 hs with h | h
        · exact h
        · exact absurd ⟨s, h, q, hq⟩ hex
      subst hsa
      refine ⟨s, List.mem_cons_self, q, hq, ?_⟩
      intro u hu q' hq'
      rcases List.mem_cons.1 hu with rfl | hu
      · rw [hq] at hq'; cases hq'; exact le_refl _
      · exact absurd ⟨u, hu, q', hq'⟩ hex

theorem leaving_none {ω k} {S : Solver} {e} (h : getLeavingRow ω k S e = none) (t : Sym) (r : Row)
    (hr : S.rows t = some r) (ht : t.type ≠ .external) : 0 ≤ r.cells e := by
  by_contra hc
  have hc : r.cells e < 0 := not_le.1 hc
  obtain ⟨m, -, q, hq, hmin⟩ := exists_min (S.leavingRatio e) allSyms t (mem_allSyms t) _
    (leavingRatio_of hr ht hc)
  have := pick_none h
  rw [List.filter_eq_nil_iff] at this
  have := this m (mem_allSyms m)
  simp only [hq] at this
  apply this
  rw [List.all_eq_true]
  intro u hu
  cases hu' : S.leavingRatio e u with
  | none => simp
  | some q' => simpa using hmin u hu q' hu'

/-- One pivot of the loop satisfies the requirements of `good_exchange`. -/
theorem pivotOK_optimize {Φ κ α} {S : Solver} (hG : Good Φ κ α S) {e l : Sym} {row : Row} (c : Nat)
    (he : S.rows e = none) (hed : e.type ≠ .dummy) (hee : e.type ≠ .external)
    (hl : S.rows l = some row) (hlt : l.type ≠ .external) (hc : row.cells e < 0)
    (hmin : ∀ t r', S.rows t = some r' → t.type ≠ .external → r'.cells e < 0 →
        -row.constant / row.cells e ≤ -r'.constant / r'.cells e) :
    PivotOK (dropRow S l c) e (row.solveForSymbols l e) := by
  have hle : l ≠ e := by rintro rfl; simp [hl] at he
  have hk : 0 < -1 / row.cells e := div_pos_of_neg_of_neg (by norm_num) hc
  have hfl := hG.tab.feas l row hl hlt
  refine ⟨?_, ?_, ?_, ?_, ?_, ?_, fun h => absurd h hed, fun h => absurd h hed⟩
  · simp [dropRow, he]
  · rw [solves_cells _ _ _ _ hle]; simp
  · intro b r hb
    obtain ⟨hbl, hb⟩ := dropRow_some hb
    rw [solves_cells _ _ _ _ hle]
    have : b ≠ e := by rintro rfl; simp [he] at hb
    simp [this, hbl, hG.tab.nb l row b r hl hb]
  · intro _ t ht
    rw [solves_cells _ _ _ _ hle]
    have h1 : t ≠ e := by rintro rfl; exact hee ht
    have h2 : t ≠ l := by rintro rfl; exact hlt ht
    simp [h1, h2, hG.tab.ext l row t hl hlt ht]
  · intro _
    rw [solves_constant _ _ _ hle]
    exact mul_nonneg hfl hk.le
  · intro b r hb hbe
    obtain ⟨hbl, hb⟩ := dropRow_some hb
    rw [solves_constant _ _ _ hle]
    have hfb := hG.tab.feas b r hb hbe
    have hθ : 0 ≤ row.constant * (-1 / row.cells e) := mul_nonneg hfl hk.le
    by_cases hce : 0 ≤ r.cells e
    · exact add_nonneg hfb (mul_nonneg hθ hce)
    · have hce : r.cells e < 0 := not_le.1 hce
      have h1 := hmin b r hb hbe hce
      have h2 : row.constant * (-1 / row.cells e) = -row.constant / row.cells e := by ring
      rw [h2]
      have h3 : (-row.constant / row.cells e) * r.cells e ≥ (-r.constant / r.cells e) * r.cells e :=
        mul_le_mul_of_nonpos_right h1 hce.le
      have h4 : (-r.constant / r.cells e) * r.cells e = -r.constant :=
        div_mul_cancel₀ _ hce.ne
      linarith

theorem optimize_step {ω sel κ' Φ κ α} {S : Solver} (hG : Good Φ κ α S) (hS : SelFacts sel κ' S)
    {k e l row} (c : Nat) (hent : getEnteringSymbol ω S.clock (sel S) = some e)
    (hleave : getLeavingRow ω k S e = some l) (hrow : S.rows l = some row) :
    Good Φ κ α ((dropRow S l c).pivotIn e (row.solveForSymbols l e)) := by
  obtain ⟨hed, hneg⟩ := entering_some hent
  have he : S.rows e = none := by
    cases h : S.rows e with
    | none => rfl
    | some r => have := hS.nb e r h; linarith
  have hee : e.type ≠ .external := by
    intro h; have := hS.ext e h; linarith
  have hef : e.value.val < S.idTick := by
    by_contra h
    have := hS.fresh e (by omega); linarith
  obtain ⟨r, hr, hlt, hc, hmin⟩ := leaving_some hleave
  rw [hrow] at hr; cases hr
  exact good_exchange hG c hrow he hc.ne hef (pivotOK_optimize hG c he hed hee hrow hlt hc hmin)

theorem optimize_good {ω sel κ' Φ κ α} {b : Bool}
    (hsel : ∀ S, Good Φ κ α S → S.artificial.isSome = b → SelFacts sel κ' S) :
    ∀ (fuel : Nat) (S S' : Solver), Good Φ κ α S → S.artificial.isSome = b →
      optimize ω sel fuel S = .ok S' →
      Good Φ κ α S' ∧ S'.artificial.isSome = b ∧ S'.idTick = S.idTick ∧ S'.varSym = S.varSym ∧
        S'.varForSymbol = S.varForSymbol ∧ S'.varLast = S.varLast ∧
        S'.publicChanges = S.publicChanges ∧
        ∀ t : Sym, t.type ≠ .dummy → 0 ≤ (sel S').cells t := by
  intro fuel
  induction fuel with
  | zero => intro S S' _ _ h; simp [optimize] at h
  | succ n ih =>
    intro S S' hG hb h
    unfold optimize at h
    cases hent : getEnteringSymbol ω S.clock (sel S) with
    | none =>
      rw [hent] at h
      simp only [Except.ok.injEq] at h
      subst h
      exact ⟨hG, hb, rfl, rfl, rfl, rfl, rfl, fun t ht => entering_none hent t ht⟩
    | some e =>
      rw [hent] at h
      simp only at h
      cases hleave : getLeavingRow ω (S.clock + 1) S e with
      | none => rw [hleave] at h; simp at h
      | some l =>
        rw [hleave] at h
        simp only at h
        cases hrow : S.rows l with
        | none => rw [hrow] at h; simp at h
        | some row =>
          rw [hrow] at h
          have hG' := optimize_step hG (hsel S hG hb) (S.clock + 2) hent hleave hrow
          have hb' : ((dropRow S l (S.clock + 2)).pivotIn e
              (row.solveForSymbols l e)).artificial.isSome = b := by
            rw [pivotIn_artificial]; simpa [dropRow] using hb
          have := ih _ S' hG' hb' h
          simpa [dropRow] using this

theorem optimize_bounded {ω sel κ' Φ κ α} {b : Bool}
    (hsel : ∀ S, Good Φ κ α S → S.artificial.isSome = b → SelFacts sel κ' S)
    (hpos : ∀ σ, Φ σ → Adm σ → 0 ≤ κ' σ) :
    ∀ (fuel : Nat) (S : Solver) (err : SolverErr), Good Φ κ α S → S.artificial.isSome = b →
      optimize ω sel fuel S = .error err → err = .fuel := by
  intro fuel
  induction fuel with
  | zero => intro S err _ _ h; simp only [optimize, Except.error.injEq] at h; exact h.symm
  | succ n ih =>
    intro S err hG hb h
    unfold optimize at h
    cases hent : getEnteringSymbol ω S.clock (sel S) with
    | none =>
      rw [hent] at h
      simp at h
    | some e =>
      rw [hent] at h
      simp only at h
      have hS := hsel S hG hb
      obtain ⟨hed, hneg⟩ := entering_some hent
      cases hleave : getLeavingRow ω (S.clock + 1) S e with
      | none =>
        exfalso
        have he : S.rows e = none := by
          cases h : S.rows e with
          | none => rfl
          | some r => have := hS.nb e r h; linarith
        -- raise `e` far enough to make the objective negative
        have key : ∀ t : ℚ, 0 ≤ t → 0 ≤ (sel S).constant + (sel S).cells e * t := by
          intro t ht
          have hsol := sol_raiseSol hG.tab e t
          rw [← eval_raiseSol (S := S) (sel S) e t hS.nb, hS.eval _ hsol]
          apply hpos _ ((hG.sol _).1 hsol)
          constructor
          · intro s hs
            cases hrs : S.rows s with
            | none =>
              simp only [raiseSol, hrs]
              split_ifs
              · exact ht
              · exact le_refl _
            | some r =>
              simp only [raiseSol, hrs]
              exact add_nonneg (hG.tab.feas s r hrs hs)
                (mul_nonneg (leaving_none hleave s r hrs hs) ht)
          · intro s hs
            cases hrs : S.rows s with
            | none =>
              have : s ≠ e := by rintro rfl; exact hed hs
              simp [raiseSol, hrs, this]
            | some r =>
              simp only [raiseSol, hrs]
              rw [hG.tab.dumC s r hrs hs, hG.tab.dum s r e hrs hs hed]
              ring
        have hc0 := key 0 (le_refl _)
        have h1 := key (((sel S).constant + 1) / (-(sel S).cells e))
          (div_nonneg (by linarith) (by linarith))
        have h2 : (sel S).cells e * (((sel S).constant + 1) / (-(sel S).cells e))
            = -((sel S).constant + 1) := by
          have : (sel S).cells e ≠ 0 := hneg.ne
          field_simp
        rw [h2] at h1
        linarith
      | some l =>
        rw [hleave] at h
        simp only at h
        obtain ⟨row, hrow, -⟩ := leaving_some hleave
        rw [hrow] at h
        have hG' := optimize_step hG hS (S.clock + 2) hent hleave hrow
        have hb' : ((dropRow S l (S.clock + 2)).pivotIn e
            (row.solveForSymbols l e)).artificial.isSome = b := by
          rw [pivotIn_artificial]; simpa [dropRow] using hb
        exact ih _ err hG' hb' h

end Bento.Casso
