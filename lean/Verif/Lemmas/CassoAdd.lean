import Verif.Lemmas.CassoCreate

/-!
# Adding a constraint
-/

namespace Bento.Casso
open Solver

theorem good_clock {Φ κ α} {S : Solver} (hG : Good Φ κ α S) (c : Nat) :
    Good Φ κ α { S with clock := c } :=
  ⟨⟨hG.tab.nb, hG.tab.nbObj, hG.tab.nbArt, hG.tab.ext, hG.tab.extObj, hG.tab.extArt,
        hG.tab.feas, hG.tab.dumC, hG.tab.dum⟩,
   ⟨hG.fresh.basic, hG.fresh.cell, hG.fresh.obj, hG.fresh.art⟩,
   ⟨hG.vars.type, hG.vars.back, hG.vars.lt⟩, ⟨hG.chg.noClear, hG.chg.mem⟩, hG.sol, hG.obj, hG.art⟩

/-- Adding a solved row. -/
theorem good_install {Φ κ α} {S : Solver} (hG : Good Φ κ α S) {s : Sym} {row : Row}
    (hc : row.cells s ≠ 0) (hs : s.value.val < S.idTick)
    (hfr : ∀ t : Sym, S.idTick ≤ t.value.val → row.cells t = 0)
    (hP : PivotOK S s (row.solveForSymbol s)) :
    Good (fun σ => Φ σ ∧ row.eval σ = 0) κ α (S.pivotIn s (row.solveForSymbol s)) := by
  have hsol : ∀ σ, Sol (S.pivotIn s (row.solveForSymbol s)) σ ↔ Sol S σ ∧ row.eval σ = 0 := by
    intro σ
    rw [sol_pivotIn hP.notBasic, Row.solve_iff _ _ hc]
  refine ⟨tab_pivotIn hG.tab hP, ?_, vars_pivotIn hG.vars, chg_pivotIn hG.vars hG.chg, ?_, ?_, ?_⟩
  · rw [pivotIn_idTick]
    refine fresh_pivotIn hG.fresh hs ?_
    intro t ht
    simp [Row.solveForSymbol, hfr t ht]
  · intro σ; rw [hsol, hG.sol]
  · intro σ hσ
    have h2 := ((sol_pivotIn hP.notBasic σ).1 hσ).2
    rw [pivotIn_objective, Row.eval_subst _ _ _ _ h2]
    exact hG.obj σ ((hsol σ).1 hσ).1
  · intro a σ ha hσ
    have h2 := ((sol_pivotIn hP.notBasic σ).1 hσ).2
    rw [pivotIn_artificial, Option.map_eq_some_iff] at ha
    obtain ⟨a₀, ha₀, rfl⟩ := ha
    rw [Row.eval_subst _ _ _ _ h2]
    exact hG.art a₀ σ ha₀ ((hsol σ).1 hσ).1

theorem chooseSubject_some {ω k row tag s} (h : chooseSubject ω k row tag = some s) :
    (s.type = .external ∧ row.cells s ≠ 0) ∨
    ((∀ t : Sym, t.type = .external → row.cells t = 0) ∧ (s = tag.marker ∨ tag.other = some s) ∧
      (s.type = .slack ∨ s.type = .error) ∧ row.cells s < 0) := by
  unfold chooseSubject at h
  split at h
  · rename_i s' hs'
    cases h
    left
    have := pick_some hs'
    simpa [mem_allSyms] using this
  · rename_i hn
    right
    have hext : ∀ t : Sym, t.type = .external → row.cells t = 0 := by
      intro t ht
      have := pick_none hn
      rw [List.filter_eq_nil_iff] at this
      have := this t (mem_allSyms t)
      simpa [ht] using this
    have hm := List.mem_of_find?_eq_some h
    have hp := List.find?_some h
    refine ⟨hext, ?_, by simpa using hp⟩
    rcases List.mem_cons.1 hm with h | h
    · exact Or.inl h
    · right; simpa using h

theorem chooseSubject_none {ω k row tag} (h : chooseSubject ω k row tag = none) :
    (∀ t : Sym, t.type = .external → row.cells t = 0) ∧
    (∀ s, s = tag.marker ∨ tag.other = some s → s.type = .slack ∨ s.type = .error →
      0 ≤ row.cells s) := by
  unfold chooseSubject at h
  split at h
  · cases h
  · rename_i hn
    constructor
    · intro t ht
      have := pick_none hn
      rw [List.filter_eq_nil_iff] at this
      have := this t (mem_allSyms t)
      simpa [ht] using this
    · intro s hs hty
      rw [List.find?_eq_none] at h
      have hm : s ∈ tag.marker :: tag.other.toList := by
        rcases hs with rfl | hs
        · exact List.mem_cons_self
        · apply List.mem_cons_of_mem; simp [hs]
      have := h s hm
      rcases hty with hty | hty <;> simpa [hty] using this

theorem allDummies_iff (row : Row) :
    allDummies row = true ↔ ∀ t : Sym, t.type ≠ .dummy → row.cells t = 0 := by
  simp only [allDummies, List.all_eq_true, Bool.or_eq_true, decide_eq_true_eq]
  constructor
  · intro h t ht
    rcases h t (mem_allSyms t) with h | h
    · exact h
    · exact absurd h ht
  · intro h t _
    by_cases ht : t.type = .dummy
    · exact Or.inr ht
    · exact Or.inl (h t ht)

/-- The chosen subject may become basic. -/
theorem pivotOK_subject {Φ κ α S c S' row tag} (hC : CreateOK Φ κ α S c S' row tag) (k : Nat) {s : Sym}
    (h : (s.type = .external ∧ row.cells s ≠ 0) ∨
      ((∀ t : Sym, t.type = .external → row.cells t = 0) ∧ (s = tag.marker ∨ tag.other = some s) ∧
        (s.type = .slack ∨ s.type = .error) ∧ row.cells s < 0)) :
    row.cells s ≠ 0 ∧ s.value.val < S'.idTick ∧
      PivotOK { S' with clock := k } s (row.solveForSymbol s) := by
  have hcs : row.cells s ≠ 0 := by
    rcases h with h | h
    · exact h.2
    · exact h.2.2.2.ne
  have hnb : S'.rows s = none := by
    cases hb : S'.rows s with
    | none => rfl
    | some r => exact absurd (hC.nb s r hb) hcs
  have hlt : s.value.val < S'.idTick := by
    by_contra hge
    exact hcs (hC.fresh s (by omega))
  refine ⟨hcs, hlt, hnb, by simp [Row.solveForSymbol], ?_, ?_, ?_, ?_, ?_, ?_⟩
  · intro b r hb
    have := hC.nb b r hb
    simp [Row.solveForSymbol, this]
  · intro hs t ht
    rcases h with h | h
    · exact absurd h.1 hs
    · simp [Row.solveForSymbol, h.1 t ht]
  · intro hs
    rcases h with h | h
    · exact absurd h.1 hs
    · simp only [Row.solveForSymbol]
      exact mul_nonneg hC.nonneg (div_pos_of_neg_of_neg (by norm_num) h.2.2.2).le
  · intro b r hb hbe
    have hz : r.cells s = 0 := by
      rcases h with h | h
      · exact hC.good.tab.ext b r s hb hbe h.1
      · rcases h.2.1 with rfl | h'
        · exact hC.markerRow b r hb
        · exact hC.otherRow s b r h' hb
    rw [hz, mul_zero, add_zero]
    exact hC.good.tab.feas b r hb hbe
  · intro hs
    rcases h with h | h
    · rw [h.1] at hs; cases hs
    · rcases h.2.2.1 with h | h <;> rw [h] at hs <;> cases hs
  · intro hs
    rcases h with h | h
    · rw [h.1] at hs; cases hs
    · rcases h.2.2.1 with h | h <;> rw [h] at hs <;> cases hs

/-- A redundant equation between dummies may be added with its dummy as subject. -/
theorem pivotOK_dummy {Φ κ α S c S' row tag} (hC : CreateOK Φ κ α S c S' row tag) (k : Nat)
    (hd : ∀ t : Sym, t.type ≠ .dummy → row.cells t = 0) (hz : row.constant = 0) :
    row.cells tag.marker ≠ 0 ∧ tag.marker.value.val < S'.idTick ∧
      PivotOK { S' with clock := k } tag.marker (row.solveForSymbol tag.marker) := by
  refine ⟨hC.marker, hC.tagOK.markerLt, ?_, by simp [Row.solveForSymbol], ?_, ?_, ?_, ?_, ?_, ?_⟩
  · cases hb : S'.rows tag.marker with
    | none => rfl
    | some r => exact absurd (hC.nb _ r hb) hC.marker
  · intro b r hb
    have := hC.nb b r hb
    simp [Row.solveForSymbol, this]
  · intro _ t ht
    have := hd t (by rw [ht]; simp)
    simp [Row.solveForSymbol, this]
  · intro _; simp [Row.solveForSymbol, hz]
  · intro b r hb hbe
    rw [hC.markerRow b r hb, mul_zero, add_zero]
    exact hC.good.tab.feas b r hb hbe
  · intro _; simp [Row.solveForSymbol, hz]
  · intro _ t ht
    simp [Row.solveForSymbol, hd t ht]

/-! ### The artificial variable -/

theorem sol_update_fresh {S : Solver} {n} (hF : Fresh S n) {a : Sym} (ha : n ≤ a.value.val)
    (σ : Sym → ℚ) (q : ℚ) : Sol S (Function.update σ a q) ↔ Sol S σ := by
  constructor
  · intro h b r hb
    have hne : b ≠ a := by
      rintro rfl; rw [hF.basic b ha] at hb; cases hb
    have := h b r hb
    rwa [Function.update_of_ne hne, Row.eval_update_of_zero _ _ (hF.cell a b r ha hb)] at this
  · intro h b r hb
    have hne : b ≠ a := by
      rintro rfl; rw [hF.basic b ha] at hb; cases hb
    rw [Function.update_of_ne hne, Row.eval_update_of_zero _ _ (hF.cell a b r ha hb)]
    exact h b r hb

/-- The state in which the artificial objective is optimised. -/
def artState (S : Solver) (row : Row) : Solver :=
  { S with
    idTick := S.idTick + 1
    rows := fun b => if b = symbolAt S.idTick .slack then some row else S.rows b
    artificial := some row }

theorem good_artState {Φ κ α} {S : Solver} (hG : Good Φ κ α S) {row : Row}
    (hext : ∀ t : Sym, t.type = .external → row.cells t = 0) (hnn : 0 ≤ row.constant)
    (hnb : ∀ b r, S.rows b = some r → row.cells b = 0)
    (hfr : ∀ t : Sym, S.idTick ≤ t.value.val → row.cells t = 0) (hn : S.idTick + 1 ≤ 256) :
    Good (fun σ => Φ σ ∧ σ (symbolAt S.idTick .slack) = row.eval σ) κ
      (fun σ => σ (symbolAt S.idTick .slack)) (artState S row) := by
  generalize hart : symbolAt S.idTick .slack = art
  have hval : art.value.val = S.idTick := by
    rw [← hart]; exact symbolAt_val (by omega) _
  have hty : art.type = .slack := by rw [← hart]; rfl
  have rowsCases : ∀ b r, (artState S row).rows b = some r →
      (b = art ∧ r = row) ∨ (b ≠ art ∧ S.rows b = some r) := by
    intro b r h
    unfold artState at h
    simp only [hart] at h
    by_cases hb : b = art
    · left; simp only [hb, if_true, Option.some.injEq] at h; exact ⟨hb, h.symm⟩
    · right; simp only [hb, if_false] at h; exact ⟨hb, h⟩
  have hsol : ∀ σ, Sol (artState S row) σ ↔ Sol S σ ∧ σ art = row.eval σ := by
    intro σ
    constructor
    · intro h
      refine ⟨fun b r hb => ?_, h art row (by simp [artState, hart])⟩
      have hne : b ≠ art := by
        rintro rfl
        rw [hG.fresh.basic b (by omega)] at hb; cases hb
      exact h b r (by simp [artState, hart, hne, hb])
    · rintro ⟨h1, h2⟩ b r hb
      rcases rowsCases b r hb with ⟨rfl, rfl⟩ | ⟨_, hb⟩
      · exact h2
      · exact h1 b r hb
  refine ⟨⟨?_, ?_, ?_, ?_, hG.tab.extObj, ?_, ?_, ?_, ?_⟩, ⟨?_, ?_, ?_, ?_⟩,
    ⟨hG.vars.type, hG.vars.back, ?_⟩, ⟨hG.chg.noClear, ?_⟩, ?_, ?_, ?_⟩
  · intro b r b' r' h h'
    rcases rowsCases b r h with ⟨rfl, rfl⟩ | ⟨_, hq⟩
    · rcases rowsCases b' r' h' with ⟨rfl, rfl⟩ | ⟨_, hq'⟩
      · exact hfr b' (by omega)
      · exact hnb b' r' hq'
    · rcases rowsCases b' r' h' with ⟨rfl, rfl⟩ | ⟨_, hq'⟩
      · exact hG.fresh.cell b' b r (by omega) hq
      · exact hG.tab.nb _ _ _ _ hq hq'
  · intro b r h
    rcases rowsCases b r h with ⟨rfl, rfl⟩ | ⟨_, h⟩
    · exact hG.fresh.obj b (by omega)
    · exact hG.tab.nbObj b r h
  · intro a b r ha h
    simp only [artState, Option.some.injEq] at ha
    subst ha
    rcases rowsCases b r h with ⟨rfl, rfl⟩ | ⟨_, h⟩
    · exact hfr b (by omega)
    · exact hnb b r h
  · intro b r t h hb ht
    rcases rowsCases b r h with ⟨rfl, rfl⟩ | ⟨_, h⟩
    · exact hext t ht
    · exact hG.tab.ext b r t h hb ht
  · intro a t ha ht
    simp only [artState, Option.some.injEq] at ha
    subst ha
    exact hext t ht
  · intro b r h hb
    rcases rowsCases b r h with ⟨rfl, rfl⟩ | ⟨_, h⟩
    · exact hnn
    · exact hG.tab.feas b r h hb
  · intro b r h hb
    rcases rowsCases b r h with ⟨rfl, rfl⟩ | ⟨_, h⟩
    · rw [hty] at hb; cases hb
    · exact hG.tab.dumC b r h hb
  · intro b r t h hb ht
    rcases rowsCases b r h with ⟨rfl, rfl⟩ | ⟨_, h⟩
    · rw [hty] at hb; cases hb
    · exact hG.tab.dum b r t h hb ht
  · intro s hs
    simp only [artState] at hs ⊢
    have : s ≠ art := by rintro rfl; omega
    rw [hart, if_neg this]
    exact hG.fresh.basic s (by omega)
  · intro s b r hs h
    simp only [artState] at hs
    rcases rowsCases b r h with ⟨rfl, rfl⟩ | ⟨_, h⟩
    · exact hfr s (by omega)
    · exact hG.fresh.cell s b r (by omega) h
  · intro s hs
    simp only [artState] at hs
    exact hG.fresh.obj s (by omega)
  · intro s a hs ha
    simp only [artState] at hs
    simp only [artState, Option.some.injEq] at ha
    subst ha
    exact hfr s (by omega)
  · intro v s hv
    have := hG.vars.lt v s hv
    simp only [artState]; omega
  · intro v s r hv h hr
    rcases rowsCases s r h with ⟨rfl, rfl⟩ | ⟨_, h⟩
    · have := hG.vars.lt v s hv; omega
    · exact hG.chg.mem v s r hv h hr
  · intro σ; rw [hsol, hG.sol]
  · intro σ hσ; exact hG.obj σ ((hsol σ).1 hσ).1
  · intro a σ ha hσ
    simp only [artState, Option.some.injEq] at ha
    subst ha
    exact ((hsol σ).1 hσ).2.symm

theorem good_noArt {Φ κ α α'} {S : Solver} (hG : Good Φ κ α S) :
    Good Φ κ α' { S with artificial := none } :=
  ⟨⟨hG.tab.nb, hG.tab.nbObj, by simp, hG.tab.ext, hG.tab.extObj, by simp,
        hG.tab.feas, hG.tab.dumC, hG.tab.dum⟩,
   ⟨hG.fresh.basic, hG.fresh.cell, hG.fresh.obj, by simp⟩,
   ⟨hG.vars.type, hG.vars.back, hG.vars.lt⟩, ⟨hG.chg.noClear, hG.chg.mem⟩, hG.sol, hG.obj, by simp⟩

/-- Removing a parametric symbol fixes it at zero. -/
theorem good_removeSymbol {Φ Φ' : (Sym → ℚ) → Prop} {κ α α'} {S : Solver} (hG : Good Φ κ α S)
    (hart : S.artificial = none) {a : Sym} (ha : S.rows a = none)
    (hΦ : ∀ σ, Φ (Function.update σ a 0) ↔ Φ' σ)
    (hκ : ∀ σ, Φ' σ → κ (Function.update σ a 0) = κ σ) :
    Good Φ' κ α' (S.removeSymbol a) := by
  have rowsCases : ∀ b r, (S.removeSymbol a).rows b = some r →
      ∃ r₀, S.rows b = some r₀ ∧ r = r₀.remove a := by
    intro b r h
    simp only [removeSymbol, Option.map_eq_some_iff] at h
    obtain ⟨r₀, h1, h2⟩ := h
    exact ⟨r₀, h1, h2.symm⟩
  have cell0 : ∀ (r : Row) t, r.cells t = 0 → (r.remove a).cells t = 0 := by
    intro r t h; simp [Row.remove, h]
  have hsol : ∀ σ, Sol (S.removeSymbol a) σ ↔ Sol S (Function.update σ a 0) := by
    intro σ
    constructor
    · intro h b r hb
      have hne : b ≠ a := by rintro rfl; rw [ha] at hb; cases hb
      have := h b (r.remove a) (by simp [removeSymbol, hb])
      rw [Function.update_of_ne hne, this, Row.eval_remove']
    · intro h b r hb
      obtain ⟨r₀, h0, rfl⟩ := rowsCases b r hb
      have hne : b ≠ a := by rintro rfl; rw [ha] at h0; cases h0
      have := h b r₀ h0
      rw [Function.update_of_ne hne] at this
      rw [Row.eval_remove', this]
  refine ⟨⟨?_, ?_, ?_, ?_, ?_, ?_, ?_, ?_, ?_⟩, ⟨?_, ?_, ?_, ?_⟩,
    ⟨hG.vars.type, hG.vars.back, hG.vars.lt⟩, ⟨hG.chg.noClear, ?_⟩, ?_, ?_, ?_⟩
  · intro b r b' r' h h'
    obtain ⟨r₀, h0, rfl⟩ := rowsCases b r h
    obtain ⟨r₁, h1, rfl⟩ := rowsCases b' r' h'
    exact cell0 _ _ (hG.tab.nb _ _ _ _ h0 h1)
  · intro b r h
    obtain ⟨r₀, h0, rfl⟩ := rowsCases b r h
    exact cell0 _ _ (hG.tab.nbObj _ _ h0)
  · intro x b r hx
    simp [removeSymbol, hart] at hx
  · intro b r t h hb ht
    obtain ⟨r₀, h0, rfl⟩ := rowsCases b r h
    exact cell0 _ _ (hG.tab.ext _ _ _ h0 hb ht)
  · intro t ht
    exact cell0 _ _ (hG.tab.extObj _ ht)
  · intro x t hx
    simp [removeSymbol, hart] at hx
  · intro b r h hb
    obtain ⟨r₀, h0, rfl⟩ := rowsCases b r h
    have := hG.tab.feas b r₀ h0 hb
    exact this
  · intro b r h hb
    obtain ⟨r₀, h0, rfl⟩ := rowsCases b r h
    have := hG.tab.dumC b r₀ h0 hb
    exact this
  · intro b r t h hb ht
    obtain ⟨r₀, h0, rfl⟩ := rowsCases b r h
    exact cell0 _ _ (hG.tab.dum _ _ _ h0 hb ht)
  · intro s hs
    simp [removeSymbol, hG.fresh.basic s hs]
  · intro s b r hs h
    obtain ⟨r₀, h0, rfl⟩ := rowsCases b r h
    exact cell0 _ _ (hG.fresh.cell s b r₀ hs h0)
  · intro s hs
    exact cell0 _ _ (hG.fresh.obj s hs)
  · intro s x _ hx
    simp [removeSymbol, hart] at hx
  · intro v s r hv h hr
    obtain ⟨r₀, h0, rfl⟩ := rowsCases s r h
    exact hG.chg.mem v s r₀ hv h0 hr
  · intro σ; rw [hsol, hG.sol, hΦ]
  · intro σ hσ
    have h1 := (hsol σ).1 hσ
    have h2 : Φ' σ := (hΦ σ).1 ((hG.sol _).1 h1)
    show (S.objective.remove a).eval σ = κ σ
    rw [Row.eval_remove', hG.obj _ h1, hκ σ h2]
  · intro x σ hx
    simp [removeSymbol, hart] at hx

/-- A row all of whose parametric symbols have non-negative coefficients is smallest at the basic
solution. -/
theorem constant_le_eval {r : Row} {τ : Sym → ℚ} (hτ : Adm τ)
    (hext : ∀ t : Sym, t.type = .external → r.cells t = 0)
    (hnn : ∀ t : Sym, t.type ≠ .dummy → 0 ≤ r.cells t) : r.constant ≤ r.eval τ := by
  unfold Row.eval
  have : 0 ≤ ∑ t, r.cells t * τ t := by
    apply Finset.sum_nonneg
    intro t _
    by_cases hd : t.type = .dummy
    · rw [hτ.2 t hd, mul_zero]
    · by_cases he : t.type = .external
      · rw [hext t he, zero_mul]
      · exact mul_nonneg (hnn t hd) (hτ.1 t he)
  linarith

theorem eval_dummies {r : Row} {τ : Sym → ℚ} (hτ : ∀ t : Sym, t.type = .dummy → τ t = 0)
    (hd : ∀ t : Sym, t.type ≠ .dummy → r.cells t = 0) : r.eval τ = r.constant := by
  have : r.eval τ = r.eval (fun _ => 0) := by
    apply Row.eval_congr
    intro t ht
    apply hτ
    by_contra h
    exact ht (hd t h)
  rw [this]; simp [Row.eval]

theorem pivotable_some {ω k row e} (h : anyPivotableSymbol ω k row = some e) :
    (e.type = .slack ∨ e.type = .error) ∧ row.cells e ≠ 0 := by
  have := pick_some h
  simpa [mem_allSyms] using this

theorem pivotable_none {ω k row} (h : anyPivotableSymbol ω k row = none) (t : Sym)
    (ht : t.type = .slack ∨ t.type = .error) : row.cells t = 0 := by
  have := pick_none h
  rw [List.filter_eq_nil_iff] at this
  have := this t (mem_allSyms t)
  rcases ht with ht | ht <;> simpa [ht] using this

/-- Correctness of `finishArtificial` when it reports success. -/
theorem finishArtificial_ok {ω} {Φ Φ' : (Sym → ℚ) → Prop} {κ} {row : Row} {S S' : Solver} {art : Sym}
    (hty : art.type = .slack)
    (hG : Good (fun σ => Φ σ ∧ σ art = row.eval σ) κ (fun σ => σ art) S)
    (hsome : S.artificial.isSome = true)
    (hΦ : ∀ σ, Φ (Function.update σ art 0) ↔ Φ σ)
    (hrow : row.cells art = 0)
    (hκ : ∀ σ, Φ σ → κ (Function.update σ art 0) = κ σ)
    (hΦ' : ∀ σ, Φ' σ ↔ Φ σ ∧ row.eval σ = 0)
    (h : finishArtificial ω art S = (S', true)) :
    Good Φ' κ (fun _ => 0) S' ∧ S'.artificial = none ∧ S'.idTick = S.idTick ∧
      S'.varSym = S.varSym ∧ S'.varLast = S.varLast ∧ S'.publicChanges = S.publicChanges := by
  obtain ⟨a, ha⟩ := Option.isSome_iff_exists.1 hsome
  have hra : S.artificialRow = a := by simp [artificialRow, ha]
  have hupd : ∀ σ, (Φ (Function.update σ art 0) ∧
      (Function.update σ art 0) art = row.eval (Function.update σ art 0)) ↔ Φ' σ := by
    intro σ
    rw [hΦ, hΦ', Row.eval_update_of_zero _ _ hrow]
    simp only [Function.update_self]
    constructor
    · rintro ⟨h1, h2⟩; exact ⟨h1, h2.symm⟩
    · rintro ⟨h1, h2⟩; exact ⟨h1, h2.symm⟩
  have hκ' : ∀ σ, Φ' σ → κ (Function.update σ art 0) = κ σ := fun σ hσ => hκ σ ((hΦ' σ).1 hσ).1
  have hG1 : Good (fun σ => Φ σ ∧ σ art = row.eval σ) κ (fun σ => σ art)
      { S with artificial := none } := good_noArt hG
  have hac : a.constant = basicSol S art := by
    rw [← eval_basicSol (S := S) a (fun b r hb => hG.tab.nbArt a b r ha hb)]
    exact hG.art a _ ha (sol_basicSol hG.tab)
  unfold finishArtificial at h
  simp only [hra] at h
  cases hr : S.rows art with
  | none =>
    simp only [hr] at h
    simp only [Prod.mk.injEq] at h
    obtain ⟨rfl, _⟩ := h
    exact ⟨good_removeSymbol hG1 rfl hr hupd hκ', rfl, rfl, rfl, rfl, rfl⟩
  | some r =>
    simp only [hr] at h
    have hcr : r.constant = a.constant := by rw [hac, basicSol_some hr]
    by_cases hno : r.noCells = true
    · simp only [hno, if_true, Prod.mk.injEq, decide_eq_true_eq] at h
      obtain ⟨rfl, hz⟩ := h
      refine ⟨?_, rfl, rfl, rfl, rfl, rfl⟩
      rw [Row.noCells_iff] at hno
      -- the row says that the artificial variable is zero
      have hsol : ∀ σ, Sol (dropRow { S with artificial := none } art S.clock) σ ↔
          Sol S (Function.update σ art 0) := by
        intro σ
        constructor
        · intro h b r' hb
          by_cases hba : b = art
          · subst hba
            rw [hr] at hb; cases hb
            rw [Function.update_self]
            simp [Row.eval, hno, hcr, hz]
          · have := h b r' (dropRow_of hba hb)
            rw [Function.update_of_ne hba,
              Row.eval_update_of_zero _ _ (hG.tab.nb _ _ _ _ hb hr)]
            exact this
        · intro h b r' hb
          obtain ⟨hba, hb⟩ := dropRow_some hb
          have := h b r' hb
          rwa [Function.update_of_ne hba,
              Row.eval_update_of_zero _ _ (hG.tab.nb _ _ _ _ hb hr)] at this
      refine ⟨tab_dropRow hG1.tab art S.clock, fresh_dropRow hG1.fresh art S.clock,
        vars_dropRow hG1.vars art S.clock, chg_dropRow hG1.chg art S.clock, ?_, ?_, ?_⟩
      · intro σ
        exact (hsol σ).trans ((hG.sol _).trans (hupd σ))
      · intro σ hσ
        have h1 := (hsol σ).1 hσ
        have h2 := (hupd σ).1 ((hG.sol _).1 h1)
        have h3 := hG.obj _ h1
        rw [Row.eval_update_of_zero _ _ (hG.tab.nbObj _ _ hr), hκ' σ h2] at h3
        exact h3
      · intro x σ hx; cases hx
    · simp only [hno, Bool.false_eq_true, if_false] at h
      cases hp : anyPivotableSymbol ω S.clock r with
      | none => simp [hp] at h
      | some e =>
        simp only [hp, Prod.mk.injEq, decide_eq_true_eq] at h
        obtain ⟨rfl, hz⟩ := h
        obtain ⟨hety, hce⟩ := pivotable_some hp
        have hrc : r.constant = 0 := hcr.trans hz
        have heb : S.rows e = none := by
          cases hb : S.rows e with
          | none => rfl
          | some r' => exact absurd (hG.tab.nb _ _ _ _ hr hb) hce
        have hae : art ≠ e := by rintro rfl; simp [hr] at heb
        have hlt : e.value.val < S.idTick := by
          by_contra hge
          exact hce (hG.fresh.cell e art r (by omega) hr)
        have hnd : e.type ≠ .dummy := by rcases hety with h | h <;> simp [h]
        have hne : e.type ≠ .external := by rcases hety with h | h <;> simp [h]
        have hnea : art.type ≠ .external := by simp [hty]
        have hP : PivotOK (dropRow { S with artificial := none } art (S.clock + 1)) e
            (r.solveForSymbols art e) := by
          refine ⟨by simp [dropRow, heb], ?_, ?_, ?_, ?_, ?_, fun h => absurd h hnd,
            fun h => absurd h hnd⟩
          · rw [solves_cells _ _ _ _ hae]; simp
          · intro b r' hb
            obtain ⟨hba, hb⟩ := dropRow_some hb
            rw [solves_cells _ _ _ _ hae]
            have : b ≠ e := by rintro rfl; simp [heb] at hb
            simp [this, hba, hG.tab.nb _ _ _ _ hr hb]
          · intro _ t ht
            rw [solves_cells _ _ _ _ hae]
            have h1 : t ≠ e := by rintro rfl; exact hne ht
            have h2 : t ≠ art := by rintro rfl; exact hnea ht
            simp [h1, h2, hG.tab.ext art r t hr hnea ht]
          · intro _; rw [solves_constant _ _ _ hae, hrc]; simp
          · intro b r' hb hbe
            obtain ⟨hba, hb⟩ := dropRow_some hb
            rw [solves_constant _ _ _ hae, hrc]
            simpa using hG.tab.feas b r' hb hbe
        have hG3 := good_exchange hG1 (S.clock + 1) hr heb hce hlt hP
        have hnone : ((dropRow { S with artificial := none } art (S.clock + 1)).pivotIn e
            (r.solveForSymbols art e)).rows art = none := by
          rw [pivotIn_rows]
          simp [hae, dropRow]
        have hartn : ((dropRow { S with artificial := none } art (S.clock + 1)).pivotIn e
            (r.solveForSymbols art e)).artificial = none := by
          rw [pivotIn_artificial]; simp [dropRow]
        refine ⟨good_removeSymbol hG3 hartn hnone hupd hκ', ?_, ?_, ?_, ?_, ?_⟩
        · exact hartn
        · simp [removeSymbol]
        · simp [removeSymbol]
        · simp [removeSymbol]
        · simp [removeSymbol]

/-- `finishArtificial` reports success when the constraint can be satisfied. -/
theorem finishArtificial_true {ω} {Φ : (Sym → ℚ) → Prop} {κ κ₀ α₀} {row : Row} {S S₀ : Solver}
    {art : Sym} (hty : art.type = .slack)
    (hG₀ : Good Φ κ₀ α₀ S₀) (hnb₀ : ∀ b r, S₀.rows b = some r → row.cells b = 0)
    (hfa : ∀ b r, S₀.rows b = some r → r.cells art = 0) (hba : S₀.rows art = none)
    (hG : Good (fun σ => Φ σ ∧ σ art = row.eval σ) κ (fun σ => σ art) S)
    (hsome : S.artificial.isSome = true)
    (hrow : row.cells art = 0)
    (hnd : ¬ ∀ t : Sym, t.type ≠ .dummy → row.cells t = 0)
    (hopt : ∀ t : Sym, t.type ≠ .dummy → 0 ≤ S.artificialRow.cells t)
    {σ : Sym → ℚ} (hσ : Φ (Function.update σ art 0)) (hσr : row.eval σ = 0) (hσa : Adm σ) :
    (finishArtificial ω art S).2 = true := by
  obtain ⟨a, ha⟩ := Option.isSome_iff_exists.1 hsome
  have hra : S.artificialRow = a := by simp [artificialRow, ha]
  have hac : a.constant = basicSol S art := by
    rw [← eval_basicSol (S := S) a (fun b r hb => hG.tab.nbArt a b r ha hb)]
    exact hG.art a _ ha (sol_basicSol hG.tab)
  rw [hra] at hopt
  have hτa : Adm (Function.update σ art 0) := by
    constructor
    · intro s hs
      by_cases h : s = art
      · subst h; simp
      · rw [Function.update_of_ne h]; exact hσa.1 s hs
    · intro s hs
      by_cases h : s = art
      · subst h; simp
      · rw [Function.update_of_ne h]; exact hσa.2 s hs
  have hτsol : Sol S (Function.update σ art 0) := by
    rw [hG.sol]
    refine ⟨hσ, ?_⟩
    rw [Row.eval_update_of_zero _ _ hrow, hσr, Function.update_self]
  have h1 : a.constant ≤ 0 := by
    have := constant_le_eval hτa (fun t ht => hG.tab.extArt a t ha ht) hopt
    rw [hG.art a _ ha hτsol, Function.update_self] at this
    exact this
  have h2 : 0 ≤ a.constant := by
    rw [hac]; exact (adm_basicSol hG.tab).1 art (by simp [hty])
  have hz : a.constant = 0 := le_antisymm h1 h2
  unfold finishArtificial
  simp only [hra, hz]
  cases hr : S.rows art with
  | none => simp
  | some r =>
    simp only
    by_cases hno : r.noCells = true
    · simp [hno]
    · simp only [hno, Bool.false_eq_true, if_false]
      cases hp : anyPivotableSymbol ω S.clock r with
      | some e => simp
      | none =>
        exfalso
        -- the row of the artificial variable has only dummies, which cannot be
        have hd : ∀ t : Sym, t.type ≠ .dummy → r.cells t = 0 := by
          intro t ht
          cases htt : t.type with
          | dummy => exact absurd htt ht
          | external => exact hG.tab.ext art r t hr (by simp [hty]) htt
          | slack => exact pivotable_none hp t (Or.inl htt)
          | error => exact pivotable_none hp t (Or.inr htt)
        simp only [not_forall] at hnd
        obtain ⟨s, hsd, hsc⟩ := hnd
        have hsa : s ≠ art := by rintro rfl; exact hsc hrow
        have key : ∀ q : ℚ, row.constant + row.cells s * q = r.constant := by
          intro q
          have hsol := sol_raiseSol hG₀.tab s q
          have hrv : row.eval (raiseSol S₀ s q) = row.constant + row.cells s * q :=
            eval_raiseSol row s q hnb₀
          -- extend to the artificial variable
          have hext : Sol S (Function.update (raiseSol S₀ s q) art
              (row.constant + row.cells s * q)) := by
            rw [hG.sol]
            constructor
            · rw [← hG₀.sol]
              intro b r' hb
              have hne : b ≠ art := by rintro rfl; rw [hba] at hb; cases hb
              rw [Function.update_of_ne hne, Row.eval_update_of_zero _ _ (hfa b r' hb)]
              exact hsol b r' hb
            · rw [Function.update_self, Row.eval_update_of_zero _ _ hrow, hrv]
          have := hext art r hr
          rw [Function.update_self] at this
          rw [this]
          apply eval_dummies _ hd
          intro t ht
          have hta : t ≠ art := by rintro rfl; simp [hty] at ht
          rw [Function.update_of_ne hta]
          cases hbt : S₀.rows t with
          | none =>
            have : t ≠ s := by rintro rfl; exact hsd ht
            simp [raiseSol, hbt, this]
          | some r' =>
            simp only [raiseSol, hbt]
            rw [hG₀.tab.dumC t r' hbt ht, hG₀.tab.dum t r' s hbt ht hsd]; ring
        have k0 := key 0
        have k1 := key 1
        apply hsc
        linarith

end Bento.Casso
