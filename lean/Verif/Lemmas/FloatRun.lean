import Verif.Lemmas.FloatStep

/-!
# Rounding has no effect on runs of the solver
-/

namespace Bento.Casso.Fl
open Solver

/-- A solver state whose equations are `E` and whose objective has weights `w`. -/
structure Kept (S : Solver) (H : List Entry) (E : List IEqn) (w : Sym → ℤ) : Prop where
  inv : Inv S H
  noDum : NoDum S
  sol : ∀ σ, histSol S H σ ↔ ∀ e ∈ E, e.eval σ = 0
  fresh : ∀ e ∈ E, ∀ s : Sym, S.idTick ≤ s.value.val → e.coef s = 0
  cost : ∀ σ, histCost H σ = ∑ s, (w s : ℚ) * σ s

/-- What is asked of the next constraint. -/
structure NextOK (B K D W : ℤ) (S : Solver) (H : List Entry) (E : List IEqn) (w : Sym → ℤ) (c : Constr)
    (S1 : Solver) (row : Row) (tag : Tag) (e0 : IEqn) (n : ℤ) : Prop where
  tick : S1.idTick ≤ 256
  tick' : c.IsRequired → (∀ t : Sym, t.type = .external → row.cells t = 0) → S1.idTick + 1 ≤ 256
  unit : ∀ t ∈ c.expr.terms, t.2 = 1 ∨ t.2 = -1
  strength : c.strength = n
  strengthLe : |n| ≤ B
  lenK : c.expr.terms.length * K ≤ B
  const : ∃ C : ℤ, IntLe C c.expr.constant ∧ 0 ≤ C ∧ C + c.expr.terms.length * D ≤ B
  eqn : ∀ σ, histSol S H σ → c.expr.constant + termsEval S1 σ c.expr.terms = e0.eval σ
  fresh : ∀ s : Sym, S.idTick ≤ s.value.val → e0.coef s = 0
  sys : Sys (e0.withTag c.op tag :: E) K D
  two : 2 ≤ K
  weight : (∑ s, |w s + tagWeight c.op n tag s|) * K ≤ W
  ext : c.op = .eq → c.IsRequired → ∃ t : Sym, t.type = .external ∧ row.cells t ≠ 0

section
variable {rnd : ℚ → ℚ} {B K D W : ℤ} {S S1 : Solver} {H : List Entry} {E : List IEqn} {w : Sym → ℤ}
  {c : Constr} {row : Row} {tag : Tag} {e0 : IEqn} {n : ℤ}

theorem unit_of_inv {c : ℚ} {m : ℤ} (hc : c = m) (h0 : c ≠ 0) {q : ℚ} (hq : q = 1 ∨ q = -1)
    (h : ∃ z : ℤ, q * (-1 / c) = z) : c = 1 ∨ c = -1 := by
  obtain ⟨z, hz⟩ := h
  have h1 : (z : ℚ) * c = -q := by
    rw [← hz]; field_simp
  have h2 : z * m = 1 ∨ z * m = -1 := by
    rcases hq with rfl | rfl
    · right; rw [hc] at h1; exact_mod_cast h1
    · left; rw [hc] at h1; simp only [neg_neg] at h1; exact_mod_cast h1
  have h3 : m = 1 ∨ m = -1 := by
    have : IsUnit m := by
      rcases h2 with h | h
      · exact IsUnit.of_mul_eq_one z (by rw [mul_comm]; exact h)
      · exact IsUnit.of_mul_eq_one (-z) (by rw [mul_comm]; linarith)
    exact Int.isUnit_iff.1 this
  rcases h3 with h3 | h3
  · left; rw [hc, h3]; norm_num
  · right; rw [hc, h3]; norm_num

theorem insertConstraint_near (hR : Exact rnd B) (hM : Room B K D W) (hF : Kept S H E w)
    (hcr : S.createRow c = (S1, row, tag)) (hN : NextOK B K D W S H E w c S1 row tag e0 n)
    (ω : Nat → Nat) (fuel : Nat) (k : ℚ) :
    Near (insertConstraint rnd ω fuel (setCost S k) c) (S.insertConstraint ω fuel c) ∧
    ∀ S', S.insertConstraint ω fuel c = .ok S' → NoDum S' := by
  have hG := hF.inv.good
  have hC := createRow_ok hG hcr hN.tick
  have hE := hN.sys.tail
  obtain ⟨C, hc1, hc2, hc3⟩ := hN.const
  have hw0 : (∑ s, |w s|) * K ≤ (∑ s, |w s|) * K := le_refl _
  have hWS : Whole K D ((∑ s, |w s|) * K) S := whole_of_good hG hF.sol hE hF.noDum hF.cost hw0
    (Or.inl hF.inv.artificial)
  obtain ⟨hcreate, hunit, hcells, hconst⟩ := createRow_eq hR hM.one hG hM.k1 hM.d0 hc2
    (fun b r hb => ⟨fun t => hWS.cell b r t hb, hWS.const b r hb⟩) hN.unit hc1 hN.lenK hc3
    (⟨n, hN.strength, hN.strengthLe⟩) hcr hN.tick k
  have hnd1 : NoDum S1 := by
    intro b hb; rw [hC.rows] at hb; exact hF.noDum b hb
  have hart1 : S1.artificial = none := hC.artificial.trans hF.inv.artificial
  have hcost1 : ∀ σ, histCost H σ + tagCost c.op c.strength tag σ
      = ∑ s, ((w s + tagWeight c.op n tag s : ℤ) : ℚ) * σ s := by
    intro σ
    rw [hF.cost, hN.strength, ← sum_tagWeight, ← Finset.sum_add_distrib]
    apply Finset.sum_congr rfl
    intro s _
    push_cast
    ring
  have hW1 : Whole K D W { S1 with clock := S1.clock + 1 } :=
    whole_clock (whole_of_good hC.good hF.sol hE hnd1 hcost1 hN.weight (Or.inl hart1)) _
  -- the new system
  have heqn : ∀ σ, histSol S H σ → eqnEval S1 c tag σ = (e0.withTag c.op tag).eval σ := by
    intro σ hσ
    rw [IEqn.eval_withTag, eqnEval, hN.eqn σ hσ]
  have hsol' : ∀ σ, (histSol S H σ ∧ row.eval σ = 0) ↔
      ∀ e ∈ e0.withTag c.op tag :: E, e.eval σ = 0 := by
    intro σ
    simp only [List.mem_cons, forall_eq_or_imp]
    constructor
    · rintro ⟨h1, h2⟩
      refine ⟨?_, (hF.sol σ).1 h1⟩
      rw [← heqn σ h1]
      exact (hC.evalIff σ ((hC.good.sol σ).2 h1)).1 h2
    · rintro ⟨h1, h2⟩
      have h3 := (hF.sol σ).2 h2
      refine ⟨h3, (hC.evalIff σ ((hC.good.sol σ).2 h3)).2 ?_⟩
      rw [heqn σ h3]; exact h1
  unfold insertConstraint Solver.insertConstraint
  rw [hcreate, hcr]
  simp only
  have hclk : (setCost S1 k).clock = S1.clock := rfl
  rw [hclk]
  cases hcs : chooseSubject ω S1.clock row tag with
  | some s =>
    simp only
    have hsub := chooseSubject_some hcs
    obtain ⟨p1, p2, p3⟩ := pivotOK_subject hC (S1.clock + 1) hsub
    have hG1 := good_install (good_clock hC.good (S1.clock + 1)) p1 p2 hC.fresh p3
    have hsd : s.type ≠ .dummy := by
      rcases hsub with h | h
      · rw [h.1]; simp
      · rcases h.2.2.1 with h | h <;> rw [h] <;> simp
    have hnd2 : NoDum (({ S1 with clock := S1.clock + 1 } : Solver).pivotIn s
        (row.solveForSymbol s)) := noDum_pivotIn hnd1 hsd
    have hW2 := whole_of_good hG1 hsol' hN.sys hnd2 hcost1 hN.weight
      (Or.inl (by rw [pivotIn_artificial]; simp [hart1]))
    have hnew : (({ S1 with clock := S1.clock + 1 } : Solver).pivotIn s
        (row.solveForSymbol s)).rows s = some (row.solveForSymbol s) := by
      rw [pivotIn_rows]; simp
    have hsu : row.cells s = 1 ∨ row.cells s = -1 := by
      by_cases hsm : s = tag.marker
      · rw [hsm]; exact hunit
      · obtain ⟨m, hm, -⟩ := hcells s
        have hcell := hW2.cell s _ tag.marker hnew
        obtain ⟨z, hz, -⟩ := hcell
        simp only [Row.solveForSymbol] at hz
        rw [if_neg (Ne.symm hsm)] at hz
        exact unit_of_inv hm p1 hunit ⟨z, hz⟩
    have hsolve := solveForSymbol_eq hR hM.one hsu hcells hconst
    obtain ⟨k', hk'⟩ := pivotIn_eq hR hM hW1 (fun t => hW2.cell s _ t hnew) (hW2.const s _ hnew) k
      (s := s)
    refine ⟨?_, ?_⟩
    · rw [hsolve]
      exact ⟨k', hk'⟩
    · intro S' hS'
      simp only [Except.ok.injEq] at hS'
      rw [← hS']
      exact hnd2
  | none =>
    simp only
    have hreq := subject_of_weak hC hcs
    obtain ⟨hext, -⟩ := chooseSubject_none hcs
    have hop : c.op ≠ .eq := by
      intro h
      obtain ⟨t, ht, ht'⟩ := hN.ext h hreq
      exact ht' (hext t ht)
    have hmt : tag.marker.type = .slack := by
      rw [hC.tagOK.markerType]
      cases h : c.op with
      | eq => exact absurd h hop
      | le => cases tag.other <;> rfl
      | ge => cases tag.other <;> rfl
    have had : allDummies row = false := by
      by_contra h
      have h' := (allDummies_iff row).1 (by simpa using h)
      exact hC.marker (h' tag.marker (by rw [hmt]; simp))
    rw [had]
    simp only [Bool.false_eq_true, if_false]
    have hn1 := hN.tick' hreq hext
    have hG2 := good_artState (good_clock hC.good (S1.clock + 1)) hext hC.nonneg hC.nb hC.fresh hn1
    have hval := symbolAt_val (show S1.idTick ≤ 255 by omega) .slack
    obtain ⟨ε, hε, hsign⟩ := createRow_sign hG hcr hN.tick
    have hε1 : (ε : ℚ) * ε = 1 := by rcases hε with rfl | rfl <;> norm_num
    have hεn : -ε = 1 ∨ -ε = -1 := by rcases hε with rfl | rfl <;> simp
    -- the system with the artificial symbol
    have hsysA : Sys ((e0.withTag c.op tag).withSym (symbolAt S1.idTick .slack) (-ε) :: E) K D := by
      refine hN.sys.withSym rfl ?_ hεn hN.two
      intro e' he'
      rcases List.mem_cons.1 he' with rfl | he'
      · simp only [IEqn.withTag]
        rw [hN.fresh _ (by rw [hval]; exact hC.tick), zero_add]
        apply tagCoef_zero
        · intro h
          have := hC.tagOK.markerLt
          rw [← h, hval] at this
          omega
        · intro o ho h
          have := hC.tagOK.otherLt o ho
          rw [← h, hval] at this
          omega
      · exact hF.fresh e' he' _ (by rw [hval]; exact hC.tick)
    have hsolA : ∀ σ, (histSol S H σ ∧ σ (symbolAt S1.idTick .slack) = row.eval σ) ↔
        ∀ e ∈ (e0.withTag c.op tag).withSym (symbolAt S1.idTick .slack) (-ε) :: E, e.eval σ = 0 := by
      intro σ
      simp only [List.mem_cons, forall_eq_or_imp]
      rw [IEqn.eval_withSym]
      push_cast
      constructor
      · rintro ⟨h1, h2⟩
        refine ⟨?_, (hF.sol σ).1 h1⟩
        rw [h2, hsign σ ((hC.good.sol σ).2 h1), heqn σ h1]
        have : (e0.withTag c.op tag).eval σ + -(ε : ℚ) * (ε * (e0.withTag c.op tag).eval σ)
            = (1 - (ε : ℚ) * ε) * (e0.withTag c.op tag).eval σ := by ring
        rw [this, hε1]; ring
      · rintro ⟨h1, h2⟩
        have h3 := (hF.sol σ).2 h2
        refine ⟨h3, ?_⟩
        rw [hsign σ ((hC.good.sol σ).2 h3), heqn σ h3]
        have h4 : (e0.withTag c.op tag).eval σ = ε * σ (symbolAt S1.idTick .slack) := by linarith
        rw [h4, ← mul_assoc, hε1, one_mul]
    have hnd2 : NoDum (artState { S1 with clock := S1.clock + 1 } row) := by
      intro b hb
      by_cases hba : b = symbolAt S1.idTick .slack
      · rw [hba]; simp
      · apply hnd1 b
        intro h0
        apply hb
        simp [artState, hba, h0]
    have hopt := optimize_near (b := true) hR hM hsysA hsolA hcost1 hN.weight (fun _ => ⟨_, fun _ => rfl⟩)
      (ω := ω) (sel := artificialRow) (fun _ _ => rfl) (fun S hG hb => selFacts_artificial hG hb)
      fuel (artState { S1 with clock := S1.clock + 1 } row) k hG2 hnd2 rfl
    unfold addWithArtificialVariable Solver.addWithArtificialVariable
    simp only
    have hst : ({ ({ setCost S1 k with clock := S1.clock + 1 } : Solver) with
        idTick := ({ setCost S1 k with clock := S1.clock + 1 } : Solver).idTick + 1
        rows := fun b => if b = symbolAt ({ setCost S1 k with clock := S1.clock + 1 } : Solver).idTick .slack then some row else ({ setCost S1 k with clock := S1.clock + 1 } : Solver).rows b
        artificial := some row } : Solver)
        = setCost (artState { S1 with clock := S1.clock + 1 } row) k := rfl
    have hst' : ({ ({ S1 with clock := S1.clock + 1 } : Solver) with
        idTick := ({ S1 with clock := S1.clock + 1 } : Solver).idTick + 1
        rows := fun b => if b = symbolAt ({ S1 with clock := S1.clock + 1 } : Solver).idTick .slack then some row else ({ S1 with clock := S1.clock + 1 } : Solver).rows b
        artificial := some row } : Solver)
        = artState { S1 with clock := S1.clock + 1 } row := rfl
    simp only at hst hst'
    rw [hst, hst']
    have htk : (setCost S1 k).idTick = S1.idTick := rfl
    rw [htk]
    obtain ⟨hopt1, hopt2⟩ := hopt
    have hart2 := fun S2 h => art_optimized (ω := ω) (fuel := fuel) (S2 := S2) hC (S1.clock + 1) hext
      hn1 h
    generalize Solver.optimize ω artificialRow fuel (artState { S1 with clock := S1.clock + 1 } row)
      = q at hopt1 hopt2 hart2 ⊢
    generalize optimize rnd ω artificialRow fuel
      (setCost (artState { S1 with clock := S1.clock + 1 } row) k) = p at hopt1 ⊢
    cases q with
    | error e =>
      cases p with
      | ok _ => exact absurd hopt1 (by simp [Near])
      | error e' =>
        simp only [Near] at hopt1 ⊢
        exact ⟨hopt1, by intro S' h; cases h⟩
    | ok S2 =>
      cases p with
      | error _ => exact absurd hopt1 (by simp [Near])
      | ok F =>
        obtain ⟨k2, hk2⟩ := hopt1
        subst hk2
        obtain ⟨g1, g2, -⟩ := hart2 S2 rfl
        have hnd3 := hopt2 S2 rfl
        have hW3 := whole_of_good g1 hsolA hsysA hnd3 hcost1 hN.weight
          (Or.inr ⟨_, fun _ => rfl⟩)
        obtain ⟨k3, hk3, hnd4⟩ := finishArtificial_near hR hM hW3 g1.tab hnd3 ω
          (art := symbolAt S1.idTick .slack) k2 g2
        simp only
        rw [hk3]
        generalize Solver.finishArtificial ω (symbolAt S1.idTick .slack) S2 = r at hnd4 ⊢
        obtain ⟨S3, ok⟩ := r
        cases ok with
        | false =>
          simp only [Near]
          exact ⟨trivial, by intro S' h; cases h⟩
        | true =>
          simp only [Near]
          refine ⟨⟨k3, rfl⟩, ?_⟩
          intro S' h
          simp only [Except.ok.injEq] at h
          rw [← h]; exact hnd4

/-- `AddConstraint` is not affected by rounding. -/
theorem addConstraint_near (hR : Exact rnd B) (hM : Room B K D W) (hF : Kept S H E w)
    (hcr : S.createRow c = (S1, row, tag)) (hN : NextOK B K D W S H E w c S1 row tag e0 n)
    (ω : Nat → Nat) (fuel : Nat) (k : ℚ) (hfin : ∀ S', S.addConstraint ω fuel c = .ok S' → S'.idTick ≤ 256)
    (hfin' : ∀ S', S.insertConstraint ω fuel c = .ok S' → S'.idTick ≤ 256) :
    Near (addConstraint rnd ω fuel (setCost S k) c) (S.addConstraint ω fuel c) ∧
    ∀ S', S.addConstraint ω fuel c = .ok S' →
      Kept S' (⟨c, tag⟩ :: H) (e0.withTag c.op tag :: E) (fun s => w s + tagWeight c.op n tag s) ∧
      S'.varSym = S1.varSym := by
  obtain ⟨hi1, hi2⟩ := insertConstraint_near hR hM hF hcr hN ω fuel k
  have hC := createRow_ok hF.inv.good hcr hN.tick
  have hcost1 : ∀ σ, histCost H σ + tagCost c.op c.strength tag σ
      = ∑ s, ((w s + tagWeight c.op n tag s : ℤ) : ℚ) * σ s := by
    intro σ
    rw [hF.cost, hN.strength, ← sum_tagWeight, ← Finset.sum_add_distrib]
    apply Finset.sum_congr rfl
    intro s _
    push_cast
    ring
  have heqn : ∀ σ, histSol S H σ → eqnEval S1 c tag σ = (e0.withTag c.op tag).eval σ := by
    intro σ hσ
    rw [IEqn.eval_withTag, eqnEval, hN.eqn σ hσ]
  have hsol : ∀ T : Solver, T.varSym = S1.varSym → ∀ σ, (histSol S H σ ∧ eqnEval T c tag σ = 0) ↔
      ∀ e ∈ e0.withTag c.op tag :: E, e.eval σ = 0 := by
    intro T hT σ
    rw [eqnEval_congr hT]
    simp only [List.mem_cons, forall_eq_or_imp]
    constructor
    · rintro ⟨h1, h2⟩
      exact ⟨by rw [← heqn σ h1]; exact h2, (hF.sol σ).1 h1⟩
    · rintro ⟨h1, h2⟩
      have h3 := (hF.sol σ).2 h2
      exact ⟨h3, by rw [heqn σ h3]; exact h1⟩
  have hAdd : ∀ T, S.insertConstraint ω fuel c = .ok T → AddOK (histSol S H) (histCost H) S c T tag ∧
      T.varSym = S1.varSym := fun T hT =>
    insertConstraint_tag hF.inv.good hF.inv.artificial hcr hT (hfin' T hT)
  have hInv := fun T (hT : S.addConstraint ω fuel c = .ok T) =>
    addConstraint_tag hF.inv hcr hT (hfin T hT)
  have htick := fun T (hT : S.addConstraint ω fuel c = .ok T) => addConstraint_tick_le hT
  -- the final optimisation
  have hmain : ∀ T k1, S.insertConstraint ω fuel c = .ok T →
      Near (optimize rnd ω Solver.objective fuel (setCost T k1)) (Solver.optimize ω Solver.objective fuel T) ∧
      ∀ T', Solver.optimize ω Solver.objective fuel T = .ok T' → NoDum T' := by
    intro T k1 hT
    obtain ⟨hA, hvs⟩ := hAdd T hT
    exact optimize_near (b := false) hR hM hN.sys (hsol T hvs) hcost1 hN.weight (by simp)
      (ω := ω) (sel := Solver.objective) (fun _ _ => rfl) (fun S hG _ => selFacts_objective hG)
      fuel T k1 hA.good (hi2 T hT) (by simp [hA.artificial])
  constructor
  · unfold addConstraint Solver.addConstraint
    cases hq : S.insertConstraint ω fuel c with
    | error e =>
      rw [hq] at hi1
      generalize insertConstraint rnd ω fuel (setCost S k) c = p at hi1 ⊢
      cases p with
      | ok _ => exact absurd hi1 (by simp [Near])
      | error e' => simpa [Near] using hi1
    | ok T =>
      rw [hq] at hi1
      generalize insertConstraint rnd ω fuel (setCost S k) c = p at hi1 ⊢
      cases p with
      | error _ => exact absurd hi1 (by simp [Near])
      | ok F =>
        obtain ⟨k1, hk1⟩ := hi1
        subst hk1
        exact (hmain T k1 hq).1
  · intro S' hS'
    obtain ⟨⟨hI, -, -⟩, hvs⟩ := hInv S' hS'
    refine ⟨⟨hI, ?_, ?_, ?_, ?_⟩, hvs⟩
    · unfold Solver.addConstraint at hS'
      cases hq : S.insertConstraint ω fuel c with
      | error e => rw [hq] at hS'; cases hS'
      | ok T =>
        rw [hq] at hS'
        exact (hmain T k hq).2 S' hS'
    · intro σ
      rw [← hsol S' hvs σ, and_comm]
      simp only [histSol, List.mem_cons, forall_eq_or_imp]
      apply and_congr_right
      intro _
      apply forall_congr'; intro e
      apply imp_congr_right; intro he
      simp only [eqnEval]
      rw [termsEval_ext _ _ (hF.inv.vars e he) (fun v s hv => by rw [hvs]; exact hC.varSym v s hv)]
    · intro e he s hs
      have ht := htick S' hS'
      have hh := hI.hist
      obtain ⟨m, n', h1, h2, -⟩ := hh
      rcases List.mem_cons.1 he with rfl | he
      · simp only [IEqn.withTag]
        rw [hN.fresh s (le_trans ht hs), zero_add]
        apply tagCoef_zero
        · rintro rfl
          have := h2.markerLt
          simp only at this
          omega
        · rintro o ho rfl
          have := h2.otherLt s ho
          omega
      · exact hF.fresh e he s (le_trans ht hs)
    · intro σ
      rw [← hcost1 σ]
      simp only [histCost, List.map_cons, List.sum_cons]
      ring

end

end Bento.Casso.Fl
