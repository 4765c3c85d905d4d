import Verif.Lemmas.CassoAdd

/-!
# Histories of added constraints
-/

namespace Bento.Casso
open Solver

theorem Good.alpha {Φ κ α α'} {S : Solver} (hG : Good Φ κ α S) (h : S.artificial = none) :
    Good Φ κ α' S :=
  ⟨hG.tab, hG.fresh, hG.vars, hG.chg, hG.sol, hG.obj, by simp [h]⟩

theorem eqnEval_congr {S S' : Solver} (h : S'.varSym = S.varSym) (c : Constr) (tag : Tag)
    (σ : Sym → ℚ) : eqnEval S' c tag σ = eqnEval S c tag σ := by
  simp [eqnEval, termsEval, vsym, h]

/-- Constraints that are not required always find a subject. -/
theorem subject_of_weak {Φ κ α S c S' row tag} (hC : CreateOK Φ κ α S c S' row tag) {ω k}
    (h : chooseSubject ω k row tag = none) : c.IsRequired := by
  by_contra hw
  obtain ⟨o, ho⟩ := Option.isSome_iff_exists.1 (hC.tagOK.otherIff.2 hw)
  obtain ⟨_, h2⟩ := chooseSubject_none h
  have ht : tag.marker.type = .slack ∨ tag.marker.type = .error := by
    rw [hC.tagOK.markerType, ho]; cases c.op <;> simp
  have h3 := h2 tag.marker (Or.inl rfl) ht
  have h4 := h2 o (Or.inr ho) (Or.inr (hC.tagOK.otherType o ho))
  rw [hC.other o ho] at h4
  exact hC.marker (by linarith)

/-- What `AddConstraint` achieves. -/
structure AddOK (Φ : (Sym → ℚ) → Prop) (κ : (Sym → ℚ) → ℚ) (S : Solver)
    (c : Constr) (S' : Solver) (tag : Tag) : Prop where
  good : Good (fun σ => Φ σ ∧ eqnEval S' c tag σ = 0)
    (fun σ => κ σ + tagCost c.op c.strength tag σ) (fun _ => 0) S'
  artificial : S'.artificial = none
  varSym : ∀ v s, S.varSym v = some s → S'.varSym v = some s
  last : S'.varLast = S.varLast
  pub : S'.publicChanges = S.publicChanges
  tick : S.idTick ≤ S'.idTick
  terms : ∀ v k, (v, k) ∈ c.expr.terms → k ≠ 0 → (S'.varSym v).isSome
  tagOK : TagOK c tag S.idTick S'.idTick

theorem artState_eq (S : Solver) (row : Row) :
    artState S row = { S with
        idTick := S.idTick + 1
        rows := fun b => if b = symbolAt S.idTick .slack then some row else S.rows b
        artificial := some row } := rfl

/-- The state handed to `finishArtificial`. -/
theorem art_optimized {ω fuel} {Φ κ α S c S1 row tag} (hC : CreateOK Φ κ α S c S1 row tag) (k : Nat)
    (hext : ∀ t : Sym, t.type = .external → row.cells t = 0) (hn : S1.idTick + 1 ≤ 256)
    {S2} (h : optimize ω artificialRow fuel (artState { S1 with clock := k } row) = .ok S2) :
    Good (fun σ => Φ σ ∧ σ (symbolAt S1.idTick .slack) = row.eval σ)
      (fun σ => κ σ + tagCost c.op c.strength tag σ) (fun σ => σ (symbolAt S1.idTick .slack)) S2 ∧
    S2.artificial.isSome = true ∧ S2.idTick = S1.idTick + 1 ∧ S2.varSym = S1.varSym ∧
    S2.varLast = S1.varLast ∧ S2.publicChanges = S1.publicChanges ∧
    ∀ t : Sym, t.type ≠ .dummy → 0 ≤ S2.artificialRow.cells t := by
  have hG := good_artState (good_clock hC.good k) hext hC.nonneg hC.nb hC.fresh hn
  obtain ⟨h1, h2, h3, h4, _, h6, h7, h8⟩ :=
    optimize_good (b := true) (fun S hG hb => selFacts_artificial hG hb) fuel _ S2 hG rfl h
  exact ⟨h1, h2, h3, h4, h6, h7, h8⟩

theorem createOK_update {Φ κ α S c S1 row tag} (hC : CreateOK Φ κ α S c S1 row tag)
    (hn : S1.idTick + 1 ≤ 256) :
    (∀ σ q, Φ (Function.update σ (symbolAt S1.idTick .slack) q) ↔ Φ σ) ∧
    row.cells (symbolAt S1.idTick .slack) = 0 ∧
    (∀ σ, Φ σ → (fun σ => κ σ + tagCost c.op c.strength tag σ)
        (Function.update σ (symbolAt S1.idTick .slack) 0)
      = (fun σ => κ σ + tagCost c.op c.strength tag σ) σ) := by
  have hval := symbolAt_val (show S1.idTick ≤ 255 by omega) .slack
  have hΦ : ∀ σ q, Φ (Function.update σ (symbolAt S1.idTick .slack) q) ↔ Φ σ := by
    intro σ q
    rw [← hC.good.sol, ← hC.good.sol]
    exact sol_update_fresh hC.good.fresh (by omega) σ q
  refine ⟨hΦ, hC.fresh _ (by omega), ?_⟩
  intro σ hσ
  have h1 := hC.good.obj σ ((hC.good.sol σ).2 hσ)
  have h2 := hC.good.obj _ ((hC.good.sol _).2 ((hΦ σ 0).2 hσ))
  rw [Row.eval_update_of_zero _ _ (hC.good.fresh.obj _ (by omega))] at h2
  exact h2.symm.trans h1

theorem optimize_tick {ω sel} : ∀ (fuel : Nat) (S S' : Solver),
    optimize ω sel fuel S = .ok S' → S'.idTick = S.idTick := by
  intro fuel
  induction fuel with
  | zero => intro S S' h; simp [optimize] at h
  | succ n ih =>
    intro S S' h
    unfold optimize at h
    split at h
    · simp only [Except.ok.injEq] at h; rw [h]
    · split at h
      · cases h
      · split at h
        · cases h
        · have := ih _ _ h
          simpa using this

theorem finishArtificial_tick {ω art} {S : Solver} :
    (finishArtificial ω art S).1.idTick = S.idTick := by
  unfold finishArtificial
  simp only
  split
  · split_ifs
    · rfl
    · split
      · rfl
      · simp [removeSymbol]
  · simp [removeSymbol]

theorem insertConstraint_tag {ω fuel} {Φ κ α} {S S' : Solver} {c : Constr} (hG : Good Φ κ α S)
    (hart : S.artificial = none) {S1 row tag} (hcr : S.createRow c = (S1, row, tag))
    (h : S.insertConstraint ω fuel c = .ok S') (hn : S'.idTick ≤ 256) :
    AddOK Φ κ S c S' tag ∧ S'.varSym = S1.varSym := by
  unfold insertConstraint at h
  rw [hcr] at h
  simp only at h
  -- common ending for the two cases that solve for a subject
  have direct : ∀ (s : Sym) (hC : CreateOK Φ κ α S c S1 row tag), row.cells s ≠ 0 →
      s.value.val < S1.idTick →
      PivotOK { S1 with clock := S1.clock + 1 } s (row.solveForSymbol s) →
      AddOK Φ κ S c (({ S1 with clock := S1.clock + 1 } : Solver).pivotIn s (row.solveForSymbol s)) tag ∧
      (({ S1 with clock := S1.clock + 1 } : Solver).pivotIn s (row.solveForSymbol s)).varSym
        = S1.varSym := by
    intro s hC h1 h2 hP
    have hG1 := good_install (good_clock hC.good (S1.clock + 1)) h1 h2 hC.fresh hP
    have ha : (({ S1 with clock := S1.clock + 1 } : Solver).pivotIn s
        (row.solveForSymbol s)).artificial = none := by
      rw [pivotIn_artificial]; simp [hC.artificial, hart]
    refine ⟨⟨?_, ha, ?_, ?_, ?_, ?_, ?_, ?_⟩, by simp⟩
    · refine (hG1.congr (fun σ => ?_) (fun _ _ => rfl)).alpha ha
      rw [eqnEval_congr (S := S1) (by simp)]
      constructor
      · rintro ⟨h3, h4⟩; exact ⟨h3, (hC.evalIff σ ((hC.good.sol σ).2 h3)).1 h4⟩
      · rintro ⟨h3, h4⟩; exact ⟨h3, (hC.evalIff σ ((hC.good.sol σ).2 h3)).2 h4⟩
    · intro v s hv; simpa using hC.varSym v s hv
    · simpa using hC.last
    · simpa using hC.pub
    · simpa using hC.tick
    · intro v k hv hk; simpa using hC.terms v k hv hk
    · simpa using hC.tagOK
  cases hcs : chooseSubject ω S1.clock row tag with
  | some s =>
    simp only [hcs, Except.ok.injEq] at h
    subst h
    rw [pivotIn_idTick] at hn
    have hC := createRow_ok hG hcr hn
    obtain ⟨h1, h2, h3⟩ := pivotOK_subject hC (S1.clock + 1) (chooseSubject_some hcs)
    exact direct s hC h1 h2 h3
  | none =>
    simp only [hcs] at h
    by_cases had : allDummies row = true
    · rw [if_pos had] at h
      by_cases hz : row.constant = 0
      · simp only [hz, ne_eq, not_true_eq_false, if_false, Except.ok.injEq] at h
        subst h
        rw [pivotIn_idTick] at hn
        have hC := createRow_ok hG hcr hn
        obtain ⟨h1, h2, h3⟩ := pivotOK_dummy hC (S1.clock + 1) ((allDummies_iff row).1 had) hz
        exact direct _ hC h1 h2 h3
      · simp [hz] at h
    · rw [if_neg had] at h
      unfold addWithArtificialVariable at h
      simp only at h
      cases ho : optimize ω artificialRow fuel (artState { S1 with clock := S1.clock + 1 } row) with
      | error e =>
        rw [artState_eq] at ho
        simp only at ho
        rw [ho] at h
        cases h
      | ok S2 =>
        have ho' := ho
        rw [artState_eq] at ho'
        simp only at ho'
        rw [ho'] at h
        simp only at h
        cases hf : finishArtificial ω (symbolAt S1.idTick .slack) S2 with
        | mk S3 ok =>
          rw [hf] at h
          cases ok with
          | false => cases h
          | true =>
            simp only [Except.ok.injEq] at h
            subst h
            have ht2 := optimize_tick _ _ _ ho
            have ht3 := finishArtificial_tick (ω := ω) (art := symbolAt S1.idTick .slack) (S := S2)
            rw [hf] at ht3
            simp only [artState] at ht2 ht3
            have hn1 : S1.idTick + 1 ≤ 256 := by omega
            have hC := createRow_ok hG hcr (by omega)
            obtain ⟨hext, _⟩ := chooseSubject_none hcs
            obtain ⟨g1, g2, g3, g4, g5, g6, _⟩ := art_optimized hC (S1.clock + 1) hext hn1 ho
            obtain ⟨hΦ, hrow, hκ⟩ := createOK_update hC hn1
            have hvs : S3.varSym = S1.varSym := by
              have := finishArtificial_ok (Φ' := fun σ => Φ σ ∧ row.eval σ = 0) rfl g1 g2
                (fun σ => hΦ σ 0) hrow hκ (fun _ => Iff.rfl) hf
              rw [this.2.2.2.1, g4]
            obtain ⟨f1, f2, f3, f4, f5, f6⟩ := finishArtificial_ok
              (Φ' := fun σ => Φ σ ∧ eqnEval S3 c tag σ = 0) rfl g1 g2
              (fun σ => hΦ σ 0) hrow hκ (fun σ => by
                rw [eqnEval_congr hvs]
                constructor
                · rintro ⟨h3, h4⟩; exact ⟨h3, (hC.evalIff σ ((hC.good.sol σ).2 h3)).2 h4⟩
                · rintro ⟨h3, h4⟩; exact ⟨h3, (hC.evalIff σ ((hC.good.sol σ).2 h3)).1 h4⟩) hf
            refine ⟨⟨f1, f2, ?_, ?_, ?_, ?_, ?_, ?_⟩, hvs⟩
            · intro v s hv; rw [hvs]; exact hC.varSym v s hv
            · rw [f5, g5, hC.last]
            · rw [f6, g6, hC.pub]
            · rw [f3, g3]; exact le_trans hC.tick (Nat.le_succ _)
            · intro v k hv hk; rw [hvs]; exact hC.terms v k hv hk
            · have := hC.tagOK
              refine ⟨this.markerGe, ?_, this.otherGe, ?_, this.ne, this.otherIff, this.otherType,
                this.markerType⟩
              · rw [f3, g3]; exact lt_of_lt_of_le this.markerLt (Nat.le_succ _)
              · intro o ho; rw [f3, g3]; exact lt_of_lt_of_le (this.otherLt o ho) (Nat.le_succ _)

theorem insertConstraint_ok {ω fuel} {Φ κ α} {S S' : Solver} {c : Constr} (hG : Good Φ κ α S)
    (hart : S.artificial = none) (h : S.insertConstraint ω fuel c = .ok S') (hn : S'.idTick ≤ 256) :
    ∃ tag, AddOK Φ κ S c S' tag := by
  rcases hcr : S.createRow c with ⟨S1, row, tag⟩
  exact ⟨tag, (insertConstraint_tag hG hart hcr h hn).1⟩

/-- `AddConstraint` fails only on unsatisfiable constraints. -/
theorem insertConstraint_err {ω fuel} {Φ κ α} {S : Solver} {c : Constr} (hG : Good Φ κ α S)
    {S1 row tag} (hcr : S.createRow c = (S1, row, tag))
    (hn : S1.idTick ≤ 256)
    (hn' : c.IsRequired → (∀ t : Sym, t.type = .external → row.cells t = 0) → S1.idTick + 1 ≤ 256)
    {σ : Sym → ℚ} (hσ : Φ σ) (hσe : eqnEval S1 c tag σ = 0) (hσa : Adm σ)
    {e : SolverErr} (h : S.insertConstraint ω fuel c = .error e) : e = .fuel := by
  have hC := createRow_ok hG hcr hn
  have hσr : row.eval σ = 0 := (hC.evalIff σ ((hC.good.sol σ).2 hσ)).2 hσe
  unfold insertConstraint at h
  rw [hcr] at h
  simp only at h
  cases hcs : chooseSubject ω S1.clock row tag with
  | some s => simp [hcs] at h
  | none =>
    have hn1 := hn' (subject_of_weak hC hcs) (chooseSubject_none hcs).1
    simp only [hcs] at h
    by_cases had : allDummies row = true
    · exfalso
      rw [if_pos had] at h
      have := eval_dummies hσa.2 ((allDummies_iff row).1 had)
      rw [hσr] at this
      simp [← this] at h
    · rw [if_neg had] at h
      obtain ⟨hext, _⟩ := chooseSubject_none hcs
      have hval := symbolAt_val (show S1.idTick ≤ 255 by omega) .slack
      unfold addWithArtificialVariable at h
      simp only at h
      cases ho : optimize ω artificialRow fuel (artState { S1 with clock := S1.clock + 1 } row) with
      | error e' =>
        have ho' := ho
        rw [artState_eq] at ho'
        simp only at ho'
        rw [ho'] at h
        simp only [Except.error.injEq] at h
        subst h
        have hG2 := good_artState (good_clock hC.good (S1.clock + 1)) hext hC.nonneg hC.nb hC.fresh hn1
        refine optimize_bounded (b := true) (fun S hG hb => selFacts_artificial hG hb) ?_ fuel _ e'
          hG2 rfl ho
        intro τ _ hτ
        exact hτ.1 _ (by simp)
      | ok S2 =>
        exfalso
        have ho' := ho
        rw [artState_eq] at ho'
        simp only at ho'
        rw [ho'] at h
        simp only at h
        obtain ⟨g1, g2, _, _, _, _, g7⟩ := art_optimized hC (S1.clock + 1) hext hn1 ho
        obtain ⟨hΦ, hrow, _⟩ := createOK_update hC hn1
        have htrue := finishArtificial_true (ω := ω) (art := symbolAt S1.idTick .slack) rfl hC.good
          hC.nb (fun b r hb => hC.good.fresh.cell _ b r (by omega) hb)
          (hC.good.fresh.basic _ (by omega)) g1 g2 hrow
          (fun hall => had ((allDummies_iff row).2 hall)) g7 ((hΦ σ 0).2 hσ) hσr hσa
        cases hf : finishArtificial ω (symbolAt S1.idTick .slack) S2 with
        | mk S3 ok =>
          rw [hf] at h htrue
          simp only at htrue
          subst htrue
          cases h

/-! ### Histories -/

/-- An added constraint with its marker symbols. -/
structure Entry where
  c : Constr
  tag : Tag

/-- The equations of a history. -/
def histSol (S : Solver) (H : List Entry) (σ : Sym → ℚ) : Prop :=
  ∀ e ∈ H, eqnEval S e.c e.tag σ = 0

/-- The objective of a history. -/
def histCost (H : List Entry) (σ : Sym → ℚ) : ℚ :=
  (H.map fun e => tagCost e.c.op e.c.strength e.tag σ).sum

/-- Later constraints use later symbols; `n` bounds all of them. -/
def HistOK : List Entry → Nat → Prop
  | [], _ => True
  | e :: H, n => ∃ m n', n' ≤ n ∧ TagOK e.c e.tag m n' ∧ HistOK H m

theorem HistOK.mono {H n m} (h : HistOK H n) (hnm : n ≤ m) : HistOK H m := by
  cases H with
  | nil => trivial
  | cons e H =>
    obtain ⟨a, b, h1, h2, h3⟩ := h
    exact ⟨a, b, le_trans h1 hnm, h2, h3⟩

theorem HistOK.lt {H n} (h : HistOK H n) : ∀ e ∈ H, e.tag.marker.value.val < n ∧
    ∀ o, e.tag.other = some o → o.value.val < n := by
  induction H generalizing n with
  | nil => simp
  | cons e H ih =>
    obtain ⟨a, b, h1, h2, h3⟩ := h
    intro e' he'
    rcases List.mem_cons.1 he' with rfl | he'
    · exact ⟨lt_of_lt_of_le h2.markerLt h1, fun o ho => lt_of_lt_of_le (h2.otherLt o ho) h1⟩
    · have h4 := ih h3 e' he'
      have hab : a ≤ n := le_trans (le_trans h2.markerGe h2.markerLt.le) h1
      exact ⟨lt_of_lt_of_le h4.1 hab, fun o ho => lt_of_lt_of_le (h4.2 o ho) hab⟩

/-- Every variable of the history has a symbol. -/
def HistVars (S : Solver) (H : List Entry) : Prop :=
  ∀ e ∈ H, ∀ v k, (v, k) ∈ e.c.expr.terms → k ≠ 0 → (S.varSym v).isSome

/-- The invariant of the solver between calls. -/
structure Inv (S : Solver) (H : List Entry) : Prop where
  good : Good (histSol S H) (histCost H) (fun _ => 0) S
  artificial : S.artificial = none
  hist : HistOK H S.idTick
  vars : HistVars S H
  optimal : ∀ t : Sym, t.type ≠ .dummy → 0 ≤ S.objective.cells t

theorem inv_new : Inv Solver.new [] := by
  refine ⟨⟨⟨?_, ?_, ?_, ?_, ?_, ?_, ?_, ?_, ?_⟩, ⟨?_, ?_, ?_, ?_⟩, ⟨?_, ?_, ?_⟩, ⟨rfl, ?_⟩, ?_, ?_, ?_⟩,
    rfl, trivial, ?_, ?_⟩
  all_goals first
    | (intro σ; simp [Sol, histSol, Solver.new, histCost, Row.eval_new]; done)
    | simp [Solver.new, Row.new, HistVars]

theorem termsEval_ext {S S' : Solver} (ts : List (Var × ℚ)) (σ : Sym → ℚ)
    (hv : ∀ v k, (v, k) ∈ ts → k ≠ 0 → (S.varSym v).isSome)
    (he : ∀ v s, S.varSym v = some s → S'.varSym v = some s) :
    termsEval S' σ ts = termsEval S σ ts := by
  unfold termsEval
  congr 1
  apply List.map_congr_left
  intro t ht
  obtain ⟨v, k⟩ := t
  by_cases hk : k = 0
  · simp [hk]
  · obtain ⟨s, hs⟩ := Option.isSome_iff_exists.1 (hv v k ht hk)
    simp [vsym, hs, he v s hs]

theorem addConstraint_tag {ω fuel} {S S' : Solver} {c : Constr} {H : List Entry} (hI : Inv S H)
    {S0 row tag} (hcr : S.createRow c = (S0, row, tag))
    (h : S.addConstraint ω fuel c = .ok S') (hn : S'.idTick ≤ 256) :
    (Inv S' (⟨c, tag⟩ :: H) ∧ S'.varLast = S.varLast ∧ S'.publicChanges = S.publicChanges) ∧
      S'.varSym = S0.varSym := by
  unfold addConstraint at h
  cases hi : S.insertConstraint ω fuel c with
  | error e => rw [hi] at h; cases h
  | ok S1 =>
    rw [hi] at h
    simp only at h
    have ht := optimize_tick _ _ _ h
    obtain ⟨hA, hvs⟩ := insertConstraint_tag hI.good hI.artificial hcr hi (by omega)
    obtain ⟨g1, g2, g3, g4, _, g6, g7, g8⟩ := optimize_good (b := false)
      (fun S hG _ => selFacts_objective hG) fuel S1 S' hA.good (by simp [hA.artificial]) h
    have hvars1 : HistVars S1 (⟨c, tag⟩ :: H) := by
      intro e he v k hv hk
      rcases List.mem_cons.1 he with rfl | he
      · exact hA.terms v k hv hk
      · obtain ⟨s, hs⟩ := Option.isSome_iff_exists.1 (hI.vars e he v k hv hk)
        simp [hA.varSym v s hs]
    refine ⟨⟨⟨?_, by simpa using g2, ?_, ?_, g8⟩, g6.trans hA.last, g7.trans hA.pub⟩, g4.trans hvs⟩
    · refine g1.congr ?_ ?_
      · intro σ
        simp only [histSol, List.mem_cons, forall_eq_or_imp]
        rw [eqnEval_congr g4, and_comm]
        apply and_congr_right
        intro _
        apply forall_congr'; intro e
        apply imp_congr_right; intro he
        rw [eqnEval_congr g4]
        simp only [eqnEval]
        rw [termsEval_ext _ _ (hI.vars e he) hA.varSym]
      · intro σ _
        simp only [histCost, List.map_cons, List.sum_cons]
        ring
    · refine ⟨S.idTick, S1.idTick, by omega, hA.tagOK, hI.hist⟩
    · intro e he v k hv hk
      rw [g4]; exact hvars1 e he v k hv hk

theorem addConstraint_inv {ω fuel} {S S' : Solver} {c : Constr} {H : List Entry} (hI : Inv S H)
    (h : S.addConstraint ω fuel c = .ok S') (hn : S'.idTick ≤ 256) :
    ∃ tag, Inv S' (⟨c, tag⟩ :: H) ∧ S'.varLast = S.varLast ∧ S'.publicChanges = S.publicChanges := by
  rcases hcr : S.createRow c with ⟨S1, row, tag⟩
  exact ⟨tag, (addConstraint_tag hI hcr h hn).1⟩

theorem addConstraint_tick_le {ω fuel} {S S' : Solver} {c : Constr}
    (h : S.addConstraint ω fuel c = .ok S') : S.idTick ≤ S'.idTick := by
  unfold addConstraint at h
  cases hi : S.insertConstraint ω fuel c with
  | error e => rw [hi] at h; cases h
  | ok S1 =>
    rw [hi] at h
    simp only at h
    have ht := optimize_tick _ _ _ h
    rw [ht]
    clear h ht
    unfold insertConstraint at hi
    have hcr : S.idTick ≤ (S.createRow c).1.idTick := by
      unfold createRow
      simp only
      exact le_trans (addTerms_tick _ _ _) (createRow_tick_aux _ _ _)
    generalize S.createRow c = p at hi hcr
    obtain ⟨S2, row, tag⟩ := p
    simp only at hi hcr
    split at hi
    · simp only [Except.ok.injEq] at hi; rw [← hi]; simpa using hcr
    · split_ifs at hi
      · simp only [Except.ok.injEq] at hi; rw [← hi]; simpa using hcr
      · unfold addWithArtificialVariable at hi
        simp only at hi
        split at hi
        · cases hi
        · rename_i S3 heq
          simp only [Except.ok.injEq] at hi
          subst hi
          split at heq
          · cases heq
          · rename_i S4 ho
            simp only [Except.ok.injEq] at heq
            have h1 := finishArtificial_tick (ω := ω)
              (art := symbolAt S2.idTick .slack) (S := S4)
            rw [heq] at h1
            have h2 := optimize_tick _ _ _ ho
            simp only at h1 h2
            omega
        · cases hi

theorem addConstraints_inv {ω fuel} (cs : List Constr) : ∀ {S S' : Solver} {H : List Entry},
    Inv S H → S.addConstraints ω fuel cs = .ok S' → S'.idTick ≤ 256 →
    ∃ H', Inv S' H' ∧ H'.map Entry.c = cs.reverse ++ H.map Entry.c ∧ S'.varLast = S.varLast ∧
      S'.publicChanges = S.publicChanges := by
  induction cs with
  | nil =>
    intro S S' H hI h _
    simp only [addConstraints, Except.ok.injEq] at h
    subst h
    exact ⟨H, hI, by simp, rfl, rfl⟩
  | cons c cs ih =>
    intro S S' H hI h hn
    unfold addConstraints at h
    cases hc : S.addConstraint ω fuel c with
    | error e => rw [hc] at h; cases h
    | ok S1 =>
      rw [hc] at h
      simp only at h
      have hmono : ∀ (cs : List Constr) {A B : Solver}, A.addConstraints ω fuel cs = .ok B →
          A.idTick ≤ B.idTick := by
        intro cs
        induction cs with
        | nil => intro A B h; simp only [addConstraints, Except.ok.injEq] at h; rw [h]
        | cons c cs ih =>
          intro A B h
          unfold addConstraints at h
          cases hc : A.addConstraint ω fuel c with
          | error e => rw [hc] at h; cases h
          | ok A1 =>
            rw [hc] at h
            exact le_trans (addConstraint_tick_le hc) (ih h)
      have := hmono cs h
      obtain ⟨tag, hI1, hl, hp⟩ := addConstraint_inv hI hc (by omega)
      obtain ⟨H', hI', hm, hl', hp'⟩ := ih hI1 h hn
      exact ⟨H', hI', by rw [hm]; simp, hl'.trans hl, hp'.trans hp⟩

end Bento.Casso
