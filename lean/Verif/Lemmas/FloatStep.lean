import Verif.Lemmas.FloatAdd

/-!
# Rounding has no effect on adding a constraint: the step
-/

namespace Bento.Casso

/-- The coefficients of a constraint's own symbols. -/
def tagCoef (op : RelOp) (tag : Tag) (s : Sym) : ℤ :=
  match op, tag.other with
  | .le, none => if s = tag.marker then 1 else 0
  | .le, some o => (if s = tag.marker then 1 else 0) - if s = o then 1 else 0
  | .ge, none => -if s = tag.marker then 1 else 0
  | .ge, some o => (if s = o then 1 else 0) - if s = tag.marker then 1 else 0
  | .eq, none => if s = tag.marker then 1 else 0
  | .eq, some o => (if s = o then 1 else 0) - if s = tag.marker then 1 else 0

/-- What a constraint adds to the costs of its own symbols. -/
def tagWeight (op : RelOp) (w : ℤ) (tag : Tag) (s : Sym) : ℤ :=
  match op, tag.other with
  | _, none => 0
  | .eq, some o => (if s = tag.marker then w else 0) + if s = o then w else 0
  | _, some o => if s = o then w else 0

theorem sum_ite_sym (a : Sym) (k : ℚ) (σ : Sym → ℚ) : ∑ s, (if s = a then k else 0) * σ s = k * σ a := by
  simp

theorem sum_tagCoef (op : RelOp) (tag : Tag) (σ : Sym → ℚ) :
    ∑ s, (tagCoef op tag s : ℚ) * σ s = tagEval op tag σ := by
  have h1 : ∀ a : Sym, ∑ s, (if s = a then (1 : ℚ) else 0) * σ s = σ a := by
    intro a; rw [sum_ite_sym, one_mul]
  unfold tagCoef tagEval
  cases op <;> cases tag.other <;> push_cast <;>
    simp only [sub_mul, neg_mul, Finset.sum_sub_distrib, Finset.sum_neg_distrib, h1]
  all_goals ring

theorem sum_tagWeight (op : RelOp) (w : ℤ) (tag : Tag) (σ : Sym → ℚ) :
    ∑ s, (tagWeight op w tag s : ℚ) * σ s = tagCost op w tag σ := by
  have h1 : ∀ a : Sym, ∑ s, (if s = a then (w : ℚ) else 0) * σ s = w * σ a := by
    intro a; rw [sum_ite_sym]
  unfold tagWeight tagCost
  cases op <;> cases tag.other <;> push_cast <;>
    simp only [add_mul, zero_mul, Finset.sum_add_distrib, Finset.sum_const_zero, h1]

theorem tagCoef_zero {op : RelOp} {tag : Tag} {s : Sym} (hm : s ≠ tag.marker)
    (ho : ∀ o, tag.other = some o → s ≠ o) : tagCoef op tag s = 0 := by
  unfold tagCoef
  cases op <;> cases h : tag.other <;> simp [hm] <;> exact ho _ h

theorem tagCoef_le {op : RelOp} {tag : Tag} (hne : ∀ o, tag.other = some o → tag.marker ≠ o) (s : Sym) :
    |tagCoef op tag s| ≤ 1 := by
  unfold tagCoef
  cases op <;> cases h : tag.other <;> simp only
  all_goals
    by_cases hm : s = tag.marker
    · first
        | (have := hne _ h; subst hm; simp [this])
        | (subst hm; simp)
    · simp only [hm, if_false]
      first
        | (split_ifs <;> simp)
        | simp

/-- An equation with the own symbols of a constraint. -/
def IEqn.withTag (e : IEqn) (op : RelOp) (tag : Tag) : IEqn :=
  { e with coef := fun s => e.coef s + tagCoef op tag s }

theorem IEqn.eval_withTag (e : IEqn) (op : RelOp) (tag : Tag) (σ : Sym → ℚ) :
    (e.withTag op tag).eval σ = e.eval σ + tagEval op tag σ := by
  unfold IEqn.eval IEqn.lin IEqn.withTag
  simp only
  push_cast
  simp only [add_mul, Finset.sum_add_distrib, sum_tagCoef]
  ring

/-- An equation with one more symbol. -/
def IEqn.withSym (e : IEqn) (a : Sym) (k : ℤ) : IEqn :=
  { e with coef := fun s => e.coef s + if s = a then k else 0 }

theorem IEqn.eval_withSym (e : IEqn) (a : Sym) (k : ℤ) (σ : Sym → ℚ) :
    (e.withSym a k).eval σ = e.eval σ + k * σ a := by
  unfold IEqn.eval IEqn.lin IEqn.withSym
  simp only
  push_cast
  simp only [add_mul, Finset.sum_add_distrib, sum_ite_sym]
  ring

theorem Sys.tail {e : IEqn} {E K D} (h : Sys (e :: E) K D) : Sys E K D := by
  have hc : ∀ s, colSum (e :: E) s = |e.coef s| + colSum E s := fun s => by simp [colSum]
  have hk : constSum (e :: E) = |e.const| + constSum E := by simp [constSum]
  refine ⟨fun e he => h.posExt e (List.mem_cons_of_mem _ he),
    fun e he => h.negExt e (List.mem_cons_of_mem _ he),
    fun e he => h.coefExt e (List.mem_cons_of_mem _ he), ?_, ?_, ?_⟩
  · intro s hs
    have := h.own s hs
    have := abs_nonneg (e.coef s)
    rw [hc] at *; omega
  · intro s
    have := h.col s
    have := abs_nonneg (e.coef s)
    rw [hc] at *; omega
  · have := h.const
    have := abs_nonneg e.const
    rw [hk] at *; omega

theorem Sys.withSym {e : IEqn} {E K D} (h : Sys (e :: E) K D) {a : Sym} (ha : a.type = .slack)
    (hz : ∀ e' ∈ e :: E, e'.coef a = 0) {k : ℤ} (hk : k = 1 ∨ k = -1) (hK : 2 ≤ K) :
    Sys (e.withSym a k :: E) K D := by
  have hk1 : |k| = 1 := by rcases hk with rfl | rfl <;> simp
  have hc : ∀ s, colSum (e :: E) s = |e.coef s| + colSum E s := fun s => by simp [colSum]
  have hc' : ∀ s, colSum (e.withSym a k :: E) s
      = |e.coef s + if s = a then k else 0| + colSum E s := fun s => by simp [colSum, IEqn.withSym]
  have hca : colSum E a = 0 := by
    unfold colSum
    apply List.sum_eq_zero
    intro x hx
    rw [List.mem_map] at hx
    obtain ⟨e', he', rfl⟩ := hx
    rw [hz e' (List.mem_cons_of_mem _ he')]; rfl
  have hea := hz e List.mem_cons_self
  have hna : ∀ s, s ≠ a → colSum (e.withSym a k :: E) s = colSum (e :: E) s := by
    intro s hs; rw [hc, hc']; simp [hs]
  have hatA : colSum (e.withSym a k :: E) a = 1 := by
    rw [hc', hca, hea]; simp [hk1]
  refine ⟨?_, ?_, ?_, ?_, ?_, ?_⟩
  · intro e' he' s hs
    rcases List.mem_cons.1 he' with rfl | he'
    · exact h.posExt e List.mem_cons_self s hs
    · exact h.posExt e' (List.mem_cons_of_mem _ he') s hs
  · intro e' he' s hs
    rcases List.mem_cons.1 he' with rfl | he'
    · exact h.negExt e List.mem_cons_self s hs
    · exact h.negExt e' (List.mem_cons_of_mem _ he') s hs
  · intro e' he' s hs
    rcases List.mem_cons.1 he' with rfl | he'
    · have h1 := h.coefExt e List.mem_cons_self s hs
      have : s ≠ a := by rintro rfl; rw [ha] at hs; cases hs
      simp [IEqn.withSym, h1, this]
    · exact h.coefExt e' (List.mem_cons_of_mem _ he') s hs
  · intro s hs
    by_cases hsa : s = a
    · rw [hsa, hatA]
    · rw [hna s hsa]; exact h.own s hs
  · intro s
    by_cases hsa : s = a
    · rw [hsa, hatA]; omega
    · rw [hna s hsa]; exact h.col s
  · have := h.const
    simpa [constSum, IEqn.withSym] using this

end Bento.Casso

namespace Bento.Casso.Fl
open Solver

section
variable {rnd : ℚ → ℚ} {B : ℤ}

theorem createRow_sign {Φ κ α} {S : Solver} (hG : Good Φ κ α S) {c : Constr}
    {S' row tag} (h : S.createRow c = (S', row, tag)) (hn : S'.idTick ≤ 256) :
    ∃ ε : ℤ, (ε = 1 ∨ ε = -1) ∧ ∀ σ, Sol S' σ → row.eval σ = ε * eqnEval S' c tag σ := by
  unfold Solver.createRow at h
  have hT := addTerms_ok (Φ := Φ) (κ := κ) (α := α) c.expr.terms S (Row.new c.expr.constant) hG
  generalize hp : S.addTerms (Row.new c.expr.constant) c.expr.terms = p at h hT
  obtain ⟨S1, row1⟩ := p
  simp only at h hT
  generalize hq : S1.addMarkers row1 c = q at h
  obtain ⟨S2, row2, tag2⟩ := q
  simp only [Prod.mk.injEq] at h
  obtain ⟨rfl, hrow, rfl⟩ := h
  have ht := createRow_tick_aux S1 row1 c
  rw [hq] at ht
  simp only at ht
  obtain ⟨hG1, hE, hterms, heval, hnb, hfr⟩ := hT (by omega) (by simp [Row.new]) (by simp [Row.new])
  have hM := addMarkers_ok hG1 (by rw [hE.rows]; exact hnb) hfr hq hn
  have hvs : ∀ v, vsym S2 v = vsym S1 v := by intro v; simp [vsym, hM.varSym]
  have hte : ∀ σ, termsEval S2 σ c.expr.terms = termsEval S1 σ c.expr.terms := by
    intro σ; simp [termsEval, hvs]
  have h2 : ∀ σ, Sol S2 σ → row2.eval σ = eqnEval S2 c tag2 σ := by
    intro σ hσ
    have hσ0 : Sol S σ := by
      intro b r hb; exact hσ b r (by rw [hM.rows, hE.rows]; exact hb)
    rw [hM.eval, heval σ hσ0, Row.eval_new, eqnEval, hte]
  by_cases hc : row2.constant < 0
  · rw [if_pos hc] at hrow
    refine ⟨-1, Or.inr rfl, fun σ hσ => ?_⟩
    rw [← hrow, Row.eval_reverseSign, h2 σ hσ]; push_cast; ring
  · rw [if_neg hc] at hrow
    refine ⟨1, Or.inl rfl, fun σ hσ => ?_⟩
    rw [← hrow, h2 σ hσ]; push_cast; ring

/-- `createRow` is not affected by rounding. -/
theorem createRow_eq (hR : Exact rnd B) (hB : 1 ≤ B) {Φ κ α} {S : Solver} (hG : Good Φ κ α S)
    {K D C : ℤ} (hK : 1 ≤ K) (hD : 0 ≤ D) (hC0 : 0 ≤ C) {c : Constr}
    (hS : ∀ b r, S.rows b = some r → (∀ t, IntLe K (r.cells t)) ∧ IntLe D r.constant)
    (hu : ∀ t ∈ c.expr.terms, t.2 = 1 ∨ t.2 = -1) (hc : IntLe C c.expr.constant)
    (hlen : c.expr.terms.length * K ≤ B) (hlen' : C + c.expr.terms.length * D ≤ B)
    (hw : IntLe B c.strength)
    {S' row tag} (h : S.createRow c = (S', row, tag)) (hn : S'.idTick ≤ 256) (k : ℚ) :
    createRow rnd (setCost S k) c = (setCost S' k, row, tag) ∧
    (row.cells tag.marker = 1 ∨ row.cells tag.marker = -1) ∧
    (∀ t, IntLe B (row.cells t)) ∧ IntLe B row.constant := by
  unfold createRow
  unfold Solver.createRow at h
  have hT := addTerms_ok (Φ := Φ) (κ := κ) (α := α) c.expr.terms S (Row.new c.expr.constant) hG
  obtain ⟨e1, e2, e3⟩ := addTerms_eq hR hK hD c.expr.terms S (Row.new c.expr.constant) k 0 C hu hS
    (fun t => by simpa [Row.new] using IntLe.zero (le_refl _)) hc (le_refl _) hC0 (by omega) hlen'
  rw [e1]
  generalize hp : S.addTerms (Row.new c.expr.constant) c.expr.terms = p at h hT e2 e3 ⊢
  obtain ⟨S1, row1⟩ := p
  simp only at h hT e2 e3 ⊢
  have ht := createRow_tick_aux S1 row1 c
  have hmk := addMarkers_eq (rnd := rnd) hR hB (S := S1) (row := row1) (c := c) k
  have hconst : (S1.addMarkers row1 c).2.1.constant = row1.constant := by
    unfold Solver.addMarkers
    cases c.op <;> simp only <;> split_ifs <;> rfl
  generalize hq : S1.addMarkers row1 c = q at h ht hmk hconst
  obtain ⟨S2, row2, tag2⟩ := q
  simp only [Prod.mk.injEq] at h
  obtain ⟨rfl, hrow, rfl⟩ := h
  simp only at ht hconst
  obtain ⟨hG1, hE, hterms, heval, hnb, hfr⟩ := hT (by omega) (by simp [Row.new]) (by simp [Row.new])
  obtain ⟨f1, f2, f3⟩ := hmk hfr (fun t ht => hG1.fresh.obj t ht) hw hn
  rw [f1]
  simp only at f2 f3 ⊢
  have hb : ∀ t, IntLe B (row2.cells t) := f3 B hB (fun t => (e2 t).mono (by omega))
  have hb' : IntLe B row2.constant := by rw [hconst]; exact e3.mono hlen'
  refine ⟨by rw [hrow], ?_, ?_, ?_⟩
  · rw [← hrow]
    split_ifs
    · simp only [Row.reverseSign]
      rcases f2 with h | h <;> rw [h] <;> simp
    · exact f2
  · intro t
    rw [← hrow]
    split_ifs
    · simp only [Row.reverseSign]; exact (hb t).neg
    · exact hb t
  · rw [← hrow]
    split_ifs
    · simp only [Row.reverseSign]; exact hb'.neg
    · exact hb'

theorem setCost_drop (S : Solver) (k : ℚ) (l : Sym) (n : Nat) :
    dropRow (setCost S k) l n = setCost (dropRow S l n) k := rfl

theorem whole_drop {K D W : ℤ} {S : Solver} (h : Whole K D W S) (l : Sym) (n : Nat) :
    Whole K D W (dropRow S l n) :=
  ⟨fun b r t hb => h.cell b r t (dropRow_some hb).2, fun b r t hb => h.one b r t (dropRow_some hb).2,
   fun b r hb => h.const b r (dropRow_some hb).2, h.obj, h.artCell, h.artConst⟩

theorem whole_noArt {K D W : ℤ} {S : Solver} (h : Whole K D W S) :
    Whole K D W { S with artificial := none } :=
  ⟨h.cell, h.one, h.const, h.obj, fun a t ha => (by cases ha), fun a ha => (by cases ha)⟩

theorem whole_clock {K D W : ℤ} {S : Solver} (h : Whole K D W S) (n : Nat) :
    Whole K D W { S with clock := n } :=
  ⟨h.cell, h.one, h.const, h.obj, h.artCell, h.artConst⟩

theorem noDum_removeSymbol {S : Solver} {a} (h : NoDum S) : NoDum (S.removeSymbol a) := by
  intro b hb
  apply h b
  intro h0
  apply hb
  simp [removeSymbol, h0]

theorem IntLe.unit {q : ℚ} (h : IntLe 1 q) (hq : q ≠ 0) : q = 1 ∨ q = -1 := by
  obtain ⟨n, rfl, hn⟩ := h
  have h0 : n ≠ 0 := by rintro rfl; simp at hq
  have := _root_.abs_le.1 hn
  have : n = 1 ∨ n = -1 := by omega
  rcases this with rfl | rfl
  · left; norm_num
  · right; norm_num

/-- `finishArtificial` is not affected by rounding. -/
theorem finishArtificial_near (hR : Exact rnd B) {K D W : ℤ} (hM : Room B K D W) {S : Solver}
    (hW : Whole K D W S) (hT : Tab S) (hnd : NoDum S) (ω : Nat → Nat) {art : Sym} (k : ℚ)
    (hsome : S.artificial.isSome = true) :
    ∃ k', finishArtificial rnd ω art (setCost S k)
      = (setCost (Solver.finishArtificial ω art S).1 k', (Solver.finishArtificial ω art S).2) ∧
      NoDum (Solver.finishArtificial ω art S).1 := by
  obtain ⟨a, ha⟩ := Option.isSome_iff_exists.1 hsome
  have hra : S.artificialRow = a := by simp [artificialRow, ha]
  have hra' : (setCost S k).artificialRow = a := hra
  have hsucc : nearZero a.constant = decide (a.constant = 0) := nearZero_of (hW.artConst a ha)
  unfold finishArtificial Solver.finishArtificial
  simp only [hra, hra', hsucc]
  have hrows : (setCost S k).rows art = S.rows art := rfl
  rw [hrows]
  cases hr : S.rows art with
  | none => exact ⟨k, rfl, noDum_removeSymbol hnd⟩
  | some r =>
    simp only
    by_cases hno : r.noCells = true
    · simp only [hno, if_true]
      refine ⟨k, rfl, ?_⟩
      intro b hb
      apply hnd b
      intro h0
      apply hb
      simp [h0]
    · simp only [hno, Bool.false_eq_true, if_false]
      have hclk : (setCost S k).clock = S.clock := rfl
      rw [hclk]
      cases hp : anyPivotableSymbol ω S.clock r with
      | none =>
        refine ⟨k, rfl, ?_⟩
        intro b hb
        apply hnd b
        intro h0
        apply hb
        simp [h0]
      | some e =>
        simp only
        obtain ⟨hety, hce⟩ := pivotable_some hp
        have hed : e.type ≠ .dummy := by rcases hety with h | h <;> simp [h]
        have hee : e.type ≠ .external := by rcases hety with h | h <;> simp [h]
        have hu := IntLe.unit (hW.one art r e hr hed hee) hce
        have hart0 : r.cells art = 0 := hT.nb art r art r hr hr
        have hae : art ≠ e := by rintro rfl; exact hce hart0
        have hsolve : solveForSymbols rnd r art e = r.solveForSymbols art e :=
          solveForSymbols_eq hR hM.one hae hart0 hu (fun t => (hW.cell art r t hr).mono hM.leK)
            ((hW.const art r hr).mono hM.leD)
        have hinv : (1 : ℚ) / r.cells e = 1 ∨ (1 : ℚ) / r.cells e = -1 := by
          rcases hu with h | h <;> rw [h] <;> simp
        have hK1 := hM.k1
        have hinv' : ((-1 : ℚ) / r.cells e = 1 ∨ (-1 : ℚ) / r.cells e = -1) := by
          rcases hu with h | h <;> rw [h] <;> simp
        have hcell : ∀ t, IntLe K ((r.solveForSymbols art e).cells t) := by
          intro t
          simp only [Row.solveForSymbols, Row.solveForSymbol, Row.insertSymbol]
          rw [if_neg (Ne.symm hae)]
          split_ifs
          · exact IntLe.zero (by omega)
          · rw [hart0, zero_add]
            simpa using ((unit_le (Or.inr rfl : (-1 : ℚ) = 1 ∨ (-1 : ℚ) = -1)).mul
              (unit_le hinv')).mono (by omega : (1 * 1 : ℤ) ≤ K)
          · simpa using (hW.cell art r t hr).mul (unit_le hinv')
        have hconst : IntLe D (r.solveForSymbols art e).constant := by
          simp only [Row.solveForSymbols, Row.solveForSymbol, Row.insertSymbol]
          rw [if_neg (Ne.symm hae)]
          simpa using (hW.const art r hr).mul (unit_le hinv')
        obtain ⟨k', hk'⟩ := pivotIn_eq hR hM (whole_drop (whole_noArt hW) art (S.clock + 1)) hcell hconst k
          (s := e)
        refine ⟨k', ?_, ?_⟩
        · rw [hsolve]
          have e1 : pivotIn rnd
              { { { setCost S k with artificial := none } with
                  rows := fun b => if b = art then none else (setCost S k).rows b } with
                  clock := S.clock + 1 } e (r.solveForSymbols art e)
              = setCost ((dropRow { S with artificial := none } art (S.clock + 1)).pivotIn e
                (r.solveForSymbols art e)) k' := hk'
          have e2 := congrArg (fun T => (Solver.removeSymbol T art, decide (a.constant = 0))) e1
          exact e2
        · apply noDum_removeSymbol
          apply noDum_pivotIn _ hed
          intro b hb
          apply hnd b
          intro h0
          apply hb
          simp [h0]

end

end Bento.Casso.Fl
