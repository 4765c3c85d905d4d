import Verif.Lemmas.FloatRun
import Verif.Lemmas.CassoComplete

/-!
# Rounding has no effect on runs of difference constraints
-/

namespace Bento.Casso.Fl
open Solver

theorem sum_tagWeight_le (op : RelOp) (n : ℤ) (tag : Tag) : ∑ s, |tagWeight op n tag s| ≤ 2 * |n| := by
  have h1 : ∀ a : Sym, ∑ s, |if s = a then n else 0| = |n| := by
    intro a
    have : ∀ s : Sym, |if s = a then n else 0| = if s = a then |n| else 0 := by
      intro s; split_ifs <;> simp
    simp [this]
  have h0 := abs_nonneg n
  unfold tagWeight
  cases op <;> cases tag.other <;> simp only [abs_zero, Finset.sum_const_zero, h1] <;> try linarith
  rename_i o
  calc ∑ s, |(if s = tag.marker then n else 0) + if s = o then n else 0|
      ≤ ∑ s, (|if s = tag.marker then n else 0| + |if s = o then n else 0|) :=
        Finset.sum_le_sum fun s _ => abs_add_le _ _
    _ = 2 * |n| := by rw [Finset.sum_add_distrib, h1, h1]; ring

/-- A run of difference constraints: `i` constraints so far, `f` of them about the size of the area,
each with a constant of at most `M` and a strength of at most `R`. -/
structure Run (M R i f : ℤ) (S : Solver) (H : List Entry) (E : List IEqn) (w : Sym → ℤ) : Prop where
  kept : Kept S H E w
  posExt : ∀ e ∈ E, ∀ s, e.pos = some s → s.type = .external
  negExt : ∀ e ∈ E, ∀ s, e.neg = some s → s.type = .external
  coefExt : ∀ e ∈ E, ∀ s : Sym, s.type = .external → e.coef s = 0
  own : ∀ s : Sym, s.type ≠ .dummy → colSum E s ≤ 1
  dum : ∀ s : Sym, colSum E s ≤ 1 + f
  const : constSum E ≤ i * M
  weight : ∑ s, |w s| ≤ i * (2 * R)
  hundred : ∀ e ∈ E, (100 : ℤ) ∣ e.const

/-- The equation of the next constraint. -/
structure NextEqn (M g : ℤ) (S : Solver) (H : List Entry) (c : Constr) (S1 : Solver) (e0 : IEqn) : Prop where
  eqn : ∀ σ, histSol S H σ → c.expr.constant + termsEval S1 σ c.expr.terms = e0.eval σ
  posExt : ∀ s, e0.pos = some s → s.type = .external
  negExt : ∀ s, e0.neg = some s → s.type = .external
  coef : ∀ s : Sym, s.type ≠ .dummy → e0.coef s = 0
  coefLe : ∀ s : Sym, |e0.coef s| ≤ g
  fresh : ∀ s : Sym, S.idTick ≤ s.value.val → e0.coef s = 0
  const : |e0.const| ≤ M
  hundred : (100 : ℤ) ∣ e0.const

theorem colSum_cons (e : IEqn) (E : List IEqn) (s : Sym) : colSum (e :: E) s = |e.coef s| + colSum E s := by
  simp [colSum]

theorem constSum_cons (e : IEqn) (E : List IEqn) : constSum (e :: E) = |e.const| + constSum E := by
  simp [constSum]

theorem colSum_fresh {E : List IEqn} {s : Sym} (h : ∀ e ∈ E, e.coef s = 0) : colSum E s = 0 := by
  induction E with
  | nil => rfl
  | cons e E ih =>
    rw [colSum_cons, h e List.mem_cons_self, ih fun e he => h e (List.mem_cons_of_mem _ he)]
    rfl

section
variable {rnd : ℚ → ℚ} {B K D W M R i f g : ℤ} {S S1 : Solver} {H : List Entry} {E : List IEqn}
  {w : Sym → ℤ} {c : Constr} {row : Row} {tag : Tag} {e0 : IEqn} {n : ℤ}

theorem addConstraint_pot {m ω fuel} {Φ κ α} {S S' : Solver} {seen : List Var} {c : Constr}
    (hG : Good Φ κ α S) (hs : ∀ v ∉ seen, S.varSym v = none)
    (hv : ∀ v k, (v, k) ∈ c.expr.terms → v < m) (hn : pot m S + need seen c ≤ 256)
    (h : S.addConstraint ω fuel c = .ok S') : pot m S' ≤ pot m S + need seen c := by
  unfold Solver.addConstraint at h
  cases hi : S.insertConstraint ω fuel c with
  | error e => rw [hi] at h; cases h
  | ok S1 =>
    rw [hi] at h
    exact le_trans (pot_congr (k := 0) (optimize_varSym _ _ _ h) (by rw [optimize_tick _ _ _ h]; rfl))
      (insertConstraint_pot hG hs hv hn hi)

theorem next_own (hRun : Run M R i f S H E w) (hT : TagOK c tag S.idTick S1.idTick)
    (hE : NextEqn M g S H c S1 e0) (s : Sym) (hs : s.type ≠ .dummy) :
    colSum (e0.withTag c.op tag :: E) s ≤ 1 := by
  rw [colSum_cons]
  simp only [IEqn.withTag, hE.coef s hs, zero_add]
  by_cases hlt : s.value.val < S.idTick
  · rw [tagCoef_zero (by rintro rfl; have := hT.markerGe; omega)
      (by rintro o ho rfl; have := hT.otherGe _ ho; omega)]
    have := hRun.own s hs
    simpa using this
  · rw [colSum_fresh fun e he => hRun.kept.fresh e he s (by omega)]
    have := tagCoef_le (op := c.op) hT.ne s
    linarith

theorem next_dum (hRun : Run M R i f S H E w) (hf : 0 ≤ f) (hg : 0 ≤ g) (hT : TagOK c tag S.idTick S1.idTick)
    (hE : NextEqn M g S H c S1 e0) (s : Sym) :
    colSum (e0.withTag c.op tag :: E) s ≤ 1 + (f + g) := by
  rw [colSum_cons]
  simp only [IEqn.withTag]
  by_cases hlt : s.value.val < S.idTick
  · rw [tagCoef_zero (by rintro rfl; have := hT.markerGe; omega)
      (by rintro o ho rfl; have := hT.otherGe _ ho; omega)]
    have := hRun.dum s
    have := hE.coefLe s
    rw [add_zero]
    linarith
  · rw [colSum_fresh fun e he => hRun.kept.fresh e he s (by omega), hE.fresh s (by omega), zero_add]
    have := tagCoef_le (op := c.op) hT.ne s
    linarith

theorem next_coefExt (hRun : Run M R i f S H E w) (hT : TagOK c tag S.idTick S1.idTick)
    (hE : NextEqn M g S H c S1 e0) : ∀ e ∈ e0.withTag c.op tag :: E, ∀ s : Sym, s.type = .external →
      e.coef s = 0 := by
  intro e he s hs
  rcases List.mem_cons.1 he with rfl | he
  · simp only [IEqn.withTag]
    rw [hE.coef s (by rw [hs]; simp), zero_add]
    refine tagCoef_zero ?_ ?_
    · rintro rfl; exact hT.notExt hs
    · rintro o ho rfl; rw [hT.otherType _ ho] at hs; cases hs
  · exact hRun.coefExt e he s hs

/-- One more constraint. -/
theorem step_near {m : Nat} {seen : List Var} (hR : Exact rnd B) (hM : Room B K D W)
    (hRun : Run M R i f S H E w) (hf : 0 ≤ f) (hg : 0 ≤ g) (hK : 2 + (f + g) ≤ K)
    (hD : (i + 1) * M ≤ D) (hW : (i + 1) * (2 * R) * K ≤ W)
    (hcr : S.createRow c = (S1, row, tag))
    (hs : ∀ v ∉ seen, S.varSym v = none) (hv : ∀ v k, (v, k) ∈ c.expr.terms → v < m)
    (hn : pot m S + need seen c ≤ 256)
    (unit : ∀ t ∈ c.expr.terms, t.2 = 1 ∨ t.2 = -1) (strength : c.strength = n)
    (hnR : |n| ≤ R) (hRB : R ≤ B) (lenK : c.expr.terms.length * K ≤ B)
    (const : ∃ C : ℤ, IntLe C c.expr.constant ∧ 0 ≤ C ∧ C + c.expr.terms.length * D ≤ B)
    (hE : NextEqn M g S H c S1 e0)
    (hintro : c.op = .eq → c.IsRequired → c.Introduces seen)
    (ω : Nat → Nat) (fuel : Nat) (k : ℚ) :
    Near (addConstraint rnd ω fuel (setCost S k) c) (S.addConstraint ω fuel c) ∧
    ∀ S', S.addConstraint ω fuel c = .ok S' →
      Run M R (i + 1) (f + g) S' (⟨c, tag⟩ :: H) (e0.withTag c.op tag :: E)
        (fun s => w s + tagWeight c.op n tag s) ∧
      S'.varSym = S1.varSym ∧ pot m S' ≤ pot m S + need seen c ∧
      TagOK c tag S.idTick S'.idTick := by
  have hG := hRun.kept.inv.good
  obtain ⟨ht1, ht2⟩ := createRow_room hG hs hv hn hcr
  have hC := createRow_ok hG hcr ht1
  have hcs : constSum (e0.withTag c.op tag :: E) ≤ (i + 1) * M := by
    rw [constSum_cons]
    have h1 := hRun.const
    have h2 := hE.const
    have h3 : (e0.withTag c.op tag).const = e0.const := rfl
    rw [h3]; linarith
  have hws : ∑ s, |w s + tagWeight c.op n tag s| ≤ (i + 1) * (2 * R) := by
    calc ∑ s, |w s + tagWeight c.op n tag s| ≤ ∑ s, (|w s| + |tagWeight c.op n tag s|) :=
          Finset.sum_le_sum fun s _ => abs_add_le _ _
      _ = ∑ s, |w s| + ∑ s, |tagWeight c.op n tag s| := Finset.sum_add_distrib
      _ ≤ i * (2 * R) + 2 * R := by
          have h1 := hRun.weight
          have h2 := sum_tagWeight_le c.op n tag
          linarith
      _ = (i + 1) * (2 * R) := by ring
  have posExt : ∀ e ∈ e0.withTag c.op tag :: E, ∀ s, e.pos = some s → s.type = .external := by
    intro e he s hes
    rcases List.mem_cons.1 he with rfl | he
    · exact hE.posExt s hes
    · exact hRun.posExt e he s hes
  have negExt : ∀ e ∈ e0.withTag c.op tag :: E, ∀ s, e.neg = some s → s.type = .external := by
    intro e he s hes
    rcases List.mem_cons.1 he with rfl | he
    · exact hE.negExt s hes
    · exact hRun.negExt e he s hes
  have coefExt := next_coefExt hRun hC.tagOK hE
  have own := next_own hRun hC.tagOK hE
  have dum := next_dum hRun hf hg hC.tagOK hE
  have hN : NextOK B K D W S H E w c S1 row tag e0 n :=
    { tick := ht1
      tick' := ht2
      unit := unit
      strength := strength
      strengthLe := le_trans hnR hRB
      lenK := lenK
      const := const
      eqn := hE.eqn
      fresh := hE.fresh
      sys := ⟨posExt, negExt, coefExt, own, fun s => by have := dum s; linarith, le_trans hcs hD⟩
      two := by linarith
      weight := le_trans (mul_le_mul_of_nonneg_right hws (by have := hM.k1; linarith)) hW
      ext := fun h1 h2 => createRow_introduces hG hs (hintro h1 h2) hcr ht1 }
  have hpot := fun S' (h : S.addConstraint ω fuel c = .ok S') => addConstraint_pot hG hs hv hn h
  obtain ⟨hnear, hkept⟩ := addConstraint_near hR hM hRun.kept hcr hN ω fuel k
    (fun S' h => le_trans (idTick_le_pot m S') (le_trans (hpot S' h) hn))
    (fun S' h => le_trans (idTick_le_pot m S') (le_trans (insertConstraint_pot hG hs hv hn h) hn))
  refine ⟨hnear, ?_⟩
  intro S' h
  obtain ⟨h1, h2⟩ := hkept S' h
  refine ⟨⟨h1, posExt, negExt, coefExt, own, dum, hcs, hws, ?_⟩, h2, hpot S' h, ?_⟩
  · intro e he
    rcases List.mem_cons.1 he with rfl | he
    · exact hE.hundred
    · exact hRun.hundred e he
  · obtain ⟨a, b, hb, hT, -⟩ := h1.inv.hist
    have hT' := hC.tagOK
    exact ⟨hT'.markerGe, lt_of_lt_of_le hT.markerLt hb, hT'.otherGe,
      fun o ho => lt_of_lt_of_le (hT.otherLt o ho) hb, hT'.ne, hT'.otherIff, hT'.otherType, hT'.markerType⟩

end

theorem run_new (M R : ℤ) : Run M R 0 0 Solver.new [] [] (fun _ => 0) := by
  refine ⟨⟨inv_new, ?_, ?_, ?_, ?_⟩, ?_, ?_, ?_, ?_, ?_, ?_, ?_, ?_⟩
  · intro s hs; exact absurd rfl hs
  · intro σ; simp [histSol]
  · intro e he; cases he
  · intro σ; simp [histCost]
  · intro e he; cases he
  · intro e he; cases he
  · intro e he; cases he
  · intro s _; simp [colSum]
  · intro s; simp [colSum]
  · simp [constSum]
  · simp
  · intro e he; cases he

/-- A variable that is fixed at `a`, up to the dummy symbol `d`. -/
structure Anchored (S : Solver) (E : List IEqn) (v : Var) (a : ℤ) (d : Sym) : Prop where
  sym : ∃ s, S.varSym v = some s ∧ ∀ σ : Sym → ℚ, (∀ e ∈ E, e.eval σ = 0) → σ s = a - σ d
  dummy : d.type = .dummy
  old : d.value.val < S.idTick

/-- A constraint between two variables, or between two variables and the size of the area. -/
structure Plain (L : Var) (M R : ℤ) (c : Constr) : Prop where
  shape : (∃ u v, c.expr.terms = [(u, 1), (v, -1)]) ∨
    ∃ u v, c.expr.terms = [(u, 1), (v, -1), (L, -1), (0, 1)]
  weak : c.op = .eq → ¬ c.IsRequired
  const : ∃ z : ℤ, c.expr.constant = ((100 * z : ℤ) : ℚ) ∧ |100 * z| ≤ M
  strength : ∃ n : ℤ, c.strength = n ∧ |n| ≤ R

/-- Whether a constraint mentions the size of the area. -/
def usesArea (c : Constr) : ℤ := if c.expr.terms.length = 4 then 1 else 0

theorem usesArea_nonneg (c : Constr) : 0 ≤ usesArea c := by unfold usesArea; split_ifs <;> simp

theorem vsym_external {Φ κ α} {S : Solver} (hG : Good Φ κ α S) (v : Var) : (vsym S v).type = .external := by
  unfold vsym
  cases h : S.varSym v with
  | none => rfl
  | some s => exact hG.vars.type v s h

section
variable {rnd : ℚ → ℚ} {B K D W M R i f g : ℤ} {S S1 : Solver} {H : List Entry} {E : List IEqn}
  {w : Sym → ℤ} {c : Constr} {row : Row} {tag : Tag} {e0 : IEqn} {n : ℤ}

theorem Anchored.next {S' : Solver} {e : IEqn} {v a d} (h : Anchored S E v a d)
    (hv : ∀ v s, S.varSym v = some s → S'.varSym v = some s) (ht : S.idTick ≤ S'.idTick) :
    Anchored S' (e :: E) v a d := by
  obtain ⟨⟨s, h1, h2⟩, h3, h4⟩ := h
  exact ⟨⟨s, hv v s h1, fun σ hσ => h2 σ fun e he => hσ e (List.mem_cons_of_mem _ he)⟩, h3, by omega⟩

/-- The equation of a plain constraint. -/
theorem plain_next {L : Var} {a b : ℤ} {d0 dL : Sym} (hRun : Run (3 * M) R i f S H E w)
    (h0 : Anchored S E 0 a d0) (hL : Anchored S E L b dL) (ha : |a| ≤ M) (hb : |b| ≤ M)
    (ha' : (100 : ℤ) ∣ a) (hb' : (100 : ℤ) ∣ b)
    (hP : Plain L M R c) (hcr : S.createRow c = (S1, row, tag)) (ht : S1.idTick ≤ 256) :
    ∃ e0, NextEqn (3 * M) (usesArea c) S H c S1 e0 := by
  have hG := hRun.kept.inv.good
  have hC := createRow_ok hG hcr ht
  obtain ⟨z, hz, hzM⟩ := hP.const
  have hM0 : 0 ≤ M := le_trans (abs_nonneg _) ha
  rcases hP.shape with ⟨u, v, huv⟩ | ⟨u, v, huv⟩
  · refine ⟨⟨some (vsym S1 u), some (vsym S1 v), 100 * z, fun _ => 0⟩, ?_, ?_, ?_, ?_, ?_, ?_, ?_, ?_⟩
    · intro σ _
      rw [huv, hz]
      simp [termsEval, IEqn.eval, IEqn.lin, at0]
      ring
    · intro s hs; cases hs; exact vsym_external hC.good u
    · intro s hs; cases hs; exact vsym_external hC.good v
    · intro s _; rfl
    · intro s; simpa using usesArea_nonneg c
    · intro s _; rfl
    · simp only; linarith
    · exact dvd_mul_right _ _
  · have hg : usesArea c = 1 := by unfold usesArea; rw [huv]; rfl
    obtain ⟨⟨s0, e1, e2⟩, e3, e4⟩ := h0
    obtain ⟨⟨sL, g1, g2⟩, g3, g4⟩ := hL
    have v0 : vsym S1 0 = s0 := by unfold vsym; rw [hC.varSym 0 s0 e1]; rfl
    have vL : vsym S1 L = sL := by unfold vsym; rw [hC.varSym L sL g1]; rfl
    refine ⟨⟨some (vsym S1 u), some (vsym S1 v), 100 * z - b + a,
      fun s => (if s = dL then 1 else 0) - if s = d0 then 1 else 0⟩, ?_, ?_, ?_, ?_, ?_, ?_, ?_, ?_⟩
    · intro σ hσ
      have hσ' := (hRun.kept.sol σ).1 hσ
      rw [huv, hz]
      have hsum : ∑ s : Sym, ((((if s = dL then 1 else 0) - if s = d0 then 1 else 0 : ℤ)) : ℚ) * σ s
          = σ dL - σ d0 := by
        push_cast
        simp only [sub_mul, Finset.sum_sub_distrib, sum_ite_sym, one_mul]
      simp only [termsEval, List.map_cons, List.map_nil, List.sum_cons, List.sum_nil, IEqn.eval, IEqn.lin,
        at0, hsum, v0, vL, e2 σ hσ', g2 σ hσ']
      push_cast
      ring
    · intro s hs; cases hs; exact vsym_external hC.good u
    · intro s hs; cases hs; exact vsym_external hC.good v
    · intro s hs
      simp only
      rw [if_neg (by rintro rfl; exact hs g3), if_neg (by rintro rfl; exact hs e3)]; rfl
    · intro s
      rw [hg]
      simp only
      split_ifs <;> simp
    · intro s hs
      simp only
      rw [if_neg (by rintro rfl; omega), if_neg (by rintro rfl; omega)]; rfl
    · simp only
      have h1 := abs_add_le (100 * z - b) a
      have h2 := abs_sub (100 * z) b
      linarith
    · exact dvd_add (dvd_sub (dvd_mul_right _ _) hb') ha'

/-- Adding plain constraints is not affected by rounding. -/
theorem run_near {L : Var} {m : Nat} {a b : ℤ} {d0 dL : Sym} {N F : ℤ} (hR : Exact rnd B) (hM : Room B K D W)
    (hK : 2 + F ≤ K) (hD : N * (3 * M) ≤ D) (hW : N * (2 * R) * K ≤ W) (hRB : R ≤ B) (hR0 : 0 ≤ R)
    (h4K : 4 * K ≤ B) (hB : M + 4 * D ≤ B) (ha : |a| ≤ M) (hb : |b| ≤ M)
    (ha' : (100 : ℤ) ∣ a) (hb' : (100 : ℤ) ∣ b) (ω : Nat → Nat) (fuel : Nat) (cs : List Constr) :
    ∀ (S : Solver) (H : List Entry) (E : List IEqn) (w : Sym → ℤ) (i f : ℤ) (k : ℚ) (seen : List Var),
      Run (3 * M) R i f S H E w → 0 ≤ i → 0 ≤ f → Anchored S E 0 a d0 → Anchored S E L b dL →
      (∀ c ∈ cs, Plain L M R c) → (∀ c ∈ cs, ∀ v k, (v, k) ∈ c.expr.terms → v < m) →
      i + cs.length ≤ N → f + (cs.map usesArea).sum ≤ F →
      (∀ v ∉ seen, S.varSym v = none) → pot m S + symbolsFor seen cs ≤ 256 →
      Near (addConstraints rnd ω fuel (setCost S k) cs) (S.addConstraints ω fuel cs) ∧
      ∀ S', S.addConstraints ω fuel cs = .ok S' →
        S'.idTick ≤ 256 ∧ ∃ H' E' w' i' f', i' ≤ N ∧ f' ≤ F ∧ Run (3 * M) R i' f' S' H' E' w' := by
  have hM0 : 0 ≤ M := le_trans (abs_nonneg _) ha
  induction cs with
  | nil =>
    intro S H E w i f k seen hRun hi hf _ _ _ _ hN hF _ hp
    refine ⟨⟨k, rfl⟩, ?_⟩
    intro S' h
    simp only [Solver.addConstraints, Except.ok.injEq] at h
    subst h
    refine ⟨le_trans (idTick_le_pot m S) (le_trans (Nat.le_add_right _ _) hp), H, E, w, i, f, ?_, ?_, hRun⟩
    · simpa using hN
    · simpa using hF
  | cons c cs ih =>
    intro S H E w i f k seen hRun hi hf h0 hL hP hv hN hF hs hn
    rw [symbolsFor_cons] at hn
    simp only [List.length_cons, List.map_cons, List.sum_cons] at hN hF
    push_cast at hN
    have hPc := hP c List.mem_cons_self
    have hvc := hv c List.mem_cons_self
    rcases hcr : S.createRow c with ⟨S1, row, tag⟩
    have hG := hRun.kept.inv.good
    have hnc : pot m S + need seen c ≤ 256 := by omega
    obtain ⟨ht1, -⟩ := createRow_room hG hs hvc hnc hcr
    have hC := createRow_ok hG hcr ht1
    obtain ⟨e0, hE⟩ := plain_next hRun h0 hL ha hb ha' hb' hPc hcr ht1
    obtain ⟨n, hn1, hn2⟩ := hPc.strength
    obtain ⟨z, hz, hzM⟩ := hPc.const
    have hlen : (c.expr.terms.length : ℤ) ≤ 4 := by
      rcases hPc.shape with ⟨u, v, h⟩ | ⟨u, v, h⟩ <;> rw [h] <;> simp
    have hunit : ∀ t ∈ c.expr.terms, t.2 = 1 ∨ t.2 = -1 := by
      rcases hPc.shape with ⟨u, v, h⟩ | ⟨u, v, h⟩ <;> rw [h] <;> simp
    have hg := usesArea_nonneg c
    have hrest : 0 ≤ (cs.map usesArea).sum := List.sum_nonneg (by
      intro x hx
      obtain ⟨y, -, rfl⟩ := List.mem_map.1 hx
      exact usesArea_nonneg y)
    have hl0 : (0 : ℤ) ≤ cs.length := Int.natCast_nonneg _
    have hk1 := hM.k1
    have hd0 := hM.d0
    have hstep := step_near (m := m) (seen := seen) hR hM hRun hf hg (by linarith)
      (le_trans (mul_le_mul_of_nonneg_right (by linarith) (by linarith)) hD)
      (le_trans (mul_le_mul_of_nonneg_right (mul_le_mul_of_nonneg_right (by linarith) (by linarith))
        (by linarith)) hW)
      hcr hs hvc hnc hunit hn1 hn2 hRB
      (le_trans (mul_le_mul_of_nonneg_right hlen (by linarith)) h4K)
      ⟨M, ⟨100 * z, hz, hzM⟩, hM0, by
        have := mul_le_mul_of_nonneg_right hlen hd0
        linarith⟩
      hE (fun h1 h2 => absurd h2 (hPc.weak h1)) ω fuel k
    obtain ⟨hnear, hok⟩ := hstep
    unfold addConstraints Solver.addConstraints
    cases hq : S.addConstraint ω fuel c with
    | error e =>
      rw [hq] at hnear
      generalize addConstraint rnd ω fuel (setCost S k) c = p at hnear ⊢
      cases p with
      | ok _ => exact absurd hnear (by simp [Near])
      | error e' =>
        refine ⟨by simpa [Near] using hnear, ?_⟩
        intro S' h; cases h
    | ok S2 =>
      rw [hq] at hnear
      generalize addConstraint rnd ω fuel (setCost S k) c = p at hnear ⊢
      cases p with
      | error _ => exact absurd hnear (by simp [Near])
      | ok F2 =>
        obtain ⟨k2, hk2⟩ := hnear
        subst hk2
        obtain ⟨hrun2, hvs, hpot, htag⟩ := hok S2 hq
        have hvar : ∀ v s, S.varSym v = some s → S2.varSym v = some s := by
          intro v s h; rw [hvs]; exact hC.varSym v s h
        have htick : S.idTick ≤ S2.idTick := by
          have h1 := htag.markerGe; have h2 := htag.markerLt; omega
        exact ih S2 _ _ _ (i + 1) (f + usesArea c) k2 (seen ++ c.vars) hrun2 (by linarith) (by linarith)
          (h0.next hvar htick) (hL.next hvar htick)
          (fun c hc => hP c (List.mem_cons_of_mem _ hc)) (fun c hc => hv c (List.mem_cons_of_mem _ hc))
          (by linarith) (by linarith)
          (addConstraint_seen hs hq) (by omega)

/-- A required constraint that fixes a variable. -/
def anchor (v : Var) (a : ℤ) : Constr := ⟨⟨[(v, 1)], -(a : ℚ)⟩, .eq, required⟩

/-- Fixing a variable. -/
theorem anchor_near {v : Var} {m : Nat} {seen : List Var} {a : ℤ} {N F : ℤ} (hR : Exact rnd B)
    (hM : Room B K D W) (hK : 2 + F ≤ K) (hF : 0 ≤ F) (hD : N * (3 * M) ≤ D) (hW : N * (2 * R) * K ≤ W)
    (hRB : R ≤ B) (hR0 : 1001001000 ≤ R)
    (h4K : 4 * K ≤ B) (hB : M + 4 * D ≤ B) (ha : |a| ≤ M) (ha' : (100 : ℤ) ∣ a)
    (hRun : Run (3 * M) R i 0 S H E w) (hiN : i + 1 ≤ N)
    (hs : ∀ v ∉ seen, S.varSym v = none) (hv : v ∉ seen) (hvm : v < m)
    (hn : pot m S + need seen (anchor v a) ≤ 256) (ω : Nat → Nat) (fuel : Nat) (k : ℚ) :
    Near (addConstraint rnd ω fuel (setCost S k) (anchor v a)) (S.addConstraint ω fuel (anchor v a)) ∧
    ∀ S', S.addConstraint ω fuel (anchor v a) = .ok S' →
      ∃ H' e' w' d, Run (3 * M) R (i + 1) 0 S' H' (e' :: E) w' ∧ Anchored S' (e' :: E) v a d ∧
        (∀ v s, S.varSym v = some s → S'.varSym v = some s) ∧ S.idTick ≤ S'.idTick ∧
        pot m S' ≤ pot m S + need seen (anchor v a) := by
  have hM0 : 0 ≤ M := le_trans (abs_nonneg _) ha
  rcases hcr : S.createRow (anchor v a) with ⟨S1, row, tag⟩
  have hG := hRun.kept.inv.good
  have hvc : ∀ u k, (u, k) ∈ (anchor v a).expr.terms → u < m := by
    intro u k hu
    simp only [anchor, List.mem_singleton, Prod.mk.injEq] at hu
    rw [hu.1]; exact hvm
  obtain ⟨ht1, -⟩ := createRow_room hG hs hvc hn hcr
  have hC := createRow_ok hG hcr ht1
  have hreq : (anchor v a).IsRequired := by simp [anchor, Constr.IsRequired]
  have hE : NextEqn (3 * M) 0 S H (anchor v a) S1 ⟨some (vsym S1 v), none, -a, fun _ => 0⟩ := by
    refine ⟨?_, ?_, ?_, ?_, ?_, ?_, ?_, ?_⟩
    · intro σ _
      simp [termsEval, IEqn.eval, IEqn.lin, at0, anchor]
      ring
    · intro s hs; cases hs; exact vsym_external hC.good v
    · intro s hs; cases hs
    · intro s _; rfl
    · intro s; simp
    · intro s _; rfl
    · simp only [abs_neg]; linarith
    · exact (dvd_neg).2 ha'
  have hk1 := hM.k1
  have hd0 := hM.d0
  have hstep := step_near (m := m) (seen := seen) (n := 1001001000) hR hM hRun le_rfl (le_refl (0 : ℤ))
    (by linarith)
    (le_trans (mul_le_mul_of_nonneg_right hiN (by linarith)) hD)
    (le_trans (mul_le_mul_of_nonneg_right (mul_le_mul_of_nonneg_right hiN (by linarith)) (by linarith)) hW)
    hcr hs hvc hn (by simp [anchor]) (by norm_num [anchor, required]) (by simpa using hR0) hRB
    (by simp only [anchor, List.length_singleton]; push_cast; linarith)
    ⟨M, ⟨-a, by simp [anchor], by simpa using ha⟩, hM0, by
      simp only [anchor, List.length_singleton]; push_cast; linarith⟩
    hE (fun _ _ => ⟨(v, 1), by simp [anchor], by simp, hv, by simp [anchor, Constr.vars]⟩) ω fuel k
  refine ⟨hstep.1, ?_⟩
  intro S' h
  obtain ⟨h1, h2, h3, hT⟩ := hstep.2 S' h
  have hvs : ∀ v s, S.varSym v = some s → S'.varSym v = some s := by
    intro v s h; rw [h2]; exact hC.varSym v s h
  have htick : S.idTick ≤ S'.idTick := by
    have h1 := hT.markerGe; have h2 := hT.markerLt; omega
  have hoth : tag.other = none := by
    cases ho : tag.other with
    | none => rfl
    | some o => exact absurd hreq (hT.otherIff.1 (by rw [ho]; rfl))
  refine ⟨_, _, _, tag.marker, h1, ⟨?_, ?_, hT.markerLt⟩, hvs, htick, h3⟩
  · obtain ⟨s, hsv⟩ := Option.isSome_iff_exists.1 (hC.terms v 1 (by simp [anchor]) (by simp))
    refine ⟨s, by rw [h2]; exact hsv, ?_⟩
    intro σ hσ
    have h4 := hσ _ List.mem_cons_self
    rw [IEqn.eval_withTag] at h4
    have hvv : vsym S1 v = s := by unfold vsym; rw [hsv]; rfl
    simp only [IEqn.eval, IEqn.lin, at0, hvv, anchor, tagEval, hoth] at h4
    push_cast at h4
    simp at h4
    linarith
  · have := hT.markerType
    rw [hoth] at this
    simpa [anchor] using this

end

end Bento.Casso.Fl
