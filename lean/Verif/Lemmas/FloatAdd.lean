import Verif.Lemmas.FloatRow
import Verif.Lemmas.CassoHist

/-!
# Rounding has no effect on adding a constraint
-/

namespace Bento.Casso.Fl
open Solver

section
variable {rnd : ℚ → ℚ} {B : ℤ}

theorem getVarSymbol_setCost (S : Solver) (k : ℚ) (v : Var) :
    (setCost S k).getVarSymbol v = (setCost (S.getVarSymbol v).1 k, (S.getVarSymbol v).2) := by
  unfold getVarSymbol
  have : (setCost S k).varSym v = S.varSym v := rfl
  rw [this]
  cases S.varSym v <;> rfl

theorem getVarSymbol_rows (S : Solver) (v : Var) : (S.getVarSymbol v).1.rows = S.rows := by
  unfold getVarSymbol; cases S.varSym v <;> rfl

theorem unit_le {q : ℚ} (h : q = 1 ∨ q = -1) : IntLe 1 q := by
  rcases h with rfl | rfl
  · exact IntLe.one (le_refl _)
  · exact (IntLe.one (le_refl _)).neg

theorem addTerms_eq (hR : Exact rnd B) {K D : ℤ} (hK : 1 ≤ K) (hD : 0 ≤ D) (ts : List (Var × ℚ)) :
    ∀ (S : Solver) (row : Row) (k : ℚ) (A C : ℤ), (∀ t ∈ ts, t.2 = 1 ∨ t.2 = -1) →
      (∀ b r, S.rows b = some r → (∀ t, IntLe K (r.cells t)) ∧ IntLe D r.constant) →
      (∀ t, IntLe A (row.cells t)) → IntLe C row.constant → 0 ≤ A → 0 ≤ C →
      A + ts.length * K ≤ B → C + ts.length * D ≤ B →
      addTerms rnd (setCost S k) row ts
        = (setCost (S.addTerms row ts).1 k, (S.addTerms row ts).2) ∧
      (∀ t, IntLe (A + ts.length * K) ((S.addTerms row ts).2.cells t)) ∧
      IntLe (C + ts.length * D) (S.addTerms row ts).2.constant := by
  induction ts with
  | nil =>
    intro S row k A C _ _ hA hC _ _ _ _
    simp only [addTerms, Solver.addTerms, List.length_nil, Nat.cast_zero, zero_mul, add_zero]
    exact ⟨trivial, hA, hC⟩
  | cons p ts ih =>
    intro S row k A C hu hS hA hC hA0 hC0 hAB hCB
    obtain ⟨v, q⟩ := p
    have hq := hu (v, q) List.mem_cons_self
    simp only at hq
    have hq1 := unit_le hq
    have hq0 : q ≠ 0 := by rcases hq with rfl | rfl <;> norm_num
    simp only [List.length_cons, Nat.cast_add, Nat.cast_one] at hAB hCB ⊢
    have hlen : (0 : ℤ) ≤ ts.length := by positivity
    have hlK : 0 ≤ (ts.length : ℤ) * K := mul_nonneg hlen (by omega)
    have hlD : 0 ≤ (ts.length : ℤ) * D := mul_nonneg hlen hD
    have e1 : A + ((ts.length : ℤ) + 1) * K = A + K + ts.length * K := by ring
    have e2 : C + ((ts.length : ℤ) + 1) * D = C + D + ts.length * D := by ring
    rw [e1] at hAB ⊢
    rw [e2] at hCB ⊢
    unfold addTerms Solver.addTerms
    rw [nearZero_of hq1, decide_eq_false hq0, if_neg hq0]
    rw [getVarSymbol_setCost]
    have hrows := getVarSymbol_rows S v
    generalize S.getVarSymbol v = g at hrows ⊢
    obtain ⟨S1, s⟩ := g
    simp only at hrows
    simp only [Bool.false_eq_true, if_false]
    have hr1 : (setCost S1 k).rows s = S1.rows s := rfl
    rw [hr1]
    have hS1 : ∀ b r, S1.rows b = some r → (∀ t, IntLe K (r.cells t)) ∧ IntLe D r.constant := by
      rw [hrows]; exact hS
    have hu' : ∀ t ∈ ts, t.2 = 1 ∨ t.2 = -1 := fun t ht => hu t (List.mem_cons_of_mem _ ht)
    cases hs : S1.rows s with
    | some other =>
      obtain ⟨h1, h2⟩ := hS1 s other hs
      have m1 : ∀ t, IntLe K (other.cells t * q) := fun t => by
        simpa using (h1 t).mul hq1
      have m2 : IntLe D (other.constant * q) := by simpa using h2.mul hq1
      have a1 : ∀ t, IntLe (A + K) (row.cells t + other.cells t * q) := fun t => (hA t).add (m1 t)
      have a2 : IntLe (C + D) (row.constant + other.constant * q) := hC.add m2
      have hrow := insertRow_eq hR (r := row) (other := other) (k := q)
        (fun t => (m1 t).mono (by omega)) (fun t => (a1 t).mono (by omega)) (m2.mono (by omega))
        (a2.mono (by omega))
      simp only
      rw [hrow]
      exact ih S1 _ k (A + K) (C + D) hu' hS1 a1 a2 (by omega) (by omega) hAB hCB
    | none =>
      simp only
      have hsum : IntLe (A + K) (row.cells s + q) := (hA s).add (hq1.mono hK)
      rw [insertSymbol_eq hR (hq1.mono (by omega)) (hsum.mono (by omega))]
      refine ih S1 _ k (A + K) (C + D) hu' hS1 ?_ ?_ (by omega) (by omega) hAB hCB
      · intro t
        simp only [Row.insertSymbol]
        split_ifs with ht
        · exact hsum
        · exact (hA t).mono (by omega)
      · exact hC.mono (by omega)

theorem symbolAt_ne {n m : Nat} (hn : n ≤ 255) (hm : m ≤ 255) (h : n ≠ m) (t u : SymType) :
    symbolAt n t ≠ symbolAt m u := by
  intro he
  have h1 := symbolAt_val hn t
  have h2 := symbolAt_val hm u
  rw [he] at h1
  omega

theorem addMarkers_eq (hR : Exact rnd B) (hB : 1 ≤ B) {S : Solver} {row : Row} {c : Constr} (k : ℚ)
    (hfr : ∀ t : Sym, S.idTick ≤ t.value.val → row.cells t = 0)
    (hobj : ∀ t : Sym, S.idTick ≤ t.value.val → S.objective.cells t = 0)
    (hw : IntLe B c.strength) (hn : (S.addMarkers row c).1.idTick ≤ 256) :
    addMarkers rnd (setCost S k) row c
      = (setCost (S.addMarkers row c).1 k, (S.addMarkers row c).2) ∧
    ((S.addMarkers row c).2.1.cells (S.addMarkers row c).2.2.marker = 1 ∨
      (S.addMarkers row c).2.1.cells (S.addMarkers row c).2.2.marker = -1) ∧
    ∀ A : ℤ, 1 ≤ A → (∀ t, IntLe A (row.cells t)) → ∀ t, IntLe A ((S.addMarkers row c).2.1.cells t) := by
  have h1 : IntLe B 1 := IntLe.one hB
  have hm1 : IntLe B (-1) := h1.neg
  have hmm1 : IntLe B (- -1) := hm1.neg
  have t0 : ∀ ty, S.idTick ≤ 255 → row.cells (symbolAt S.idTick ty) = 0 := fun ty h =>
    hfr _ (by rw [symbolAt_val h])
  have t1 : ∀ ty, S.idTick + 1 ≤ 255 → row.cells (symbolAt (S.idTick + 1) ty) = 0 := fun ty h =>
    hfr _ (by rw [symbolAt_val h]; omega)
  have o0 : ∀ ty, S.idTick ≤ 255 → S.objective.cells (symbolAt S.idTick ty) = 0 := fun ty h =>
    hobj _ (by rw [symbolAt_val h])
  have o1 : ∀ ty, S.idTick + 1 ≤ 255 → S.objective.cells (symbolAt (S.idTick + 1) ty) = 0 :=
    fun ty h => hobj _ (by rw [symbolAt_val h]; omega)
  have ins0 : ∀ (r : Row) (s : Sym) (q : ℚ), r.cells s = 0 → IntLe B q →
      insertSymbol rnd r s q = r.insertSymbol s q := by
    intro r s q h hq
    exact insertSymbol_eq hR hq (by rw [h, zero_add]; exact hq)
  have bnd : ∀ (r : Row) (s : Sym) (q : ℚ) (A : ℤ), 1 ≤ A → (q = 1 ∨ q = -1) → r.cells s = 0 →
      (∀ t, IntLe A (r.cells t)) → ∀ t, IntLe A ((r.insertSymbol s q).cells t) := by
    intro r s q A hA hq h0 hr t
    simp only [Row.insertSymbol]
    split_ifs
    · rw [h0, zero_add]; exact (unit_le hq).mono hA
    · exact hr t
  have hc : ∀ s : Sym, (setCost S k).objective.cells s = S.objective.cells s := fun _ => rfl
  unfold Solver.addMarkers at hn
  unfold addMarkers Solver.addMarkers
  have htick : (setCost S k).idTick = S.idTick := rfl
  rw [htick]
  -- the two kinds of inequality
  have ineq : ∀ coeff : ℚ, (coeff = 1 ∨ coeff = -1) → S.idTick ≤ 255 →
      (c.strength < required → S.idTick + 1 ≤ 255) →
      (if c.strength < required then
        (({ setCost S k with idTick := S.idTick + 2, objective := insertSymbol rnd (setCost S k).objective (symbolAt (S.idTick + 1) .error) c.strength } : Solver),
        insertSymbol rnd (insertSymbol rnd row (symbolAt S.idTick .slack) coeff) (symbolAt (S.idTick + 1) .error) (-coeff), (⟨symbolAt S.idTick .slack, some (symbolAt (S.idTick + 1) .error)⟩ : Tag))
       else ({ setCost S k with idTick := S.idTick + 1 }, insertSymbol rnd row (symbolAt S.idTick .slack) coeff, ⟨symbolAt S.idTick .slack, none⟩))
      = (setCost (if c.strength < required then
        (({ S with idTick := S.idTick + 2, objective := S.objective.insertSymbol (symbolAt (S.idTick + 1) .error) c.strength } : Solver),
        (row.insertSymbol (symbolAt S.idTick .slack) coeff).insertSymbol (symbolAt (S.idTick + 1) .error) (-coeff), (⟨symbolAt S.idTick .slack, some (symbolAt (S.idTick + 1) .error)⟩ : Tag))
       else ({ S with idTick := S.idTick + 1 }, row.insertSymbol (symbolAt S.idTick .slack) coeff, ⟨symbolAt S.idTick .slack, none⟩)).1 k,
       (if c.strength < required then
        (({ S with idTick := S.idTick + 2, objective := S.objective.insertSymbol (symbolAt (S.idTick + 1) .error) c.strength } : Solver),
        (row.insertSymbol (symbolAt S.idTick .slack) coeff).insertSymbol (symbolAt (S.idTick + 1) .error) (-coeff), (⟨symbolAt S.idTick .slack, some (symbolAt (S.idTick + 1) .error)⟩ : Tag))
       else ({ S with idTick := S.idTick + 1 }, row.insertSymbol (symbolAt S.idTick .slack) coeff, ⟨symbolAt S.idTick .slack, none⟩)).2) := by
    intro coeff hcf ha hb
    have hq : IntLe B coeff := (unit_le hcf).mono hB
    split_ifs with hs
    · rw [ins0 _ _ _ (t0 _ ha) hq, ins0 _ _ _ ?_ hq.neg, ins0 _ _ _ (by rw [hc]; exact o1 _ (hb hs)) hw]
      · rfl
      · simp only [Row.insertSymbol]
        rw [if_neg (symbolAt_ne (hb hs) ha (by omega) _ _)]
        exact t1 _ (hb hs)
    · rw [ins0 _ _ _ (t0 _ ha) hq]
      rfl
  have ineq2 : ∀ coeff : ℚ, (coeff = 1 ∨ coeff = -1) → S.idTick ≤ 255 →
      (c.strength < required → S.idTick + 1 ≤ 255) →
      ∀ p : Solver × Row × Tag, (if c.strength < required then
        (({ S with idTick := S.idTick + 2, objective := S.objective.insertSymbol (symbolAt (S.idTick + 1) .error) c.strength } : Solver),
        (row.insertSymbol (symbolAt S.idTick .slack) coeff).insertSymbol (symbolAt (S.idTick + 1) .error) (-coeff), (⟨symbolAt S.idTick .slack, some (symbolAt (S.idTick + 1) .error)⟩ : Tag))
       else ({ S with idTick := S.idTick + 1 }, row.insertSymbol (symbolAt S.idTick .slack) coeff, ⟨symbolAt S.idTick .slack, none⟩)) = p →
      (p.2.1.cells p.2.2.marker = 1 ∨ p.2.1.cells p.2.2.marker = -1) ∧
      ∀ A : ℤ, 1 ≤ A → (∀ t, IntLe A (row.cells t)) → ∀ t, IntLe A (p.2.1.cells t) := by
    intro coeff hcf ha hb p hp
    have hneg : -coeff = 1 ∨ -coeff = -1 := by rcases hcf with rfl | rfl <;> simp
    split_ifs at hp with hs
    · subst hp
      have hz : (row.insertSymbol (symbolAt S.idTick .slack) coeff).cells
          (symbolAt (S.idTick + 1) .error) = 0 := by
        simp only [Row.insertSymbol]
        rw [if_neg (symbolAt_ne (hb hs) ha (by omega) _ _)]
        exact t1 _ (hb hs)
      refine ⟨?_, fun A hA hr => bnd _ _ _ _ hA hneg hz (bnd _ _ _ _ hA hcf (t0 _ ha) hr)⟩
      simp only [Row.insertSymbol, if_true]
      rw [if_neg (symbolAt_ne ha (hb hs) (by omega) _ _), t0 _ ha, zero_add]
      exact hcf
    · subst hp
      refine ⟨?_, fun A hA hr => bnd _ _ _ _ hA hcf (t0 _ ha) hr⟩
      simp only [Row.insertSymbol, if_true]
      rw [t0 _ ha, zero_add]
      exact hcf
  cases hop : c.op with
  | ge =>
    simp only [hop] at hn ⊢
    have ha : S.idTick ≤ 255 := by split_ifs at hn <;> simp only at hn <;> omega
    have hb : c.strength < required → S.idTick + 1 ≤ 255 := by
      intro hs; rw [if_pos hs] at hn; simp only at hn; omega
    exact ⟨ineq (-1) (Or.inr rfl) ha hb, ineq2 (-1) (Or.inr rfl) ha hb _ rfl⟩
  | le =>
    simp only [hop] at hn ⊢
    have ha : S.idTick ≤ 255 := by split_ifs at hn <;> simp only at hn <;> omega
    have hb : c.strength < required → S.idTick + 1 ≤ 255 := by
      intro hs; rw [if_pos hs] at hn; simp only at hn; omega
    exact ⟨ineq 1 (Or.inl rfl) ha hb, ineq2 1 (Or.inl rfl) ha hb _ rfl⟩
  | eq =>
    simp only [hop] at hn ⊢
    by_cases hs : c.strength < required
    · rw [if_pos hs] at hn
      simp only [if_pos hs]
      simp only at hn
      have ha : S.idTick ≤ 255 := by omega
      have hb : S.idTick + 1 ≤ 255 := by omega
      have hz : (row.insertSymbol (symbolAt S.idTick .error) (-1)).cells
          (symbolAt (S.idTick + 1) .error) = 0 := by
        simp only [Row.insertSymbol]
        rw [if_neg (symbolAt_ne hb ha (by omega) _ _)]
        exact t1 _ hb
      refine ⟨?_, ?_, fun A hA hr =>
        bnd _ _ _ _ hA (Or.inl rfl) hz (bnd _ _ _ _ hA (Or.inr rfl) (t0 _ ha) hr)⟩
      · rw [ins0 _ _ _ (t0 _ ha) hm1, ins0 _ _ _ hz h1,
          ins0 (setCost S k).objective (symbolAt S.idTick .error) _ (o0 _ ha) hw,
          ins0 _ (symbolAt (S.idTick + 1) .error) _ ?_ hw]
        · rfl
        · simp only [Row.insertSymbol]
          rw [if_neg (symbolAt_ne hb ha (by omega) _ _), hc]
          exact o1 _ hb
      · right
        simp only [Row.insertSymbol, if_true]
        rw [if_neg (symbolAt_ne ha hb (by omega) _ _), t0 _ ha, zero_add]
    · rw [if_neg hs] at hn
      simp only [if_neg hs]
      simp only at hn
      have ha : S.idTick ≤ 255 := by omega
      refine ⟨?_, ?_, fun A hA hr => bnd _ _ _ _ hA (Or.inl rfl) (t0 _ ha) hr⟩
      · rw [ins0 _ _ _ (t0 _ ha) h1]
        rfl
      · left
        simp only [Row.insertSymbol, if_true]
        rw [t0 _ ha, zero_add]

end

end Bento.Casso.Fl
