import Verif.Model.Float
import Verif.Lemmas.IntTab

/-!
# Rounded arithmetic on integers is exact
-/

namespace Bento.Casso.Fl
open Solver

/-- The rounding keeps integers up to `B`. -/
def Exact (rnd : ℚ → ℚ) (B : ℤ) : Prop := ∀ n : ℤ, |n| ≤ B → rnd n = n

theorem Exact.of {rnd : ℚ → ℚ} {B : ℤ} (h : Exact rnd B) {q : ℚ} (hq : IntLe B q) : rnd q = q := by
  obtain ⟨n, rfl, hn⟩ := hq
  exact h n hn

theorem nearZero_int (n : ℤ) : nearZero (n : ℚ) = decide (n = 0) := by
  unfold nearZero
  rcases lt_trichotomy n 0 with h | h | h
  · have h1 : (n : ℚ) ≤ -1 := by exact_mod_cast (by omega : n ≤ -1)
    rw [if_pos (by linarith)]
    rw [decide_eq_false (by linarith), decide_eq_false (by omega)]
  · subst h; norm_num
  · have h1 : (1 : ℚ) ≤ n := by exact_mod_cast (by omega : 1 ≤ n)
    rw [if_neg (by linarith)]
    rw [decide_eq_false (by linarith), decide_eq_false (by omega)]

theorem nearZero_of {B : ℤ} {q : ℚ} (h : IntLe B q) : nearZero q = decide (q = 0) := by
  obtain ⟨n, rfl, -⟩ := h
  rw [nearZero_int]
  simp

section
variable {rnd : ℚ → ℚ} {B : ℤ}

theorem insertSymbol_eq (hR : Exact rnd B) {r : Row} {s : Sym} {k : ℚ} (hk : IntLe B k)
    (hsum : IntLe B (r.cells s + k)) : insertSymbol rnd r s k = r.insertSymbol s k := by
  unfold insertSymbol Row.insertSymbol
  congr 1
  funext t
  by_cases ht : t = s
  · simp only [ht, if_true]
    by_cases h0 : r.cells s = 0
    · simp only [h0, ne_eq, not_true_eq_false, if_false, zero_add, nearZero_of hk]
      by_cases hk0 : k = 0 <;> simp [hk0]
    · simp only [ne_eq, h0, not_false_eq_true, if_true, hR.of hsum, nearZero_of hsum]
      by_cases hk0 : r.cells s + k = 0 <;> simp [hk0]
  · simp [ht]

theorem insertRow_cells_eq (hR : Exact rnd B) {r other : Row} {k : ℚ}
    (h1 : ∀ t, IntLe B (other.cells t * k)) (h2 : ∀ t, IntLe B (r.cells t + other.cells t * k)) :
    (insertRow rnd r other k).1.cells = (r.insertRow other k).1.cells := by
  funext t
  simp only [insertRow, Row.insertRow]
  by_cases h0 : other.cells t = 0
  · simp [h0]
  · rw [if_pos h0, hR.of (h1 t), insertSymbol_eq hR (h1 t) (h2 t)]
    simp [Row.insertSymbol]

theorem insertRow_eq (hR : Exact rnd B) {r other : Row} {k : ℚ}
    (h1 : ∀ t, IntLe B (other.cells t * k)) (h2 : ∀ t, IntLe B (r.cells t + other.cells t * k))
    (h3 : IntLe B (other.constant * k)) (h4 : IntLe B (r.constant + other.constant * k)) :
    insertRow rnd r other k = r.insertRow other k := by
  have hc := insertRow_cells_eq hR h1 h2
  simp only [insertRow, Row.insertRow] at hc ⊢
  rw [hR.of h3, hR.of h4, hc]

theorem solveForSymbol_eq (hR : Exact rnd B) (hB : 1 ≤ B) {r : Row} {s : Sym}
    (hs : r.cells s = 1 ∨ r.cells s = -1) (h1 : ∀ t, IntLe B (r.cells t))
    (h2 : IntLe B r.constant) : solveForSymbol rnd r s = r.solveForSymbol s := by
  have hmul : ∀ q c : ℚ, (c = 1 ∨ c = -1) → IntLe B q → IntLe B (q * (-1 / c)) := by
    intro q c hc hq
    rcases hc with rfl | rfl
    · simpa using hq.neg
    · simpa using hq
  have hinv : IntLe B (-1 / r.cells s) := by
    have := hmul 1 (r.cells s) hs (IntLe.one hB)
    simpa using this
  unfold solveForSymbol Row.solveForSymbol
  simp only [hR.of hinv, hR.of (hmul _ _ hs h2)]
  congr 1
  funext t
  by_cases ht : t = s
  · simp [ht]
  · by_cases h0 : r.cells t = 0
    · simp [h0]
    · simp [ht, h0, hR.of (hmul _ _ hs (h1 t))]

theorem solveForSymbols_eq (hR : Exact rnd B) (hB : 1 ≤ B) {r : Row} {l e : Sym} (hle : l ≠ e)
    (hl : r.cells l = 0) (hs : r.cells e = 1 ∨ r.cells e = -1) (h1 : ∀ t, IntLe B (r.cells t))
    (h2 : IntLe B r.constant) : solveForSymbols rnd r l e = r.solveForSymbols l e := by
  unfold solveForSymbols Row.solveForSymbols
  have hm1 : IntLe B (-1) := (IntLe.one hB).neg
  rw [insertSymbol_eq hR hm1 (by rw [hl, zero_add]; exact hm1)]
  apply solveForSymbol_eq hR hB
  · simpa [Row.insertSymbol, Ne.symm hle] using hs
  · intro t
    simp only [Row.insertSymbol]
    by_cases ht : t = l
    · rw [if_pos ht, hl, zero_add]; exact hm1
    · rw [if_neg ht]; exact h1 t
  · exact h2

theorem substituteRow_cells_eq (hR : Exact rnd B) {A K : ℤ} {r row : Row} {s : Sym}
    (hr : ∀ t, IntLe A (r.cells t)) (hrow : ∀ t, IntLe K (row.cells t)) (hA : 0 ≤ A)
    (hB : A + K * A ≤ B) : (substituteRow rnd r s row).1.cells = (r.substitute s row).1.cells := by
  unfold substituteRow Row.substitute
  by_cases h0 : r.cells s = 0
  · simp [h0]
  · rw [if_pos h0, if_pos h0]
    have hrem : ∀ t, IntLe A ((r.remove s).cells t) := by
      intro t
      simp only [Row.remove]
      split_ifs
      · exact IntLe.zero hA
      · exact hr t
    apply insertRow_cells_eq hR
    · intro t; exact ((hrow t).mul (hr s)).mono (by omega)
    · intro t; exact ((hrem t).add ((hrow t).mul (hr s))).mono hB

theorem substituteRow_eq (hR : Exact rnd B) {A K D D' : ℤ} {r row : Row} {s : Sym}
    (hr : ∀ t, IntLe A (r.cells t)) (hrow : ∀ t, IntLe K (row.cells t)) (hA : 0 ≤ A)
    (hB : A + K * A ≤ B) (hd : IntLe D r.constant) (hd' : IntLe D' row.constant) (hD : 0 ≤ D)
    (hB' : D + D' * A ≤ B) : substituteRow rnd r s row = r.substitute s row := by
  unfold substituteRow Row.substitute
  by_cases h0 : r.cells s = 0
  · simp [h0]
  · rw [if_pos h0, if_pos h0]
    have hrem : ∀ t, IntLe A ((r.remove s).cells t) := by
      intro t
      simp only [Row.remove]
      split_ifs
      · exact IntLe.zero hA
      · exact hr t
    apply insertRow_eq hR
    · intro t; exact ((hrow t).mul (hr s)).mono (by omega)
    · intro t; exact ((hrem t).add ((hrow t).mul (hr s))).mono hB
    · exact (hd'.mul (hr s)).mono (by omega)
    · exact (hd.add (hd'.mul (hr s))).mono hB'

/-- The same solver with another constant in the objective, which no decision depends on. -/
def setCost (S : Solver) (k : ℚ) : Solver := { S with objective := ⟨S.objective.cells, k⟩ }

theorem varChanged_setCost (S : Solver) (k : ℚ) (v : Var) :
    (setCost S k).varChanged v = setCost (S.varChanged v) k := by
  have h1 : (setCost S k).shouldClearChanges = S.shouldClearChanges := rfl
  have h2 : (setCost S k).changed = S.changed := rfl
  unfold varChanged
  rw [h1, h2]
  by_cases hc : S.shouldClearChanges = true
  · rw [if_pos hc, if_pos hc]; rfl
  · rw [if_neg hc, if_neg hc]
    by_cases hv : v ∈ S.changed
    · rw [if_pos hv, if_pos hv]
    · rw [if_neg hv, if_neg hv]; rfl

theorem foldl_varChanged_setCost (vs : List Var) (S : Solver) (k : ℚ) :
    vs.foldl varChanged (setCost S k) = setCost (vs.foldl varChanged S) k := by
  induction vs generalizing S with
  | nil => rfl
  | cons v vs ih => rw [List.foldl_cons, List.foldl_cons, varChanged_setCost, ih]

/-- What is asked of the bounds. -/
structure Room (B K D W : ℤ) : Prop where
  k1 : 1 ≤ K
  d0 : 0 ≤ D
  w0 : 0 ≤ W
  kk : K + K * K ≤ B
  dk : D + D * K ≤ B
  wk : W + K * W ≤ B

theorem Room.one {B K D W : ℤ} (h : Room B K D W) : 1 ≤ B := by
  have := h.k1
  have := h.kk
  nlinarith

theorem Room.leK {B K D W : ℤ} (h : Room B K D W) : K ≤ B := by
  have := h.k1
  have := h.kk
  nlinarith

theorem Room.leD {B K D W : ℤ} (h : Room B K D W) : D ≤ B := by
  have := h.k1
  have := h.d0
  have := h.dk
  nlinarith

theorem pivotIn_eq (hR : Exact rnd B) {K D W : ℤ} (hM : Room B K D W) {S : Solver}
    (hW : Whole K D W S) {s : Sym} {row : Row} (hrow : ∀ t, IntLe K (row.cells t))
    (hrc : IntLe D row.constant) (k : ℚ) :
    ∃ k', pivotIn rnd (setCost S k) s row = setCost (S.pivotIn s row) k' := by
  have hK0 : 0 ≤ K := le_trans zero_le_one hM.k1
  have hsub : ∀ b r, S.rows b = some r → substituteRow rnd r s row = r.substitute s row := by
    intro b r hb
    exact substituteRow_eq hR (fun t => hW.cell b r t hb) hrow hK0 hM.kk (hW.const b r hb) hrc hM.d0
      hM.dk
  have hart : ∀ a, S.artificial = some a → substituteRow rnd a s row = a.substitute s row := by
    intro a ha
    exact substituteRow_eq hR (fun t => hW.artCell a t ha) hrow hK0 hM.kk (hW.artConst a ha) hrc hM.d0
      hM.dk
  have hchg : substChanged rnd (setCost S k) s row = S.substChanged s row := by
    unfold substChanged Solver.substChanged
    apply List.filterMap_congr
    intro b _
    simp only [setCost]
    cases hb : S.rows b with
    | none => rfl
    | some r => simp only [hsub b r hb]; rfl
  have hobj : (substituteRow rnd (setCost S k).objective s row).1.cells
      = (S.objective.substitute s row).1.cells := by
    have h1 := substituteRow_cells_eq hR (r := ⟨S.objective.cells, k⟩) (s := s) hW.obj hrow hM.w0 hM.wk
    refine h1.trans ?_
    simp only [Row.substitute]
    by_cases h0 : S.objective.cells s = 0
    · simp [h0]
    · simp [h0, Row.insertRow, Row.remove]
  have hsubst : substitute rnd (setCost S k) s row = setCost (S.substitute s row)
      (substituteRow rnd (setCost S k).objective s row).1.constant := by
    unfold substitute Solver.substitute
    rw [hchg, ← foldl_varChanged_setCost]
    congr 1
    unfold setCost
    simp only [Solver.mk.injEq, true_and]
    refine ⟨?_, ?_, ?_, trivial⟩
    · funext b
      cases hb : S.rows b with
      | none => rfl
      | some r => simp [hsub b r hb]
    · ext t
      · exact congrFun hobj t
      · rfl
    · cases ha : S.artificial with
      | none => rfl
      | some a => simp [hart a ha]
  refine ⟨(substituteRow rnd (setCost S k).objective s row).1.constant, ?_⟩
  unfold pivotIn Solver.pivotIn
  rw [hsubst]
  simp only
  by_cases hc : s.type = .external ∧ row.constant ≠ 0
  · rw [if_pos hc, if_pos hc]
    have : ∀ (T : Solver) k, (setCost T k).varOf s = T.varOf s := fun _ _ => rfl
    rw [this, varChanged_setCost]
    rfl
  · rw [if_neg hc, if_neg hc]
    rfl

theorem IntLe.neg_one {q : ℚ} (h : IntLe 1 q) (hq : q < 0) : q = -1 := by
  obtain ⟨n, rfl, hn⟩ := h
  have h1 : n < 0 := by exact_mod_cast hq
  have := _root_.abs_le.1 hn
  have : n = -1 := by omega
  rw [this]; norm_num

theorem leavingRatio_eq (hR : Exact rnd B) {K D W : ℤ} (hM : Room B K D W) {S : Solver}
    (hW : Whole K D W S) {e : Sym} (hd : e.type ≠ .dummy) (hx : e.type ≠ .external) (k : ℚ) (t : Sym) :
    leavingRatio rnd (setCost S k) e t = S.leavingRatio e t := by
  unfold leavingRatio Solver.leavingRatio
  simp only [setCost]
  cases ht : S.rows t with
  | none => rfl
  | some r =>
    simp only
    by_cases hc : t.type ≠ .external ∧ r.cells e < 0
    · rw [if_pos hc, if_pos hc]
      have h1 : r.cells e = -1 := IntLe.neg_one (hW.one t r e ht hd hx) hc.2
      congr 1
      apply hR.of
      rw [h1]
      have := (hW.const t r ht).mono hM.leD
      simpa using this
    · rw [if_neg hc, if_neg hc]

theorem getLeavingRow_eq (hR : Exact rnd B) {K D W : ℤ} (hM : Room B K D W) {S : Solver}
    (hW : Whole K D W S) {e : Sym} (hd : e.type ≠ .dummy) (hx : e.type ≠ .external) (ω : Nat → Nat)
    (n : Nat) (k : ℚ) : getLeavingRow rnd ω n (setCost S k) e = Solver.getLeavingRow ω n S e := by
  unfold getLeavingRow Solver.getLeavingRow
  have : (fun t => leavingRatio rnd (setCost S k) e t) = fun t => S.leavingRatio e t :=
    funext fun t => leavingRatio_eq hR hM hW hd hx k t
  simp only [leavingRatio_eq hR hM hW hd hx]
  congr

/-- Results that differ in the objective's constant only. -/
def Near : Except SolverErr Solver → Except SolverErr Solver → Prop
  | .ok F, .ok S => ∃ k, F = setCost S k
  | .error e, .error e' => e = e'
  | _, _ => False

theorem entering_congr {ω n} {r r' : Row} (h : r.cells = r'.cells) :
    Solver.getEnteringSymbol ω n r = Solver.getEnteringSymbol ω n r' := by
  unfold Solver.getEnteringSymbol
  rw [h]

theorem noDum_pivotIn {S : Solver} {s row} (h : NoDum S) (hs : s.type ≠ .dummy) :
    NoDum (S.pivotIn s row) := by
  intro b hb
  obtain ⟨r, hr⟩ := Option.ne_none_iff_exists'.1 hb
  rcases pivotIn_rows_cases hr with ⟨rfl, _⟩ | ⟨_, r₀, h₀, _⟩
  · exact hs
  · exact h b (by simp [h₀])

theorem noDum_dropRow {S : Solver} {l c} (h : NoDum S) : NoDum (dropRow S l c) := by
  intro b hb
  obtain ⟨r, hr⟩ := Option.ne_none_iff_exists'.1 hb
  exact h b (by simp [(dropRow_some hr).2])

/-- **`optimize` is not affected by rounding.** -/
theorem optimize_near (hR : Exact rnd B) {E : List IEqn} {K D W : ℤ} (hM : Room B K D W)
    (hE : Sys E K D) {Φ κ α} (hΦ : ∀ σ, Φ σ ↔ ∀ e ∈ E, e.eval σ = 0) {w : Sym → ℤ}
    (hκ : ∀ σ, κ σ = ∑ s, (w s : ℚ) * σ s) (hW : (∑ s, |w s|) * K ≤ W) {b : Bool}
    (hα : b = true → ∃ a, ∀ σ, α σ = σ a) {ω : Nat → Nat} {sel : Solver → Row}
    (hselc : ∀ S k, (sel (setCost S k)).cells = (sel S).cells) {κ' : (Sym → ℚ) → ℚ}
    (hsel : ∀ S, Good Φ κ α S → S.artificial.isSome = b → SelFacts sel κ' S) :
    ∀ (fuel : Nat) (S : Solver) (k : ℚ), Good Φ κ α S → NoDum S → S.artificial.isSome = b →
      Near (optimize rnd ω sel fuel (setCost S k)) (Solver.optimize ω sel fuel S) ∧
      ∀ S', Solver.optimize ω sel fuel S = .ok S' → NoDum S' := by
  have whole : ∀ S, Good Φ κ α S → NoDum S → S.artificial.isSome = b → Whole K D W S := by
    intro S hG hnd hb
    refine whole_of_good hG hΦ hE hnd hκ hW ?_
    cases b with
    | false => left; simpa using hb
    | true => right; exact hα rfl
  intro fuel
  induction fuel with
  | zero => intro S k _ _ _; simp [optimize, Solver.optimize, Near]
  | succ n ih =>
    intro S k hG hnd hb
    have hWh := whole S hG hnd hb
    have hS := hsel S hG hb
    unfold optimize Solver.optimize
    rw [entering_congr (hselc S k)]
    have hclock : (setCost S k).clock = S.clock := rfl
    rw [hclock]
    cases hent : Solver.getEnteringSymbol ω S.clock (sel S) with
    | none =>
      refine ⟨⟨k, rfl⟩, ?_⟩
      intro S' h
      simp only [Except.ok.injEq] at h
      rw [← h]; exact hnd
    | some e =>
      obtain ⟨hed, hneg⟩ := entering_some hent
      have hee : e.type ≠ .external := by
        intro h; have := hS.ext e h; linarith
      simp only
      rw [getLeavingRow_eq hR hM hWh hed hee]
      cases hleave : Solver.getLeavingRow ω (S.clock + 1) S e with
      | none => simp [Near]
      | some l =>
        simp only
        have hrows : (setCost S k).rows l = S.rows l := rfl
        rw [hrows]
        cases hrow : S.rows l with
        | none => simp [Near]
        | some row =>
          simp only
          have hG' := optimize_step hG hS (S.clock + 2) hent hleave hrow
          have hb' : ((dropRow S l (S.clock + 2)).pivotIn e
              (row.solveForSymbols l e)).artificial.isSome = b := by
            rw [pivotIn_artificial]; simpa [dropRow] using hb
          have hnd' := noDum_pivotIn (s := e) (row := row.solveForSymbols l e)
            (noDum_dropRow (l := l) (c := S.clock + 2) hnd) hed
          have hWh' := whole _ hG' hnd' hb'
          obtain ⟨r, hr, hlt, hc, _⟩ := leaving_some hleave
          rw [hrow] at hr; cases hr
          have hcell : row.cells e = -1 := IntLe.neg_one (hWh.one l row e hrow hed hee) hc
          have hle : l ≠ e := by
            rintro rfl
            have := hG.tab.nb l row l row hrow hrow
            rw [this] at hc; exact lt_irrefl _ hc
          have hsolve : solveForSymbols rnd row l e = row.solveForSymbols l e :=
            solveForSymbols_eq hR hM.one hle (hG.tab.nb l row l row hrow hrow) (Or.inr hcell)
              (fun t => (hWh.cell l row t hrow).mono hM.leK) ((hWh.const l row hrow).mono hM.leD)
          have hnew : ((dropRow S l (S.clock + 2)).pivotIn e (row.solveForSymbols l e)).rows e
              = some (row.solveForSymbols l e) := by
            rw [pivotIn_rows]; simp
          have hWd : Whole K D W (dropRow S l (S.clock + 2)) := by
            refine ⟨?_, ?_, ?_, hWh.obj, hWh.artCell, hWh.artConst⟩
            · intro b r t hb; exact hWh.cell b r t (dropRow_some hb).2
            · intro b r t hb; exact hWh.one b r t (dropRow_some hb).2
            · intro b r hb; exact hWh.const b r (dropRow_some hb).2
          obtain ⟨k', hk'⟩ := pivotIn_eq hR hM hWd (fun t => hWh'.cell e _ t hnew)
            (hWh'.const e _ hnew) k (s := e)
          rw [hsolve]
          have := ih _ k' hG' hnd' hb'
          rw [← hk'] at this
          exact this

end

end Bento.Casso.Fl
