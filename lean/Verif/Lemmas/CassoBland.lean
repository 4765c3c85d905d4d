import Verif.Lemmas.CassoComplete
import Mathlib.Data.Fintype.Powerset
import Mathlib.Data.Finset.Max
import Mathlib.Order.Interval.Finset.Nat
import Mathlib.Data.Fintype.Pigeonhole

/-!
# The optimisation loop finishes under a fixed order (Bland's rule)

When every pick takes the first candidate of a fixed list of all symbols, no basis is visited twice.
The argument is the classical one: along a cycle all pivots are degenerate; the last symbol (in the
fixed order) that enters and leaves during the cycle would not have been the first candidate.
-/

namespace Bento.Casso
open Solver

/-- The position of a symbol in the fixed order. -/
def Sym.rank (s : Sym) : Nat := allSyms.idxOf s

theorem Sym.rank_inj {s t : Sym} (h : s.rank = t.rank) : s = t :=
  (List.idxOf_inj (mem_allSyms s)).1 h

theorem head_filter_rank (p : Sym → Bool) : ∀ (l : List Sym) (a : Sym),
    (l.filter p).head? = some a → ∀ b ∈ l, p b = true → l.idxOf a ≤ l.idxOf b := by
  intro l
  induction l with
  | nil => intro a h; simp at h
  | cons c l ih =>
    intro a h b hb hpb
    by_cases hc : p c = true
    · rw [List.filter_cons_of_pos hc, List.head?_cons, Option.some.injEq] at h
      subst h
      simp
    · rw [List.filter_cons_of_neg hc] at h
      have hmem : a ∈ l.filter p := List.mem_of_head? h
      have hpa : p a = true := (List.mem_filter.1 hmem).2
      have hca : c ≠ a := by rintro rfl; exact hc hpa
      have hcb : c ≠ b := by rintro rfl; exact hc hpb
      rw [List.idxOf_cons_ne _ hca, List.idxOf_cons_ne _ hcb]
      rcases List.mem_cons.1 hb with rfl | hb
      · exact absurd rfl hcb
      · have := ih a h b hb hpb
        omega

theorem pick_zero {ω k} (hω : ω k = 0) (l : List Sym) : pick ω k l = l.head? := by
  unfold pick
  rw [hω, Nat.zero_mod, List.head?_eq_getElem?]

/-- One pivot that takes the first candidate in the fixed order for both symbols. -/
structure BStep (sel : Solver → Row) (S S' : Solver) (e l : Sym) : Prop where
  neg : (sel S).cells e < 0
  notDummy : e.type ≠ .dummy
  first : ∀ u : Sym, u.type ≠ .dummy → (sel S).cells u < 0 → e.rank ≤ u.rank
  leave : ∃ row, S.rows l = some row ∧ l.type ≠ .external ∧ row.cells e < 0 ∧
    (∀ t r', S.rows t = some r' → t.type ≠ .external → r'.cells e < 0 →
      -row.constant / row.cells e ≤ -r'.constant / r'.cells e) ∧
    (∀ t r', S.rows t = some r' → t.type ≠ .external → r'.cells e < 0 →
      -r'.constant / r'.cells e ≤ -row.constant / row.cells e → l.rank ≤ t.rank) ∧
    S' = (dropRow S l (S.clock + 2)).pivotIn e (row.solveForSymbols l e)

section step
variable {Φ : (Sym → ℚ) → Prop} {κ α κ' : (Sym → ℚ) → ℚ} {sel : Solver → Row} {S S' : Solver}
  {e l : Sym}

theorem BStep.enter_nb (hB : BStep sel S S' e l) (hS : SelFacts sel κ' S) : S.rows e = none := by
  cases h : S.rows e with
  | none => rfl
  | some r => have := hS.nb e r h; have := hB.neg; linarith

theorem BStep.enter_ext (hB : BStep sel S S' e l) (hS : SelFacts sel κ' S) : e.type ≠ .external := by
  intro h; have := hS.ext e h; have := hB.neg; linarith

theorem BStep.good (hB : BStep sel S S' e l) (hG : Good Φ κ α S) (hS : SelFacts sel κ' S) :
    Good Φ κ α S' := by
  obtain ⟨row, hrow, hlt, hc, hmin, -, rfl⟩ := hB.leave
  have hef : e.value.val < S.idTick := by
    by_contra h
    have := hS.fresh e (by omega); have := hB.neg; linarith
  exact good_exchange hG _ hrow (hB.enter_nb hS) hc.ne hef
    (pivotOK_optimize hG _ (hB.enter_nb hS) hB.notDummy (hB.enter_ext hS) hrow hlt hc hmin)

theorem BStep.artificial (hB : BStep sel S S' e l) :
    S'.artificial.isSome = S.artificial.isSome := by
  obtain ⟨row, -, -, -, -, -, rfl⟩ := hB.leave
  rw [pivotIn_artificial]; simp [dropRow]

theorem BStep.basis (hB : BStep sel S S' e l) (u : Sym) :
    (S'.rows u).isSome = true ↔ u = e ∨ (u ≠ l ∧ (S.rows u).isSome = true) := by
  obtain ⟨row, -, -, -, -, -, rfl⟩ := hB.leave
  rw [pivotIn_rows]
  by_cases hu : u = e
  · simp [hu]
  · by_cases hul : u = l
    · simp [hul, dropRow]
    · simp [hu, hul, dropRow]

/-- The new basic solution is the old one with the entering symbol raised. -/
theorem BStep.raise (hB : BStep sel S S' e l) (hG : Good Φ κ α S) (hS : SelFacts sel κ' S) :
    basicSol S' = raiseSol S e (basicSol S' e) := by
  have hG' := hB.good hG hS
  have hsol : Sol S (basicSol S') := (hG.sol _).2 ((hG'.sol _).1 (sol_basicSol hG'.tab))
  have hnb : ∀ u, S.rows u = none → u ≠ e → basicSol S' u = 0 := by
    intro u hu hue
    have : ¬ (S'.rows u).isSome = true := by
      rw [hB.basis]; simp [hue, hu]
    exact basicSol_none (by simpa using this)
  funext u
  cases hu : S.rows u with
  | none =>
    simp only [raiseSol, hu]
    split_ifs with h
    · rw [h]
    · exact hnb u hu h
  | some r =>
    rw [hsol u r hu]
    have : r.eval (basicSol S') = r.eval (raiseSol S e (basicSol S' e)) := by
      apply Row.eval_congr
      intro t ht
      cases hb : S.rows t with
      | none =>
        simp only [raiseSol, hb]
        split_ifs with h
        · rw [h]
        · exact hnb t hb h
      | some r' => exact absurd (hG.tab.nb u r t r' hu hb) ht
    rw [this, ← sol_raiseSol hG.tab e (basicSol S' e) u r hu]

theorem raiseSol_zero (S : Solver) (e : Sym) : raiseSol S e 0 = basicSol S := by
  funext u
  cases hu : S.rows u with
  | none => simp [raiseSol, basicSol, hu]
  | some r => simp [raiseSol, basicSol, hu]

theorem value_eq (hG : Good Φ κ α S) (hS : SelFacts sel κ' S) :
    κ' (basicSol S) = (sel S).constant := by
  rw [← hS.eval _ (sol_basicSol hG.tab), eval_basicSol _ hS.nb]

theorem value_raise (hG : Good Φ κ α S) (hS : SelFacts sel κ' S) (e : Sym) (q : ℚ) :
    κ' (raiseSol S e q) = (sel S).constant + (sel S).cells e * q := by
  rw [← hS.eval _ (sol_raiseSol hG.tab e q), eval_raiseSol _ e q hS.nb]

theorem BStep.value (hB : BStep sel S S' e l) (hG : Good Φ κ α S) (hS : SelFacts sel κ' S) :
    κ' (basicSol S') ≤ κ' (basicSol S) ∧
    (κ' (basicSol S') = κ' (basicSol S) → basicSol S' = basicSol S) := by
  have hG' := hB.good hG hS
  have h0 : 0 ≤ basicSol S' e := (adm_basicSol hG'.tab).1 e (hB.enter_ext hS)
  have h1 : κ' (basicSol S') = (sel S).constant + (sel S).cells e * basicSol S' e := by
    rw [← value_raise hG hS, ← hB.raise hG hS]
  rw [value_eq hG hS, h1]
  have hneg := hB.neg
  constructor
  · nlinarith
  · intro h
    have : (sel S).cells e * basicSol S' e = 0 := by linarith
    rcases mul_eq_zero.1 this with h | h
    · exact absurd h hneg.ne
    · rw [hB.raise hG hS, h, raiseSol_zero]

end step

/-- The basic solution is determined by the set of basic symbols. -/
theorem basicSol_of_basis {Φ κ α} {S T : Solver} (hS : Good Φ κ α S) (hT : Good Φ κ α T)
    (h : ∀ u, (S.rows u).isSome = (T.rows u).isSome) : basicSol S = basicSol T := by
  have hsol : Sol T (basicSol S) := (hT.sol _).2 ((hS.sol _).1 (sol_basicSol hS.tab))
  funext u
  cases hu : T.rows u with
  | none =>
    rw [basicSol_none hu]
    have := h u
    rw [hu] at this
    exact basicSol_none (by simpa using this)
  | some r =>
    rw [hsol u r hu, basicSol_some hu]
    have : r.eval (basicSol S) = r.eval (basicSol T) := by
      apply Row.eval_congr
      intro t ht
      cases hb : T.rows t with
      | none =>
        rw [basicSol_none hb]
        have := h t
        rw [hb] at this
        exact basicSol_none (by simpa using this)
      | some r' => exact absurd (hT.tab.nb u r t r' hu hb) ht
    rw [this, eval_basicSol r (fun b' r' h' => hT.tab.nb _ _ _ _ hu h')]

/-- No basis occurs twice. -/
theorem bland_no_cycle {Φ κ α κ'} {sel : Solver → Row} {f : Nat → Solver} {e l : Nat → Sym}
    {i j : Nat} (hij : i < j)
    (hG : ∀ n, i ≤ n → n ≤ j → Good Φ κ α (f n)) (hS : ∀ n, i ≤ n → n ≤ j → SelFacts sel κ' (f n))
    (hB : ∀ n, i ≤ n → n < j → BStep sel (f n) (f (n + 1)) (e n) (l n))
    (hbas : ∀ u, ((f i).rows u).isSome = ((f j).rows u).isSome) : False := by
  -- the value never increases, so it is constant
  have anti : ∀ a b, i ≤ a → a ≤ b → b ≤ j → κ' (basicSol (f b)) ≤ κ' (basicSol (f a)) := by
    intro a b ha hab
    induction b, hab using Nat.le_induction with
    | base => intro _; exact le_refl _
    | succ b hab ih =>
      intro hb
      exact le_trans ((hB b (by omega) (by omega)).value (hG b (by omega) (by omega))
        (hS b (by omega) (by omega))).1 (ih (by omega))
  have hends : basicSol (f i) = basicSol (f j) :=
    basicSol_of_basis (hG i (le_refl _) hij.le) (hG j hij.le (le_refl _)) hbas
  have hval : ∀ n, i ≤ n → n ≤ j → κ' (basicSol (f n)) = κ' (basicSol (f i)) := by
    intro n h1 h2
    apply le_antisymm (anti i n (le_refl _) h1 h2)
    rw [hends]; exact anti n j h1 h2 (le_refl _)
  have hsame : ∀ n, i ≤ n → n ≤ j → basicSol (f n) = basicSol (f i) := by
    intro n h1
    induction n, h1 using Nat.le_induction with
    | base => intro _; rfl
    | succ n h1 ih =>
      intro h2
      have := ((hB n (by omega) (by omega)).value (hG n (by omega) (by omega))
        (hS n (by omega) (by omega))).2
        (by rw [hval (n + 1) (by omega) h2, hval n h1 (by omega)])
      rw [this, ih (by omega)]
  -- a symbol that is basic at one time and not at another enters at some time
  have enters : ∀ u a b, i ≤ a → a ≤ j → i ≤ b → b ≤ j → ((f a).rows u).isSome = true →
      ((f b).rows u).isSome = false → ∃ n, i ≤ n ∧ n < j ∧ e n = u := by
    intro u a b ha ha' hb hb' hau hbu
    by_contra hne
    have down : ∀ c, i ≤ c → ∀ d, c ≤ d → d ≤ j → ((f d).rows u).isSome = true →
        ((f c).rows u).isSome = true := by
      intro c hc d hcd
      induction d, hcd using Nat.le_induction with
      | base => intro _ h; exact h
      | succ d hcd ih =>
        intro hd h
        apply ih (by omega)
        rcases ((hB d (by omega) (by omega)).basis u).1 h with h | h
        · exact absurd ⟨d, by omega, by omega, h.symm⟩ hne
        · exact h.2
    have h1 := down i (le_refl _) a ha ha' hau
    rw [hbas] at h1
    have h2 := down b hb j hb' (le_refl _) h1
    rw [hbu] at h2; cases h2
  -- a symbol that enters also leaves
  have leaves : ∀ n, i ≤ n → n < j → ∃ m, i ≤ m ∧ m < j ∧ l m = e n := by
    intro n hn hn'
    by_contra hne
    have up : ∀ c, i ≤ c → ∀ d, c ≤ d → d ≤ j → ((f c).rows (e n)).isSome = true →
        ((f d).rows (e n)).isSome = true := by
      intro c hc d hcd
      induction d, hcd using Nat.le_induction with
      | base => intro _ h; exact h
      | succ d hcd ih =>
        intro hd h
        rw [(hB d (by omega) (by omega)).basis]
        right
        exact ⟨fun he => hne ⟨d, by omega, by omega, he.symm⟩, ih (by omega) h⟩
    have h1 : ((f (n + 1)).rows (e n)).isSome = true := by
      rw [(hB n hn hn').basis]; exact Or.inl rfl
    have h2 := up (n + 1) (by omega) j (by omega) (le_refl _) h1
    rw [← hbas] at h2
    have h3 := up i (le_refl _) n hn (by omega) h2
    rw [(hB n hn hn').enter_nb (hS n hn hn'.le)] at h3
    cases h3
  -- the last symbol that enters, and the time when it leaves
  obtain ⟨q, hq, hmax⟩ := Finset.exists_max_image (Finset.Ico i j) (fun n => (e n).rank)
    ⟨i, Finset.mem_Ico.2 ⟨le_refl _, hij⟩⟩
  obtain ⟨hq1, hq2⟩ := Finset.mem_Ico.1 hq
  have hmax' : ∀ n, i ≤ n → n < j → (e n).rank ≤ (e q).rank := fun n h1 h2 =>
    hmax n (Finset.mem_Ico.2 ⟨h1, h2⟩)
  obtain ⟨p, hp1, hp2, hpl⟩ := leaves q hq1 hq2
  have hBp := hB p hp1 hp2
  have hBq := hB q hq1 hq2
  have hGp := hG p hp1 hp2.le
  have hGq := hG q hq1 hq2.le
  have hSp := hS p hp1 hp2.le
  have hSq := hS q hq1 hq2.le
  obtain ⟨row, hrow, hlt, hc, hmin, hfirst, -⟩ := hBp.leave
  rw [hpl] at hrow hlt hfirst
  -- symbols that enter are at zero
  have zero : ∀ n, i ≤ n → n < j → basicSol (f p) (e n) = 0 := by
    intro n h1 h2
    rw [hsame p hp1 hp2.le, ← hsame n h1 h2.le]
    exact basicSol_none ((hB n h1 h2).enter_nb (hS n h1 h2.le))
  have hrow0 : row.constant = 0 := by
    rw [← basicSol_some hrow]; exact zero q hq1 hq2
  -- compare the two objective rows along the direction of the entering symbol
  have hsum : ∑ u, (sel (f q)).cells u * (raiseSol (f p) (e p) 1 u - basicSol (f p) u)
      = (sel (f p)).cells (e p) := by
    have h1 : (sel (f q)).eval (raiseSol (f p) (e p) 1) = (sel (f p)).constant + (sel (f p)).cells (e p) := by
      rw [hSq.eval _ ((hGq.sol _).2 ((hGp.sol _).1 (sol_raiseSol hGp.tab _ _))),
        value_raise hGp hSp, mul_one]
    have h2 : (sel (f q)).eval (basicSol (f p)) = (sel (f p)).constant := by
      rw [hSq.eval _ ((hGq.sol _).2 ((hGp.sol _).1 (sol_basicSol hGp.tab))), value_eq hGp hSp]
    unfold Row.eval at h1 h2
    simp only [mul_sub, Finset.sum_sub_distrib]
    linarith
  have hex : ∃ u, (sel (f q)).cells u * (raiseSol (f p) (e p) 1 u - basicSol (f p) u) < 0 := by
    by_contra hne
    have : 0 ≤ ∑ u, (sel (f q)).cells u * (raiseSol (f p) (e p) 1 u - basicSol (f p) u) := by
      apply Finset.sum_nonneg
      intro u _
      by_contra h
      exact hne ⟨u, not_le.1 h⟩
    rw [hsum] at this
    have := hBp.neg
    linarith
  obtain ⟨u, hu⟩ := hex
  have hnbp := hBp.enter_nb hSp
  cases hup : (f p).rows u with
  | none =>
    by_cases hue : u = e p
    · -- the entering symbol itself
      subst hue
      simp only [raiseSol, basicSol, hup, if_true, sub_zero, mul_one] at hu
      have h1 := hBq.first _ hBp.notDummy hu
      have h2 := hmax' p hp1 hp2
      have h3 := Sym.rank_inj (le_antisymm h1 h2)
      rw [h3] at hrow
      rw [hrow] at hnbp
      cases hnbp
    · simp [raiseSol, basicSol, hup, hue] at hu
  | some r =>
    have hd : raiseSol (f p) (e p) 1 u - basicSol (f p) u = r.cells (e p) := by
      simp [raiseSol, basicSol, hup]
    rw [hd] at hu
    -- `u` is not basic at `q`, so it enters at some time
    have huq : (f q).rows u = none := by
      cases h : (f q).rows u with
      | none => rfl
      | some r' => rw [hSq.nb u r' h] at hu; simp at hu
    obtain ⟨n, hn1, hn2, hnu⟩ := enters u p q hp1 hp2.le hq1 hq2.le (by simp [hup]) (by simp [huq])
    have hBn := hB n hn1 hn2
    have hule : u.rank ≤ (e q).rank := by rw [← hnu]; exact hmax' n hn1 hn2
    have hune : u ≠ e q := by
      rintro rfl
      rw [hrow, Option.some.injEq] at hup
      subst hup
      have := hBq.neg
      nlinarith
    have hud : u.type ≠ .dummy := by rw [← hnu]; exact hBn.notDummy
    have hue : u.type ≠ .external := by rw [← hnu]; exact hBn.enter_ext (hS n hn1 hn2.le)
    have hpos : 0 ≤ (sel (f q)).cells u := by
      by_contra h
      exact hune (Sym.rank_inj (le_antisymm hule (hBq.first u hud (not_le.1 h))))
    have hneg : r.cells (e p) < 0 := by
      by_contra h
      have := mul_nonneg hpos (not_lt.1 h)
      linarith
    have hr0 : r.constant = 0 := by
      rw [← basicSol_some hup, ← hnu]; exact zero n hn1 hn2
    have := hfirst u r hup hue hneg (by rw [hr0, hrow0]; simp)
    exact hune (Sym.rank_inj (le_antisymm hule this))

theorem varChanged_clock (S : Solver) (v : Var) : (S.varChanged v).clock = S.clock := by
  unfold varChanged; split_ifs <;> rfl

theorem fold_clock (vs : List Var) : ∀ S : Solver, (vs.foldl varChanged S).clock = S.clock := by
  induction vs with
  | nil => intro S; rfl
  | cons v vs ih => intro S; rw [List.foldl_cons, ih, varChanged_clock]

theorem pivotIn_clock (S : Solver) (s : Sym) (row : Row) : (S.pivotIn s row).clock = S.clock := by
  unfold pivotIn Solver.substitute
  simp only
  split_ifs
  · rw [varChanged_clock, fold_clock]
  · rw [fold_clock]

theorem optimize_clock {S : Solver} {e l : Sym} {row : Row} :
    ((dropRow S l (S.clock + 2)).pivotIn e (row.solveForSymbols l e)).clock = S.clock + 2 := by
  rw [pivotIn_clock]; rfl

/-- A run that exhausts its fuel is a chain of pivots. -/
theorem optimize_chain {ω sel} : ∀ (n : Nat) (S : Solver),
    (∀ k, S.clock ≤ k → k < S.clock + 2 * n → ω k = 0) →
    optimize ω sel n S = .error .fuel →
    ∃ (f : Nat → Solver) (e l : Nat → Sym), f 0 = S ∧ ∀ i < n, BStep sel (f i) (f (i + 1)) (e i) (l i) := by
  intro n
  induction n with
  | zero =>
    intro S _ _
    exact ⟨fun _ => S, fun _ => symbolAt 0 .slack, fun _ => symbolAt 0 .slack, rfl,
      fun i hi => absurd hi (Nat.not_lt_zero _)⟩
  | succ n ih =>
    intro S hω h
    unfold optimize at h
    cases hent : getEnteringSymbol ω S.clock (sel S) with
    | none => rw [hent] at h; cases h
    | some e =>
      rw [hent] at h
      simp only at h
      cases hleave : getLeavingRow ω (S.clock + 1) S e with
      | none => rw [hleave] at h; cases h
      | some l =>
        rw [hleave] at h
        simp only at h
        obtain ⟨row, hrow, hlt, hc, hmin⟩ := leaving_some hleave
        rw [hrow] at h
        simp only at h
        obtain ⟨hed, hneg⟩ := entering_some hent
        have hclock := optimize_clock (S := S) (l := l) (e := e) (row := row)
        obtain ⟨f, es, ls, h0, hf⟩ := ih ((dropRow S l (S.clock + 2)).pivotIn e (row.solveForSymbols l e))
          (fun k hk hk' => hω k (by rw [hclock] at hk; omega) (by rw [hclock] at hk'; omega)) h
        have hstep : BStep sel S ((dropRow S l (S.clock + 2)).pivotIn e (row.solveForSymbols l e)) e l := by
          refine ⟨hneg, hed, ?_, row, hrow, hlt, hc, hmin, ?_, rfl⟩
          · intro u hu1 hu2
            unfold getEnteringSymbol at hent
            rw [pick_zero (hω _ (le_refl _) (by omega))] at hent
            exact head_filter_rank _ _ _ hent u (mem_allSyms u) (by simp [hu1, hu2])
          · intro t r' hr' ht hc' hle
            unfold getLeavingRow at hleave
            rw [pick_zero (hω _ (by omega) (by omega))] at hleave
            refine head_filter_rank _ _ _ hleave t (mem_allSyms t) ?_
            rw [leavingRatio_of hr' ht hc']
            simp only [List.all_eq_true]
            intro v _
            cases hv : S.leavingRatio e v with
            | none => simp
            | some q =>
              obtain ⟨rv, hrv, hvt, hvc, rfl⟩ := leavingRatio_some hv
              have := hmin v rv hrv hvt hvc
              simpa using le_trans hle this
        refine ⟨fun i => match i with | 0 => S | i + 1 => f i, fun i => match i with | 0 => e | i + 1 => es i,
          fun i => match i with | 0 => l | i + 1 => ls i, rfl, ?_⟩
        intro i hi
        cases i with
        | zero => simp only [h0]; exact hstep
        | succ i => exact hf i (by omega)

/-- The number of sets of symbols: no run under the fixed order makes more pivots.
(There are 1024 symbols: 256 numbers of four types, `card_sym`.) -/
@[irreducible] def pivotBound : Nat := 2 ^ Fintype.card Sym

theorem card_sym : Fintype.card Sym = 1024 := by
  have h4 : Fintype.card SymType = 4 := rfl
  rw [Fintype.card_congr symEquiv, Fintype.card_prod, Fintype.card_fin, h4]

theorem card_basis : Fintype.card (Finset Sym) = pivotBound := by
  unfold pivotBound
  exact Fintype.card_finset

theorem optimize_fuel {ω sel} : ∀ (n d : Nat) (S : Solver), optimize ω sel n S ≠ .error .fuel →
    optimize ω sel (n + d) S = optimize ω sel n S := by
  intro n
  induction n with
  | zero => intro d S h; exact absurd rfl h
  | succ n ih =>
    intro d S h
    rw [show n + 1 + d = (n + d) + 1 by omega]
    unfold optimize at h ⊢
    cases hent : getEnteringSymbol ω S.clock (sel S) with
    | none => rfl
    | some e =>
      rw [hent] at h
      simp only at h ⊢
      cases hleave : getLeavingRow ω (S.clock + 1) S e with
      | none => rfl
      | some l =>
        rw [hleave] at h
        simp only at h ⊢
        cases hrow : S.rows l with
        | none => rfl
        | some row =>
          rw [hrow] at h
          exact ih d _ h

theorem optimize_clock_le {ω sel} : ∀ (n : Nat) (S S' : Solver), optimize ω sel n S = .ok S' →
    S'.clock ≤ S.clock + 2 * n := by
  intro n
  induction n with
  | zero => intro S S' h; simp [optimize] at h
  | succ n ih =>
    intro S S' h
    unfold optimize at h
    cases hent : getEnteringSymbol ω S.clock (sel S) with
    | none =>
      rw [hent] at h
      simp only [Except.ok.injEq] at h
      rw [h]; omega
    | some e =>
      rw [hent] at h
      simp only at h
      cases hleave : getLeavingRow ω (S.clock + 1) S e with
      | none => rw [hleave] at h; simp at h
      | some l =>
        rw [hleave] at h
        simp only at h
        cases hrow : S.rows l with
        | none => rw [hrow] at h; simp at h
        | some row =>
          rw [hrow] at h
          have := ih _ S' h
          rw [pivotIn_clock] at this
          simp only at this
          omega

/-- Under the fixed order the loop ends after at most `pivotBound` pivots. -/
theorem optimize_fixed_order {ω sel Φ κ α κ'} {b : Bool}
    (hsel : ∀ S, Good Φ κ α S → S.artificial.isSome = b → SelFacts sel κ' S) {S : Solver}
    (hG : Good Φ κ α S) (hb : S.artificial.isSome = b) {n : Nat} (hn : pivotBound = n)
    (hω : ∀ k, S.clock ≤ k → k < S.clock + 2 * n → ω k = 0) :
    optimize ω sel n S ≠ .error .fuel := by
  intro h
  obtain ⟨f, e, l, h0, hB⟩ := optimize_chain n S hω h
  have hall : ∀ i ≤ n, Good Φ κ α (f i) ∧ (f i).artificial.isSome = b := by
    intro i
    induction i with
    | zero => intro _; rw [h0]; exact ⟨hG, hb⟩
    | succ i ih =>
      intro hi
      obtain ⟨h1, h2⟩ := ih (by omega)
      exact ⟨(hB i (by omega)).good h1 (hsel _ h1 h2), by rw [(hB i (by omega)).artificial, h2]⟩
  obtain ⟨a, c, hne, hac⟩ := Fintype.exists_ne_map_eq_of_card_lt
    (fun i : Fin (n + 1) => Finset.univ.filter fun u => ((f i.val).rows u).isSome = true)
    (by rw [card_basis, Fintype.card_fin, hn]; omega)
  have hac' : ∀ u, ((f a.val).rows u).isSome = ((f c.val).rows u).isSome := by
    intro u
    have := Finset.ext_iff.1 hac u
    simp only [Finset.mem_filter, Finset.mem_univ, true_and] at this
    exact Bool.eq_iff_iff.2 this
  have key : ∀ i j : Nat, i < j → j ≤ n → (∀ u, ((f i).rows u).isSome = ((f j).rows u).isSome) → False := by
    intro i j hij hj hu
    exact bland_no_cycle (e := e) (l := l) hij (fun m _ hm => (hall m (by omega)).1)
      (fun m _ hm => hsel _ (hall m (by omega)).1 (hall m (by omega)).2)
      (fun m _ hm => hB m (by omega)) hu
  rcases Nat.lt_or_gt_of_ne (fun hh => hne (Fin.ext hh)) with h | h
  · exact key _ _ h (by have := c.2; omega) hac'
  · exact key _ _ h (by have := a.2; omega) (fun u => (hac' u).symm)

/-- A stretch `[k, K + 2 * N + 2)` of the stream in which the fixed order is followed makes the loop
end, whatever the picks before `k` were. -/
theorem optimize_window {ω sel Φ κ α κ'} {b : Bool}
    (hsel : ∀ S, Good Φ κ α S → S.artificial.isSome = b → SelFacts sel κ' S) {k K N : Nat}
    (hN : pivotBound = N) (hkK : k ≤ K) (hω : ∀ i, k ≤ i → i < K + 2 * N + 2 → ω i = 0) :
    ∀ (n : Nat) (S : Solver), Good Φ κ α S → S.artificial.isSome = b →
    k ≤ S.clock + n → S.clock ≤ K + 1 →
    optimize ω sel (n + N) S ≠ .error .fuel ∧
    ∀ S', optimize ω sel (n + N) S = .ok S' → S'.clock ≤ K + 2 * N + 2 := by
  intro n
  induction n with
  | zero =>
    intro S hG hb hk hK
    have := optimize_fixed_order hsel hG hb hN (fun i hi hi' => hω i (by omega) (by omega))
    rw [Nat.zero_add]
    exact ⟨this, fun S' h => by have := optimize_clock_le _ _ _ h; omega⟩
  | succ n ih =>
    intro S hG hb hk hK
    by_cases hkS : k ≤ S.clock
    · have := optimize_fixed_order hsel hG hb hN (fun i hi hi' => hω i (by omega) (by omega))
      rw [show n + 1 + N = N + (n + 1) by omega, optimize_fuel _ _ _ this]
      exact ⟨this, fun S' h => by have := optimize_clock_le _ _ _ h; omega⟩
    · rw [show n + 1 + N = (n + N) + 1 by omega]
      unfold optimize
      cases hent : getEnteringSymbol ω S.clock (sel S) with
      | none =>
        refine ⟨by simp, fun S' h => ?_⟩
        simp only [Except.ok.injEq] at h
        rw [← h]; omega
      | some e =>
        simp only
        cases hleave : getLeavingRow ω (S.clock + 1) S e with
        | none => refine ⟨by simp, fun S' h => by simp at h⟩
        | some l =>
          simp only
          obtain ⟨row, hrow, -⟩ := leaving_some hleave
          rw [hrow]
          have hG' := optimize_step hG (hsel S hG hb) (S.clock + 2) hent hleave hrow
          refine ih _ hG' ?_ ?_ ?_
          · rw [pivotIn_artificial]; simpa [dropRow] using hb
          · rw [pivotIn_clock]; simp only; omega
          · rw [pivotIn_clock]; simp only; omega

theorem optimize_window' {ω sel Φ κ α κ'} {b : Bool}
    (hsel : ∀ S, Good Φ κ α S → S.artificial.isSome = b → SelFacts sel κ' S) {k K N fuel : Nat}
    (hN : pivotBound = N) (hkK : k ≤ K) (hω : ∀ i, k ≤ i → i < K + 2 * N + 2 → ω i = 0)
    (hf : k + N ≤ fuel) {S : Solver} (hG : Good Φ κ α S)
    (hb : S.artificial.isSome = b) (hK : S.clock ≤ K) :
    optimize ω sel fuel S ≠ .error .fuel ∧
    ∀ S', optimize ω sel fuel S = .ok S' → S'.clock ≤ K + 2 * N + 2 := by
  have := optimize_window hsel hN hkK hω (fuel - N) S hG hb (by omega) (by omega)
  rwa [show fuel - N + N = fuel by omega] at this

theorem getVarSymbol_clock (S : Solver) (v : Var) : (S.getVarSymbol v).1.clock = S.clock := by
  unfold getVarSymbol
  cases S.varSym v <;> rfl

theorem addTerms_clock (ts : List (Var × ℚ)) : ∀ (S : Solver) (row : Row),
    (S.addTerms row ts).1.clock = S.clock := by
  induction ts with
  | nil => intro S row; rfl
  | cons t ts ih =>
    intro S row
    obtain ⟨v, k⟩ := t
    unfold addTerms
    split_ifs
    · exact ih S row
    · simp only
      split
      · rw [ih, getVarSymbol_clock]
      · rw [ih, getVarSymbol_clock]

theorem addMarkers_clock (S : Solver) (row : Row) (c : Constr) :
    (S.addMarkers row c).1.clock = S.clock := by
  unfold addMarkers
  by_cases h : c.strength < required
  · cases c.op <;> simp only <;> rw [if_pos h]
  · cases c.op <;> simp only <;> rw [if_neg h]

theorem createRow_clock (S : Solver) (c : Constr) : (S.createRow c).1.clock = S.clock := by
  unfold createRow
  simp only
  rw [addMarkers_clock, addTerms_clock]

theorem finishArtificial_clock {ω art} {S : Solver} :
    (finishArtificial ω art S).1.clock ≤ S.clock + 1 := by
  unfold finishArtificial
  simp only
  split
  · split_ifs
    · simp
    · split
      · simp
      · simp [removeSymbol, pivotIn_clock]
  · simp [removeSymbol]

theorem insertConstraint_window {ω k K N fuel} {Φ κ α} {S : Solver} {c : Constr} (hG : Good Φ κ α S)
    {S1 row tag} (hcr : S.createRow c = (S1, row, tag))
    (hn : S1.idTick ≤ 256)
    (hn' : c.IsRequired → (∀ t : Sym, t.type = .external → row.cells t = 0) → S1.idTick + 1 ≤ 256)
    (hN : pivotBound = N) (hkK : k ≤ K) (hω : ∀ i, k ≤ i → i < K + 2 * N + 4 → ω i = 0)
    (hf : k + N ≤ fuel) (hK : S.clock ≤ K) :
    S.insertConstraint ω fuel c ≠ .error .fuel ∧
    ∀ S', S.insertConstraint ω fuel c = .ok S' → S'.clock ≤ K + 2 * N + 4 := by
  have hC := createRow_ok hG hcr hn
  have hck : S1.clock = S.clock := by
    have := createRow_clock S c
    rwa [hcr] at this
  unfold insertConstraint
  rw [hcr]
  simp only
  cases hcs : chooseSubject ω S1.clock row tag with
  | some s =>
    refine ⟨by simp, fun S' h => ?_⟩
    simp only [Except.ok.injEq] at h
    rw [← h, pivotIn_clock]; simp only; omega
  | none =>
    have hn1 := hn' (subject_of_weak hC hcs) (chooseSubject_none hcs).1
    simp only
    by_cases had : allDummies row = true
    · rw [if_pos had]
      split_ifs
      · exact ⟨by simp, fun S' h => by simp at h⟩
      · refine ⟨by simp, fun S' h => ?_⟩
        simp only [Except.ok.injEq] at h
        rw [← h, pivotIn_clock]; simp only; omega
    · rw [if_neg had]
      obtain ⟨hext, _⟩ := chooseSubject_none hcs
      have hG2 := good_artState (good_clock hC.good (S1.clock + 1)) hext hC.nonneg hC.nb hC.fresh hn1
      have hw := optimize_window' (K := K + 1) (b := true) (fun S hG hb => selFacts_artificial hG hb)
        hN (by omega) (fun i hi hi' => hω i hi (by omega)) hf hG2 rfl
        (by simp only [artState]; omega)
      rw [artState_eq] at hw
      unfold addWithArtificialVariable
      simp only at hw ⊢
      revert hw
      generalize optimize ω artificialRow fuel _ = o
      rintro ⟨hw1, hw2⟩
      cases o with
      | error e' => exact ⟨fun h => hw1 h, fun S' h => by simp at h⟩
      | ok S2 =>
        have hw2 := hw2 S2 rfl
        have hfc := finishArtificial_clock (ω := ω) (art := symbolAt S1.idTick .slack) (S := S2)
        simp only
        cases hfa : finishArtificial ω (symbolAt S1.idTick .slack) S2 with
        | mk S3 ok =>
          rw [hfa] at hfc
          cases ok with
          | false => exact ⟨by simp, fun S' h => by simp at h⟩
          | true =>
            refine ⟨by simp, fun S' h => ?_⟩
            simp only [Except.ok.injEq] at h
            rw [← h]
            simp only at hfc
            omega

/-- One more constraint is handled in finitely many pivots. -/
theorem addConstraint_window {m ω k K N fuel} {seen : List Var} {S : Solver} {c : Constr}
    {H : List Entry} (hI : Inv S H) (hs : ∀ v ∉ seen, S.varSym v = none)
    (hv : ∀ v k, (v, k) ∈ c.expr.terms → v < m) (hn : pot m S + need seen c ≤ 256)
    (hN : pivotBound = N) (hkK : k ≤ K) (hω : ∀ i, k ≤ i → i < K + (4 * N + 6) → ω i = 0)
    (hf : k + N ≤ fuel) (hK : S.clock ≤ K) :
    S.addConstraint ω fuel c ≠ .error .fuel ∧
    ∀ S', S.addConstraint ω fuel c = .ok S' →
      pot m S' ≤ pot m S + need seen c ∧ S'.clock ≤ K + (4 * N + 6) := by
  generalize hcr : S.createRow c = p
  obtain ⟨S1, row, tag⟩ := p
  obtain ⟨hn1, hn2⟩ := createRow_room hI.good hs hv hn hcr
  obtain ⟨hfin, hfc⟩ := insertConstraint_window hI.good hcr hn1 hn2 hN hkK (fun i hi hi' => hω i hi (by omega)) hf hK
  unfold addConstraint
  cases hi : S.insertConstraint ω fuel c with
  | error e =>
    refine ⟨?_, fun S' h => by simp at h⟩
    intro h
    simp only at h
    rw [h] at hi
    exact hfin hi
  | ok S2 =>
    have hfc := hfc S2 hi
    have hp2 := insertConstraint_pot hI.good hs hv hn hi
    have hi2 := idTick_le_pot m S2
    obtain ⟨tag', hA⟩ := insertConstraint_ok hI.good hI.artificial hi (by omega)
    have hw := optimize_window' (K := K + 2 * N + 4) (b := false)
      (fun S hG _ => selFacts_objective hG) hN (by omega) (fun i hi hi' => hω i hi (by omega)) hf
      hA.good (by simp [hA.artificial]) hfc
    refine ⟨hw.1, fun S' h => ⟨?_, ?_⟩⟩
    · simp only at h
      exact le_trans (pot_congr (k := 0) (optimize_varSym _ _ _ h) (optimize_tick _ _ _ h).le) hp2
    · have := hw.2 S' h
      omega

theorem addConstraints_window {m ω k N fuel} (hN : pivotBound = N) (hf : k + N ≤ fuel)
    (cs : List Constr) : ∀ {seen : List Var} {S : Solver} {H : List Entry} (K : Nat), Inv S H →
    (∀ v ∉ seen, S.varSym v = none) →
    (∀ c ∈ cs, ∀ v k, (v, k) ∈ c.expr.terms → v < m) → pot m S + symbolsFor seen cs ≤ 256 →
    k ≤ K → S.clock ≤ K → (∀ i, k ≤ i → i < K + cs.length * (4 * N + 6) → ω i = 0) →
    S.addConstraints ω fuel cs ≠ .error .fuel := by
  induction cs with
  | nil => intro seen S H K _ _ _ _ _ _ _; simp [addConstraints]
  | cons c cs ih =>
    intro seen S H K hI hs hv hn hkK hK hω
    simp only [List.length_cons, Nat.add_mul, Nat.one_mul] at hω
    rw [symbolsFor_cons] at hn
    obtain ⟨h1, h2⟩ := addConstraint_window hI hs (hv c List.mem_cons_self) (by omega) hN hkK
      (fun i hi hi' => hω i hi (by omega)) hf hK
    unfold addConstraints
    cases h : S.addConstraint ω fuel c with
    | error e =>
      simp only
      intro he
      rw [he] at h
      exact h1 h
    | ok S1 =>
      simp only
      obtain ⟨hp, hck⟩ := h2 S1 h
      have hi1 := idTick_le_pot m S1
      obtain ⟨tag, hI1, _⟩ := addConstraint_inv hI h (by omega)
      exact ih (K + (4 * N + 6)) hI1 (addConstraint_seen hs h) (fun c hc => hv c (List.mem_cons_of_mem _ hc)) (by omega)
        (by omega) hck (fun i hi hi' => hω i hi (by omega))

end Bento.Casso
