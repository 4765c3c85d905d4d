import Verif.Lemmas.Integral

/-!
# The numbers in the tableau of a system of difference constraints
-/

namespace Bento.Casso
open Solver

/-- An integer of absolute value at most `B`. -/
def IntLe (B : ℤ) (q : ℚ) : Prop := ∃ n : ℤ, q = n ∧ |n| ≤ B

namespace IntLe

theorem zero {B : ℤ} (h : 0 ≤ B) : IntLe B 0 := ⟨0, by simp, by simpa using h⟩

theorem one {B : ℤ} (h : 1 ≤ B) : IntLe B 1 := ⟨1, by simp, by simpa using h⟩

theorem mono {A B : ℤ} {q : ℚ} (h : IntLe A q) (hAB : A ≤ B) : IntLe B q := by
  obtain ⟨n, h1, h2⟩ := h
  exact ⟨n, h1, le_trans h2 hAB⟩

theorem add {A B : ℤ} {p q : ℚ} (h : IntLe A p) (h' : IntLe B q) : IntLe (A + B) (p + q) := by
  obtain ⟨n, h1, h2⟩ := h
  obtain ⟨m, h3, h4⟩ := h'
  refine ⟨n + m, by rw [h1, h3]; push_cast; ring, le_trans (abs_add_le _ _) (add_le_add h2 h4)⟩

theorem mul {A B : ℤ} {p q : ℚ} (h : IntLe A p) (h' : IntLe B q) : IntLe (A * B) (p * q) := by
  obtain ⟨n, h1, h2⟩ := h
  obtain ⟨m, h3, h4⟩ := h'
  refine ⟨n * m, by rw [h1, h3]; push_cast; ring, ?_⟩
  rw [abs_mul]
  exact mul_le_mul h2 h4 (abs_nonneg _) (le_trans (abs_nonneg _) h2)

theorem neg {A : ℤ} {p : ℚ} (h : IntLe A p) : IntLe A (-p) := by
  obtain ⟨n, h1, h2⟩ := h
  exact ⟨-n, by rw [h1]; push_cast; ring, by rwa [abs_neg]⟩

theorem of_abs {B : ℤ} {q : ℚ} (h : ∃ n : ℤ, q = n) (hB : |q| ≤ B) : IntLe B q := by
  obtain ⟨n, rfl⟩ := h
  exact ⟨n, rfl, by exact_mod_cast hB⟩

theorem abs_le {B : ℤ} {q : ℚ} (h : IntLe B q) : |q| ≤ B := by
  obtain ⟨n, rfl, h⟩ := h
  exact_mod_cast h

end IntLe

/-- The sum of the absolute values of a symbol's coefficients. -/
def colSum (E : List IEqn) (t : Sym) : ℤ := (E.map fun e => |e.coef t|).sum

/-- The sum of the absolute values of the constants. -/
def constSum (E : List IEqn) : ℤ := (E.map fun e => |e.const|).sum

theorem colSum_nonneg (E : List IEqn) (t : Sym) : 0 ≤ colSum E t := by
  unfold colSum
  apply List.sum_nonneg
  intro x hx
  rw [List.mem_map] at hx
  obtain ⟨e, _, rfl⟩ := hx
  exact abs_nonneg _

theorem constSum_nonneg (E : List IEqn) : 0 ≤ constSum E := by
  unfold constSum
  apply List.sum_nonneg
  intro x hx
  rw [List.mem_map] at hx
  obtain ⟨e, _, rfl⟩ := hx
  exact abs_nonneg _

theorem coef_le_colSum {E : List IEqn} {e : IEqn} (he : e ∈ E) (t : Sym) : |e.coef t| ≤ colSum E t := by
  unfold colSum
  exact List.single_le_sum (l := E.map fun e => |e.coef t|)
    (by intro x hx
        rw [List.mem_map] at hx
        obtain ⟨e, _, rfl⟩ := hx
        exact abs_nonneg _) _ (List.mem_map_of_mem he)

theorem two_le_colSum {E : List IEqn} {t : Sym} : ∀ {e e' : IEqn}, e ∈ E → e' ∈ E → e ≠ e' →
    |e.coef t| + |e'.coef t| ≤ colSum E t := by
  induction E with
  | nil => intro e e' h; simp at h
  | cons a E ih =>
    intro e e' he he' hne
    have hcons : colSum (a :: E) t = |a.coef t| + colSum E t := by simp [colSum]
    rw [hcons]
    rcases List.mem_cons.1 he with h1 | h1
    · rcases List.mem_cons.1 he' with h2 | h2
      · exact absurd (h1.trans h2.symm) hne
      · have := coef_le_colSum h2 t
        rw [h1]
        omega
    · rcases List.mem_cons.1 he' with h2 | h2
      · have := coef_le_colSum h1 t
        rw [h2]
        omega
      · have := ih h1 h2 hne
        have := abs_nonneg (a.coef t)
        omega

/-- A system of difference constraints whose own symbols occur once, with bounds `K` on the
coefficients and `D` on the constants. -/
structure Sys (E : List IEqn) (K D : ℤ) : Prop where
  posExt : ∀ e ∈ E, ∀ s, e.pos = some s → s.type = .external
  negExt : ∀ e ∈ E, ∀ s, e.neg = some s → s.type = .external
  coefExt : ∀ e ∈ E, ∀ s : Sym, s.type = .external → e.coef s = 0
  own : ∀ s : Sym, s.type ≠ .dummy → colSum E s ≤ 1
  col : ∀ s : Sym, 1 + colSum E s ≤ K
  const : constSum E ≤ D

theorem Sys.shape {E K D} (h : Sys E K D) : Shape E := by
  refine ⟨h.posExt, h.negExt, h.coefExt, ?_, ?_⟩
  · intro e he s hs
    have h1 := coef_le_colSum he s
    have h2 := h.own s hs
    have h3 : |e.coef s| ≤ 1 := by omega
    have := abs_le.1 h3
    omega
  · intro e he e' he' s hs hc hc'
    by_contra hne
    have h1 := two_le_colSum (t := s) he he' hne
    have h2 := h.own s hs
    have := abs_pos.2 hc
    have := abs_pos.2 hc'
    omega

theorem Sys.one_le {E K D} (h : Sys E K D) : 1 ≤ K := by
  have := h.col ⟨0, .slack⟩
  have := colSum_nonneg E ⟨0, .slack⟩
  omega

theorem Sys.nonneg {E K D} (h : Sys E K D) : 0 ≤ D := le_trans (constSum_nonneg E) h.const

/-- No dummy symbol is basic. -/
def NoDum (S : Solver) : Prop := ∀ s : Sym, S.rows s ≠ none → s.type ≠ .dummy

/-- The direction of the basic solution when one symbol is raised. -/
def dirSol (S : Solver) (t s : Sym) : ℚ := raiseSol S t 1 s - basicSol S s

theorem dirSol_some {S : Solver} {t s r} (h : S.rows s = some r) : dirSol S t s = r.cells t := by
  simp [dirSol, raiseSol, basicSol, h]

theorem dirSol_none {S : Solver} {t s} (h : S.rows s = none) :
    dirSol S t s = if s = t then 1 else 0 := by
  simp [dirSol, raiseSol, basicSol, h]

section
variable {E : List IEqn} {K D : ℤ} {S : Solver}

theorem basis_of (hT : Tab S) (hΦ : ∀ σ, Sol S σ ↔ ∀ e ∈ E, e.eval σ = 0) (hnd : NoDum S) :
    Basis E (fun s => S.rows s ≠ none) := by
  refine ⟨hnd, ?_⟩
  intro τ hτ hz
  have h0 := sol_basicSol hT
  have h1 : Sol S (fun s => basicSol S s + τ s) := by
    rw [hΦ]
    intro e he
    have := (hΦ _).1 h0 e he
    unfold IEqn.eval at this ⊢
    rw [IEqn.lin_add, hτ e he]
    linarith
  have h2 := sol_unique hT h1 (by
    intro s hs
    simp only [basicSol_none hs, zero_add]
    exact hz s (by simp [hs]))
  intro s
  have := congrFun h2 s
  linarith

theorem intSol_basic (hT : Tab S) (hΦ : ∀ σ, Sol S σ ↔ ∀ e ∈ E, e.eval σ = 0) :
    IntSol E (fun s => S.rows s ≠ none) (fun e => e.const) (fun _ => 0) (basicSol S) := by
  refine ⟨?_, ?_, fun _ _ => rfl⟩
  · intro e he
    exact (hΦ _).1 (sol_basicSol hT) e he
  · intro s hs
    have : S.rows s = none := by simpa using hs
    simp [basicSol_none this]

theorem intSol_dir (hT : Tab S) (hΦ : ∀ σ, Sol S σ ↔ ∀ e ∈ E, e.eval σ = 0) {t : Sym}
    (ht : S.rows t = none) :
    IntSol E (fun s => S.rows s ≠ none) (fun _ => 0) (fun s => if s = t then 1 else 0)
      (dirSol S t) := by
  refine ⟨?_, ?_, ?_⟩
  · intro e he
    have h1 := (hΦ _).1 (sol_basicSol hT) e he
    have h2 := (hΦ _).1 (sol_raiseSol hT t 1) e he
    have : dirSol S t = fun s => raiseSol S t 1 s - basicSol S s := rfl
    rw [this, IEqn.lin_sub]
    unfold IEqn.eval at h1 h2
    push_cast
    linarith
  · intro s hs
    have : S.rows s = none := by simpa using hs
    rw [dirSol_none this]
    split_ifs <;> simp
  · intro s hs
    rw [if_neg]
    rintro rfl
    exact hs ht

theorem fixedSum_basic : fixedSum E (fun e => e.const) (fun _ => 0) = constSum E := by
  simp [fixedSum, fixedPart, constSum]

theorem fixedSum_dir (t : Sym) :
    fixedSum E (fun _ => 0) (fun s => if s = t then 1 else 0) = colSum E t := by
  simp [fixedSum, fixedPart, colSum]

theorem basicSol_le (hT : Tab S) (hΦ : ∀ σ, Sol S σ ↔ ∀ e ∈ E, e.eval σ = 0) (hnd : NoDum S)
    (hE : Sys E K D) (s : Sym) : IntLe D (basicSol S s) := by
  cases hs : S.rows s with
  | none => rw [basicSol_none hs]; exact IntLe.zero hE.nonneg
  | some r =>
    have hZ := intSol_basic hT hΦ
    have hB := basis_of hT hΦ hnd
    refine IntLe.of_abs (hZ.ints hE.shape hB s) ?_
    refine le_trans (hZ.bound hE.shape hB 0 (le_refl _) (fun _ _ => Or.inl rfl) s (by simp [hs])) ?_
    rw [fixedSum_basic]
    have := hE.const
    have : (0 + constSum E : ℤ) ≤ D := by omega
    exact_mod_cast this

theorem dirSol_le (hT : Tab S) (hΦ : ∀ σ, Sol S σ ↔ ∀ e ∈ E, e.eval σ = 0) (hnd : NoDum S)
    (hE : Sys E K D) {t : Sym} (ht : S.rows t = none) (s : Sym) : IntLe K (dirSol S t s) := by
  cases hs : S.rows s with
  | none =>
    rw [dirSol_none hs]
    split_ifs
    · exact IntLe.one hE.one_le
    · exact IntLe.zero (le_trans zero_le_one hE.one_le)
  | some r =>
    have hZ := intSol_dir hT hΦ ht
    have hB := basis_of hT hΦ hnd
    refine IntLe.of_abs (hZ.ints hE.shape hB s) ?_
    refine le_trans (hZ.bound hE.shape hB 1 (by norm_num) ?_ s (by simp [hs])) ?_
    · intro u _
      simp only
      split_ifs
      · right; simp
      · left; rfl
    · rw [fixedSum_dir]
      have := hE.col t
      exact_mod_cast this

theorem dirSol_le_one (hT : Tab S) (hΦ : ∀ σ, Sol S σ ↔ ∀ e ∈ E, e.eval σ = 0) (hnd : NoDum S)
    (hE : Sys E K D) {t : Sym} (ht : S.rows t = none) (hd : t.type ≠ .dummy)
    (hx : t.type ≠ .external) (s : Sym) : IntLe 1 (dirSol S t s) := by
  cases hs : S.rows s with
  | none =>
    rw [dirSol_none hs]
    split_ifs
    · exact IntLe.one (le_refl _)
    · exact IntLe.zero (by norm_num)
  | some r =>
    have hZ := intSol_dir hT hΦ ht
    have hB := basis_of hT hΦ hnd
    refine IntLe.of_abs (hZ.ints hE.shape hB s) ?_
    refine le_trans (hZ.bound hE.shape hB 0 (by norm_num) ?_ s (by simp [hs])) ?_
    · intro u hu
      left
      rw [if_neg]
      rintro rfl
      exact hx hu
    · rw [fixedSum_dir]
      have := hE.own t hd
      have : (0 + colSum E t : ℤ) ≤ 1 := by omega
      exact_mod_cast this

/-- Integers of bounded size in all places of the tableau that decisions depend on. -/
structure Whole (K D W : ℤ) (S : Solver) : Prop where
  cell : ∀ b r t, S.rows b = some r → IntLe K (r.cells t)
  one : ∀ b r (t : Sym), S.rows b = some r → t.type ≠ .dummy → t.type ≠ .external →
    IntLe 1 (r.cells t)
  const : ∀ b r, S.rows b = some r → IntLe D r.constant
  obj : ∀ t, IntLe W (S.objective.cells t)
  artCell : ∀ a t, S.artificial = some a → IntLe K (a.cells t)
  artConst : ∀ a, S.artificial = some a → IntLe D a.constant

theorem intLe_sum {ι : Type} [Fintype ι] (w : ι → ℤ) (f : ι → ℚ) (K : ℤ) (h : ∀ i, IntLe K (f i)) :
    IntLe ((∑ i, |w i|) * K) (∑ i, (w i : ℚ) * f i) := by
  choose n h1 h2 using h
  refine ⟨∑ i, w i * n i, by push_cast; exact Finset.sum_congr rfl (fun i _ => by rw [h1]), ?_⟩
  refine le_trans (Finset.abs_sum_le_sum_abs _ _) ?_
  rw [Finset.sum_mul]
  apply Finset.sum_le_sum
  intro i _
  rw [abs_mul]
  exact mul_le_mul_of_nonneg_left (h2 i) (abs_nonneg _)

/-- **The tableau holds integers of bounded size.** -/
theorem whole_of_good {Φ κ α} (hG : Good Φ κ α S) (hΦ : ∀ σ, Φ σ ↔ ∀ e ∈ E, e.eval σ = 0)
    (hE : Sys E K D) (hnd : NoDum S) {w : Sym → ℤ} {W : ℤ}
    (hκ : ∀ σ, κ σ = ∑ s, (w s : ℚ) * σ s) (hW : (∑ s, |w s|) * K ≤ W)
    (hα : S.artificial = none ∨ ∃ a, ∀ σ, α σ = σ a) : Whole K D W S := by
  have hsol : ∀ σ, Sol S σ ↔ ∀ e ∈ E, e.eval σ = 0 := fun σ => (hG.sol σ).trans (hΦ σ)
  have hK0 : 0 ≤ K := le_trans zero_le_one hE.one_le
  have rowCell : ∀ b r t, S.rows b = some r → S.rows t ≠ none → r.cells t = 0 := by
    intro b r t hb ht
    obtain ⟨r', hr'⟩ := Option.ne_none_iff_exists'.1 ht
    exact hG.tab.nb b r t r' hb hr'
  have hraise : ∀ t s, raiseSol S t 1 s = basicSol S s + dirSol S t s := by
    intro t s; simp [dirSol]
  -- a row that is a linear function of the solutions
  have lin : ∀ (a : Row), (∀ b r, S.rows b = some r → a.cells b = 0) → ∀ t, S.rows t = none →
      a.cells t = a.eval (raiseSol S t 1) - a.eval (basicSol S) := by
    intro a hnb t _
    rw [eval_raiseSol a t 1 hnb, eval_basicSol a hnb]
    ring
  refine ⟨?_, ?_, ?_, ?_, ?_, ?_⟩
  · intro b r t hb
    by_cases ht : S.rows t = none
    · rw [← dirSol_some (t := t) hb]
      exact dirSol_le hG.tab hsol hnd hE ht b
    · rw [rowCell b r t hb ht]; exact IntLe.zero hK0
  · intro b r t hb hd hx
    by_cases ht : S.rows t = none
    · rw [← dirSol_some (t := t) hb]
      exact dirSol_le_one hG.tab hsol hnd hE ht hd hx b
    · rw [rowCell b r t hb ht]; exact IntLe.zero (by norm_num)
  · intro b r hb
    rw [← basicSol_some hb]
    exact basicSol_le hG.tab hsol hnd hE b
  · intro t
    by_cases ht : S.rows t = none
    · rw [lin S.objective hG.tab.nbObj t ht, hG.obj _ (sol_raiseSol hG.tab t 1),
        hG.obj _ (sol_basicSol hG.tab), hκ, hκ, ← Finset.sum_sub_distrib]
      have : ∀ s, (w s : ℚ) * raiseSol S t 1 s - (w s : ℚ) * basicSol S s
          = (w s : ℚ) * dirSol S t s := by
        intro s; rw [hraise]; ring
      rw [Finset.sum_congr rfl (fun s _ => this s)]
      exact (intLe_sum w _ K (fun s => dirSol_le hG.tab hsol hnd hE ht s)).mono hW
    · obtain ⟨r, hr⟩ := Option.ne_none_iff_exists'.1 ht
      rw [hG.tab.nbObj t r hr]
      refine IntLe.zero (le_trans ?_ hW)
      exact mul_nonneg (Finset.sum_nonneg fun _ _ => abs_nonneg _) hK0
  · intro a t ha
    rcases hα with hα | ⟨s, hα⟩
    · rw [hα] at ha; cases ha
    · by_cases ht : S.rows t = none
      · rw [lin a (fun b r hb => hG.tab.nbArt a b r ha hb) t ht,
          hG.art a _ ha (sol_raiseSol hG.tab t 1), hG.art a _ ha (sol_basicSol hG.tab), hα, hα]
        exact dirSol_le hG.tab hsol hnd hE ht s
      · obtain ⟨r, hr⟩ := Option.ne_none_iff_exists'.1 ht
        rw [hG.tab.nbArt a t r ha hr]
        exact IntLe.zero hK0
  · intro a ha
    rcases hα with hα | ⟨s, hα⟩
    · rw [hα] at ha; cases ha
    · rw [← eval_basicSol (S := S) a (fun b r hb => hG.tab.nbArt a b r ha hb),
        hG.art a _ ha (sol_basicSol hG.tab), hα]
      exact basicSol_le hG.tab hsol hnd hE s

end

end Bento.Casso
