import Verif.Spec.Grow
import Verif.Spec.Corner
import Mathlib.Tactic.Linarith
import Mathlib.Tactic.NormNum
import Mathlib.Tactic.FieldSimp
import Mathlib.Algebra.BigOperators.Ring.Finset
import Mathlib.Algebra.Order.BigOperators.Group.Finset

/-!
# A cheapest row is a fair row

Everything here is about prices of rows (`Spec/Corner`), not about the solver.
-/

namespace Bento.Layout

open Finset

/-- What a cell less costs. -/
def lackPrice : Constraint → ℚ
  | .fill _ => 1000
  | .max _ => 10000
  | .ratio _ _ => 100000
  | .percentage _ => 1000000
  | .len _ => 10000000
  | .min _ => 100010000

/-- What a cell more costs. -/
def excessPrice : Constraint → ℚ
  | .fill _ => 1000
  | .min _ => 10000
  | .ratio _ _ => 100000
  | .percentage _ => 1000000
  | .len _ => 10000000
  | .max _ => 100010000

theorem lackPrice_bounds (c : Constraint) : 1000 ≤ lackPrice c ∧ lackPrice c ≤ 100010000 := by
  cases c <;> norm_num [lackPrice]

theorem excessPrice_bounds (c : Constraint) : 1000 ≤ excessPrice c ∧ excessPrice c ≤ 100010000 := by
  cases c <;> norm_num [excessPrice]

theorem lackPrice_lt {c d : Constraint} (h : shrinkRank c < shrinkRank d) :
    lackPrice c < lackPrice d := by
  cases c <;> cases d <;> simp [shrinkRank] at h <;> norm_num [lackPrice]

theorem excessPrice_lt {c d : Constraint} (h : stretchRank c < stretchRank d) :
    excessPrice c < excessPrice d := by
  cases c <;> cases d <;> simp [stretchRank] at h <;> norm_num [excessPrice]

theorem abs_parts (u : ℚ) : |u| = max 0 u + max 0 (-u) := by
  rcases le_total 0 u with h | h
  · rw [abs_of_nonneg h, max_eq_right h, max_eq_left (by linarith)]; ring
  · rw [abs_of_nonpos h, max_eq_left h, max_eq_right (by linarith)]; ring

/-- The price of a size is linear on both sides of the wish. -/
theorem sizePrice_eq (total : Int) (c : Constraint) (w : ℚ) :
    sizePrice total c w = excessPrice c * max 0 (w - wishedSize total c)
      + lackPrice c * max 0 (-(w - wishedSize total c)) := by
  cases c <;> simp only [sizePrice, wishedSize, definiteSize, Option.getD_some, abs_parts, excessPrice,
    lackPrice, neg_sub] <;> ring

/-- A change costs at most the highest price. -/
theorem sizePrice_change (total : Int) (c : Constraint) (w w' : ℚ) :
    sizePrice total c w' ≤ sizePrice total c w + 100010000 * |w' - w| := by
  rw [sizePrice_eq, sizePrice_eq]
  have he := excessPrice_bounds c
  have hl := lackPrice_bounds c
  generalize wishedSize total c = q
  generalize excessPrice c = e at *
  generalize lackPrice c = k at *
  have h1 : max 0 (w' - q) ≤ max 0 (w - q) + max 0 (w' - w) := by
    rcases le_total 0 (w' - q) with h | h
    · rw [max_eq_right h]
      have := le_max_right 0 (w - q)
      have := le_max_right 0 (w' - w)
      linarith
    · rw [max_eq_left h]
      have := le_max_left 0 (w - q)
      have := le_max_left 0 (w' - w)
      linarith
  have h2 : max 0 (-(w' - q)) ≤ max 0 (-(w - q)) + max 0 (-(w' - w)) := by
    rcases le_total 0 (-(w' - q)) with h | h
    · rw [max_eq_right h]
      have := le_max_right 0 (-(w - q))
      have := le_max_right 0 (-(w' - w))
      linarith
    · rw [max_eq_left h]
      have := le_max_left 0 (-(w - q))
      have := le_max_left 0 (-(w' - w))
      linarith
  rw [abs_parts (w' - w)]
  have g1 := mul_le_mul_of_nonneg_left h1 (show 0 ≤ e by linarith)
  have g2 := mul_le_mul_of_nonneg_left h2 (show 0 ≤ k by linarith)
  have g3 := mul_le_mul_of_nonneg_right he.2 (le_max_left 0 (w' - w))
  have g4 := mul_le_mul_of_nonneg_right hl.2 (le_max_left 0 (-(w' - w)))
  linarith

/-- The row of segments of these sizes that starts at `a`, with the spacing between them. -/
def spacedRow (a spacing : ℚ) : List ℚ → List (ℚ × ℚ)
  | [] => []
  | s :: rest => (a, a + s) :: spacedRow (a + s + spacing) spacing rest

theorem spacedRow_length (sp : ℚ) : ∀ (a : ℚ) (sizes : List ℚ),
    (spacedRow a sp sizes).length = sizes.length
  | _, [] => rfl
  | a, s :: rest => by simp [spacedRow, spacedRow_length sp _ rest]

theorem spacedRow_within {sp : ℚ} (hsp : 0 ≤ sp) : ∀ (a b : ℚ) (sizes : List ℚ), (∀ s ∈ sizes, 0 ≤ s) →
    a + sizes.sum + ((sizes.length : ℚ) - 1) * sp ≤ b →
    ∀ p ∈ spacedRow a sp sizes, a ≤ p.1 ∧ p.1 ≤ p.2 ∧ p.2 ≤ b
  | _, _, [], _, _ => fun p hp => absurd hp List.not_mem_nil
  | a, b, s :: rest, h0, hb => by
    have hs := h0 s List.mem_cons_self
    have hr : 0 ≤ rest.sum := List.sum_nonneg fun x hx => h0 x (List.mem_cons_of_mem _ hx)
    rw [List.sum_cons, List.length_cons] at hb
    push_cast at hb
    intro p hp
    rcases List.mem_cons.1 hp with rfl | hp
    · refine ⟨le_refl _, by linarith, ?_⟩
      have : 0 ≤ (rest.length : ℚ) * sp := mul_nonneg (Nat.cast_nonneg _) hsp
      show a + s ≤ b
      linarith
    · cases rest with
      | nil => exact absurd hp List.not_mem_nil
      | cons t rest =>
        have := spacedRow_within hsp (a + s + sp) b (t :: rest)
          (fun x hx => h0 x (List.mem_cons_of_mem _ hx)) (by linarith) p hp
        exact ⟨by linarith [this.1], this.2⟩

theorem spacedRow_gaps (sp : Int) : ∀ (a : ℚ) (sizes : List ℚ), gapPrice sp (spacedRow a sp sizes) = 0
  | _, [] => rfl
  | _, [_] => rfl
  | a, s :: t :: rest => by
    have ih := spacedRow_gaps sp (a + s + sp) (t :: rest)
    simp only [spacedRow] at ih ⊢
    simp only [gapPrice, ih]
    simp

theorem spacedRow_last (sp : ℚ) : ∀ (a : ℚ) (sizes : List ℚ), sizes ≠ [] →
    ∃ p, (spacedRow a sp sizes).getLast? = some p ∧
      p.2 = a + sizes.sum + ((sizes.length : ℚ) - 1) * sp
  | _, [], h => absurd rfl h
  | a, [s], _ => ⟨(a, a + s), rfl, by simp⟩
  | a, s :: t :: rest, _ => by
    obtain ⟨p, hp, h2⟩ := spacedRow_last sp (a + s + sp) (t :: rest) (by simp)
    refine ⟨p, ?_, ?_⟩
    · rw [spacedRow, List.getLast?_cons_of_ne_nil (by simp [spacedRow]), hp]
    · rw [h2]
      simp only [List.sum_cons, List.length_cons]
      push_cast
      ring

theorem spacedRow_sizes (sp : ℚ) (f : Constraint → ℚ → ℚ) : ∀ (a : ℚ) (cs : List Constraint)
    (sizes : List ℚ),
    List.zipWith (fun c (p : ℚ × ℚ) => f c (p.2 - p.1)) cs (spacedRow a sp sizes) =
      List.zipWith f cs sizes
  | _, [], _ => by simp
  | _, _ :: _, [] => rfl
  | a, c :: cs, s :: rest => by
    simp only [spacedRow, List.zipWith_cons_cons, spacedRow_sizes sp f _ cs rest]
    congr 2
    ring

/-- The price of a row with exact spacing that fills the area. -/
theorem spacedRow_price {total : Int} {a b : ℚ} (hab : b - a = total) (sp : Int) (cs : List Constraint)
    (sizes : List ℚ) (hne : sizes ≠ [])
    (hfull : sizes.sum + ((sizes.length : ℚ) - 1) * sp = total) :
    rowPrice a b sp cs (spacedRow a sp sizes) = (List.zipWith (sizePrice total) cs sizes).sum := by
  obtain ⟨p, hp, h2⟩ := spacedRow_last sp a sizes hne
  unfold rowPrice
  rw [spacedRow_gaps, hp, hab, spacedRow_sizes sp (sizePrice total)]
  obtain ⟨s, rest, rfl⟩ := List.exists_cons_of_ne_nil hne
  simp only [spacedRow, List.head?_cons, Option.elim_some, sub_self, abs_zero]
  rw [h2]
  have : b - (a + (s :: rest).sum + (((s :: rest).length : ℚ) - 1) * sp) = 0 := by linarith
  rw [this]
  simp

/-- How far the distances of a row are from the spacing, all together. -/
def deviation (spacing : ℚ) : List (ℚ × ℚ) → ℚ
  | p :: q :: rest => |q.1 - p.2 - spacing| + deviation spacing (q :: rest)
  | _ => 0

theorem deviation_nonneg (sp : ℚ) : ∀ row, 0 ≤ deviation sp row
  | [] => le_refl _
  | [_] => le_refl _
  | p :: q :: rest => by
    have := deviation_nonneg sp (q :: rest)
    have := abs_nonneg (q.1 - p.2 - sp)
    simp only [deviation]
    linarith

theorem gapPrice_eq (sp : Int) : ∀ row, gapPrice sp row = 100100100 * deviation sp row
  | [] => by simp [gapPrice, deviation]
  | [_] => by simp [gapPrice, deviation]
  | p :: q :: rest => by
    simp only [gapPrice, deviation, gapPrice_eq sp (q :: rest)]
    ring

/-- The lengths of the segments of a row. -/
def lengths (row : List (ℚ × ℚ)) : List ℚ := row.map fun p => p.2 - p.1

theorem deviation_bound (sp : ℚ) : ∀ (p : ℚ × ℚ) (rest : List (ℚ × ℚ)) (z : ℚ × ℚ),
    (p :: rest).getLast? = some z →
    |z.2 - p.1 - (lengths (p :: rest)).sum - (rest.length : ℚ) * sp| ≤ deviation sp (p :: rest)
  | p, [], z, hz => by
    cases hz
    simp [lengths, deviation]
  | p, q :: rest, z, hz => by
    have ih := deviation_bound sp q rest z (by rwa [List.getLast?_cons_cons] at hz)
    simp only [deviation, lengths, List.map_cons, List.sum_cons, List.length_cons] at ih ⊢
    push_cast
    have e : z.2 - p.1 - (p.2 - p.1 + (q.2 - q.1 + (rest.map fun p => p.2 - p.1).sum))
          - ((rest.length : ℚ) + 1) * sp
        = (q.1 - p.2 - sp) + (z.2 - q.1 - (q.2 - q.1 + (rest.map fun p => p.2 - p.1).sum)
          - (rest.length : ℚ) * sp) := by ring
    rw [e]
    exact (abs_add_le _ _).trans (by linarith)

/-- A row without deviation is the row of its lengths. -/
theorem eq_spacedRow (sp : ℚ) : ∀ (p : ℚ × ℚ) (rest : List (ℚ × ℚ)),
    deviation sp (p :: rest) = 0 → p :: rest = spacedRow p.1 sp (lengths (p :: rest))
  | p, [], _ => by
    simp only [lengths, List.map_cons, List.map_nil, spacedRow]
    rw [show p.1 + (p.2 - p.1) = p.2 by ring]
  | p, q :: rest, h => by
    simp only [deviation] at h
    have h1 := deviation_nonneg sp (q :: rest)
    have h2 := abs_nonneg (q.1 - p.2 - sp)
    have h3 : |q.1 - p.2 - sp| = 0 := by linarith
    have h4 := abs_eq_zero.1 h3
    have ih := eq_spacedRow sp q rest (by linarith)
    have e : lengths (p :: q :: rest) = (p.2 - p.1) :: lengths (q :: rest) := rfl
    rw [e, spacedRow, show p.1 + (p.2 - p.1) = p.2 by ring, show p.2 + sp = q.1 by linarith, ← ih]

/-- Sizes that add up to `T` instead, changed in one direction only. -/
theorem exists_sizes (s : List ℚ) (h0 : ∀ x ∈ s, 0 ≤ x) (hne : s ≠ []) {T : ℚ} (hT : 0 ≤ T) :
    ∃ t : List ℚ, t.length = s.length ∧ (∀ x ∈ t, 0 ≤ x) ∧ t.sum = T ∧
      (List.zipWith (fun x y => |y - x|) s t).sum = |T - s.sum| := by
  by_cases h : s.sum ≤ T
  · obtain ⟨x, rest, rfl⟩ := List.exists_cons_of_ne_nil hne
    rw [List.sum_cons] at h
    refine ⟨(x + (T - (x + rest.sum))) :: rest, rfl, ?_, ?_, ?_⟩
    · intro y hy
      rcases List.mem_cons.1 hy with rfl | hy
      · have := h0 x List.mem_cons_self
        linarith
      · exact h0 y (List.mem_cons_of_mem _ hy)
    · rw [List.sum_cons]; ring
    · rw [List.zipWith_cons_cons, List.sum_cons, List.sum_cons]
      have : (List.zipWith (fun x y => |y - x|) rest rest).sum = 0 := by
        clear h h0 hne
        induction rest with
        | nil => rfl
        | cons y ys ih => simp
      rw [this, add_zero]
      congr 1
      ring
  · have hpos : 0 < s.sum := by linarith
    have hk : T / s.sum ≤ 1 := by
      rw [div_le_one hpos]; linarith
    have hk0 : 0 ≤ T / s.sum := div_nonneg hT hpos.le
    refine ⟨s.map fun x => x * (T / s.sum), by simp, ?_, ?_, ?_⟩
    · intro y hy
      obtain ⟨x, hx, rfl⟩ := List.mem_map.1 hy
      exact mul_nonneg (h0 x hx) hk0
    · rw [List.sum_map_mul_right, List.map_id']
      field_simp
    · have key : ∀ k : ℚ, k ≤ 1 → ∀ l : List ℚ, (∀ x ∈ l, 0 ≤ x) →
          (List.zipWith (fun x y => |y - x|) l (l.map fun x => x * k)).sum = l.sum * (1 - k) := by
        intro k hk l hl
        induction l with
        | nil => simp
        | cons x xs ih =>
          rw [List.map_cons, List.zipWith_cons_cons, List.sum_cons, List.sum_cons,
            ih fun y hy => hl y (List.mem_cons_of_mem _ hy)]
          have hx := hl x List.mem_cons_self
          have : x * k - x = -(x * (1 - k)) := by ring
          rw [this, abs_neg, abs_of_nonneg (mul_nonneg hx (by linarith))]
          ring
      rw [key _ hk s h0, abs_of_nonpos (by linarith)]
      have : s.sum * (1 - T / s.sum) = s.sum - T := by field_simp
      rw [this]; ring

theorem zip_change (total : Int) : ∀ (cs : List Constraint) (s t : List ℚ), s.length = cs.length →
    t.length = cs.length →
    (List.zipWith (sizePrice total) cs t).sum ≤ (List.zipWith (sizePrice total) cs s).sum
      + 100010000 * (List.zipWith (fun x y => |y - x|) s t).sum
  | [], s, t, hs, ht => by
    obtain rfl := List.length_eq_zero_iff.1 hs
    obtain rfl := List.length_eq_zero_iff.1 ht
    simp
  | c :: cs, x :: s, y :: t, hs, ht => by
    have ih := zip_change total cs s t (by simpa using hs) (by simpa using ht)
    have := sizePrice_change total c x y
    simp only [List.zipWith_cons_cons, List.sum_cons]
    linarith

/-- A cheapest row keeps its spacing and fills the area. -/
theorem cheapest_spaced {total sp : Int} {a b : ℚ} (hab : b - a = total) (hsp : 0 ≤ sp)
    {cs : List Constraint} (hroom : ((cs.length : ℚ) - 1) * sp ≤ total)
    {row : List (ℚ × ℚ)} (hlen : row.length = cs.length) (hne : cs ≠ [])
    (hin : ∀ p ∈ row, a ≤ p.1 ∧ p.1 ≤ p.2 ∧ p.2 ≤ b)
    (hbest : ∀ row' : List (ℚ × ℚ), row'.length = cs.length →
      (∀ p ∈ row', a ≤ p.1 ∧ p.1 ≤ p.2 ∧ p.2 ≤ b) →
      rowPrice a b sp cs row ≤ rowPrice a b sp cs row') :
    row = spacedRow a sp (lengths row) ∧
      (lengths row).sum + ((cs.length : ℚ) - 1) * sp = total := by
  have hspq : (0 : ℚ) ≤ sp := by exact_mod_cast hsp
  obtain ⟨p, rest, rfl⟩ := List.exists_cons_of_ne_nil (l := row) (by
    intro e; rw [e] at hlen; exact hne (List.length_eq_zero_iff.1 hlen.symm))
  obtain ⟨z, hz⟩ : ∃ z, (p :: rest).getLast? = some z :=
    ⟨_, List.getLast?_eq_getLast_of_ne_nil (by simp)⟩
  have hzmem : z ∈ p :: rest := List.mem_of_getLast? hz
  have hdev := deviation_bound sp p rest z hz
  have hn0 : ∀ x ∈ lengths (p :: rest), 0 ≤ x := by
    intro x hx
    obtain ⟨q, hq, rfl⟩ := List.mem_map.1 hx
    have := (hin q hq).2.1
    linarith
  have hll : (lengths (p :: rest)).length = cs.length := by rw [← hlen]; simp [lengths]
  have hrl : (rest.length : ℚ) = (cs.length : ℚ) - 1 := by
    rw [← hlen, List.length_cons]; push_cast; ring
  obtain ⟨t, tl, t0, tsum, tdiff⟩ := exists_sizes (lengths (p :: rest)) hn0 (by simp [lengths])
    (T := total - ((cs.length : ℚ) - 1) * sp) (by linarith)
  have htl : t.length = cs.length := tl.trans hll
  have htne : t ≠ [] := by
    intro e; rw [e] at htl; exact hne (List.length_eq_zero_iff.1 htl.symm)
  have hfull : t.sum + ((t.length : ℚ) - 1) * sp = total := by rw [htl, tsum]; ring
  have hle := hbest (spacedRow a sp t) (by rw [spacedRow_length, htl])
    (spacedRow_within hspq a b t t0 (by linarith))
  rw [spacedRow_price hab sp cs t htne hfull] at hle
  have hch := zip_change total cs (lengths (p :: rest)) t hll htl
  rw [tdiff] at hch
  have hpr : rowPrice a b sp cs (p :: rest) = 1001000999 * |p.1 - a| + 1001000999 * |b - z.2|
      + 100100100 * deviation sp (p :: rest)
      + (List.zipWith (sizePrice total) cs (lengths (p :: rest))).sum := by
    unfold rowPrice
    rw [hz, gapPrice_eq, hab]
    simp only [List.head?_cons, Option.elim_some, lengths]
    rw [List.zipWith_map_right]
  rw [hpr] at hle
  have hp := hin p List.mem_cons_self
  have hzz := hin z hzmem
  have hD := deviation_nonneg sp (p :: rest)
  generalize (lengths (p :: rest)).sum = W at *
  generalize hd : deviation sp (p :: rest) = D at *
  rw [abs_of_nonneg (show 0 ≤ p.1 - a by linarith), abs_of_nonneg (show 0 ≤ b - z.2 by linarith)] at hle
  have hT : |total - ((cs.length : ℚ) - 1) * sp - W| ≤ (p.1 - a) + (b - z.2) + D := by
    have e : (total : ℚ) - ((cs.length : ℚ) - 1) * sp - W
        = (p.1 - a) + (b - z.2) + (z.2 - p.1 - W - (rest.length : ℚ) * sp) := by
      rw [hrl]; linarith
    rw [e]
    have h1 := (abs_le.1 hdev).1
    have h2 := (abs_le.1 hdev).2
    rw [abs_le]
    constructor <;> linarith [hp.1, hzz.2.2]
  have hz1 : p.1 - a = 0 := by linarith [hp.1, hzz.2.2]
  have hz2 : b - z.2 = 0 := by linarith [hp.1, hzz.2.2]
  have hz3 : D = 0 := by linarith [hp.1, hzz.2.2]
  have hz4 : |total - ((cs.length : ℚ) - 1) * sp - W| = 0 :=
    le_antisymm (by linarith) (abs_nonneg _)
  have hz5 := abs_eq_zero.1 hz4
  refine ⟨?_, by linarith⟩
  rw [show a = p.1 by linarith]
  exact eq_spacedRow sp p rest (hd.trans hz3)

theorem zip_set (f : Constraint → ℚ → ℚ) (v : ℚ) : ∀ (cs : List Constraint) (s : List ℚ) (i : Nat)
    (c : Constraint) (x : ℚ), cs[i]? = some c → s[i]? = some x →
    (List.zipWith f cs (s.set i v)).sum = (List.zipWith f cs s).sum - f c x + f c v
  | [], _, _, _, _, h, _ => by simp at h
  | _ :: _, [], _, _, _, _, h => by simp at h
  | d :: cs, y :: s, 0, c, x, hc, hx => by
    simp only [List.getElem?_cons_zero, Option.some.injEq] at hc hx
    subst hc hx
    simp only [List.set_cons_zero, List.zipWith_cons_cons, List.sum_cons]
    ring
  | d :: cs, y :: s, i + 1, c, x, hc, hx => by
    simp only [List.getElem?_cons_succ] at hc hx
    simp only [List.set_cons_succ, List.zipWith_cons_cons, List.sum_cons, zip_set f v cs s i c x hc hx]
    ring

theorem sum_set (v : ℚ) : ∀ (s : List ℚ) (i : Nat) (x : ℚ), s[i]? = some x →
    (s.set i v).sum = s.sum - x + v
  | [], _, _, h => by simp at h
  | y :: s, 0, x, hx => by
    simp only [List.getElem?_cons_zero, Option.some.injEq] at hx
    subst hx
    simp only [List.set_cons_zero, List.sum_cons]
    ring
  | y :: s, i + 1, x, hx => by
    simp only [List.getElem?_cons_succ] at hx
    simp only [List.set_cons_succ, List.sum_cons, sum_set v s i x hx]
    ring

theorem mem_set_nonneg {s : List ℚ} (h : ∀ x ∈ s, 0 ≤ x) {i : Nat} {v : ℚ} (hv : 0 ≤ v) :
    ∀ x ∈ s.set i v, 0 ≤ x := by
  intro x hx
  rcases List.mem_or_eq_of_mem_set hx with h1 | h1
  · exact h x h1
  · rw [h1]; exact hv

/-- Moving space from segment `i` to segment `j` does not make a cheapest row cheaper. -/
theorem move_no_gain {total : Int} {cs : List Constraint} {s : List ℚ} (hn0 : ∀ x ∈ s, 0 ≤ x)
    (hbest : ∀ t : List ℚ, t.length = s.length → (∀ x ∈ t, 0 ≤ x) → t.sum = s.sum →
      (List.zipWith (sizePrice total) cs s).sum ≤ (List.zipWith (sizePrice total) cs t).sum)
    {i j : Nat} (hij : i ≠ j) {c d : Constraint} {x y : ℚ} (hc : cs[i]? = some c) (hd : cs[j]? = some d)
    (hx : s[i]? = some x) (hy : s[j]? = some y) {δ : ℚ} (h0 : 0 ≤ δ) (hδ : δ ≤ x) :
    sizePrice total c x + sizePrice total d y
      ≤ sizePrice total c (x - δ) + sizePrice total d (y + δ) := by
  have hy' : (s.set i (x - δ))[j]? = some y := by rw [List.getElem?_set_ne hij]; exact hy
  have h1 := hbest ((s.set i (x - δ)).set j (y + δ)) (by simp)
    (mem_set_nonneg (mem_set_nonneg hn0 (by linarith))
      (by have := hn0 y (List.mem_of_getElem? hy); linarith))
    (by rw [sum_set _ _ _ _ hy', sum_set _ _ _ _ hx]; ring)
  rw [zip_set _ _ _ _ _ _ _ hd hy', zip_set _ _ _ _ _ _ _ hc hx] at h1
  linarith

theorem sizePrice_less (total : Int) (c : Constraint) {x δ : ℚ} (h0 : 0 ≤ δ) :
    sizePrice total c (x - δ) ≤ sizePrice total c x + lackPrice c * δ := by
  rw [sizePrice_eq, sizePrice_eq]
  have he := excessPrice_bounds c
  have hl := lackPrice_bounds c
  generalize wishedSize total c = q
  generalize excessPrice c = e at *
  generalize lackPrice c = k at *
  have h1 : max 0 (x - δ - q) ≤ max 0 (x - q) := max_le_max (le_refl _) (by linarith)
  have h2 : max 0 (-(x - δ - q)) ≤ max 0 (-(x - q)) + δ := by
    apply max_le
    · have := le_max_left 0 (-(x - q)); linarith
    · have := le_max_right 0 (-(x - q)); linarith
  have g1 := mul_le_mul_of_nonneg_left h1 (show 0 ≤ e by linarith)
  have g2 := mul_le_mul_of_nonneg_left h2 (show 0 ≤ k by linarith)
  linarith

theorem sizePrice_more (total : Int) (c : Constraint) {x δ : ℚ} (h0 : 0 ≤ δ) :
    sizePrice total c (x + δ) ≤ sizePrice total c x + excessPrice c * δ := by
  rw [sizePrice_eq, sizePrice_eq]
  have he := excessPrice_bounds c
  have hl := lackPrice_bounds c
  generalize wishedSize total c = q
  generalize excessPrice c = e at *
  generalize lackPrice c = k at *
  have h1 : max 0 (x + δ - q) ≤ max 0 (x - q) + δ := by
    apply max_le
    · have := le_max_left 0 (x - q); linarith
    · have := le_max_right 0 (x - q); linarith
  have h2 : max 0 (-(x + δ - q)) ≤ max 0 (-(x - q)) := max_le_max (le_refl _) (by linarith)
  have g1 := mul_le_mul_of_nonneg_left h1 (show 0 ≤ e by linarith)
  have g2 := mul_le_mul_of_nonneg_left h2 (show 0 ≤ k by linarith)
  linarith

theorem sizePrice_towards_up (total : Int) (c : Constraint) {x δ : ℚ} (h0 : 0 ≤ δ)
    (h : x + δ ≤ wishedSize total c) :
    sizePrice total c (x + δ) = sizePrice total c x - lackPrice c * δ := by
  rw [sizePrice_eq, sizePrice_eq, max_eq_left (by linarith), max_eq_right (by linarith),
    max_eq_left (show x - wishedSize total c ≤ 0 by linarith), max_eq_right (by linarith)]
  ring

theorem sizePrice_towards_down (total : Int) (c : Constraint) {x δ : ℚ} (h0 : 0 ≤ δ)
    (h : wishedSize total c ≤ x - δ) :
    sizePrice total c (x - δ) = sizePrice total c x - excessPrice c * δ := by
  rw [sizePrice_eq, sizePrice_eq, max_eq_right (by linarith), max_eq_left (by linarith),
    max_eq_right (show 0 ≤ x - wishedSize total c by linarith), max_eq_left (by linarith)]
  ring

/-- Sizes that are cheapest among all of the same sum are fair. -/
theorem cheapest_fair {total sp : Int} {cs : List Constraint} {s : List ℚ} (hlen : s.length = cs.length)
    (hn0 : ∀ x ∈ s, 0 ≤ x) (hfull : s.sum + ((cs.length : ℚ) - 1) * sp = total)
    (hbest : ∀ t : List ℚ, t.length = s.length → (∀ x ∈ t, 0 ≤ x) → t.sum = s.sum →
      (List.zipWith (sizePrice total) cs s).sum ≤ (List.zipWith (sizePrice total) cs t).sum) :
    FairRow total sp cs s := by
  refine ⟨hlen, hn0, hfull, ?_, ?_, ?_⟩
  · intro i j c d y hc hd hy hr
    by_contra hlt
    rw [not_le, max_lt_iff] at hlt
    have hij : j ≠ i := by
      rintro rfl
      rw [hc] at hd; cases hd
      exact absurd hr (lt_irrefl _)
    have hi : i < s.length := by rw [hlen]; exact (List.getElem?_eq_some_iff.1 hc).1
    have hx : s[i]? = some s[i] := List.getElem?_eq_getElem hi
    have hδ0 : 0 < min y (y - wishedSize total d) := lt_min hlt.1 (by linarith)
    have h1 := move_no_gain hn0 hbest hij hd hc hy hx hδ0.le (min_le_left _ _)
    have hδ1 := min_le_right y (y - wishedSize total d)
    generalize min y (y - wishedSize total d) = δ at *
    rw [sizePrice_towards_down total d hδ0.le (by linarith)] at h1
    have h2 := sizePrice_more total c (x := s[i]) hδ0.le
    have h3 := mul_lt_mul_of_pos_right (excessPrice_lt hr) hδ0
    linarith
  · intro i j c d x y hc hd hx hy hr hlack
    by_contra hne
    have hij : i ≠ j := by
      rintro rfl
      rw [hc] at hd; cases hd
      exact absurd hr (lt_irrefl _)
    have hx0 : 0 < x := lt_of_le_of_ne (hn0 x (List.mem_of_getElem? hx)) (Ne.symm hne)
    have hδ0 : 0 < min x (wishedSize total d - y) := lt_min hx0 (by linarith)
    have h1 := move_no_gain hn0 hbest hij hc hd hx hy hδ0.le (min_le_left _ _)
    have hδ1 := min_le_right x (wishedSize total d - y)
    generalize min x (wishedSize total d - y) = δ at *
    rw [sizePrice_towards_up total d hδ0.le (by linarith)] at h1
    have h2 := sizePrice_less total c (x := x) hδ0.le
    have h3 := mul_lt_mul_of_pos_right (lackPrice_lt hr) hδ0
    linarith
  · intro i j c d x y hc hd hx hy hlack
    by_contra hlt
    rw [not_le, max_lt_iff] at hlt
    have hij : i ≠ j := by
      rintro rfl
      rw [hc] at hd; cases hd
      rw [hx] at hy; cases hy
      linarith [hlt.2]
    have hδ0 : 0 < min x (min (x - wishedSize total c) (wishedSize total d - y)) :=
      lt_min hlt.1 (lt_min (by linarith) (by linarith))
    have h1 := move_no_gain hn0 hbest hij hc hd hx hy hδ0.le (min_le_left _ _)
    have hδ1 := (min_le_right x (min (x - wishedSize total c) (wishedSize total d - y))).trans
      (min_le_left _ _)
    have hδ2 := (min_le_right x (min (x - wishedSize total c) (wishedSize total d - y))).trans
      (min_le_right _ _)
    generalize min x (min (x - wishedSize total c) (wishedSize total d - y)) = δ at *
    rw [sizePrice_towards_up total d hδ0.le (by linarith),
      sizePrice_towards_down total c hδ0.le (by linarith)] at h1
    have h2 := mul_pos (show 0 < lackPrice d by linarith [(lackPrice_bounds d).1]) hδ0
    have h3 := mul_pos (show 0 < excessPrice c by linarith [(excessPrice_bounds c).1]) hδ0
    linarith

/-- If the segments are of different kinds, only one row is fair. -/
theorem fair_unique {total sp : Int} {cs : List Constraint} {s t : List ℚ}
    (hs : FairRow total sp cs s) (ht : FairRow total sp cs t)
    (hkinds : ∀ (i j : Nat) (c d : Constraint), i ≠ j → cs[i]? = some c → cs[j]? = some d → shrinkRank c ≠ shrinkRank d) :
    s = t := by
  have hranks : ∀ c d : Constraint, shrinkRank c ≠ shrinkRank d → stretchRank c ≠ stretchRank d := by
    intro c d
    cases c <;> cases d <;> simp [shrinkRank, stretchRank]
  by_contra hne
  have hlen : s.length = t.length := hs.length.trans ht.length.symm
  have hsum : s.sum = t.sum := by have := hs.full; have := ht.full; linarith
  -- somewhere one is smaller, and somewhere else the other
  have key : ∀ (s t : List ℚ), s.length = t.length → s.sum = t.sum → s ≠ t →
      ∃ (i : Nat) (x y : ℚ), s[i]? = some x ∧ t[i]? = some y ∧ x < y := by
    intro s t hlen hsum hne
    by_contra hcon
    push Not at hcon
    have : ∀ (s t : List ℚ), s.length = t.length →
        (∀ (i : Nat) (x y : ℚ), s[i]? = some x → t[i]? = some y → y ≤ x) →
        t.sum ≤ s.sum ∧ (t.sum = s.sum → s = t) := by
      intro s
      induction s with
      | nil =>
        intro t hl _
        obtain rfl := List.length_eq_zero_iff.1 hl.symm
        exact ⟨le_refl _, fun _ => rfl⟩
      | cons a s ih =>
        intro t hl hc
        obtain ⟨b, t, rfl⟩ := List.exists_cons_of_length_eq_add_one hl.symm
        obtain ⟨h1, h2⟩ := ih t (by simpa using hl)
          (fun i x y hx hy => hc (i + 1) x y (by simpa using hx) (by simpa using hy))
        have h0 := hc 0 a b rfl rfl
        rw [List.sum_cons, List.sum_cons]
        refine ⟨by linarith, fun he => ?_⟩
        have e1 : a = b := by linarith
        rw [h2 (by linarith), e1]
    exact hne ((this s t hlen (fun i x y hx hy => hcon i x y hx hy)).2 hsum.symm)
  obtain ⟨i, x, x', hx, hx', hlt⟩ := key s t hlen hsum hne
  obtain ⟨j, y', y, hy', hy, hlt'⟩ := key t s hlen.symm hsum.symm (Ne.symm hne)
  have hij : i ≠ j := by
    rintro rfl
    rw [hx] at hy; cases hy
    rw [hx'] at hy'; cases hy'
    linarith
  have hil : i < cs.length := by rw [← hs.length]; exact (List.getElem?_eq_some_iff.1 hx).1
  have hjl : j < cs.length := by rw [← hs.length]; exact (List.getElem?_eq_some_iff.1 hy).1
  have hc : cs[i]? = some cs[i] := List.getElem?_eq_getElem hil
  have hd : cs[j]? = some cs[j] := List.getElem?_eq_getElem hjl
  generalize cs[i] = c at hc
  generalize cs[j] = d at hd
  have hx0 := hs.nonneg x (List.mem_of_getElem? hx)
  have hy0 := ht.nonneg y' (List.mem_of_getElem? hy')
  have hk := hkinds i j c d hij hc hd
  have hk' := hranks c d hk
  -- is segment i short in s?
  by_cases h1 : x < wishedSize total c
  · by_cases h2 : y' < wishedSize total d
    · rcases Nat.lt_or_gt_of_ne hk with h | h
      · have := ht.shrunk i j c d x' y' hc hd hx' hy' h h2
        linarith
      · have := hs.shrunk j i d c y x hd hc hy hx h h1
        linarith
    · -- segment j is not short in t, so it has too much in s, where i is short
      have := hs.notBoth j i d c y x hd hc hy hx h1
      rcases le_max_iff.1 this with h | h <;> linarith
  · by_cases h2 : y' < wishedSize total d
    · have := ht.notBoth i j c d x' y' hc hd hx' hy' h2
      rcases le_max_iff.1 this with h | h <;> linarith
    · rcases Nat.lt_or_gt_of_ne hk' with h | h
      · have := hs.stretched i j c d y hc hd hy h
        rcases le_max_iff.1 this with h | h <;> linarith
      · have := ht.stretched j i d c x' hd hc hx' h
        rcases le_max_iff.1 this with h | h <;> linarith

end Bento.Layout
