import Verif.Spec.Linear
import Mathlib.Algebra.BigOperators.Ring.Finset
import Mathlib.Algebra.Order.BigOperators.Group.Finset
import Mathlib.Data.Fintype.BigOperators
import Mathlib.Data.Fintype.Prod
import Mathlib.Tactic.Linarith
import Mathlib.Tactic.FieldSimp
import Mathlib.Tactic.Ring

/-!
# Rows as affine functions
-/

namespace Bento.Casso

instance : Fintype SymType :=
  ⟨{.external, .slack, .error, .dummy}, by intro x; cases x <;> decide⟩

def symEquiv : Sym ≃ Fin 256 × SymType where
  toFun s := (s.value, s.type)
  invFun p := ⟨p.1, p.2⟩
  left_inv _ := rfl
  right_inv _ := rfl

instance : Fintype Sym := Fintype.ofEquiv _ symEquiv.symm

theorem mem_allSyms (s : Sym) : s ∈ allSyms := by
  unfold allSyms
  rw [List.mem_flatMap]
  refine ⟨s.value, List.mem_finRange _, ?_⟩
  obtain ⟨v, t⟩ := s
  cases t <;> simp

theorem pick_some {ω k l s} (h : pick ω k l = some s) : s ∈ l := by
  unfold pick at h
  exact List.mem_of_getElem? h

theorem pick_none {ω k l} (h : pick ω k l = none) : l = [] := by
  unfold pick at h
  rw [List.getElem?_eq_none_iff] at h
  cases l with
  | nil => rfl
  | cons a t =>
    exfalso
    have := Nat.mod_lt (ω k) (show 0 < (a :: t).length by simp)
    omega

/-- The value of a row under a valuation of the symbols. -/
def Row.eval (r : Row) (σ : Sym → ℚ) : ℚ := r.constant + ∑ t, r.cells t * σ t

namespace Row

theorem eval_add (r o : Row) (k : ℚ) (σ : Sym → ℚ) :
    (⟨fun t => r.cells t + o.cells t * k, r.constant + o.constant * k⟩ : Row).eval σ
      = r.eval σ + o.eval σ * k := by
  simp only [eval, add_mul, Finset.sum_add_distrib, Finset.sum_mul]
  have : ∑ x, o.cells x * k * σ x = ∑ x, o.cells x * σ x * k :=
    Finset.sum_congr rfl (fun _ _ => by ring)
  rw [this]; ring

/-- A single-symbol row. -/
def unit (s : Sym) : Row := ⟨fun t => if t = s then 1 else 0, 0⟩

theorem eval_unit (s : Sym) (σ : Sym → ℚ) : (unit s).eval σ = σ s := by
  simp [unit, eval]

theorem eval_new (k : ℚ) (σ : Sym → ℚ) : (Row.new k).eval σ = k := by
  simp [Row.new, eval]

theorem insertRow_fst (r o : Row) (k : ℚ) :
    (r.insertRow o k).1
      = ⟨fun t => r.cells t + o.cells t * k, r.constant + o.constant * k⟩ := rfl

theorem eval_insertRow (r o : Row) (k : ℚ) (σ : Sym → ℚ) :
    (r.insertRow o k).1.eval σ = r.eval σ + o.eval σ * k := eval_add r o k σ

theorem eval_insertSymbol (r : Row) (s : Sym) (k : ℚ) (σ : Sym → ℚ) :
    (r.insertSymbol s k).eval σ = r.eval σ + k * σ s := by
  have h : r.insertSymbol s k
      = ⟨fun t => r.cells t + (unit s).cells t * k, r.constant + (unit s).constant * k⟩ := by
    unfold insertSymbol unit
    congr 1
    · funext t; by_cases h : t = s <;> simp [h]
    · simp
  rw [h, eval_add, eval_unit]; ring

theorem eval_reverseSign (r : Row) (σ : Sym → ℚ) : r.reverseSign.eval σ = - r.eval σ := by
  simp only [eval, reverseSign, neg_mul, Finset.sum_neg_distrib]; ring

theorem eval_remove (r : Row) (s : Sym) (σ : Sym → ℚ) :
    (r.remove s).eval σ = r.eval σ - r.cells s * σ s := by
  have h : r.remove s
      = ⟨fun t => r.cells t + (unit s).cells t * (-r.cells s),
          r.constant + (unit s).constant * (-r.cells s)⟩ := by
    unfold remove unit
    congr 1
    · funext t; by_cases h : t = s <;> simp [h]
    · simp
  rw [h, eval_add, eval_unit]; ring

/-- Removing a symbol is evaluating with that symbol at zero. -/
theorem eval_remove' (r : Row) (s : Sym) (σ : Sym → ℚ) :
    (r.remove s).eval σ = r.eval (Function.update σ s 0) := by
  simp only [eval, remove]
  refine congrArg (r.constant + ·) ?_
  apply Finset.sum_congr rfl
  intro t _
  by_cases h : t = s
  · subst h; simp
  · simp [h]

theorem eval_update_of_zero (r : Row) (s : Sym) (h : r.cells s = 0) (σ : Sym → ℚ) (q : ℚ) :
    r.eval (Function.update σ s q) = r.eval σ := by
  simp only [eval]
  refine congrArg (r.constant + ·) ?_
  apply Finset.sum_congr rfl
  intro t _
  by_cases ht : t = s
  · subst ht; simp [h]
  · simp [ht]

theorem eval_congr (r : Row) {σ τ : Sym → ℚ} (h : ∀ t, r.cells t ≠ 0 → σ t = τ t) :
    r.eval σ = r.eval τ := by
  simp only [eval]
  refine congrArg (r.constant + ·) ?_
  apply Finset.sum_congr rfl
  intro t _
  by_cases ht : r.cells t = 0
  · simp [ht]
  · rw [h t ht]

theorem eval_scale (r : Row) (k : ℚ) (σ : Sym → ℚ) :
    (⟨fun t => r.cells t * k, r.constant * k⟩ : Row).eval σ = r.eval σ * k := by
  simp only [eval, add_mul, Finset.sum_mul]
  refine congrArg (r.constant * k + ·) ?_
  exact Finset.sum_congr rfl (fun _ _ => by ring)

theorem eval_solve (r : Row) (s : Sym) (σ : Sym → ℚ) :
    (r.solveForSymbol s).eval σ = (r.eval σ - r.cells s * σ s) * (-1 / r.cells s) := by
  have h : r.solveForSymbol s
      = ⟨fun t => (r.remove s).cells t * (-1 / r.cells s), (r.remove s).constant * (-1 / r.cells s)⟩ := by
    unfold solveForSymbol remove
    congr 1
    funext t; by_cases h : t = s <;> simp [h]
  rw [h, eval_scale, eval_remove]

theorem solve_iff (r : Row) (s : Sym) (h : r.cells s ≠ 0) (σ : Sym → ℚ) :
    σ s = (r.solveForSymbol s).eval σ ↔ r.eval σ = 0 := by
  rw [eval_solve]
  field_simp
  constructor
  · intro h; linarith
  · intro h; linarith

theorem solves_iff (r : Row) (l e : Sym) (hle : l ≠ e) (h : r.cells e ≠ 0) (σ : Sym → ℚ) :
    σ e = (r.solveForSymbols l e).eval σ ↔ σ l = r.eval σ := by
  unfold solveForSymbols
  rw [solve_iff]
  · rw [eval_insertSymbol]
    constructor <;> intro h <;> linarith
  · simp [insertSymbol, Ne.symm hle, h]

theorem subst_cells (r : Row) (s : Sym) (row : Row) (t : Sym) :
    (r.substitute s row).1.cells t = (if t = s then 0 else r.cells t) + row.cells t * r.cells s := by
  unfold substitute
  by_cases h : r.cells s = 0
  · by_cases ht : t = s <;> simp [h, ht]
  · simp [h, insertRow, remove]

theorem subst_constant (r : Row) (s : Sym) (row : Row) :
    (r.substitute s row).1.constant = r.constant + row.constant * r.cells s := by
  unfold substitute
  by_cases h : r.cells s = 0
  · simp [h]
  · simp [h, insertRow, remove]

theorem subst_changed (r : Row) (s : Sym) (row : Row) :
    (r.substitute s row).2 = decide (row.constant * r.cells s ≠ 0) := by
  unfold substitute
  by_cases h : r.cells s = 0
  · simp [h]
  · simp [h, insertRow]

theorem subst_of_zero (r : Row) (s : Sym) (row : Row) (h : r.cells s = 0) :
    (r.substitute s row).1 = r := by
  simp [substitute, h]

theorem eval_subst (r : Row) (s : Sym) (row : Row) (σ : Sym → ℚ) (h : σ s = row.eval σ) :
    (r.substitute s row).1.eval σ = r.eval σ := by
  unfold substitute
  by_cases h0 : r.cells s = 0
  · simp [h0]
  · simp only [ne_eq, h0, not_false_eq_true, if_true]
    rw [eval_insertRow, eval_remove, ← h]; ring

theorem noCells_iff (r : Row) : r.noCells = true ↔ ∀ t, r.cells t = 0 := by
  simp [noCells, mem_allSyms]

end Row
end Bento.Casso
