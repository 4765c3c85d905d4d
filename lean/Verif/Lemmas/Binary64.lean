import Verif.Spec.Float

/-!
# The rounding of `float64` keeps integers of up to 53 bits
-/

namespace Bento.Casso.Fl

theorem roundHalfEven_int (m : ℤ) : roundHalfEven (m : ℚ) = m := by
  unfold roundHalfEven
  rw [Int.floor_intCast, if_pos (by norm_num)]

theorem binary64_of_multiple {q : ℚ} {m : ℤ} (h : q = m * (2 : ℚ) ^ (Int.log 2 |q| - 52)) : binary64 q = q := by
  have h0 : (2 : ℚ) ^ (Int.log 2 |q| - 52) ≠ 0 := zpow_ne_zero _ (by norm_num)
  unfold binary64
  simp only
  have h1 : q / (2 : ℚ) ^ (Int.log 2 |q| - 52) = m := by
    rw [div_eq_iff h0]; exact h
  rw [h1, roundHalfEven_int]
  exact h.symm

theorem binary64_keeps : KeepsIntegers binary64 (2 ^ 53) := by
  intro n hn
  by_cases h0 : n = 0
  · subst h0
    simp [binary64, roundHalfEven]
  have hpos : (0 : ℚ) < |(n : ℚ)| := by
    rw [abs_pos]; exact_mod_cast h0
  have hone : (1 : ℚ) ≤ |(n : ℚ)| := by
    have : 1 ≤ |n| := Int.one_le_abs h0
    exact_mod_cast this
  generalize hk : Int.log 2 |(n : ℚ)| = k
  have hlow : (2 : ℚ) ^ k ≤ |(n : ℚ)| := by
    rw [← hk]
    have := Int.zpow_log_le_self (b := 2) (R := ℚ) (by norm_num) hpos
    exact_mod_cast this
  have hle : |(n : ℚ)| ≤ (2 : ℚ) ^ (53 : ℤ) := by
    have : |n| ≤ (2 : ℤ) ^ 53 := hn
    exact_mod_cast this
  have hk53 : k ≤ 53 := (zpow_le_zpow_iff_right₀ (by norm_num : (1 : ℚ) < 2)).1 (le_trans hlow hle)
  by_cases h52 : k ≤ 52
  · apply binary64_of_multiple (m := n * 2 ^ (52 - k).toNat)
    rw [hk]
    have h1 : ((52 - k).toNat : ℤ) = 52 - k := Int.toNat_of_nonneg (by omega)
    push_cast
    rw [← zpow_natCast, h1, mul_assoc, ← zpow_add₀ (by norm_num)]
    have : 52 - k + (k - 52) = 0 := by ring
    rw [this]; simp
  · have hk' : k = 53 := by omega
    have habs : |(n : ℚ)| = (2 : ℚ) ^ (53 : ℤ) := le_antisymm hle (by rw [← hk']; exact hlow)
    have hn' : |n| = 2 ^ 53 := by exact_mod_cast habs
    have hsign : n = 2 ^ 53 ∨ n = -2 ^ 53 := by
      rcases abs_choice n with h | h <;> rw [h] at hn' <;> omega
    rcases hsign with h | h
    · apply binary64_of_multiple (m := 2 ^ 52)
      rw [hk, hk', h]; norm_num
    · apply binary64_of_multiple (m := -2 ^ 52)
      rw [hk, hk', h]; norm_num

end Bento.Casso.Fl
