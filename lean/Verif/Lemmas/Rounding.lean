import Verif.Model.Layout
import Mathlib.Tactic.Linarith
import Mathlib.Tactic.Ring
import Mathlib.Tactic.NormNum
import Mathlib.Algebra.Order.Floor.Ring

/-!
# Facts about rounding to cells
-/

namespace Bento.Layout

theorem roundHalfAway_int (k : Int) : roundHalfAway (k : ℚ) = k := by
  unfold roundHalfAway
  split_ifs with h
  · rw [show (k : ℚ) + 1 / 2 = (1 / 2 : ℚ) + k by ring, Int.floor_add_intCast]
    norm_num
  · rw [show -(k : ℚ) + 1 / 2 = (1 / 2 : ℚ) + ((-k : Int) : ℚ) by push_cast; ring,
      Int.floor_add_intCast]
    norm_num

theorem roundHalfAway_mono {q r : ℚ} (h : q ≤ r) : roundHalfAway q ≤ roundHalfAway r := by
  unfold roundHalfAway
  split_ifs with h1 h2 h2
  · exact Int.floor_le_floor (by linarith)
  · linarith
  · have a : (0 : Int) ≤ ⌊-q + 1 / 2⌋ := Int.floor_nonneg.2 (by linarith)
    have b : (0 : Int) ≤ ⌊r + 1 / 2⌋ := Int.floor_nonneg.2 (by linarith)
    omega
  · have := Int.floor_le_floor (show -r + 1 / 2 ≤ -q + 1 / 2 by linarith)
    omega

/-- Rounding moves a number by at most one half; upwards only for numbers that are not negative. -/
theorem roundHalfAway_bound (q : ℚ) :
    (roundHalfAway q : ℚ) ≤ q + 1 / 2 ∧ q - 1 / 2 ≤ (roundHalfAway q : ℚ) ∧
    (0 ≤ q → q - 1 / 2 < (roundHalfAway q : ℚ)) := by
  unfold roundHalfAway
  split_ifs with h
  · have h1 := Int.floor_le (q + 1 / 2)
    have h2 := Int.lt_floor_add_one (q + 1 / 2)
    refine ⟨h1, by linarith, fun _ => by linarith⟩
  · have h1 := Int.floor_le (-q + 1 / 2)
    have h2 := Int.lt_floor_add_one (-q + 1 / 2)
    push_cast
    refine ⟨by linarith, by linarith, fun h' => absurd h' h⟩

theorem toCell_mono {q r : ℚ} (h : q ≤ r) : toCell q ≤ toCell r := by
  unfold toCell
  apply roundHalfAway_mono
  have := roundHalfAway_mono h
  have h2 : (roundHalfAway q : ℚ) ≤ roundHalfAway r := by exact_mod_cast this
  unfold multiplier
  linarith

theorem toCell_int (k : Int) : toCell ((k : ℚ) * multiplier) = k := by
  unfold toCell multiplier
  have : (k : ℚ) * 100 = ((k * 100 : Int) : ℚ) := by push_cast; ring
  rw [this, roundHalfAway_int]
  push_cast
  rw [show (k : ℚ) * 100 / 100 = k by ring]
  exact roundHalfAway_int k

theorem toCell_bound (q : ℚ) :
    (toCell q : ℚ) ≤ q / 100 + 101 / 200 ∧ q / 100 - 101 / 200 ≤ (toCell q : ℚ) := by
  unfold toCell multiplier
  obtain ⟨a1, a2, _⟩ := roundHalfAway_bound q
  obtain ⟨b1, b2, _⟩ := roundHalfAway_bound ((roundHalfAway q : ℚ) / 100)
  constructor <;> linarith

theorem toCell_lower {q : ℚ} (hq : 0 ≤ q) : q / 100 - 99 / 200 < (toCell q : ℚ) := by
  unfold toCell multiplier
  obtain ⟨_, _, a3⟩ := roundHalfAway_bound q
  have a := a3 hq
  have h0 : (0 : ℚ) ≤ roundHalfAway q := by
    have := roundHalfAway_mono hq
    have h1 := roundHalfAway_int 0
    simp only [Int.cast_zero] at h1
    rw [h1] at this
    exact_mod_cast this
  obtain ⟨_, _, b3⟩ := roundHalfAway_bound ((roundHalfAway q : ℚ) / 100)
  have b := b3 (by linarith)
  -- both roundings strict: work with integers
  set R := roundHalfAway q with hR
  set k := roundHalfAway ((R : ℚ) / 100) with hk
  -- R / 100 - 1/2 < k, hence R < 100 k + 50, hence R ≤ 100 k + 49
  have h2 : (R : ℚ) < ((100 * k + 50 : Int) : ℚ) := by push_cast; linarith
  have h3 : R ≤ 100 * k + 49 := by have : R < 100 * k + 50 := by exact_mod_cast h2
                                   omega
  have h4 : (R : ℚ) ≤ 100 * k + 49 := by exact_mod_cast h3
  linarith

end Bento.Layout
