import Verif.Lemmas.Rounding

/-!
# Property C23: rounding solver coordinates to cells

A solver coordinate `q` stands for the cell coordinate `q / 100`.
-/

namespace Bento

open Layout

/-- **C23.** Ordered edges stay ordered (so coincident edges stay coincident). -/
theorem C23_monotone {q r : ℚ} (h : q ≤ r) : toCell q ≤ toCell r := toCell_mono h

/-- **C23.** Integral cell coordinates are mapped to themselves. -/
theorem C23_integral (k : Int) : toCell ((k : ℚ) * 100) = k := toCell_int k

/-- **C23.** Every edge moves by at most 0.505 cells (the two roundings add up). -/
theorem C23_edge_moves (q : ℚ) : |(toCell q : ℚ) - q / 100| ≤ 505 / 1000 := by
  obtain ⟨h1, h2⟩ := toCell_bound q
  rw [abs_le]
  constructor <;> linarith

/-- **C23.** At non-negative coordinates an element grows by less than one cell. -/
theorem C23_growth {q r : ℚ} (hq : 0 ≤ q) :
    ((toCell r - toCell q : Int) : ℚ) < (r - q) / 100 + 1 := by
  obtain ⟨h1, _⟩ := toCell_bound r
  have h2 := toCell_lower hq
  push_cast
  linarith

/-- **C23.** At arbitrary coordinates an element grows by at most 1.01 cells … -/
theorem C23_growth_any (q r : ℚ) :
    ((toCell r - toCell q : Int) : ℚ) ≤ (r - q) / 100 + 101 / 100 := by
  obtain ⟨h1, _⟩ := toCell_bound r
  obtain ⟨_, h2⟩ := toCell_bound q
  push_cast
  linarith

/-- … and this bound is attained: 1.99 cells become three. -/
theorem C23_growth_attained :
    ((toCell (99 / 2) - toCell (-299 / 2) : Int) : ℚ) = (99 / 2 - (-299 / 2)) / 100 + 101 / 100 := by
  have h1 : toCell (99 / 2) = 1 := by decide +kernel
  have h2 : toCell (-299 / 2) = -2 := by decide +kernel
  rw [h1, h2]; norm_num

example : toCell 1234 = 12 ∧ toCell 1250 = 13 ∧ toCell (-1250) = -13 := by decide +kernel

end Bento
