import Verif.Lemmas.Whole
import Verif.Lemmas.FastLoop
import Verif.Props.Reproducible

/-!
# Properties C84 and C85: the solver stops at a corner, and whole sizes give the best whole row
-/

namespace Bento

open Casso Layout

/-- **C84 (partial: histories without removals and with at most 256 symbols, see C22).** What the solver
reports is determined by the constraints it meets with equality and by the variables it leaves at
zero: no other assignment meets the same ones. In particular nothing it reports is arbitrary. -/
theorem C84_corner_partial {ω fuel cs} {S : Solver}
    (h : Solver.new.addConstraints ω fuel cs = .ok S) (hn : S.idTick ≤ 256) :
    IsCorner cs S.getValue := by
  obtain ⟨H, hI, hm, _, _⟩ := addConstraints_inv cs inv_new h hn
  simp only [List.map_nil, List.append_nil] at hm
  intro y hy0 hyt c hc v k hvk hk
  have hmem : c ∈ H.map Entry.c := by rw [hm]; exact List.mem_reverse.2 hc
  obtain ⟨e, he, rfl⟩ := List.mem_map.1 hmem
  refine inv_vertex hI y hy0 (fun e he => hyt e.c ?_) (hI.vars e he v k hvk hk)
  have : e.c ∈ H.map Entry.c := List.mem_map_of_mem he
  rw [hm] at this
  exact List.mem_reverse.1 this

/-- What C85 assumes of a layout and the extent `total` of its padded area. -/
structure WholeRow (l : Layout) (total : Int) : Prop where
  mode : l.flex = .legacy
  some_ : 0 < l.constraints.length
  few : Few l
  whole : ∀ c ∈ l.constraints, AsksWhole total c
  oneFill : (l.constraints.filter wantsAll).length ≤ 1

/-- **C85 (partial: `FlexLegacy`, constraints few enough for the symbols of the solver that ask for whole sizes and at most one
fill; runs that finish).** The segments that `Split` returns are a cheapest row: no other placement of
the segments in the area, not even one that cuts through cells, costs less. Rounding loses nothing. -/
theorem C85_cheapest_row_partial {ω : Nat → Nat} {fuel : Nat} (l : Layout) (area : Rect)
    (h : WholeRow l (extent l.direction (area.inner l.padding))) :
    splitWithSpacers ω fuel l area = .running ∨
    ∃ segments spacers, splitWithSpacers ω fuel l area = .ok segments spacers ∧
      segments.length = l.constraints.length ∧
      ∀ row : List (ℚ × ℚ), row.length = l.constraints.length →
        (∀ p ∈ row, (lo l.direction (area.inner l.padding) : ℚ) ≤ p.1 ∧ p.1 ≤ p.2 ∧
          p.2 ≤ lo l.direction (area.inner l.padding) + extent l.direction (area.inner l.padding)) →
        rowPrice (lo l.direction (area.inner l.padding))
            (lo l.direction (area.inner l.padding) + extent l.direction (area.inner l.padding))
            (gapOf l.spacing) l.constraints (segments.map (edges l.direction))
          ≤ rowPrice (lo l.direction (area.inner l.padding))
            (lo l.direction (area.inner l.padding) + extent l.direction (area.inner l.padding))
            (gapOf l.spacing) l.constraints row := by
  simp only [gapOf_eq]
  rcases split_corner (ω := ω) (fuel := fuel) l area
    h.few with hr | ⟨x, hok, hx, hbest, hcorner⟩
  · exact Or.inl hr
  refine Or.inr ⟨_, _, hok, by simp [changesToRects, segmentElements_eq], ?_⟩
  generalize hin : area.inner l.padding = inner at *
  have hb1 : ((l.areaBounds inner).1 : ℚ) = lo l.direction inner := by
    rw [areaBounds_eq]
  have hb2 : ((l.areaBounds inner).2 : ℚ) = lo l.direction inner + extent l.direction inner := by
    rw [areaBounds_eq]; push_cast; rfl
  have htot : (l.areaBounds inner).2 - (l.areaBounds inner).1 = extent l.direction inner := by
    rw [areaBounds_eq]; simp
  have hwhole := corner_whole h.mode (by rw [htot]; exact h.whole) h.oneFill hx hcorner
  have hm : multiplier = 100 := rfl
  obtain ⟨m, hnm⟩ : ∃ m, l.constraints.length = m + 1 := ⟨l.constraints.length - 1, by
    have := h.some_; omega⟩
  rw [hb1, hb2] at hx hbest
  generalize (lo l.direction inner : ℚ) = a at *
  have hA : ∀ y, Placed l.constraints.length (a * multiplier)
      ((a + (extent l.direction inner : ℚ)) * multiplier) y →
      weightedViolation (softList l) y = 100 * rowPrice a (a + (extent l.direction inner : ℚ))
        (Spacing.value l.spacing) l.constraints (rowOf l.constraints.length y) :=
    fun y hy => soft_price h.mode hnm h.oneFill hy.first hy.last
  generalize a + (extent l.direction inner : ℚ) = b at *
  intro row hlen hrow
  -- the returned segments are the row of the solver's values
  have hsegs : (changesToRects x (segmentElements l.constraints.length) inner l.direction).map
      (edges l.direction) = rowOf l.constraints.length x := by
    unfold changesToRects rowOf
    rw [segmentElements_eq, List.map_map, List.map_map]
    apply List.map_congr_left
    intro i hi
    have hi := List.mem_range.1 hi
    obtain ⟨k1, hk1⟩ := hwhole (2 * i + 1) (by omega)
    obtain ⟨k2, hk2⟩ := hwhole (2 * i + 2) (by omega)
    have ho := hx.ordered i hi
    rw [hk1, hk2] at ho
    have hk : k1 ≤ k2 := by
      have : (k1 : ℚ) ≤ k2 := by rw [hm] at ho; linarith
      exact_mod_cast this
    have hmax : max 0 (k2 - k1) = k2 - k1 := max_eq_right (by omega)
    simp only [Function.comp]
    rw [hk1, hk2, hm, mul_div_cancel_right₀ _ (by norm_num), mul_div_cancel_right₀ _ (by norm_num)]
    unfold edges elementRect
    have hk1' : x (2 * i + 1) = k1 * multiplier := hk1
    have hk2' : x (2 * i + 2) = k2 * multiplier := hk2
    cases l.direction <;>
      simp only [lo, extent, hk1', hk2', toCell_int, hmax] <;> push_cast <;>
      simp
  obtain ⟨y, hy, hrowy⟩ := exists_placed h.some_ hlen hrow
  have hfin := hbest y hy
  rw [hA x hx, hA y hy, hrowy] at hfin
  rw [hsegs]
  linarith

/-! ## Examples -/

/-- A solver to which C84 applies: `u ≤ 10` and `u ≥ 1` are required, `u = 20` is wanted. -/
example : okAnd (fun S => decide (S.idTick ≤ 256 ∧ S.getValue 0 = 10))
    (Solver.new.addConstraints (fun _ => 0) 10
      [⟨⟨[(0, 1)], -10⟩, .le, required⟩, ⟨⟨[(0, 1)], -1⟩, .ge, required⟩, ⟨⟨[(0, 1)], -20⟩, .eq, strong⟩])
      = true := by
  decide +kernel

/-- Not every feasible assignment is a corner: between its bounds a variable is not determined. -/
example : ¬ IsCorner [⟨⟨[(0, 1)], -10⟩, .le, required⟩, ⟨⟨[(0, 1)], -1⟩, .ge, required⟩] (fun _ => 2) := by
  intro h
  have := h (fun _ => 3) (by intro v hv; norm_num at hv) (by
    intro c hc hz
    simp only [List.mem_cons, List.not_mem_nil, or_false] at hc
    rcases hc with rfl | rfl <;> norm_num [Expr.eval] at hz) _ List.mem_cons_self 0 1 (by simp) one_ne_zero
  norm_num at this

/-- A page that asks for more than it has: a header, a body of at least ten rows, a quarter for the
log and the rest for something else, with a row between them, on twelve rows. -/
def crampedPage : Layout :=
  ⟨.vertical, [.len 3, .min 10, .percentage 25, .fill 1], Padding.none', .legacy, .space 1⟩

example : WholeRow crampedPage 12 where
  mode := rfl
  some_ := by decide
  few := by decide
  whole := by
    intro c hc
    simp only [crampedPage, List.mem_cons, List.not_mem_nil, or_false] at hc
    rcases hc with rfl | rfl | rfl | rfl
    · exact Or.inr (Or.inr ⟨3, rfl⟩)
    · exact Or.inl ⟨10, rfl⟩
    · exact Or.inr (Or.inr ⟨3, by norm_num [definiteSize]⟩)
    · exact Or.inr (Or.inl ⟨1, rfl⟩)
  oneFill := by decide

/-- Nothing is left for the header, the log and the filler. -/
example : splitWithSpacers (fun _ => 0) 100 crampedPage ⟨0, 0, 5, 12⟩ = .ok
    [⟨0, 0, 5, 0⟩, ⟨0, 1, 5, 9⟩, ⟨0, 11, 5, 0⟩, ⟨0, 12, 5, 0⟩]
    [⟨0, 0, 5, 0⟩, ⟨0, 0, 5, 1⟩, ⟨0, 10, 5, 1⟩, ⟨0, 11, 5, 1⟩, ⟨0, 12, 5, 0⟩] := by
  rw [split_fast _ _ (by decide)]
  decide +kernel

/-- **C85 needs the sizes to be whole**: halves of three cells are rounded to two and one, and the row
with a cut through the middle cell costs less. -/
theorem C85_fractions_false :
    ∃ segments spacers, splitWithSpacers (fun _ => 0) 100
      ⟨.horizontal, [.percentage 50, .percentage 50], Padding.none', .legacy, .space 0⟩ ⟨0, 0, 3, 1⟩
        = .ok segments spacers ∧
      rowPrice 0 3 0 [.percentage 50, .percentage 50] [(0, 3 / 2), (3 / 2, 3)]
        < rowPrice 0 3 0 [.percentage 50, .percentage 50] (segments.map (edges .horizontal)) := by
  refine ⟨[⟨0, 0, 2, 1⟩, ⟨2, 0, 1, 1⟩], [⟨0, 0, 0, 1⟩, ⟨2, 0, 0, 1⟩, ⟨3, 0, 0, 1⟩], ?_, ?_⟩
  · rw [split_fast _ _ (by decide)]
    decide +kernel
  · decide +kernel

end Bento
