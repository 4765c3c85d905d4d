import Verif.Lemmas.Single
import Verif.Props.Flex
import Verif.Props.Termination

/-!
# Property C86: a layout of a single segment
-/

namespace Bento

open Casso Layout MeasureTheory

theorem inner_extent (l : Layout) (area : Rect) : 0 ≤ extent l.direction (area.inner l.padding) := by
  have := inner_bounds l area
  rw [areaBounds_eq] at this
  simp only at this
  omega

/-- The exact edges of the only segment, and the outcome they give. -/
theorem single_edges {ω : Nat → Nat} {fuel : Nat} (l : Layout) {c : Constraint} (hl : l.constraints = [c])
    (area : Rect) :
    splitWithSpacers ω fuel l area = .running ∨
    ∃ (x : Var → ℚ) (q : ℚ),
      splitWithSpacers ω fuel l area = .ok
        [elementRect x (area.inner l.padding) l.direction ⟨1, 2⟩]
        [elementRect x (area.inner l.padding) l.direction ⟨0, 1⟩,
          elementRect x (area.inner l.padding) l.direction ⟨2, 3⟩] ∧
      x 0 = (lo l.direction (area.inner l.padding) + 0) * multiplier ∧
      x 1 = (lo l.direction (area.inner l.padding) + q) * multiplier ∧
      x 2 = (lo l.direction (area.inner l.padding) +
        (q + singleSize l.flex (extent l.direction (area.inner l.padding)) c)) * multiplier ∧
      x 3 = (lo l.direction (area.inner l.padding) + extent l.direction (area.inner l.padding)) * multiplier ∧
      0 ≤ q ∧ q + singleSize l.flex (extent l.direction (area.inner l.padding)) c
        ≤ extent l.direction (area.inner l.padding) ∧
      0 ≤ singleSize l.flex (extent l.direction (area.inner l.padding)) c ∧
      (l.flex ≠ .spaceAround → q = singleStart l.flex (extent l.direction (area.inner l.padding))
        (singleSize l.flex (extent l.direction (area.inner l.padding)) c)) ∧
      (l.flex = .spaceAround → 0 ≤ lo l.direction (area.inner l.padding) → q = 0 ∨
        q + singleSize l.flex (extent l.direction (area.inner l.padding)) c
          = extent l.direction (area.inner l.padding)) := by
  have hn : l.constraints.length = 1 := by rw [hl]; rfl
  have hext := inner_extent l area
  rcases split_corner (ω := ω) (fuel := fuel) l area (few_of_small (.inl (by omega))) with
    hr | ⟨x, hr, hx, hbest, hcorner⟩
  · exact Or.inl hr
  right
  rw [hn] at hr hx hbest
  have hm : multiplier = 100 := rfl
  generalize area.inner l.padding = inner at *
  have hab := areaBounds_eq l inner
  obtain ⟨hsz, hst⟩ := single_exact hl hext (by rw [hab]; push_cast; ring) hx hbest
  have x0 : x 0 = _ := hx.first
  have x3 : x 3 = _ := hx.last
  have l1 := hx.low 1 (show (1 : Nat) < 4 by omega)
  have l2 := hx.high 2 (show (2 : Nat) < 4 by omega)
  have l12 : x 1 ≤ x 2 := hx.ordered 0 (by omega)
  have hcor := fun (hf : l.flex = .spaceAround) h0 => single_corner hl hf (inner := inner) (by rw [hab]; exact h0)
    hx hcorner
  rw [hab] at x0 x3 l1 l2 hst hcor
  simp only at x0 x3 l1 l2 hst hcor
  push_cast at x3 l2 hcor
  rw [hm] at x0 x3 l1 l2 hst hcor hsz
  refine ⟨x, x 1 / 100 - lo l.direction inner, hr, by rw [hm, x0]; ring, by rw [hm]; ring,
    by rw [hm]; linarith, by rw [hm, x3], by linarith, by linarith, by linarith, ?_, ?_⟩
  · intro hf
    have := hst hf
    linarith
  · intro hf h0
    rcases hcor hf h0 with h | h
    · left; rw [h]; ring
    · right; linarith

/-- **C86.** A layout of a single constraint, whatever it asks for and whether or not it fits: if the split
ends (see `C86_almost_surely`), there is one segment, in the full extent of the padded area across the
direction, and its edges stand for the exact ones: the size `singleSize`, at the distance `singleStart`; in
`FlexSpaceAround`, where nothing is said about the place, at the start or the end of the area (if its
coordinates are not negative). -/
theorem C86_single_segment (ω : Nat → Nat) (fuel : Nat) (l : Layout) (c : Constraint)
    (hl : l.constraints = [c]) (area : Rect) :
    splitWithSpacers ω fuel l area = .running ∨
    ∃ (r before after : Rect) (q : ℚ), splitWithSpacers ω fuel l area = .ok [r] [before, after] ∧
      let inner := area.inner l.padding
      let total := extent l.direction inner
      let size := singleSize l.flex total c
      Fits l.direction inner r ∧
      StandsFor (lo l.direction r) (lo l.direction inner + q) ∧
      StandsFor (lo l.direction r + extent l.direction r) (lo l.direction inner + (q + size)) ∧
      lo l.direction before = lo l.direction inner ∧
      lo l.direction before + extent l.direction before = lo l.direction r ∧
      lo l.direction after = lo l.direction r + extent l.direction r ∧
      lo l.direction after + extent l.direction after = lo l.direction inner + total ∧
      0 ≤ q ∧ q + size ≤ total ∧
      (l.flex ≠ .spaceAround → q = singleStart l.flex total size) ∧
      (l.flex = .spaceAround → 0 ≤ lo l.direction inner → q = 0 ∨ q + size = total) := by
  rcases single_edges (ω := ω) (fuel := fuel) l hl area with hr | ⟨x, q, hr, x0, x1, x2, x3, h0, h1, hs, h2, h3⟩
  · exact Or.inl hr
  refine Or.inr ⟨_, _, _, q, hr, ?_⟩
  have hfit : Fits l.direction (area.inner l.padding) (elementRect x (area.inner l.padding) l.direction ⟨1, 2⟩) := by
    rcases C18_well_formed_partial ω fuel l area (few_of_small (.inl (by rw [hl]; simp))) with h | ⟨s, t, h, _, _, h'⟩
    · rw [hr] at h; cases h
    · rw [hr] at h
      cases h
      exact h' _ (Or.inl List.mem_cons_self)
  generalize area.inner l.padding = inner at *
  have hm : multiplier = 100 := rfl
  have e0 : toCell (x 0) = lo l.direction inner := by rw [x0, add_zero, toCell_int]
  have e3 : toCell (x 3) = lo l.direction inner + extent l.direction inner := by
    rw [x3]
    have := toCell_int (lo l.direction inner + extent l.direction inner)
    push_cast at this
    exact this
  have m1 : toCell (x 0) ≤ toCell (x 1) := toCell_mono (by rw [x0, x1, hm]; linarith)
  have m2 : toCell (x 1) ≤ toCell (x 2) := toCell_mono (by rw [x1, x2, hm]; linarith)
  have m3 : toCell (x 2) ≤ toCell (x 3) := toCell_mono (by rw [x2, x3, hm]; linarith)
  have s1 := toCell_standsFor (lo l.direction inner) q
  have s2 := toCell_standsFor (lo l.direction inner)
    (q + singleSize l.flex (extent l.direction inner) c)
  rw [← x1] at s1
  rw [← x2] at s2
  have f1 : ∀ e : Element, lo l.direction (elementRect x inner l.direction e) = toCell (x e.start) := by
    intro e; cases l.direction <;> rfl
  have f2 : ∀ e : Element, extent l.direction (elementRect x inner l.direction e)
      = max 0 (toCell (x e.stop) - toCell (x e.start)) := by
    intro e; cases l.direction <;> rfl
  simp only [f1, f2]
  rw [show max 0 (toCell (x 2) - toCell (x 1)) = toCell (x 2) - toCell (x 1) by omega,
    show max 0 (toCell (x 1) - toCell (x 0)) = toCell (x 1) - toCell (x 0) by omega,
    show max 0 (toCell (x 3) - toCell (x 2)) = toCell (x 3) - toCell (x 2) by omega]
  refine ⟨hfit, s1, ?_, e0, by omega, by omega, by omega, h0, h1, h2, h3⟩
  rw [show toCell (x 1) + (toCell (x 2) - toCell (x 1)) = toCell (x 2) by omega]
  exact s2

theorem singleSize_free {flex : Flex} (hf : flex = .start ∨ flex = .end' ∨ flex = .center) (total : Int)
    (c : Constraint) : singleSize flex total c = max 0 (min (total : ℚ) ((definiteSize total c).getD total)) := by
  rcases hf with h | h | h <;> rw [h] <;> rfl

/-- A dialog of 30 columns in the middle of 80. -/
example : singleStart .center 80 (singleSize .center 80 (.len 30)) = 25 ∧ singleSize .center 80 (.len 30) = 30 ∧
    singleSize .center 20 (.len 30) = 20 ∧ singleSize .start 20 (.min 30) = 20 ∧
    singleSize .end' 20 (.percentage 25) = 5 := by
  rw [singleSize_free (by simp), singleSize_free (by simp), singleSize_free (by simp), singleSize_free (by simp)]
  simp only [definiteSize, Option.getD_some, Option.getD_none, singleStart]
  norm_num

/-- **C86**, determinism: whatever the orders of the maps, two splits of a single segment that return give
the same rectangles (except in `FlexSpaceAround`). -/
theorem C86_same_result (ω ω' : Nat → Nat) (fuel fuel' : Nat) (l : Layout) (c : Constraint)
    (hl : l.constraints = [c]) (hf : l.flex ≠ .spaceAround) (area : Rect) {s t s' t' : List Rect}
    (h : splitWithSpacers ω fuel l area = .ok s t) (h' : splitWithSpacers ω' fuel' l area = .ok s' t') :
    s = s' ∧ t = t' := by
  rcases single_edges (ω := ω) (fuel := fuel) l hl area with hr | ⟨x, q, hr, x0, x1, x2, x3, _, _, _, hq, _⟩
  · rw [hr] at h; cases h
  rcases single_edges (ω := ω') (fuel := fuel') l hl area with hr' | ⟨y, p, hr', y0, y1, y2, y3, _, _, _, hp, _⟩
  · rw [hr'] at h'; cases h'
  rw [hr] at h
  rw [hr'] at h'
  cases h
  cases h'
  rw [hq hf] at x1 x2
  rw [hp hf] at y1 y2
  unfold elementRect
  simp only [x0, x1, x2, x3, y0, y1, y2, y3]
  exact ⟨trivial, trivial⟩

/-- **C86**, termination: the split of a single segment ends with probability one. -/
theorem C86_almost_surely (l : Layout) (c : Constraint) (hl : l.constraints = [c]) (area : Rect)
    (μ : ℕ → Measure ℕ) [∀ i, IsProbabilityMeasure (μ i)] {ε : ENNReal} (hε : ε ≠ 0) (h0 : ∀ i, ε ≤ μ i {0}) :
    ∀ᵐ ω ∂(Measure.infinitePi μ), Returns ω l area :=
  C80_split_almost_surely l area (few_of_small (.inl (by rw [hl]; simp))) μ hε h0

theorem toCell_half (k : Int) (h : 0 ≤ k) : toCell (((k : ℚ) / 2) * multiplier) = (k + 1) / 2 := by
  unfold toCell multiplier
  have e : (k : ℚ) / 2 * 100 = ((k * 50 : Int) : ℚ) := by push_cast; ring
  rw [e, roundHalfAway_int]
  unfold roundHalfAway
  have hk : (0 : ℚ) ≤ k := by exact_mod_cast h
  rw [if_pos (by push_cast; linarith)]
  rw [show ((k * 50 : Int) : ℚ) / 100 + 1 / 2 = ((k + 1 : Int) : ℚ) / ((2 : Int) : ℚ) by push_cast; ring]
  rw [Int.floor_eq_iff]
  have h1 := Int.mul_ediv_add_emod (k + 1) 2
  have h2 := Int.emod_nonneg (k + 1) (show (2 : Int) ≠ 0 by decide)
  have h3 := Int.emod_lt_of_pos (k + 1) (show (0 : Int) < 2 by decide)
  have h1' : (2 : ℚ) * (((k + 1) / 2 : Int) : ℚ) + (((k + 1) % 2 : Int) : ℚ) = k + 1 := by exact_mod_cast h1
  have h2' : (0 : ℚ) ≤ (((k + 1) % 2 : Int) : ℚ) := by exact_mod_cast h2
  have h3' : (((k + 1) % 2 : Int) : ℚ) < 2 := by exact_mod_cast h3
  push_cast
  constructor <;> linarith

/-- **C86**, a segment of `t` cells that fits, in an area without negative coordinates: it has exactly
`t` cells, at the start or at the end, or in the middle with the odd cell of the free space in front. -/
theorem C86_exact_length (ω : Nat → Nat) (fuel : Nat) (l : Layout) (t : Int) (hl : l.constraints = [.len t])
    (hf : l.flex = .start ∨ l.flex = .end' ∨ l.flex = .center) (area : Rect)
    (h0 : 0 ≤ lo l.direction (area.inner l.padding))
    (ht : 0 ≤ t) (hfit : t ≤ extent l.direction (area.inner l.padding)) :
    splitWithSpacers ω fuel l area = .running ∨
    ∃ (r before after : Rect), splitWithSpacers ω fuel l area = .ok [r] [before, after] ∧
      let free := extent l.direction (area.inner l.padding) - t
      extent l.direction r = t ∧
      lo l.direction r = lo l.direction (area.inner l.padding) +
        match l.flex with | .start => 0 | .end' => free | _ => (free + 1) / 2 := by
  rcases single_edges (ω := ω) (fuel := fuel) l hl area with hr | ⟨x, q, hr, x0, x1, x2, x3, _, _, _, hq, _⟩
  · exact Or.inl hr
  refine Or.inr ⟨_, _, _, hr, ?_⟩
  generalize area.inner l.padding = inner at *
  have f1 : ∀ e : Element, lo l.direction (elementRect x inner l.direction e) = toCell (x e.start) := by
    intro e; cases l.direction <;> rfl
  have f2 : ∀ e : Element, extent l.direction (elementRect x inner l.direction e)
      = max 0 (toCell (x e.stop) - toCell (x e.start)) := by
    intro e; cases l.direction <;> rfl
  simp only [f1, f2]
  have hq := hq (by rcases hf with h | h | h <;> rw [h] <;> decide)
  have hsz : singleSize l.flex (extent l.direction inner) (.len t) = t := by
    have a : (0 : ℚ) ≤ t := by exact_mod_cast ht
    have b : (t : ℚ) ≤ extent l.direction inner := by exact_mod_cast hfit
    rw [singleSize_free hf]
    show max 0 (min _ (t : ℚ)) = _
    rw [min_eq_right b, max_eq_right a]
  rw [hsz] at hq x2
  rw [hq] at x1 x2
  have whole : ∀ (k : Int) {v : ℚ}, v = (k : ℚ) * multiplier → toCell v = k := fun k v h => by rw [h, toCell_int]
  generalize lo l.direction inner = a at *
  generalize extent l.direction inner = n at *
  rcases hf with h | h | h <;> rw [h] at x1 x2 ⊢ <;> simp only [singleStart] at x1 x2 ⊢
  · rw [whole a (v := x 1) (by rw [x1]; ring), whole (a + t) (v := x 2) (by rw [x2]; push_cast; ring)]
    omega
  · rw [whole (a + (n - t)) (v := x 1) (by rw [x1]; push_cast; ring),
      whole (a + n) (v := x 2) (by rw [x2]; push_cast; ring)]
    omega
  · have e1 : x 1 = (((2 * a + (n - t) : Int) : ℚ) / 2) * multiplier := by rw [x1]; push_cast; ring
    have e2 : x 2 = (((2 * a + (n - t) + 2 * t : Int) : ℚ) / 2) * multiplier := by rw [x2]; push_cast; ring
    rw [e1, e2, toCell_half _ (by omega), toCell_half _ (by omega)]
    omega

/-- The hypotheses are met by a dialog of 31 columns in 80. -/
example : let l : Layout := ⟨.horizontal, [.len 31], Padding.none', .center, .space 0⟩
    0 ≤ lo l.direction ((⟨0, 0, 80, 24⟩ : Rect).inner l.padding) ∧
      (31 : Int) ≤ extent l.direction ((⟨0, 0, 80, 24⟩ : Rect).inner l.padding) := by decide

end Bento
