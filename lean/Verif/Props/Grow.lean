import Verif.Lemmas.Yield
import Verif.Props.AlmostSurely

/-!
# Properties C90 and C91: rows that fill their area

C90: if some segment grows (a fill, or outside of `FlexLegacy` a minimum), the growing segments share the
free space in every flex mode. C91: if no segment of a `FlexLegacy` row grows, the segment that minds
least takes what is left or gives what is missing.
-/

namespace Bento

open Casso Layout

/-- Segment `i` of the row stands for its place among segments of these sizes. -/
def StandsAt (l : Layout) (inner : Rect) (sizes : List ℚ) (i : Nat) (r : Rect) : Prop :=
  StandsFor (lo l.direction r)
    (lo l.direction inner + rowStart sizes (gapOf l.spacing) i) ∧
  StandsFor (lo l.direction r + extent l.direction r)
    (lo l.direction inner + (rowStart sizes (gapOf l.spacing) i + sizes.getD i 0))

/-- Every best placement of the row has segments of these sizes, the spacing between them and nothing at
the ends. -/
def Layout.ExactRow (l : Layout) (inner : Rect) (sizes : List ℚ) : Prop :=
  ∀ x, Placed l.constraints.length ((lo l.direction inner : ℚ) * multiplier)
      (((lo l.direction inner + extent l.direction inner : Int) : ℚ) * multiplier) x →
    (∀ y, Placed l.constraints.length ((lo l.direction inner : ℚ) * multiplier)
      (((lo l.direction inner + extent l.direction inner : Int) : ℚ) * multiplier) y →
      weightedViolation (softList l) x ≤ weightedViolation (softList l) y) →
    (∀ i < l.constraints.length, x (2 * i + 2) - x (2 * i + 1) = sizes.getD i 0 * multiplier) ∧
    ∀ i < l.constraints.length + 1, x (2 * i + 1) - x (2 * i)
      = if 0 < i ∧ i < l.constraints.length then (Spacing.value l.spacing : ℚ) * multiplier else 0

theorem Layout.rowStart_succ {sizes : List ℚ} {spacing : Int} {i : Nat} (h : i < sizes.length) :
    rowStart sizes spacing (i + 1) = rowStart sizes spacing i + (sizes.getD i 0 + spacing) := by
  unfold rowStart
  rw [List.take_add_one, List.getElem?_eq_getElem h]
  simp [List.getD, h]

theorem Layout.ExactRow.positions {l : Layout} {inner : Rect} {sizes : List ℚ}
    (hlen : sizes.length = l.constraints.length) (h : l.ExactRow inner sizes) {x : Var → ℚ}
    (hx : Placed l.constraints.length (((l.areaBounds inner).1 : ℚ) * multiplier)
      (((l.areaBounds inner).2 : ℚ) * multiplier) x)
    (hbest : ∀ y, Placed l.constraints.length (((l.areaBounds inner).1 : ℚ) * multiplier)
      (((l.areaBounds inner).2 : ℚ) * multiplier) y →
      weightedViolation (softList l) x ≤ weightedViolation (softList l) y) :
    ∀ i < l.constraints.length,
      x (2 * i + 1) = (lo l.direction inner + rowStart sizes (gapOf l.spacing) i) * multiplier ∧
      x (2 * i + 2) = (lo l.direction inner + rowStart sizes (gapOf l.spacing) i
        + sizes.getD i 0) * multiplier := by
  rw [areaBounds_eq] at hx hbest
  simp only at hx hbest
  obtain ⟨hz, hg⟩ := h x hx hbest
  have hfirst : x 0 = (lo l.direction inner : ℚ) * multiplier := hx.first
  rw [gapOf_eq]
  intro i
  induction i with
  | zero =>
    intro hi
    have h1 := hg 0 (by omega)
    rw [if_neg (by omega)] at h1
    have h2 := hz 0 hi
    simp only [Nat.mul_zero, Nat.zero_add] at h1 h2
    have h0 : rowStart sizes (Spacing.value l.spacing) 0 = 0 := by simp [rowStart]
    rw [h0]
    constructor
    · simp only [Nat.mul_zero, Nat.zero_add]; linarith
    · simp only [Nat.mul_zero, Nat.zero_add]; linarith
  | succ i ih =>
    intro hi
    obtain ⟨_, e2⟩ := ih (by omega)
    have h1 := hg (i + 1) (by omega)
    rw [if_pos ⟨by omega, hi⟩] at h1
    have h2 := hz (i + 1) hi
    rw [show 2 * (i + 1) = 2 * i + 2 by omega] at h1 h2 ⊢
    rw [Layout.rowStart_succ (by omega)]
    constructor <;> linarith

/-- An exact row, as it comes out of `SplitWithSpacers`. -/
theorem Layout.ExactRow.split {l : Layout} {area : Rect} {sizes : List ℚ}
    (hlen : sizes.length = l.constraints.length) (hfew : Few l)
    (h : l.ExactRow (area.inner l.padding) sizes) (ω : Nat → Nat) (fuel : Nat) :
    splitWithSpacers ω fuel l area = .running ∨
    ∃ segments spacers, splitWithSpacers ω fuel l area = .ok segments spacers ∧
      segments.length = l.constraints.length ∧
      ∀ i r, segments[i]? = some r → StandsAt l (area.inner l.padding) sizes i r := by
  rcases split_values (ω := ω) (fuel := fuel) l area hfew with hr | ⟨x, hr, hx, hbest⟩
  · exact Or.inl hr
  · have hl : (changesToRects x (segmentElements l.constraints.length) (area.inner l.padding)
        l.direction).length = l.constraints.length := by simp [changesToRects, segmentElements_eq]
    refine Or.inr ⟨_, _, hr, hl, ?_⟩
    have hp := h.positions hlen hx hbest
    intro i r hri
    have hi : i < l.constraints.length := by
      rw [← hl]; exact (List.getElem?_eq_some_iff.1 hri).1
    obtain ⟨p1, p2⟩ := hp i hi
    have hre : r = elementRect x (area.inner l.padding) l.direction ⟨2 * i + 1, 2 * i + 2⟩ := by
      have : (changesToRects x (segmentElements l.constraints.length) (area.inner l.padding)
          l.direction)[i]? = some (elementRect x (area.inner l.padding) l.direction
            ⟨2 * i + 1, 2 * i + 2⟩) := by
        simp [changesToRects, segmentElements_eq, hi]
      rw [this] at hri; exact (Option.some.inj hri).symm
    have hmono := toCell_mono (hx.ordered i hi)
    have e1 : lo l.direction r = toCell (x (2 * i + 1)) := by
      rw [hre]; cases l.direction <;> rfl
    have e2 : lo l.direction r + extent l.direction r = toCell (x (2 * i + 2)) := by
      rw [hre]; cases l.direction <;> simp only [elementRect, lo, extent] <;> omega
    unfold StandsAt
    rw [e2, e1, p1, p2, add_assoc]
    exact ⟨toCell_standsFor _ _, toCell_standsFor _ _⟩

/-- An exact row does not depend on the iteration orders of the maps. -/
theorem Layout.ExactRow.same {l : Layout} {area : Rect} {sizes : List ℚ}
    (hlen : sizes.length = l.constraints.length) (hfew : Few l)
    (h : l.ExactRow (area.inner l.padding) sizes) {ω ω' : Nat → Nat} {fuel fuel' : Nat}
    {s t s' t' : List Rect} (h1 : splitWithSpacers ω fuel l area = .ok s t)
    (h2 : splitWithSpacers ω' fuel' l area = .ok s' t') : s = s' ∧ t = t' := by
  rcases split_values (ω := ω) (fuel := fuel) l area hfew with hr | ⟨x, hr, hx, hbest⟩
  · rw [hr] at h1; cases h1
  rcases split_values (ω := ω') (fuel := fuel') l area hfew with hr' | ⟨x', hr', hx', hbest'⟩
  · rw [hr'] at h2; cases h2
  rw [hr] at h1
  rw [hr'] at h2
  have hp := h.positions hlen hx hbest
  have hp' := h.positions hlen hx' hbest'
  have hsame : ∀ v < 2 * l.constraints.length + 2, x v = x' v := by
    intro v hv
    by_cases h0 : v = 0
    · subst h0
      have e1 : x 0 = _ := hx.first
      have e2 : x' 0 = _ := hx'.first
      rw [e1, e2]
    by_cases hl : v = 2 * l.constraints.length + 1
    · subst hl; rw [hx.last, hx'.last]
    by_cases hodd : v % 2 = 1
    · have hi : v / 2 < l.constraints.length := by omega
      have e := (hp (v / 2) hi).1
      have e' := (hp' (v / 2) hi).1
      rw [show 2 * (v / 2) + 1 = v by omega] at e e'
      rw [e, e']
    · have hi : v / 2 - 1 < l.constraints.length := by omega
      have e := (hp (v / 2 - 1) hi).2
      have e' := (hp' (v / 2 - 1) hi).2
      rw [show 2 * (v / 2 - 1) + 2 = v by omega] at e e'
      rw [e, e']
  have hrects : ∀ es : List Element, (∀ e ∈ es, e.start < 2 * l.constraints.length + 2 ∧
      e.stop < 2 * l.constraints.length + 2) →
      changesToRects x es (area.inner l.padding) l.direction
        = changesToRects x' es (area.inner l.padding) l.direction := by
    intro es he
    unfold changesToRects
    apply List.map_congr_left
    intro e hm
    unfold elementRect
    rw [hsame _ (he e hm).1, hsame _ (he e hm).2]
  cases h1
  cases h2
  exact ⟨hrects _ fun e he => segmentElements_lt he, hrects _ fun e he => spacerElements_lt he⟩

/-! ## C90 -/

/-- What C90 assumes of a layout and the extent `total` of its padded area: few enough constraints for
the symbols of the solver (see C22); some segment grows, and outside of `FlexLegacy` not only `Fill(0)`;
the sizes everything should have are not negative and not shorter than an overlap; and the share of a
growing minimum is at least the minimum. -/
structure Grows (l : Layout) (total : Int) : Prop where
  few : Few l
  weight : 0 < (l.constraints.map (growWeight l.flex)).sum
  weightOne : l.flex ≠ .legacy → 1 ≤ (l.constraints.map (growWeight l.flex)).sum
  sizes : ∀ c ∈ l.constraints, 0 ≤ grownSize l.flex l.constraints (gapOf l.spacing) total c ∧
    0 ≤ grownSize l.flex l.constraints (gapOf l.spacing) total c + (gapOf l.spacing : ℚ)
  minimums : l.flex ≠ .legacy → ∀ t, Constraint.min t ∈ l.constraints →
    (t : ℚ) ≤ grownSize l.flex l.constraints (gapOf l.spacing) total (.min t)

/-- The sizes of the segments of the layout in C90. -/
def Layout.shares (l : Layout) (total : Int) : List ℚ :=
  grownSizes l.flex l.constraints (gapOf l.spacing) total

theorem Layout.shares_length (l : Layout) (total : Int) :
    (l.shares total).length = l.constraints.length := by simp [shares, grownSizes]

theorem Grows.exact {l : Layout} {inner : Rect} (h : Grows l (extent l.direction inner)) :
    l.ExactRow inner (l.shares (extent l.direction inner)) := by
  intro x hx hbest
  have hsome : 0 < l.constraints.length := by
    rcases Nat.eq_zero_or_pos l.constraints.length with h0 | h0
    · have := h.weight
      rw [List.length_eq_zero_iff.1 h0] at this
      simp at this
    · exact h0
  obtain ⟨m, hm⟩ : ∃ m, l.constraints.length = m + 1 := ⟨l.constraints.length - 1, by omega⟩
  have hs := h.sizes
  have hmin := h.minimums
  rw [gapOf_eq] at hs hmin
  obtain ⟨hz, hg⟩ := grow_exact hm (total := extent l.direction inner) (by push_cast; ring)
    h.weight h.weightOne hs hmin hx hbest
  rw [hm]
  refine ⟨fun i hi => ?_, hg⟩
  rw [hz i hi]
  unfold grown shares grownSizes
  rw [gapOf_eq, con_eq (by omega), List.getD_eq_getElem?_getD, List.getElem?_map,
    List.getElem?_eq_getElem (by omega)]
  rfl

/-- **C90.** If some segment grows, then in every flex mode the segments that do not grow have the size
they ask for, the spacing is kept, nothing is left before the first or after the last segment, and the
growing segments share the rest by their weights: exact up to rounding to cells. -/
theorem C90_growing (ω : Nat → Nat) (fuel : Nat) (l : Layout) (area : Rect)
    (h : Grows l (extent l.direction (area.inner l.padding))) :
    splitWithSpacers ω fuel l area = .running ∨
    ∃ segments spacers, splitWithSpacers ω fuel l area = .ok segments spacers ∧
      segments.length = l.constraints.length ∧
      ∀ i r, segments[i]? = some r → StandsAt l (area.inner l.padding)
        (l.shares (extent l.direction (area.inner l.padding))) i r :=
  h.exact.split (shares_length _ _) h.few ω fuel

/-- **C90** with probability one over the iteration orders of the maps. -/
theorem C90_almost_surely (l : Layout) (area : Rect)
    (h : Grows l (extent l.direction (area.inner l.padding))) :
    AlmostSurely l area fun segments _ => segments.length = l.constraints.length ∧
      ∀ i r, segments[i]? = some r → StandsAt l (area.inner l.padding)
        (l.shares (extent l.direction (area.inner l.padding))) i r :=
  almostSurely_of h.few fun ω fuel => C90_growing ω fuel l area h

/-- **C81** for the layouts of C90: whatever the orders of the maps, two calls that return give the same
segments and spacers. -/
theorem C81_growing_partial (ω ω' : Nat → Nat) (fuel fuel' : Nat) (l : Layout) (area : Rect)
    (h : Grows l (extent l.direction (area.inner l.padding))) {s t s' t' : List Rect}
    (h1 : splitWithSpacers ω fuel l area = .ok s t)
    (h2 : splitWithSpacers ω' fuel' l area = .ok s' t') : s = s' ∧ t = t' :=
  h.exact.same (shares_length _ _) h.few h1 h2

/-- A side bar of twenty cells beside the content, one cell apart. -/
def sideBar : Layout := ⟨.horizontal, [.len 20, .fill 1], Padding.none', .start, .space 1⟩

/-- The hypotheses are met in a terminal of 80 columns … -/
theorem sideBar_grows : Grows sideBar 80 where
  few := by decide
  weight := by decide +kernel
  weightOne := fun _ => by decide +kernel
  sizes := by
    intro c hc
    simp only [sideBar, List.mem_cons, List.not_mem_nil, or_false] at hc
    rcases hc with rfl | rfl <;> decide +kernel
  minimums := by
    intro _ t ht
    simp [sideBar] at ht

/-- … where the content has the other 59. -/
example : sideBar.shares 80 = [20, 59] := by decide +kernel

example : ∃ spacers, splitWithSpacers (fun _ => 0) 100 sideBar ⟨0, 0, 80, 24⟩ =
    .ok [⟨0, 0, 20, 24⟩, ⟨21, 0, 59, 24⟩] spacers := by
  refine ⟨[⟨0, 0, 0, 24⟩, ⟨20, 0, 1, 24⟩, ⟨80, 0, 0, 24⟩], ?_⟩
  rw [split_fast _ _ (by decide)]
  decide +kernel

/-- Outside of `FlexLegacy` a minimum grows like `Fill(1)`: a percentage, a minimum and a fill. -/
def minimumGrows : Layout :=
  ⟨.vertical, [.percentage 25, .min 5, .fill 2], Padding.none', .center, .space 0⟩

theorem minimumGrows_grows : Grows minimumGrows 24 where
  few := by decide
  weight := by decide +kernel
  weightOne := fun _ => by decide +kernel
  sizes := by
    intro c hc
    simp only [minimumGrows, List.mem_cons, List.not_mem_nil, or_false] at hc
    rcases hc with rfl | rfl | rfl <;> decide +kernel
  minimums := by
    intro _ t ht
    simp only [minimumGrows, List.mem_cons, List.not_mem_nil, or_false, reduceCtorEq, false_or] at ht
    cases ht
    decide +kernel

example : minimumGrows.shares 24 = [6, 6, 12] := by decide +kernel

/-- In `FlexLegacy` it does not: the fills take everything. -/
example : Layout.shares ⟨.vertical, [.percentage 25, .min 5, .fill 2], Padding.none', .legacy, .space 0⟩ 24
    = [6, 5, 13] := by decide +kernel

/-! ## C91 -/

/-- What C91 assumes of a layout and the extent `total` of its padded area: `FlexLegacy`, few enough
constraints, no fill; segment `k` is the only one that is first to be stretched if there is space left,
and the only one that is first to be shrunk if there is too little; and no size comes out negative or
shorter than an overlap. -/
structure GivesWay (l : Layout) (total : Int) (k : Nat) : Prop where
  mode : l.flex = .legacy
  few : Few l
  index : k < l.constraints.length
  noFill : ∀ n, Constraint.fill n ∉ l.constraints
  stretch : 0 < freeSpace .legacy l.constraints (gapOf l.spacing) total →
    ∀ j c d, j ≠ k → l.constraints[k]? = some c → l.constraints[j]? = some d → stretchRank c < stretchRank d
  shrink : freeSpace .legacy l.constraints (gapOf l.spacing) total < 0 →
    ∀ j c d, j ≠ k → l.constraints[k]? = some c → l.constraints[j]? = some d → shrinkRank c < shrinkRank d
  sizes : ∀ q ∈ yieldedSizes l.constraints (gapOf l.spacing) total k, 0 ≤ q ∧ 0 ≤ q + (gapOf l.spacing : ℚ)

/-- The sizes of the segments of the layout in C91. -/
def Layout.yields (l : Layout) (total : Int) (k : Nat) : List ℚ :=
  yieldedSizes l.constraints (gapOf l.spacing) total k

theorem Layout.yields_length (l : Layout) (total : Int) (k : Nat) :
    (l.yields total k).length = l.constraints.length := by simp [yields, yieldedSizes]

theorem GivesWay.exact {l : Layout} {inner : Rect} {k : Nat} (h : GivesWay l (extent l.direction inner) k) :
    l.ExactRow inner (l.yields (extent l.direction inner) k) := by
  intro x hx hbest
  obtain ⟨m, hm⟩ : ∃ m, l.constraints.length = m + 1 :=
    ⟨l.constraints.length - 1, by have := h.index; omega⟩
  have hs := h.sizes
  have hup := h.stretch
  have hdown := h.shrink
  rw [gapOf_eq] at hs hup hdown
  have hget : ∀ i < m + 1, l.constraints[i]? = some (con l i) := by
    intro i hi
    rw [con_eq (by omega), List.getElem?_eq_getElem]
  obtain ⟨hz, hg⟩ := yield_exact h.mode hm (total := extent l.direction inner) (by push_cast; ring)
    (fun c hc => by
      cases c
      case fill n => exact absurd hc (h.noFill n)
      all_goals rfl)
    (k := k) (by rw [← hm]; exact h.index)
    (fun hp j hj hjk => hup hp j _ _ hjk (hget k (by rw [← hm]; exact h.index)) (hget j hj))
    (fun hp j hj hjk => hdown hp j _ _ hjk (hget k (by rw [← hm]; exact h.index)) (hget j hj))
    (fun i hi => by
      rw [con_eq (by omega)]
      apply hs
      unfold yieldedSizes
      rw [List.mem_mapIdx]
      exact ⟨i, by omega, rfl⟩)
    hx hbest
  rw [hm]
  refine ⟨fun i hi => ?_, hg⟩
  rw [hz i hi]
  unfold yielded yields yieldedSizes
  rw [gapOf_eq, con_eq (by omega), List.getD_eq_getElem?_getD, List.getElem?_mapIdx,
    List.getElem?_eq_getElem (by omega)]
  rfl

/-- **C91.** In a `FlexLegacy` row without a fill the segment that minds least takes what is left or
gives what is missing; all others have the size they ask for, the spacing is kept, and nothing is left
before the first or after the last: exact up to rounding to cells. -/
theorem C91_yielding (ω : Nat → Nat) (fuel : Nat) (l : Layout) (area : Rect) (k : Nat)
    (h : GivesWay l (extent l.direction (area.inner l.padding)) k) :
    splitWithSpacers ω fuel l area = .running ∨
    ∃ segments spacers, splitWithSpacers ω fuel l area = .ok segments spacers ∧
      segments.length = l.constraints.length ∧
      ∀ i r, segments[i]? = some r → StandsAt l (area.inner l.padding)
        (l.yields (extent l.direction (area.inner l.padding)) k) i r :=
  h.exact.split (yields_length _ _ _) h.few ω fuel

/-- **C91** with probability one over the iteration orders of the maps. -/
theorem C91_almost_surely (l : Layout) (area : Rect) (k : Nat)
    (h : GivesWay l (extent l.direction (area.inner l.padding)) k) :
    AlmostSurely l area fun segments _ => segments.length = l.constraints.length ∧
      ∀ i r, segments[i]? = some r → StandsAt l (area.inner l.padding)
        (l.yields (extent l.direction (area.inner l.padding)) k) i r :=
  almostSurely_of h.few fun ω fuel => C91_yielding ω fuel l area k h

/-- **C81** for the layouts of C91. -/
theorem C81_yielding_partial (ω ω' : Nat → Nat) (fuel fuel' : Nat) (l : Layout) (area : Rect) (k : Nat)
    (h : GivesWay l (extent l.direction (area.inner l.padding)) k) {s t s' t' : List Rect}
    (h1 : splitWithSpacers ω fuel l area = .ok s t)
    (h2 : splitWithSpacers ω' fuel' l area = .ok s' t') : s = s' ∧ t = t' :=
  h.exact.same (yields_length _ _ _) h.few h1 h2

/-- The screen of most terminal programs: a line above, a line below and the content between them. -/
def screen : Layout := ⟨.vertical, [.len 1, .min 0, .len 1], Padding.none', .legacy, .space 0⟩

/-- The hypotheses are met in a terminal of 24 lines … -/
theorem screen_yields : GivesWay screen 24 1 where
  mode := rfl
  few := by decide
  index := by decide
  noFill := by simp [screen]
  stretch := by
    intro _ j c d hj hc hd
    have hlt : j < 3 := (List.getElem?_eq_some_iff.1 hd).1
    have : j = 0 ∨ j = 2 := by omega
    rcases this with rfl | rfl <;> cases hc <;> cases hd <;> decide
  shrink := fun h => absurd h (by decide +kernel)
  sizes := by decide +kernel

/-- … where the content has the other 22. -/
example : screen.yields 24 1 = [1, 22, 1] := by decide +kernel

example : ∃ spacers, splitWithSpacers (fun _ => 0) 100 screen ⟨0, 0, 80, 24⟩ =
    .ok [⟨0, 0, 80, 1⟩, ⟨0, 1, 80, 22⟩, ⟨0, 23, 80, 1⟩] spacers := by
  refine ⟨[⟨0, 0, 80, 0⟩, ⟨0, 1, 80, 0⟩, ⟨0, 23, 80, 0⟩, ⟨0, 24, 80, 0⟩], ?_⟩
  rw [split_fast _ _ (by decide)]
  decide +kernel

/-- Three thirds: nothing is left or missing, so no segment has to give way. -/
def thirds : Layout :=
  ⟨.horizontal, [.ratio 1 3, .ratio 1 3, .ratio 1 3], Padding.none', .legacy, .space 0⟩

theorem thirds_yields : GivesWay thirds 80 0 where
  mode := rfl
  few := by decide
  index := by decide
  noFill := by simp [thirds]
  stretch := fun h => absurd h (by decide +kernel)
  shrink := fun h => absurd h (by decide +kernel)
  sizes := by decide +kernel

example : thirds.yields 80 0 = [80 / 3, 80 / 3, 80 / 3] := by decide +kernel

/-- Too little space: a percentage gives way to a length. -/
def crowded : Layout := ⟨.horizontal, [.len 30, .percentage 50], Padding.none', .legacy, .space 0⟩

theorem crowded_yields : GivesWay crowded 40 1 where
  mode := rfl
  few := by decide
  index := by decide
  noFill := by simp [crowded]
  stretch := fun h => absurd h (by decide +kernel)
  shrink := by
    intro _ j c d hj hc hd
    have hlt : j < 2 := (List.getElem?_eq_some_iff.1 hd).1
    have : j = 0 := by omega
    subst this
    cases hc; cases hd; decide
  sizes := by decide +kernel

example : crowded.yields 40 1 = [30, 10] := by decide +kernel

end Bento
