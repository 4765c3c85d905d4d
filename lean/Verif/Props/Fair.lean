import Verif.Lemmas.Fair
import Verif.Props.Grow

/-!
# Property C95: rows of `FlexLegacy` are fair

In `FlexLegacy` the segments that mind least give way first: space that is left is given in one order of
the kinds of constraints, space that is missing is taken in another, and this holds however small the
area is. C91 is the case in which a single segment gives way; here several may have to, one after the
other, and segments of the same kind may share the loss in any way.
-/

namespace Bento

open Casso Layout

/-- What C95 assumes of a layout and the extent `total` of its padded area: there is room for the
spacing. -/
structure RoomyRow (l : Layout) (total : Int) : Prop where
  mode : l.flex = .legacy
  some_ : 0 < l.constraints.length
  few : Few l
  oneFill : (l.constraints.filter wantsAll).length ≤ 1
  spacing : 0 ≤ gapOf l.spacing
  room : ((l.constraints.length : Int) - 1) * gapOf l.spacing ≤ total

/-- The exact sizes of the segments in an assignment of the solver. -/
def exactSizes (n : Nat) (x : Var → ℚ) : List ℚ := lengths (rowOf n x)

theorem exactSizes_length (n : Nat) (x : Var → ℚ) : (exactSizes n x).length = n := by
  simp [exactSizes, lengths, rowOf]

theorem exactSizes_getD {n : Nat} {x : Var → ℚ} {i : Nat} (hi : i < n) :
    (exactSizes n x).getD i 0 = x (2 * i + 2) / 100 - x (2 * i + 1) / 100 := by
  simp [exactSizes, lengths, rowOf, hi]

theorem spacedRow_getElem? (sp : Int) : ∀ (sizes : List ℚ) (a : ℚ) (i : Nat), i < sizes.length →
    (spacedRow a sp sizes)[i]? =
      some (a + rowStart sizes sp i, a + rowStart sizes sp i + sizes.getD i 0)
  | [], _, _, hi => absurd hi (Nat.not_lt_zero _)
  | s :: rest, a, 0, _ => by simp [spacedRow, rowStart]
  | s :: rest, a, i + 1, hi => by
    have ih := spacedRow_getElem? sp rest (a + s + sp) i (by simpa using hi)
    have e : rowStart (s :: rest) sp (i + 1) = s + sp + rowStart rest sp i := by
      simp [rowStart]
    rw [spacedRow, List.getElem?_cons_succ, ih, e, List.getD_cons_succ]
    congr 2 <;> ring

/-- A best placement of the row is fair, keeps the spacing and leaves nothing at the ends. -/
theorem RoomyRow.placement {l : Layout} {inner : Rect} (h : RoomyRow l (extent l.direction inner))
    {x : Var → ℚ}
    (hx : Placed l.constraints.length (((l.areaBounds inner).1 : ℚ) * multiplier)
      (((l.areaBounds inner).2 : ℚ) * multiplier) x)
    (hbest : ∀ y, Placed l.constraints.length (((l.areaBounds inner).1 : ℚ) * multiplier)
      (((l.areaBounds inner).2 : ℚ) * multiplier) y →
      weightedViolation (softList l) x ≤ weightedViolation (softList l) y) :
    FairRow (extent l.direction inner) (gapOf l.spacing) l.constraints
      (exactSizes l.constraints.length x) ∧
    rowOf l.constraints.length x = spacedRow (lo l.direction inner) (gapOf l.spacing)
      (exactSizes l.constraints.length x) := by
  have hb1 : ((l.areaBounds inner).1 : ℚ) = lo l.direction inner := by rw [areaBounds_eq]
  have hb2 : ((l.areaBounds inner).2 : ℚ) = lo l.direction inner + extent l.direction inner := by
    rw [areaBounds_eq]; push_cast; rfl
  rw [hb1, hb2] at hx hbest
  have hsp := h.spacing
  have hroom := h.room
  have hm : multiplier = 100 := rfl
  obtain ⟨m, hnm⟩ : ∃ m, l.constraints.length = m + 1 := ⟨l.constraints.length - 1, by
    have := h.some_; omega⟩
  have hgap : gapOf l.spacing = Spacing.value l.spacing := gapOf_eq _
  have hA : ∀ y, Placed l.constraints.length ((lo l.direction inner : ℚ) * multiplier)
      (((lo l.direction inner : ℚ) + (extent l.direction inner : ℚ)) * multiplier) y →
      weightedViolation (softList l) y = 100 * rowPrice (lo l.direction inner)
        ((lo l.direction inner : ℚ) + (extent l.direction inner : ℚ))
        (gapOf l.spacing) l.constraints (rowOf l.constraints.length y) :=
    fun y hy => by rw [hgap]; exact soft_price h.mode hnm h.oneFill hy.first hy.last
  have hne : l.constraints ≠ [] := fun e => by rw [e] at hnm; exact absurd hnm (by simp)
  have hlen : (rowOf l.constraints.length x).length = l.constraints.length := by simp [rowOf]
  have hwithin : ∀ p ∈ rowOf l.constraints.length x, (lo l.direction inner : ℚ) ≤ p.1 ∧ p.1 ≤ p.2 ∧
      p.2 ≤ (lo l.direction inner : ℚ) + (extent l.direction inner : ℚ) := by
    intro p hp
    obtain ⟨i, hi, rfl⟩ := List.mem_map.1 hp
    have hi := List.mem_range.1 hi
    have h1 := hx.low (2 * i + 1) (by omega)
    have h2 := hx.high (2 * i + 2) (by omega)
    have h3 := hx.ordered i hi
    rw [hm] at h1 h2
    simp only
    refine ⟨?_, ?_, ?_⟩ <;> linarith
  have hrows : ∀ row : List (ℚ × ℚ), row.length = l.constraints.length →
      (∀ p ∈ row, (lo l.direction inner : ℚ) ≤ p.1 ∧ p.1 ≤ p.2 ∧
        p.2 ≤ (lo l.direction inner : ℚ) + (extent l.direction inner : ℚ)) →
      rowPrice (lo l.direction inner) ((lo l.direction inner : ℚ) + (extent l.direction inner : ℚ))
          (gapOf l.spacing) l.constraints (rowOf l.constraints.length x)
        ≤ rowPrice (lo l.direction inner) ((lo l.direction inner : ℚ) + (extent l.direction inner : ℚ))
          (gapOf l.spacing) l.constraints row := by
    intro row hl hrow
    obtain ⟨y, hy, rfl⟩ := exists_placed h.some_ hl hrow
    have := hbest y hy
    rw [hA x hx, hA y hy] at this
    linarith
  generalize (lo l.direction inner : ℚ) = a at *
  have hab : a + (extent l.direction inner : ℚ) - a = (extent l.direction inner : ℚ) := by ring
  have hroomq : ((l.constraints.length : ℚ) - 1) * (gapOf l.spacing : ℚ) ≤ (extent l.direction inner : ℚ) := by
    exact_mod_cast hroom
  obtain ⟨hrow, hfull⟩ := cheapest_spaced hab hsp hroomq hlen hne hwithin hrows
  have hn0 : ∀ s ∈ exactSizes l.constraints.length x, 0 ≤ s := by
    intro s hs
    obtain ⟨p, hp, rfl⟩ := List.mem_map.1 hs
    have := (hwithin p hp).2.1
    linarith
  refine ⟨cheapest_fair (exactSizes_length _ _) hn0 hfull ?_, hrow⟩
  intro t htl ht0 htsum
  rw [exactSizes_length] at htl
  have htne : t ≠ [] := fun e => by rw [e] at htl; exact absurd htl.symm (by rw [hnm]; simp)
  have hsne : exactSizes l.constraints.length x ≠ [] := fun e => by
    have := exactSizes_length l.constraints.length x
    rw [e, hnm] at this; exact absurd this (by simp)
  have hfull' : (exactSizes l.constraints.length x).sum +
      ((l.constraints.length : ℚ) - 1) * (gapOf l.spacing : ℚ) = (extent l.direction inner : ℚ) := hfull
  have hspq : (0 : ℚ) ≤ gapOf l.spacing := by exact_mod_cast hsp
  have h1 := hrows (spacedRow a (gapOf l.spacing) t) (by rw [spacedRow_length, htl])
    (spacedRow_within hspq _ _ _ ht0 (by rw [htl, htsum]; linarith))
  have hrow' : rowOf l.constraints.length x = spacedRow a (gapOf l.spacing)
      (exactSizes l.constraints.length x) := hrow
  rw [hrow', spacedRow_price hab _ _ _ hsne (by rw [exactSizes_length] ; exact hfull'),
    spacedRow_price hab _ _ _ htne (by rw [htl, htsum]; exact hfull')] at h1
  exact h1

/-- The segments of the layout stand where these sizes put them, in the order of the constraints and with
the spacing between them. -/
def RowOfSizes (l : Layout) (inner : Rect) (sizes : List ℚ) (segments : List Rect) : Prop :=
  segments.length = l.constraints.length ∧
    ∀ i r, segments[i]? = some r → StandsAt l inner sizes i r

theorem RoomyRow.positions {l : Layout} {inner : Rect} (h : RoomyRow l (extent l.direction inner))
    {x : Var → ℚ}
    (hx : Placed l.constraints.length (((l.areaBounds inner).1 : ℚ) * multiplier)
      (((l.areaBounds inner).2 : ℚ) * multiplier) x)
    (hbest : ∀ y, Placed l.constraints.length (((l.areaBounds inner).1 : ℚ) * multiplier)
      (((l.areaBounds inner).2 : ℚ) * multiplier) y →
      weightedViolation (softList l) x ≤ weightedViolation (softList l) y) :
    ∀ i < l.constraints.length,
      x (2 * i + 1) = (lo l.direction inner +
        rowStart (exactSizes l.constraints.length x) (gapOf l.spacing) i) * multiplier ∧
      x (2 * i + 2) = (lo l.direction inner +
        (rowStart (exactSizes l.constraints.length x) (gapOf l.spacing) i
        + (exactSizes l.constraints.length x).getD i 0)) * multiplier := by
  intro i hi
  have hm : multiplier = 100 := rfl
  have hrow := (h.placement hx hbest).2
  have h1 := spacedRow_getElem? (gapOf l.spacing) (exactSizes l.constraints.length x)
    (lo l.direction inner) i (by rw [exactSizes_length]; exact hi)
  rw [← hrow] at h1
  have h2 : (rowOf l.constraints.length x)[i]? = some (x (2 * i + 1) / 100, x (2 * i + 2) / 100) := by
    simp [rowOf, hi]
  rw [h2, Option.some.injEq, Prod.mk.injEq] at h1
  obtain ⟨e1, e2⟩ := h1
  rw [hm]
  constructor <;> linarith

/-- The rectangles of an assignment in which the segments have these places. -/
theorem rowOfSizes_of {l : Layout} {inner : Rect} {x : Var → ℚ} {a b : ℚ}
    (hx : Placed l.constraints.length a b x) {sizes : List ℚ}
    (hp : ∀ i < l.constraints.length,
      x (2 * i + 1) = (lo l.direction inner + rowStart sizes (gapOf l.spacing) i) * multiplier ∧
      x (2 * i + 2) = (lo l.direction inner +
        (rowStart sizes (gapOf l.spacing) i + sizes.getD i 0)) * multiplier) :
    RowOfSizes l inner sizes
      (changesToRects x (segmentElements l.constraints.length) inner l.direction) := by
  have hl : (changesToRects x (segmentElements l.constraints.length) inner
      l.direction).length = l.constraints.length := by simp [changesToRects, segmentElements_eq]
  refine ⟨hl, ?_⟩
  intro i r hri
  have hi : i < l.constraints.length := by
    rw [← hl]; exact (List.getElem?_eq_some_iff.1 hri).1
  obtain ⟨p1, p2⟩ := hp i hi
  have hre : r = elementRect x inner l.direction ⟨2 * i + 1, 2 * i + 2⟩ := by
    have : (changesToRects x (segmentElements l.constraints.length) inner
        l.direction)[i]? = some (elementRect x inner l.direction ⟨2 * i + 1, 2 * i + 2⟩) := by
      simp [changesToRects, segmentElements_eq, hi]
    rw [this] at hri; exact (Option.some.inj hri).symm
  have hmono := toCell_mono (hx.ordered i hi)
  have e1 : lo l.direction r = toCell (x (2 * i + 1)) := by
    rw [hre]; cases l.direction <;> rfl
  have e2 : lo l.direction r + extent l.direction r = toCell (x (2 * i + 2)) := by
    rw [hre]; cases l.direction <;> simp only [elementRect, lo, extent] <;> omega
  unfold StandsAt
  rw [e2, e1, p1, p2]
  exact ⟨toCell_standsFor _ _, toCell_standsFor _ _⟩

/-- **C95.** A `FlexLegacy` row with at most one fill and room for its spacing is fair, up to rounding to
cells: there are sizes that fill the area, that give surplus space only to the segments that come first in
the order of stretching and take missing space from the segments that come first in the order of
shrinking, and the segments stand where these sizes put them. -/
theorem C95_fair (ω : Nat → Nat) (fuel : Nat) (l : Layout) (area : Rect)
    (h : RoomyRow l (extent l.direction (area.inner l.padding))) :
    splitWithSpacers ω fuel l area = .running ∨
    ∃ segments spacers, splitWithSpacers ω fuel l area = .ok segments spacers ∧
      ∃ sizes, FairRow (extent l.direction (area.inner l.padding)) (gapOf l.spacing) l.constraints sizes ∧
        RowOfSizes l (area.inner l.padding) sizes segments := by
  rcases split_values (ω := ω) (fuel := fuel) l area h.few with hr | ⟨x, hr, hx, hbest⟩
  · exact Or.inl hr
  · exact Or.inr ⟨_, _, hr, _, (h.placement hx hbest).1, rowOfSizes_of hx (h.positions hx hbest)⟩

/-- **C95** with probability one over the iteration orders of the maps. -/
theorem C95_almost_surely (l : Layout) (area : Rect)
    (h : RoomyRow l (extent l.direction (area.inner l.padding))) :
    AlmostSurely l area fun segments _ =>
      ∃ sizes, FairRow (extent l.direction (area.inner l.padding)) (gapOf l.spacing) l.constraints sizes ∧
        RowOfSizes l (area.inner l.padding) sizes segments :=
  almostSurely_of h.few fun ω fuel => C95_fair ω fuel l area h

/-- **C95** for segments that ask for whole cells: then nothing has to be rounded. -/
theorem C95_fair_cells (ω : Nat → Nat) (fuel : Nat) (l : Layout) (area : Rect)
    (h : RoomyRow l (extent l.direction (area.inner l.padding)))
    (hwhole : ∀ c ∈ l.constraints, AsksWhole (extent l.direction (area.inner l.padding)) c) :
    splitWithSpacers ω fuel l area = .running ∨
    ∃ segments spacers, splitWithSpacers ω fuel l area = .ok segments spacers ∧
      FairRow (extent l.direction (area.inner l.padding)) (gapOf l.spacing) l.constraints
        (segments.map fun r => (extent l.direction r : ℚ)) := by
  rcases split_corner (ω := ω) (fuel := fuel) l area h.few with hr | ⟨x, hr, hx, hbest, hcorner⟩
  · exact Or.inl hr
  refine Or.inr ⟨_, _, hr, ?_⟩
  have htot : (l.areaBounds (area.inner l.padding)).2 - (l.areaBounds (area.inner l.padding)).1 =
      extent l.direction (area.inner l.padding) := by
    rw [areaBounds_eq]; simp
  have hcells := corner_whole h.mode (by rw [htot]; exact hwhole) h.oneFill hx hcorner
  have hfair := (h.placement hx hbest).1
  have : (changesToRects x (segmentElements l.constraints.length) (area.inner l.padding)
      l.direction).map (fun r => (extent l.direction r : ℚ)) = exactSizes l.constraints.length x := by
    have hm : multiplier = 100 := rfl
    unfold changesToRects exactSizes lengths rowOf
    rw [segmentElements_eq, List.map_map, List.map_map, List.map_map]
    apply List.map_congr_left
    intro i hi
    have hi := List.mem_range.1 hi
    obtain ⟨k1, hk1⟩ := hcells (2 * i + 1) (by omega)
    obtain ⟨k2, hk2⟩ := hcells (2 * i + 2) (by omega)
    have ho := hx.ordered i hi
    rw [hk1, hk2] at ho
    have hk : k1 ≤ k2 := by
      have : (k1 : ℚ) ≤ k2 := by rw [hm] at ho; linarith
      exact_mod_cast this
    have hmax : max 0 (k2 - k1) = k2 - k1 := max_eq_right (by omega)
    simp only [Function.comp]
    rw [hk1, hk2, hm, mul_div_cancel_right₀ _ (by norm_num), mul_div_cancel_right₀ _ (by norm_num)]
    unfold elementRect
    have hk1' : x (2 * i + 1) = k1 * multiplier := hk1
    have hk2' : x (2 * i + 2) = k2 * multiplier := hk2
    cases l.direction <;>
      simp only [extent, hk1', hk2', toCell_int, hmax] <;> push_cast <;> ring
  rw [this]
  exact hfair

/-- **C81** for rows of C95 in which no kind of constraint occurs twice (partial: as there). -/
theorem C81_different_kinds_partial (ω ω' : Nat → Nat) (fuel fuel' : Nat) (l : Layout) (area : Rect)
    (h : RoomyRow l (extent l.direction (area.inner l.padding)))
    (hkinds : ∀ (i j : Nat) (c d : Constraint), i ≠ j → l.constraints[i]? = some c →
      l.constraints[j]? = some d → shrinkRank c ≠ shrinkRank d) {s t s' t' : List Rect}
    (h1 : splitWithSpacers ω fuel l area = .ok s t)
    (h2 : splitWithSpacers ω' fuel' l area = .ok s' t') : s = s' ∧ t = t' := by
  rcases split_values (ω := ω) (fuel := fuel) l area h.few with hr | ⟨x, hr, hx, hbest⟩
  · rw [hr] at h1; cases h1
  refine Layout.ExactRow.same (sizes := exactSizes l.constraints.length x) (exactSizes_length _ _) h.few
    ?_ h1 h2
  intro y hy hybest
  have hy' : Placed l.constraints.length (((l.areaBounds (area.inner l.padding)).1 : ℚ) * multiplier)
      (((l.areaBounds (area.inner l.padding)).2 : ℚ) * multiplier) y := by
    rw [areaBounds_eq]; exact hy
  have hybest' : ∀ z, Placed l.constraints.length
      (((l.areaBounds (area.inner l.padding)).1 : ℚ) * multiplier)
      (((l.areaBounds (area.inner l.padding)).2 : ℚ) * multiplier) z →
      weightedViolation (softList l) y ≤ weightedViolation (softList l) z := by
    rw [areaBounds_eq]; exact hybest
  have hs := fair_unique (h.placement hx hbest).1 (h.placement hy' hybest').1 hkinds
  have hpos := h.positions hy' hybest'
  rw [← hs] at hpos
  have hfull := (h.placement hx hbest).1.full
  generalize hse : exactSizes l.constraints.length x = sizes at *
  have hsl : sizes.length = l.constraints.length := by rw [← hse, exactSizes_length]
  refine ⟨fun i hi => ?_, fun i hi => ?_⟩
  · obtain ⟨e1, e2⟩ := hpos i hi
    rw [e1, e2]; ring
  · rw [← gapOf_eq]
    rcases Nat.eq_zero_or_pos i with rfl | hi0
    · rw [if_neg (by omega)]
      obtain ⟨e1, -⟩ := hpos 0 h.some_
      have h0 : rowStart sizes (gapOf l.spacing) 0 = 0 := by simp [rowStart]
      rw [h0] at e1
      have := hy.first
      simp only [Nat.mul_zero, Nat.zero_add] at e1 ⊢
      rw [e1, this]; ring
    · obtain ⟨k, rfl⟩ : ∃ k, i = k + 1 := ⟨i - 1, by omega⟩
      obtain ⟨-, e2⟩ := hpos k (by omega)
      rw [show 2 * (k + 1) = 2 * k + 2 by omega]
      by_cases hlast : k + 1 < l.constraints.length
      · rw [if_pos ⟨by omega, hlast⟩]
        obtain ⟨e1, -⟩ := hpos (k + 1) hlast
        rw [show 2 * (k + 1) + 1 = 2 * k + 2 + 1 by omega, Layout.rowStart_succ (by omega)] at e1
        rw [e1, e2]; ring
      · rw [if_neg (by omega)]
        have hk : k + 1 = l.constraints.length := by omega
        have hl := hy.last
        rw [← hk, show 2 * (k + 1) + 1 = 2 * k + 2 + 1 by omega] at hl
        have e3 : rowStart sizes (gapOf l.spacing) (k + 1) =
            sizes.sum + (l.constraints.length : ℚ) * (gapOf l.spacing : ℚ) := by
          unfold rowStart
          rw [hk, ← hsl, List.take_length]
          generalize (gapOf l.spacing : ℚ) = g
          clear * -
          induction sizes with
          | nil => simp
          | cons a rest ih => simp only [List.map_cons, List.sum_cons, ih, List.length_cons]; push_cast; ring
        rw [Layout.rowStart_succ (by omega)] at e3
        have : rowStart sizes (gapOf l.spacing) k + sizes.getD k 0 =
            (extent l.direction (area.inner l.padding) : ℚ) := by
          rw [← hfull]; linarith
        rw [e2, hl, this]
        push_cast; ring

/-! ## Examples -/

/-- The screen of C91 in a terminal of a single line, where even the two lines above and below do not
fit: C91 says nothing here. -/
theorem screen_roomy : RoomyRow screen 1 := ⟨rfl, by decide, by decide, by decide, by decide, by decide⟩

/-- The content gets nothing, … -/
example {sizes : List ℚ} (h : FairRow 1 0 screen.constraints sizes) : sizes.getD 1 0 ≤ 0 := by
  have hlen : sizes.length = 3 := h.length
  obtain ⟨a, b, c, rfl⟩ : ∃ a b c, sizes = [a, b, c] := by
    match sizes, hlen with
    | [a, b, c], _ => exact ⟨a, b, c, rfl⟩
  show b ≤ 0
  have hfull : a + (b + (c + 0)) + ((3 : ℚ) - 1) * 0 = 1 := by
    have := h.full; simpa [screen] using this
  have ha : 0 ≤ a := h.nonneg a (by simp)
  by_contra hb
  have h1 : a < 1 ∨ c < 1 := by
    by_contra hcon
    push Not at hcon
    linarith [hcon.1, hcon.2]
  rcases h1 with h1 | h1
  · have := h.notBoth 1 0 (.min 0) (.len 1) b a rfl rfl rfl rfl (by simpa [wishedSize, definiteSize] using h1)
    simp [wishedSize] at this
    exact hb this
  · have := h.notBoth 1 2 (.min 0) (.len 1) b c rfl rfl rfl rfl (by simpa [wishedSize, definiteSize] using h1)
    simp [wishedSize] at this
    exact hb this

/-- … and this is what comes out. -/
example : ∃ spacers, splitWithSpacers (fun _ => 0) 100 screen ⟨0, 0, 80, 1⟩ =
    .ok [⟨0, 0, 80, 1⟩, ⟨0, 1, 80, 0⟩, ⟨0, 1, 80, 0⟩] spacers := by
  refine ⟨[⟨0, 0, 80, 0⟩, ⟨0, 1, 80, 0⟩, ⟨0, 1, 80, 0⟩, ⟨0, 1, 80, 0⟩], ?_⟩
  rw [split_fast _ _ (by decide)]
  decide +kernel

/-- Three segments of different kinds that ask for 10, 6 and 5 of 12 columns. -/
def cramped : Layout :=
  ⟨.horizontal, [.len 10, .percentage 50, .min 5], Padding.none', .legacy, .space 0⟩

theorem cramped_roomy : RoomyRow cramped 12 :=
  ⟨rfl, by decide, by decide, by decide, by decide, by decide⟩

/-- The percentage gives everything, the length the rest. -/
example : ∃ spacers, splitWithSpacers (fun _ => 0) 100 cramped ⟨0, 0, 12, 1⟩ =
    .ok [⟨0, 0, 7, 1⟩, ⟨7, 0, 0, 1⟩, ⟨7, 0, 5, 1⟩] spacers := by
  refine ⟨[⟨0, 0, 0, 1⟩, ⟨7, 0, 0, 1⟩, ⟨7, 0, 0, 1⟩, ⟨12, 0, 0, 1⟩], ?_⟩
  rw [split_fast _ _ (by decide)]
  decide +kernel

/-- No kind occurs twice, as C81 wants it. -/
example : ∀ (i j : Nat) (c d : Constraint), i ≠ j → cramped.constraints[i]? = some c →
    cramped.constraints[j]? = some d → shrinkRank c ≠ shrinkRank d := by
  intro i j c d hij hc hd
  have hi : i < 3 := (List.getElem?_eq_some_iff.1 hc).1
  have hj : j < 3 := (List.getElem?_eq_some_iff.1 hd).1
  obtain rfl | rfl | rfl : i = 0 ∨ i = 1 ∨ i = 2 := by omega
  all_goals
    obtain rfl | rfl | rfl : j = 0 ∨ j = 1 ∨ j = 2 := by omega
    all_goals first
      | exact absurd rfl hij
      | (cases hc; cases hd; decide)

example : ∀ c ∈ cramped.constraints, AsksWhole 12 c := by
  intro c hc
  simp only [cramped, List.mem_cons, List.not_mem_nil, or_false] at hc
  rcases hc with rfl | rfl | rfl
  · exact .inr (.inr ⟨10, rfl⟩)
  · exact .inr (.inr ⟨6, by decide +kernel⟩)
  · exact .inl ⟨5, rfl⟩

/-- Other rows of the same width are not fair: the length must not give while the percentage has
something. -/
example : ¬ FairRow 12 0 cramped.constraints [6, 1, 5] := by
  intro h
  have := h.shrunk 1 0 (.percentage 50) (.len 10) 1 6 rfl rfl rfl rfl (by decide)
    (by decide +kernel)
  norm_num at this

end Bento
