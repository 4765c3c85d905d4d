import Verif.Lemmas.Flex
import Verif.Props.Rounding
import Verif.Lemmas.FastLoop
import Verif.Props.Reproducible

/-!
# Properties C82 and C83: segments of definite size in the flex modes

A constraint asks for a definite size if it is a length, a maximum, a percentage or a ratio.
-/

namespace Bento

open Casso Layout

/-- What C82 assumes of a layout and the extent `total` of its padded area: some segments, few enough
for the symbols of the solver (see C22), each asking for a definite size, all fitting together with the
spacing between them, and none shorter than an overlap; `FlexSpaceBetween` and `FlexSpaceAround` need two segments to have a gap. -/
structure FitsFlex (l : Layout) (total : Int) : Prop where
  mode : l.flex ≠ .legacy
  some_ : 0 < l.constraints.length
  few : Few l
  two : l.flex = .spaceBetween ∨ l.flex = .spaceAround → 2 ≤ l.constraints.length
  definite : ∀ c ∈ l.constraints, ∃ q, definiteSize total c = some q ∧ 0 ≤ q ∧
    0 ≤ q + (gapOf l.spacing : ℚ)
  fit : definiteTotal total l.constraints
    + ((l.constraints.length : ℚ) - 1) * (gapOf l.spacing : ℚ) ≤ total

/-- The exact positions of a split in a flex mode, in solver units. -/
theorem flex_positions {l : Layout} {inner : Rect} {x : Var → ℚ}
    (h : FitsFlex l (extent l.direction inner))
    (hx : Placed l.constraints.length (((l.areaBounds inner).1 : ℚ) * multiplier)
      (((l.areaBounds inner).2 : ℚ) * multiplier) x)
    (hbest : ∀ y, Placed l.constraints.length (((l.areaBounds inner).1 : ℚ) * multiplier)
      (((l.areaBounds inner).2 : ℚ) * multiplier) y →
      weightedViolation (softList l) x ≤ weightedViolation (softList l) y) :
    ∀ i, (hi : i < l.constraints.length) →
      x (2 * i + 1) = (lo l.direction inner + flexStart l.flex l.constraints
        (gapOf l.spacing) (extent l.direction inner) i) * multiplier ∧
      x (2 * i + 2) = (lo l.direction inner + flexStart l.flex l.constraints
        (gapOf l.spacing) (extent l.direction inner) i
        + (definiteSize (extent l.direction inner) (l.constraints[i])).getD 0) * multiplier := by
  obtain ⟨m, hm⟩ : ∃ m, l.constraints.length = m + 1 :=
    ⟨l.constraints.length - 1, by have := h.some_; omega⟩
  rw [areaBounds_eq] at hx hbest
  simp only at hx hbest
  have hcast : ((l.constraints.length : ℚ) - 1) = m := by rw [hm]; push_cast; ring
  have hfit := h.fit
  rw [hcast] at hfit
  have hdef := h.definite
  simp only [gapOf_eq] at hfit hdef ⊢
  obtain ⟨hz, hg⟩ := flex_exact hm h.mode (total := extent l.direction inner) (by push_cast; ring)
    hdef hfit (fun hf => by have := h.two hf; omega) hx hbest
  rw [hm] at hx
  have hp := eq_place hx hg hz
  intro i hi
  have e1 := (hp i (by omega)).2
  have e2 := hz i (by omega)
  have hcon : con l i = l.constraints[i] := con_eq hi
  have hstart : x (2 * i + 1) = (lo l.direction inner + flexStart l.flex l.constraints
        (Spacing.value l.spacing) (extent l.direction inner) i) * multiplier := by
    rw [e1, place_odd, ← Finset.sum_mul]
    have hs1 : ∀ (k : Nat) (f : Nat → ℚ), ∑ j ∈ Finset.range k, f j = ((List.range k).map f).sum := by
      intro k f
      have := sum_map_range (fun q : ℚ => q) f k
      rw [← this, List.map_map]; rfl
    have hs2 : ∑ j ∈ Finset.range i, asked l (extent l.direction inner) j
        = definiteTotal (extent l.direction inner) (l.constraints.take i) * multiplier := by
      unfold asked definiteTotal
      rw [← Finset.sum_mul, hs1]
      congr 2
      apply List.ext_getElem
      · simp; omega
      · intro k h1 h2
        have hk : k < i := by simpa using h1
        simp only [List.getElem_map, List.getElem_range, List.getElem_take]
        rw [con_eq (by omega)]
    rw [hs2, hs1]
    unfold flexStart
    rw [hm]
    ring
  refine ⟨hstart, ?_⟩
  unfold asked at e2
  rw [hcon] at e2
  rw [hstart] at e2
  linarith

theorem toCell_standsFor (k : Int) (q : ℚ) : StandsFor (toCell ((k + q) * multiplier)) (k + q) := by
  have hm : multiplier = 100 := rfl
  constructor
  · have := C23_edge_moves ((k + q) * multiplier)
    rw [hm] at this ⊢
    convert this using 2
    ring
  · intro j hj
    rw [hj]; exact toCell_int j

/-- **C82.** Rows of segments of definite size in the flex modes `FlexStart`, `FlexEnd`, `FlexCenter`,
`FlexSpaceBetween` (and `FlexSpaceAround`, which does the same, see C83): when everything fits, every
segment has the size it asks for, the spacing is kept, and the free space goes after, before, on both
sides or between the segments. Exact up to rounding to cells (at most 0.505 cells, and exact when the
exact position is whole). The loop may still be running after `fuel` pivots, and the number of
segments is bounded. -/
theorem C82_definite_sizes_partial (ω : Nat → Nat) (fuel : Nat) (l : Layout) (area : Rect)
    (h : FitsFlex l (extent l.direction (area.inner l.padding))) :
    splitWithSpacers ω fuel l area = .running ∨
    ∃ segments spacers, splitWithSpacers ω fuel l area = .ok segments spacers ∧
      segments.length = l.constraints.length ∧
      ∀ i c r, l.constraints[i]? = some c → segments[i]? = some r →
        StandsFor (lo l.direction r) (lo l.direction (area.inner l.padding) +
          flexStart l.flex l.constraints (gapOf l.spacing)
            (extent l.direction (area.inner l.padding)) i) ∧
        StandsFor (lo l.direction r + extent l.direction r) (lo l.direction (area.inner l.padding) +
          (flexStart l.flex l.constraints (gapOf l.spacing)
            (extent l.direction (area.inner l.padding)) i +
          (definiteSize (extent l.direction (area.inner l.padding)) c).getD 0)) := by
  rcases split_values (ω := ω) (fuel := fuel) l area h.few with hr | ⟨x, hr, hx, hbest⟩
  · exact Or.inl hr
  · refine Or.inr ⟨_, _, hr, by simp [changesToRects, segmentElements_eq], ?_⟩
    have hp := flex_positions h hx hbest
    intro i c r hc hri
    obtain ⟨hi, hc⟩ := List.getElem?_eq_some_iff.1 hc
    obtain ⟨p1, p2⟩ := hp i hi
    have hre : r = elementRect x (area.inner l.padding) l.direction ⟨2 * i + 1, 2 * i + 2⟩ := by
      have : (changesToRects x (segmentElements l.constraints.length) (area.inner l.padding)
          l.direction)[i]? = some (elementRect x (area.inner l.padding) l.direction
            ⟨2 * i + 1, 2 * i + 2⟩) := by
        simp [changesToRects, segmentElements_eq, hi]
      rw [this] at hri; exact (Option.some.inj hri).symm
    have hmono := toCell_mono (hx.ordered i hi)
    have e1 : lo l.direction r = toCell (x (2 * i + 1)) := by
      rw [hre]; cases l.direction <;> rfl
    have e2 : lo l.direction r + extent l.direction r = toCell (x (2 * i + 2)) := by
      rw [hre]; cases l.direction <;> simp only [elementRect, lo, extent] <;> omega
    rw [e2, e1, p1, p2, hc]
    rw [add_assoc]
    exact ⟨toCell_standsFor _ _, toCell_standsFor _ _⟩

/-- A button bar: three lengths, centred, one cell apart. -/
def buttonBar : Layout :=
  ⟨.horizontal, [.len 4, .max 6, .percentage 10], Padding.none', .center, .space 1⟩

/-- The hypotheses are met by the button bar in 40 cells … -/
theorem buttonBar_fits : FitsFlex buttonBar 40 where
  mode := by decide
  some_ := by decide
  few := by decide
  two := by decide
  definite := by
    intro c hc
    simp only [buttonBar, List.mem_cons, List.not_mem_nil, or_false] at hc
    rcases hc with rfl | rfl | rfl
    · exact ⟨4, rfl, by norm_num, by norm_num [gapOf, buttonBar]⟩
    · exact ⟨6, rfl, by norm_num, by norm_num [gapOf, buttonBar]⟩
    · exact ⟨4, by norm_num [definiteSize], by norm_num, by norm_num [gapOf, buttonBar]⟩
  fit := by decide +kernel

/-- … and the three buttons start at the cells 12, 17 and 24. -/
example : (List.range 3).map (flexStart buttonBar.flex buttonBar.constraints 1 40) = [12, 17, 24] := by
  decide +kernel

/-- The same buttons in the other modes. -/
example :
    (List.range 3).map (flexStart .start buttonBar.constraints 1 40) = [0, 5, 12] ∧
    (List.range 3).map (flexStart .end' buttonBar.constraints 1 40) = [24, 29, 36] ∧
    (List.range 3).map (flexStart .spaceBetween buttonBar.constraints 1 40) = [0, 17, 36] := by
  decide +kernel

/-- The conclusion of C82 for the button bar. -/
example : ∃ spacers, splitWithSpacers (fun _ => 0) 100 buttonBar ⟨0, 0, 40, 1⟩ =
    .ok [⟨12, 0, 4, 1⟩, ⟨17, 0, 6, 1⟩, ⟨24, 0, 4, 1⟩] spacers := by
  refine ⟨[⟨0, 0, 12, 1⟩, ⟨16, 0, 1, 1⟩, ⟨23, 0, 1, 1⟩, ⟨28, 0, 12, 1⟩], ?_⟩
  rw [split_fast _ _ (by decide)]
  decide +kernel

/-- Three tabs of five cells whose edges overlap by a cell. -/
def tabs : Layout := ⟨.horizontal, [.len 5, .len 5, .len 5], Padding.none', .start, .overlap 1⟩

/-- The hypotheses are met by the tabs, even where they fit only because they overlap … -/
theorem tabs_fit : FitsFlex tabs 13 where
  mode := by decide
  some_ := by decide
  few := by decide
  two := by decide
  definite := by
    intro c hc
    simp only [tabs, List.mem_cons, List.not_mem_nil, or_false] at hc
    rcases hc with rfl | rfl | rfl <;> exact ⟨5, rfl, by norm_num, by norm_num [gapOf, tabs]⟩
  fit := by decide +kernel

/-- … and each tab starts on the last cell of the one before. -/
example : (List.range 3).map (flexStart tabs.flex tabs.constraints (gapOf tabs.spacing) 13) = [0, 4, 8] := by
  decide +kernel

example : ∃ spacers, splitWithSpacers (fun _ => 0) 100 tabs ⟨0, 0, 13, 1⟩ =
    .ok [⟨0, 0, 5, 1⟩, ⟨4, 0, 5, 1⟩, ⟨8, 0, 5, 1⟩] spacers := by
  refine ⟨[⟨0, 0, 0, 1⟩, ⟨5, 0, 0, 1⟩, ⟨9, 0, 0, 1⟩, ⟨13, 0, 0, 1⟩], ?_⟩
  rw [split_fast _ _ (by decide)]
  decide +kernel

/-- **C82 needs two segments** in `FlexSpaceBetween`: a single segment of two cells is stretched over
all ten. -/
theorem C82_single_between_false :
    splitWithSpacers (fun _ => 0) 100 ⟨.horizontal, [.len 2], Padding.none', .spaceBetween, .space 0⟩
      ⟨0, 0, 10, 1⟩ = .ok [⟨0, 0, 10, 1⟩] [⟨0, 0, 0, 1⟩, ⟨10, 0, 0, 1⟩] := by
  rw [split_fast _ _ (by decide)]
  decide +kernel

/-! ## C81 for segments of definite size -/

/-- **C81**, for the layouts of C82: whatever the orders of the maps, two calls that return give the
same segments and spacers. -/
theorem C81_definite_partial (ω ω' : Nat → Nat) (fuel fuel' : Nat) (l : Layout) (area : Rect)
    (h : FitsFlex l (extent l.direction (area.inner l.padding))) {s t s' t' : List Rect}
    (h1 : splitWithSpacers ω fuel l area = .ok s t)
    (h2 : splitWithSpacers ω' fuel' l area = .ok s' t') : s = s' ∧ t = t' := by
  rcases split_values (ω := ω) (fuel := fuel) l area h.few with hr | ⟨x, hr, hx, hbest⟩
  · rw [hr] at h1; cases h1
  rcases split_values (ω := ω') (fuel := fuel') l area h.few with hr' | ⟨x', hr', hx', hbest'⟩
  · rw [hr'] at h2; cases h2
  rw [hr] at h1
  rw [hr'] at h2
  have hp := flex_positions h hx hbest
  have hp' := flex_positions h hx' hbest'
  have hsame : ∀ v < 2 * l.constraints.length + 2, x v = x' v := by
    intro v hv
    by_cases h0 : v = 0
    · subst h0
      have e1 : x 0 = _ := hx.first
      have e2 : x' 0 = _ := hx'.first
      rw [e1, e2]
    by_cases hl : v = 2 * l.constraints.length + 1
    · subst hl; rw [hx.last, hx'.last]
    by_cases hodd : v % 2 = 1
    · have hi : v / 2 < l.constraints.length := by omega
      have e := (hp (v / 2) hi).1
      have e' := (hp' (v / 2) hi).1
      rw [show 2 * (v / 2) + 1 = v by omega] at e e'
      rw [e, e']
    · have hi : v / 2 - 1 < l.constraints.length := by omega
      have e := (hp (v / 2 - 1) hi).2
      have e' := (hp' (v / 2 - 1) hi).2
      rw [show 2 * (v / 2 - 1) + 2 = v by omega] at e e'
      rw [e, e']
  have hrects : ∀ es : List Element, (∀ e ∈ es, e.start < 2 * l.constraints.length + 2 ∧
      e.stop < 2 * l.constraints.length + 2) →
      changesToRects x es (area.inner l.padding) l.direction
        = changesToRects x' es (area.inner l.padding) l.direction := by
    intro es he
    unfold changesToRects
    apply List.map_congr_left
    intro e hm
    unfold elementRect
    rw [hsame _ (he e hm).1, hsame _ (he e hm).2]
  cases h1
  cases h2
  exact ⟨hrects _ fun e he => segmentElements_lt he, hrects _ fun e he => spacerElements_lt he⟩

/-! ## C83 -/

/-- **C83 fails**: in a `FlexSpaceAround` layout of two or more segments of definite size that fit,
there is never any space around: the first segment starts where the area starts, and the last one ends
where the area ends. -/
theorem C83_outer_space_false (ω : Nat → Nat) (fuel : Nat) (l : Layout) (area : Rect)
    (hf : l.flex = .spaceAround) (h : FitsFlex l (extent l.direction (area.inner l.padding))) :
    splitWithSpacers ω fuel l area = .running ∨
    ∃ segments spacers first last, splitWithSpacers ω fuel l area = .ok segments spacers ∧
      segments.head? = some first ∧ segments.getLast? = some last ∧
      lo l.direction first = lo l.direction (area.inner l.padding) ∧
      lo l.direction last + extent l.direction last
        = lo l.direction (area.inner l.padding) + extent l.direction (area.inner l.padding) := by
  rcases C82_definite_sizes_partial ω fuel l area h with hr | ⟨segments, spacers, hr, hlen, hseg⟩
  · exact Or.inl hr
  · right
    have hn := h.two (Or.inr hf)
    obtain ⟨m, hm⟩ : ∃ m, l.constraints.length = m + 1 := ⟨l.constraints.length - 1, by omega⟩
    obtain ⟨first, g0⟩ : ∃ r, segments[0]? = some r :=
      ⟨_, List.getElem?_eq_getElem (show 0 < segments.length by omega)⟩
    obtain ⟨last, gl⟩ : ∃ r, segments[m]? = some r :=
      ⟨_, List.getElem?_eq_getElem (show m < segments.length by omega)⟩
    obtain ⟨c₀, c0⟩ : ∃ c, l.constraints[0]? = some c :=
      ⟨_, List.getElem?_eq_getElem (show 0 < l.constraints.length by omega)⟩
    obtain ⟨c₁, cl⟩ : ∃ c, l.constraints[m]? = some c :=
      ⟨_, List.getElem?_eq_getElem (show m < l.constraints.length by omega)⟩
    refine ⟨segments, spacers, first, last, hr, ?_, ?_, ?_, ?_⟩
    · rw [List.head?_eq_getElem?]; exact g0
    · rw [List.getLast?_eq_getElem?, hlen, hm]; exact gl
    · have := (hseg 0 _ _ c0 g0).1.2 (lo l.direction (area.inner l.padding))
      apply this
      rw [hf]
      unfold flexStart
      rw [hm]
      simp [flexGap, definiteTotal]
    · have := (hseg m _ _ cl gl).2.2
        (lo l.direction (area.inner l.padding) + extent l.direction (area.inner l.padding))
      apply this
      rw [Int.cast_add]
      congr 1
      generalize extent l.direction (area.inner l.padding) = total
      have htake : definiteTotal total (l.constraints.take m)
          + (definiteSize total c₁).getD 0
          = definiteTotal total l.constraints := by
        unfold definiteTotal
        have hd : l.constraints.drop m = [c₁] := by
          obtain ⟨hlt, hc⟩ := List.getElem?_eq_some_iff.mp cl
          rw [List.drop_eq_getElem_cons hlt, hc,
            List.drop_eq_nil_of_le (show l.constraints.length ≤ m + 1 by omega)]
        conv_rhs => rw [← List.take_append_drop m l.constraints, hd]
        simp
      have hgaps : ((List.range (m + 1)).map (flexGap .spaceAround (m + 1)
          (gapOf l.spacing) ((total : ℚ) - definiteTotal total l.constraints))).sum
          = (total : ℚ) - definiteTotal total l.constraints := by
        have ht := flexGap_total (flex := .spaceAround) (by decide) (m := m)
          (spacing := gapOf l.spacing)
          (free := (total : ℚ) - definiteTotal total l.constraints) (fun _ => by omega)
        rw [Finset.sum_range_succ] at ht
        have e : flexGap .spaceAround (m + 1) (gapOf l.spacing)
          ((total : ℚ) - definiteTotal total l.constraints) (m + 1) = 0 := by
          simp [flexGap]
        rw [e, add_zero] at ht
        have := sum_map_range (fun q : ℚ => q) (flexGap .spaceAround (m + 1)
          (gapOf l.spacing) ((total : ℚ) - definiteTotal total l.constraints)) (m + 1)
        rw [List.map_map] at this
        exact this.trans ht
      rw [hf]
      unfold flexStart
      rw [hm, hgaps, add_assoc, htake]
      ring

/-- Two buttons of two cells in ten: the six free cells all go between them. -/
theorem C83_two_buttons_false :
    splitWithSpacers (fun _ => 0) 100
      ⟨.horizontal, [.len 2, .len 2], Padding.none', .spaceAround, .space 0⟩ ⟨0, 0, 10, 1⟩ =
      .ok [⟨0, 0, 2, 1⟩, ⟨8, 0, 2, 1⟩] [⟨0, 0, 0, 1⟩, ⟨2, 0, 6, 1⟩, ⟨10, 0, 0, 1⟩] := by
  rw [split_fast _ _ (by decide)]
  decide +kernel

/-- The next segment starts one gap behind the end of this one. -/
theorem flexStart_succ {flex : Flex} {cs : List Constraint} {spacing total : Int} {i : Nat}
    {c : Constraint} (hc : cs[i]? = some c) :
    flexStart flex cs spacing total (i + 1) = flexStart flex cs spacing total i
      + (definiteSize total c).getD 0
      + flexGap flex cs.length spacing ((total : ℚ) - definiteTotal total cs) (i + 1) := by
  unfold flexStart definiteTotal
  rw [List.range_succ, List.map_append, List.sum_append, List.take_add_one, hc]
  simp only [Option.toList_some, List.map_append, List.map_cons, List.map_nil, List.sum_append,
    List.sum_cons, List.sum_nil]
  ring

/-- **C83 (what holds)**: the gaps between the segments of a `FlexSpaceAround` layout are equal: each is
within about a cell of its share of the free space, and all are exactly equal when the sizes and the
shares are whole. -/
theorem C83_inner_gaps_partial (ω : Nat → Nat) (fuel : Nat) (l : Layout) (area : Rect)
    (hf : l.flex = .spaceAround) (h : FitsFlex l (extent l.direction (area.inner l.padding)))
    {segments spacers : List Rect} (hr : splitWithSpacers ω fuel l area = .ok segments spacers)
    {i : Nat} {r r' : Rect} (h1 : segments[i]? = some r) (h2 : segments[i + 1]? = some r')
    (share : ℚ) (hs : share * ((l.constraints.length : ℚ) - 1)
      = extent l.direction (area.inner l.padding)
        - definiteTotal (extent l.direction (area.inner l.padding)) l.constraints) :
    |((lo l.direction r' - (lo l.direction r + extent l.direction r) : Int) : ℚ) - share| ≤ 101 / 100 ∧
    ∀ k : Int, share = k →
      (∀ c ∈ l.constraints, ∃ j : Int,
        definiteSize (extent l.direction (area.inner l.padding)) c = some (j : ℚ)) →
      lo l.direction r' = lo l.direction r + extent l.direction r + k := by
  rcases C82_definite_sizes_partial ω fuel l area h with hrun | ⟨seg, sp, hok, hlen, hseg⟩
  · rw [hrun] at hr; cases hr
  rw [hok] at hr
  cases hr
  have hi : i + 1 < segments.length := (List.getElem?_eq_some_iff.mp h2).1
  obtain ⟨c, hc⟩ : ∃ c, l.constraints[i]? = some c :=
    ⟨_, List.getElem?_eq_getElem (show i < l.constraints.length by omega)⟩
  obtain ⟨c', hc'⟩ : ∃ c, l.constraints[i + 1]? = some c :=
    ⟨_, List.getElem?_eq_getElem (show i + 1 < l.constraints.length by omega)⟩
  have a := (hseg i c r hc h1).2
  have b := (hseg (i + 1) c' r' hc' h2).1
  have hn : ((l.constraints.length : ℚ) - 1) ≠ 0 := by
    have : (2 : ℚ) ≤ (l.constraints.length : ℚ) := by exact_mod_cast (by omega : 2 ≤ l.constraints.length)
    linarith
  have hgap : ∀ m, m + 1 < l.constraints.length →
      flexGap l.flex l.constraints.length (gapOf l.spacing)
        ((extent l.direction (area.inner l.padding) : ℚ)
          - definiteTotal (extent l.direction (area.inner l.padding)) l.constraints) (m + 1)
      = share := by
    intro m hm
    rw [hf]
    unfold flexGap
    rw [if_pos ⟨by omega, hm⟩, ← hs]
    exact mul_div_cancel_right₀ _ hn
  rw [flexStart_succ hc, hgap i (by omega)] at b
  refine ⟨?_, ?_⟩
  · have a1 := abs_le.mp a.1
    have b1 := abs_le.mp b.1
    push_cast
    push_cast at a1 b1
    rw [abs_le]
    constructor <;> linarith [a1.1, a1.2, b1.1, b1.2]
  · intro k hk hw
    have hwhole : ∀ m, m < l.constraints.length → ∃ j : Int,
        flexStart l.flex l.constraints (gapOf l.spacing)
          (extent l.direction (area.inner l.padding)) m = j := by
      intro m
      induction m with
      | zero =>
        intro _
        refine ⟨0, ?_⟩
        rw [hf]
        simp [flexStart, flexGap, definiteTotal]
      | succ m ih =>
        intro hm
        obtain ⟨j, hj⟩ := ih (by omega)
        obtain ⟨d, hd⟩ : ∃ c, l.constraints[m]? = some c :=
          ⟨_, List.getElem?_eq_getElem (show m < l.constraints.length by omega)⟩
        obtain ⟨w, hw'⟩ := hw d (List.mem_of_getElem? hd)
        refine ⟨j + w + k, ?_⟩
        rw [flexStart_succ hd, hj, hw', hgap m hm, hk]
        push_cast
        rfl
    obtain ⟨j, hj⟩ := hwhole i (by omega)
    obtain ⟨w, hw'⟩ := hw c (List.mem_of_getElem? hc)
    have ea := a.2 (lo l.direction (area.inner l.padding) + (j + w)) (by
      rw [hj, hw']; push_cast; rfl)
    have eb := b.2 (lo l.direction (area.inner l.padding) + (j + w + k)) (by
      rw [hj, hw', hk]; push_cast; rfl)
    omega

/-- The two buttons meet the hypotheses, with a share of six cells. -/
example : FitsFlex ⟨.horizontal, [.len 2, .len 2], Padding.none', .spaceAround, .space 0⟩ 10 where
  mode := by decide
  some_ := by decide
  few := by decide
  two := by decide
  definite := by
    intro c hc
    simp only [List.mem_cons, List.not_mem_nil, or_false] at hc
    rcases hc with rfl | rfl <;> exact ⟨2, rfl, by norm_num, by norm_num [gapOf]⟩
  fit := by decide +kernel

end Bento
