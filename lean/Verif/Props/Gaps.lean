import Verif.Lemmas.Disjoint
import Verif.Props.AlmostSurely
import Verif.Props.Side
import Verif.Spec.Nested

/-!
# Property C126: gaps come before sizes; segments never share a cell
-/

namespace Bento

open Casso Layout

/-- Rounding after a step of whole cells to the right moves at least as far. -/
theorem roundHalfAway_shift (q : ℚ) {k : Int} (hk : 0 ≤ k) : roundHalfAway q + k ≤ roundHalfAway (q + k) := by
  have hk' : (0 : ℚ) ≤ k := by exact_mod_cast hk
  unfold roundHalfAway
  by_cases h : 0 ≤ q
  · rw [if_pos h, if_pos (by linarith), show q + k + 1 / 2 = q + 1 / 2 + k by ring, Int.floor_add_intCast]
  · rw [if_neg h]
    split_ifs with h2
    · rw [show q + k + 1 / 2 = q + 1 / 2 + k by ring, Int.floor_add_intCast]
      have h3 := Int.floor_le (-q + 1 / 2)
      have h4 := Int.lt_floor_add_one (-q + 1 / 2)
      have : -⌊-q + 1 / 2⌋ ≤ ⌊q + 1 / 2⌋ := by
        rw [Int.le_floor]
        push_cast
        linarith
      omega
    · rw [show -(q + k) + 1 / 2 = -q + 1 / 2 + ((-k : Int) : ℚ) by push_cast; ring, Int.floor_add_intCast]
      omega

theorem toCell_shift (q : ℚ) {k : Int} (hk : 0 ≤ k) : toCell q + k ≤ toCell (q + k * multiplier) := by
  unfold toCell
  have h1 := roundHalfAway_shift q (k := k * 100) (by omega)
  have e : q + (k : ℚ) * multiplier = q + ((k * 100 : Int) : ℚ) := by unfold multiplier; push_cast; ring
  rw [e]
  have h2 := roundHalfAway_shift ((roundHalfAway q : ℚ) / multiplier) hk
  refine h2.trans (roundHalfAway_mono ?_)
  have h3 : ((roundHalfAway q + k * 100 : Int) : ℚ) ≤ roundHalfAway (q + ((k * 100 : Int) : ℚ)) := by exact_mod_cast h1
  unfold multiplier
  push_cast at h3
  push_cast
  linarith

theorem elementRect_along (x : Var → ℚ) (inner : Rect) (d : Direction) (e : Element) (h : x e.start ≤ x e.stop) :
    lo d (elementRect x inner d e) = toCell (x e.start) ∧
      lo d (elementRect x inner d e) + extent d (elementRect x inner d e) = toCell (x e.stop) := by
  have := toCell_mono h
  cases d <;> simp only [elementRect, lo, extent, true_and] <;> omega

/-- What the best placement looks like after rounding. -/
theorem row_of_best {l : Layout} {a b : ℚ} {x : Var → ℚ} (inner : Rect) (hs : 0 ≤ gapOf l.spacing)
    (hx : Placed l.constraints.length a b x)
    (hbest : ∀ y, Placed l.constraints.length a b y → weightedViolation (softList l) x ≤ weightedViolation (softList l) y) :
    (∀ r ∈ changesToRects x (segmentElements l.constraints.length) inner l.direction, extent l.direction r = 0) ∨
    InRow l.direction (gapOf l.spacing) (changesToRects x (segmentElements l.constraints.length) inner l.direction) ∧
    (l.flex = .start ∨ l.flex = .center ∨ l.flex = .end' → 0 ≤ a →
      InExactRow l.direction (gapOf l.spacing)
        (changesToRects x (segmentElements l.constraints.length) inner l.direction)) := by
  rw [gapOf_eq] at *
  rw [segmentElements_eq]
  unfold changesToRects
  rw [List.map_map]
  rcases hm : l.constraints.length with _ | m
  · left
    intro r hr
    simp at hr
  · rw [hm] at hx hbest
    have ord : ∀ i < m + 1, x (2 * i + 1) ≤ x (2 * i + 2) := hx.ordered
    by_cases hroom : ∃ i < m + 1, x (2 * i + 1) < x (2 * i + 2)
    · right
      obtain ⟨i, hi, hpos⟩ := hroom
      have hge := gaps_first hm hs hx hbest i hi hpos
      have hG : (0 : ℚ) ≤ (Spacing.value l.spacing : ℚ) * multiplier := by
        have : (0 : ℚ) ≤ Spacing.value l.spacing := by exact_mod_cast hs
        unfold multiplier
        linarith
      have step : ∀ i d, i + d + 1 < m + 1 →
          x (2 * i + 2) + (Spacing.value l.spacing : ℚ) * multiplier ≤ x (2 * (i + d + 1) + 1) := by
        intro i d
        induction d with
        | zero =>
          intro h
          have := hge i (by omega)
          rw [show 2 * (i + 1) = 2 * i + 2 by ring] at this
          rw [show 2 * (i + 0 + 1) + 1 = 2 * i + 2 + 1 by ring]
          linarith
        | succ d ih =>
          intro h
          have h1 := ih (by omega)
          have h2 := ord (i + d + 1) (by omega)
          have h3 := hge (i + d + 1) (by omega)
          rw [show 2 * (i + d + 1 + 1) = 2 * (i + d + 1) + 2 by ring] at h3
          rw [show 2 * (i + (d + 1) + 1) + 1 = 2 * (i + d + 1) + 2 + 1 by ring]
          linarith
      refine ⟨?_, ?_⟩
      · unfold InRow
        rw [List.pairwise_map]
        rw [List.pairwise_iff_getElem]
        intro i j hi hj hij
        rw [List.length_range] at hi hj
        rw [List.getElem_range, List.getElem_range]
        obtain ⟨d, rfl⟩ := Nat.exists_eq_add_of_lt hij
        have e1 := (elementRect_along x inner l.direction ⟨2 * i + 1, 2 * i + 2⟩ (ord i hi)).2
        have e2 := (elementRect_along x inner l.direction ⟨2 * (i + d + 1) + 1, 2 * (i + d + 1) + 2⟩ (ord _ hj)).1
        simp only [Function.comp]
        rw [e1, e2]
        exact (toCell_shift _ hs).trans (toCell_mono (step i d hj))
      · intro hf ha i r s hr hsx
        have hex := gaps_exact hm hf hs hx hbest hge
        rw [List.getElem?_map] at hr hsx
        obtain ⟨i1, g1, rfl⟩ := Option.map_eq_some_iff.1 hr
        obtain ⟨i2, g2, rfl⟩ := Option.map_eq_some_iff.1 hsx
        obtain ⟨h1, rfl⟩ := List.getElem?_eq_some_iff.1 g1
        obtain ⟨h2, rfl⟩ := List.getElem?_eq_some_iff.1 g2
        rw [List.length_range] at h1 h2
        rw [List.getElem_range, List.getElem_range]
        have e1 := (elementRect_along x inner l.direction ⟨2 * i + 1, 2 * i + 2⟩ (ord i h1)).2
        have e2 := (elementRect_along x inner l.direction ⟨2 * (i + 1) + 1, 2 * (i + 1) + 2⟩ (ord _ h2)).1
        simp only [Function.comp]
        rw [e1, e2]
        have h3 := hex i (by omega)
        rw [show 2 * (i + 1) = 2 * i + 2 by ring] at h3 ⊢
        have h4 : x (2 * i + 2 + 1) = x (2 * i + 2) + (Spacing.value l.spacing : ℚ) * multiplier := by linarith
        rw [h4]
        have h5 : (0 : ℚ) ≤ x (2 * i + 2) :=
          ha.trans (hx.low _ (show (2 * i + 2 : Nat) < 2 * (m + 1) + 2 by omega))
        exact (toCell_add h5 hs).symm
    · left
      push Not at hroom
      intro r hr
      obtain ⟨i, hi, rfl⟩ := List.mem_map.1 hr
      have hi := List.mem_range.1 hi
      have e : x (2 * i + 1) = x (2 * i + 2) := le_antisymm (ord i hi) (hroom i hi)
      obtain ⟨e1, e2⟩ := elementRect_along x inner l.direction ⟨2 * i + 1, 2 * i + 2⟩ (ord i hi)
      simp only [Function.comp] at *
      simp only [e] at e1 e2
      omega

/-- **C126**, gaps: in every flex mode and for every spacing that is not negative, whatever the constraints ask for,
either no segment takes any room or every segment ends, with the spacing after it, before all later ones begin
(with at most as many constraints as fit the solver). -/
theorem C126_gaps_first (ω : Nat → Nat) (fuel : Nat) (l : Layout) (area : Rect) (hfew : Few l)
    (hs : 0 ≤ gapOf l.spacing) :
    splitWithSpacers ω fuel l area = .running ∨
    ∃ segments spacers, splitWithSpacers ω fuel l area = .ok segments spacers ∧
      ((∀ r ∈ segments, extent l.direction r = 0) ∨ InRow l.direction (gapOf l.spacing) segments) := by
  rcases split_values (ω := ω) (fuel := fuel) l area hfew with h | ⟨x, h, hx, hbest⟩
  · exact .inl h
  · refine .inr ⟨_, _, h, ?_⟩
    rcases row_of_best (area.inner l.padding) hs hx hbest with h | h
    · exact .inl h
    · exact .inr h.1

/-- **C126**, gaps in the modes that leave the rest of the room at the ends: the gaps are exactly the spacing
(for an area that does not begin at negative coordinates). -/
theorem C126_gaps_exact (ω : Nat → Nat) (fuel : Nat) (l : Layout) (area : Rect) (hfew : Few l)
    (hs : 0 ≤ gapOf l.spacing) (hflex : l.flex = .start ∨ l.flex = .center ∨ l.flex = .end')
    (hpos : 0 ≤ lo l.direction (area.inner l.padding)) :
    splitWithSpacers ω fuel l area = .running ∨
    ∃ segments spacers, splitWithSpacers ω fuel l area = .ok segments spacers ∧
      ((∀ r ∈ segments, extent l.direction r = 0) ∨ InExactRow l.direction (gapOf l.spacing) segments) := by
  rcases split_values (ω := ω) (fuel := fuel) l area hfew with h | ⟨x, h, hx, hbest⟩
  · exact .inl h
  · refine .inr ⟨_, _, h, ?_⟩
    rcases row_of_best (area.inner l.padding) hs hx hbest with h | h
    · exact .inl h
    · refine .inr (h.2 hflex ?_)
      have : (0 : ℚ) ≤ ((l.areaBounds (area.inner l.padding)).1 : ℚ) := by
        have : 0 ≤ (l.areaBounds (area.inner l.padding)).1 := by
          unfold areaBounds
          unfold lo at hpos
          cases hd : l.direction <;> simp only [hd] at hpos ⊢ <;> exact hpos
        exact_mod_cast this
      unfold multiplier
      linarith

/-- Where the room goes in the best placement, after rounding. -/
theorem rest_of_best {l : Layout} {A B : Int} {x : Var → ℚ} (inner : Rect) (hs : 0 ≤ gapOf l.spacing)
    (hx : Placed l.constraints.length (A * multiplier) (B * multiplier) x)
    (hbest : ∀ y, Placed l.constraints.length (A * multiplier) (B * multiplier) y →
      weightedViolation (softList l) x ≤ weightedViolation (softList l) y) :
    (∀ r ∈ changesToRects x (segmentElements l.constraints.length) inner l.direction, extent l.direction r = 0) ∨
    (∀ r s, (changesToRects x (segmentElements l.constraints.length) inner l.direction).head? = some r →
      (changesToRects x (segmentElements l.constraints.length) inner l.direction).getLast? = some s →
      RestGoes l.flex (2 ≤ l.constraints.length) A B (lo l.direction r) (lo l.direction s + extent l.direction s)) ∧
    (l.flex = .spaceBetween ∨ l.flex = .spaceAround → 0 ≤ A →
      EvenGaps l.direction (changesToRects x (segmentElements l.constraints.length) inner l.direction)) := by
  rw [gapOf_eq] at hs
  rw [segmentElements_eq]
  unfold changesToRects
  rw [List.map_map]
  rcases hm : l.constraints.length with _ | m
  · left
    intro r hr
    simp at hr
  · rw [hm] at hx hbest
    have ord : ∀ i < m + 1, x (2 * i + 1) ≤ x (2 * i + 2) := hx.ordered
    by_cases hroom : ∃ i < m + 1, x (2 * i + 1) < x (2 * i + 2)
    · right
      obtain ⟨i, hi, hpos⟩ := hroom
      have hge := gaps_first hm hs hx hbest i hi hpos
      have hG : (0 : ℚ) ≤ (Spacing.value l.spacing : ℚ) * multiplier := by
        have : (0 : ℚ) ≤ Spacing.value l.spacing := by exact_mod_cast hs
        unfold multiplier
        linarith
      have x0 : x 0 = A * multiplier := hx.first
      have xn : x (2 * (m + 1) + 1) = B * multiplier := hx.last
      refine ⟨fun r s hr hl => ?_, fun hf hA i j r s r' s' h1 h2 h3 h4 => ?_⟩
      · have hr' : r = elementRect x inner l.direction ⟨1, 2⟩ := by
          rw [List.range_succ_eq_map, List.map_cons, List.head?_cons] at hr
          exact (Option.some.inj hr).symm
        have hl' : s = elementRect x inner l.direction ⟨2 * m + 1, 2 * m + 2⟩ := by
          rw [List.range_succ, List.map_append, List.map_cons, List.map_nil, List.getLast?_concat] at hl
          exact (Option.some.inj hl).symm
        have e1 := (elementRect_along x inner l.direction ⟨1, 2⟩ (ord 0 (by omega))).1
        have e2 := (elementRect_along x inner l.direction ⟨2 * m + 1, 2 * m + 2⟩ (ord m (by omega))).2
        rw [hr', hl', e1, e2]
        obtain ⟨f1, f2, f3⟩ := ends_fixed hm hx hbest fun k hk => hG.trans (hge k hk)
        rw [show 2 * (m + 1) = 2 * m + 2 by ring] at f2 f3 xn
        unfold RestGoes
        split
        · rename_i hf
          show toCell (x 1) = A
          rw [f1 hf, x0, toCell_int]
        · rename_i hf
          show toCell (x (2 * m + 2)) = B
          rw [← f2 hf, xn, toCell_int]
        · rename_i hf
          show |(toCell (x 1) - A) - (B - toCell (x (2 * m + 2)))| ≤ 1
          have f3 := f3 hf
          rw [x0, xn] at f3
          obtain ⟨b1, b2⟩ := toCell_bound (x 1)
          obtain ⟨b3, b4⟩ := toCell_bound (x (2 * m + 2))
          unfold multiplier at f3
          have c1 : ((toCell (x 1) - A - (B - toCell (x (2 * m + 2))) : Int) : ℚ) < ((2 : Int) : ℚ) := by
            push_cast; linarith
          have c2 : ((-2 : Int) : ℚ) < ((toCell (x 1) - A - (B - toCell (x (2 * m + 2))) : Int) : ℚ) := by
            push_cast; linarith
          have c1 := Int.cast_lt.1 c1
          have c2 := Int.cast_lt.1 c2
          rw [abs_le]
          omega
        · rename_i hf
          intro h2
          have := (gaps_growing hm (.inl hf) hs hx hbest hge).2 hf (by omega)
          rw [show 2 * (m + 1) = 2 * m + 2 by ring] at this
          show toCell (x 1) = A ∧ toCell (x (2 * m + 2)) = B
          rw [this.1, x0, ← this.2, xn, toCell_int, toCell_int]
          exact ⟨rfl, rfl⟩
        · trivial
      · have heq := (gaps_growing hm hf hs hx hbest hge).1
        have at_ : ∀ (i : Nat) (r s : Rect),
            ((List.range (m + 1)).map (elementRect x inner l.direction ∘ fun i => ⟨2 * i + 1, 2 * i + 2⟩))[i]? = some r →
            ((List.range (m + 1)).map (elementRect x inner l.direction ∘ fun i => ⟨2 * i + 1, 2 * i + 2⟩))[i + 1]? = some s →
            i < m ∧ lo l.direction r + extent l.direction r = toCell (x (2 * (i + 1))) ∧
              lo l.direction s = toCell (x (2 * (i + 1) + 1)) := by
          intro i r s hr hsx
          rw [List.getElem?_map] at hr hsx
          obtain ⟨i1, g1, rfl⟩ := Option.map_eq_some_iff.1 hr
          obtain ⟨i2, g2, rfl⟩ := Option.map_eq_some_iff.1 hsx
          obtain ⟨h1, rfl⟩ := List.getElem?_eq_some_iff.1 g1
          obtain ⟨h2, rfl⟩ := List.getElem?_eq_some_iff.1 g2
          rw [List.length_range] at h1 h2
          rw [List.getElem_range, List.getElem_range]
          refine ⟨by omega, (elementRect_along x inner l.direction ⟨2 * i + 1, 2 * i + 2⟩ (ord i h1)).2,
            (elementRect_along x inner l.direction ⟨2 * (i + 1) + 1, 2 * (i + 1) + 2⟩ (ord _ h2)).1⟩
        obtain ⟨hi, e1, e2⟩ := at_ i r s h1 h2
        obtain ⟨hj, e3, e4⟩ := at_ j r' s' h3 h4
        rw [e1, e2, e3, e4]
        have hgap := heq i hi j hj
        have nonneg : ∀ v : Nat, v < 2 * (m + 1) + 2 → 0 ≤ x v := by
          intro v hv
          have hA' : (0 : ℚ) ≤ A := by exact_mod_cast hA
          have := hx.low v hv
          unfold multiplier at this
          linarith
        have u1 := (toCell_bound (x (2 * (i + 1)))).1
        have u2 := (toCell_bound (x (2 * (i + 1) + 1))).1
        have u3 := (toCell_bound (x (2 * (j + 1)))).1
        have u4 := (toCell_bound (x (2 * (j + 1) + 1))).1
        have w1 := toCell_lower (nonneg (2 * (i + 1)) (by omega))
        have w2 := toCell_lower (nonneg (2 * (i + 1) + 1) (by omega))
        have w3 := toCell_lower (nonneg (2 * (j + 1)) (by omega))
        have w4 := toCell_lower (nonneg (2 * (j + 1) + 1) (by omega))
        generalize toCell (x (2 * (i + 1))) = t1 at *
        generalize toCell (x (2 * (i + 1) + 1)) = t2 at *
        generalize toCell (x (2 * (j + 1))) = t3 at *
        generalize toCell (x (2 * (j + 1) + 1)) = t4 at *
        have c1 : ((t2 - t1 - (t4 - t3) : Int) : ℚ) < ((2 : Int) : ℚ) := by push_cast; linarith
        have c2 : ((-2 : Int) : ℚ) < ((t2 - t1 - (t4 - t3) : Int) : ℚ) := by push_cast; linarith
        have c1 := Int.cast_lt.1 c1
        have c2 := Int.cast_lt.1 c2
        rw [abs_le]
        omega
    · left
      push Not at hroom
      intro r hr
      obtain ⟨i, hi, rfl⟩ := List.mem_map.1 hr
      have hi := List.mem_range.1 hi
      have e : x (2 * i + 1) = x (2 * i + 2) := le_antisymm (ord i hi) (hroom i hi)
      obtain ⟨e1, e2⟩ := elementRect_along x inner l.direction ⟨2 * i + 1, 2 * i + 2⟩ (ord i hi)
      simp only [Function.comp] at *
      simp only [e] at e1 e2
      omega

theorem areaBounds_along (l : Layout) (r : Rect) :
    (l.areaBounds r).1 = lo l.direction r ∧ (l.areaBounds r).2 = lo l.direction r + extent l.direction r := by
  unfold areaBounds lo extent Rect.right Rect.bottom
  cases l.direction <;> exact ⟨rfl, rfl⟩

/-- **C126**, the room that is left: at the end in the mode `start`, at the beginning in `end`, at both alike in
`center`, at neither in `spaceBetween` (two or more segments) — unless no segment takes any room. -/
theorem C126_rest (ω : Nat → Nat) (fuel : Nat) (l : Layout) (area : Rect) (hfew : Few l)
    (hs : 0 ≤ gapOf l.spacing) :
    splitWithSpacers ω fuel l area = .running ∨
    ∃ segments spacers, splitWithSpacers ω fuel l area = .ok segments spacers ∧
      ((∀ r ∈ segments, extent l.direction r = 0) ∨
        ∀ r s, segments.head? = some r → segments.getLast? = some s →
          RestGoes l.flex (2 ≤ l.constraints.length) (lo l.direction (area.inner l.padding))
            (lo l.direction (area.inner l.padding) + extent l.direction (area.inner l.padding))
            (lo l.direction r) (lo l.direction s + extent l.direction s)) := by
  rcases split_values (ω := ω) (fuel := fuel) l area hfew with h | ⟨x, h, hx, hbest⟩
  · exact .inl h
  · refine .inr ⟨_, _, h, ?_⟩
    rcases rest_of_best (area.inner l.padding) hs hx hbest with h | h
    · exact .inl h
    · have := h.1
      rw [(areaBounds_along l _).1, (areaBounds_along l _).2] at this
      exact .inr this

/-- **C126**, even gaps: in the modes `spaceBetween` and `spaceAround` the gaps between neighbours differ by at most
one cell (for an area that does not begin at negative coordinates), unless no segment takes any room. -/
theorem C126_even_gaps (ω : Nat → Nat) (fuel : Nat) (l : Layout) (area : Rect) (hfew : Few l)
    (hs : 0 ≤ gapOf l.spacing) (hflex : l.flex = .spaceBetween ∨ l.flex = .spaceAround)
    (hpos : 0 ≤ lo l.direction (area.inner l.padding)) :
    splitWithSpacers ω fuel l area = .running ∨
    ∃ segments spacers, splitWithSpacers ω fuel l area = .ok segments spacers ∧
      ((∀ r ∈ segments, extent l.direction r = 0) ∨ EvenGaps l.direction segments) := by
  rcases split_values (ω := ω) (fuel := fuel) l area hfew with h | ⟨x, h, hx, hbest⟩
  · exact .inl h
  · refine .inr ⟨_, _, h, ?_⟩
    rcases rest_of_best (area.inner l.padding) hs hx hbest with h | h
    · exact .inl h
    · exact .inr (h.2 hflex (by rw [(areaBounds_along l _).1]; exact hpos))

theorem apart_of_along {d : Direction} {r s : Rect}
    (h : extent d r ≤ 0 ∨ extent d s ≤ 0 ∨ lo d r + extent d r ≤ lo d s) : r.Apart s := by
  intro q hq
  by_contra hcon
  rw [Bool.not_eq_false] at hcon
  rw [Rect.contains_iff] at hq hcon
  unfold Rect.Mem at hq hcon
  cases d <;> simp only [lo, extent] at h <;> omega

/-- **C126**: two segments of one layout never share a cell, in every flex mode and for every spacing that is not
negative, whatever the constraints ask for and however little room there is. -/
theorem C126_apart (ω : Nat → Nat) (fuel : Nat) (l : Layout) (area : Rect) (hfew : Few l)
    (hs : 0 ≤ gapOf l.spacing) :
    splitWithSpacers ω fuel l area = .running ∨
    ∃ segments spacers, splitWithSpacers ω fuel l area = .ok segments spacers ∧ segments.Pairwise Rect.Apart := by
  rcases C126_gaps_first ω fuel l area hfew hs with h | ⟨s, p, h, hrow⟩
  · exact .inl h
  · refine .inr ⟨s, p, h, ?_⟩
    rcases hrow with h0 | hrow
    · rw [List.pairwise_iff_forall_sublist]
      intro r t hrt
      exact apart_of_along (d := l.direction) (.inl (h0 r (hrt.subset (by simp))).le)
    · exact hrow.imp fun h => apart_of_along (d := l.direction) (.inr (.inr (by omega)))

/-- **C126**, with probability one over the iteration orders of the maps. -/
theorem C126_almost_surely (l : Layout) (area : Rect) (hfew : Few l) (hs : 0 ≤ gapOf l.spacing) :
    AlmostSurely l area fun segments _ =>
      ((∀ r ∈ segments, extent l.direction r = 0) ∨ InRow l.direction (gapOf l.spacing) segments) ∧
      segments.Pairwise Rect.Apart :=
  almostSurely_of hfew fun ω fuel => by
    rcases C126_gaps_first ω fuel l area hfew hs with h | ⟨s, p, h, h1⟩
    · exact .inl h
    · rcases C126_apart ω fuel l area hfew hs with h' | ⟨s', p', h', h2⟩
      · exact .inl h'
      · rw [h] at h'
        cases h'
        exact .inr ⟨s, p, h, h1, h2⟩

/-- Every cell of the inner area is a cell of the area. -/
theorem inner_subset {r : Rect} {p : Padding} (hp : PaddingNonneg p) {q : Position}
    (h : (r.inner p).contains q = true) : r.contains q = true := by
  obtain ⟨h1, h2, h3, h4⟩ := hp
  rw [Rect.contains_iff] at *
  unfold Rect.Mem Rect.inner at *
  simp only at h
  split_ifs at h with hc
  · simp only [Rect.zero] at h
    omega
  · simp only at h
    omega

theorem fits_subset {d : Direction} {r s : Rect} (h : Fits d r s) {q : Position} (hq : s.contains q = true) :
    r.contains q = true := by
  obtain ⟨h1, h2, h3, h4⟩ := h
  rw [Rect.contains_iff] at *
  unfold Rect.Mem at *
  cases d <;> simp only [lo, extent] at * <;> omega

theorem segments_facts {ω : Nat → Nat} {fuel : Nat} {l : Layout} {area : Rect} {segments spacers : List Rect}
    (hfew : Few l) (hs : 0 ≤ gapOf l.spacing) (hp : PaddingNonneg l.padding)
    (h : splitWithSpacers ω fuel l area = .ok segments spacers) :
    segments.Pairwise Rect.Apart ∧ ∀ s ∈ segments, ∀ q, s.contains q = true → area.contains q = true := by
  constructor
  · rcases C126_apart ω fuel l area hfew hs with h' | ⟨s, p, h', ha⟩
    · rw [h] at h'; cases h'
    · rw [h] at h'; cases h'; exact ha
  · rcases C18_well_formed_partial ω fuel l area hfew with h' | ⟨s, p, h', _, _, ha⟩
    · rw [h] at h'; cases h'
    · rw [h] at h'
      cases h'
      exact fun s hs q hq => inner_subset hp (fits_subset (ha s (.inl hs)) hq)

mutual
theorem nested_facts : ∀ {area : Rect} {leaves : List Rect}, Nested area leaves →
    leaves.Pairwise Rect.Apart ∧ ∀ s ∈ leaves, ∀ q, s.contains q = true → area.contains q = true
  | _, _, .leaf area => ⟨List.pairwise_singleton _ _, fun s hs q hq => by
      rw [List.mem_singleton] at hs
      exact hs ▸ hq⟩
  | _, _, .split ω fuel l area segments spacers leaves hfew hs hp h hall => by
      obtain ⟨h1, h2⟩ := segments_facts hfew hs hp h
      obtain ⟨h3, h4⟩ := nestedAll_facts hall h1
      refine ⟨h3, fun s hs q hq => ?_⟩
      obtain ⟨r, hr, hin⟩ := h4 s hs
      exact h2 r hr q (hin q hq)
theorem nestedAll_facts : ∀ {rs leaves : List Rect}, NestedAll rs leaves → rs.Pairwise Rect.Apart →
    leaves.Pairwise Rect.Apart ∧ ∀ s ∈ leaves, ∃ r ∈ rs, ∀ q, s.contains q = true → r.contains q = true
  | _, _, .nil, _ => ⟨List.Pairwise.nil, fun _ h => absurd h List.not_mem_nil⟩
  | _, _, .cons r rs leaves more h hall, hp => by
      obtain ⟨p1, p2⟩ := List.pairwise_cons.1 hp
      obtain ⟨h1, h2⟩ := nested_facts h
      obtain ⟨h3, h4⟩ := nestedAll_facts hall p2
      refine ⟨List.pairwise_append.2 ⟨h1, h3, fun s hs t ht q hq => ?_⟩, fun s hs => ?_⟩
      · obtain ⟨r', hr', hin⟩ := h4 t ht
        have := p1 r' hr' q (h2 s hs q hq)
        by_contra hcon
        rw [Bool.not_eq_false] at hcon
        rw [hin q hcon] at this
        cases this
      · rcases List.mem_append.1 hs with hs | hs
        · exact ⟨r, List.mem_cons_self .., h2 s hs⟩
        · obtain ⟨r', hr', hin⟩ := h4 s hs
          exact ⟨r', List.mem_cons_of_mem _ hr', hin⟩
end

/-- **C126**, layouts inside layouts: however often segments are split again, the areas left in the end share no cell
and stay in the area one began with. -/
theorem C126_nested {area : Rect} {leaves : List Rect} (h : Nested area leaves) :
    leaves.Pairwise Rect.Apart ∧ ∀ s ∈ leaves, ∀ q, s.contains q = true → area.contains q = true :=
  nested_facts h

theorem zip_apart {fs : List (Buffer → Option Buffer)} {rs : List Rect} (h : rs.Pairwise Rect.Apart) :
    (rs.zip fs).Pairwise fun d e => d.1.Apart e.1 := by
  induction rs generalizing fs with
  | nil => exact List.Pairwise.nil
  | cons r rs ih =>
    cases fs with
    | nil => exact List.Pairwise.nil
    | cons f fs =>
      obtain ⟨t1, t2⟩ := List.pairwise_cons.1 h
      exact List.pairwise_cons.2 ⟨fun e he => t1 _ (List.of_mem_zip he).1, ih t2⟩

/-- **C126**, drawing on the areas of nested layouts: the order does not matter, and in its own area each of the
things drawn looks as it would alone. -/
theorem C126_draw {area : Rect} {leaves : List Rect} (h : Nested area leaves) (fs : List (Buffer → Option Buffer))
    (b : Buffer) (wf : b.WF) (hd : ∀ d ∈ leaves.zip fs, Cellwise d.2 ∧ Within b.area d.1 d.2) :
    (∀ es : List (Rect × (Buffer → Option Buffer)), (leaves.zip fs).Perm es →
      drawAll ((leaves.zip fs).map Prod.snd) b = drawAll (es.map Prod.snd) b) ∧
    ∀ b', drawAll ((leaves.zip fs).map Prod.snd) b = some b' →
      (∀ d ∈ leaves.zip fs, ∃ b1, d.2 b = some b1 ∧ ∀ q, d.1.contains q = true → b'.cellAt q = b1.cellAt q) ∧
      ∀ q, area.contains q = false → b'.cellAt q = b.cellAt q := by
  obtain ⟨h1, h2⟩ := C126_nested h
  have hp := zip_apart (fs := fs) h1
  refine ⟨fun es hperm => C101_order b.area _ es hd hp hperm b wf rfl, fun b' hb' => ?_⟩
  rcases C101_alone b.area _ hd hp b wf rfl with ⟨_, hn⟩ | ⟨c, hc, _, _, h3, h4⟩
  · rw [hb'] at hn; cases hn
  · rw [hb'] at hc
    cases hc
    refine ⟨h3, fun q hq => h4 q fun d hdm => ?_⟩
    by_contra hcon
    rw [Bool.not_eq_false] at hcon
    rw [h2 d.1 (List.of_mem_zip (show (d.1, d.2) ∈ _ from hdm)).1 q hcon] at hq
    cases hq

/-- Two lengths that do not fit keep their gap; with less room than the gap nothing is left. -/
example :
    let l : Layout := ⟨.horizontal, [.len 10, .len 10], Padding.none', .start, .space 2⟩
    Few l ∧ 0 ≤ gapOf l.spacing ∧
    splitWithSpacers (fun _ => 0) 100 l ⟨3, 0, 12, 1⟩
      = .ok [⟨3, 0, 5, 1⟩, ⟨10, 0, 5, 1⟩] [⟨3, 0, 0, 1⟩, ⟨8, 0, 2, 1⟩, ⟨15, 0, 0, 1⟩] ∧
    splitWithSpacers (fun _ => 0) 100 l ⟨3, 0, 1, 1⟩
      = .ok [⟨3, 0, 0, 1⟩, ⟨4, 0, 0, 1⟩] [⟨3, 0, 0, 1⟩, ⟨3, 0, 1, 1⟩, ⟨4, 0, 0, 1⟩] := by
  refine ⟨by decide, by decide, ?_, ?_⟩
  · rw [split_fast _ _ (by decide)]; decide +kernel
  · rw [split_fast _ _ (by decide)]; decide +kernel

/-- Three definite sizes with room to spare: even gaps, and nothing at the ends. -/
example :
    let l : Layout := ⟨.horizontal, [.len 2, .len 3, .len 2, .len 1], Padding.none', .spaceBetween, .space 1⟩
    Few l ∧ 0 ≤ gapOf l.spacing ∧
    splitWithSpacers (fun _ => 0) 200 l ⟨3, 0, 12, 1⟩
      = .ok [⟨3, 0, 2, 1⟩, ⟨6, 0, 3, 1⟩, ⟨11, 0, 2, 1⟩, ⟨14, 0, 1, 1⟩]
        [⟨3, 0, 0, 1⟩, ⟨5, 0, 1, 1⟩, ⟨9, 0, 2, 1⟩, ⟨13, 0, 1, 1⟩, ⟨15, 0, 0, 1⟩] := by
  refine ⟨by decide, by decide, ?_⟩
  rw [split_fast _ _ (by decide)]; decide +kernel

/-- A header above two columns: two layouts, one inside the other, with fills on the three areas. -/
theorem gaps_example_nested : Nested ⟨0, 0, 4, 3⟩ [⟨0, 0, 4, 1⟩, ⟨0, 1, 3, 2⟩, ⟨4, 1, 0, 2⟩] := by
  have h1 : splitWithSpacers (fun _ => 0) 100 ⟨.vertical, [.len 1, .fill 1], Padding.none', .legacy, .space 0⟩ ⟨0, 0, 4, 3⟩
      = .ok [⟨0, 0, 4, 1⟩, ⟨0, 1, 4, 2⟩] [⟨0, 0, 4, 0⟩, ⟨0, 1, 4, 0⟩, ⟨0, 3, 4, 0⟩] := by
    rw [split_fast _ _ (by decide)]; decide +kernel
  have h2 : splitWithSpacers (fun _ => 0) 100
      ⟨.horizontal, [.min 3, .percentage 50], Padding.none', .center, .space 1⟩ ⟨0, 1, 4, 2⟩
      = .ok [⟨0, 1, 3, 2⟩, ⟨4, 1, 0, 2⟩] [⟨0, 1, 0, 2⟩, ⟨3, 1, 1, 2⟩, ⟨4, 1, 0, 2⟩] := by
    rw [split_fast _ _ (by decide)]; decide +kernel
  exact .split _ _ _ _ _ _ _ (by decide) (by decide) ⟨by decide, by decide, by decide, by decide⟩ h1
    (.cons _ _ _ _ (.leaf _) (.cons _ _ [⟨0, 1, 3, 2⟩, ⟨4, 1, 0, 2⟩] []
      (.split _ _ _ _ _ _ _ (by decide) (by decide) ⟨by decide, by decide, by decide, by decide⟩ h2
        (.cons _ _ [⟨0, 1, 3, 2⟩] _ (.leaf _) (.cons _ _ [⟨4, 1, 0, 2⟩] [] (.leaf _) .nil))) .nil))

/-- Fills on the areas of the example meet the hypotheses of `C126_draw`. -/
example : ∀ d ∈ ([⟨0, 0, 4, 1⟩, ⟨0, 1, 3, 2⟩, ⟨4, 1, 0, 2⟩] : List Rect).zip
      [(Fill.new "x").render ⟨0, 0, 4, 1⟩, (Fill.new "y").render ⟨0, 1, 3, 2⟩, (Fill.new "z").render ⟨4, 1, 0, 2⟩],
    Cellwise d.2 ∧ Within ⟨0, 0, 4, 3⟩ d.1 d.2 := by
  have hin := (C126_nested gaps_example_nested).2
  simp only [List.zip_cons_cons, List.zip_nil_left, List.mem_cons, List.not_mem_nil, or_false, forall_eq_or_imp, forall_eq]
  refine ⟨⟨?_, within_fill _ _ _ (hin _ (by simp))⟩, ⟨?_, within_fill _ _ _ (hin _ (by simp))⟩, ?_,
    within_fill _ _ _ (hin _ (by simp))⟩ <;> exact (C101_widgets Uniseg.simple _).2.2.2.2.2.2.2.2.2.2.1 _

end Bento
