import Verif.Lemmas.FastLoop
import Verif.Props.Termination

/-!
# Property C81: splitting the same area twice

`Split` has no input but the layout and the area, so a user expects the same rectangles every time,
frame after frame.  The solver, however, picks pivots in the order in which Go iterates over maps.
The two `_false` theorems exhibit layouts for which the outcome depends on that order; the `_partial`
theorems say what is the same for all orders.
-/

namespace Bento

open Casso Layout

/-! ## What fails -/

/-- Three columns with gaps, 12 cells in all: at least two cells, at least nothing, at most three. -/
def threeColumns : Layout := ⟨.horizontal, [.min 2, .min 0, .max 3], Padding.none', .legacy, .space 2⟩

/-- **C81 fails**: splitting the same 12 cells into the same three columns gives 2, 3 and 3 cells for
one order of the maps and 5, 0 and 3 cells for another. -/
theorem C81_same_result_false :
    splitWithSpacers (fun _ => 0) 100 threeColumns ⟨0, 0, 12, 1⟩ =
      .ok [⟨0, 0, 2, 1⟩, ⟨4, 0, 3, 1⟩, ⟨9, 0, 3, 1⟩]
        [⟨0, 0, 0, 1⟩, ⟨2, 0, 2, 1⟩, ⟨7, 0, 2, 1⟩, ⟨12, 0, 0, 1⟩] ∧
    splitWithSpacers (fun _ => 3) 100 threeColumns ⟨0, 0, 12, 1⟩ =
      .ok [⟨0, 0, 5, 1⟩, ⟨7, 0, 0, 1⟩, ⟨9, 0, 3, 1⟩]
        [⟨0, 0, 0, 1⟩, ⟨5, 0, 2, 1⟩, ⟨7, 0, 2, 1⟩, ⟨12, 0, 0, 1⟩] := by
  constructor
  · rw [split_fast _ _ (by decide)]
    decide +kernel
  · rw [split_fast _ _ (by decide)]
    decide +kernel

/-- Without gaps, and with sums that are exact in floating point: 15 cells are split into 3, 1, 6, 5 or
into 9, 1, 0, 5. -/
theorem C81_same_result_without_gaps_false :
    let l : Layout := ⟨.horizontal, [.min 3, .max 1, .min 0, .max 5], Padding.none', .legacy, .space 0⟩
    (∃ spacers, splitWithSpacers (fun _ => 0) 100 l ⟨0, 0, 15, 1⟩ =
      .ok [⟨0, 0, 3, 1⟩, ⟨3, 0, 1, 1⟩, ⟨4, 0, 6, 1⟩, ⟨10, 0, 5, 1⟩] spacers) ∧
    (∃ spacers, splitWithSpacers (fun _ => 1) 100 l ⟨0, 0, 15, 1⟩ =
      .ok [⟨0, 0, 9, 1⟩, ⟨9, 0, 1, 1⟩, ⟨10, 0, 0, 1⟩, ⟨10, 0, 5, 1⟩] spacers) := by
  constructor
  · refine ⟨[⟨0, 0, 0, 1⟩, ⟨3, 0, 0, 1⟩, ⟨4, 0, 0, 1⟩, ⟨10, 0, 0, 1⟩, ⟨15, 0, 0, 1⟩], ?_⟩
    rw [split_fast _ _ (by decide)]
    decide +kernel
  · refine ⟨[⟨0, 0, 0, 1⟩, ⟨9, 0, 0, 1⟩, ⟨10, 0, 0, 1⟩, ⟨10, 0, 0, 1⟩, ⟨15, 0, 0, 1⟩], ?_⟩
    rw [split_fast _ _ (by decide)]
    decide +kernel

/-- Three columns that share a single cell. -/
def oneCell : Layout := ⟨.horizontal, [.fill 50, .fill 1, .fill 50], Padding.none', .spaceAround, .space 0⟩

/-- Picks that lead into a cycle: 54 times the first candidate, five pivots, then nine pivots over and
over again. -/
def cyclicOrder (i : Nat) : Nat :=
  if i < 64 then (List.replicate 54 0 ++ [0, 2, 1, 1, 0, 2, 2, 1, 1, 0]).getD i 0
  else [2, 1, 1, 0, 0, 2, 1, 2, 0, 0, 1, 0, 0, 1, 0, 1, 1, 0].getD ((i - 64) % 18) 0

/-- **C81 fails**: there is an order of the maps for which `Split` never returns; the simplex method
goes round in a cycle of nine pivots. -/
theorem C81_returns_false (fuel : Nat) :
    splitWithSpacers cyclicOrder fuel oneCell ⟨0, 0, 1, 1⟩ = .running := by
  have hl : ((oneCell.solverConstraints ⟨0, 0, 1, 1⟩).map
      (Fast.loops cyclicOrder 100 30 5 9 64)) = some true := by decide +kernel
  cases hcs : oneCell.solverConstraints ⟨0, 0, 1, 1⟩ with
  | none => rw [hcs] at hl; simp at hl
  | some cs =>
    rw [hcs] at hl
    simp only [Option.map_some, Option.some.injEq] at hl
    have hin : (⟨0, 0, 1, 1⟩ : Rect).inner oneCell.padding = ⟨0, 0, 1, 1⟩ := by decide +kernel
    refine running_of_fast (by rw [hin]; exact hcs) (Fast.forever_of_loops hl (by decide) ?_ fuel)
    intro i
    unfold cyclicOrder
    rw [if_neg (by omega), if_neg (by omega)]
    congr 1
    omega

/-! ## What holds -/

/-- **C81** (what all orders have in common, under the provisos of C18): the rectangles of any two
runs come from solutions that satisfy the hard constraints and violate the others to the same, least
possible, weighted extent. -/
theorem C81_equally_good_partial {ω ω' : Nat → Nat} {fuel fuel' : Nat} (l : Layout) (area : Rect)
    (h : Few l) {segments spacers segments' spacers' : List Rect}
    (h1 : splitWithSpacers ω fuel l area = .ok segments spacers)
    (h2 : splitWithSpacers ω' fuel' l area = .ok segments' spacers') :
    ∃ x x' : Var → ℚ,
      segments = changesToRects x (segmentElements l.constraints.length) (area.inner l.padding) l.direction ∧
      segments' = changesToRects x' (segmentElements l.constraints.length) (area.inner l.padding) l.direction ∧
      Placed l.constraints.length (((l.areaBounds (area.inner l.padding)).1 : ℚ) * multiplier)
        (((l.areaBounds (area.inner l.padding)).2 : ℚ) * multiplier) x ∧
      Placed l.constraints.length (((l.areaBounds (area.inner l.padding)).1 : ℚ) * multiplier)
        (((l.areaBounds (area.inner l.padding)).2 : ℚ) * multiplier) x' ∧
      weightedViolation (softList l) x = weightedViolation (softList l) x' := by
  rcases split_values (ω := ω) (fuel := fuel) l area h with hr | ⟨x, hx, px, bx⟩
  · rw [h1] at hr; cases hr
  rcases split_values (ω := ω') (fuel := fuel') l area h with hr | ⟨y, hy, py, by'⟩
  · rw [h2] at hr; cases hr
  rw [h1] at hx
  rw [h2] at hy
  simp only [Outcome.ok.injEq] at hx hy
  exact ⟨x, y, hx.1, hy.1, px, py, le_antisymm (bx y py) (by' x px)⟩

theorem tiles_sum {d : Direction} {b : Int} : ∀ {rs : List Rect} {a : Int}, TilesFrom d b a rs →
    a + (rs.map (extent d)).sum = b := by
  intro rs
  induction rs with
  | nil => intro a h; simpa [TilesFrom] using h
  | cons r rs ih =>
    intro a h
    have := ih h.2.2
    simp only [List.map_cons, List.sum_cons]
    omega

theorem eq_of_sums {j : Nat} : ∀ {as bs : List Int}, as.length = bs.length → as.sum = bs.sum →
    (∀ i, i ≠ j → as[i]? = bs[i]?) → as = bs := by
  intro as
  induction as generalizing j with
  | nil => intro bs hl _ _; exact (List.eq_nil_of_length_eq_zero hl.symm).symm
  | cons a as ih =>
    intro bs hl hs hi
    cases bs with
    | nil => simp at hl
    | cons b bs =>
      simp only [List.length_cons, Nat.add_right_cancel_iff] at hl
      simp only [List.sum_cons] at hs
      cases j with
      | zero =>
        have : as = bs := by
          apply List.ext_getElem? 
          intro i
          simpa using hi (i + 1) (by omega)
        subst this
        rw [show a = b by omega]
      | succ j =>
        have h0 : a = b := by simpa using hi 0 (by omega)
        subst h0
        rw [ih (j := j) hl (by omega) (fun i h => by simpa using hi (i + 1) (by omega))]

theorem tiles_unique {d : Direction} {inner : Rect} {b : Int} : ∀ {rs rs' : List Rect} {a : Int},
    TilesFrom d b a rs → TilesFrom d b a rs' → rs.map (extent d) = rs'.map (extent d) →
    (∀ r ∈ rs, Fits d inner r) → (∀ r ∈ rs', Fits d inner r) → rs = rs' := by
  intro rs
  induction rs with
  | nil =>
    intro rs' a _ _ he _ _
    cases rs' with
    | nil => rfl
    | cons r rs' => simp at he
  | cons r rs ih =>
    intro rs' a h h' he hf hf'
    cases rs' with
    | nil => simp at he
    | cons r' rs' =>
      simp only [List.map_cons, List.cons.injEq] at he
      have f := hf r (List.mem_cons_self ..)
      have f' := hf' r' (List.mem_cons_self ..)
      have hr : r = r' := by
        have e1 := h.1
        have e2 := h'.1
        have e3 := he.1
        unfold Fits at f f'
        obtain ⟨x, y, w, t⟩ := r
        obtain ⟨x', y', w', t'⟩ := r'
        cases d <;> simp only [lo, extent, Rect.mk.injEq] at * <;> omega
      subst hr
      rw [ih h.2.2 h'.2.2 he.2 (fun s hs => hf s (List.mem_cons_of_mem _ hs))
        (fun s hs => hf' s (List.mem_cons_of_mem _ hs))]

/-- **C81** for the usual case (provisos of C18): a legacy layout of lengths that fit and exactly one
fill gives the same segments for all orders of the maps. -/
theorem C81_one_fill_partial {ω ω' : Nat → Nat} {fuel fuel' : Nat} (l : Layout) (area : Rect)
    (hf : l.flex = .legacy) (h0 : gapOf l.spacing = 0) (hfew : Few l)
    {before after : List Int} {k : Int} (hk : k ≤ 90000)
    (hl : l.constraints = before.map .len ++ .fill k :: after.map .len)
    (hb : ∀ t ∈ before, 0 ≤ t) (ha : ∀ t ∈ after, 0 ≤ t)
    (hfit : before.sum + after.sum ≤ extent l.direction (area.inner l.padding))
    (hpos : 0 ≤ lo l.direction (area.inner l.padding))
    {segments spacers segments' spacers' : List Rect}
    (h1 : splitWithSpacers ω fuel l area = .ok segments spacers)
    (h2 : splitWithSpacers ω' fuel' l area = .ok segments' spacers') :
    segments = segments' := by
  rw [gapOf_eq] at h0
  have hn : 0 < l.constraints.length := by rw [hl]; simp
  have w0 : ∀ ts : List Int, ((ts.map Constraint.len).map fillWeight).sum = 0 := by
    intro ts
    induction ts with
    | nil => rfl
    | cons t ts ih => simpa [fillWeight] using ih
  have hw : (l.constraints.map fillWeight).sum ≤ 90000 := by
    rw [hl]
    simp only [List.map_append, List.map_cons, List.sum_append, List.sum_cons, w0, fillWeight]
    omega
  have hlen : ∀ ts : List Int, ((ts.map Constraint.len).map lenOf).sum = ts.sum := by
    intro ts
    induction ts with
    | nil => rfl
    | cons t ts ih => simp only [List.map_cons, List.sum_cons, ih, lenOf]
  have hfit' : (l.constraints.map lenOf).sum ≤ extent l.direction (area.inner l.padding) := by
    rw [hl]
    simp only [List.map_append, List.map_cons, List.sum_append, List.sum_cons, hlen, lenOf]
    omega
  have hlf : ∀ c ∈ l.constraints, (∃ t, c = .len t ∧ 0 ≤ t) ∨ ∃ k, c = .fill k := by
    intro c hc
    rw [hl] at hc
    rcases List.mem_append.1 hc with hc | hc
    · obtain ⟨t, ht, rfl⟩ := List.mem_map.1 hc
      exact Or.inl ⟨t, rfl, hb t ht⟩
    · rcases List.mem_cons.1 hc with rfl | hc
      · exact Or.inr ⟨k, rfl⟩
      · obtain ⟨t, ht, rfl⟩ := List.mem_map.1 hc
        exact Or.inl ⟨t, rfl, ha t ht⟩
  have hfill : (∃ k, Constraint.fill k ∈ l.constraints) ∨
      (l.constraints.map lenOf).sum = extent l.direction (area.inner l.padding) :=
    Or.inl ⟨k, by rw [hl]; simp⟩
  have key : ∀ {ω fuel segments spacers}, splitWithSpacers ω fuel l area = .ok segments spacers →
      segments.length = l.constraints.length ∧
      Tiles l.direction (area.inner l.padding) segments ∧
      (∀ r ∈ segments, Fits l.direction (area.inner l.padding) r) ∧
      ∀ (i : Nat) (t : Int), l.constraints[i]? = some (Constraint.len t) → (segments.map (extent l.direction))[i]? = some t := by
    intro ω fuel segments spacers h
    rcases C18_well_formed_partial ω fuel l area hfew with hr | ⟨a, b, hab, g1, _, g3⟩
    · rw [h] at hr; cases hr
    rcases C19_tiles_partial ω fuel l area hf h0 hn hfew (by omega) with hr | ⟨a', b', hab', g4⟩
    · rw [h] at hr; cases hr
    rcases C60_lengths_exact_partial ω fuel l area hf h0 hn hfew hw hlf hfit' hfill hpos
      with hr | ⟨a'', b'', hab'', g5⟩
    · rw [h] at hr; cases hr
    rw [h] at hab hab' hab''
    simp only [Outcome.ok.injEq] at hab hab' hab''
    rw [← hab.1] at g1 g3
    rw [← hab'.1] at g4
    rw [← hab''.1] at g5
    refine ⟨g1, g4, fun r hr => g3 r (Or.inl hr), ?_⟩
    intro i t hi
    obtain ⟨r, hr, he⟩ := g5 i t hi
    rw [List.getElem?_map, hr, Option.map_some, he]
  obtain ⟨a1, a2, a3, a4⟩ := key h1
  obtain ⟨b1, b2, b3, b4⟩ := key h2
  refine tiles_unique a2 b2 ?_ a3 b3
  have s1 := tiles_sum a2
  have s2 := tiles_sum b2
  refine eq_of_sums (j := before.length) (by simp [a1, b1]) (by omega) ?_
  intro i hi
  cases hc : l.constraints[i]? with
  | none =>
    have : l.constraints.length ≤ i := List.getElem?_eq_none_iff.1 hc
    rw [List.getElem?_eq_none (by rw [List.length_map]; omega),
      List.getElem?_eq_none (by rw [List.length_map]; omega)]
  | some c =>
    have : ∃ t, c = Constraint.len t := by
      rw [hl] at hc
      by_cases hlt : i < before.length
      · rw [List.getElem?_append_left (by simpa using hlt), List.getElem?_map] at hc
        cases hb : before[i]? with
        | none => rw [hb] at hc; simp at hc
        | some t => rw [hb] at hc; exact ⟨t, by simpa using hc.symm⟩
      · rw [List.getElem?_append_right (by simpa using hlt), List.length_map] at hc
        obtain ⟨m, hm⟩ : ∃ m, i - before.length = m + 1 := ⟨i - before.length - 1, by omega⟩
        rw [hm, List.getElem?_cons_succ, List.getElem?_map] at hc
        cases hb : after[m]? with
        | none => rw [hb] at hc; simp at hc
        | some t => rw [hb] at hc; exact ⟨t, by simpa using hc.symm⟩
    obtain ⟨t, rfl⟩ := this
    rw [a4 i t hc, b4 i t hc]

/-- A header of three rows, a body and a footer, in 24 rows: the hypotheses hold and the split
returns. -/
example : let l : Layout := ⟨.vertical, [.len 3, .fill 1, .len 1], Padding.none', .legacy, .space 0⟩
    l.constraints = [3].map .len ++ .fill 1 :: [1].map .len ∧
    ([3].sum + [1].sum : Int) ≤ extent l.direction ((⟨0, 0, 80, 24⟩ : Rect).inner l.padding) ∧
    ∃ spacers, splitWithSpacers (fun _ => 0) 100 l ⟨0, 0, 80, 24⟩ =
      .ok [⟨0, 0, 80, 3⟩, ⟨0, 3, 80, 20⟩, ⟨0, 23, 80, 1⟩] spacers := by
  refine ⟨rfl, by decide +kernel,
    [⟨0, 0, 80, 0⟩, ⟨0, 3, 80, 0⟩, ⟨0, 23, 80, 0⟩, ⟨0, 24, 80, 0⟩], ?_⟩
  rw [split_fast _ _ (by decide)]
  decide +kernel

end Bento
