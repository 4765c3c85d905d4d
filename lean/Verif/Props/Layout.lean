import Verif.Lemmas.Shares
import Verif.Props.Rounding

/-!
# Properties C18, C19, C60, C61: splitting an area

`Few` bounds what a layout asks for so that the symbols of the solver (a `uint8` counter) suffice; see
C22 and `Props/Wrapped.lean` for what happens beyond.
-/

namespace Bento

open Casso Layout

/-! ## C18 -/

/-- **C18** (bound on the number of constraints; the simplex loop may still be running after `fuel`
pivots). Whatever the order of the solver's maps, splitting does not panic, and when it returns there
is one segment per constraint, one more spacer than segments, and every one of them fits the padded
area. -/
theorem C18_well_formed_partial (ω : Nat → Nat) (fuel : Nat) (l : Layout) (area : Rect)
    (h : Few l) :
    splitWithSpacers ω fuel l area = .running ∨
    ∃ segments spacers, splitWithSpacers ω fuel l area = .ok segments spacers ∧
      segments.length = l.constraints.length ∧ spacers.length = l.constraints.length + 1 ∧
      ∀ r, r ∈ segments ∨ r ∈ spacers → Fits l.direction (area.inner l.padding) r := by
  rcases split_values (ω := ω) (fuel := fuel) l area h with h | ⟨x, h, hx, _⟩
  · exact Or.inl h
  · refine Or.inr ⟨_, _, h, ?_, ?_, ?_⟩
    · simp [changesToRects, segmentElements_eq]
    · simp [changesToRects, spacerElements_eq]
    · rintro r (hr | hr)
      · obtain ⟨e, he, rfl⟩ := List.mem_map.1 hr
        exact elementRect_fits l area hx (segmentElements_lt he)
      · obtain ⟨e, he, rfl⟩ := List.mem_map.1 hr
        exact elementRect_fits l area hx (spacerElements_lt he)

/-- The hypotheses are met by a header, a body and a footer. -/
example : let l : Layout := ⟨.vertical, [.len 3, .fill 1, .len 1], Padding.none', .legacy, .space 0⟩
    Few l := by decide

/-- They are met by fifteen columns of at most ten cells each — with sixteen the claim is false
(`C18_sixteen_columns_false`). -/
example : Few ⟨.horizontal, List.replicate 15 (.max 10), Padding.none', .legacy, .space 0⟩ ∧
    ¬ Few ⟨.horizontal, List.replicate 16 (.max 10), Padding.none', .legacy, .space 0⟩ := by decide

/-- They are met by sixteen rows of a line each and a body, and, whatever the constraints are, by
seven segments in any mode, nine segments except in the two modes with equal gaps, and ten in
`FlexLegacy`. -/
example : Few ⟨.vertical, .fill 1 :: List.replicate 16 (.len 1), Padding.none', .legacy, .space 0⟩ := by
  decide

example (l : Layout) (h : l.constraints.length ≤ 7 ∨ (l.flex ≠ .spaceAround ∧ l.flex ≠ .spaceBetween ∧
    l.constraints.length ≤ 9) ∨ (l.flex = .legacy ∧ l.constraints.length ≤ 10)) : Few l :=
  few_of_small h

/-! ## C19 -/

/-- **C19** (same provisos as C18). With legacy flex and zero spacing the segments tile the padded
area: the first starts at its start, each next one where the previous one ends, the last ends at its
end. -/
theorem C19_tiles_partial (ω : Nat → Nat) (fuel : Nat) (l : Layout) (area : Rect)
    (hf : l.flex = .legacy) (h0 : gapOf l.spacing = 0)
    (hn : 0 < l.constraints.length) (hfew : Few l)
    (hw : (l.constraints.map fillWeight).sum ≤ 1000000) :
    splitWithSpacers ω fuel l area = .running ∨
    ∃ segments spacers, splitWithSpacers ω fuel l area = .ok segments spacers ∧
      Tiles l.direction (area.inner l.padding) segments := by
  rw [gapOf_eq] at h0
  rcases split_values (ω := ω) (fuel := fuel) l area hfew
    with h | ⟨x, h, hx, hbest⟩
  · exact Or.inl h
  · refine Or.inr ⟨_, _, h, ?_⟩
    have hle : (((l.areaBounds (area.inner l.padding)).1 : ℚ) * multiplier)
        ≤ (((l.areaBounds (area.inner l.padding)).2 : ℚ) * multiplier) := by
      have h' : ((l.areaBounds (area.inner l.padding)).1 : ℚ)
          ≤ (l.areaBounds (area.inner l.padding)).2 := by exact_mod_cast inner_bounds l area
      exact mul_le_mul_of_nonneg_right h' (by norm_num [multiplier])
    have hg := no_gaps hf h0 hn (few_length hfew) hw hle hx hbest
    have hlast : toCell (x (2 * (0 + l.constraints.length)))
        = lo l.direction (area.inner l.padding) + extent l.direction (area.inner l.padding) := by
      have := hg l.constraints.length (by omega)
      rw [hx.last] at this
      rw [Nat.zero_add, ← this, toCell_int]
      unfold areaBounds Rect.right Rect.bottom
      cases l.direction <;> rfl
    have hfirst : toCell (x (2 * 0)) = lo l.direction (area.inner l.padding) := by
      rw [Nat.mul_zero, hx.first, toCell_int]
      unfold areaBounds
      cases l.direction <;> rfl
    have := tilesFrom_elements (d := l.direction) (inner := area.inner l.padding) (x := x)
      l.constraints.length 0 (fun i hi => by rw [Nat.zero_add]; exact hx.ordered i hi)
      (fun i hi => by rw [Nat.zero_add]; exact hg i hi) hlast
    rw [hfirst] at this
    unfold Tiles
    rw [segmentElements_eq, List.range_eq_range']
    exact this

example : let l : Layout := ⟨.vertical, [.len 3, .fill 1, .fill 2, .len 1], Padding.none', .legacy,
      .space 0⟩
    l.flex = .legacy ∧ gapOf l.spacing = 0 ∧ 0 < l.constraints.length ∧ Few l ∧
      (l.constraints.map fillWeight).sum ≤ 1000000 := by decide

/-! ## C60 and C61 -/

/-- **C60** (same provisos as C18). In a legacy layout of lengths and fills, where the lengths fit
into the area and some fill takes up the rest (or nothing is left), every `Len(t)` segment is exactly
`t` cells long, at non-negative coordinates. -/
theorem C60_lengths_exact_partial (ω : Nat → Nat) (fuel : Nat) (l : Layout) (area : Rect)
    (hf : l.flex = .legacy) (h0 : gapOf l.spacing = 0)
    (hn : 0 < l.constraints.length) (hfew : Few l)
    (hw : (l.constraints.map fillWeight).sum ≤ 90000)
    (hlf : ∀ c ∈ l.constraints, (∃ t, c = .len t ∧ 0 ≤ t) ∨ ∃ k, c = .fill k)
    (hfit : (l.constraints.map lenOf).sum ≤ extent l.direction (area.inner l.padding))
    (hfill : (∃ k, Constraint.fill k ∈ l.constraints) ∨
      (l.constraints.map lenOf).sum = extent l.direction (area.inner l.padding))
    (hpos : 0 ≤ lo l.direction (area.inner l.padding)) :
    splitWithSpacers ω fuel l area = .running ∨
    ∃ segments spacers, splitWithSpacers ω fuel l area = .ok segments spacers ∧
      ∀ (i : Nat) (t : Int), l.constraints[i]? = some (Constraint.len t) →
        ∃ r, segments[i]? = some r ∧ extent l.direction r = t := by
  rw [gapOf_eq] at h0
  rcases split_values (ω := ω) (fuel := fuel) l area hfew
    with h | ⟨x, h, hx, hbest⟩
  · exact Or.inl h
  · refine Or.inr ⟨_, _, h, ?_⟩
    have he : 0 ≤ extent l.direction (area.inner l.padding) := by
      have := inner_bounds l area
      rw [areaBounds_eq] at this
      simp only at this; omega
    obtain ⟨hs, _⟩ := exact_positions hf h0 hn (few_length hfew) hw
      (by intro c hc; rcases hlf c hc with ⟨t, rfl, ht⟩ | ⟨k, rfl⟩; exacts [ht, trivial])
      he hfit
      (by rcases hfill with ⟨k, hk⟩ | h; exacts [Or.inl ⟨_, hk, rfl⟩, Or.inr h]) hx hbest
    intro i t hi
    obtain ⟨hil, hic⟩ := List.getElem?_eq_some_iff.1 hi
    have hcon : con l i = .len t := by rw [con_eq hil, hic]
    have ht : 0 ≤ t := by
      rcases hlf _ (List.mem_of_getElem? hi) with ⟨t', e, ht⟩ | ⟨k, e⟩
      · cases e; exact ht
      · cases e
    have hsi := hs i hil
    rw [hcon] at hsi
    have hxp : 0 ≤ x (2 * i + 1) := by
      have := hx.low (2 * i + 1) (show (2 * i + 1 : Nat) < 2 * l.constraints.length + 2 by omega)
      rw [areaBounds_eq] at this
      refine le_trans (mul_nonneg ?_ (by norm_num [multiplier])) this
      exact_mod_cast hpos
    have hcell : toCell (x (2 * i + 2)) = toCell (x (2 * i + 1)) + t := by
      rw [hsi]; exact toCell_add hxp ht
    refine ⟨elementRect x (area.inner l.padding) l.direction ⟨2 * i + 1, 2 * i + 2⟩, ?_, ?_⟩
    · simp [changesToRects, segmentElements_eq, hil]
    · cases l.direction <;> simp only [elementRect, extent, hcell] <;> omega

example : let l : Layout := ⟨.vertical, [.len 3, .fill 1, .len 1], Padding.none', .legacy, .space 0⟩
    let area : Rect := ⟨0, 0, 80, 24⟩
    (l.constraints.map fillWeight).sum ≤ 90000 ∧
    (∀ c ∈ l.constraints, (∃ t, c = .len t ∧ 0 ≤ t) ∨ ∃ k, c = .fill k) ∧
    (l.constraints.map lenOf).sum ≤ extent l.direction (area.inner l.padding) ∧
    (∃ k, Constraint.fill k ∈ l.constraints) ∧ 0 ≤ lo l.direction (area.inner l.padding) := by
  refine ⟨by decide, ?_, by decide, ⟨1, by decide⟩, by decide⟩
  intro c hc
  simp only [List.mem_cons, List.not_mem_nil, or_false] at hc
  rcases hc with rfl | rfl | rfl
  · exact Or.inl ⟨3, rfl, by decide⟩
  · exact Or.inr ⟨1, rfl⟩
  · exact Or.inl ⟨1, rfl, by decide⟩

/-- **C61** (same provisos as C18). In a legacy layout of lengths and at least one fill, where the
lengths fit, every segment starts and ends within 0.505 cells of the exact position that results
from giving each length what it asks for and sharing the rest among the fills in proportion to
their weights. -/
theorem C61_fill_shares_partial (ω : Nat → Nat) (fuel : Nat) (l : Layout) (area : Rect)
    (hf : l.flex = .legacy) (h0 : gapOf l.spacing = 0)
    (hfew : Few l)
    (hw : (l.constraints.map fillWeight).sum ≤ 90000)
    (hlf : ∀ c ∈ l.constraints, (∃ t, c = .len t ∧ 0 ≤ t) ∨ ∃ k, c = .fill k)
    (hfit : (l.constraints.map lenOf).sum ≤ extent l.direction (area.inner l.padding))
    (hfill : ∃ k, Constraint.fill k ∈ l.constraints) :
    splitWithSpacers ω fuel l area = .running ∨
    ∃ segments spacers, splitWithSpacers ω fuel l area = .ok segments spacers ∧
      ∀ i r, segments[i]? = some r →
        |(lo l.direction r : ℚ) - (lo l.direction (area.inner l.padding) +
          idealStart l.constraints (extent l.direction (area.inner l.padding)) i)| ≤ 505 / 1000 ∧
        |((lo l.direction r + extent l.direction r : Int) : ℚ) -
          (lo l.direction (area.inner l.padding) +
          idealStart l.constraints (extent l.direction (area.inner l.padding)) (i + 1))|
            ≤ 505 / 1000 := by
  rw [gapOf_eq] at h0
  have hn : 0 < l.constraints.length := by
    obtain ⟨k, hk⟩ := hfill
    exact List.length_pos_of_mem hk
  rcases split_values (ω := ω) (fuel := fuel) l area hfew
    with h | ⟨x, h, hx, hbest⟩
  · exact Or.inl h
  · refine Or.inr ⟨_, _, h, ?_⟩
    have he : 0 ≤ extent l.direction (area.inner l.padding) := by
      have := inner_bounds l area
      rw [areaBounds_eq] at this
      simp only at this; omega
    obtain ⟨hs, hp⟩ := exact_positions hf h0 hn (few_length hfew) hw
      (by intro c hc; rcases hlf c hc with ⟨t, rfl, ht⟩ | ⟨k, rfl⟩; exacts [ht, trivial])
      he hfit (by obtain ⟨k, hk⟩ := hfill; exact Or.inl ⟨_, hk, rfl⟩) hx hbest
    intro i r hr
    have hil : i < l.constraints.length := by
      have := (List.getElem?_eq_some_iff.1 hr).1
      simpa [changesToRects, segmentElements_eq] using this
    have hre : r = elementRect x (area.inner l.padding) l.direction ⟨2 * i + 1, 2 * i + 2⟩ := by
      have : (changesToRects x (segmentElements l.constraints.length) (area.inner l.padding)
          l.direction)[i]? = some (elementRect x (area.inner l.padding) l.direction
            ⟨2 * i + 1, 2 * i + 2⟩) := by
        simp [changesToRects, segmentElements_eq, hil]
      rw [this] at hr; exact (Option.some.inj hr).symm
    have hm := toCell_mono (hx.ordered i hil)
    have e1 : lo l.direction r = toCell (x (2 * i + 1)) := by
      rw [hre]; cases l.direction <;> rfl
    have e2 : lo l.direction r + extent l.direction r = toCell (x (2 * i + 2)) := by
      rw [hre]; cases l.direction <;> simp only [elementRect, lo, extent] <;> omega
    have p1 := hp i (by omega)
    have p2 := hs i hil
    rw [p1] at p2
    have b1 := C23_edge_moves (x (2 * i + 1))
    have b2 := C23_edge_moves (x (2 * i + 2))
    rw [p1] at b1
    rw [p2] at b2
    rw [e2, e1, take_ideal l _ hil, p1, p2]
    simp only [multiplier] at b1 b2 ⊢
    constructor
    · convert b1 using 2; ring
    · convert b2 using 2; ring

/-- The hypotheses are met, and a 1:2 split of 20 free cells is what one expects. -/
example : let l : Layout := ⟨.vertical, [.len 3, .fill 1, .fill 2, .len 1], Padding.none', .legacy,
      .space 0⟩
    (∃ k, Constraint.fill k ∈ l.constraints) ∧
    idealStart l.constraints 25 1 = 3 ∧ idealStart l.constraints 25 2 = 10 ∧
    idealStart l.constraints 25 3 = 24 ∧ idealStart l.constraints 25 4 = 25 := by
  refine ⟨⟨1, by decide⟩, ?_⟩
  decide +kernel

/-! ## Too many segments -/

/-- Whatever was fetched, a variable reads as 0 or as its current value. -/
theorem changesMap_fetch (S : Solver) (v : Var) :
    changesMap S.fetchChanges.2 v = 0 ∨ changesMap S.fetchChanges.2 v = S.getValue v := by
  have hval : ∀ (vs : List Var) (S : Solver) v q, (v, q) ∈ S.collectChanges vs → q = S.getValue v := by
    intro vs
    induction vs with
    | nil => intro S v q h; simp [Solver.collectChanges] at h
    | cons u us ih =>
      intro S v q h
      unfold Solver.collectChanges at h
      split_ifs at h
      · rcases List.mem_cons.1 h with h | h
        · cases h; rfl
        · exact ih _ _ _ h
      · exact ih _ _ _ h
  have hall : ∀ u q, (u, q) ∈ S.fetchChanges.2 → q = 0 ∨ q = S.getValue u := by
    intro u q h
    unfold Solver.fetchChanges at h
    simp only [List.mem_append, List.mem_map] at h
    rcases h with ⟨_, _, h⟩ | h
    · cases h; exact Or.inl rfl
    · right
      have := hval _ _ _ _ h
      rw [this]
      split_ifs <;> rfl
  have gen : ∀ (l : List (Var × ℚ)) (m : Var → ℚ), (∀ u q, (u, q) ∈ l → q = 0 ∨ q = S.getValue u) →
      (m v = 0 ∨ m v = S.getValue v) →
      (l.foldl (fun m c => fun v => if v = c.1 then c.2 else m v) m v = 0 ∨
       l.foldl (fun m c => fun v => if v = c.1 then c.2 else m v) m v = S.getValue v) := by
    intro l
    induction l with
    | nil => intro m _ h; exact h
    | cons c l ih =>
      intro m h hm
      rw [List.foldl_cons]
      refine ih _ (fun u q hq => h u q (List.mem_cons_of_mem _ hq)) ?_
      by_cases hv : v = c.1
      · rw [if_pos hv, hv]; exact h c.1 c.2 List.mem_cons_self
      · rw [if_neg hv]; exact hm
  exact gen _ _ hall (Or.inl rfl)

/-- **C18 and C19 degenerate beyond the size of the solver's counter.** Of more than 257 segments, two
start at the same cell, whatever was asked for. -/
theorem C19_many_segments_false (ω : Nat → Nat) (fuel : Nat) (l : Layout) (area : Rect)
    (hn : 257 < l.constraints.length) {segments spacers : List Rect}
    (h : splitWithSpacers ω fuel l area = .ok segments spacers) :
    ∃ (i j : Nat) (r s : Rect), i < j ∧ segments[i]? = some r ∧ segments[j]? = some s ∧
      lo l.direction r = lo l.direction s := by
  unfold splitWithSpacers at h
  simp only [solverConstraints_eq] at h
  cases hS : Solver.new.addConstraints ω fuel
      (hardList l (area.inner l.padding) ++ softList l) with
  | error e => rw [hS] at h; cases e <;> simp at h
  | ok S =>
    rw [hS] at h
    simp only [Outcome.ok.injEq] at h
    obtain ⟨hseg, _⟩ := h
    obtain ⟨h1, _, h3⟩ := addConstraints_varSym _ (A := Solver.new) (by simp [Solver.new]) hS
    have hsome : ∀ v : Nat, v < 2 * l.constraints.length + 2 → (S.varSym v).isSome := by
      intro v hv
      refine h3 (Constr.variableRHS .ge required (Expr.ofVar v)
        (areaElement l.constraints.length).start) ?_ v 1 ?_ one_ne_zero
      · refine List.mem_append_left _ ?_
        unfold hardList
        refine List.mem_append_left _ (List.mem_append_right _ ?_)
        exact List.mem_flatMap.2 ⟨v, List.mem_range.2 hv, List.mem_cons_self⟩
      · simp [Constr.variableRHS, Expr.ofVar, Expr.subVariable]
    let f : Fin l.constraints.length → Option (Fin 256) := fun i =>
      if changesMap S.fetchChanges.2 (2 * i.val + 1) = 0 then none
      else (S.varSym (2 * i.val + 1)).map Sym.value
    obtain ⟨i, j, hne, hf⟩ := Fintype.exists_ne_map_eq_of_card_lt f (by simpa using hn)
    have hcell : changesMap S.fetchChanges.2 (2 * i.val + 1)
        = changesMap S.fetchChanges.2 (2 * j.val + 1) := by
      have hi2 := i.2
      have hj2 := j.2
      obtain ⟨s, hs⟩ := Option.isSome_iff_exists.1 (hsome (2 * i.val + 1) (by omega))
      obtain ⟨t, ht⟩ := Option.isSome_iff_exists.1 (hsome (2 * j.val + 1) (by omega))
      simp only [f] at hf
      by_cases hi0 : changesMap S.fetchChanges.2 (2 * i.val + 1) = 0
      · by_cases hj0 : changesMap S.fetchChanges.2 (2 * j.val + 1) = 0
        · rw [hi0, hj0]
        · rw [if_pos hi0, if_neg hj0, ht] at hf; cases hf
      · by_cases hj0 : changesMap S.fetchChanges.2 (2 * j.val + 1) = 0
        · rw [if_neg hi0, if_pos hj0, hs] at hf; cases hf
        · rw [if_neg hi0, if_neg hj0, hs, ht] at hf
          have hst : s = t := by
            apply Casso.Sym.ext
            · simpa using hf
            · rw [h1 _ _ hs, h1 _ _ ht]
          rcases changesMap_fetch S (2 * i.val + 1) with hq | hq
          · exact absurd hq hi0
          · rcases changesMap_fetch S (2 * j.val + 1) with hq' | hq'
            · exact absurd hq' hj0
            · rw [hq, hq']
              unfold Solver.getValue
              rw [hs, ht, hst]
    have hget : ∀ k : Nat, k < l.constraints.length → segments[k]? = some (elementRect
        (changesMap S.fetchChanges.2) (area.inner l.padding) l.direction ⟨2 * k + 1, 2 * k + 2⟩) := by
      intro k hk
      rw [← hseg]
      simp [changesToRects, segmentElements_eq, hk]
    have hlo : lo l.direction (elementRect (changesMap S.fetchChanges.2) (area.inner l.padding)
          l.direction ⟨2 * i.val + 1, 2 * i.val + 2⟩)
        = lo l.direction (elementRect (changesMap S.fetchChanges.2) (area.inner l.padding)
          l.direction ⟨2 * j.val + 1, 2 * j.val + 2⟩) := by
      cases l.direction <;> simp only [elementRect, lo, hcell]
    rcases lt_or_gt_of_ne (fun h => hne (Fin.ext h) : i.val ≠ j.val) with hij | hij
    · exact ⟨i, j, _, _, hij, hget i i.2, hget j j.2, hlo⟩
    · exact ⟨j, i, _, _, hij, hget j j.2, hget i i.2, hlo.symm⟩

/-- **C60 fails beyond the size of the solver's counter.** Splitting `n > 257` rows into `n` rows of
one cell each never works: the result is not a list of one-cell rows that tile the area. -/
theorem C60_many_segments_false (ω : Nat → Nat) (fuel n : Nat) (hn : 257 < n)
    {segments spacers : List Rect}
    (h : splitWithSpacers ω fuel
      ⟨.vertical, List.replicate n (.len 1), Padding.none', .legacy, .space 0⟩
      ⟨0, 0, 80, n⟩ = .ok segments spacers) :
    ¬ ((∀ r ∈ segments, extent .vertical r = 1) ∧ Tiles .vertical ⟨0, 0, 80, n⟩ segments) := by
  rintro ⟨h1, h2⟩
  obtain ⟨i, j, r, s, hij, hi, hj, he⟩ := C19_many_segments_false ω fuel _ _ (by simpa using hn) h
  have key : ∀ (rs : List Rect) (a b : Int), (∀ r ∈ rs, extent .vertical r = 1) →
      TilesFrom .vertical b a rs → ∀ (k : Nat) r, rs[k]? = some r → lo .vertical r = a + k := by
    intro rs
    induction rs with
    | nil => intro a b _ _ k r hk; simp at hk
    | cons q rs ih =>
      intro a b hx ht k r hk
      obtain ⟨t1, _, t3⟩ := ht
      cases k with
      | zero =>
        simp only [List.getElem?_cons_zero, Option.some.injEq] at hk
        rw [← hk, t1]; simp
      | succ k =>
        rw [List.getElem?_cons_succ] at hk
        have := ih _ _ (fun r hr => hx r (List.mem_cons_of_mem _ hr)) t3 k r hk
        rw [this, hx q List.mem_cons_self]; push_cast; ring
  have e1 := key _ _ _ h1 h2 i r hi
  have e2 := key _ _ _ h1 h2 j s hj
  simp only at he
  rw [e1, e2] at he
  omega

end Bento
