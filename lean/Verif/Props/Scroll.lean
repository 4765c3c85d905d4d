import Verif.Spec.Settings
import Verif.Spec.Scroll
import Verif.Lemmas.TextRow
import Verif.Props.Buffer
import Verif.Props.Geometry

/-!
# Scrollbars
-/

namespace Bento

open Scroll
open ListWidget (wrap64)

/-! ### C44: the parts of the bar -/

theorem Scroll.trackLen_nonneg (u : Uniseg) (s : Scroll) (area : Rect) : 0 ≤ s.trackLen u area := by
  unfold trackLen; exact Int.le_max_left _ _

/-- The three parts add up to the track, and the thumb has at least one cell — whatever the rounding. -/
theorem C44_parts_sum (rd : Int → Int → Int) (u : Uniseg) (s : Scroll) (area : Rect) (state : State)
    (ht : 1 ≤ s.trackLen u area) :
    ∃ start thumb rest : Int, s.partLens rd u area state = (start, thumb, rest) ∧
      start + thumb + rest = s.trackLen u area ∧ 0 ≤ start ∧ 1 ≤ thumb ∧ 0 ≤ rest := by
  unfold partLens
  simp only
  generalize s.trackLen u area = t at *
  generalize rd _ _ = a
  generalize rd _ _ = c
  exact ⟨_, _, _, rfl, by omega, by omega, by omega, by omega⟩

/-- The lengths are so small that float64 is exact. -/
def Scroll.Sized (u : Uniseg) (s : Scroll) (area : Rect) (state : State) : Prop :=
  1 ≤ s.trackLen u area ∧ 0 < s.viewportLen area state ∧ 1 ≤ state.contentLen ∧
    (state.contentLen + s.viewportLen area state) * s.trackLen u area ≤ 2 ^ 53

/-- The parts, with the wrap-around gone. -/
theorem Scroll.partLens_sized (rd : Int → Int → Int) (u : Uniseg) (s : Scroll) (area : Rect) (state : State)
    (h : s.Sized u area state) :
    ∃ p m t : Int, t = s.trackLen u area ∧ m = state.contentLen - 1 + s.viewportLen area state ∧
      p = max 0 (min (state.contentLen - 1) state.position) ∧
      0 < m ∧ m ≤ 2 ^ 53 ∧ 0 ≤ p * t ∧ p * t ≤ (p + s.viewportLen area state) * t ∧
      (p + s.viewportLen area state) * t ≤ m * t ∧ m * t ≤ 2 ^ 53 ∧
      s.partLens rd u area state =
        (max 0 (min (t - 1) (rd (p * t) m)),
          max 1 (max 0 (max 0 (min t (rd ((p + s.viewportLen area state) * t) m)) - max 0 (min (t - 1) (rd (p * t) m)))),
          max 0 (t - max 0 (min (t - 1) (rd (p * t) m)) -
            max 1 (max 0 (max 0 (min t (rd ((p + s.viewportLen area state) * t) m)) -
              max 0 (min (t - 1) (rd (p * t) m)))))) := by
  obtain ⟨h1, h2, h3, h4⟩ := h
  unfold partLens
  simp only
  generalize s.trackLen u area = t at *
  generalize s.viewportLen area state = v at *
  have hmt : (state.contentLen - 1 + v) * t ≤ (state.contentLen + v) * t :=
    Int.mul_le_mul_of_nonneg_right (by omega) (by omega)
  have hct : (state.contentLen + v) * 1 ≤ (state.contentLen + v) * t :=
    Int.mul_le_mul_of_nonneg_left (by omega) (by omega)
  have e1 : max 0 (wrap64 (state.contentLen - 1)) = state.contentLen - 1 := by
    unfold wrap64; omega
  rw [e1]
  generalize hp : max 0 (min (state.contentLen - 1) state.position) = p
  have hp0 : 0 ≤ p := by omega
  have hpm : p + v ≤ state.contentLen - 1 + v := by omega
  have hpt0 : 0 ≤ p * t := Int.mul_nonneg hp0 (by omega)
  have hpv : p * t ≤ (p + v) * t := Int.mul_le_mul_of_nonneg_right (by omega) (by omega)
  have hpm' : (p + v) * t ≤ (state.contentLen - 1 + v) * t := Int.mul_le_mul_of_nonneg_right hpm (by omega)
  have e2 : wrap64 (state.contentLen - 1 + v) = state.contentLen - 1 + v := by unfold wrap64; omega
  have e3 : wrap64 (p + v) = p + v := by unfold wrap64; omega
  have e4 : wrap64 (p * t) = p * t := by unfold wrap64; omega
  have e5 : wrap64 ((p + v) * t) = (p + v) * t := by unfold wrap64; omega
  rw [e2, e3, e4, e5]
  exact ⟨p, state.contentLen - 1 + v, t, rfl, rfl, hp.symm ▸ rfl, by omega, by omega, hpt0, hpv, hpm', by omega, rfl⟩

/-- At the first position the thumb touches the start of the track. -/
theorem C44_first {rd : Int → Int → Int} (hr : Rounds rd) (u : Uniseg) (s : Scroll) (area : Rect) (state : State)
    (h : s.Sized u area state) (hpos : state.position ≤ 0) : (s.partLens rd u area state).1 = 0 := by
  obtain ⟨p, m, t, ht, hm, hp, g1, g2, g3, g4, g5, g6, e⟩ := s.partLens_sized rd u area state h
  rw [e]
  have hp0 : p = 0 := by have := h.2.2.1; omega
  have := hr.exact 0 m (by omega) (by omega) g1 g2
  rw [Int.zero_mul] at this
  simp only [hp0, Int.zero_mul, this]
  have := h.1
  omega

/-- At the last position it touches the end. -/
theorem C44_last {rd : Int → Int → Int} (hr : Rounds rd) (u : Uniseg) (s : Scroll) (area : Rect) (state : State)
    (h : s.Sized u area state) (hpos : state.contentLen - 1 ≤ state.position) :
    (s.partLens rd u area state).1 + (s.partLens rd u area state).2.1 = s.trackLen u area ∧
      (s.partLens rd u area state).2.2 = 0 := by
  obtain ⟨p, m, t, ht, hm, hp, g1, g2, g3, g4, g5, g6, e⟩ := s.partLens_sized rd u area state h
  have hpm : p + s.viewportLen area state = m := by have := h.2.2.1; omega
  have := hr.exact t m (by have := h.1; omega) (by rw [Int.mul_comm]; omega) g1 g2
  rw [e, hpm, ← ht]
  rw [Int.mul_comm] at this
  rw [this]
  have := h.1
  simp only
  omega

/-- The thumb never moves backwards when the position grows. -/
theorem C44_monotone {rd : Int → Int → Int} (hr : Rounds rd) (u : Uniseg) (s : Scroll) (area : Rect)
    (state : State) (position : Int) (h : s.Sized u area state) (hpos : state.position ≤ position) :
    (s.partLens rd u area state).1 ≤ (s.partLens rd u area (state.setPosition position)).1 ∧
      (s.partLens rd u area state).1 + (s.partLens rd u area state).2.1 ≤
        (s.partLens rd u area (state.setPosition position)).1 +
          (s.partLens rd u area (state.setPosition position)).2.1 := by
  have h' : s.Sized u area (state.setPosition position) := h
  obtain ⟨p, m, t, ht, hm, hp, g1, g2, g3, g4, g5, g6, e⟩ := s.partLens_sized rd u area state h
  obtain ⟨p', m', t', ht', hm', hp', g1', g2', g3', g4', g5', g6', e'⟩ :=
    s.partLens_sized rd u area (state.setPosition position) h'
  have hv : s.viewportLen area (state.setPosition position) = s.viewportLen area state := rfl
  have hc : (state.setPosition position).contentLen = state.contentLen := rfl
  have hpp : (state.setPosition position).position = position := rfl
  rw [hv] at hm' e' g4' g5'
  rw [hc] at hm' hp'
  rw [hpp] at hp'
  have hmm : m' = m := by omega
  have htt : t' = t := by omega
  subst hmm
  subst htt
  have hple : p ≤ p' := by omega
  have t0 : 0 ≤ t' := by have := h.1; omega
  have m1 := hr.mono (p * t') (p' * t') m' g3 (Int.mul_le_mul_of_nonneg_right hple t0) (by omega) g1 g2
  have m2 := hr.mono ((p + s.viewportLen area state) * t') ((p' + s.viewportLen area state) * t') m' (by omega)
    (Int.mul_le_mul_of_nonneg_right (by omega) t0) (by omega) g1 g2
  rw [e, e']
  simp only
  constructor <;> omega

/-- Rounding to the nearest integer is as assumed. -/
theorem Scroll.nearest_rounds : Rounds nearest := by
  constructor
  · intro a a' b _ h _ hb _
    unfold nearest
    exact Int.ediv_le_ediv (by omega) (by omega)
  · intro k b _ _ hb _
    unfold nearest
    rw [show 2 * (k * b) + b = b + k * (2 * b) by
      rw [Int.add_comm, Int.mul_left_comm]]
    rw [Int.add_mul_ediv_right _ _ (by omega), Int.ediv_eq_zero_of_lt (by omega) (by omega)]
    omega

/-- A bar of ten cells over a hundred lines, of which twenty are visible. -/
example : (new .verticalRight).Sized Uniseg.simple ⟨0, 0, 20, 10⟩ ⟨100, 50, 20⟩ ∧
    (new .verticalRight).partLens nearest Uniseg.simple ⟨0, 0, 20, 10⟩ ⟨100, 50, 20⟩ = (3, 2, 3) := by
  unfold Sized
  decide +kernel

/-! ### C45: room for the bar -/

theorem Rect.inner_of {r : Rect} {p : Padding} (hw : p.right + p.left ≤ r.width) (hh : p.top + p.bottom ≤ r.height) :
    r.inner p = ⟨r.x + p.left, r.y + p.top, r.width - (p.right + p.left), r.height - (p.top + p.bottom)⟩ := by
  unfold Rect.inner
  simp only
  rw [if_neg (by omega)]
  simp only [Rect.mk.injEq, true_and]
  omega

theorem Scroll.columns_last {area : Rect} (hw : 1 ≤ area.width) :
    area.columns.getLast? = some ⟨area.x + area.width - 1, area.y, 1, area.height⟩ := by
  rw [C02_columns_eq]
  obtain ⟨n, hn⟩ : ∃ n : Nat, area.width.toNat = n + 1 := ⟨area.width.toNat - 1, by omega⟩
  rw [hn, List.range_succ, List.map_append, List.map_cons, List.map_nil, List.getLast?_concat]
  congr 2
  omega

theorem Scroll.columns_first {area : Rect} (hw : 1 ≤ area.width) :
    area.columns.head? = some ⟨area.x, area.y, 1, area.height⟩ := by
  rw [C02_columns_eq]
  obtain ⟨n, hn⟩ : ∃ n : Nat, area.width.toNat = n + 1 := ⟨area.width.toNat - 1, by omega⟩
  rw [hn, List.range_succ_eq_map, List.map_cons, List.head?_cons]
  congr 2
  omega

theorem Scroll.rows_last {area : Rect} (hh : 1 ≤ area.height) :
    area.rows.getLast? = some ⟨area.x, area.y + area.height - 1, area.width, 1⟩ := by
  rw [C02_rows_eq]
  obtain ⟨n, hn⟩ : ∃ n : Nat, area.height.toNat = n + 1 := ⟨area.height.toNat - 1, by omega⟩
  rw [hn, List.range_succ, List.map_append, List.map_cons, List.map_nil, List.getLast?_concat]
  congr 2
  omega

theorem Scroll.rows_first {area : Rect} (hh : 1 ≤ area.height) :
    area.rows.head? = some ⟨area.x, area.y, area.width, 1⟩ := by
  rw [C02_rows_eq]
  obtain ⟨n, hn⟩ : ∃ n : Nat, area.height.toNat = n + 1 := ⟨area.height.toNat - 1, by omega⟩
  rw [hn, List.range_succ_eq_map, List.map_cons, List.head?_cons]
  congr 2
  omega

/-- **C45 (partial).** The vertical bars are on the side their orientation names; for a bar at the right,
`Inner` and the bar are disjoint and together the area. Missing: the other three orientations, for which it
is false. -/
theorem C45_vertical_partial (s : Scroll) (hs : s.orientation.isVertical = true) (area : Rect)
    (hw : 1 ≤ area.width) : s.scrollbarArea area = some (s.orientation.strip area) := by
  unfold scrollbarArea
  cases ho : s.orientation with
  | verticalRight => exact columns_last hw
  | verticalLeft => exact columns_first hw
  | horizontalBottom => rw [ho] at hs; cases hs
  | horizontalTop => rw [ho] at hs; cases hs

theorem C45_right_partial (s : Scroll) (hs : s.orientation = .verticalRight) (area : Rect) (hw : 0 ≤ area.width)
    (hh : 0 ≤ area.height) (q : Position) (hq : area.contains q = true) :
    ∃ bar, s.scrollbarArea area = some bar ∧
      ((bar.contains q = true ∧ (s.inner area).contains q = false) ∨
        (bar.contains q = false ∧ (s.inner area).contains q = true)) := by
  rw [Rect.contains_iff] at hq
  unfold Rect.Mem at hq
  have hw1 : 1 ≤ area.width := by omega
  have hbar : s.scrollbarArea area = some ⟨area.x + area.width - 1, area.y, 1, area.height⟩ := by
    unfold scrollbarArea
    rw [hs]
    exact columns_last hw1
  refine ⟨_, hbar, ?_⟩
  have hin : s.inner area = ⟨area.x, area.y, area.width - 1, area.height⟩ := by
    have e : s.inner area = area.inner ⟨0, 1, 0, 0⟩ := by
      unfold inner
      rw [hbar, hs]
      rfl
    rw [e, Rect.inner_of (by simp only; omega) (by simp only; omega)]
    simp only [Rect.mk.injEq]
    omega
  rw [hin, ← Bool.not_eq_true, ← Bool.not_eq_true, Rect.contains_iff, Rect.contains_iff]
  unfold Rect.Mem
  simp only
  omega

theorem C45_inside_partial (s : Scroll) (hs : s.orientation = .verticalRight) (area : Rect) (hw : 1 ≤ area.width)
    (hh : 0 ≤ area.height) (q : Position)
    (hq : (s.inner area).contains q = true ∨ ∃ bar, s.scrollbarArea area = some bar ∧ bar.contains q = true) :
    area.contains q = true := by
  have hbar : s.scrollbarArea area = some ⟨area.x + area.width - 1, area.y, 1, area.height⟩ := by
    unfold scrollbarArea
    rw [hs]
    exact columns_last hw
  rw [Rect.contains_iff]
  unfold Rect.Mem
  rcases hq with hq | ⟨bar, hb, hq⟩
  · rw [Rect.contains_iff] at hq
    have e : s.inner area = area.inner ⟨0, 1, 0, 0⟩ := by
      unfold inner
      rw [hbar, hs]
      rfl
    rw [e, Rect.inner_of (by simp only; omega) (by simp only; omega)] at hq
    unfold Rect.Mem at hq
    simp only at hq
    omega
  · rw [hbar] at hb
    simp only [Option.some.injEq] at hb
    subst hb
    rw [Rect.contains_iff] at hq
    unfold Rect.Mem at hq
    simp only at hq
    omega

/-- **C45 (negation).** A bar at the left overlaps `Inner`, in every area of at least two rows. -/
theorem C45_left_false (s : Scroll) (hs : s.orientation = .verticalLeft) (area : Rect) (hw : 1 ≤ area.width)
    (hh : 2 ≤ area.height) :
    ∃ (bar : Rect) (q : Position), s.scrollbarArea area = some bar ∧ bar.contains q = true ∧
      (s.inner area).contains q = true := by
  have hbar : s.scrollbarArea area = some ⟨area.x, area.y, 1, area.height⟩ := by
    unfold scrollbarArea
    rw [hs]
    exact columns_first hw
  refine ⟨_, ⟨area.x, area.y⟩, hbar, ?_, ?_⟩
  · rw [Rect.contains_iff]; unfold Rect.Mem; simp only; omega
  · rw [Rect.contains_iff]
    have e : s.inner area = area.inner ⟨0, 0, 1, 0⟩ := by
      unfold inner
      rw [hbar, hs]
      rfl
    rw [e, Rect.inner_of (by simp only; omega) (by simp only; omega)]
    unfold Rect.Mem
    simp only
    omega

/-- **C45 (negation).** The horizontal bars are on the side opposite to the one their orientation names, and
overlap `Inner`, in every area of at least two rows. -/
theorem C45_horizontal_false (s : Scroll) (hs : s.orientation.isVertical = false) (area : Rect) (hw : 1 ≤ area.width)
    (hh : 2 ≤ area.height) :
    ∃ (bar : Rect) (q : Position), s.scrollbarArea area = some bar ∧ bar ≠ s.orientation.strip area ∧
      bar.contains q = true ∧ (s.inner area).contains q = true := by
  cases ho : s.orientation with
  | verticalRight => rw [ho] at hs; cases hs
  | verticalLeft => rw [ho] at hs; cases hs
  | horizontalBottom =>
    have hbar : s.scrollbarArea area = some ⟨area.x, area.y, area.width, 1⟩ := by
      unfold scrollbarArea
      rw [ho]
      exact rows_first (by omega)
    refine ⟨_, ⟨area.x, area.y⟩, hbar, ?_, ?_, ?_⟩
    · unfold Orientation.strip
      simp only [ne_eq, Rect.mk.injEq, not_and]
      omega
    · rw [Rect.contains_iff]; unfold Rect.Mem; simp only; omega
    · rw [Rect.contains_iff]
      have e : s.inner area = area.inner ⟨0, 0, 1, 0⟩ := by
        unfold inner
        rw [hbar, ho]
        rfl
      rw [e, Rect.inner_of (by simp only; omega) (by simp only; omega)]
      unfold Rect.Mem
      simp only
      omega
  | horizontalTop =>
    have hbar : s.scrollbarArea area = some ⟨area.x, area.y + area.height - 1, area.width, 1⟩ := by
      unfold scrollbarArea
      rw [ho]
      exact rows_last (by omega)
    refine ⟨_, ⟨area.x, area.y + area.height - 1⟩, hbar, ?_, ?_, ?_⟩
    · unfold Orientation.strip
      simp only [ne_eq, Rect.mk.injEq, not_and]
      omega
    · rw [Rect.contains_iff]; unfold Rect.Mem; simp only; omega
    · rw [Rect.contains_iff]
      have e : s.inner area = area.inner ⟨1, 0, 0, 0⟩ := by
        unfold inner
        rw [hbar, ho]
        rfl
      rw [e, Rect.inner_of (by simp only; omega) (by simp only; omega)]
      unfold Rect.Mem
      simp only
      omega

example : (new .verticalRight).orientation = .verticalRight ∧ (⟨3, 2, 10, 5⟩ : Rect).contains ⟨12, 4⟩ = true := by
  decide

/-! ### C46: the position -/

/-- The position stays within the content under every sequence of operations. -/
theorem C46_in_range (n : Int) (hn : 1 ≤ n) (hmax : n ≤ 2 ^ 62) (ops : List Op) :
    let s := ops.foldl (fun s op => op.run s) (State.new n)
    0 ≤ s.position ∧ s.position ≤ n - 1 ∧ s.contentLen = n := by
  have key : ∀ (ops : List Op) (s : State), 0 ≤ s.position → s.position ≤ n - 1 → s.contentLen = n →
      0 ≤ (ops.foldl (fun s op => op.run s) s).position ∧ (ops.foldl (fun s op => op.run s) s).position ≤ n - 1 ∧
        (ops.foldl (fun s op => op.run s) s).contentLen = n := by
    intro ops
    induction ops with
    | nil => exact fun s h1 h2 h3 => ⟨h1, h2, h3⟩
    | cons op ops ih =>
      intro s h1 h2 h3
      rw [List.foldl_cons]
      have hnext : 0 ≤ s.next.position ∧ s.next.position ≤ n - 1 := by
        unfold State.next wrap64; simp only [h3]; omega
      have hprev : 0 ≤ s.prev.position ∧ s.prev.position ≤ n - 1 := by
        unfold State.prev wrap64; simp only; omega
      have hlast : 0 ≤ s.last.position ∧ s.last.position ≤ n - 1 := by
        unfold State.last wrap64; simp only [h3]; omega
      cases op with
      | next => exact ih s.next hnext.1 hnext.2 h3
      | prev => exact ih s.prev hprev.1 hprev.2 h3
      | first => exact ih s.first (by simp [State.first]) (by simp [State.first]; omega) h3
      | last => exact ih s.last hlast.1 hlast.2 h3
      | scroll forward =>
        cases forward with
        | true => exact ih s.next hnext.1 hnext.2 h3
        | false => exact ih s.prev hprev.1 hprev.2 h3
  exact key ops (State.new n) (by simp [State.new]) (by simp [State.new]; omega) rfl

/-- `First` and `Last` go to the ends, and `Next` and `Prev` move by one and undo each other away from the
ends, where they do nothing. -/
theorem C46_moves (s : State) (h : 0 ≤ s.position) (h' : s.position ≤ s.contentLen - 1)
    (hmax : s.contentLen ≤ 2 ^ 62) :
    s.first.position = 0 ∧ s.last.position = s.contentLen - 1 ∧
    s.next.position = min (s.position + 1) (s.contentLen - 1) ∧ s.prev.position = max 0 (s.position - 1) ∧
    (s.position < s.contentLen - 1 → s.next.prev = s) ∧ (0 < s.position → s.prev.next = s) ∧
    s.scroll true = s.next ∧ s.scroll false = s.prev := by
  obtain ⟨c, p, v⟩ := s
  simp only at h h' hmax
  unfold State.first State.last State.next State.prev State.scroll wrap64
  simp only [State.mk.injEq, true_and, and_true]
  refine ⟨by omega, by omega, by omega, by omega, by omega, ?_⟩
  constructor <;> rfl

example : ((List.replicate 7 Op.next ++ [Op.prev]).foldl (fun s (op : Op) => op.run s) (State.new 5)).position = 3 := by
  decide +kernel

/-- What a state is after any calls: the content it was made for, the position the calls lead to one after the
other, and the last viewport that was set. -/
theorem C46_session (n : Int) (hn : 0 ≤ n) (hmax : n ≤ 2 ^ 62) (calls : List Call) (hc : ∀ c ∈ calls, c.Small) :
    calls.foldl (fun s c => c.run s) (State.new n) =
      ⟨n, calls.foldl (fun p c => c.lead n p) 0, lastOf Call.viewport? 0 calls⟩ := by
  have key : ∀ (calls : List Call) (p v : Int), (∀ c ∈ calls, c.Small) → -2 ^ 62 ≤ p → p ≤ 2 ^ 62 →
      calls.foldl (fun s c => c.run s) (⟨n, p, v⟩ : State) =
        ⟨n, calls.foldl (fun p c => c.lead n p) p, lastOf Call.viewport? v calls⟩ := by
    intro calls
    induction calls with
    | nil => exact fun p v _ _ _ => rfl
    | cons c t ih =>
      intro p v hs h1 h2
      have hrest : ∀ c ∈ t, c.Small := fun c hc => hs c (List.mem_cons_of_mem _ hc)
      rw [List.foldl_cons, List.foldl_cons]
      have hrun : Call.run c ⟨n, p, v⟩ = ⟨n, c.lead n p, (c.viewport?).getD v⟩ ∧
          -2 ^ 62 ≤ c.lead n p ∧ c.lead n p ≤ 2 ^ 62 := by
        have hnext : (⟨n, p, v⟩ : State).next =
              ⟨n, if p + 1 < n then p + 1 else if n = 0 then min (p + 1) 0 else n - 1, v⟩ ∧
            -2 ^ 62 ≤ (if p + 1 < n then p + 1 else if n = 0 then min (p + 1) 0 else n - 1) ∧
            (if p + 1 < n then p + 1 else if n = 0 then min (p + 1) 0 else n - 1) ≤ 2 ^ 62 := by
          unfold State.next wrap64
          simp only [State.mk.injEq, true_and, and_true]
          refine ⟨?_, ?_, ?_⟩ <;> split_ifs <;> omega
        have hprev : (⟨n, p, v⟩ : State).prev = ⟨n, if 0 < p then p - 1 else 0, v⟩ ∧
            -2 ^ 62 ≤ (if 0 < p then p - 1 else 0) ∧ (if 0 < p then p - 1 else 0) ≤ 2 ^ 62 := by
          unfold State.prev wrap64
          simp only [State.mk.injEq, true_and, and_true]
          refine ⟨?_, ?_, ?_⟩ <;> split_ifs <;> omega
        cases c with
        | move op =>
          cases op with
          | next => exact hnext
          | prev => exact hprev
          | first => exact ⟨rfl, by simp only [Call.lead]; decide, by simp [Call.lead]⟩
          | last =>
            show (⟨n, p, v⟩ : State).last = ⟨n, if n = 0 then 0 else n - 1, v⟩ ∧
              -2 ^ 62 ≤ (if n = 0 then 0 else n - 1) ∧ (if n = 0 then 0 else n - 1) ≤ 2 ^ 62
            unfold State.last wrap64
            simp only [State.mk.injEq, true_and, and_true]
            omega
          | scroll forward =>
            cases forward with
            | true => exact hnext
            | false => exact hprev
        | position q =>
          have := hs (.position q) (List.mem_cons_self)
          exact ⟨rfl, this.1, this.2⟩
        | viewport w => exact ⟨rfl, h1, h2⟩
      rw [hrun.1, ih _ _ hrest hrun.2.1 hrun.2.2]
      congr 1
      unfold lastOf
      rw [List.filterMap_cons]
      cases hv : c.viewport? with
      | none => rfl
      | some w =>
        simp only [Option.getD_some]
        rw [List.getLast?_cons]
        rfl
  exact key calls 0 0 hc (by omega) (by omega)

/-- Moves, a position beyond the end, and two viewports. -/
example : [Call.viewport 4, .move .next, .position 9, .move .next, .move .prev, .viewport 3].foldl
    (fun s (c : Call) => c.run s) (State.new 5) = ⟨5, 3, 3⟩ := by
  decide +kernel

/-! ### C73: the drawn bar -/

/-- Writing a one-cell symbol changes that cell only. -/
theorem Scroll.setString_one {u : Uniseg} {b : Buffer} (wf : b.WF) {q : Position} {v : String} (style : Style)
    (hv : OneCell u v) (hq : b.area.contains q = true) :
    ∃ b' : Buffer, b.setString u q.x q.y v style = some b' ∧ b'.area = b.area ∧ b'.WF ∧
      b'.cellAt q = (b.cellAt q).map (fun c => (c.setSymbol v).setStyle style) ∧
      ∀ q', q' ≠ q → b'.cellAt q' = b.cellAt q' := by
  have hm : u.measured v = [(v, 1)] := by
    unfold Uniseg.measured
    rw [hv.1, List.map_cons, List.map_nil, hv.2]
  obtain ⟨b', e, a, wf', c⟩ := C09_setStringN_partial u b wf q.x q.y v Buffer.maxInt style hq (by decide)
    (by rw [hm]; intro g hg; simp only [List.mem_singleton] at hg; exact Nat.le_of_eq (by rw [hg]))
    (noStraddle_of_width_one _ (by rw [hm]; intro g hg; simp only [List.mem_singleton] at hg; rw [hg]) _)
  rw [hm] at c
  have hb : 1 ≤ budget b q.x Buffer.maxInt := by
    rw [Rect.contains_iff] at hq
    unfold Rect.Mem at hq
    unfold budget Rect.right Buffer.maxInt
    omega
  refine ⟨b', by unfold Buffer.setString; rw [e]; rfl, a, wf', ?_, ?_⟩
  · rw [c, if_pos ⟨rfl, by omega, by omega⟩]
    congr 1
    funext c
    unfold layoutCell
    rw [if_pos (by omega)]
  · intro q' hne
    rw [c]
    split
    · rename_i h
      have hx : q'.x ≠ q.x := by
        intro hx
        exact hne (Position.ext hx h.1)
      have : layoutCell style [(v, 1)] (q'.x - q.x) = id := by
        funext c
        unfold layoutCell
        rw [if_neg (by omega), if_neg (by omega)]
        rfl
      rw [this]
      simp
    · rfl

/-- The cell as a part of the bar leaves it. -/
def Scroll.paint (p : Option (String × Style)) (c : Option Cell) : Option Cell :=
  match p with
  | some (v, style) => c.map fun c => (c.setSymbol v).setStyle style
  | none => c

theorem Scroll.drawLoop_spec (u : Uniseg) (f : Nat → Position) (g : Nat → Option (String × Style))
    (hinj : ∀ i j, f i = f j → i = j) (hg : ∀ i v style, g i = some (v, style) → OneCell u v) :
    ∀ (n k : Nat) (b : Buffer), b.WF → (∀ i, k ≤ i → i < k + n → b.area.contains (f i) = true) →
    ∃ b' : Buffer, drawLoop u ((List.range' k n).map fun i => (⟨(f i).x, (f i).y, 1, 1⟩, g i)) b = some b' ∧
      b'.area = b.area ∧ b'.WF ∧
      (∀ i, k ≤ i → i < k + n → b'.cellAt (f i) = paint (g i) (b.cellAt (f i))) ∧
      ∀ q, (∀ i, k ≤ i → i < k + n → q ≠ f i) → b'.cellAt q = b.cellAt q := by
  intro n
  induction n with
  | zero => exact fun k b wf _ => ⟨b, rfl, rfl, wf, fun i _ _ => by omega, fun q _ => rfl⟩
  | succ n ih =>
    intro k b wf hin
    rw [List.range'_succ, List.map_cons]
    cases hgk : g k with
    | none =>
      obtain ⟨b', e, a, wf', h1, h2⟩ := ih (k + 1) b wf (fun i h1 h2 => hin i (by omega) (by omega))
      refine ⟨b', by rw [← e]; rfl, a, wf', ?_, ?_⟩
      · intro i hi hi'
        by_cases hk : i = k
        · subst hk
          rw [hgk, h2 _ (fun j h1 h2 h => by have := hinj _ _ h; omega)]
          rfl
        · exact h1 i (by omega) (by omega)
      · exact fun q hq => h2 q (fun i h1 h2 => hq i (by omega) (by omega))
    | some p =>
      obtain ⟨v, style⟩ := p
      obtain ⟨b1, e1, a1, wf1, c1, d1⟩ := setString_one wf style (hg k v style hgk) (hin k (by omega) (by omega))
      obtain ⟨b', e, a, wf', h1, h2⟩ := ih (k + 1) b1 wf1
        (fun i h1 h2 => by rw [a1]; exact hin i (by omega) (by omega))
      refine ⟨b', ?_, a.trans a1, wf', ?_, ?_⟩
      · unfold drawLoop
        simp only [e1]
        exact e
      · intro i hi hi'
        by_cases hk : i = k
        · subst hk
          rw [hgk, h2 _ (fun j h1 h2 h => by have := hinj _ _ h; omega), c1]
          rfl
        · rw [h1 i (by omega) (by omega), d1 _ (fun h => hk (hinj _ _ h))]
      · intro q hq
        rw [h2 q (fun i h1 h2 => hq i (by omega) (by omega)), d1 q (hq k (by omega) (by omega))]

/-- The symbols in the order in which they are drawn are the parts of the bar. -/
theorem Scroll.barSymbols_eq (rd : Int → Int → Int) (u : Uniseg) (s : Scroll) (area : Rect) (state : State) :
    s.barSymbols rd u area state =
      (List.range ((s.partLens rd u area state).1.toNat + (s.partLens rd u area state).2.1.toNat +
        (s.partLens rd u area state).2.2.toNat + 2)).map
        (part s (s.partLens rd u area state).1.toNat (s.partLens rd u area state).2.1.toNat
          (s.partLens rd u area state).2.2.toNat) := by
  unfold barSymbols
  obtain ⟨a, b, c⟩ := s.partLens rd u area state
  simp only
  generalize a.toNat = a
  generalize b.toNat = b
  generalize c.toNat = c
  apply List.ext_getElem?
  intro i
  unfold part
  simp only [List.getElem?_append, List.length_append, List.length_replicate, List.length_cons, List.length_nil,
    List.getElem?_replicate, List.getElem?_map]
  by_cases h0 : i = 0
  · subst h0; simp [show 0 < 1 + a + b + c by omega, show 0 < 1 + a + b by omega, show 0 < 1 + a by omega]
  by_cases h1 : i ≤ a
  · simp [h0, h1, show i < a + b + c + 2 by omega, show i - 1 < a by omega,
      show i < 1 + a by omega, show i < 1 + a + b by omega, show i < 1 + a + b + c by omega]
  by_cases h2 : i ≤ a + b
  · simp [h0, h1, h2, show i < a + b + c + 2 by omega, show ¬ i < 1 + a by omega, show i < 1 + a + b by omega,
      show i < 1 + a + b + c by omega, show i - (1 + a) < b by omega]
  by_cases h3 : i ≤ a + b + c
  · simp [h0, h1, h2, h3, show i < a + b + c + 2 by omega, show ¬ i < 1 + a by omega, show ¬ i < 1 + a + b by omega,
      show i < 1 + a + b + c by omega, show i - (1 + a + b) < c by omega]
  by_cases h4 : i = a + b + c + 1
  · subst h4
    simp [show ¬ (a + b + c + 1 < 1 + a + b + c) by omega, show ¬ (a + b + c + 1 < 1 + a + b) by omega,
      show ¬ (a + b + c + 1 < 1 + a) by omega, show ¬ (a + b + c + 1 ≤ a + b) by omega,
      show ¬ (a + b + c + 1 ≤ a) by omega, show a + b + c + 1 - (1 + a + b + c) = 0 by omega,
      show a + b + c + 1 < a + b + c + 2 by omega, show ¬ (a + b + c + 1 ≤ a + b + c) by omega]
  · simp [show ¬ i < 1 + a + b + c by omega, show ¬ i < a + b + c + 2 by omega,
      show ¬ (i - (1 + a + b + c) = 0) by omega]

/-- The cells of the strip, in the order in which they are drawn. -/
theorem Scroll.strip_cells (s : Scroll) (bar : Rect) (n : Nat)
    (h : (s.orientation.isVertical = true ∧ bar.width = 1 ∧ bar.height = n) ∨
      (s.orientation.isVertical = false ∧ bar.height = 1 ∧ bar.width = n)) :
    bar.columns.flatMap Rect.rows =
      (List.range n).map fun i => (⟨(s.orientation.cell bar i).x, (s.orientation.cell bar i).y, 1, 1⟩ : Rect) := by
  rw [C02_columns_eq]
  unfold Orientation.cell
  rcases h with ⟨h1, h2, h3⟩ | ⟨h1, h2, h3⟩
  · rw [h1, h2]
    simp only [if_true]
    rw [show (1 : Int).toNat = 1 from rfl]
    simp only [List.range_one, List.map_cons, List.map_nil, List.flatMap_cons, List.flatMap_nil, List.append_nil]
    rw [C02_rows_eq]
    simp only [h3, Int.toNat_natCast]
    apply List.map_congr_left
    intro i _
    simp
  · rw [h1, h3]
    simp only [Int.toNat_natCast, List.flatMap_map]
    have : ∀ i : Nat, Rect.rows ⟨bar.x + i, bar.y, 1, bar.height⟩ = [⟨bar.x + i, bar.y, 1, 1⟩] := by
      intro i
      rw [C02_rows_eq]
      simp [h2]
    simp only [this]
    rw [← List.map_eq_flatMap]
    simp

/-- **C73 (partial).** A bar inside the buffer whose symbols take one cell each, arrow heads included, is drawn
without a panic: the cells of its strip show arrow head, track, thumb, track and arrow head in the lengths that
were computed, and no other cell changes. Missing: other arrow heads, for which it is false. -/
theorem C73_bar_partial (rd : Int → Int → Int) {u : Uniseg} (s : Scroll) (area : Rect) (b : Buffer) (wf : b.WF)
    (state : State) (hin : ∀ q, area.contains q = true → b.area.contains q = true) (hw : 1 ≤ area.width)
    (hh : 1 ≤ area.height) (hc : state.contentLen ≠ 0) (ht : 1 ≤ s.trackLen u area) (v1 v2 : String)
    (hv1 : s.beginSymbol = some v1) (hv2 : s.endSymbol = some v2) (h1 : OneCell u v1) (h2 : OneCell u v2)
    (hthumb : OneCell u s.thumbSymbol) (htrack : ∀ v, s.trackSymbol = some v → OneCell u v) :
    ∃ (bar : Rect) (b' : Buffer) (start thumb rest : Nat), s.scrollbarArea area = some bar ∧
      s.render rd u area b state = some b' ∧ b'.area = b.area ∧ b'.WF ∧
      s.partLens rd u bar state = ((start : Int), (thumb : Int), (rest : Int)) ∧ (start + thumb + rest + 2 : Int) = s.along area ∧
      (∀ q, bar.contains q = true ↔ ∃ i : Nat, (i : Int) < s.along area ∧ q = s.orientation.cell bar i) ∧
      (∀ i : Nat, (i : Int) < s.along area →
        b'.cellAt (s.orientation.cell bar i) =
          paint (part s start thumb rest i) (b.cellAt (s.orientation.cell bar i))) ∧
      ∀ q, bar.contains q = false → b'.cellAt q = b.cellAt q := by
  have hbar : ∃ bar, s.scrollbarArea area = some bar ∧ (∀ q, bar.contains q = true → area.contains q = true) ∧
      ((s.orientation.isVertical = true ∧ bar.width = 1 ∧ bar.height = area.height) ∨
        (s.orientation.isVertical = false ∧ bar.height = 1 ∧ bar.width = area.width)) := by
    unfold scrollbarArea
    cases ho : s.orientation with
    | verticalLeft =>
      refine ⟨_, columns_first hw, ?_, .inl ⟨rfl, rfl, rfl⟩⟩
      intro q hq; rw [Rect.contains_iff] at *; unfold Rect.Mem at *; simp only at hq; omega
    | verticalRight =>
      refine ⟨_, columns_last hw, ?_, .inl ⟨rfl, rfl, rfl⟩⟩
      intro q hq; rw [Rect.contains_iff] at *; unfold Rect.Mem at *; simp only at hq; omega
    | horizontalBottom =>
      refine ⟨_, rows_first hh, ?_, .inr ⟨rfl, rfl, rfl⟩⟩
      intro q hq; rw [Rect.contains_iff] at *; unfold Rect.Mem at *; simp only at hq; omega
    | horizontalTop =>
      refine ⟨_, rows_last hh, ?_, .inr ⟨rfl, rfl, rfl⟩⟩
      intro q hq; rw [Rect.contains_iff] at *; unfold Rect.Mem at *; simp only at hq; omega
  obtain ⟨bar, hbar, hsub, hdim⟩ := hbar
  have halong : s.along bar = s.along area := by
    unfold along
    rcases hdim with ⟨h, h', h''⟩ | ⟨h, h', h''⟩ <;> rw [h] <;> simp [h'']
  have htl : s.trackLen u bar = s.trackLen u area := by
    unfold trackLen; rw [halong]
  have htv : s.trackLen u area = s.along area - 2 := by
    have w : ∀ v, OneCell u v → u.stringWidth v = 1 := by
      intro v hv
      unfold Uniseg.stringWidth
      rw [hv.1]
      simp [hv.2]
    have e : s.trackLen u area = max 0 (s.along area - (((u.stringWidth v1 : Nat) : Int) + (u.stringWidth v2 : Nat))) := by
      unfold trackLen
      rw [hv1, hv2]
    rw [w v1 h1, w v2 h2] at e
    omega
  obtain ⟨a, t, r, e, hsum, h3, h4, h5⟩ := C44_parts_sum rd u s bar state (by omega)
  obtain ⟨a, rfl⟩ := Int.eq_ofNat_of_zero_le h3
  obtain ⟨t, rfl⟩ := Int.eq_ofNat_of_zero_le (by omega : 0 ≤ t)
  obtain ⟨r, rfl⟩ := Int.eq_ofNat_of_zero_le h5
  obtain ⟨n, hn⟩ := Int.eq_ofNat_of_zero_le (by omega : 0 ≤ s.along area)
  have hdim' : (s.orientation.isVertical = true ∧ bar.width = 1 ∧ bar.height = n) ∨
      (s.orientation.isVertical = false ∧ bar.height = 1 ∧ bar.width = n) := by
    unfold along at hn
    rcases hdim with ⟨h, h', h''⟩ | ⟨h, h', h''⟩
    · rw [h] at hn; simp only [if_true] at hn; exact .inl ⟨h, h', by omega⟩
    · rw [h] at hn; simp only [Bool.false_eq_true, if_false] at hn; exact .inr ⟨h, h', by omega⟩
  have hcells : ∀ q, bar.contains q = true ↔ ∃ i : Nat, (i : Int) < n ∧ q = s.orientation.cell bar i := by
    intro q
    rw [Rect.contains_iff]
    unfold Rect.Mem Orientation.cell
    rcases hdim' with ⟨h, h', h''⟩ | ⟨h, h', h''⟩
    · rw [h]
      simp only [if_true]
      constructor
      · intro hq
        exact ⟨(q.y - bar.y).toNat, by omega, Position.ext (by simp only; omega) (by simp only; omega)⟩
      · rintro ⟨i, hi, rfl⟩
        simp only
        omega
    · rw [h]
      simp only [Bool.false_eq_true, if_false]
      constructor
      · intro hq
        exact ⟨(q.x - bar.x).toNat, by omega, Position.ext (by simp only; omega) (by simp only; omega)⟩
      · rintro ⟨i, hi, rfl⟩
        simp only
        omega
  have hinj : ∀ i j, s.orientation.cell bar i = s.orientation.cell bar j → i = j := by
    intro i j h
    unfold Orientation.cell at h
    split at h <;> simp only [Position.mk.injEq] at h <;> omega
  obtain ⟨b', e', a', wf', c1, c2⟩ := drawLoop_spec u (s.orientation.cell bar) (part s a t r) hinj
    (by
      intro i v style
      unfold part
      rw [hv1, hv2]
      simp only [Option.map_some]
      split
      · intro h; simp only [Option.some.injEq, Prod.mk.injEq] at h; rw [← h.1]; exact h1
      split
      · intro h
        rw [Option.map_eq_some_iff] at h
        obtain ⟨v', hv', h⟩ := h
        simp only [Prod.mk.injEq] at h
        rw [← h.1]; exact htrack v' hv'
      split
      · intro h; simp only [Option.some.injEq, Prod.mk.injEq] at h; rw [← h.1]; exact hthumb
      split
      · intro h
        rw [Option.map_eq_some_iff] at h
        obtain ⟨v', hv', h⟩ := h
        simp only [Prod.mk.injEq] at h
        rw [← h.1]; exact htrack v' hv'
      · intro h; simp only [Option.some.injEq, Prod.mk.injEq] at h; rw [← h.1]; exact h2)
    n 0 b wf (fun i _ hi => hin _ (hsub _ ((hcells _).2 ⟨i, by omega, rfl⟩)))
  refine ⟨bar, b', a, t, r, hbar, ?_, a', wf', e, by omega, by rw [hn]; exact hcells, ?_, ?_⟩
  · unfold render
    rw [if_neg (by omega), hbar]
    simp only
    rw [strip_cells s bar n hdim', barSymbols_eq, e]
    simp only [Int.toNat_natCast]
    rw [show a + t + r + 2 = n by omega, List.zip_map', List.range_eq_range']
    exact e'
  · intro i hi
    exact c1 i (by omega) (by omega)
  · intro q hq
    refine c2 q (fun i _ hi h => ?_)
    rw [(hcells q).2 ⟨i, by omega, h⟩] at hq
    cases hq

/-- A vertical bar of the default symbols meets the hypotheses. -/
example : 1 ≤ (new .verticalRight).trackLen Uniseg.simple ⟨0, 0, 3, 7⟩ ∧ OneCell Uniseg.simple "▲" ∧
    OneCell Uniseg.simple "▼" ∧ OneCell Uniseg.simple "█" ∧ OneCell Uniseg.simple "║" := by
  unfold OneCell
  decide +kernel

/-- The bar over an empty buffer of its size: the symbols of the cells. -/
def Scroll.drawn (s : Scroll) (area : Rect) (state : State) : Option (List (Option String)) := do
  let b ← Buffer.newEmpty area
  let b ← s.render nearest Uniseg.simple area b state
  return (b.content.map fun c => some c.symbol)

/-- **C73 (negation).** The default horizontal bar has empty arrow heads, which still take a cell: the first
cell of the strip is not drawn, and of the thumb of three cells only two are. -/
theorem C73_horizontal_false :
    (new .horizontalBottom).drawn ⟨0, 0, 4, 1⟩ ⟨2, 1, 2⟩ = some [some " ", some "═", some "█", some "█"] ∧
    (new .horizontalBottom).partLens nearest Uniseg.simple ⟨0, 0, 4, 1⟩ ⟨2, 1, 2⟩ = (1, 3, 0) := by
  decide +kernel

end Bento
