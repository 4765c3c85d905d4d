import Verif.Lemmas.ListWidget
import Verif.Props.WideText
import Verif.Props.Block
import Verif.Props.Buffer

/-!
# Lists
-/

namespace Bento

open ListWidget

/-! ### C40: the items shown -/

namespace ListWidget

/-- The index that has to be visible. -/
def indexOf (hs : List Nat) (p m : Int) (sel : Option Int) (o l0 : Int) : Int :=
  match sel with
  | none => o
  | some s => applyScrollPadding hs p s m o l0

/-- The bounds, whatever is selected. -/
theorem bounds_spec (hs : List Nat) (hn : 0 < hs.length) (p m offset : Int) (sel : Option Int) (hp : 0 ≤ p)
    (hm : 0 ≤ m) (ho : 0 ≤ offset) (hsel : ∀ s ∈ sel, 0 ≤ s) :
    ∃ o l0 idx f l : Nat, (o : Int) = min offset ((hs.length : Int) - 1) ∧ o ≤ l0 ∧ l0 ≤ hs.length ∧
      heightOf hs o l0 ≤ m ∧ (l0 = hs.length ∨ m < heightOf hs o (l0 + 1)) ∧ idx < hs.length ∧
      (idx : Int) = indexOf hs p m sel o l0 ∧
      getItemsBounds hs p sel offset m = some ((f : Int), (l : Int)) ∧ f ≤ l ∧ l ≤ hs.length ∧
      heightOf hs f l ≤ m ∧
      (l0 ≤ idx → ∀ k, o ≤ k → k ≤ idx → heightOf hs k (idx + 1) ≤ m → f ≤ k ∧ l = idx + 1) ∧
      (idx < o → f = idx ∧ ∀ k, k ≤ l0 → heightOf hs idx k ≤ m → k ≤ l) ∧
      (o ≤ idx → idx < l0 → f = o ∧ l = l0) := by
  obtain ⟨o, hoe, hol⟩ : ∃ o : Nat, min offset (max 0 ((hs.length : Int) - 1)) = (o : Int) ∧ o < hs.length :=
    ⟨(min offset (max 0 ((hs.length : Int) - 1))).toNat, by omega, by omega⟩
  obtain ⟨l0, e0, h1, h2, h3, h4⟩ := fitLoop_spec (m := m) hs o (hs.length - o) o (by omega)
    (Nat.le_refl _) (by rw [heightOf_ge hs (Nat.le_refl _)]; exact hm)
  rw [heightOf_ge hs (Nat.le_refl _)] at e0
  obtain ⟨idx, hidx, hil⟩ : ∃ idx : Nat, (idx : Int) = indexOf hs p m sel o l0 ∧ idx < hs.length := by
    cases sel with
    | none => exact ⟨o, rfl, hol⟩
    | some s =>
      obtain ⟨a, b⟩ := applyScrollPadding_range hs p hp s (hsel s rfl) hn m o l0
      exact ⟨(applyScrollPadding hs p s m o l0).toNat, by simp only [indexOf]; omega, by omega⟩
  obtain ⟨f, l, e, rest⟩ := window_spec hm hs o l0 idx h1 h2 h3 hil
  refine ⟨o, l0, idx, f, l, by omega, h1, h2, h3, h4, hil, hidx, ?_, rest⟩
  unfold getItemsBounds
  simp only [hoe]
  rw [if_neg (by omega), Int.toNat_natCast, e0]
  simp only
  change (do
    let (height, first, last) ← growLoop m hs (indexOf hs p m sel o l0 - l0 + 1).toNat _ _ _
    let (_, first, last) ← backLoop m hs (first - indexOf hs p m sel o l0).toNat height first last
    some (first, last)) = _
  rw [← hidx]
  exact e

end ListWidget

/-- The items chosen for display are a part of the list whose height fits the area; nothing panics. -/
theorem C40_window (hs : List Nat) (hn : 0 < hs.length) (p m offset : Int) (sel : Option Int) (hp : 0 ≤ p)
    (hm : 0 ≤ m) (ho : 0 ≤ offset) (hsel : ∀ s ∈ sel, 0 ≤ s) :
    ∃ f l : Nat, getItemsBounds hs p sel offset m = some ((f : Int), (l : Int)) ∧ f ≤ l ∧ l ≤ hs.length ∧
      heightOf hs f l ≤ m := by
  obtain ⟨o, l0, idx, f, l, -, -, -, -, -, -, -, e, h1, h2, h3, -⟩ := bounds_spec hs hn p m offset sel hp hm ho hsel
  exact ⟨f, l, e, h1, h2, h3⟩

example : ∃ f l : Nat, getItemsBounds [1, 2, 3, 1, 1] 1 (some 9) 7 4 = some ((f : Int), (l : Int)) ∧ f ≤ l ∧ l ≤ 5 ∧
    heightOf [1, 2, 3, 1, 1] f l ≤ (4 : Int) :=
  C40_window _ (by decide) 1 4 7 (some 9) (by decide) (by decide) (by decide) (by simp)

/-- The selected item is among them if it fits, and so are the items around it as far as the scroll padding
goes and the area has room. -/
theorem C40_selected_visible (hs : List Nat) (p m offset : Int) (sel : Nat) (hsel : sel < hs.length) (hp : 0 ≤ p)
    (hm : 0 ≤ m) (ho : 0 ≤ offset) (q : Nat) (hq : (q : Int) ≤ p)
    (hfit : heightOf hs (sel - q) (min hs.length (sel + q + 1)) ≤ m) :
    ∃ f l : Nat, getItemsBounds hs p (some sel) offset m = some ((f : Int), (l : Int)) ∧
      f ≤ sel - q ∧ min hs.length (sel + q + 1) ≤ l := by
  obtain ⟨o, l0, idx, f, l, ho', h1, h2, h3, h4, h5, h6, e, h7, h8, h9, ca, cb, cc⟩ :=
    bounds_spec hs (by omega) p m offset (some (sel : Int)) hp hm ho (by simp)
  simp only [indexOf] at h6
  obtain ⟨a, b, a1, a2, a3, a4, a5, a6⟩ := applyScrollPadding_spec hs p hp sel hsel m o l0 (by
    intro g hg
    have h1 := heightOf_succ (Nat.le_refl sel) hg
    rw [heightOf_ge hs (Nat.le_refl _)] at h1
    have := heightOf_mono (hs := hs) (i := sel) (i' := sel - q) (j := sel + 1) (k := min hs.length (sel + q + 1))
      (by omega) (by omega)
    omega)
  obtain ⟨c1, c2⟩ := a5 q hq hfit
  refine ⟨f, l, e, ?_⟩
  rw [a6] at h6
  suffices f ≤ a ∧ b + 1 ≤ l by omega
  by_cases hB : (b : Int) ≥ l0
  · rw [if_pos hB] at h6
    have hib : idx = b := by omega
    -- the part shown before the change begins before the items around the selected one
    have hoa : o ≤ a := by
      by_cases hoa : o ≤ a
      · exact hoa
      · exfalso
        rcases h4 with h4 | h4
        · omega
        · have := heightOf_mono (hs := hs) (i := o) (i' := a) (j := l0 + 1) (k := b + 1) (by omega) (by omega)
          omega
    have := ca (by omega) a hoa (by omega) (by rw [hib]; exact a4)
    omega
  · rw [if_neg hB] at h6
    by_cases hA : (a : Int) < o
    · rw [if_pos hA] at h6
      have hia : idx = a := by omega
      obtain ⟨d1, d2⟩ := cb (by omega)
      have := d2 (b + 1) (by omega) (by rw [hia]; exact a4)
      omega
    · rw [if_neg hA] at h6
      have := cc (by omega) (by omega)
      omega

example : ∃ f l : Nat, getItemsBounds [1, 2, 3, 1, 1, 2, 1, 3, 1, 1] 1 (some 6) 1 6 = some ((f : Int), (l : Int)) ∧
    f ≤ 5 ∧ 8 ≤ l :=
  C40_selected_visible _ 1 6 1 6 (by decide) (by decide) (by decide) (by decide) 1 (by decide) (by decide +kernel)

/-- The list does not scroll without need: if the selected item is visible from the offset on, and there
is no padding, the offset stays; nor does it scroll if nothing is selected and the first item fits. -/
theorem C40_stays (hs : List Nat) (m : Int) (o : Nat) (ho : o < hs.length) (hm : 0 ≤ m) :
    (∀ sel : Nat, o ≤ sel → sel < hs.length → heightOf hs o (sel + 1) ≤ m →
      ∃ l : Nat, getItemsBounds hs 0 (some sel) o m = some ((o : Int), (l : Int)) ∧ sel < l) ∧
    (∀ p : Int, 0 ≤ p → heightOf hs o (o + 1) ≤ m →
      ∃ l : Nat, getItemsBounds hs p none o m = some ((o : Int), (l : Int)) ∧ o < l) := by
  constructor
  · intro sel h1 h2 h3
    obtain ⟨o', l0, idx, f, l, ho', g1, g2, g3, g4, g5, g6, e, g7, g8, g9, ca, cb, cc⟩ :=
      bounds_spec hs (by omega) 0 m o (some (sel : Int)) (by omega) hm (by omega) (by simp)
    have hoo : o' = o := by omega
    subst hoo
    have hl0 : sel < l0 := by
      rcases g4 with g4 | g4
      · omega
      · by_cases h : sel < l0
        · exact h
        · exfalso
          have := heightOf_mono (hs := hs) (i := o') (i' := o') (j := l0 + 1) (k := sel + 1) (by omega) (by omega)
          omega
    simp only [indexOf] at g6
    unfold applyScrollPadding at g6
    simp only [lt_irrefl, if_false] at g6
    have hidx : idx = sel := by
      rw [if_neg (by omega), if_neg (by omega)] at g6
      omega
    obtain ⟨d1, d2⟩ := cc (by omega) (by omega)
    refine ⟨l, by rw [e, d1], by omega⟩
  · intro p hp h3
    obtain ⟨o', l0, idx, f, l, ho', g1, g2, g3, g4, g5, g6, e, g7, g8, g9, ca, cb, cc⟩ :=
      bounds_spec hs (by omega) p m o none hp hm (by omega) (by simp)
    have hoo : o' = o := by omega
    subst hoo
    simp only [indexOf] at g6
    have hl0 : o' < l0 := by
      rcases g4 with g4 | g4
      · omega
      · by_cases h : o' < l0
        · exact h
        · exfalso
          have := heightOf_mono (hs := hs) (i := o') (i' := o') (j := l0 + 1) (k := o' + 1) (by omega) (by omega)
          omega
    obtain ⟨d1, d2⟩ := cc (by omega) (by omega)
    refine ⟨l, by rw [e, d1], by omega⟩

/-- A list of ten items of one to three lines in five rows; item 6 is selected, the offset is 1. -/
example : heightOf [1, 2, 3, 1, 1, 2, 1, 3, 1, 1] (6 - 1) (min 10 (6 + 1 + 1)) = 6 ∧
    heightOf [1, 2, 3, 1, 1, 2, 1, 3, 1, 1] (6 - 0) (min 10 (6 + 0 + 1)) ≤ 5 ∧
    getItemsBounds [1, 2, 3, 1, 1, 2, 1, 3, 1, 1] 1 (some 6) 1 5 = some (3, 7) := by decide +kernel

/-- Drawing begins at the offset that was set: three items of one line in two rows, the second one first. With
a negative offset, which `SetOffset` accepts too, the program panics. -/
theorem C40_offset_false :
    (let s := State.new.setOffset 1; getItemsBounds [1, 1, 1] 0 s.selected s.offset 2) = some (1, 3) ∧
    (let s := State.new.setOffset (-1); getItemsBounds [1, 1, 1] 0 s.selected s.offset 2) = none := by
  decide +kernel

/-- With a negative scroll padding the selected item need not be visible. -/
theorem C40_padding_false : getItemsBounds [1, 1, 1, 1, 1, 1] (-2) (some 5) 0 3 = some (1, 4) := by
  decide +kernel

/-! ### C41: the selection -/

theorem C41_keys (key : Key) (s : State) :
    State.update key s = match keyMove (Input.keyString key) with
      | some m => (m.run s, true)
      | none => (s, false) := by
  unfold State.update keyMove
  simp only [List.findSome?_cons, List.findSome?_nil]
  split_ifs <;> simp_all [Move.run]

/-- Drawing a list to an area that is not empty moves a selection beyond the last item to the last item,
and changes no other selection. -/
theorem C41_render (u : Uniseg) (l : ListWidget) (area : Rect) (b b' : Buffer) (s s' : State)
    (hn : l.items ≠ []) (ha : (content l area).isEmpty = false) (h : render u l area b s = some (b', s')) :
    s'.selected = s.selected.map fun i => min i ((l.items.length : Int) - 1) := by
  have hlen : 0 < l.items.length := List.length_pos_of_ne_nil hn
  have key : ∀ (ar : Rect) (b1 : Buffer), ar.isEmpty = false → renderItems u l ar b1 s = some (b', s') →
      s'.selected = s.selected.map fun i => min i ((l.items.length : Int) - 1) := by
    intro ar b1 har h
    unfold renderItems at h
    rw [har, if_neg (by simp; omega)] at h
    simp only [Option.bind_eq_bind, Option.bind_eq_some_iff] at h
    obtain ⟨⟨f, l0⟩, -, h⟩ := h
    simp only at h
    split at h
    · simp at h
    · simp only [Option.bind_eq_some_iff, Option.some.injEq, Prod.mk.injEq] at h
      obtain ⟨b2, -, -, h⟩ := h
      rw [← h]
      unfold clampSelection
      cases hs : s.selected with
      | none => simp [hs]
      | some i =>
        simp only [Option.map_some]
        split_ifs with hi
        · simp only [State.select, Option.some.injEq]
          omega
        · rw [hs]
          congr 1
          omega
  unfold render at h
  unfold content at ha
  simp only [Option.bind_eq_bind, Option.bind_eq_some_iff] at h
  obtain ⟨b1, -, h⟩ := h
  cases hb : l.block with
  | none =>
    rw [hb] at h ha
    exact key area b1 ha h
  | some k =>
    rw [hb] at h ha
    simp only [Option.bind_eq_some_iff] at h
    obtain ⟨b2, -, h⟩ := h
    exact key _ b2 ha h

theorem ListWidget.wrap64_id {i : Int} (h1 : -2 ^ 63 ≤ i) (h2 : i < 2 ^ 63) : wrap64 i = i := by
  unfold wrap64; omega

/-- C41: `Selected` with the index of the last item tells the item that drawing will leave selected, and
the item that drawing has left selected; whatever the state, it is an item of the list. -/
theorem C41_selected (u : Uniseg) (l : ListWidget) (area : Rect) (b b' : Buffer) (s s' : State)
    (hn : l.items ≠ []) (ha : (content l area).isEmpty = false) (h : render u l area b s = some (b', s')) :
    (∀ i ∈ s.selectedIn ((l.items.length : Int) - 1), 0 ≤ i ∧ i < l.items.length) ∧
    (s.selectedIn ((l.items.length : Int) - 1) = none ↔ s.selected = none) ∧
    ((∀ i ∈ s.selected, 0 ≤ i) → s.selectedIn ((l.items.length : Int) - 1) = s'.selected ∧
      s'.selectedIn ((l.items.length : Int) - 1) = s'.selected) := by
  have hlen : 0 < l.items.length := List.length_pos_of_ne_nil hn
  have hr := C41_render u l area b b' s s' hn ha h
  unfold State.selectedIn
  rw [hr]
  cases hs : s.selected with
  | none => simp
  | some i =>
    simp only [Option.map_some, Option.mem_def, Option.some.injEq, forall_eq', reduceCtorEq]
    refine ⟨by omega, trivial, fun h0 => by omega⟩

example : (⟨0, some 9⟩ : State).selectedIn 2 = some 2 ∧ (⟨0, some 1⟩ : State).selectedIn 2 = some 1 := by decide

/-- **C41 (partial).** If the list is drawn after every command, the selection moves as the commands say.
Missing: several commands between two renders (`C41_last_next_false`, `C41_between_renders_false`). -/
theorem C41_session_partial (u : Uniseg) (l : ListWidget) (hn : l.items ≠ []) (hmax : l.items.length ≤ 2 ^ 62) :
    ∀ (steps : List (Move × Rect × Buffer)) (s s' : State),
      (∀ st ∈ steps, st.1.Small ∧ (content l st.2.1).isEmpty = false) →
      (∀ i ∈ s.selected, 0 ≤ i ∧ i < l.items.length) → session u l steps s = some s' →
      s'.selected = (steps.map Prod.fst).foldl (fun sel m => m.target l.items.length sel) s.selected ∧
      ∀ i ∈ s'.selected, 0 ≤ i ∧ i < l.items.length
  | [], s, s', _, hs, h => by
    simp only [session, Option.some.injEq] at h
    subst h
    exact ⟨rfl, hs⟩
  | (m, area, b) :: rest, s, s', hst, hs, h => by
    have hlen : 0 < l.items.length := List.length_pos_of_ne_nil hn
    simp only [session, Option.bind_eq_bind, Option.bind_eq_some_iff] at h
    obtain ⟨⟨b', s1⟩, h1, h2⟩ := h
    have hm := hst (m, area, b) (by simp)
    have hr := C41_render u l area b b' _ s1 hn hm.2 h1
    have htarget : s1.selected = m.target l.items.length s.selected := by
      rw [hr]
      have hM : Buffer.maxInt = 9223372036854775807 := rfl
      cases hsel : s.selected with
      | none =>
        cases m <;> simp only [Move.run, Move.target, State.selectNext, State.selectPrevious, State.selectFirst,
          State.selectLast, State.scrollDownBy, State.scrollUpBy, State.select, State.unselect, hsel,
          Option.map_some, Option.map_none, Option.getD_none, Option.some.injEq, Move.Small] at hm ⊢
        any_goals omega
        all_goals rw [wrap64_id (by omega) (by omega)]; omega
      | some i =>
        have := hs i hsel
        cases m <;> simp only [Move.run, Move.target, State.selectNext, State.selectPrevious, State.selectFirst,
          State.selectLast, State.scrollDownBy, State.scrollUpBy, State.select, State.unselect, hsel,
          Option.map_some, Option.map_none, Option.getD_some, Option.some.injEq, Move.Small] at hm ⊢
        any_goals omega
        all_goals rw [wrap64_id (by omega) (by omega)]; omega
    have hs1 : ∀ i ∈ s1.selected, 0 ≤ i ∧ i < l.items.length := by
      rw [htarget]
      intro i hi
      cases hsel : s.selected with
      | none =>
        rw [hsel] at hi
        cases m <;> simp only [Move.target, Option.mem_def, Option.some.injEq, Option.getD_none, reduceCtorEq] at hi <;> omega
      | some k =>
        have := hs k hsel
        rw [hsel] at hi
        cases m <;> simp only [Move.target, Option.mem_def, Option.some.injEq, Option.getD_some, reduceCtorEq] at hi <;> omega
    obtain ⟨h3, h4⟩ := C41_session_partial u l hn hmax rest s1 s' (fun st hmem => hst st (by simp [hmem])) hs1 h2
    refine ⟨?_, h4⟩
    rw [h3, htarget]
    rfl

/-- Commands that move down do not move the selection up, and the other way round. -/
theorem C41_direction (n : Nat) (i : Int) (h : 0 ≤ i ∧ i < n) (a : Int) (ha : 0 ≤ a) :
    (∀ m ∈ [Move.next, .last, .down a], ∃ j, m.target n (some i) = some j ∧ i ≤ j ∧ j < n) ∧
    (∀ m ∈ [Move.previous, .first, .up a], ∃ j, m.target n (some i) = some j ∧ 0 ≤ j ∧ j ≤ i) := by
  constructor <;> intro m hm <;> simp only [List.mem_cons, List.not_mem_nil, or_false] at hm <;>
    rcases hm with rfl | rfl | rfl <;> refine ⟨_, rfl, ?_⟩ <;>
    (try simp only [Option.getD_some]) <;> constructor <;> omega

example : ∃ j, Move.next.target 3 (some 1) = some j ∧ 1 ≤ j ∧ j < 3 :=
  (C41_direction 3 1 (by decide) 2 (by decide)).1 _ (by simp)

/-- `SelectLast` and then `SelectNext`, without drawing in between: the sum wraps around and the selection
is the first item. -/
theorem C41_last_next_false : (State.new.selectLast.selectNext).selected = some 0 := by decide

/-- Moving on beyond the last item is not clamped until the list is drawn: in a list of three items, five
times next and once previous is not the second item. -/
theorem C41_between_renders_false :
    ((((((State.new.selectNext.selectNext).selectNext).selectNext).selectNext).selectNext).selectPrevious).selected
      = some 4 ∧
    [Move.next, .next, .next, .next, .next, .next, .previous].foldl (fun sel m => m.target 3 sel) none = some 1 := by
  decide

/-! ### C72: what is drawn -/

namespace ListWidget

theorem layoutCell_narrow (style : Style) : ∀ (gs : List (String × Nat)) (d : Nat) (c : Cell),
    (∀ g ∈ gs, g.2 = 1) → layoutCell style gs d c = match gs[d]? with
      | some g => (c.setSymbol g.1).setStyle style
      | none => c
  | [], d, c, _ => by simp [layoutCell]
  | (s, w) :: rest, 0, c, h => by simp [layoutCell]
  | (s, w) :: rest, d + 1, c, h => by
    have hw : w = 1 := h (s, w) (by simp)
    unfold layoutCell
    rw [if_neg (by omega), if_neg (by omega)]
    have := layoutCell_narrow style rest d c (fun g hg => h g (by simp [hg]))
    rw [show ((d + 1 : Nat) : Int) - (w : Int) = (d : Int) by omega, this]
    simp

theorem setString_narrow (u : Uniseg) (b : Buffer) (wf : b.WF) (x y : Int) (v : String) (w : Int) (style : Style)
    (hx : b.area.x ≤ x) (hw : 0 < w) (hr : x + w ≤ b.area.x + b.area.width) (hy : b.area.y ≤ y)
    (hy' : y < b.area.y + b.area.height) (hv : ∀ c ∈ u.graphemes v, u.width c = 1) :
    ∃ b' x', b.setStringN u x y v w style = some (b', x') ∧ b'.area = b.area ∧ b'.WF ∧
      (∀ q, ¬ (q.y = y ∧ x ≤ q.x ∧ q.x < x + w) → b'.cellAt q = b.cellAt q) ∧
      (∀ q : Position, q.y = y → x ≤ q.x → q.x < x + w →
        b'.symbolAt q = ((u.graphemes v)[(q.x - x).toNat]?).or (b.symbolAt q) ∧
        ((q.x - x).toNat < (u.graphemes v).length → ∃ c : Cell, b'.cellAt q = some (c.setStyle style))) := by
  have hm : ∀ g ∈ u.measured v, g.2 = 1 := by
    intro g hg
    unfold Uniseg.measured at hg
    simp only [List.mem_map] at hg
    obtain ⟨c, hc, rfl⟩ := hg
    exact hv c hc
  have hb : budget b x w = w := by
    unfold budget Rect.right; omega
  obtain ⟨b', e, a, wf', c⟩ := C09_setStringN_partial u b wf x y v w style
    (by rw [Rect.contains_iff]; unfold Rect.Mem; simp only; omega) (by omega)
    (fun g hg => by rw [hm g hg]) (noStraddle_of_width_one _ hm _)
  rw [hb] at c
  refine ⟨b', _, e, a, wf', fun q hq => by rw [c, if_neg hq], fun q h1 h2 h3 => ?_⟩
  obtain ⟨d, hd⟩ : ∃ d : Nat, q.x - x = d := ⟨(q.x - x).toNat, by omega⟩
  obtain ⟨c0, hc0⟩ := Buffer.WF.cellAt_isSome wf (p := q)
    (by rw [Rect.contains_iff]; unfold Rect.Mem; omega)
  have hcell : b'.cellAt q = some (match (u.graphemes v)[d]? with
      | some g => (c0.setSymbol g).setStyle style
      | none => c0) := by
    rw [c, if_pos ⟨h1, h2, h3⟩, hc0, hd, Option.map_some, layoutCell_narrow style _ d c0 hm]
    unfold Uniseg.measured
    rw [List.getElem?_map]
    cases (u.graphemes v)[d]? <;> rfl
  rw [hd, Int.toNat_natCast]
  constructor
  · unfold Buffer.symbolAt
    rw [hcell, hc0]
    cases (u.graphemes v)[d]? <;> rfl
  · intro hlt
    rw [hcell, List.getElem?_eq_getElem hlt]
    exact ⟨_, rfl⟩

/-- The symbol column. -/
theorem symbolLoop_spec {u : Uniseg} (hsp : Blanks u) (hspw : u.width " " = 1) (l : ListWidget)
    (hsym : ∀ c ∈ u.graphemes l.highlightSymbol, u.width c = 1) (isSelected : Bool) (x y w : Int) (style : Style)
    (hw : 0 < w) :
    ∀ (n j : Nat) (b : Buffer), b.WF → b.area.x ≤ x → x + w ≤ b.area.x + b.area.width → b.area.y ≤ y →
      y + j + n ≤ b.area.y + b.area.height →
      ∃ b', symbolLoop u l isSelected x y w style n j b = some b' ∧ b'.area = b.area ∧ b'.WF ∧
        (∀ q, ¬ (y + j ≤ q.y ∧ q.y < y + j + n ∧ x ≤ q.x ∧ q.x < x + w) → b'.cellAt q = b.cellAt q) ∧
        (∀ q : Position, y + j ≤ q.y → q.y < y + j + n → x ≤ q.x → q.x < x + w →
          b'.symbolAt q = (if (q.x - x).toNat < (u.graphemes l.highlightSymbol).length then
            (if isSelected = true ∧ ((q.y - y).toNat = 0 ∨ l.repeatHighlightSymbol = true) then
              (u.graphemes l.highlightSymbol)[(q.x - x).toNat]? else some " ") else none).or (b.symbolAt q) ∧
          ((q.x - x).toNat < (u.graphemes l.highlightSymbol).length →
            ∃ c : Cell, b'.cellAt q = some (c.setStyle style)))
  | 0, j, b, wf, _, _, _, _ => ⟨b, rfl, rfl, wf, fun _ _ => rfl, fun q h1 h2 _ _ => by omega⟩
  | n + 1, j, b, wf, h1, h2, h3, h4 => by
    have hwid : u.stringWidth l.highlightSymbol = (u.graphemes l.highlightSymbol).length := by
      unfold Uniseg.stringWidth
      rw [List.map_congr_left hsym]
      simp
    generalize hv : (if (isSelected && (j == 0 || l.repeatHighlightSymbol)) = true then l.highlightSymbol
      else String.ofList (List.replicate (u.stringWidth l.highlightSymbol) ' ')) = v
    have hvn : ∀ c ∈ u.graphemes v, u.width c = 1 := by
      rw [← hv]
      split_ifs
      · exact hsym
      · rw [hsp]
        intro c hc
        rw [List.eq_of_mem_replicate hc, hspw]
    have hvs : ∀ k : Nat, (u.graphemes v)[k]? = if k < (u.graphemes l.highlightSymbol).length then
            (if isSelected = true ∧ (j = 0 ∨ l.repeatHighlightSymbol = true) then
              (u.graphemes l.highlightSymbol)[k]? else some " ") else none := by
      intro k
      rw [← hv]
      by_cases hc : isSelected = true ∧ (j = 0 ∨ l.repeatHighlightSymbol = true)
      · rw [if_pos hc, if_pos (by simpa using hc)]
        split_ifs with hk
        · rfl
        · exact List.getElem?_eq_none (by omega)
      · rw [if_neg hc, if_neg (by simpa using hc), hsp, hwid, List.getElem?_replicate]
    have hvl : (u.graphemes v).length = (u.graphemes l.highlightSymbol).length := by
      rw [← hv]
      split_ifs
      · rfl
      · rw [hsp, hwid, List.length_replicate]
    obtain ⟨b1, x1, e1, a1, wf1, o1, s1⟩ := setString_narrow u b wf x (y + j) v w style h1 hw h2 (by omega)
      (by omega) hvn
    obtain ⟨b2, e2, a2, wf2, o2, s2⟩ := symbolLoop_spec hsp hspw l hsym isSelected x y w style hw n (j + 1) b1 wf1
      (by rw [a1]; omega) (by rw [a1]; omega) (by rw [a1]; omega) (by rw [a1]; push_cast; omega)
    refine ⟨b2, ?_, a2.trans a1, wf2, ?_, ?_⟩
    · unfold symbolLoop
      simp only [hv, e1, Option.bind_eq_bind, Option.bind_some]
      exact e2
    · intro q hq
      rw [o2 q (by push_cast at *; omega), o1 q (by push_cast at *; omega)]
    · intro q q1 q2 q3 q4
      by_cases hqy : q.y = y + j
      · have : b2.symbolAt q = b1.symbolAt q := by
          unfold Buffer.symbolAt
          rw [o2 q (by push_cast; omega)]
        obtain ⟨t1, t2⟩ := s1 q hqy q3 q4
        have hj : (q.y - y).toNat = j := by omega
        rw [this, t1, hvs, hj]
        refine ⟨rfl, fun hlt => ?_⟩
        rw [o2 q (by push_cast; omega)]
        exact t2 (by omega)
      · obtain ⟨t1, t2⟩ := s2 q (by push_cast; omega) (by push_cast at *; omega) q3 q4
        rw [t1]
        have : b1.symbolAt q = b.symbolAt q := by
          unfold Buffer.symbolAt
          rw [o1 q (by omega)]
        rw [this]
        exact ⟨rfl, t2⟩

/-- One item in its rows. -/
theorem renderItem_spec {u : Uniseg} (hu : u.Lawful) (hs : u.Suffix) (hsp : Blanks u) (l : ListWidget)
    (hsym : ∀ c ∈ u.graphemes l.highlightSymbol, u.width c = 1) (spacing isSelected : Bool) (item : Text)
    (hitem : ∀ line ∈ item.lines, line.VisibleText u) (row : Rect) (b : Buffer) (wf : b.WF) (hin : Inside b row)
    (hw : 0 < row.width) (hh : row.height = item.lines.length) :
    ∃ b', renderItem u l spacing isSelected row item b = some b' ∧ b'.area = b.area ∧ b'.WF ∧
      (∀ q, row.contains q = false → b'.cellAt q = b.cellAt q) ∧
      (∀ q, row.contains q = true →
        b'.symbolAt q = (shownSymbol u l spacing isSelected row.width.toNat item (q.y - row.y).toNat
          (q.x - row.x).toNat).or (b.symbolAt q)) ∧
      (isSelected = true → ∀ q, row.contains q = true → ∃ c : Cell, b'.cellAt q = some (c.setStyle l.highlightStyle)) ∧
      (spacing = true → ∀ q, row.contains q = true → (q.x - row.x).toNat < (u.graphemes l.highlightSymbol).length →
        ∃ c : Cell, b'.cellAt q = some (if isSelected then
          (c.setStyle (l.style.patched item.style)).setStyle l.highlightStyle
          else c.setStyle (l.style.patched item.style))) := by
  have hwid : u.stringWidth l.highlightSymbol = (u.graphemes l.highlightSymbol).length := by
    unfold Uniseg.stringWidth
    rw [List.map_congr_left hsym]
    simp
  have hin' := hin
  obtain ⟨i1, i2, i3, i4, i5, i6⟩ := hin'
  have hmem : ∀ q, row.contains q = true ↔ row.x ≤ q.x ∧ q.x < row.x + row.width ∧ row.y ≤ q.y ∧
      q.y < row.y + row.height := by
    intro q; rw [Rect.contains_iff]; rfl
  unfold renderItem
  simp only [hwid]
  generalize l.style.patched item.style = st
  obtain ⟨b1, e1, a1, wf1, c1⟩ := setStyle_cells wf row st
  have s1 := setStyle_symbols c1
  rw [e1]
  simp only [Option.bind_eq_bind, Option.bind_some]
  -- the text of the item
  have htext : ∀ itemArea : Rect, itemArea = (if spacing = true then (⟨row.x + (u.graphemes l.highlightSymbol).length, row.y,
        max 0 (row.width - (u.graphemes l.highlightSymbol).length), row.height⟩ : Rect) else row) →
      ∃ b2, item.render u itemArea b1 = some b2 ∧ b2.area = b.area ∧ b2.WF ∧
        (∀ q, row.contains q = false → b2.cellAt q = b1.cellAt q) ∧
        (∀ q, row.contains q = true →
          (if spacing then (u.graphemes l.highlightSymbol).length else 0) ≤ (q.x - row.x).toNat →
          b2.symbolAt q = (shownSymbol u l spacing isSelected row.width.toNat item (q.y - row.y).toNat
          (q.x - row.x).toNat).or (b.symbolAt q)) ∧
        (∀ q, row.contains q = true →
          (q.x - row.x).toNat < (if spacing then (u.graphemes l.highlightSymbol).length else 0) →
          b2.symbolAt q = b.symbolAt q) := by
    intro itemArea hia
    generalize hw' : (if spacing then (u.graphemes l.highlightSymbol).length else 0) = w at *
    have hia' : itemArea = ⟨row.x + w, row.y, max 0 (row.width - w), row.height⟩ := by
      rw [hia, ← hw']
      cases spacing with
      | true => rfl
      | false =>
        simp only [Bool.false_eq_true, if_false]
        ext <;> simp only <;> omega
    have hmem' : ∀ q, itemArea.contains q = true ↔ row.x + w ≤ q.x ∧ q.x < row.x + w + max 0 (row.width - w) ∧
        row.y ≤ q.y ∧ q.y < row.y + row.height := by
      intro q; rw [Rect.contains_iff, hia']; rfl
    obtain ⟨b2, e2, a2, wf2, o2⟩ := C32_text_confined u item itemArea b1 wf1
    have o2' : ∀ q, ¬ itemArea.contains q = true → b2.cellAt q = b1.cellAt q := by
      intro q hq
      exact o2 q (fun h => hq h.1)
    refine ⟨b2, e2, a2.trans a1, wf2, ?_, ?_, ?_⟩
    · intro q hq
      refine o2' q fun h => ?_
      rw [hmem'] at h
      rw [(hmem q).2 (by omega)] at hq
      cases hq
    · intro q hq hk
      rw [hmem] at hq
      have hqi : itemArea.contains q = true := by rw [hmem']; omega
      obtain ⟨b2', e2', s2⟩ := C100_cells hu hs item hitem itemArea b1 wf1 (by
        unfold Inside
        rw [hia', a1]
        simp only
        omega)
      rw [e2] at e2'
      simp only [Option.some.injEq] at e2'
      subst e2'
      rw [s2 q, if_pos hqi, s1 q]
      unfold shownSymbol
      simp only [hw']
      rw [if_neg (by omega)]
      rw [show (q.y - itemArea.y).toNat = (q.y - row.y).toNat by rw [hia'],
        show (q.x - itemArea.x).toNat = (q.x - row.x).toNat - w by rw [hia']; simp only; omega,
        show itemArea.width.toNat = row.width.toNat - w by rw [hia']; simp only; omega]
      cases item.lines[(q.y - row.y).toNat]? <;> rfl
    · intro q hq hk
      have : ¬ itemArea.contains q = true := by
        rw [hmem']
        rw [hmem] at hq
        omega
      unfold Buffer.symbolAt
      rw [o2' q this]
      exact s1 q
  obtain ⟨b2, e2, a2, wf2, o2, s2, s2'⟩ := htext _ rfl
  rw [e2]
  simp only [Option.bind_some]
  -- the symbol column
  have hcol : ∃ b3, (if spacing = true then symbolLoop u l isSelected row.x row.y row.width st (itemHeight item) 0 b2
        else some b2) = some b3 ∧ b3.area = b.area ∧ b3.WF ∧
      (∀ q, row.contains q = false → b3.cellAt q = b.cellAt q) ∧
      (∀ q, row.contains q = true →
        b3.symbolAt q = (shownSymbol u l spacing isSelected row.width.toNat item (q.y - row.y).toNat
          (q.x - row.x).toNat).or (b.symbolAt q)) ∧
      (spacing = true → ∀ q, row.contains q = true → (q.x - row.x).toNat < (u.graphemes l.highlightSymbol).length →
        ∃ c : Cell, b3.cellAt q = some (c.setStyle st)) := by
    have hb1 : ∀ q, row.contains q = false → b1.cellAt q = b.cellAt q := by
      intro q hq
      rw [c1, hq]
      rfl
    cases spacing with
    | false =>
      simp only [Bool.false_eq_true, if_false] at *
      exact ⟨b2, rfl, a2, wf2, fun q hq => (o2 q hq).trans (hb1 q hq), fun q hq => s2 q hq (by omega),
        fun h => by cases h⟩
    | true =>
      simp only [if_true] at *
      obtain ⟨b3, e3, a3, wf3, o3, s3⟩ := symbolLoop_spec hsp hu.space.2 l hsym isSelected row.x row.y row.width st hw
        (itemHeight item) 0 b2 wf2 (by rw [a2]; omega) (by rw [a2]; omega) (by rw [a2]; omega)
        (by rw [a2]; unfold itemHeight; push_cast; omega)
      refine ⟨b3, e3, a3.trans a2, wf3, ?_, ?_, ?_⟩
      · intro q hq
        rw [o3 q, o2 q hq, hb1 q hq]
        intro h
        rw [(hmem q).2 (by unfold itemHeight at h; push_cast at h; omega)] at hq
        cases hq
      · intro q hq
        have hq' := (hmem q).1 hq
        rw [(s3 q (by push_cast; omega) (by unfold itemHeight; push_cast; omega) hq'.1 hq'.2.1).1]
        by_cases hk : (q.x - row.x).toNat < (u.graphemes l.highlightSymbol).length
        · rw [if_pos hk, s2' q hq hk]
          unfold shownSymbol
          simp only [if_true]
          rw [if_pos hk]
        · rw [if_neg hk, Option.none_or, s2 q hq (by omega)]
      · intro _ q hq hk
        have hq' := (hmem q).1 hq
        exact (s3 q (by push_cast; omega) (by unfold itemHeight; push_cast; omega) hq'.1 hq'.2.1).2 hk
  obtain ⟨b3, e3, a3, wf3, o3, s3, y3⟩ := hcol
  have e3' : ∀ F : Buffer → Option Buffer, (if spacing = true then
      (symbolLoop u l isSelected row.x row.y row.width st (itemHeight item) 0 b2).bind F else F b2) = F b3 := by
    intro F
    cases spacing with
    | false =>
      simp only [Bool.false_eq_true, if_false, Option.some.injEq] at e3 ⊢
      rw [e3]
    | true =>
      simp only [if_true] at e3 ⊢
      rw [e3]
      rfl
  have e3'' := e3' fun b => if isSelected = true then b.setStyle row l.highlightStyle else some b
  beta_reduce at e3''
  rw [e3'']
  cases isSelected with
  | false => exact ⟨b3, rfl, a3, wf3, o3, s3, (fun h => by cases h), y3⟩
  | true =>
    simp only [if_true]
    obtain ⟨b4, e4, a4, wf4, c4⟩ := setStyle_cells wf3 row l.highlightStyle
    refine ⟨b4, e4, a4.trans a3, wf4, ?_, ?_, ?_, ?_⟩
    · intro q hq
      rw [c4, hq]
      exact o3 q hq
    · intro q hq
      rw [setStyle_symbols c4 q]
      exact s3 q hq
    · intro _ q hq
      have hq' := (hmem q).1 hq
      obtain ⟨c, hc⟩ := Buffer.WF.cellAt_isSome wf3 (p := q)
        (by rw [Rect.contains_iff]; unfold Rect.Mem; rw [a3]; omega)
      exact ⟨c, by rw [c4, if_pos hq, hc]; rfl⟩
    · intro hsp' q hq hk
      obtain ⟨c, hc⟩ := y3 hsp' q hq hk
      exact ⟨c, by rw [c4, if_pos hq, hc]; rfl⟩

/-- The height of the items before the `i`-th. -/
def heightBefore (items : List Text) (i : Nat) : Int := (((items.take i).map fun t => t.lines.length).sum : Nat)

/-- The rows of an item below (or above) `before` rows. -/
def rowsAt (l : ListWidget) (area : Rect) (before : Int) (item : Text) : Rect :=
  { x := area.x
    y := match l.direction with
      | .topToBottom => area.y + before
      | .bottomToTop => area.y + area.height - before - item.lines.length
    width := area.width
    height := item.lines.length }

theorem rowsOf_eq (l : ListWidget) (area : Rect) (items : List Text) (i : Nat) (item : Text) :
    rowsOf l area items i item = rowsAt l area (heightBefore items i) item := rfl

theorem heightBefore_zero (items : List Text) : heightBefore items 0 = 0 := by simp [heightBefore]

theorem heightBefore_succ (t : Text) (items : List Text) (i : Nat) :
    heightBefore (t :: items) (i + 1) = t.lines.length + heightBefore items i := by
  simp [heightBefore]

theorem heightBefore_nonneg (items : List Text) (i : Nat) : 0 ≤ heightBefore items i := by
  unfold heightBefore; omega

theorem heightBefore_item : ∀ (items : List Text) (i : Nat) (t : Text), items[i]? = some t →
    heightBefore items i + t.lines.length ≤ heightBefore items items.length
  | [], i, t, h => by simp at h
  | a :: items, 0, t, h => by
    simp only [List.getElem?_cons_zero, Option.some.injEq] at h
    subst h
    rw [heightBefore_zero, List.length_cons, heightBefore_succ]
    have := heightBefore_nonneg items items.length
    omega
  | a :: items, i + 1, t, h => by
    simp only [List.getElem?_cons_succ] at h
    have := heightBefore_item items i t h
    rw [List.length_cons, heightBefore_succ, heightBefore_succ]
    omega

theorem itemLoop_spec {u : Uniseg} (hu : u.Lawful) (hs : u.Suffix) (hsp : Blanks u) (l : ListWidget)
    (hsym : ∀ c ∈ u.graphemes l.highlightSymbol, u.width c = 1) (spacing : Bool) (sel : Option Int) (area : Rect)
    (hw : 0 < area.width) :
    ∀ (items : List Text) (i cur : Int) (b : Buffer), b.WF → Inside b area → 0 ≤ cur →
      cur + heightBefore items items.length ≤ area.height →
      (∀ t ∈ items, ∀ line ∈ t.lines, line.VisibleText u) →
      ∃ b', itemLoop u l spacing sel area items i cur b = some b' ∧ b'.area = b.area ∧ b'.WF ∧
        (∀ q, (∀ (k : Nat) (t : Text), items[k]? = some t →
            (rowsAt l area (cur + heightBefore items k) t).contains q = false) → b'.cellAt q = b.cellAt q) ∧
        (∀ (k : Nat) (t : Text), items[k]? = some t → ∀ q,
          (rowsAt l area (cur + heightBefore items k) t).contains q = true →
          b'.symbolAt q = (shownSymbol u l spacing (sel == some (i + k)) area.width.toNat t
            (q.y - (rowsAt l area (cur + heightBefore items k) t).y).toNat (q.x - area.x).toNat).or (b.symbolAt q) ∧
          (sel = some (i + k) → ∃ c : Cell, b'.cellAt q = some (c.setStyle l.highlightStyle)) ∧
          (spacing = true → (q.x - area.x).toNat < (u.graphemes l.highlightSymbol).length →
            ∃ c : Cell, b'.cellAt q = some (if (sel == some (i + k)) = true then
              (c.setStyle (l.style.patched t.style)).setStyle l.highlightStyle
              else c.setStyle (l.style.patched t.style))))
  | [], i, cur, b, wf, _, _, _, _ => ⟨b, rfl, rfl, wf, fun _ _ => rfl, fun k t h => by simp at h⟩
  | item :: items, i, cur, b, wf, hin, hcur, hfit, hn => by
    have hin' := hin
    obtain ⟨i1, i2, i3, i4, i5, i6⟩ := hin'
    rw [List.length_cons, heightBefore_succ] at hfit
    have hnn := heightBefore_nonneg items items.length
    have hrow : (⟨area.x, (match l.direction with
        | .bottomToTop => area.bottom - (cur + itemHeight item)
        | .topToBottom => area.y + cur), area.width, itemHeight item⟩ : Rect) = rowsAt l area cur item := by
      unfold rowsAt itemHeight Rect.bottom
      ext
      · rfl
      · cases l.direction <;> simp only <;> omega
      · rfl
      · rfl
    have hy : area.y ≤ (rowsAt l area cur item).y ∧
        (rowsAt l area cur item).y + item.lines.length ≤ area.y + area.height := by
      unfold rowsAt
      cases l.direction <;> simp only <;> omega
    obtain ⟨b1, e1, a1, wf1, o1, s1, h1, y1⟩ := renderItem_spec hu hs hsp l hsym spacing (sel == some i) item
      (hn item (by simp)) (rowsAt l area cur item) b wf
      (by unfold Inside; refine ⟨i1, i2, by omega, ?_, i5, by simp [rowsAt]⟩
          show (rowsAt l area cur item).y + (item.lines.length : Int) ≤ _
          omega)
      hw rfl
    obtain ⟨b2, e2, a2, wf2, o2, s2⟩ := itemLoop_spec hu hs hsp l hsym spacing sel area hw items (i + 1)
      (cur + item.lines.length) b1 wf1 (by unfold Inside at *; rw [a1]; exact hin) (by omega) (by omega)
      (fun t ht => hn t (by simp [ht]))
    -- the rows of later items are others
    have hdisj : ∀ (k : Nat) (t : Text), items[k]? = some t → ∀ q, (rowsAt l area cur item).contains q = true →
        (rowsAt l area (cur + item.lines.length + heightBefore items k) t).contains q = false := by
      intro k t ht q hq
      rw [← Bool.not_eq_true, Rect.contains_iff]
      rw [Rect.contains_iff] at hq
      have := heightBefore_nonneg items k
      unfold Rect.Mem rowsAt at *
      cases hd : l.direction <;> simp only [hd] at * <;> omega
    have hsucc : ∀ k, cur + heightBefore (item :: items) (k + 1) = cur + item.lines.length + heightBefore items k := by
      intro k; rw [heightBefore_succ]; omega
    refine ⟨b2, ?_, a2.trans a1, wf2, ?_, ?_⟩
    · have : itemLoop u l spacing sel area (item :: items) i cur b =
          (renderItem u l spacing (sel == some i) (rowsAt l area cur item) item b).bind
            (itemLoop u l spacing sel area items (i + 1) (cur + item.lines.length)) := by
        rw [← hrow]; rfl
      rw [this, e1]
      exact e2
    · intro q hq
      rw [o2 q, o1 q]
      · have := hq 0 item rfl
        rwa [heightBefore_zero, Int.add_zero] at this
      · intro k t ht
        have := hq (k + 1) t (by simpa using ht)
        rwa [hsucc] at this
    · intro k t ht q hq
      cases k with
      | zero =>
        simp only [List.getElem?_cons_zero, Option.some.injEq] at ht
        subst ht
        rw [heightBefore_zero, Int.add_zero] at hq ⊢
        have hkeep : b2.cellAt q = b1.cellAt q := o2 q fun k t ht => hdisj k t ht q hq
        rw [show i + ((0 : Nat) : Int) = i by omega]
        refine ⟨?_, ?_, ?_⟩
        · have : b2.symbolAt q = b1.symbolAt q := by unfold Buffer.symbolAt; rw [hkeep]
          rw [this]
          exact s1 q hq
        · intro hsel
          rw [hkeep]
          exact h1 (by simp [hsel]) q hq
        · intro h hk
          rw [hkeep]
          exact y1 h q hq hk
      | succ k =>
        simp only [List.getElem?_cons_succ] at ht
        rw [hsucc] at hq ⊢
        obtain ⟨r1, r2⟩ := s2 k t ht q hq
        have hout : (rowsAt l area cur item).contains q = false := by
          by_contra h
          have := hdisj k t ht q (by simpa using h)
          rw [hq] at this
          cases this
        have : b1.symbolAt q = b.symbolAt q := by
          unfold Buffer.symbolAt
          rw [o1 q hout]
        rw [show i + ((k + 1 : Nat) : Int) = i + 1 + (k : Int) by push_cast; omega]
        exact ⟨by rw [r1, this], r2⟩

theorem heightBefore_window (items : List Text) (f n : Nat) :
    heightBefore ((items.drop f).take n) ((items.drop f).take n).length =
      heightOf (items.map itemHeight) f (f + n) := by
  unfold heightBefore heightOf itemHeight
  rw [List.take_length, ← List.map_take, ← List.map_drop, List.drop_take, Nat.add_sub_cancel_left]

/-- The state that a user has: the offset is not negative, and neither is the selected index. -/
def State.Good (s : State) : Prop := 0 ≤ s.offset ∧ ∀ i ∈ s.selected, 0 ≤ i

/-- The selection that is drawn. -/
def drawnSelection (l : ListWidget) (s : State) : Option Int :=
  s.selected.map fun i => min i ((l.items.length : Int) - 1)

theorem renderItems_spec {u : Uniseg} (hu : u.Lawful) (hs : u.Suffix) (hsp : Blanks u) (l : ListWidget)
    (hsym : ∀ c ∈ u.graphemes l.highlightSymbol, u.width c = 1) (hne : l.items ≠ [])
    (hn : ∀ t ∈ l.items, ∀ line ∈ t.lines, line.VisibleText u) (hp : 0 ≤ l.scrollPadding) (area : Rect)
    (hw : 0 < area.width) (hh : 0 < area.height) (b : Buffer) (wf : b.WF) (hin : Inside b area) (s : State)
    (hg : s.Good) :
    ∃ (f n : Nat) (b' : Buffer),
      getItemsBounds (l.items.map itemHeight) l.scrollPadding (drawnSelection l s) s.offset area.height =
        some ((f : Int), ((f + n : Nat) : Int)) ∧
      renderItems u l area b s = some (b', ⟨f, drawnSelection l s⟩) ∧ b'.area = b.area ∧ b'.WF ∧
      (∀ q, area.contains q = false → b'.cellAt q = b.cellAt q) ∧
      (∀ q, (∀ (k : Nat) (t : Text), ((l.items.drop f).take n)[k]? = some t →
        (rowsOf l area ((l.items.drop f).take n) k t).contains q = false) → b'.cellAt q = b.cellAt q) ∧
      (∀ (k : Nat) (t : Text), ((l.items.drop f).take n)[k]? = some t → ∀ q,
        (rowsOf l area ((l.items.drop f).take n) k t).contains q = true →
        area.contains q = true ∧
        b'.symbolAt q = (shownSymbol u l (l.highlightSpacing.shouldAdd s.selected.isSome)
          (drawnSelection l s == some (f + k : Nat)) area.width.toNat t
          (q.y - (rowsOf l area ((l.items.drop f).take n) k t).y).toNat (q.x - area.x).toNat).or (b.symbolAt q) ∧
        (drawnSelection l s = some ((f + k : Nat) : Int) →
          ∃ c : Cell, b'.cellAt q = some (c.setStyle l.highlightStyle)) ∧
        (l.highlightSpacing.shouldAdd s.selected.isSome = true →
          (q.x - area.x).toNat < (u.graphemes l.highlightSymbol).length →
          ∃ c : Cell, b'.cellAt q = some (if (drawnSelection l s == some (f + k : Nat)) = true then
            (c.setStyle (l.style.patched t.style)).setStyle l.highlightStyle
            else c.setStyle (l.style.patched t.style)))) := by
  have hlen : 0 < l.items.length := List.length_pos_of_ne_nil hne
  obtain ⟨g1, g2⟩ := hg
  have hsel : ∀ i ∈ drawnSelection l s, 0 ≤ i := by
    intro i hi
    unfold drawnSelection at hi
    simp only [Option.mem_def, Option.map_eq_some_iff] at hi
    obtain ⟨j, hj, rfl⟩ := hi
    have := g2 j hj
    omega
  obtain ⟨f, e, he, h1, h2, h3⟩ := C40_window (l.items.map itemHeight) (by simpa using hlen) l.scrollPadding area.height
    s.offset (drawnSelection l s) hp (by omega) g1 hsel
  obtain ⟨n, rfl⟩ : ∃ n, e = f + n := ⟨e - f, by omega⟩
  obtain ⟨b', e', a', wf', o', s'⟩ := itemLoop_spec hu hs hsp l hsym (l.highlightSpacing.shouldAdd s.selected.isSome)
    (drawnSelection l s) area hw ((l.items.drop f).take n) f 0 b wf hin (by omega)
    (by rw [heightBefore_window]; omega)
    (fun t ht => hn t (List.mem_of_mem_drop (List.mem_of_mem_take ht)))
  have hstate : clampSelection l.items.length s = (⟨s.offset, drawnSelection l s⟩ : State) := by
    unfold drawnSelection clampSelection
    cases hsel' : s.selected with
    | none => cases s; simp only at hsel'; subst hsel'; rfl
    | some i =>
      simp only [Option.map_some]
      split_ifs with hi
      · unfold State.select
        simp only [State.mk.injEq, Option.some.injEq, true_and]
        omega
      · cases s; simp only at hsel'; subst hsel'
        simp only [State.mk.injEq, Option.some.injEq, true_and]
        omega
  have hrow : ∀ (k : Nat) (t : Text), ((l.items.drop f).take n)[k]? = some t →
      ∀ q, (rowsOf l area ((l.items.drop f).take n) k t).contains q = true → area.contains q = true := by
    intro k t ht q hq
    have := heightBefore_item _ k t ht
    rw [heightBefore_window] at this
    have := heightBefore_nonneg ((l.items.drop f).take n) k
    rw [Rect.contains_iff] at hq ⊢
    rw [rowsOf_eq] at hq
    unfold Rect.Mem rowsAt at *
    cases hd : l.direction <;> simp only [hd] at * <;> omega
  refine ⟨f, n, b', he, ?_, a', wf', ?_, ?_, ?_⟩
  · unfold renderItems
    have hempty : area.isEmpty = false := by simp [Rect.isEmpty]; omega
    rw [hempty, if_neg (by simp; omega)]
    simp only [hstate, he, Option.bind_eq_bind, Option.bind_some]
    rw [if_neg (by omega), show ((f : Int)).toNat = f by omega,
      show (((f + n : Nat) : Int) - (f : Int)).toNat = n by omega]
    have hsome : (drawnSelection l s).isSome = s.selected.isSome := by
      unfold drawnSelection; simp
    rw [hsome, e']
    rfl
  · intro q hq
    refine o' q fun k t ht => ?_
    rw [Int.zero_add, ← rowsOf_eq]
    by_contra h
    rw [hrow k t ht q (by simpa using h)] at hq
    cases hq
  · intro q hq
    refine o' q fun k t ht => ?_
    rw [Int.zero_add, ← rowsOf_eq]
    exact hq k t ht
  · intro k t ht q hq
    have := s' k t ht q (by rw [Int.zero_add, ← rowsOf_eq]; exact hq)
    rw [Int.zero_add, ← rowsOf_eq] at this
    exact ⟨hrow k t ht q hq, this⟩

theorem inside_of_sub {b : Buffer} {area inner : Rect} (hin : Inside b area) (hw : 0 < inner.width)
    (hh : 0 < inner.height) (h : ∀ q, inner.contains q = true → area.contains q = true) : Inside b inner := by
  have h1 := h ⟨inner.x, inner.y⟩ (by rw [Rect.contains_iff]; unfold Rect.Mem; simp only; omega)
  have h2 := h ⟨inner.x + inner.width - 1, inner.y + inner.height - 1⟩
    (by rw [Rect.contains_iff]; unfold Rect.Mem; simp only; omega)
  rw [Rect.contains_iff] at h1 h2
  unfold Rect.Mem at h1 h2
  unfold Inside at *
  simp only at h1 h2
  omega

end ListWidget

/-- **C72 (partial).** A list drawn to an area inside the buffer does not panic and changes only cells of the
area. The items shown are a part of the list; each takes its own rows, one after the other; their rows show
the highlight symbol (or blanks, both in the style of the item over that of the list) and then the lines of
the item; the rows of the selected item get the highlight style last; other cells of the content area keep
their symbols and get the style of the list (and of the block).
Missing: areas that are not inside the buffer (`C72_outside_false`), text with clusters
without width, and a wide highlight symbol. -/
theorem C72_list_partial {u : Uniseg} (hu : u.Lawful) (hs : u.Suffix) (hsp : Blanks u) (l : ListWidget)
    (hsym : ∀ c ∈ u.graphemes l.highlightSymbol, u.width c = 1) (hne : l.items ≠ [])
    (hn : ∀ t ∈ l.items, ∀ line ∈ t.lines, line.VisibleText u) (hp : 0 ≤ l.scrollPadding) (area : Rect)
    (hx : 0 ≤ area.x)
    (hpad : ∀ k ∈ l.block, 0 ≤ k.padding.left ∧ 0 ≤ k.padding.right ∧ 0 ≤ k.padding.top ∧ 0 ≤ k.padding.bottom)
    (hw : 0 < (content l area).width) (hh : 0 < (content l area).height)
    (b : Buffer) (wf : b.WF) (hin : Inside b area) (s : State) (hg : 0 ≤ s.offset ∧ ∀ i ∈ s.selected, 0 ≤ i) :
    ∃ (f n : Nat) (b' : Buffer) (sel : Option Int),
      sel = s.selected.map (fun i => min i ((l.items.length : Int) - 1)) ∧
      getItemsBounds (l.items.map fun t => t.lines.length) l.scrollPadding sel s.offset (content l area).height =
        some ((f : Int), ((f + n : Nat) : Int)) ∧
      render u l area b s = some (b', ⟨f, sel⟩) ∧ b'.area = b.area ∧ b'.WF ∧
      (∀ q, area.contains q = false → b'.cellAt q = b.cellAt q) ∧
      (∀ q, (content l area).contains q = true → (∀ (k : Nat) (t : Text), ((l.items.drop f).take n)[k]? = some t →
        (rowsOf l (content l area) ((l.items.drop f).take n) k t).contains q = false) →
          b'.cellAt q = (b.cellAt q).map (fun c =>
            l.block.elim (c.setStyle l.style) fun k => (c.setStyle l.style).setStyle k.style)) ∧
      (∀ (k : Nat) (t : Text), ((l.items.drop f).take n)[k]? = some t → ∀ q,
        (rowsOf l (content l area) ((l.items.drop f).take n) k t).contains q = true →
        (content l area).contains q = true ∧
        b'.symbolAt q = (shownSymbol u l (l.highlightSpacing.shouldAdd s.selected.isSome)
          (sel == some (f + k : Nat)) (content l area).width.toNat t
          (q.y - (rowsOf l (content l area) ((l.items.drop f).take n) k t).y).toNat
          (q.x - (content l area).x).toNat).or (b.symbolAt q) ∧
        (sel = some ((f + k : Nat) : Int) → ∃ c : Cell, b'.cellAt q = some (c.setStyle l.highlightStyle)) ∧
        (l.highlightSpacing.shouldAdd s.selected.isSome = true →
          (q.x - (content l area).x).toNat < (u.graphemes l.highlightSymbol).length →
          ∃ c : Cell, b'.cellAt q = some (if (sel == some (f + k : Nat)) = true then
            (c.setStyle (l.style.patched t.style)).setStyle l.highlightStyle
            else c.setStyle (l.style.patched t.style)))) := by
  obtain ⟨b1, e1, a1, wf1, c1⟩ := setStyle_cells wf area l.style
  have s1 := setStyle_symbols c1
  have hin1 : Inside b1 area := by unfold Inside at *; rw [a1]; exact hin
  -- the block
  obtain ⟨b2, e2, a2, wf2, o2, s2, hsub⟩ : ∃ b2 : Buffer, render u l area b s = renderItems u l (content l area) b2 s ∧
      b2.area = b.area ∧ b2.WF ∧ (∀ q, area.contains q = false → b2.cellAt q = b.cellAt q) ∧
      (∀ q, (content l area).contains q = true → b2.cellAt q = (b.cellAt q).map (fun c =>
            l.block.elim (c.setStyle l.style) fun k => (c.setStyle l.style).setStyle k.style)) ∧
      (∀ q, (content l area).contains q = true → area.contains q = true) := by
    unfold render
    rw [e1]
    simp only [Option.bind_eq_bind, Option.bind_some]
    cases hb : l.block with
    | none =>
      have hc : content l area = area := by unfold content; rw [hb]; rfl
      rw [hc]
      exact ⟨b1, rfl, a1, wf1, fun q hq => by rw [c1, hq]; rfl, fun q h => by rw [c1, if_pos h]; rfl, fun q h => h⟩
    | some k =>
      have hc : content l area = k.inner area := by unfold content; rw [hb]; rfl
      rw [hc]
      obtain ⟨b2, e2, a2, wf2, o2, i2⟩ := C43_frame_only_partial u k area b1 wf1 hin1 hx
      have hsub : ∀ q, (k.inner area).contains q = true → area.contains q = true ∧ ¬ k.OnFrame area q :=
        fun q hq => C42_inner_inside k area hin.2.2.2.2.1 hin.2.2.2.2.2 (hpad k hb) q hq
      refine ⟨b2, by simp only [e2, Option.bind_some], a2.trans a1, wf2, ?_, ?_, fun q hq => (hsub q hq).1⟩
      · intro q hq
        rw [o2 q hq, c1, hq]
        rfl
      · intro q hq
        rw [i2 q (hsub q hq).1 (hsub q hq).2, c1, if_pos (hsub q hq).1]
        cases b.cellAt q <;> rfl
  have hinc : Inside b2 (content l area) :=
    inside_of_sub (by unfold Inside at *; rw [a2]; exact hin) hw hh hsub
  obtain ⟨f, n, b', g1, g2, g3, g4, g5, g6, g7⟩ := renderItems_spec hu hs hsp l hsym hne hn hp (content l area) hw hh b2
    wf2 hinc s hg
  refine ⟨f, n, b', drawnSelection l s, rfl, g1, by rw [e2, g2], g3.trans a2, g4, ?_, ?_, ?_⟩
  · intro q hq
    rw [g5 q, o2 q hq]
    by_contra h
    rw [hsub q (by simpa using h)] at hq
    cases hq
  · intro q hq hrows
    rw [g6 q hrows]
    exact s2 q hq
  · intro k t ht q hq
    obtain ⟨r1, r2, r3⟩ := g7 k t ht q hq
    have : b2.symbolAt q = b.symbolAt q := by
      unfold Buffer.symbolAt
      rw [s2 q r1]
      cases b.cellAt q with
      | none => rfl
      | some c => cases l.block <;> rfl
    exact ⟨r1, by rw [r2, this], r3⟩

theorem simple_blanks : Blanks Uniseg.simple := by
  intro n
  simp [Uniseg.simple]

/-- An item with the given lines. -/
def sampleItem (alignment : Alignment) (lines : List String) : Text :=
  { style := Style.new, alignment := alignment
    lines := lines.map fun s => { style := Style.new, alignment := .none, spans := [{ style := Style.new, content := s }] } }

/-- A list of three items, the second of two lines, with a highlight symbol. -/
def sampleList : ListWidget :=
  { items := [sampleItem .none ["ab"], sampleItem .right ["cd", "e"], sampleItem .none ["f"]]
    block := none
    style := Style.new
    direction := .topToBottom
    highlightStyle := Style.new
    highlightSymbol := ">"
    repeatHighlightSymbol := false
    highlightSpacing := .whenSelected
    scrollPadding := 0 }

/-- The hypotheses hold for it, and the list shows the second and third item. -/
example : (∀ c ∈ Uniseg.simple.graphemes sampleList.highlightSymbol, Uniseg.simple.width c = 1) ∧
    sampleList.items ≠ [] ∧ 0 ≤ sampleList.scrollPadding ∧ content sampleList ⟨0, 0, 4, 3⟩ = ⟨0, 0, 4, 3⟩ ∧
    ((render Uniseg.simple sampleList ⟨0, 0, 4, 3⟩ ⟨⟨0, 0, 4, 3⟩, List.replicate 12 Cell.empty⟩
      ⟨0, some 7⟩).map fun r => (r.1.content.map Cell.symbol, r.2)) =
      some ([" ", " ", "c", "d", " ", " ", " ", "e", ">", "f", " ", " "], ⟨1, some 2⟩) := by decide +kernel

/-- A list with wide text: the symbol that does not fit behind the highlight symbol is cut off. -/
example :
    ((render Uniseg.simple { sampleList with items := [sampleItem .none ["世界"], sampleItem .right ["界"]] }
      ⟨0, 0, 4, 2⟩ ⟨⟨0, 0, 4, 2⟩, List.replicate 8 Cell.empty⟩ ⟨0, some 0⟩).map fun r => r.1.content.map Cell.symbol) =
      some [">", "世", " ", " ", " ", " ", "界", " "] := by decide +kernel

/-- A list in an area that is partly outside the buffer panics. -/
theorem C72_outside_false :
    render Uniseg.simple sampleList ⟨0, 0, 4, 3⟩ ⟨⟨0, 0, 4, 2⟩, List.replicate 8 Cell.empty⟩ ⟨0, some 0⟩ = none := by
  decide +kernel

end Bento
