import Verif.Spec.InputField

/-!
# Lemmas about the text input
-/

namespace Bento

namespace InputField

/-! ### Widths of parts -/

theorem columnsOf_self (gs : List Grapheme) (i : Nat) : columnsOf gs i i = 0 := by
  unfold columnsOf
  rw [List.drop_eq_nil_of_le (by simp)]
  rfl

theorem sum_width_nonneg (gs : List Grapheme) : 0 ≤ (gs.map fun g => (g.width : Int)).sum := by
  induction gs with
  | nil => simp
  | cons a t ih => simp only [List.map_cons, List.sum_cons]; omega

theorem columnsOf_nonneg (gs : List Grapheme) (i j : Nat) : 0 ≤ columnsOf gs i j := sum_width_nonneg _

theorem columnsOf_succ {gs : List Grapheme} {i j : Nat} (hi : i ≤ j) {g : Grapheme} (hg : gs[j]? = some g) :
    columnsOf gs i (j + 1) = columnsOf gs i j + g.width := by
  have hlt := (List.getElem?_eq_some_iff.1 hg).1
  unfold columnsOf
  rw [List.take_add_one, hg, List.drop_append_of_le_length (by rw [List.length_take]; omega)]
  simp

theorem columnsOf_front {gs : List Grapheme} {i j : Nat} (hi : i < j) (hj : j ≤ gs.length) {g : Grapheme}
    (hg : gs[i]? = some g) : columnsOf gs i j = g.width + columnsOf gs (i + 1) j := by
  unfold columnsOf
  have h : (gs.take j)[i]? = some g := by rw [List.getElem?_take_of_lt hi, hg]
  have hlt := (List.getElem?_eq_some_iff.1 h).1
  rw [List.drop_eq_getElem_cons hlt]
  have : (gs.take j)[i] = g := by
    rw [List.getElem?_eq_getElem hlt] at h
    simpa using h
  rw [this, List.map_cons, List.sum_cons]

theorem columnsOf_mono {gs : List Grapheme} {i j k : Nat} (h : j ≤ k) :
    columnsOf gs i j ≤ columnsOf gs i k := by
  unfold columnsOf
  have : gs.take j = (gs.take k).take j := by rw [List.take_take, Nat.min_eq_left h]
  rw [this]
  generalize gs.take k = l
  rw [List.drop_take]
  generalize l.drop i = m
  have := List.take_append_drop (j - i) m
  conv => rhs; rw [← this]
  rw [List.map_append, List.sum_append]
  have := sum_width_nonneg (m.drop (j - i))
  omega

theorem columnsOf_take {gs gs' : List Grapheme} {i j : Nat} (h : gs.take j = gs'.take j) :
    columnsOf gs i j = columnsOf gs' i j := by unfold columnsOf; rw [h]

theorem getElem?_of_lt {gs : List Grapheme} {i : Nat} (h : i < gs.length) : ∃ g, gs[i]? = some g :=
  ⟨_, List.getElem?_eq_getElem h⟩

/-! ### The loops of `getBounds` -/

namespace State

theorem fitLoop_spec {maxWidth : Int} (gs : List Grapheme) (o : Nat) : ∀ (n l : Nat), gs.length = l + n →
    o ≤ l → columnsOf gs o l ≤ maxWidth →
    ∃ l' : Nat, fitLoop maxWidth (gs.drop l) (columnsOf gs o l) l = (columnsOf gs o l', (l' : Int)) ∧ l ≤ l' ∧
      l' ≤ gs.length ∧ columnsOf gs o l' ≤ maxWidth ∧
      (l' = gs.length ∨ maxWidth < columnsOf gs o (l' + 1)) := by
  intro n
  induction n with
  | zero =>
    intro l hl ho hw
    refine ⟨l, ?_, Nat.le_refl _, by omega, hw, .inl (by omega)⟩
    rw [List.drop_eq_nil_of_le (by omega)]
    rfl
  | succ n ih =>
    intro l hl ho hw
    obtain ⟨g, hg⟩ := getElem?_of_lt (gs := gs) (i := l) (by omega)
    have hlt := (List.getElem?_eq_some_iff.1 hg).1
    have hgl : gs[l] = g := by rw [List.getElem?_eq_getElem hlt] at hg; simpa using hg
    rw [List.drop_eq_getElem_cons hlt, hgl]
    have hs := columnsOf_succ ho hg
    unfold fitLoop
    by_cases hc : columnsOf gs o l + g.width > maxWidth
    · rw [if_pos hc]
      exact ⟨l, rfl, Nat.le_refl _, by omega, hw, .inr (by omega)⟩
    · rw [if_neg hc]
      obtain ⟨l', e, h1, h2, h3, h4⟩ := ih (l + 1) (by omega) (by omega) (by omega)
      rw [hs] at e
      exact ⟨l', e, by omega, h2, h3, h4⟩

/-- Giving up graphemes at the front keeps the last one, if that fits. -/
theorem shrinkFront_spec {maxWidth : Int} (gs : List Grapheme) (l : Nat) (hl : l < gs.length)
    (hlast : ∀ g, gs[l]? = some g → (g.width : Int) ≤ maxWidth) : ∀ (n f : Nat), f + n = l →
    ∃ f' : Nat, shrinkFront maxWidth (gs.drop f) (columnsOf gs f (l + 1)) f =
        some (columnsOf gs f' (l + 1), (f' : Int)) ∧ f ≤ f' ∧ f' ≤ l ∧ columnsOf gs f' (l + 1) ≤ maxWidth := by
  intro n
  induction n with
  | zero =>
    intro f hf
    have hf : f = l := by omega
    subst hf
    obtain ⟨g, hg⟩ := getElem?_of_lt hl
    have hgl : gs[f] = g := by rw [List.getElem?_eq_getElem hl] at hg; simpa using hg
    have hw := hlast g hg
    have hc := columnsOf_succ (Nat.le_refl f) hg
    rw [columnsOf_self] at hc
    refine ⟨f, ?_, Nat.le_refl _, Nat.le_refl _, by omega⟩
    rw [List.drop_eq_getElem_cons hl]
    unfold shrinkFront
    rw [if_neg (by omega)]
  | succ n ih =>
    intro f hf
    obtain ⟨g, hg⟩ := getElem?_of_lt (gs := gs) (i := f) (by omega)
    have hlt := (List.getElem?_eq_some_iff.1 hg).1
    have hgl : gs[f] = g := by rw [List.getElem?_eq_getElem hlt] at hg; simpa using hg
    rw [List.drop_eq_getElem_cons hlt, hgl]
    unfold shrinkFront
    by_cases hc : columnsOf gs f (l + 1) > maxWidth
    · rw [if_pos hc]
      have hfr := columnsOf_front (show f < l + 1 by omega) (by omega) hg
      have hnn := columnsOf_nonneg gs (f + 1) (l + 1)
      rw [show max 0 (columnsOf gs f (l + 1) - (g.width : Int)) = columnsOf gs (f + 1) (l + 1) by omega]
      obtain ⟨f', e, h1, h2, h3⟩ := ih (f + 1) (by omega)
      exact ⟨f', e, by omega, h2, h3⟩
    · rw [if_neg hc]
      exact ⟨f, rfl, Nat.le_refl _, by omega, by omega⟩

theorem shrinkBack_spec {maxWidth : Int} (gs : List Grapheme) (f : Nat) (hf : f < gs.length)
    (hfirst : ∀ g, gs[f]? = some g → (g.width : Int) ≤ maxWidth) : ∀ (n l : Nat), l = f + 1 + n → l ≤ gs.length →
    ∃ l' : Nat, shrinkBack maxWidth gs l (columnsOf gs f l) = some (columnsOf gs f l', (l' : Int)) ∧ f < l' ∧
      l' ≤ l ∧ columnsOf gs f l' ≤ maxWidth := by
  intro n
  induction n with
  | zero =>
    intro l hl hle
    have hl : l = f + 1 := by omega
    subst hl
    obtain ⟨g, hg⟩ := getElem?_of_lt hf
    have hw := hfirst g hg
    have hc := columnsOf_succ (Nat.le_refl f) hg
    rw [columnsOf_self] at hc
    refine ⟨f + 1, ?_, by omega, Nat.le_refl _, by omega⟩
    unfold shrinkBack
    rw [if_neg (by omega)]
    rfl
  | succ n ih =>
    intro l hl hle
    have hl : l = (f + 1 + n) + 1 := by omega
    subst hl
    obtain ⟨g, hg⟩ := getElem?_of_lt (gs := gs) (i := f + 1 + n) (by omega)
    unfold shrinkBack
    by_cases hc : columnsOf gs f (f + 1 + n + 1) > maxWidth
    · rw [if_pos hc, hg]
      simp only [Option.bind_eq_bind, Option.bind_some]
      have hs := columnsOf_succ (show f ≤ f + 1 + n by omega) hg
      have hnn := columnsOf_nonneg gs f (f + 1 + n)
      rw [show max 0 (columnsOf gs f (f + 1 + n + 1) - (g.width : Int)) = columnsOf gs f (f + 1 + n) by omega]
      obtain ⟨l', e, h1, h2, h3⟩ := ih (f + 1 + n) rfl (by omega)
      exact ⟨l', e, h1, by omega, h3⟩
    · rw [if_neg hc]
      exact ⟨f + 1 + n + 1, rfl, by omega, Nat.le_refl _, by omega⟩

theorem backLoop_spec {maxWidth : Int} (gs : List Grapheme)
    (hfit : ∀ g ∈ gs, (g.width : Int) ≤ maxWidth) : ∀ (n f l : Nat), n ≤ f → f ≤ l → l ≤ gs.length →
    (f = l → 0 < n) → f < gs.length ∨ 0 < n → columnsOf gs f l ≤ maxWidth →
    ∃ l' : Nat, backLoop maxWidth gs n (columnsOf gs f l) f l =
        some (columnsOf gs (f - n) l', ((f - n : Nat) : Int), (l' : Int)) ∧ f - n < l' ∧ l' ≤ l ∧
      columnsOf gs (f - n) l' ≤ maxWidth := by
  intro n
  induction n with
  | zero =>
    intro f l _ hfl hl h0 _ hw
    exact ⟨l, rfl, by omega, Nat.le_refl _, hw⟩
  | succ n ih =>
    intro f l hn hfl hl _ _ hw
    obtain ⟨g, hg⟩ := getElem?_of_lt (gs := gs) (i := f - 1) (by omega)
    have hfr := columnsOf_front (show f - 1 < l by omega) hl hg
    rw [show f - 1 + 1 = f by omega] at hfr
    obtain ⟨l2, e2, h1, h2, h3⟩ := shrinkBack_spec (maxWidth := maxWidth) gs (f - 1) (by omega)
      (fun g hg => hfit g (List.mem_of_getElem? hg)) (l - f) l (by omega) hl
    obtain ⟨l', e, h4, h5, h6⟩ := ih (f - 1) l2 (by omega) (by omega) (by omega) (fun h => by omega)
      (.inl (by omega)) h3
    rw [show f - 1 - n = f - (n + 1) by omega] at e h4 h6
    refine ⟨l', ?_, h4, by omega, h6⟩
    unfold backLoop
    have hat : at? gs ((f : Int) - 1) = some g := by
      unfold at?
      rw [if_neg (by omega), show ((f : Int) - 1).toNat = f - 1 by omega, hg]
    rw [hat]
    simp only [Option.bind_eq_bind, Option.bind_some, Int.toNat_natCast]
    rw [show columnsOf gs f l + (g.width : Int) = columnsOf gs (f - 1) l by omega, e2]
    simp only [Option.bind_some]
    rw [show (f : Int) - 1 = ((f - 1 : Nat) : Int) by omega]
    exact e

end State

/-- The state is one that can be rendered in the given width: the cursor is not too far behind the part
shown last. -/
structure Ready (w : Int) (s : State) : Prop where
  offset : 0 ≤ s.offset
  low : 0 ≤ s.cursor
  high : s.cursor ≤ s.graphemes.length
  home : s.cursor = 0 → s.offset = 0 ∨ s.graphemes = []
  fit : ∀ g ∈ s.graphemes, (g.width : Int) ≤ w
  near : columnsOf s.graphemes (min s.offset.toNat (s.graphemes.length - 1)) (s.cursor.toNat - 1) ≤ w

/-- What `getBounds` finds. -/
theorem getBounds_spec {w : Int} {s : State} (hw : 0 ≤ w) (h : Ready w s) :
    ∃ f l : Nat, s.getBounds w = some ((f : Int), (l : Int)) ∧ l ≤ s.graphemes.length ∧
      columnsOf s.graphemes f l ≤ w ∧ (f : Int) ≤ s.cursor ∧ s.cursor ≤ l ∧ (0 < s.cursor → (f : Int) < s.cursor) ∧
      (s.cursor = 0 → f = 0) ∧ (s.graphemes ≠ [] → f < l) := by
  obtain ⟨ho, hlow, hhigh, hhome, hfit, hnear⟩ := h
  unfold State.getBounds
  by_cases he : s.graphemes = []
  · rw [if_pos (by rw [he]; rfl)]
    have : s.cursor = 0 := by rw [he] at hhigh; simp at hhigh; omega
    refine ⟨0, 0, rfl, by omega, ?_, by omega, by omega, by omega, by omega, fun h => absurd he h⟩
    rw [columnsOf_self]; exact hw
  have hlen : 0 < s.graphemes.length := List.length_pos_of_ne_nil he
  rw [if_neg (by omega)]
  generalize hgs : s.graphemes = gs at *
  obtain ⟨o, hoe, hol⟩ : ∃ o : Nat, min s.offset (max 0 ((gs.length : Int) - 1)) = (o : Int) ∧ o < gs.length :=
    ⟨(min s.offset (max 0 ((gs.length : Int) - 1))).toNat, by omega, by omega⟩
  have ho2 : min s.offset.toNat (gs.length - 1) = o := by omega
  rw [ho2] at hnear
  simp only [hoe]
  rw [if_neg (by omega), Int.toNat_natCast]
  obtain ⟨l0, e0, h1, h2, h3, h4⟩ := State.fitLoop_spec (maxWidth := w) gs o (gs.length - o) o (by omega)
    (Nat.le_refl _) (by rw [columnsOf_self]; exact hw)
  rw [columnsOf_self] at e0
  rw [e0]
  simp only
  obtain ⟨c, hc⟩ : ∃ c : Nat, s.cursor = c := ⟨s.cursor.toNat, by omega⟩
  rw [hc] at hlow hhigh hhome hnear ⊢
  simp only [Int.toNat_natCast] at hnear
  -- the grapheme before the cursor, or the first one
  by_cases hc0 : c = 0
  · subst hc0
    have ho0 : o = 0 := by
      rcases hhome rfl with h | h
      · omega
      · exact absurd h he
    subst ho0
    have hl0 : 0 < l0 := by
      rcases h4 with h4 | h4
      · omega
      · rcases Nat.eq_zero_or_pos l0 with hz | hz
        · exfalso
          subst hz
          obtain ⟨g, hg⟩ := getElem?_of_lt hol
          have := columnsOf_succ (Nat.le_refl 0) hg
          rw [columnsOf_self] at this
          have := hfit g (List.mem_of_getElem? hg)
          omega
        · exact hz
    rw [if_neg (by simp)]
    have hz : ((((0 : Nat) : Int)) - (l0 : Int) + 1).toNat = 0 := by omega
    rw [hz]
    simp only [State.growLoop, Option.bind_eq_bind, Option.bind_some]
    rw [show (((0 : Nat) : Int) - ((0 : Nat) : Int)).toNat = 0 by omega]
    simp only [State.backLoop, Option.bind_some]
    rw [if_neg (by omega)]
    exact ⟨0, l0, rfl, h2, h3, by omega, by omega, by omega, fun _ => rfl, fun _ => hl0⟩
  · rw [if_pos (by omega)]
    -- the part shown reaches the cursor
    have hreach : c - 1 ≤ l0 := by
      rcases h4 with h4 | h4
      · omega
      · by_cases hlt : c - 1 ≤ l0
        · exact hlt
        · exfalso
          have := columnsOf_mono (gs := gs) (i := o) (show l0 + 1 ≤ c - 1 by omega)
          omega
    have hidx : min ((c : Int) - 1) (l0 : Int) = ((c - 1 : Nat) : Int) := by omega
    rw [hidx]
    have hfinal : ∀ f l : Nat, f < c → c ≤ l → l ≤ gs.length → columnsOf gs f l ≤ w →
        ∃ f' l' : Nat, (if (c : Int) - (f : Int) ≥ (l : Int) then
            some ((f : Int) + ((c : Int) - (l : Int)), (l : Int) + ((c : Int) - (l : Int)))
          else some ((f : Int), (l : Int))) = some ((f' : Int), (l' : Int)) ∧ l' ≤ gs.length ∧
          columnsOf gs f' l' ≤ w ∧ (f' : Int) ≤ (c : Int) ∧ (c : Int) ≤ (l' : Int) ∧
          (0 < (c : Int) → (f' : Int) < (c : Int)) ∧ ((c : Int) = 0 → f' = 0) ∧ (gs ≠ [] → f' < l') := by
      intro f l a1 a2 a3 a4
      refine ⟨f, l, ?_, a3, a4, by omega, by omega, by omega, by omega, by omega⟩
      split
      · rw [show (c : Int) - (l : Int) = 0 by omega]
        simp
      · rfl
    by_cases hB : c - 1 = l0
    · -- the grapheme before the cursor is just behind the part shown
      rw [show (((c - 1 : Nat) : Int) - (l0 : Int) + 1).toNat = 1 by omega]
      obtain ⟨g, hg⟩ := getElem?_of_lt (gs := gs) (i := l0) (by omega)
      have hat : State.at? gs (l0 : Int) = some g := by
        unfold State.at?
        rw [if_neg (by omega), Int.toNat_natCast, hg]
      obtain ⟨f', e1, i1, i2, i3⟩ := State.shrinkFront_spec (maxWidth := w) gs l0 (by omega)
        (fun g hg => hfit g (List.mem_of_getElem? hg)) (l0 - o) o (by omega)
      have hs := columnsOf_succ h1 hg
      unfold State.growLoop
      rw [hat]
      simp only [Option.bind_eq_bind, Option.bind_some, Int.toNat_natCast]
      rw [← hs, e1]
      simp only [Option.bind_some, State.growLoop]
      rw [show ((f' : Int) - ((c - 1 : Nat) : Int)).toNat = 0 by omega]
      simp only [State.backLoop, Option.bind_some]
      have := hfinal f' (l0 + 1) (by omega) (by omega) (by omega) i3
      rw [show ((l0 + 1 : Nat) : Int) = (l0 : Int) + 1 by omega] at this
      exact this
    · rw [show (((c - 1 : Nat) : Int) - (l0 : Int) + 1).toNat = 0 by omega]
      simp only [State.growLoop, Option.bind_eq_bind, Option.bind_some]
      obtain ⟨l', e2, i1, i2, i3⟩ := State.backLoop_spec (maxWidth := w) gs hfit (o - (c - 1)) o l0 (by omega)
        h1 h2 (by omega) (.inl hol) h3
      rw [show ((o : Int) - ((c - 1 : Nat) : Int)).toNat = o - (c - 1) by omega, e2]
      simp only [Option.bind_some]
      refine hfinal (o - (o - (c - 1))) l' (by omega) ?_ (by omega) i3
      -- nothing is given up at the back unless the part is extended to the front
      by_cases hz : o ≤ c - 1
      · have : o - (c - 1) = 0 := by omega
        rw [this] at e2
        simp only [State.backLoop, Option.some.injEq, Prod.mk.injEq] at e2
        omega
      · omega

end InputField

end Bento
