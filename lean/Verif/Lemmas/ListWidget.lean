import Verif.Spec.ListWidget

/-!
# Lemmas about the items a list shows
-/

namespace Bento

namespace ListWidget

theorem heightOf_ge (hs : List Nat) {i j : Nat} (h : j ≤ i) : heightOf hs i j = 0 := by
  unfold heightOf
  rw [List.drop_eq_nil_of_le (by simp; omega)]
  rfl

theorem heightOf_nonneg (hs : List Nat) (i j : Nat) : 0 ≤ heightOf hs i j := by unfold heightOf; omega

theorem heightOf_succ {hs : List Nat} {i j : Nat} (hi : i ≤ j) {h : Nat} (hh : hs[j]? = some h) :
    heightOf hs i (j + 1) = heightOf hs i j + h := by
  have hlt := (List.getElem?_eq_some_iff.1 hh).1
  unfold heightOf
  rw [List.take_add_one, hh, List.drop_append_of_le_length (by rw [List.length_take]; omega)]
  simp

theorem heightOf_front {hs : List Nat} {i j : Nat} (hi : i < j) {h : Nat} (hh : hs[i]? = some h) :
    heightOf hs i j = h + heightOf hs (i + 1) j := by
  unfold heightOf
  have h' : (hs.take j)[i]? = some h := by rw [List.getElem?_take_of_lt hi, hh]
  have hlt := (List.getElem?_eq_some_iff.1 h').1
  rw [List.drop_eq_getElem_cons hlt]
  have : (hs.take j)[i] = h := by
    rw [List.getElem?_eq_getElem hlt] at h'
    simpa using h'
  rw [this, List.sum_cons]
  push_cast
  rfl

theorem heightOf_mono {hs : List Nat} {i i' j k : Nat} (hi : i' ≤ i) (h : j ≤ k) :
    heightOf hs i j ≤ heightOf hs i' k := by
  have h1 : heightOf hs i j ≤ heightOf hs i k := by
    unfold heightOf
    have : hs.take j = (hs.take k).take j := by rw [List.take_take, Nat.min_eq_left h]
    rw [this]
    generalize hs.take k = l
    rw [List.drop_take]
    generalize l.drop i = m
    have := List.take_append_drop (j - i) m
    conv => rhs; rw [← this]
    rw [List.sum_append]
    push_cast
    omega
  have h2 : heightOf hs i k ≤ heightOf hs i' k := by
    unfold heightOf
    generalize hs.take k = l
    rw [show i = i' + (i - i') by omega, ← List.drop_drop]
    generalize l.drop i' = m
    have := List.take_append_drop (i - i') m
    conv => rhs; rw [← this]
    rw [List.sum_append]
    push_cast
    omega
  omega

theorem getElem?_of_lt {hs : List Nat} {i : Nat} (h : i < hs.length) : ∃ g, hs[i]? = some g :=
  ⟨_, List.getElem?_eq_getElem h⟩

theorem fitLoop_spec {m : Int} (hs : List Nat) (o : Nat) : ∀ (n l : Nat), hs.length = l + n →
    o ≤ l → heightOf hs o l ≤ m →
    ∃ l' : Nat, fitLoop m (hs.drop l) (heightOf hs o l) l = (heightOf hs o l', (l' : Int)) ∧ l ≤ l' ∧
      l' ≤ hs.length ∧ heightOf hs o l' ≤ m ∧ (l' = hs.length ∨ m < heightOf hs o (l' + 1)) := by
  intro n
  induction n with
  | zero =>
    intro l hl ho hw
    refine ⟨l, ?_, Nat.le_refl _, by omega, hw, .inl (by omega)⟩
    rw [List.drop_eq_nil_of_le (by omega)]
    rfl
  | succ n ih =>
    intro l hl ho hw
    obtain ⟨g, hg⟩ := getElem?_of_lt (hs := hs) (i := l) (by omega)
    have hlt := (List.getElem?_eq_some_iff.1 hg).1
    have hgl : hs[l] = g := by rw [List.getElem?_eq_getElem hlt] at hg; simpa using hg
    rw [List.drop_eq_getElem_cons hlt, hgl]
    have hsu := heightOf_succ ho hg
    unfold fitLoop
    by_cases hc : heightOf hs o l + g > m
    · rw [if_pos hc]
      exact ⟨l, rfl, Nat.le_refl _, by omega, hw, .inr (by omega)⟩
    · rw [if_neg hc]
      obtain ⟨l', e, h1, h2, h3, h4⟩ := ih (l + 1) (by omega) (by omega) (by omega)
      rw [hsu] at e
      exact ⟨l', e, by omega, h2, h3, h4⟩

/-- Hiding items at the front hides as few as possible. -/
theorem shrinkFront_spec {m : Int} (hm : 0 ≤ m) (hs : List Nat) (l : Nat) (hl : l ≤ hs.length) :
    ∀ (n f : Nat), f + n = l →
    ∃ f' : Nat, shrinkFront m (hs.drop f) (heightOf hs f l) f = some (heightOf hs f' l, (f' : Int)) ∧ f ≤ f' ∧
      f' ≤ l ∧ heightOf hs f' l ≤ m ∧ ∀ k, f ≤ k → heightOf hs k l ≤ m → f' ≤ k := by
  intro n
  induction n with
  | zero =>
    intro f hf
    have h0 := heightOf_ge hs (i := f) (j := l) (by omega)
    refine ⟨f, ?_, Nat.le_refl _, by omega, by omega, fun k hk _ => hk⟩
    cases hs.drop f <;> unfold shrinkFront <;> rw [if_neg (by omega)]
  | succ n ih =>
    intro f hf
    obtain ⟨g, hg⟩ := getElem?_of_lt (hs := hs) (i := f) (by omega)
    have hlt := (List.getElem?_eq_some_iff.1 hg).1
    have hgl : hs[f] = g := by rw [List.getElem?_eq_getElem hlt] at hg; simpa using hg
    rw [List.drop_eq_getElem_cons hlt, hgl]
    unfold shrinkFront
    by_cases hc : heightOf hs f l > m
    · rw [if_pos hc]
      have hfr := heightOf_front (show f < l by omega) hg
      have hnn := heightOf_nonneg hs (f + 1) l
      rw [show max 0 (heightOf hs f l - (g : Int)) = heightOf hs (f + 1) l by omega]
      obtain ⟨f', e, h1, h2, h3, h4⟩ := ih (f + 1) (by omega)
      refine ⟨f', e, by omega, h2, h3, fun k hk hw => ?_⟩
      by_cases hkf : k = f
      · subst hkf; omega
      · exact h4 k (by omega) hw
    · rw [if_neg hc]
      exact ⟨f, rfl, Nat.le_refl _, by omega, by omega, fun k hk _ => hk⟩

theorem growLoop_spec {m : Int} (hm : 0 ≤ m) (hs : List Nat) : ∀ (n f l : Nat), f ≤ l → l + n ≤ hs.length →
    heightOf hs f l ≤ m →
    ∃ f' : Nat, growLoop m hs n (heightOf hs f l) f l =
        some (heightOf hs f' (l + n), (f' : Int), ((l + n : Nat) : Int)) ∧ f ≤ f' ∧ f' ≤ l + n ∧
      heightOf hs f' (l + n) ≤ m ∧ ∀ k, f ≤ k → heightOf hs k (l + n) ≤ m → f' ≤ k := by
  intro n
  induction n with
  | zero => exact fun f l hfl hl hw => ⟨f, rfl, Nat.le_refl _, by omega, hw, fun k hk _ => hk⟩
  | succ n ih =>
    intro f l hfl hl hw
    obtain ⟨g, hg⟩ := getElem?_of_lt (hs := hs) (i := l) (by omega)
    have hat : at? hs (l : Int) = some g := by unfold at?; rw [if_neg (by omega), Int.toNat_natCast, hg]
    obtain ⟨f1, e1, h1, h2, h3, h4⟩ := shrinkFront_spec hm hs (l + 1) (by omega) (l + 1 - f) f (by omega)
    obtain ⟨f', e, i1, i2, i3, i4⟩ := ih f1 (l + 1) h2 (by omega) h3
    rw [show l + 1 + n = l + (n + 1) by omega] at e i2 i3 i4
    refine ⟨f', ?_, by omega, i2, i3, fun k hk hkw => ?_⟩
    · unfold growLoop
      rw [hat]
      simp only [Option.bind_eq_bind, Option.bind_some, Int.toNat_natCast]
      rw [← heightOf_succ hfl hg, e1]
      simp only [Option.bind_some]
      exact e
    · refine i4 k (h4 k hk ?_) hkw
      have := heightOf_mono (hs := hs) (i := k) (i' := k) (j := l + 1) (k := l + (n + 1)) (by omega) (by omega)
      omega

theorem shrinkBack_spec {m : Int} (hm : 0 ≤ m) (hs : List Nat) (f : Nat) : ∀ (n l : Nat), l = f + n →
    l ≤ hs.length →
    ∃ l' : Nat, shrinkBack m hs l (heightOf hs f l) = some (heightOf hs f l', (l' : Int)) ∧ f ≤ l' ∧
      l' ≤ l ∧ heightOf hs f l' ≤ m ∧ ∀ k, k ≤ l → heightOf hs f k ≤ m → k ≤ l' := by
  intro n
  induction n with
  | zero =>
    intro l hl hle
    have h0 := heightOf_ge hs (i := f) (j := l) (by omega)
    refine ⟨l, ?_, by omega, Nat.le_refl _, by omega, fun k hk _ => hk⟩
    cases l <;> unfold shrinkBack <;> rw [if_neg (by omega)] <;> rfl
  | succ n ih =>
    intro l hl hle
    obtain ⟨l, rfl⟩ : ∃ l0, l = l0 + 1 := ⟨l - 1, by omega⟩
    obtain ⟨g, hg⟩ := getElem?_of_lt (hs := hs) (i := l) (by omega)
    unfold shrinkBack
    by_cases hc : heightOf hs f (l + 1) > m
    · rw [if_pos hc, hg]
      simp only [Option.bind_eq_bind, Option.bind_some]
      have hsu := heightOf_succ (show f ≤ l by omega) hg
      have hnn := heightOf_nonneg hs f l
      rw [show max 0 (heightOf hs f (l + 1) - (g : Int)) = heightOf hs f l by omega]
      obtain ⟨l', e, h1, h2, h3, h4⟩ := ih l (by omega) (by omega)
      refine ⟨l', e, h1, by omega, h3, fun k hk hw => ?_⟩
      by_cases hkl : k = l + 1
      · subst hkl; omega
      · exact h4 k (by omega) hw
    · rw [if_neg hc]
      exact ⟨l + 1, rfl, by omega, Nat.le_refl _, by omega, fun k hk _ => hk⟩

theorem backLoop_spec {m : Int} (hm : 0 ≤ m) (hs : List Nat) : ∀ (n f l : Nat), n ≤ f → f ≤ l → l ≤ hs.length →
    heightOf hs f l ≤ m →
    ∃ l' : Nat, backLoop m hs n (heightOf hs f l) f l =
        some (heightOf hs (f - n) l', ((f - n : Nat) : Int), (l' : Int)) ∧ f - n ≤ l' ∧ l' ≤ l ∧
      heightOf hs (f - n) l' ≤ m ∧ ∀ k, k ≤ l → heightOf hs (f - n) k ≤ m → k ≤ l' := by
  intro n
  induction n with
  | zero => exact fun f l _ hfl hl hw => ⟨l, rfl, hfl, Nat.le_refl _, hw, fun k hk _ => hk⟩
  | succ n ih =>
    intro f l hn hfl hl hw
    obtain ⟨g, hg⟩ := getElem?_of_lt (hs := hs) (i := f - 1) (by omega)
    have hfr := heightOf_front (show f - 1 < l by omega) hg
    rw [show f - 1 + 1 = f by omega] at hfr
    obtain ⟨l2, e2, h1, h2, h3, h4⟩ := shrinkBack_spec hm hs (f - 1) (l - (f - 1)) l (by omega) hl
    obtain ⟨l', e, i1, i2, i3, i4⟩ := ih (f - 1) l2 (by omega) (by omega) (by omega) h3
    rw [show f - 1 - n = f - (n + 1) by omega] at e i1 i3 i4
    refine ⟨l', ?_, i1, by omega, i3, fun k hk hkw => ?_⟩
    · unfold backLoop
      have hat : at? hs ((f : Int) - 1) = some g := by
        unfold at?
        rw [if_neg (by omega), show ((f : Int) - 1).toNat = f - 1 by omega, hg]
      rw [hat]
      simp only [Option.bind_eq_bind, Option.bind_some, Int.toNat_natCast]
      rw [show heightOf hs f l + (g : Int) = heightOf hs (f - 1) l by omega, e2]
      simp only [Option.bind_some]
      rw [show (f : Int) - 1 = ((f - 1 : Nat) : Int) by omega]
      exact e
    · refine i4 k (h4 k hk ?_) hkw
      have := heightOf_mono (hs := hs) (i := f - 1) (i' := f - (n + 1)) (j := k) (k := k) (by omega) (by omega)
      omega

/-- The padding that is used. -/
theorem paddingLoop_spec (hs : List Nat) (selected lastValid m : Int) : ∀ p : Nat,
    paddingLoop hs selected lastValid m p ≤ p ∧
    (paddingLoop hs selected lastValid m p = 0 ∨
      (around hs (max 0 (selected - paddingLoop hs selected lastValid m p))
        (min lastValid (selected + paddingLoop hs selected lastValid m p)) : Int) ≤ m) ∧
    ∀ q, q ≤ p → (around hs (max 0 (selected - q)) (min lastValid (selected + q)) : Int) ≤ m →
      q ≤ paddingLoop hs selected lastValid m p
  | 0 => ⟨by simp [paddingLoop], .inl rfl, fun q hq _ => by omega⟩
  | p + 1 => by
    unfold paddingLoop
    split
    · next h => exact ⟨by omega, .inr (by push_cast; exact h), fun q hq _ => hq⟩
    · next h =>
      have := paddingLoop_spec hs selected lastValid m p
      refine ⟨by omega, this.2.1, fun q hq hf => ?_⟩
      by_cases hqp : q = p + 1
      · subst hqp
        push_cast at hf
        exact absurd hf h
      · exact this.2.2 q (by omega) hf

/-- Where the list looks: `a` and `b` are the first and the last of the items around the selected one that
have to be visible. -/
theorem applyScrollPadding_spec (hs : List Nat) (p : Int) (hp : 0 ≤ p) (sel : Nat) (hsel : sel < hs.length)
    (m first last : Int) (hfit : ∀ h, hs[sel]? = some h → (h : Int) ≤ m) :
    ∃ a b : Nat, a ≤ sel ∧ sel ≤ b ∧ b < hs.length ∧ heightOf hs a (b + 1) ≤ m ∧
      (∀ q : Nat, (q : Int) ≤ p → heightOf hs (sel - q) (min hs.length (sel + q + 1)) ≤ m →
        a ≤ sel - q ∧ min hs.length (sel + q + 1) ≤ b + 1) ∧
      applyScrollPadding hs p sel m first last =
        if (b : Int) ≥ last then (b : Int) else if (a : Int) < first then (a : Int) else (sel : Int) := by
  unfold applyScrollPadding
  have hlv : max 0 ((hs.length : Int) - 1) = ((hs.length - 1 : Nat) : Int) := by omega
  simp only [hlv]
  have hs1 : min (sel : Int) ((hs.length - 1 : Nat) : Int) = (sel : Int) := by omega
  rw [hs1]
  obtain ⟨q, hq, hq3, hq4⟩ : ∃ q : Nat, (if 0 < p then
      (paddingLoop hs (sel : Int) ((hs.length - 1 : Nat) : Int) m p.toNat : Int) else p) = (q : Int) ∧
      (q = 0 ∨ (around hs (max 0 ((sel : Int) - q))
        (min ((hs.length - 1 : Nat) : Int) ((sel : Int) + q)) : Int) ≤ m) ∧
      ∀ r : Nat, (r : Int) ≤ p → (around hs (max 0 ((sel : Int) - r))
        (min ((hs.length - 1 : Nat) : Int) ((sel : Int) + r)) : Int) ≤ m → r ≤ q := by
    by_cases h0 : 0 < p
    · rw [if_pos h0]
      have := paddingLoop_spec hs (sel : Int) ((hs.length - 1 : Nat) : Int) m p.toNat
      exact ⟨_, rfl, this.2.1, fun r hr hf => this.2.2 r (by omega) hf⟩
    · rw [if_neg h0]
      exact ⟨0, by omega, .inl rfl, fun r hr _ => by omega⟩
  rw [hq]
  refine ⟨sel - q, min (hs.length - 1) (sel + q), by omega, by omega, by omega, ?_, ?_, ?_⟩
  · rcases hq3 with h | h
    · subst h
      obtain ⟨g, hg⟩ := getElem?_of_lt hsel
      rw [show sel - 0 = sel by omega, show min (hs.length - 1) (sel + 0) = sel by omega,
        heightOf_succ (Nat.le_refl _) hg, heightOf_ge hs (Nat.le_refl _)]
      have := hfit g hg
      omega
    · unfold around at h
      unfold heightOf
      rw [show (min ((hs.length - 1 : Nat) : Int) ((sel : Int) + q) + 1).toNat =
          min (hs.length - 1) (sel + q) + 1 by omega,
        show (max 0 ((sel : Int) - q)).toNat = sel - q by omega] at h
      exact h
  · intro r hr hf
    have := hq4 r hr (by
      unfold around
      unfold heightOf at hf
      rw [show (min ((hs.length - 1 : Nat) : Int) ((sel : Int) + r) + 1).toNat = min hs.length (sel + r + 1) by omega,
        show (max 0 ((sel : Int) - r)).toNat = sel - r by omega]
      exact hf)
    omega
  · have hB : min ((hs.length - 1 : Nat) : Int) ((sel : Int) + q) = ((min (hs.length - 1) (sel + q) : Nat) : Int) := by
      omega
    have hA : max 0 ((sel : Int) - q) = ((sel - q : Nat) : Int) := by omega
    rw [hB, hA]
    by_cases h1 : ((min (hs.length - 1) (sel + q) : Nat) : Int) ≥ last
    · rw [if_pos h1, if_pos h1]; omega
    · rw [if_neg h1, if_neg h1]
      by_cases h2 : ((sel - q : Nat) : Int) < first
      · rw [if_pos h2]; omega
      · rw [if_neg h2]; omega

/-- In any case the index is one of the list. -/
theorem applyScrollPadding_range (hs : List Nat) (p : Int) (hp : 0 ≤ p) (sel : Int) (hsel : 0 ≤ sel)
    (hn : 0 < hs.length) (m first last : Int) :
    0 ≤ applyScrollPadding hs p sel m first last ∧
      applyScrollPadding hs p sel m first last < hs.length := by
  unfold applyScrollPadding
  simp only
  obtain ⟨q, hq, hq0⟩ : ∃ q : Int, (if 0 < p then
      (paddingLoop hs (min sel (max 0 ((hs.length : Int) - 1))) (max 0 ((hs.length : Int) - 1)) m p.toNat : Int)
      else p) = q ∧ 0 ≤ q := ⟨_, rfl, by split <;> omega⟩
  rw [hq]
  split
  · omega
  · split <;> omega

/-- The window for an index. -/
theorem window_spec {m : Int} (hm : 0 ≤ m) (hs : List Nat) (o l0 idx : Nat)
    (hol : o ≤ l0) (hl : l0 ≤ hs.length) (hw : heightOf hs o l0 ≤ m) (hi : idx < hs.length) :
    ∃ f l : Nat, (do
        let (height, first, last) ← growLoop m hs ((idx : Int) - l0 + 1).toNat (heightOf hs o l0) o l0
        let (_, first, last) ← backLoop m hs (first - (idx : Int)).toNat height first last
        some (first, last)) = some ((f : Int), (l : Int)) ∧ f ≤ l ∧ l ≤ hs.length ∧ heightOf hs f l ≤ m ∧
      (l0 ≤ idx → ∀ k, o ≤ k → k ≤ idx → heightOf hs k (idx + 1) ≤ m → f ≤ k ∧ l = idx + 1) ∧
      (idx < o → f = idx ∧ ∀ k, k ≤ l0 → heightOf hs idx k ≤ m → k ≤ l) ∧
      (o ≤ idx → idx < l0 → f = o ∧ l = l0) := by
  by_cases hg : l0 ≤ idx
  · obtain ⟨f1, e1, h1, h2, h3, h4⟩ := growLoop_spec hm hs (idx - l0 + 1) o l0 hol (by omega) hw
    rw [show l0 + (idx - l0 + 1) = idx + 1 by omega] at e1 h2 h3 h4
    obtain ⟨l', e2, i1, i2, i3, i4⟩ := backLoop_spec hm hs (f1 - idx) f1 (idx + 1) (by omega) h2 (by omega) h3
    refine ⟨f1 - (f1 - idx), l', ?_, i1, by omega, i3, ?_, by omega, by omega⟩
    · rw [show ((idx : Int) - l0 + 1).toNat = idx - l0 + 1 by omega, e1]
      simp only [Option.bind_eq_bind, Option.bind_some]
      rw [show ((f1 : Int) - (idx : Int)).toNat = f1 - idx by omega, e2]
      rfl
    · intro _ k hk hki hkw
      have hf := h4 k hk hkw
      have h0 : f1 - idx = 0 := by omega
      rw [h0] at i4
      refine ⟨by omega, ?_⟩
      have := i4 (idx + 1) (Nat.le_refl _) h3
      omega
  · obtain ⟨l', e2, i1, i2, i3, i4⟩ := backLoop_spec hm hs (o - idx) o l0 (by omega) hol hl hw
    refine ⟨o - (o - idx), l', ?_, i1, by omega, i3, by omega, ?_, ?_⟩
    · rw [show ((idx : Int) - l0 + 1).toNat = 0 by omega]
      simp only [growLoop, Option.bind_eq_bind, Option.bind_some]
      rw [show ((o : Int) - (idx : Int)).toNat = o - idx by omega, e2]
      rfl
    · intro h
      rw [show o - (o - idx) = idx by omega] at i4 ⊢
      exact ⟨rfl, i4⟩
    · intro h h'
      have h0 : o - idx = 0 := by omega
      rw [h0] at i4
      have := i4 l0 (Nat.le_refl _) hw
      omega

end ListWidget

end Bento
