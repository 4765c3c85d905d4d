import Verif.Props.ListWidget

/-!
# C109: drawing a list again
-/

namespace Bento

open ListWidget

namespace ListWidget

/-- The choice of the items in two steps: what fits from the offset on, and the window for the index. -/
theorem bounds_open (hs : List Nat) (hn : 0 < hs.length) (p m offset : Int) (sel : Option Int) (hp : 0 ≤ p)
    (hm : 0 ≤ m) (ho : 0 ≤ offset) (hsel : ∀ s ∈ sel, 0 ≤ s) :
    ∃ o l0 idx : Nat, (o : Int) = min offset ((hs.length : Int) - 1) ∧ o ≤ l0 ∧ l0 ≤ hs.length ∧
      heightOf hs o l0 ≤ m ∧ (l0 = hs.length ∨ m < heightOf hs o (l0 + 1)) ∧ idx < hs.length ∧
      (idx : Int) = indexOf hs p m sel o l0 ∧
      getItemsBounds hs p sel offset m = (do
        let (height, first, last) ← growLoop m hs ((idx : Int) - l0 + 1).toNat (heightOf hs o l0) o l0
        let (_, first, last) ← backLoop m hs (first - (idx : Int)).toNat height first last
        some (first, last)) := by
  obtain ⟨o, hoe, hol⟩ : ∃ o : Nat, min offset (max 0 ((hs.length : Int) - 1)) = (o : Int) ∧ o < hs.length :=
    ⟨(min offset (max 0 ((hs.length : Int) - 1))).toNat, by omega, by omega⟩
  obtain ⟨l0, e0, h1, h2, h3, h4⟩ := fitLoop_spec (m := m) hs o (hs.length - o) o (by omega)
    (Nat.le_refl _) (by rw [heightOf_ge hs (Nat.le_refl _)]; exact hm)
  rw [heightOf_ge hs (Nat.le_refl _)] at e0
  obtain ⟨idx, hidx, hil⟩ : ∃ idx : Nat, (idx : Int) = indexOf hs p m sel o l0 ∧ idx < hs.length := by
    cases sel with
    | none => exact ⟨o, rfl, hol⟩
    | some s =>
      obtain ⟨a, b⟩ := applyScrollPadding_range hs p hp s (hsel s rfl) hn m o l0
      exact ⟨(applyScrollPadding hs p s m o l0).toNat, by simp only [indexOf]; omega, by omega⟩
  refine ⟨o, l0, idx, by omega, h1, h2, h3, h4, hil, hidx, ?_⟩
  unfold getItemsBounds
  simp only [hoe]
  rw [if_neg (by omega), Int.toNat_natCast, e0]
  simp only
  change (do
    let (height, first, last) ← growLoop m hs (indexOf hs p m sel o l0 - l0 + 1).toNat _ _ _
    let (_, first, last) ← backLoop m hs (first - indexOf hs p m sel o l0).toNat height first last
    some (first, last)) = _
  rw [← hidx]

/-- For an item that does not fit, the window is empty. -/
theorem window_unfit {m : Int} (hm : 0 ≤ m) (hs : List Nat) (o l0 idx : Nat)
    (hol : o ≤ l0) (hw : heightOf hs o l0 ≤ m) (hi : idx < hs.length) (hg : l0 ≤ idx)
    (hbig : m < heightOf hs idx (idx + 1)) :
    (do
        let (height, first, last) ← growLoop m hs ((idx : Int) - l0 + 1).toNat (heightOf hs o l0) o l0
        let (_, first, last) ← backLoop m hs (first - (idx : Int)).toNat height first last
        some (first, last)) = some ((idx : Int), (idx : Int)) := by
  obtain ⟨f1, e1, h1, h2, h3, h4⟩ := growLoop_spec hm hs (idx - l0 + 1) o l0 hol (by omega) hw
  rw [show l0 + (idx - l0 + 1) = idx + 1 by omega] at e1 h2 h3 h4
  have hf1 : f1 = idx + 1 := by
    by_contra hne
    have := heightOf_mono (hs := hs) (i := idx) (i' := f1) (j := idx + 1) (k := idx + 1) (by omega) (by omega)
    omega
  subst hf1
  obtain ⟨l', e2, i1, i2, i3, i4⟩ := backLoop_spec hm hs (idx + 1 - idx) (idx + 1) (idx + 1) (by omega) h2 (by omega) h3
  have hl' : l' = idx := by
    by_contra hne
    have := heightOf_mono (hs := hs) (i := idx) (i' := idx + 1 - (idx + 1 - idx)) (j := idx + 1) (k := l')
      (by omega) (by omega)
    omega
  subst hl'
  rw [show ((l' : Int) - l0 + 1).toNat = l' - l0 + 1 by omega, e1]
  simp only [Option.bind_eq_bind, Option.bind_some]
  rw [show (((l' + 1 : Nat) : Int) - (l' : Int)).toNat = l' + 1 - l' by omega, e2]
  simp only [Option.bind_some]
  rw [show l' + 1 - (l' + 1 - l') = l' by omega]

/-- Where the list looks does not depend on the offset: `a` and `b` are the first and the last of the items around the
selected one that have to be visible. -/
theorem applyScrollPadding_around (hs : List Nat) (p : Int) (hp : 0 ≤ p) (sel : Nat) (hsel : sel < hs.length) (m : Int) :
    ∃ a b : Nat, a ≤ sel ∧ sel ≤ b ∧ b < hs.length ∧ (heightOf hs a (b + 1) ≤ m ∨ a = sel ∧ b = sel) ∧
      ∀ first last : Int, applyScrollPadding hs p sel m first last =
        if (b : Int) ≥ last then (b : Int) else if (a : Int) < first then (a : Int) else (sel : Int) := by
  have hlv : max 0 ((hs.length : Int) - 1) = ((hs.length - 1 : Nat) : Int) := by omega
  have hs1 : min (sel : Int) ((hs.length - 1 : Nat) : Int) = (sel : Int) := by omega
  obtain ⟨q, hq, hq3⟩ : ∃ q : Nat, (if 0 < p then
      (paddingLoop hs (sel : Int) ((hs.length - 1 : Nat) : Int) m p.toNat : Int) else p) = (q : Int) ∧
      (q = 0 ∨ (around hs (max 0 ((sel : Int) - q))
        (min ((hs.length - 1 : Nat) : Int) ((sel : Int) + q)) : Int) ≤ m) := by
    by_cases h0 : 0 < p
    · rw [if_pos h0]
      have := paddingLoop_spec hs (sel : Int) ((hs.length - 1 : Nat) : Int) m p.toNat
      exact ⟨_, rfl, this.2.1⟩
    · rw [if_neg h0]
      exact ⟨0, by omega, .inl rfl⟩
  refine ⟨sel - q, min (hs.length - 1) (sel + q), by omega, by omega, by omega, ?_, fun first last => ?_⟩
  · rcases hq3 with h | h
    · exact .inr (by omega)
    · left
      unfold around at h
      unfold heightOf
      rw [show (min ((hs.length - 1 : Nat) : Int) ((sel : Int) + q) + 1).toNat =
          min (hs.length - 1) (sel + q) + 1 by omega,
        show (max 0 ((sel : Int) - q)).toNat = sel - q by omega] at h
      exact h
  · unfold applyScrollPadding
    simp only [hlv]
    rw [hs1, hq]
    have hB : min ((hs.length - 1 : Nat) : Int) ((sel : Int) + q) = ((min (hs.length - 1) (sel + q) : Nat) : Int) := by
      omega
    have hA : max 0 ((sel : Int) - q) = ((sel - q : Nat) : Int) := by omega
    rw [hB, hA]
    by_cases h1 : ((min (hs.length - 1) (sel + q) : Nat) : Int) ≥ last
    · rw [if_pos h1, if_pos h1]; omega
    · rw [if_neg h1, if_neg h1]
      by_cases h2 : ((sel - q : Nat) : Int) < first
      · rw [if_pos h2]; omega
      · rw [if_neg h2]; omega

/-- A selected item that does not fit: nothing is shown, whatever the offset is. -/
theorem bounds_unfit (hs : List Nat) (p m offset : Int) (sel : Nat) (hsel : sel < hs.length) (hp : 0 ≤ p) (hm : 0 ≤ m)
    (ho : 0 ≤ offset) (hbig : m < heightOf hs sel (sel + 1)) :
    getItemsBounds hs p (some sel) offset m = some ((sel : Int), (sel : Int)) := by
  obtain ⟨o, l0, idx, ho', h1, h2, h3, h4, h5, h6, e⟩ :=
    bounds_open hs (by omega) p m offset (some (sel : Int)) hp hm ho (by simp)
  obtain ⟨a, b, a1, a2, a3, a4, a5⟩ := applyScrollPadding_around hs p hp sel hsel m
  have hab : a = sel ∧ b = sel := by
    rcases a4 with h | h
    · have := heightOf_mono (hs := hs) (i := sel) (i' := a) (j := sel + 1) (k := b + 1) (by omega) (by omega)
      omega
    · exact h
  obtain ⟨rfl, rfl⟩ := hab
  have hidx : idx = b := by
    simp only [indexOf, a5] at h6
    split_ifs at h6 <;> omega
  subst hidx
  by_cases hl : l0 ≤ idx
  · rw [e]; exact window_unfit hm hs o l0 idx h1 h3 h5 hl hbig
  · obtain ⟨f, l, e', g1, g2, g3, ca, cb, cc⟩ := window_spec hm hs o l0 idx h1 h2 h3 h5
    have hlt : idx < o := by
      by_contra hge
      have := heightOf_mono (hs := hs) (i := idx) (i' := o) (j := idx + 1) (k := l0) (by omega) (by omega)
      omega
    obtain ⟨rfl, -⟩ := cb hlt
    have : l = f := by
      by_contra hne
      have := heightOf_mono (hs := hs) (i := f) (i' := f) (j := f + 1) (k := l) (by omega) (by omega)
      omega
    subst this
    rw [e]; exact e'

/-- The items around a selected item that fits are in the window; and if all items are of the same height, no further
item fits behind it. -/
theorem bounds_fit (hs : List Nat) (p m offset : Int) (sel : Nat) (hsel : sel < hs.length) (hp : 0 ≤ p) (hm : 0 ≤ m)
    (ho : 0 ≤ offset) {a b : Nat} (a1 : a ≤ sel) (a2 : sel ≤ b) (a3 : b < hs.length) (a4 : heightOf hs a (b + 1) ≤ m)
    (a5 : ∀ first last : Int, applyScrollPadding hs p sel m first last =
        if (b : Int) ≥ last then (b : Int) else if (a : Int) < first then (a : Int) else (sel : Int)) :
    ∃ f l : Nat, getItemsBounds hs p (some sel) offset m = some ((f : Int), (l : Int)) ∧ f ≤ a ∧ b + 1 ≤ l ∧
      l ≤ hs.length ∧ heightOf hs f l ≤ m ∧
      ((∃ c : Nat, ∀ h ∈ hs, h = c) → l = hs.length ∨ m < heightOf hs f (l + 1)) := by
  obtain ⟨o, l0, idx, f, l, ho', h1, h2, h3, h4, h5, h6, e, h7, h8, h9, ca, cb, cc⟩ :=
    bounds_spec hs (by omega) p m offset (some (sel : Int)) hp hm ho (by simp)
  simp only [indexOf] at h6
  rw [a5] at h6
  have hlast : ∀ (k : Nat), k < hs.length → l0 ≤ k → m < heightOf hs o (k + 1) := by
    intro k hk hlk
    rcases h4 with h4 | h4
    · omega
    · have := heightOf_mono (hs := hs) (i := o) (i' := o) (j := l0 + 1) (k := k + 1) (by omega) (by omega)
      omega
  by_cases hB : (b : Int) ≥ l0
  · rw [if_pos hB] at h6
    have hib : idx = b := by omega
    subst hib
    have hbig := hlast idx a3 (by omega)
    have hoa : o ≤ a := by
      by_contra hoa
      have := heightOf_mono (hs := hs) (i := o) (i' := a) (j := idx + 1) (k := idx + 1) (by omega) (by omega)
      omega
    obtain ⟨d1, d2⟩ := ca (by omega) a hoa (by omega) a4
    subst d2
    have hof : o < f := by
      by_contra hof
      have := heightOf_mono (hs := hs) (i := o) (i' := f) (j := idx + 1) (k := idx + 1) (by omega) (by omega)
      omega
    refine ⟨f, idx + 1, e, by omega, by omega, h8, h9, ?_⟩
    · rintro ⟨c, hc⟩
      by_cases hend : idx + 1 = hs.length
      · exact .inl hend
      · right
        obtain ⟨g, hg⟩ := getElem?_of_lt (hs := hs) (i := f - 1) (by omega)
        obtain ⟨g', hg'⟩ := getElem?_of_lt (hs := hs) (i := idx + 1) (by omega)
        have hgc := hc g (List.mem_of_getElem? hg)
        have hgc' := hc g' (List.mem_of_getElem? hg')
        have e1 := heightOf_front (show f - 1 < idx + 1 by omega) hg
        rw [show f - 1 + 1 = f by omega] at e1
        have e2 := heightOf_succ (show f ≤ idx + 1 by omega) hg'
        by_contra hle
        have := (ca (by omega) (f - 1) (by omega) (by omega) (by omega)).1
        omega
  · rw [if_neg hB] at h6
    by_cases hA : (a : Int) < o
    · rw [if_pos hA] at h6
      have hia : idx = a := by omega
      subst hia
      obtain ⟨d1, d2⟩ := cb (by omega)
      subst d1
      have := d2 (b + 1) (by omega) a4
      refine ⟨f, l, e, by omega, by omega, h8, h9, fun _ => ?_⟩
      by_cases hll : l < l0
      · right
        by_contra hle
        have := d2 (l + 1) (by omega) (by omega)
        omega
      · by_cases hend : l = hs.length
        · exact .inl hend
        · right
          have h10 := hlast l (by omega) (by omega)
          have := heightOf_mono (hs := hs) (i := o) (i' := f) (j := l + 1) (k := l + 1) (by omega) (by omega)
          omega
    · rw [if_neg hA] at h6
      obtain ⟨d1, d2⟩ := cc (by omega) (by omega)
      subst d1 d2
      exact ⟨f, l, e, by omega, by omega, h8, h9, fun _ => h4⟩

/-- Choosing the items again, from the offset the first choice left: the offset stays. -/
theorem bounds_again (hs : List Nat) (hn : 0 < hs.length) (p m offset : Int) (sel : Option Nat)
    (hsel : ∀ s ∈ sel, s < hs.length) (hp : 0 ≤ p) (hm : 0 ≤ m) (ho : 0 ≤ offset) :
    ∃ f l l' : Nat, getItemsBounds hs p (sel.map Int.ofNat) offset m = some ((f : Int), (l : Int)) ∧
      getItemsBounds hs p (sel.map Int.ofNat) f m = some ((f : Int), (l' : Int)) ∧ l ≤ l' ∧
      ((∃ c : Nat, ∀ h ∈ hs, h = c) → l' = l) := by
  cases sel with
  | none =>
    obtain ⟨o, l0, idx, f, l, ho', h1, h2, h3, h4, h5, h6, e, h7, h8, h9, ca, cb, cc⟩ :=
      bounds_spec hs hn p m offset none hp hm ho (by simp)
    obtain ⟨o1, l1, idx1, ho1, k1, k2, k3, k4, k5, k6, e1⟩ := bounds_open hs hn p m offset none hp hm ho (by simp)
    have hclamp : ∀ x y : Int, min x (max 0 ((hs.length : Int) - 1)) = min y (max 0 ((hs.length : Int) - 1)) →
        getItemsBounds hs p none x m = getItemsBounds hs p none y m := by
      intro x y hxy
      unfold getItemsBounds
      rw [hxy]
    have hidx : idx = o := by simp only [indexOf] at h6; omega
    have hidx1 : idx1 = o1 := by simp only [indexOf] at k6; omega
    have hoo : o1 = o := by omega
    subst hidx hidx1
    have hf : f = idx := by
      by_cases hl : idx < l0
      · exact (cc (Nat.le_refl _) hl).1
      · have hl0 : l0 = idx := by omega
        subst hl0
        have hbig : m < heightOf hs l0 (l0 + 1) := by
          rcases h4 with h4 | h4
          · omega
          · exact h4
        by_cases hl1 : l1 ≤ idx1
        · rw [window_unfit hm hs idx1 l1 idx1 k1 k3 k5 hl1 (by rw [hoo]; exact hbig), e] at e1
          simp only [Option.some.injEq, Prod.mk.injEq] at e1
          omega
        · have := heightOf_mono (hs := hs) (i := l0) (i' := idx1) (j := l0 + 1) (k := l1) (by omega) (by omega)
          omega
    subst hf
    refine ⟨f, l, l, e, ?_, Nat.le_refl _, fun _ => rfl⟩
    simp only [Option.map_none]
    rw [hclamp (f : Int) offset (by omega)]
    exact e
  | some s =>
    have hs' := hsel s rfl
    simp only [Option.map_some, Int.ofNat_eq_natCast]
    by_cases hbig : m < heightOf hs s (s + 1)
    · exact ⟨s, s, s, bounds_unfit hs p m offset s hs' hp hm ho hbig, bounds_unfit hs p m s s hs' hp hm (by omega) hbig,
        Nat.le_refl _, fun _ => rfl⟩
    · obtain ⟨a, b, a1, a2, a3, a4, a5⟩ := applyScrollPadding_around hs p hp s hs' m
      have a4' : heightOf hs a (b + 1) ≤ m := by
        rcases a4 with h | ⟨rfl, rfl⟩
        · exact h
        · omega
      obtain ⟨f, l, e, f1, f2, f3, f4, f5⟩ := bounds_fit hs p m offset s hs' hp hm ho a1 a2 a3 a4' a5
      obtain ⟨o, l0, idx, f', l', ho', h1, h2, h3, h4, h5, h6, e', h7, h8, h9, ca, cb, cc⟩ :=
        bounds_spec hs hn p m f (some (s : Int)) hp hm (by omega) (by simp)
      have hof : o = f := by omega
      subst hof
      have hl0 : l ≤ l0 := by
        by_contra hlt
        rcases h4 with h4 | h4
        · omega
        · have := heightOf_mono (hs := hs) (i := o) (i' := o) (j := l0 + 1) (k := l) (by omega) (by omega)
          omega
      simp only [indexOf] at h6
      rw [a5, if_neg (by omega), if_neg (by omega)] at h6
      obtain ⟨d1, d2⟩ := cc (by omega) (by omega)
      subst d1 d2
      refine ⟨f', l, l', e, e', hl0, fun hc => ?_⟩
      rcases f5 hc with h | h
      · omega
      · by_contra hne
        have := heightOf_mono (hs := hs) (i := f') (i' := f') (j := l + 1) (k := l') (by omega) (by omega)
        omega

/-- Drawing the items again with the state the first drawing left. -/
theorem renderItems_again (u : Uniseg) (l : ListWidget) (hp : 0 ≤ l.scrollPadding) (area : Rect) (hh : 0 ≤ area.height)
    (b b1 : Buffer) (s s1 : State) (hg : 0 ≤ s.offset ∧ ∀ i ∈ s.selected, 0 ≤ i)
    (h : renderItems u l area b s = some (b1, s1)) :
    (∀ b' r, renderItems u l area b' s1 = some r → r.2 = s1) ∧
      ((∃ c : Nat, ∀ t ∈ l.items, t.lines.length = c) → renderItems u l area b s1 = some (b1, s1)) := by
  unfold renderItems at h ⊢
  by_cases he : (area.isEmpty || l.items.length == 0) = true
  · rw [if_pos he] at h ⊢
    simp only [Option.some.injEq, Prod.mk.injEq] at h
    obtain ⟨rfl, rfl⟩ := h
    refine ⟨fun b' r hr => ?_, fun _ => rfl⟩
    rw [if_pos he] at hr
    simp only [Option.some.injEq] at hr
    rw [← hr]
  · rw [if_neg he] at h ⊢
    have hn : 0 < l.items.length := by
      simp only [Bool.or_eq_true, beq_iff_eq, not_or] at he
      omega
    -- the selection that is drawn
    obtain ⟨sel, hsel, hin⟩ : ∃ sel : Option Nat, (clampSelection l.items.length s).selected = sel.map Int.ofNat ∧
        ∀ i ∈ sel, i < l.items.length := by
      unfold clampSelection
      cases hs : s.selected with
      | none => exact ⟨none, by simp [hs], by simp⟩
      | some i =>
        have hi := hg.2 i (by simp [hs])
        by_cases hge : i ≥ l.items.length
        · simp only [if_pos hge, State.select]
          exact ⟨some (l.items.length - 1), by simp; omega, by simp; omega⟩
        · simp only [if_neg hge, hs]
          exact ⟨some i.toNat, by simp; omega, by simp; omega⟩
    have hoff : (clampSelection l.items.length s).offset = s.offset := by
      unfold clampSelection
      cases hs : s.selected with
      | none => rfl
      | some i => simp only [State.select]; split_ifs <;> rfl
    obtain ⟨f, e, e', g1, g2, hle, hsame⟩ := bounds_again (l.items.map itemHeight) (by simpa using hn) l.scrollPadding
      area.height s.offset sel (by simpa using hin) hp hh hg.1
    simp only [hsel, hoff, g1, Option.bind_eq_bind, Option.bind_some] at h
    have hneg : ¬ ((f : Int) < 0 ∨ (e : Int) - f < 0) := by
      intro hneg
      rw [if_pos hneg] at h
      cases h
    rw [if_neg hneg] at h
    simp only [Option.bind_eq_some_iff, Option.some.injEq, Prod.mk.injEq] at h
    obtain ⟨b2, hb2, rfl, rfl⟩ := h
    have hcl : clampSelection l.items.length ⟨(f : Int), sel.map Int.ofNat⟩ = ⟨(f : Int), sel.map Int.ofNat⟩ := by
      unfold clampSelection
      cases sel with
      | none => rfl
      | some i =>
        have := hin i rfl
        simp only [Option.map_some, Int.ofNat_eq_natCast]
        rw [if_neg (by omega)]
    have hst : ({ clampSelection l.items.length s with offset := (f : Int) } : State) =
        ⟨(f : Int), sel.map Int.ofNat⟩ := by
      rw [← hsel]
    constructor
    · intro b' r hr
      rw [if_neg he] at hr
      simp only [hst, hcl, g2, Option.bind_eq_bind, Option.bind_some] at hr
      split_ifs at hr
      simp only [Option.bind_eq_some_iff, Option.some.injEq] at hr
      obtain ⟨b3, hb3, rfl⟩ := hr
      simp only [hst]
    · rintro ⟨c, hc⟩
      have heq : e' = e := hsame ⟨c, fun h hm => by
        obtain ⟨t, ht, rfl⟩ := List.mem_map.1 hm
        exact hc t ht⟩
      subst heq
      simp only [hst, hcl, g2, Option.bind_eq_bind, Option.bind_some]
      rw [if_neg hneg, hb2]
      rfl

end ListWidget

/-- **C109 (partial).** The state that drawing a list leaves stays: drawing it again to the same area changes neither
the offset nor the selection. So from the second drawing on the picture is the same, too; if all items have the same
number of lines, it is so from the first drawing on. Missing: items of different heights, where the second drawing
may show more items than the first (`C109_twice_false`). -/
theorem C109_again_partial (u : Uniseg) (l : ListWidget) (hp : 0 ≤ l.scrollPadding) (area : Rect)
    (hh : 0 ≤ (content l area).height) (b b1 : Buffer) (s s1 : State) (hg : 0 ≤ s.offset ∧ ∀ i ∈ s.selected, 0 ≤ i)
    (h : render u l area b s = some (b1, s1)) :
    (∀ b' b2 s2, render u l area b' s1 = some (b2, s2) → s2 = s1 ∧ render u l area b' s2 = some (b2, s2)) ∧
      ((∃ c : Nat, ∀ t ∈ l.items, t.lines.length = c) → render u l area b s1 = some (b1, s1)) := by
  have key : ∀ b' b2 s2, render u l area b' s1 = some (b2, s2) → s2 = s1 := by
    intro b' b2 s2 h2
    unfold render at h h2
    cases hb : l.block with
    | none =>
      simp only [hb, Option.bind_eq_bind, Option.bind_eq_some_iff] at h h2
      simp only [content, hb, Option.map_none, Option.getD_none] at hh
      obtain ⟨c, -, h⟩ := h
      obtain ⟨c', -, h2⟩ := h2
      exact (renderItems_again u l hp area hh c b1 s s1 hg h).1 c' (b2, s2) h2
    | some block =>
      simp only [hb, Option.bind_eq_bind, Option.bind_eq_some_iff] at h h2
      simp only [content, hb, Option.map_some, Option.getD_some] at hh
      obtain ⟨c, -, d, -, h⟩ := h
      obtain ⟨c', -, d', -, h2⟩ := h2
      exact (renderItems_again u l hp _ hh d b1 s s1 hg h).1 d' (b2, s2) h2
  refine ⟨fun b' b2 s2 h2 => ?_, fun hc => ?_⟩
  · have := key b' b2 s2 h2
    subst this
    exact ⟨rfl, h2⟩
  · unfold render at h ⊢
    cases hb : l.block with
    | none =>
      simp only [hb, Option.bind_eq_bind, Option.bind_eq_some_iff] at h ⊢
      simp only [content, hb, Option.map_none, Option.getD_none] at hh
      obtain ⟨c, hc0, h⟩ := h
      exact ⟨c, hc0, (renderItems_again u l hp area hh c b1 s s1 hg h).2 hc⟩
    | some block =>
      simp only [hb, Option.bind_eq_bind, Option.bind_eq_some_iff] at h ⊢
      simp only [content, hb, Option.map_some, Option.getD_some] at hh
      obtain ⟨c, hc0, d, hd, h⟩ := h
      exact ⟨c, hc0, d, hd, (renderItems_again u l hp _ hh d b1 s s1 hg h).2 hc⟩

/-- An item of three lines and three of one line in three rows: when the second item becomes the selected one, the first
drawing shows it alone, the next one shows the last two as well. -/
theorem C109_twice_false :
    getItemsBounds [3, 1, 1, 1] 0 (some 1) 0 3 = some (1, 2) ∧
      getItemsBounds [3, 1, 1, 1] 0 (some 1) 1 3 = some (1, 4) := by
  decide +kernel

/-- The same on the screen: two rows stay blank although there are items for them. -/
theorem C109_blank_false :
    let items : List Text := [⟨Style.new, [Line.new [Span.new "x"], Line.new [Span.new "y"], Line.new [Span.new "z"]], .none⟩,
      ⟨Style.new, [Line.new [Span.new "a"]], .none⟩, ⟨Style.new, [Line.new [Span.new "b"]], .none⟩,
      ⟨Style.new, [Line.new [Span.new "c"]], .none⟩]
    let l : ListWidget := ⟨items, none, Style.new, .topToBottom, Style.new, "", false, .whenSelected, 0⟩
    let area : Rect := ⟨0, 0, 1, 3⟩
    ∀ b ∈ Buffer.newEmpty area,
      (render Uniseg.simple l area b ⟨0, some 1⟩).map (fun r => (r.1.content.map Cell.symbol, r.2)) =
        some (["a", " ", " "], ⟨1, some 1⟩) ∧
      (render Uniseg.simple l area b ⟨1, some 1⟩).map (fun r => (r.1.content.map Cell.symbol, r.2)) =
        some (["a", "b", "c"], ⟨1, some 1⟩) := by
  decide +kernel

/-- Five items of one line in three rows, with a padding of one: selecting the fourth scrolls by two, and drawing again
changes nothing. -/
example :
    let items : List Text := ["a", "b", "c", "d", "e"].map fun s => ⟨Style.new, [Line.new [Span.new s]], .none⟩
    let l : ListWidget := ⟨items, none, Style.new, .topToBottom, Style.new, "", false, .whenSelected, 1⟩
    let area : Rect := ⟨0, 0, 1, 3⟩
    ∀ b ∈ Buffer.newEmpty area,
      (render Uniseg.simple l area b ⟨0, some 3⟩).map (fun r => (r.1.content.map Cell.symbol, r.2)) =
        some (["c", "d", "e"], ⟨2, some 3⟩) ∧
      (render Uniseg.simple l area b ⟨2, some 3⟩).map (fun r => (r.1.content.map Cell.symbol, r.2)) =
        some (["c", "d", "e"], ⟨2, some 3⟩) := by
  decide +kernel

end Bento
