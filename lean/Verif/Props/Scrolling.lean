import Verif.Props.ListAgain

/-!
# C123 — how far a list scrolls
-/

namespace Bento

open ListWidget

/-- The first item shown when `n` items of the same height fit and the first one before was `o`: the selected item is
shown, and the list scrolls no further than it must. -/
def ListWidget.scrolled (n o : Nat) : Option Nat → Nat
  | none => o
  | some s => max (min o s) (s + 1 - n)

/-- What `scrolled` says: of all places at which the selected item is shown, it is the nearest to the old one. -/
theorem C123_nearest (n o s : Nat) (hn : 0 < n) :
    scrolled n o (some s) ≤ s ∧ s < scrolled n o (some s) + n ∧
    (∀ f, f ≤ s → s < f + n → |(scrolled n o (some s) : Int) - o| ≤ |(f : Int) - o|) ∧
    (o ≤ s → s < o + n → scrolled n o (some s) = o) := by
  have e : scrolled n o (some s) = max (min o s) (s + 1 - n) := rfl
  rw [e]
  refine ⟨by omega, by omega, fun f h1 h2 => ?_, by omega⟩
  rcases abs_cases (((max (min o s) (s + 1 - n) : Nat) : Int) - o) with ⟨h3, h4⟩ | ⟨h3, h4⟩ <;>
    rcases abs_cases ((f : Int) - o) with ⟨h5, h6⟩ | ⟨h5, h6⟩ <;> omega

theorem ListWidget.heightOf_same (N c i j : Nat) : heightOf (List.replicate N c) i j = ((min j N - i : Nat) : Int) * c := by
  unfold heightOf
  rw [List.take_replicate, List.drop_replicate, List.sum_replicate_nat]
  push_cast
  ring

/-- **C123**, the items shown: in a list of items that are all `c` rows high and no padding, as many items as fit are shown,
from the place nearest to the old one at which the selected item is shown. -/
theorem C123_window (N c o : Nat) (sel : Option Nat) (m : Int) (hN : 0 < N) (hc : 0 < c) (hm : (c : Int) ≤ m)
    (hsel : ∀ s ∈ sel, s < N) :
    getItemsBounds (List.replicate N c) 0 (sel.map Int.ofNat) o m =
      some (((scrolled (m.toNat / c) (min o (N - 1)) sel : Nat) : Int),
        ((min N (scrolled (m.toNat / c) (min o (N - 1)) sel + m.toNat / c) : Nat) : Int)) := by
  obtain ⟨n, hn⟩ : ∃ n, m.toNat / c = n := ⟨_, rfl⟩
  rw [hn]
  -- how many items fit
  have hfit : ∀ k : Nat, (k : Int) * c ≤ m ↔ k ≤ n := by
    intro k
    rw [← hn, Nat.le_div_iff_mul_le hc]
    constructor
    · intro h
      have : ((k * c : Nat) : Int) ≤ m := by push_cast; exact h
      omega
    · intro h
      have : ((k * c : Nat) : Int) ≤ m := by omega
      push_cast at this
      exact this
  have hn1 : 1 ≤ n := (hfit 1).1 (by push_cast; omega)
  obtain ⟨o', l0, idx, f, l, h1, h2, h3, h4, h5, h6, h7, e, h8, h9, h10, ca, cb, cc⟩ :=
    bounds_spec (List.replicate N c) (by simpa using hN) 0 m o (sel.map Int.ofNat) (by omega) (by omega) (by omega) (by
      intro s hs
      simp only [Option.mem_def, Option.map_eq_some_iff] at hs
      obtain ⟨a, _, rfl⟩ := hs
      exact Int.natCast_nonneg a)
  simp only [List.length_replicate] at *
  have ho : o' = min o (N - 1) := by omega
  simp only [heightOf_same] at *
  have h4' := (hfit _).1 h4
  have h10' := (hfit _).1 h10
  have h5' : l0 = N ∨ n < min (l0 + 1) N - o' := by
    rcases h5 with h | h
    · exact .inl h
    · right
      by_contra hh
      have := (hfit (min (l0 + 1) N - o')).2 (by omega)
      omega
  have hl0 : l0 = min N (o' + n) := by omega
  rw [e, ← ho]
  have hidx : idx = sel.getD o' := by
    cases sel with
    | none =>
      simp only [Option.map_none, indexOf] at h7
      simp only [Option.getD_none]
      omega
    | some s =>
      have hs := hsel s rfl
      simp only [Option.map_some, indexOf, applyScrollPadding, List.length_replicate] at h7
      have hlt : ¬ (0 : Int) < 0 := by omega
      rw [if_neg hlt] at h7
      have hof : Int.ofNat s = (s : Int) := rfl
      rw [hof] at h7
      simp only [Option.getD_some]
      split_ifs at h7 <;> omega
  have key : f = scrolled n o' sel ∧ l = min N (scrolled n o' sel + n) := by
    cases sel with
    | none =>
      simp only [Option.getD_none] at hidx
      subst hidx
      obtain ⟨rfl, rfl⟩ := cc (Nat.le_refl _) (by omega)
      exact ⟨rfl, by show _ = min N (f + n); omega⟩
    | some s =>
      have hs := hsel s rfl
      simp only [Option.getD_some] at hidx
      subst hidx
      have es : scrolled n o' (some idx) = max (min o' idx) (idx + 1 - n) := rfl
      rw [es]
      by_cases hA : l0 ≤ idx
      · obtain ⟨k1, rfl⟩ := ca hA (idx + 1 - n) (by omega) (by omega) ((hfit _).2 (by omega))
        omega
      · by_cases hB : idx < o'
        · obtain ⟨rfl, k2⟩ := cb hB
          have := k2 (min N (f + n)) (by omega) ((hfit _).2 (by omega))
          omega
        · obtain ⟨rfl, rfl⟩ := cc (by omega) (by omega)
          omega
  rw [key.1, key.2]

/-- **C123**, the state: after drawing a list of items of the same height the first item is the one at the place nearest to
the old one, and the selection is kept. -/
theorem C123_drawn (u : Uniseg) (l : ListWidget) (c : Nat) (hc : 0 < c) (hitems : ∀ t ∈ l.items, t.lines.length = c)
    (hne : l.items ≠ []) (hp : l.scrollPadding = 0) (area : Rect) (hw : 0 < (content l area).width)
    (hh : (c : Int) ≤ (content l area).height) (o : Nat) (sel : Option Nat) (hsel : ∀ s ∈ sel, s < l.items.length)
    (b b' : Buffer) (s' : State) (h : render u l area b ⟨o, sel.map Int.ofNat⟩ = some (b', s')) :
    s' = ⟨(scrolled ((content l area).height.toNat / c) (min o (l.items.length - 1)) sel : Nat), sel.map Int.ofNat⟩ := by
  have hlen : 0 < l.items.length := List.length_pos_of_ne_nil hne
  have hwin := C123_window l.items.length c o sel (content l area).height hlen hc hh hsel
  have hmap : l.items.map itemHeight = List.replicate l.items.length c := by
    rw [List.eq_replicate_iff]
    refine ⟨by simp, fun x hx => ?_⟩
    obtain ⟨t, ht, rfl⟩ := List.mem_map.1 hx
    exact hitems t ht
  rw [← hmap, ← hp] at hwin
  obtain ⟨b2, h2⟩ : ∃ b2, renderItems u l (content l area) b2 ⟨o, sel.map Int.ofNat⟩ = some (b', s') := by
    unfold render at h
    cases hb : l.block with
    | none =>
      simp only [hb, Option.bind_eq_bind, Option.bind_eq_some_iff] at h
      obtain ⟨b1, -, h⟩ := h
      exact ⟨b1, by simpa [content, hb] using h⟩
    | some k =>
      simp only [hb, Option.bind_eq_bind, Option.bind_eq_some_iff] at h
      obtain ⟨b1, -, b2, -, h⟩ := h
      exact ⟨b2, by simpa [content, hb] using h⟩
  have hclamp : clampSelection l.items.length ⟨o, sel.map Int.ofNat⟩ = ⟨o, sel.map Int.ofNat⟩ := by
    unfold clampSelection
    cases sel with
    | none => rfl
    | some s =>
      have := hsel s rfl
      simp only [Option.map_some]
      have : ¬ (Int.ofNat s ≥ (l.items.length : Int)) := by
        show ¬ ((s : Int) ≥ _)
        omega
      simp only [this, if_false]
  unfold renderItems at h2
  have hempty : (content l area).isEmpty = false := by simp [Rect.isEmpty]; omega
  rw [hempty, if_neg (by simp; omega)] at h2
  simp only [hclamp, hwin, Option.bind_eq_bind, Option.bind_some] at h2
  split_ifs at h2
  simp only [Option.bind_eq_some_iff] at h2
  obtain ⟨b3, -, h3⟩ := h2
  simp only [Option.some.injEq, Prod.mk.injEq] at h3
  exact h3.2.symm

/-- Ten items of two rows in seven rows: three are shown. From the first one, selecting the fifth scrolls by two, and selecting
the second then scrolls back by one. -/
example : scrolled 3 0 (some 4) = 2 ∧ scrolled 3 2 (some 1) = 1 ∧ scrolled 3 2 (some 3) = 2 ∧
    getItemsBounds (List.replicate 10 2) 0 (some 4) 0 7 = some (2, 5) ∧
    getItemsBounds (List.replicate 10 2) 0 (some 1) 2 7 = some (1, 4) := by decide +kernel

end Bento
