import Verif.Lemmas.Diff
import Verif.Props.Buffer
import Verif.Spec.Frame

/-! # From strips to grids -/

namespace Bento

open Buffer

namespace Diff

/-- Linear index of a position. -/
def idxN (a : Rect) (p : Position) : Nat := (a.idx p).toNat

theorem idxN_cast {a : Rect} {p : Position} (h : a.contains p = true) :
    ((idxN a p : Nat) : Int) = a.idx p := by
  have := Rect.idx_nonneg h; unfold idxN; omega

theorem fn_idxN {b : Buffer} {p : Position} {c : Cell} (h : b.cellAt p = some c) :
    fn b.content (idxN b.area p) = c := by
  have hc := cellAt_some_contains h
  rw [cellAt_eq hc] at h
  simp only [fn, List.getD_eq_getElem?_getD, idxN, h, Option.getD_some]

theorem idxN_lt {b : Buffer} (wf : b.WF) {p : Position} (h : b.area.contains p = true) :
    idxN b.area p < b.content.length := wf.idx_lt_length h

theorem width_pos {a : Rect} {p : Position} (h : a.contains p = true) : 0 < a.width := by
  rw [Rect.contains_iff] at h; unfold Rect.Mem at h; omega

theorem pos_spec {b : Buffer} (wf : b.WF) {i : Nat} (h : i < b.content.length) :
    b.area.contains (pos b.area i) = true ∧ idxN b.area (pos b.area i) = i ∧
      b.cellAt (pos b.area i) = some (fn b.content i) := by
  obtain ⟨p, h1, h2, h3⟩ := C07_indexOf_posOf b wf i h
  have hw := width_pos h2
  rw [posOf_eq h (by omega)] at h1
  injection h1 with h1
  subst h1
  rw [indexOf_eq h2] at h3
  injection h3 with h3
  have hi : idxN b.area (pos b.area i) = i := by unfold idxN; omega
  refine ⟨h2, hi, ?_⟩
  obtain ⟨c, hc⟩ := wf.cellAt_isSome h2
  rw [hc, ← fn_idxN hc, hi]

theorem pos_idxN {b : Buffer} (wf : b.WF) {p : Position} (h : b.area.contains p = true) :
    pos b.area (idxN b.area p) = p := by
  have := pos_spec wf (idxN_lt wf h)
  apply Rect.idx_injective this.1 h
  rw [← idxN_cast this.1, this.2.1, idxN_cast h]

/-- Neighbouring linear indices: same row, or the second starts a row. -/
theorem idx_succ {a : Rect} {p q : Position} (hp : a.contains p = true) (hq : a.contains q = true)
    (h : idxN a q = idxN a p + 1) :
    (q.y = p.y ∧ q.x = p.x + 1) ∨ (q.x = a.x ∧ p.x + 1 = a.x + a.width) := by
  have h1 := idxN_cast hp
  have h2 := idxN_cast hq
  have hp' := hp
  have hq' := hq
  rw [Rect.contains_iff] at hp' hq'
  unfold Rect.Mem at hp' hq'
  have e : a.idx q = a.idx p + 1 := by omega
  unfold Rect.idx at e
  by_cases hr : p.x + 1 < a.x + a.width
  · have := idx_inj (r := q.y - a.y) (c := q.x - a.x) (r' := p.y - a.y) (c' := p.x - a.x + 1)
      (w := a.width) (by omega) (by omega) (by omega) (by omega) (by omega)
    exact Or.inl ⟨by omega, by omega⟩
  · have := idx_inj (r := q.y - a.y) (c := q.x - a.x) (r' := p.y - a.y + 1) (c' := 0)
      (w := a.width) (by omega) (by omega) (by omega) (by omega)
      (by rw [Int.add_mul]; omega)
    exact Or.inr ⟨by omega, by omega⟩

theorem idx_same_row {a : Rect} {p q : Position} (hp : a.contains p = true)
    (hq : a.contains q = true) (hy : q.y = p.y) :
    (idxN a q : Int) - idxN a p = q.x - p.x := by
  have h1 := idxN_cast hp
  have h2 := idxN_cast hq
  rw [h1, h2]; unfold Rect.idx; rw [hy]; omega

/-- First column cells never hold the right half of a wide glyph. -/
def RowStart (a : Rect) (g : Grid) : Prop :=
  ∀ q, a.contains q = true → q.x = a.x → g q ≠ .cont

theorem put_lput {a : Rect} {j : Junk} {g : Grid} {G : Nat → SCell} {p q : Position} {s : String}
    {wide : Bool} {pen : Pen} (hp : a.contains p = true) (hq : a.contains q = true)
    (hag : ∀ q, a.contains q = true → g q = G (idxN a q)) (hrs : RowStart a g)
    (hw : wide = true → p.x + 1 < a.x + a.width) :
    g.put j p s wide pen q = lput j G (idxN a p) s wide pen (idxN a q) := by
  have hcp := idxN_cast hp
  have hcq := idxN_cast hq
  by_cases hy : q.y = p.y
  · have hd := idx_same_row hp hq hy
    simp only [Grid.put, lput, hy, ne_eq, not_true, if_false]
    rw [← hag p hp, ← hag q hq]
    have e1 : (q.x = p.x) ↔ (idxN a q = idxN a p) := by omega
    have e2 : (q.x = p.x + 1) ↔ (idxN a q = idxN a p + 1) := by omega
    have e3 : (q.x = p.x - 1) ↔ (idxN a q + 1 = idxN a p) := by omega
    have e4 : (q.x = p.x + (if wide then 2 else 1)) ↔
        (idxN a q = idxN a p + (if wide then 2 else 1)) := by split <;> omega
    simp only [e1, e2, e3, e4]
  · simp only [Grid.put, lput, hy, ne_eq, not_false_eq_true, if_true]
    rw [← hag p hp, ← hag q hq]
    have n1 : idxN a q ≠ idxN a p := by
      intro h
      apply hy
      rw [Rect.idx_injective hq hp (by omega)]
    have n2 : ¬ (wide = true ∧ idxN a q = idxN a p + 1) := by
      rintro ⟨h1, h2⟩
      have := hw h1
      rcases idx_succ hp hq h2 with h | h
      · exact hy h.1
      · omega
    have n3 : ¬ (idxN a q + 1 = idxN a p ∧ g p = .cont) := by
      rintro ⟨h1, h2⟩
      rcases idx_succ hq hp h1.symm with h | h
      · exact hy h.1.symm
      · exact hrs p hp h.1 h2
    have n4 : ¬ (idxN a q = idxN a p + (if wide then 2 else 1) ∧ g q = .cont) := by
      rintro ⟨h1, h2⟩
      cases hwd : wide
      · rw [hwd] at h1
        rcases idx_succ hp hq h1 with h | h
        · exact hy h.1
        · exact hrs q hq h.1 h2
      · rw [hwd] at h1
        have hx := hw hwd
        have hp' := hp
        rw [Rect.contains_iff] at hp'
        unfold Rect.Mem at hp'
        have hp1 : a.contains ⟨p.x + 1, p.y⟩ = true := by
          rw [Rect.contains_iff]; unfold Rect.Mem; simp only; omega
        have hd := idx_same_row hp hp1 rfl
        simp only at hd
        have h1' : idxN a q = idxN a ⟨p.x + 1, p.y⟩ + 1 := by
          simp only [if_true] at h1; omega
        rcases idx_succ hp1 hq h1' with h | h
        · exact hy h.1
        · exact hrs q hq h.1 h2
    rw [if_neg n1, if_neg n2, if_neg n3, if_neg n4]

theorem put_rowStart {a : Rect} {j : Junk} {g : Grid} {p : Position} {s : String}
    {wide : Bool} {pen : Pen} (hp : a.contains p = true) (hrs : RowStart a g) :
    RowStart a (g.put j p s wide pen) := by
  intro q hq hx
  have hp' := hp
  rw [Rect.contains_iff] at hp'
  unfold Rect.Mem at hp'
  have := hrs q hq hx
  simp only [Grid.put]
  split
  · exact this
  · split
    · simp
    · split
      · rename_i h1 h2 h3; omega
      · split
        · simp [Junk.cell]
        · simp only [this, and_false, if_false]
          exact this

/-- Cells outside the area are untouched, if no wide glyph reaches out of it. -/
theorem put_outside {a : Rect} {j : Junk} {g : Grid} {p q : Position} {s : String}
    {wide : Bool} {pen : Pen} (hp : a.contains p = true) (hrs : RowStart a g)
    (hw : wide = true → p.x + 1 < a.x + a.width) (hq : a.contains q = false)
    (hout : ∀ y, g ⟨a.x + a.width, y⟩ ≠ .cont) : g.put j p s wide pen q = g q := by
  have hp' := hp
  rw [Rect.contains_iff] at hp'
  have hq' : ¬ a.Mem q := by rw [← Rect.contains_iff, hq]; simp
  unfold Rect.Mem at hp' hq'
  simp only [Grid.put]
  split
  · rfl
  · rename_i hy
    simp only [ne_eq, Decidable.not_not] at hy
    rw [if_neg (by omega)]
    rw [if_neg (fun h => by have := hw h.1; omega)]
    rw [if_neg (fun h => by
      apply hrs p hp (by omega) h.2)]
    rw [if_neg]
    rintro ⟨h1, h2⟩
    have hx : q.x = a.x + a.width := by
      cases hwd : wide
      · rw [hwd] at h1; simp only [Bool.false_eq_true, if_false] at h1; omega
      · have := hw hwd; rw [hwd] at h1; simp only [if_true] at h1; omega
    apply hout q.y
    rw [← hx]; exact h2

theorem stringWidth_single {u : Uniseg} {s : String} (h : u.graphemes s = [s]) :
    u.stringWidth s = u.width s := by
  simp [Uniseg.stringWidth, h]

/-- Facts about the content of drawable buffers, by linear index. -/
theorem drawable_fn {u : Uniseg} {b : Buffer} (wf : b.WF) (d : b.Drawable u) {i : Nat}
    (h : i < b.content.length) :
    u.graphemes (fn b.content i).symbol = [(fn b.content i).symbol] ∧
    u.stringWidth (fn b.content i).symbol = u.width (fn b.content i).symbol ∧
    (u.width (fn b.content i).symbol = 1 ∨ u.width (fn b.content i).symbol = 2) ∧
    (fn b.content i).skip = false ∧
    (u.width (fn b.content i).symbol = 2 →
      (pos b.area i).x + 1 < b.area.x + b.area.width ∧ i + 1 < b.content.length ∧
      u.width (fn b.content (i + 1)).symbol = 1) := by
  obtain ⟨h1, h2, h3⟩ := pos_spec wf h
  refine ⟨d.single _ _ h3, stringWidth_single (d.single _ _ h3), d.width _ _ h3, d.noSkip _ _ h3, ?_⟩
  intro hw
  obtain ⟨c', hc', hw'⟩ := d.follow _ _ h3 hw
  have hcon := cellAt_some_contains hc'
  have hx := hcon
  rw [Rect.contains_iff] at hx
  unfold Rect.Mem at hx
  simp only at hx
  have hd := idx_same_row h1 hcon rfl
  simp only at hd
  have hidx : idxN b.area ⟨(pos b.area i).x + 1, (pos b.area i).y⟩ = i + 1 := by omega
  refine ⟨by omega, ?_, ?_⟩
  · rw [← hidx]; exact idxN_lt wf hcon
  · rw [← hidx, fn_idxN hc']; exact hw'

theorem fn_out {l : List Cell} {i : Nat} (h : l.length ≤ i) : fn l i = Cell.empty := by
  simp [fn, h]

/-- Padding facts: beyond the end the content counts as blank. -/
theorem drawable_le_two {u : Uniseg} {b : Buffer} (wf : b.WF) (d : b.Drawable u)
    (hsp : u.stringWidth " " = 1) (i : Nat) : u.stringWidth (fn b.content i).symbol ≤ 2 := by
  by_cases h : i < b.content.length
  · have := drawable_fn wf d h; omega
  · rw [fn_out (by omega)]; simp [Cell.empty, Cell.new, hsp]

theorem drawable_noOverlap {u : Uniseg} {b : Buffer} (wf : b.WF) (d : b.Drawable u)
    (hsp : u.stringWidth " " = 1) : NoOverlap u.stringWidth b.content := by
  intro i hi
  by_cases h : i < b.content.length
  · have h1 := drawable_fn wf d h
    have h2 := h1.2.2.2.2 (by omega)
    have h3 := drawable_fn wf d h2.2.1
    omega
  · rw [fn_out (by omega)] at hi; simp [Cell.empty, Cell.new, hsp] at hi

/-- The picture of a buffer, by linear index. -/
theorem covered_iff {u : Uniseg} {b : Buffer} (wf : b.WF) (d : b.Drawable u) {p : Position}
    (h : b.area.contains p = true) :
    b.covered u p = true ↔ leftWide u.stringWidth b.content (idxN b.area p) := by
  have hlt := idxN_lt wf h
  simp only [leftWide]
  constructor
  · intro hc
    unfold Buffer.covered at hc
    split at hc
    · rename_i c hcell
      have hcon := cellAt_some_contains hcell
      have hd := idx_same_row hcon h rfl
      simp only at hd
      have e : idxN b.area ⟨p.x - 1, p.y⟩ = idxN b.area p - 1 := by omega
      refine ⟨by omega, ?_⟩
      rw [← e, fn_idxN hcell, stringWidth_single (d.single _ _ hcell)]
      simpa using hc
    · cases hc
  · rintro ⟨h0, hw⟩
    have h1 := drawable_fn wf d (i := idxN b.area p - 1) (by omega)
    have h2 := pos_spec wf (i := idxN b.area p - 1) (by omega)
    have h3 := h1.2.2.2.2 (by omega)
    have h4 := idx_succ h2.1 h (by rw [h2.2.1]; omega)
    have e : pos b.area (idxN b.area p - 1) = ⟨p.x - 1, p.y⟩ := by
      rcases h4 with h4 | h4
      · ext <;> simp only <;> omega
      · omega
    unfold Buffer.covered
    rw [← e, h2.2.2]
    simp only [beq_iff_eq]
    omega

theorem shows_iff {u : Uniseg} {pen : Cell → Pen} {g : Grid} {b : Buffer} (wf : b.WF)
    (d : b.Drawable u) :
    Shows u pen g b ↔ ∀ p, b.area.contains p = true →
      g p = lview u.stringWidth pen b.content (idxN b.area p) := by
  constructor
  · intro h p hp
    obtain ⟨c, hc⟩ := wf.cellAt_isSome hp
    rw [h p c hc]
    simp only [lview, fn_idxN hc, stringWidth_single (d.single _ _ hc)]
    by_cases hcov : b.covered u p = true
    · rw [if_pos hcov, if_pos ((covered_iff wf d hp).1 hcov)]
    · rw [if_neg hcov, if_neg (fun h => hcov ((covered_iff wf d hp).2 h))]
  · intro h p c hc
    have hp := cellAt_some_contains hc
    rw [h p hp]
    simp only [lview, fn_idxN hc, stringWidth_single (d.single _ _ hc)]
    by_cases hcov : b.covered u p = true
    · rw [if_pos hcov, if_pos ((covered_iff wf d hp).1 hcov)]
    · rw [if_neg hcov, if_neg (fun h => hcov ((covered_iff wf d hp).2 h))]

theorem shows_rowStart {u : Uniseg} {pen : Cell → Pen} {g : Grid} {b : Buffer} (wf : b.WF)
    (h : Shows u pen g b) : RowStart b.area g := by
  intro q hq hx
  obtain ⟨c, hc⟩ := wf.cellAt_isSome hq
  rw [h q c hc]
  have : b.covered u q = false := by
    unfold Buffer.covered
    rw [cellAt_none]
    rw [← Bool.not_eq_true, Rect.contains_iff]
    unfold Rect.Mem
    simp only
    omega
  simp [this]

/-- The main transfer: writing the reported cells makes the grid show the new frame and leaves the
outside alone. -/
theorem apply_diff {u : Uniseg} (j : Junk) (pen : Cell → Pen) {g : Grid} {b o : Buffer} (wfb : b.WF)
    (wfo : o.WF) (harea : b.area = o.area) (db : b.Drawable u) (dO : o.Drawable u)
    (hsp : u.stringWidth " " = 1) (hs : Shows u pen g b) (ups : List PositionedCell)
    (hd : b.diff u o = some ups) :
    Shows u pen (g.apply j u pen ups) o ∧
    ((∀ y, g ⟨b.area.x + b.area.width, y⟩ ≠ .cont) →
      ∀ q, b.area.contains q = false → g.apply j u pen ups q = g q) := by
  have hlen : b.content.length = o.content.length := by
    have h1 := wfb.len
    have h2 := wfo.len
    rw [harea] at h1
    omega
  by_cases hn : b.content.length = 0
  · have hnil : b.content = [] := List.length_eq_zero_iff.1 hn
    rw [diff_nil u b o hnil] at hd
    injection hd with hd
    subst hd
    refine ⟨?_, fun _ q _ => rfl⟩
    intro p c hc
    have := idxN_lt wfo (cellAt_some_contains hc)
    omega
  · have h0 : 0 < b.content.length := by omega
    have hw := width_pos (pos_spec wfb h0).1
    rw [diff_eq u b o hlen (by omega)] at hd
    injection hd with hd
    subst hd
    have hP := drawable_le_two wfb db hsp
    have hN := drawable_le_two wfo dO hsp
    have oP := drawable_noOverlap wfb db hsp
    have oN := drawable_noOverlap wfo dO hsp
    have hskip : ∀ i, (fn o.content i).skip = false := by
      intro i
      by_cases h : i < o.content.length
      · exact (drawable_fn wfo dO h).2.2.2.1
      · rw [fn_out (by omega)]; rfl
    -- the strip
    let G : Nat → SCell := lview u.stringWidth pen b.content
    have hG := lfold (j := j) (pen := pen) hP hN oP oN hskip G (fun _ => rfl)
    -- step on grids
    let gstep : Grid → Nat → Grid := fun g i =>
      if em u.stringWidth b.content o.content i then
        g.put j (pos b.area i) (fn o.content i).symbol
          (decide (u.width (fn o.content i).symbol = 2)) (pen (fn o.content i))
      else g
    have happ : g.apply j u pen (((List.range b.content.length).filter
        (em u.stringWidth b.content o.content)).map
          (fun i => ⟨fn o.content i, pos b.area i⟩)) =
        (List.range b.content.length).foldl gstep g := by
      simp only [Grid.apply, List.foldl_map, List.foldl_filter, gstep]
    rw [happ]
    have key : ∀ m, m ≤ b.content.length →
        (∀ q, b.area.contains q = true → (List.range m).foldl gstep g q =
          ((List.range m).foldl (lstep j u.stringWidth pen b.content o.content) G)
            (idxN b.area q)) ∧
        RowStart b.area ((List.range m).foldl gstep g) ∧
        ((∀ y, g ⟨b.area.x + b.area.width, y⟩ ≠ .cont) →
          ∀ q, b.area.contains q = false → (List.range m).foldl gstep g q = g q) := by
      intro m
      induction m with
      | zero =>
        intro _
        exact ⟨(shows_iff wfb db).1 hs, shows_rowStart wfb hs, fun _ _ _ => rfl⟩
      | succ m ih =>
        intro hm
        obtain ⟨i1, i2, i3⟩ := ih (by omega)
        rw [List.range_succ, List.foldl_append, List.foldl_append]
        simp only [List.foldl_cons, List.foldl_nil]
        have hp := pos_spec wfb (i := m) (by omega)
        have hno := drawable_fn wfo dO (i := m) (by omega)
        have hwide : decide (u.width (fn o.content m).symbol = 2) = true →
            (pos b.area m).x + 1 < b.area.x + b.area.width := by
          intro h
          rw [harea]
          exact (hno.2.2.2.2 (by simpa using h)).1
        by_cases he : em u.stringWidth b.content o.content m = true
        · simp only [gstep, he, if_true]
          refine ⟨?_, put_rowStart hp.1 i2, ?_⟩
          · intro q hq
            rw [put_lput hp.1 hq i1 i2 hwide]
            simp only [lstep, he, if_true, hp.2.1, hno.2.1]
          · intro hout q hq
            rw [put_outside hp.1 i2 hwide hq, i3 hout q hq]
            intro y
            rw [i3 hout _ (by
              rw [← Bool.not_eq_true, Rect.contains_iff]; unfold Rect.Mem; simp only; omega)]
            exact hout y
        · rw [Bool.not_eq_true] at he
          simp only [gstep, lstep, he, Bool.false_eq_true, if_false]
          exact ⟨i1, i2, i3⟩
    obtain ⟨k1, _, k3⟩ := key b.content.length (Nat.le_refl _)
    refine ⟨?_, k3⟩
    rw [shows_iff wfo dO]
    intro p hp
    rw [← harea] at hp ⊢
    rw [k1 p hp]
    exact (hG b.content.length).1 _ (idxN_lt wfb hp)

end Diff
end Bento
