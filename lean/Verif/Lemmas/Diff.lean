import Verif.Lemmas.Buffer
import Verif.Spec.Screen

/-! # Helper lemmas about `Buffer.Diff` -/

namespace Bento

namespace Diff

/-- Total access to a list of cells. -/
def fn (l : List Cell) (i : Nat) : Cell := l.getD i Cell.empty

theorem fn_eq {l : List Cell} {i : Nat} (h : i < l.length) : fn l i = l[i] := by
  simp [fn, h]

theorem drop_eq_cons {l : List Cell} {i : Nat} (h : i < l.length) :
    l.drop i = fn l i :: l.drop (i + 1) := by
  rw [fn_eq h]; exact List.drop_eq_getElem_cons h

/-- The loop variables `(invalidated, toSkip)` before iteration `i`. -/
def st (sw : String → Nat) (P N : List Cell) : Nat → Nat × Nat
  | 0 => (0, 0)
  | i + 1 =>
    (max 0 (max (st sw P N i).1 (max (sw (fn P i).symbol) (sw (fn N i).symbol)) - 1),
     max 0 (sw (fn N i).symbol - 1))

/-- Whether iteration `i` reports a cell. -/
def em (sw : String → Nat) (P N : List Cell) (i : Nat) : Bool :=
  !(fn N i).skip && (fn N i != fn P i || decide ((st sw P N i).1 > 0)) && (st sw P N i).2 == 0

/-- Position of a linear index. -/
def pos (a : Rect) (i : Nat) : Position :=
  ⟨Int.tmod i a.width + a.x, Int.tdiv i a.width + a.y⟩

theorem posOf_eq {b : Buffer} {i : Nat} (h : i < b.content.length) (hw : b.area.width ≠ 0) :
    b.posOf i = some (pos b.area i) := by
  simp only [Buffer.posOf]
  rw [if_neg (by omega), if_neg hw]
  rfl

theorem diffLoop_eq (sw : String → Nat) (b : Buffer) (P N : List Cell) (hb : P = b.content)
    (hl : P.length = N.length) (hw : b.area.width ≠ 0) (k : Nat) : ∀ i, i + k = P.length →
    Buffer.diffLoop sw b (P.drop i) (N.drop i) i (st sw P N i).1 (st sw P N i).2 =
      some (((List.range' i k).filter (em sw P N)).map (fun i => ⟨fn N i, pos b.area i⟩)) := by
  induction k with
  | zero =>
    intro i hi
    rw [List.drop_eq_nil_of_le (by omega)]
    rfl
  | succ k ih =>
    intro i hi
    have h1 : i < P.length := by omega
    rw [drop_eq_cons h1, drop_eq_cons (l := N) (by omega)]
    simp only [Buffer.diffLoop]
    have hst := ih (i + 1) (by omega)
    rw [st] at hst
    simp only at hst
    rw [hst, List.range'_succ, List.filter_cons]
    rw [posOf_eq (by rw [← hb]; exact h1) hw]
    have hem : (!(fn N i).skip && (fn N i != fn P i || decide ((st sw P N i).1 > 0)) &&
        (st sw P N i).2 == 0) = em sw P N i := rfl
    rw [hem]
    cases em sw P N i <;> simp

/-- `Diff` reports, in order, exactly the linear indices selected by `em`. -/
theorem diff_eq (u : Uniseg) (b o : Buffer) (hl : b.content.length = o.content.length)
    (hw : b.area.width ≠ 0) :
    b.diff u o = some (((List.range b.content.length).filter
      (em u.stringWidth b.content o.content)).map
        (fun i => ⟨fn o.content i, pos b.area i⟩)) := by
  have := diffLoop_eq u.stringWidth b b.content o.content rfl hl hw b.content.length 0 (by omega)
  rw [List.range_eq_range']
  exact this

theorem diffLoop_nil_left (sw : String → Nat) (b : Buffer) (N : List Cell) (i a c : Nat) :
    Buffer.diffLoop sw b [] N i a c = some [] := by
  cases N <;> rfl

/-- An empty buffer has nothing to report. -/
theorem diff_nil (u : Uniseg) (b o : Buffer) (h : b.content = []) : b.diff u o = some [] := by
  simp [Buffer.diff, h, diffLoop_nil_left]

/-- With widths at most two, `invalidated` is 1 exactly behind a double-width symbol of either
frame, and `toSkip` is 1 exactly behind a double-width symbol of the new frame. -/
theorem st_le_two {sw : String → Nat} {P N : List Cell}
    (hP : ∀ i, sw (fn P i).symbol ≤ 2) (hN : ∀ i, sw (fn N i).symbol ≤ 2) (i : Nat) :
    (st sw P N (i + 1)).1 =
        (if sw (fn P i).symbol = 2 ∨ sw (fn N i).symbol = 2 then 1 else 0) ∧
      (st sw P N (i + 1)).2 = (if sw (fn N i).symbol = 2 then 1 else 0) := by
  have h1 : ∀ i, (st sw P N i).1 ≤ 1 := by
    intro i
    induction i with
    | zero => simp [st]
    | succ i ih => simp only [st]; have := hP i; have := hN i; omega
  have := h1 i
  have := hP i
  have := hN i
  simp only [st]
  constructor <;> split <;> omega

/-- Whether the cell left of linear index `i` is double-width. -/
def leftWide (sw : String → Nat) (l : List Cell) (i : Nat) : Prop :=
  0 < i ∧ sw (fn l (i - 1)).symbol = 2

instance (sw l i) : Decidable (leftWide sw l i) := inferInstanceAs (Decidable (_ ∧ _))

theorem em_iff {sw : String → Nat} {P N : List Cell}
    (hP : ∀ i, sw (fn P i).symbol ≤ 2) (hN : ∀ i, sw (fn N i).symbol ≤ 2) (i : Nat) :
    em sw P N i = true ↔ (fn N i).skip = false ∧ ¬ leftWide sw N i ∧
      (fn N i ≠ fn P i ∨ leftWide sw P i) := by
  simp only [em, Bool.and_eq_true, Bool.not_eq_true', Bool.or_eq_true, bne_iff_ne,
    decide_eq_true_eq, beq_iff_eq, leftWide]
  cases i with
  | zero => simp [st]
  | succ i =>
    obtain ⟨h1, h2⟩ := st_le_two hP hN i
    rw [h1, h2]
    simp only [Nat.add_sub_cancel]
    by_cases hn : sw (fn N i).symbol = 2 <;> by_cases hp : sw (fn P i).symbol = 2 <;> simp [hn, hp]

/-! ## The effect on a line of cells -/

/-- Writing a glyph on a one-dimensional strip. -/
def lput (j : Junk) (g : Nat → SCell) (i : Nat) (s : String) (wide : Bool) (pen : Pen) :
    Nat → SCell := fun k =>
  if k = i then .glyph s wide pen
  else if wide ∧ k = i + 1 then .cont
  else if k + 1 = i ∧ g i = .cont then j.cell
  else if k = i + (if wide then 2 else 1) ∧ g k = .cont then j.cell
  else g k

/-- What a well-formed list of cells looks like on a strip. -/
def lview (sw : String → Nat) (pen : Cell → Pen) (l : List Cell) (i : Nat) : SCell :=
  if leftWide sw l i then .cont
  else .glyph (fn l i).symbol (decide (sw (fn l i).symbol = 2)) (pen (fn l i))

/-- One iteration of the reported updates on a strip. -/
def lstep (j : Junk) (sw : String → Nat) (pen : Cell → Pen) (P N : List Cell) (g : Nat → SCell)
    (i : Nat) : Nat → SCell :=
  if em sw P N i then lput j g i (fn N i).symbol (decide (sw (fn N i).symbol = 2)) (pen (fn N i))
  else g

/-- No wide symbol follows directly behind a wide one. -/
def NoOverlap (sw : String → Nat) (l : List Cell) : Prop :=
  ∀ i, sw (fn l i).symbol = 2 → sw (fn l (i + 1)).symbol ≠ 2

/-- State of the strip after `i` iterations. -/
def LInv (j : Junk) (sw : String → Nat) (pen : Cell → Pen) (P N : List Cell) (i : Nat)
    (g : Nat → SCell) : Prop :=
  (∀ k, k < i → g k = lview sw pen N k) ∧
  (if leftWide sw N i then
    g i = .cont ∧ ∀ k, i < k → g k =
      if k = i + 1 ∧ sw (fn P i).symbol = 2 then j.cell else lview sw pen P k
   else ∀ k, i ≤ k → g k = if k = i ∧ leftWide sw P i then j.cell else lview sw pen P k)

theorem leftWide_succ (sw l i) : leftWide sw l (i + 1) ↔ sw (fn l i).symbol = 2 := by
  simp [leftWide]

theorem lview_not {sw pen l i} (h : ¬ leftWide sw l i) : lview sw pen l i =
    .glyph (fn l i).symbol (decide (sw (fn l i).symbol = 2)) (pen (fn l i)) := by
  simp [lview, h]

theorem lview_ne_cont {sw pen l i} (h : ¬ leftWide sw l i) : lview sw pen l i ≠ .cont := by
  simp [lview, h]

theorem lview_cont_iff {sw pen l i} : lview sw pen l i = .cont ↔ leftWide sw l i := by
  by_cases h : leftWide sw l i <;> simp [lview, h]

theorem lstep_inv {j : Junk} {sw : String → Nat} {pen : Cell → Pen} {P N : List Cell}
    (hP : ∀ i, sw (fn P i).symbol ≤ 2) (hN : ∀ i, sw (fn N i).symbol ≤ 2)
    (oP : NoOverlap sw P) (oN : NoOverlap sw N) (hs : ∀ i, (fn N i).skip = false)
    (i : Nat) (g : Nat → SCell) (h : LInv j sw pen P N i g) :
    LInv j sw pen P N (i + 1) (lstep j sw pen P N g i) := by
  obtain ⟨h1, h2⟩ := h
  have hem := em_iff hP hN i
  by_cases hl : leftWide sw N i
  · -- hidden cell: nothing is written
    rw [if_pos hl] at h2
    have hne : em sw P N i = false := by
      rw [Bool.eq_false_iff]; intro h; exact (hem.1 h).2.1 hl
    have hNi : ¬ sw (fn N i).symbol = 2 := by
      obtain ⟨h0, hw⟩ := hl
      have := oN (i - 1) hw
      rwa [show i - 1 + 1 = i by omega] at this
    simp only [lstep, hne, Bool.false_eq_true, if_false]
    refine ⟨?_, ?_⟩
    · intro k hk
      by_cases hki : k = i
      · subst hki; rw [h2.1]; exact (lview_cont_iff.2 hl).symm
      · exact h1 k (by omega)
    · rw [if_neg (by rw [leftWide_succ]; exact hNi)]
      intro k hk
      simp only [h2.2 k (by omega), leftWide_succ]
  · rw [if_neg hl] at h2
    have hgi : g i ≠ .cont := by
      rw [h2 i (Nat.le_refl i)]
      by_cases hp : leftWide sw P i
      · simp [hp, Junk.cell]
      · simp only [hp, and_false, if_false]; exact lview_ne_cont hp
    have hgk : ∀ k, i < k → g k = lview sw pen P k := fun k hk => by
      rw [h2 k (by omega), if_neg (by omega)]
    by_cases he : em sw P N i = true
    · simp only [lstep, he, if_true]
      have hglyph : ∀ k, k < i → lput j g i (fn N i).symbol
          (decide (sw (fn N i).symbol = 2)) (pen (fn N i)) k = g k := by
        intro k hk
        simp only [lput]
        rw [if_neg (by omega), if_neg (by omega), if_neg (by simp [hgi]),
          if_neg (by split <;> omega)]
      refine ⟨?_, ?_⟩
      · intro k hk
        by_cases hki : k = i
        · subst hki; simp only [lput, if_true]; exact (lview_not hl).symm
        · rw [hglyph k (by omega)]; exact h1 k (by omega)
      · by_cases hw : sw (fn N i).symbol = 2
        · rw [if_pos (by rw [leftWide_succ]; exact hw)]
          refine ⟨?_, ?_⟩
          · simp only [lput]
            rw [if_neg (by omega), if_pos (by simp [hw])]
          · intro k hk
            simp only [lput, hw, decide_true, if_true]
            rw [if_neg (by omega), if_neg (by omega), if_neg (by omega)]
            rw [hgk k (by omega)]
            by_cases hk2 : k = i + 2
            · subst hk2
              simp only [true_and]
              have : leftWide sw P (i + 2) ↔ sw (fn P (i + 1)).symbol = 2 := leftWide_succ ..
              by_cases hp2 : sw (fn P (i + 1)).symbol = 2
              · simp [lview_cont_iff, this, hp2]
              · simp [lview_cont_iff, this, hp2]
            · rw [if_neg (by simp [hk2]), if_neg (by omega)]
        · rw [if_neg (by rw [leftWide_succ]; exact hw)]
          intro k hk
          simp only [lput, hw, decide_false, Bool.false_eq_true, false_and, if_false]
          rw [if_neg (by omega), if_neg (by omega)]
          rw [hgk k (by omega)]
          by_cases hk1 : k = i + 1
          · subst hk1
            simp only [true_and, lview_cont_iff]
          · rw [if_neg (by simp [hk1]), if_neg (by simp [hk1])]
    · have he' : ¬ (fn N i ≠ fn P i ∨ leftWide sw P i) := fun hc => he (hem.2 ⟨hs i, hl, hc⟩)
      simp only [lstep, he, if_false, Bool.false_eq_true]
      simp only [not_or, ne_eq, Decidable.not_not] at he'
      obtain ⟨heq, hlp⟩ := he'
      have hgi' : g i = lview sw pen N i := by
        rw [h2 i (Nat.le_refl i), if_neg (by simp [hlp]), lview_not hlp, lview_not hl, heq]
      refine ⟨?_, ?_⟩
      · intro k hk
        by_cases hki : k = i
        · subst hki; exact hgi'
        · exact h1 k (by omega)
      · by_cases hw : sw (fn N i).symbol = 2
        · rw [if_pos (by rw [leftWide_succ]; exact hw)]
          rw [heq] at hw
          refine ⟨?_, ?_⟩
          · rw [hgk (i + 1) (by omega), lview_cont_iff, leftWide_succ]; exact hw
          · intro k hk
            rw [hgk k (by omega), if_neg (fun hh => oP i hw hh.2)]
        · rw [if_neg (by rw [leftWide_succ]; exact hw)]
          rw [heq] at hw
          intro k hk
          rw [hgk k (by omega), if_neg (by rw [leftWide_succ]; exact fun h => hw h.2)]

/-- Applying the reported updates of a strip one after another turns the old picture into the new
one. -/
theorem lfold {j : Junk} {sw : String → Nat} {pen : Cell → Pen} {P N : List Cell}
    (hP : ∀ i, sw (fn P i).symbol ≤ 2) (hN : ∀ i, sw (fn N i).symbol ≤ 2)
    (oP : NoOverlap sw P) (oN : NoOverlap sw N) (hs : ∀ i, (fn N i).skip = false)
    (g : Nat → SCell) (hg : ∀ k, g k = lview sw pen P k) (n : Nat) :
    LInv j sw pen P N n ((List.range n).foldl (lstep j sw pen P N) g) := by
  induction n with
  | zero =>
    refine ⟨fun k hk => absurd hk (by omega), ?_⟩
    rw [if_neg (by simp [leftWide])]
    intro k _
    simp [leftWide, hg]
  | succ n ih =>
    rw [List.range_succ, List.foldl_append]
    exact lstep_inv hP hN oP oN hs n _ ih

end Diff
end Bento
