import Verif.Model.Geometry

/-!
# Properties C01–C04: rectangles and paddings

Specification: a rectangle denotes a set of positions, given independently of `Rect.contains`
by inequalities on the four fields.
-/

namespace Bento

/-- Specification: position `p` is one of the cells of `r` (half-open on both axes). -/
def Rect.Mem (r : Rect) (p : Position) : Prop :=
  r.x ≤ p.x ∧ p.x < r.x + r.width ∧ r.y ≤ p.y ∧ p.y < r.y + r.height

theorem Rect.contains_iff (r : Rect) (p : Position) : r.contains p = true ↔ r.Mem p := by
  simp only [Rect.contains, Bool.and_eq_true, decide_eq_true_eq, ge_iff_le, and_assoc]
  simp only [Rect.Mem, Rect.right, Rect.bottom]

/-! ## C01 -/

/-- **C01.** `Intersection` denotes set intersection. -/
theorem C01_intersection_is_set_intersection (a b : Rect) (p : Position) :
    (a.intersection b).contains p = true ↔ (a.contains p = true ∧ b.contains p = true) := by
  simp only [Rect.contains_iff, Rect.Mem, Rect.intersection, Rect.right, Rect.bottom]
  omega

/-- **C01.** `Intersection` never yields a negative extent. -/
theorem C01_intersection_nonneg (a b : Rect) :
    0 ≤ (a.intersection b).width ∧ 0 ≤ (a.intersection b).height := by
  simp only [Rect.intersection]; omega

/-- **C01.** `Intersection` is commutative as a value. -/
theorem C01_intersection_comm (a b : Rect) : a.intersection b = b.intersection a := by
  simp only [Rect.intersection, Rect.mk.injEq]; omega

/-- **C01.** `Intersection` is associative as a set of cells. -/
theorem C01_intersection_assoc (a b c : Rect) (p : Position) :
    ((a.intersection b).intersection c).contains p = (a.intersection (b.intersection c)).contains p := by
  rw [Bool.eq_iff_iff]
  simp only [C01_intersection_is_set_intersection, and_assoc]

/-- **C01.** A rectangle of non-negative extent is its own intersection with itself
and with any rectangle containing it. -/
theorem C01_intersection_absorbs (a b : Rect) (hw : 0 ≤ a.width) (hh : 0 ≤ a.height)
    (hx : b.x ≤ a.x) (hy : b.y ≤ a.y) (hr : a.right ≤ b.right) (hb : a.bottom ≤ b.bottom) :
    a.intersection b = a := by
  simp only [Rect.intersection, Rect.right, Rect.bottom] at *
  ext <;> simp <;> omega

example : (Rect.mk 2 3 4 5).intersection (Rect.mk 0 0 80 24) = Rect.mk 2 3 4 5 :=
  C01_intersection_absorbs _ _ (by decide) (by decide) (by decide) (by decide) (by decide) (by decide)

example : (Rect.mk 0 0 3 3).intersection (Rect.mk 1 2 5 5) = Rect.mk 1 2 2 1 := by decide
example : ((Rect.mk 0 0 3 3).intersection (Rect.mk 1 2 5 5)).contains ⟨1, 2⟩ = true := by decide
example : ((Rect.mk 0 0 3 3).intersection (Rect.mk 3 0 5 5)).contains ⟨3, 0⟩ = false := by decide

/-! ## C02 -/

theorem rowsLoop_spec (r : Rect) (back : Int) :
    ∀ (n : Nat) (fwd : Int), n = (back - fwd).toNat →
      Rect.rowsLoop r back n fwd =
        (List.range n).map (fun (i : Nat) => Rect.mk r.x (fwd + i) r.width 1) := by
  intro n
  induction n with
  | zero => intro fwd _; rfl
  | succ n ih =>
    intro fwd h
    have hlt : fwd < back := by omega
    rw [Rect.rowsLoop, if_pos hlt, ih (fwd + 1) (by omega), List.range_succ_eq_map]
    simp only [List.map_cons, List.map_map, List.cons.injEq]
    refine ⟨by simp, ?_⟩
    apply List.map_congr_left
    intro i _
    simp only [Function.comp, Rect.mk.injEq, true_and, and_true]
    omega

theorem columnsLoop_spec (r : Rect) (back : Int) :
    ∀ (n : Nat) (fwd : Int), n = (back - fwd).toNat →
      Rect.columnsLoop r back n fwd =
        (List.range n).map (fun (i : Nat) => Rect.mk (fwd + i) r.y 1 r.height) := by
  intro n
  induction n with
  | zero => intro fwd _; rfl
  | succ n ih =>
    intro fwd h
    have hlt : fwd < back := by omega
    rw [Rect.columnsLoop, if_pos hlt, ih (fwd + 1) (by omega), List.range_succ_eq_map]
    simp only [List.map_cons, List.map_map, List.cons.injEq]
    refine ⟨by simp [Rect.positioned, Rect.new], ?_⟩
    apply List.map_congr_left
    intro i _
    simp only [Function.comp, Rect.mk.injEq, and_true]
    omega

/-- **C02.** `Rows` is exactly the list of `Height` one-line strips, top to bottom. -/
theorem C02_rows_eq (r : Rect) :
    r.rows = (List.range r.height.toNat).map (fun (i : Nat) => Rect.mk r.x (r.y + i) r.width 1) := by
  have h : (r.bottom - r.y).toNat = r.height.toNat := by simp only [Rect.bottom]; omega
  rw [Rect.rows, rowsLoop_spec r _ _ _ rfl, h]

/-- **C02.** `Columns` is exactly the list of `Width` one-column strips, left to right. -/
theorem C02_columns_eq (r : Rect) :
    r.columns = (List.range r.width.toNat).map (fun (i : Nat) => Rect.mk (r.x + i) r.y 1 r.height) := by
  have h : (r.right - r.x).toNat = r.width.toNat := by simp only [Rect.right]; omega
  rw [Rect.columns, columnsLoop_spec r _ _ _ rfl, h]

/-- **C02.** The rows partition the rectangle: a position of the rectangle is in exactly one row
(exactly one index), any other position is in none. -/
theorem C02_rows_partition (r : Rect) (p : Position) :
    (r.contains p = true → ∃ i, ∃ h : i < r.rows.length, (r.rows[i]).contains p = true ∧
        ∀ j, ∀ hj : j < r.rows.length, (r.rows[j]).contains p = true → j = i) ∧
    (r.contains p = false → ∀ row ∈ r.rows, row.contains p = false) := by
  constructor
  · intro h
    rw [Rect.contains_iff] at h
    have hlen : r.rows.length = r.height.toNat := by simp [C02_rows_eq]
    unfold Rect.Mem at h
    refine ⟨(p.y - r.y).toNat, by omega, ?_, ?_⟩
    · simp only [C02_rows_eq, List.getElem_map, List.getElem_range]
      rw [Rect.contains_iff]; unfold Rect.Mem; simp only; omega
    · intro j hj hc
      simp only [C02_rows_eq, List.getElem_map, List.getElem_range] at hc
      rw [Rect.contains_iff] at hc; unfold Rect.Mem at hc; simp only at hc; omega
  · intro h row hrow
    rw [C02_rows_eq, List.mem_map] at hrow
    obtain ⟨i, hi, rfl⟩ := hrow
    rw [List.mem_range] at hi
    rw [← Bool.not_eq_true] at h ⊢
    intro hc; apply h
    rw [Rect.contains_iff] at hc ⊢
    unfold Rect.Mem at *; simp only at hc; omega

example : ∃ i, ∃ h : i < (Rect.mk 2 5 4 2).rows.length, ((Rect.mk 2 5 4 2).rows[i]).contains ⟨3, 6⟩ = true ∧
    ∀ j, ∀ hj : j < (Rect.mk 2 5 4 2).rows.length, ((Rect.mk 2 5 4 2).rows[j]).contains ⟨3, 6⟩ = true → j = i :=
  (C02_rows_partition _ ⟨3, 6⟩).1 (by decide)

/-- **C02.** The columns partition the rectangle. -/
theorem C02_columns_partition (r : Rect) (p : Position) :
    (r.contains p = true → ∃ i, ∃ h : i < r.columns.length, (r.columns[i]).contains p = true ∧
        ∀ j, ∀ hj : j < r.columns.length, (r.columns[j]).contains p = true → j = i) ∧
    (r.contains p = false → ∀ c ∈ r.columns, c.contains p = false) := by
  constructor
  · intro h
    rw [Rect.contains_iff] at h
    have hlen : r.columns.length = r.width.toNat := by simp [C02_columns_eq]
    unfold Rect.Mem at h
    refine ⟨(p.x - r.x).toNat, by omega, ?_, ?_⟩
    · simp only [C02_columns_eq, List.getElem_map, List.getElem_range]
      rw [Rect.contains_iff]; unfold Rect.Mem; simp only; omega
    · intro j hj hc
      simp only [C02_columns_eq, List.getElem_map, List.getElem_range] at hc
      rw [Rect.contains_iff] at hc; unfold Rect.Mem at hc; simp only at hc; omega
  · intro h row hrow
    rw [C02_columns_eq, List.mem_map] at hrow
    obtain ⟨i, hi, rfl⟩ := hrow
    rw [List.mem_range] at hi
    rw [← Bool.not_eq_true] at h ⊢
    intro hc; apply h
    rw [Rect.contains_iff] at hc ⊢
    unfold Rect.Mem at *; simp only at hc; omega

example : (Rect.mk 2 5 4 2).rows = [Rect.mk 2 5 4 1, Rect.mk 2 6 4 1] := by decide
example : (Rect.mk 2 5 2 3).columns = [Rect.mk 2 5 1 3, Rect.mk 3 5 1 3] := by decide
example : (Rect.mk 2 5 4 2).contains ⟨3, 6⟩ = true := by decide

/-! ## C03 -/

/-- **C03.** If the padding fits, the inner rectangle consists of exactly the positions that keep
the requested distance from every edge. -/
theorem C03_inner_mem (r : Rect) (pad : Padding) (p : Position)
    (hfit : pad.left + pad.right ≤ r.width ∧ pad.top + pad.bottom ≤ r.height) :
    (r.inner pad).contains p = true ↔
      (r.x + pad.left ≤ p.x ∧ p.x < r.x + r.width - pad.right ∧
       r.y + pad.top ≤ p.y ∧ p.y < r.y + r.height - pad.bottom) := by
  rw [Rect.contains_iff, Rect.inner]
  have : ¬ (r.width < pad.right + pad.left ∨ r.height < pad.top + pad.bottom) := by omega
  simp only [this, if_false, Rect.Mem]
  omega

example : ((Rect.mk 1 1 6 5).inner ⟨1, 2, 1, 1⟩).contains ⟨4, 4⟩ = true :=
  (C03_inner_mem ⟨1, 1, 6, 5⟩ ⟨1, 2, 1, 1⟩ ⟨4, 4⟩ (by decide)).2 (by decide)

/-- **C03.** If the padding does not fit, the inner rectangle is empty: `IsEmpty` holds and it
contains no position. -/
theorem C03_inner_empty (r : Rect) (pad : Padding)
    (hfit : r.width < pad.left + pad.right ∨ r.height < pad.top + pad.bottom) :
    (r.inner pad).isEmpty = true ∧ ∀ p, (r.inner pad).contains p = false := by
  have : (r.width < pad.right + pad.left ∨ r.height < pad.top + pad.bottom) := by omega
  simp only [Rect.inner, this, if_true]
  refine ⟨by decide, fun p => ?_⟩
  rw [← Bool.not_eq_true, Rect.contains_iff]; simp only [Rect.Mem, Rect.zero]; omega

example : ∀ p, ((Rect.mk 1 1 2 5).inner ⟨0, 2, 0, 1⟩).contains p = false :=
  (C03_inner_empty _ _ (by decide)).2

/-- **C03.** For non-negative paddings the inner rectangle is a subset of the outer one. -/
theorem C03_inner_subset (r : Rect) (pad : Padding) (p : Position)
    (h : 0 ≤ pad.left ∧ 0 ≤ pad.right ∧ 0 ≤ pad.top ∧ 0 ≤ pad.bottom)
    (hp : (r.inner pad).contains p = true) : r.contains p = true := by
  by_cases hfit : pad.left + pad.right ≤ r.width ∧ pad.top + pad.bottom ≤ r.height
  · rw [C03_inner_mem r pad p hfit] at hp
    rw [Rect.contains_iff]; unfold Rect.Mem; omega
  · have := (C03_inner_empty r pad (by omega)).2 p
    rw [this] at hp; cases hp

example : (Rect.mk 1 1 6 5).contains ⟨4, 4⟩ = true :=
  C03_inner_subset _ ⟨1, 2, 1, 1⟩ _ (by decide) (by decide)

/-- **C03.** `IndentX` by a non-negative number of columns removes exactly these columns at the left. -/
theorem C03_indentX (r : Rect) (d : Int) (hd : 0 ≤ d) (p : Position) :
    (r.indentX d).contains p = true ↔ r.contains p = true ∧ r.x + d ≤ p.x := by
  unfold Rect.indentX
  rw [Rect.contains_iff, Rect.contains_iff]
  unfold Rect.Mem
  simp only
  omega

example : ((Rect.mk 1 1 6 5).indentX 3).contains ⟨4, 4⟩ = true ∧ ((Rect.mk 1 1 6 5).indentX 3).contains ⟨3, 4⟩ = false :=
  ⟨(C03_indentX _ 3 (by decide) _).2 (by decide), by decide⟩

/-- **C03.** The extents of the inner rectangle are never negative. -/
theorem C03_inner_nonneg (r : Rect) (pad : Padding) :
    0 ≤ (r.inner pad).width ∧ 0 ≤ (r.inner pad).height := by
  unfold Rect.inner
  simp only
  split
  · simp [Rect.zero]
  · simp only; omega

example : (Rect.mk 1 1 6 5).inner ⟨1, 2, 1, 1⟩ = Rect.mk 2 2 3 3 := by decide
example : (Rect.mk 1 1 2 5).inner ⟨0, 2, 0, 1⟩ = Rect.zero := by decide

/-! ## C04 -/

/-- Specification of a builder for one side: it reads back as the value given and leaves
the three other sides alone. -/
structure SetsOnly (get : Padding → Int) (others : List (Padding → Int))
    (set : Padding → Int → Padding) : Prop where
  sets : ∀ p v, get (set p v) = v
  keeps : ∀ p v, ∀ g ∈ others, g (set p v) = g p

/-- **C04 (partial).** The `WithTop`, `WithRight`, `WithBottom` builders obey the law and
`NewPadding` follows the CSS shorthand.  Missing: `WithLeft`, for which the law is false
(`C04_withLeft_false`). -/
theorem C04_padding_builders_partial :
    SetsOnly Padding.top [Padding.right, Padding.bottom, Padding.left] Padding.withTop ∧
    SetsOnly Padding.right [Padding.top, Padding.bottom, Padding.left] Padding.withRight ∧
    SetsOnly Padding.bottom [Padding.top, Padding.right, Padding.left] Padding.withBottom ∧
    (∀ a, Padding.new [a] = some ⟨a, a, a, a⟩) ∧
    (∀ v h, Padding.new [v, h] = some ⟨v, h, v, h⟩) ∧
    (∀ t r b l, Padding.new [t, r, b, l] = some ⟨t, r, b, l⟩) ∧
    (Padding.new [] = some ⟨0, 0, 0, 0⟩) ∧
    (∀ sides, Padding.new sides = none ↔ (sides.length = 3 ∨ 4 < sides.length)) := by
  refine ⟨⟨fun _ _ => rfl, ?_⟩, ⟨fun _ _ => rfl, ?_⟩, ⟨fun _ _ => rfl, ?_⟩,
    fun _ => rfl, fun _ _ => rfl, fun _ _ _ _ => rfl, rfl, ?_⟩
  · intro p v g hg; simp at hg; rcases hg with rfl | rfl | rfl <;> rfl
  · intro p v g hg; simp at hg; rcases hg with rfl | rfl | rfl <;> rfl
  · intro p v g hg; simp at hg; rcases hg with rfl | rfl | rfl <;> rfl
  · intro sides
    match sides with
    | [] => simp [Padding.new]
    | [_] => simp [Padding.new]
    | [_, _] => simp [Padding.new]
    | [_, _, _] => simp [Padding.new]
    | [_, _, _, _] => simp [Padding.new]
    | _ :: _ :: _ :: _ :: _ :: t => simp [Padding.new]

example : (Padding.mk 1 2 3 4).withTop 9 = ⟨9, 2, 3, 4⟩ ∧ Padding.new [1, 2] = some ⟨1, 2, 1, 2⟩ ∧
    Padding.new [1, 2, 3] = none := by decide

/-- **C04 (negation).** `WithLeft` does not set the left side, and it overwrites the bottom:
for every padding, `Left` is unchanged and `Bottom` becomes the argument. -/
theorem C04_withLeft_false :
    ¬ SetsOnly Padding.left [Padding.top, Padding.right, Padding.bottom] Padding.withLeft := by
  intro h
  have := h.sets ⟨0, 0, 0, 0⟩ 1
  revert this; decide

/-- What `WithLeft` does instead, for all inputs. -/
theorem C04_withLeft_actual (p : Padding) (v : Int) :
    (p.withLeft v).left = p.left ∧ (p.withLeft v).bottom = v := ⟨rfl, rfl⟩

end Bento
