import Verif.Lemmas.Buffer

/-!
# Properties C07–C09: buffers

Specification: a buffer is observed through `CellAt`; a buffer of a given area is a total map from
the positions of the area to cells.
-/

namespace Bento

open Buffer

/-! ## C07 -/

/-- **C07.** Position ↔ index is a bijection: inside the area the index exists, is in range and
`PosOf` gives the position back. -/
theorem C07_posOf_indexOf (b : Buffer) (wf : b.WF) (p : Position) (h : b.area.contains p = true) :
    ∃ i : Nat, b.indexOf p = some (i : Int) ∧ i < b.content.length ∧ b.posOf i = some p := by
  have h1 := Rect.idx_nonneg h
  have h2 := wf.idx_lt_length h
  have hp := h
  rw [Rect.contains_iff] at hp
  unfold Rect.Mem at hp
  refine ⟨(b.area.idx p).toNat, ?_, h2, ?_⟩
  · rw [indexOf_eq h]; congr 1; omega
  · simp only [posOf]
    rw [if_neg (by omega), if_neg (by omega)]
    have e : (((b.area.idx p).toNat : Nat) : Int) = b.area.idx p := by omega
    rw [e, Int.tmod_eq_emod_of_nonneg h1, Int.tdiv_eq_ediv_of_nonneg h1]
    unfold Rect.idx
    have e1 : ((p.y - b.area.y) * b.area.width + (p.x - b.area.x)) % b.area.width = p.x - b.area.x := by
      rw [Int.add_comm, Int.add_mul_emod_self_right, Int.emod_eq_of_lt (by omega) (by omega)]
    have e2 : ((p.y - b.area.y) * b.area.width + (p.x - b.area.x)) / b.area.width = p.y - b.area.y := by
      rw [Int.add_comm, Int.add_mul_ediv_right _ _ (by omega),
        Int.ediv_eq_zero_of_lt (by omega) (by omega)]; omega
    rw [e1, e2]
    congr 1
    ext <;> simp

example : ∃ i : Nat, (Buffer.mk ⟨2, 3, 4, 2⟩ (List.replicate 8 Cell.empty)).indexOf ⟨4, 4⟩ = some (i : Int) ∧ i < 8 ∧
    (Buffer.mk ⟨2, 3, 4, 2⟩ (List.replicate 8 Cell.empty)).posOf i = some ⟨4, 4⟩ :=
  C07_posOf_indexOf _ ⟨by decide, by decide, by decide⟩ _ (by decide)

/-- **C07.** Every index of the content is the index of a position of the area, namely `PosOf`. -/
theorem C07_indexOf_posOf (b : Buffer) (wf : b.WF) (i : Nat) (hi : i < b.content.length) :
    ∃ p, b.posOf i = some p ∧ b.area.contains p = true ∧ b.indexOf p = some (i : Int) := by
  have hl := wf.len
  have hw := wf.width_nonneg
  have hh := wf.height_nonneg
  simp only [Rect.area] at hl
  have hwpos : 0 < b.area.width := by
    rcases Int.lt_or_eq_of_le hw with h | h
    · exact h
    · rw [← h, Int.zero_mul] at hl; omega
  have hmod0 := Int.emod_nonneg (i : Int) (b := b.area.width) (by omega)
  have hmod1 := Int.emod_lt_of_pos (i : Int) hwpos
  have hdiv0 : 0 ≤ (i : Int) / b.area.width := Int.ediv_nonneg (by omega) hw
  have hdiv1 : (i : Int) / b.area.width < b.area.height := by
    apply Int.ediv_lt_of_lt_mul hwpos
    rw [Int.mul_comm]; omega
  refine ⟨⟨(i : Int) % b.area.width + b.area.x, (i : Int) / b.area.width + b.area.y⟩, ?_, ?_⟩
  · simp only [posOf]
    rw [if_neg (by omega), if_neg (by omega), Int.tmod_eq_emod_of_nonneg (by omega),
      Int.tdiv_eq_ediv_of_nonneg (by omega)]
  · have hp : b.area.contains
        ⟨(i : Int) % b.area.width + b.area.x, (i : Int) / b.area.width + b.area.y⟩ = true := by
      rw [Rect.contains_iff]
      refine ⟨?_, ?_, ?_, ?_⟩ <;> simp only <;> omega
    refine ⟨hp, ?_⟩
    rw [indexOf_eq hp]
    simp only [Rect.idx]
    have := Int.mul_ediv_add_emod (i : Int) b.area.width
    rw [Int.mul_comm] at this
    have e1 : (i : Int) / b.area.width + b.area.y - b.area.y = (i : Int) / b.area.width := by omega
    have e2 : (i : Int) % b.area.width + b.area.x - b.area.x = (i : Int) % b.area.width := by omega
    rw [e1, e2, this]

example : ∃ p, (Buffer.mk ⟨2, 3, 4, 2⟩ (List.replicate 8 Cell.empty)).posOf 6 = some p ∧
    (Rect.mk 2 3 4 2).contains p = true ∧
    (Buffer.mk ⟨2, 3, 4, 2⟩ (List.replicate 8 Cell.empty)).indexOf p = some (6 : Int) :=
  C07_indexOf_posOf _ ⟨by decide, by decide, by decide⟩ 6 (by decide)

/-- **C07.** Reading succeeds exactly inside the area; distinct positions have distinct indices. -/
theorem C07_cellAt_total (b : Buffer) (wf : b.WF) :
    (∀ p, b.area.contains p = true ↔ (b.cellAt p).isSome = true) ∧
    (∀ p q i, b.indexOf p = some i → b.indexOf q = some i → p = q) := by
  constructor
  · intro p
    constructor
    · intro h; obtain ⟨c, hc⟩ := wf.cellAt_isSome h; simp [hc]
    · intro h
      obtain ⟨c, hc⟩ := Option.isSome_iff_exists.mp h
      exact cellAt_some_contains hc
  · intro p q i hp hq
    have cp : b.area.contains p = true := by
      by_cases h : b.area.contains p = true
      · exact h
      · rw [Bool.not_eq_true] at h; rw [indexOf_none h] at hp; cases hp
    have cq : b.area.contains q = true := by
      by_cases h : b.area.contains q = true
      · exact h
      · rw [Bool.not_eq_true] at h; rw [indexOf_none h] at hq; cases hq
    rw [indexOf_eq cp] at hp
    rw [indexOf_eq cq] at hq
    apply Rect.idx_injective cp cq
    injection hp with hp
    injection hq with hq
    omega

example : ((Buffer.mk ⟨2, 3, 4, 2⟩ (List.replicate 8 Cell.empty)).cellAt ⟨5, 4⟩).isSome = true :=
  ((C07_cellAt_total _ ⟨by decide, by decide, by decide⟩).1 _).1 (by decide)

/-- **C07.** Writing a cell panics exactly outside the area; inside it changes that cell as asked
and no other. -/
theorem C07_write_independent (b : Buffer) (wf : b.WF) (p : Position) (f : Cell → Cell) :
    (b.area.contains p = false → b.modifyCell p f = none) ∧
    (b.area.contains p = true → ∃ b', b.modifyCell p f = some b' ∧ b'.area = b.area ∧
      b'.cellAt p = (b.cellAt p).map f ∧ ∀ q, q ≠ p → b'.cellAt q = b.cellAt q) := by
  refine ⟨modifyCell_none, fun h => ?_⟩
  obtain ⟨b', h1, h2, _, h4⟩ := wf.modifyCell_some f h
  exact ⟨b', h1, h2, by rw [h4, if_pos rfl], fun q hq => by rw [h4, if_neg hq]⟩

example : ∃ b', (Buffer.mk ⟨0, 0, 2, 1⟩ [Cell.new "a", Cell.new "b"]).modifyCell ⟨1, 0⟩ (Cell.setSymbol "x") = some b' ∧
    b'.cellAt ⟨1, 0⟩ = some (Cell.new "x") ∧ b'.cellAt ⟨0, 0⟩ = some (Cell.new "a") := by
  obtain ⟨b', h, _, hp, hq⟩ := (C07_write_independent ⟨⟨0, 0, 2, 1⟩, [Cell.new "a", Cell.new "b"]⟩
    ⟨by decide, by decide, by decide⟩ ⟨1, 0⟩ (Cell.setSymbol "x")).2 (by decide)
  exact ⟨b', h, hp, hq ⟨0, 0⟩ (by decide)⟩

theorem resetLoop_wf (y : Int) (n : Nat) : ∀ (x : Int) (b b' : Buffer), b.WF →
    resetLoop y n x b = some b' → b'.WF ∧ b'.area = b.area := by
  induction n with
  | zero => intro x b b' wf h; simp only [resetLoop, Option.some.injEq] at h; subst h; exact ⟨wf, rfl⟩
  | succ n ih =>
    intro x b b' wf h
    simp only [resetLoop, Option.bind_eq_bind, Option.bind_eq_some_iff] at h
    obtain ⟨b1, h1, h2⟩ := h
    obtain ⟨ha, hwf, _⟩ := wf.modifyCell_spec h1
    obtain ⟨g1, g2⟩ := ih _ _ _ hwf h2
    exact ⟨g1, g2.trans ha⟩

theorem setStringLoop_wf (y : Int) (style : Style) (gs : List (String × Nat)) :
    ∀ (x r : Int) (b : Buffer) (res : Buffer × Int), b.WF →
    setStringLoop y style gs x r b = some res → res.1.WF ∧ res.1.area = b.area := by
  induction gs with
  | nil =>
    intro x r b res wf h
    simp only [setStringLoop, Option.some.injEq] at h; subst h; exact ⟨wf, rfl⟩
  | cons g gs ih =>
    obtain ⟨s, w⟩ := g
    intro x r b res wf h
    simp only [setStringLoop] at h
    split at h
    · simp only [Option.bind_eq_bind, Option.bind_eq_some_iff] at h
      obtain ⟨b1, h1, b2, h2, h3⟩ := h
      obtain ⟨ha, hwf, _⟩ := wf.modifyCell_spec h1
      obtain ⟨g1, g2⟩ := resetLoop_wf _ _ _ _ _ hwf h2
      obtain ⟨k1, k2⟩ := ih _ _ _ _ g1 h3
      exact ⟨k1, k2.trans (g2.trans ha)⟩
    · simp only [Option.some.injEq] at h; subst h; exact ⟨wf, rfl⟩

theorem foldlM_modify_wf (f : Cell → Cell) (ps : List Position) :
    ∀ (b b' : Buffer), b.WF → ps.foldlM (fun b p => b.modifyCell p f) b = some b' →
      b'.WF ∧ b'.area = b.area := by
  induction ps with
  | nil => intro b b' wf h; simp at h; subst h; exact ⟨wf, rfl⟩
  | cons p ps ih =>
    intro b b' wf h
    simp only [List.foldlM_cons, Option.bind_eq_bind, Option.bind_eq_some_iff] at h
    obtain ⟨b1, h1, h2⟩ := h
    obtain ⟨ha, hwf, _⟩ := wf.modifyCell_spec h1
    obtain ⟨k1, k2⟩ := ih _ _ hwf h2
    exact ⟨k1, k2.trans ha⟩

/-- The operations of the public buffer API (a cell write is an arbitrary modification through the
pointer returned by `CellAt`). -/
inductive BufferOp where
  | write (p : Position) (f : Cell → Cell)
  | setStringN (x y : Int) (value : String) (maxWidth : Int) (style : Style)
  | setStyle (area : Rect) (style : Style)
  | reset
  | resize (width height x y : Int)

/-- Run one operation; `none` is a panic.  -/
def BufferOp.run (u : Uniseg) (b : Buffer) : BufferOp → Option Buffer
  | .write p f => b.modifyCell p f
  | .setStringN x y v m s => (b.setStringN u x y v m s).map Prod.fst
  | .setStyle a s => b.setStyle a s
  | .reset => some b.reset
  | .resize w h x y => b.resize ⟨x, y, w, h⟩

/-- `Resize` is only asked for non-negative extents (a negative product panics or leaves the buffer
malformed). -/
def BufferOp.Ok : BufferOp → Prop
  | .resize w h _ _ => 0 ≤ w ∧ 0 ≤ h
  | _ => True

/-- Specification of the shape: as many cells as the area has, and every position of the area has a
cell. -/
def Buffer.Shaped (b : Buffer) : Prop :=
  (b.content.length : Int) = b.area.width * b.area.height ∧
  ∀ p, b.area.contains p = true → (b.cellAt p).isSome = true

theorem Buffer.WF.shaped {b : Buffer} (wf : b.WF) : b.Shaped :=
  ⟨wf.len, fun p hp => ((C07_cellAt_total b wf).1 p).mp hp⟩

theorem BufferOp.run_wf (u : Uniseg) (b b' : Buffer) (op : BufferOp) (ok : op.Ok) (wf : b.WF)
    (h : op.run u b = some b') : b'.WF := by
  cases op with
  | write p f => exact (wf.modifyCell_spec h).2.1
  | setStringN x y v m s =>
    simp only [BufferOp.run, Option.map_eq_some_iff] at h
    obtain ⟨res, h1, rfl⟩ := h
    exact (setStringLoop_wf _ _ _ _ _ _ _ wf h1).1
  | setStyle a s => exact (foldlM_modify_wf _ _ _ _ wf h).1
  | reset =>
    simp only [BufferOp.run, Option.some.injEq] at h
    subst h
    exact ⟨by simpa [Buffer.reset] using wf.len, wf.width_nonneg, wf.height_nonneg⟩
  | resize w h' x y =>
    simp only [BufferOp.Ok] at ok
    have ha : 0 ≤ (Rect.mk x y w h').area := Int.mul_nonneg ok.1 ok.2
    simp only [BufferOp.run, Buffer.resize] at h
    split at h
    · split at h
      · cases h
      · simp only [Option.some.injEq] at h; subst h
        refine ⟨?_, ok.1, ok.2⟩
        simp only [List.length_take]; omega
    · simp only [Option.some.injEq] at h; subst h
      refine ⟨?_, ok.1, ok.2⟩
      simp only [List.length_append, List.length_replicate]; omega

/-- **C07.** Whatever sequence of operations is applied to a fresh buffer (and does not panic), the
buffer holds exactly `Width*Height` cells and every position of its area has a cell. -/
theorem C07_shape_invariant (u : Uniseg) (area : Rect) (c : Cell) (ops : List BufferOp)
    (hok : ∀ op ∈ ops, op.Ok) (hw : 0 ≤ area.width) (hh : 0 ≤ area.height) (b b' : Buffer)
    (h0 : Buffer.newFilled area c = some b) (h : ops.foldlM (BufferOp.run u) b = some b') :
    b'.Shaped := by
  obtain ⟨b0, e0, _, wf, _⟩ := newFilled_some (c := c) hw hh
  rw [e0] at h0
  injection h0 with h0
  subst h0
  suffices H : ∀ b0 : Buffer, b0.WF → ops.foldlM (BufferOp.run u) b0 = some b' → b'.WF from
    (H _ wf h).shaped
  clear e0 h
  rename_i x1 x2
  clear x1 x2 wf b0
  intro b0 wf h
  induction ops generalizing b0 with
  | nil => simp at h; subst h; exact wf
  | cons op ops ih =>
    simp only [List.foldlM_cons, Option.bind_eq_bind, Option.bind_eq_some_iff] at h
    obtain ⟨b1, h1, h2⟩ := h
    exact ih (fun o ho => hok o (by simp [ho])) _
      (BufferOp.run_wf u b0 b1 op (hok op (by simp)) wf h1) h2

/-- **C07.** Fresh buffers are total on their area with the given cell. -/
theorem C07_newFilled (area : Rect) (c : Cell) (hw : 0 ≤ area.width) (hh : 0 ≤ area.height) :
    ∃ b, Buffer.newFilled area c = some b ∧ b.area = area ∧ b.WF ∧
      ∀ p, area.contains p = true → b.cellAt p = some c := newFilled_some hw hh

example : ∃ b, Buffer.newFilled ⟨1, 1, 3, 2⟩ (Cell.new "z") = some b ∧ b.cellAt ⟨3, 2⟩ = some (Cell.new "z") := by
  obtain ⟨b, h, _, _, hc⟩ := C07_newFilled ⟨1, 1, 3, 2⟩ (Cell.new "z") (by decide) (by decide)
  exact ⟨b, h, hc _ (by decide)⟩

/-- **C07.** `Reset` empties every cell and keeps the area. -/
theorem C07_reset (b : Buffer) (wf : b.WF) :
    b.reset.area = b.area ∧ b.reset.WF ∧
      ∀ p, b.area.contains p = true → b.reset.cellAt p = some Cell.empty := by
  refine ⟨rfl, ⟨by simpa [Buffer.reset] using wf.len, wf.width_nonneg, wf.height_nonneg⟩, ?_⟩
  intro p hp
  rw [cellAt_eq (b := b.reset) hp]
  simp only [Buffer.reset, List.getElem?_map]
  obtain ⟨c, hc⟩ := wf.cellAt_isSome hp
  rw [cellAt_eq hp] at hc
  rw [hc]
  rfl

example : ∃ b, Buffer.newEmpty ⟨2, 3, 4, 2⟩ = some b ∧ b.WF ∧ b.indexOf ⟨4, 4⟩ = some 6 ∧
    b.posOf 6 = some ⟨4, 4⟩ ∧ b.indexOf ⟨6, 4⟩ = none :=
  ⟨⟨⟨2, 3, 4, 2⟩, List.replicate 8 Cell.empty⟩, by decide, ⟨by decide, by decide, by decide⟩,
    by decide, by decide, by decide⟩

/-- A run of operations that ends in a buffer of another shape, as `C07_shape_invariant` requires. -/
example : ∃ b b', Buffer.newFilled ⟨0, 0, 2, 1⟩ Cell.empty = some b ∧
    [BufferOp.write ⟨1, 0⟩ (Cell.setSymbol "x"), .setStringN 0 0 "ab" 1 Style.new,
      .setStyle ⟨0, 0, 9, 9⟩ Style.new, .resize 3 2 5 5, .reset].foldlM
      (BufferOp.run Uniseg.simple) b = some b' ∧ b'.content.length = 6 :=
  ⟨⟨⟨0, 0, 2, 1⟩, List.replicate 2 Cell.empty⟩, ⟨⟨5, 5, 3, 2⟩, List.replicate 6 Cell.empty⟩,
    by decide, by decide, by decide⟩

/-! ## C08 -/

/-- **C08.** `SetStyle` never panics and styles exactly the cells of `area ∩ buffer`. -/
theorem C08_setStyle_exact (b : Buffer) (wf : b.WF) (area : Rect) (s : Style) :
    ∃ b', b.setStyle area s = some b' ∧ b'.area = b.area ∧ b'.WF ∧
      ∀ q, b'.cellAt q = if area.contains q = true then (b.cellAt q).map (Cell.setStyle s)
        else b.cellAt q := by
  obtain ⟨b', h1, h2, h3, h4⟩ := wf.foldlM_modify (Cell.setStyle s)
    (positionsOf (b.area.intersection area)) (nodup_positionsOf _) (fun p hp => by
      rw [mem_positionsOf, C01_intersection_is_set_intersection] at hp; exact hp.1)
  refine ⟨b', h1, h2, h3, fun q => ?_⟩
  rw [h4]
  simp only [mem_positionsOf, C01_intersection_is_set_intersection]
  by_cases hb : b.area.contains q = true
  · simp [hb]
  · rw [Bool.not_eq_true] at hb
    rw [cellAt_none hb]; simp

/-- **C08.** No symbol changes. -/
theorem C08_setStyle_symbols (b : Buffer) (wf : b.WF) (area : Rect) (s : Style) :
    ∃ b', b.setStyle area s = some b' ∧
      ∀ q, (b'.cellAt q).map Cell.symbol = (b.cellAt q).map Cell.symbol := by
  obtain ⟨b', h1, _, _, h4⟩ := C08_setStyle_exact b wf area s
  refine ⟨b', h1, fun q => ?_⟩
  rw [h4]
  split
  · cases b.cellAt q <;> simp [Cell.setStyle]
  · rfl

example : ∃ b b', Buffer.newEmpty ⟨0, 0, 2, 1⟩ = some b ∧ b.WF ∧
    b.setStyle ⟨1, -3, 10, 10⟩ (Style.new.withModifier Modifier.bold) = some b' ∧ b ≠ b' ∧
    (b'.cellAt ⟨1, 0⟩).map Cell.modifier = some Modifier.bold ∧ b'.cellAt ⟨0, 0⟩ = b.cellAt ⟨0, 0⟩ :=
  ⟨⟨⟨0, 0, 2, 1⟩, List.replicate 2 Cell.empty⟩,
    ⟨⟨0, 0, 2, 1⟩, [Cell.empty, { Cell.empty with modifier := Modifier.bold }]⟩,
    by decide, ⟨by decide, by decide, by decide⟩, by decide, by decide, by decide, by decide⟩

/-! ## C09 -/

/-- Specification of laying out graphemes from column 0: the effect on the cell `d` columns to the
right of the start.  The first column of a grapheme gets its symbol and the style, the remaining
columns of a wide grapheme are blanked, columns behind the text are left alone. -/
def layoutCell (style : Style) : List (String × Nat) → Int → Cell → Cell
  | [], _, c => c
  | (s, w) :: rest, d, c =>
    if d = 0 then (c.setSymbol s).setStyle style
    else if d < w then c.reset
    else layoutCell style rest (d - w) c

/-- Total width of a list of graphemes. -/
def totalWidth (gs : List (String × Nat)) : Int := (gs.map (fun g => (g.2 : Int))).sum

/-- No grapheme straddles the budget `R`: each one starts at or after `R`, or ends by `R`. -/
def NoStraddle (gs : List (String × Nat)) (R : Int) : Prop :=
  ∀ pre g post, gs = pre ++ g :: post → totalWidth pre < R → totalWidth pre + g.2 ≤ R

theorem totalWidth_cons (g : String × Nat) (gs) : totalWidth (g :: gs) = g.2 + totalWidth gs := by
  simp [totalWidth]

theorem totalWidth_nonneg (gs) : 0 ≤ totalWidth gs := by
  induction gs with
  | nil => simp [totalWidth]
  | cons g gs ih => rw [totalWidth_cons]; omega

theorem NoStraddle.tail {s : String} {w : Nat} {gs R} (h : NoStraddle ((s, w) :: gs) R) :
    NoStraddle gs (R - w) := by
  intro pre g post he hlt
  have := h ((s, w) :: pre) g post (by simp [he]) (by rw [totalWidth_cons]; simp only; omega)
  rw [totalWidth_cons] at this
  simp only at this
  omega

theorem resetLoop_spec (y : Int) (n : Nat) : ∀ (x : Int) (b : Buffer), b.WF →
    b.area.x ≤ x → x + n ≤ b.area.right → b.area.y ≤ y → y < b.area.bottom →
    ∃ b', resetLoop y n x b = some b' ∧ b'.area = b.area ∧ b'.WF ∧
      ∀ q, b'.cellAt q = if q.y = y ∧ x ≤ q.x ∧ q.x < x + n then (b.cellAt q).map Cell.reset
        else b.cellAt q := by
  induction n with
  | zero =>
    intro x b wf _ _ _ _
    refine ⟨b, rfl, rfl, wf, fun q => ?_⟩
    rw [if_neg (by omega)]
  | succ n ih =>
    intro x b wf h1 h2 h3 h4
    have hc : b.area.contains ⟨x, y⟩ = true := by
      rw [Rect.contains_iff]; simp only [Rect.Mem, Rect.right, Rect.bottom] at *; omega
    obtain ⟨b1, e1, ha, wf1, c1⟩ := wf.modifyCell_some Cell.reset hc
    obtain ⟨b', e2, ha2, wf2, c2⟩ := ih (x + 1) b1 wf1 (by rw [ha]; omega)
      (by rw [ha]; omega) (by rw [ha]; omega) (by rw [ha]; omega)
    refine ⟨b', ?_, ha2.trans ha, wf2, fun q => ?_⟩
    · simp only [resetLoop, e1, Option.bind_eq_bind, Option.bind_some, e2]
    · rw [c2, c1]
      by_cases hq : q = ⟨x, y⟩
      · subst hq
        dsimp only
        rw [if_neg (by omega), if_pos rfl, if_pos (by omega)]
      · rw [if_neg hq]
        have : ¬ (q.x = x ∧ q.y = y) := fun h => hq (by ext <;> simp [h.1, h.2])
        by_cases hr : q.y = y ∧ x + 1 ≤ q.x ∧ q.x < x + 1 + n
        · rw [if_pos hr, if_pos (by omega)]
        · rw [if_neg hr, if_neg (by omega)]

theorem setStringLoop_spec (y : Int) (style : Style) (gs : List (String × Nat)) :
    ∀ (x R : Int) (b : Buffer), b.WF → (∀ g ∈ gs, 1 ≤ g.2) → NoStraddle gs R → 0 ≤ R →
      b.area.x ≤ x → x + R ≤ b.area.right → b.area.y ≤ y → y < b.area.bottom →
      ∃ b', setStringLoop y style gs x R b = some (b', x + min (totalWidth gs) R) ∧
        b'.area = b.area ∧ b'.WF ∧
        ∀ q, b'.cellAt q = if q.y = y ∧ x ≤ q.x ∧ q.x < x + R then
            (b.cellAt q).map (layoutCell style gs (q.x - x)) else b.cellAt q := by
  induction gs with
  | nil =>
    intro x R b wf _ _ hR _ _ _ _
    refine ⟨b, ?_, rfl, wf, fun q => ?_⟩
    · simp only [setStringLoop, totalWidth, List.map_nil, List.sum_nil]
      rw [Int.min_eq_left hR]; simp
    · split
      · cases b.cellAt q <;> simp [layoutCell]
      · rfl
  | cons g gs ih =>
    obtain ⟨s, w⟩ := g
    intro x R b wf hw hns hR h1 h2 h3 h4
    have hw1 : 1 ≤ w := hw (s, w) (by simp)
    by_cases hpos : R > 0
    · have hfit := hns [] (s, w) gs rfl (by simpa [totalWidth] using hpos)
      simp only [totalWidth, List.map_nil, List.sum_nil] at hfit
      have hc : b.area.contains ⟨x, y⟩ = true := by
        rw [Rect.contains_iff]; simp only [Rect.Mem, Rect.right, Rect.bottom] at *; omega
      obtain ⟨b1, e1, ha1, wf1, c1⟩ := wf.modifyCell_some
        (fun c => (c.setSymbol s).setStyle style) hc
      obtain ⟨b2, e2, ha2, wf2, c2⟩ := resetLoop_spec y (w - 1) (x + 1) b1 wf1 (by rw [ha1]; omega)
        (by rw [ha1]; omega) (by rw [ha1]; omega) (by rw [ha1]; omega)
      have ha : b2.area = b.area := ha2.trans ha1
      obtain ⟨b', e3, ha3, wf3, c3⟩ := ih (x + w) (R - w) b2 wf2 (fun g hg => hw g (by simp [hg]))
        hns.tail (by omega) (by rw [ha]; omega) (by rw [ha]; omega) (by rw [ha]; omega)
        (by rw [ha]; omega)
      refine ⟨b', ?_, ha3.trans ha, wf3, fun q => ?_⟩
      · simp only [setStringLoop]
        rw [if_pos hpos]
        simp only [e1, e2, Option.bind_eq_bind, Option.bind_some]
        have : x + max 1 (w : Int) = x + w := by omega
        rw [this, e3, totalWidth_cons]
        simp only
        congr 2
        omega
      · rw [c3, c2, c1]
        by_cases hq : q = ⟨x, y⟩
        · subst hq
          dsimp only
          rw [if_neg (by omega), if_neg (by omega), if_pos rfl, if_pos (by omega)]
          simp [layoutCell]
        · rw [if_neg hq]
          have hne : ¬ (q.x = x ∧ q.y = y) := fun h => hq (by ext <;> simp [h.1, h.2])
          by_cases hin : q.y = y ∧ x ≤ q.x ∧ q.x < x + R
          · rw [if_pos hin]
            by_cases hlt : q.x - x < w
            · rw [if_neg (by omega), if_pos (by omega)]
              congr 1
              funext c
              simp only [layoutCell]
              rw [if_neg (by omega), if_pos hlt]
            · rw [if_pos (by omega), if_neg (by omega)]
              congr 1
              funext c
              simp only [layoutCell]
              rw [if_neg (by omega), if_neg hlt]
              congr 1
              omega
          · rw [if_neg hin, if_neg (by omega), if_neg (by omega)]
    · have hR0 : R = 0 := by omega
      subst hR0
      refine ⟨b, ?_, rfl, wf, fun q => ?_⟩
      · simp only [setStringLoop]
        rw [if_neg (by omega)]
        have := totalWidth_nonneg ((s, w) :: gs)
        rw [Int.min_eq_right this]; simp
      · rw [if_neg (by omega)]

/-- The graphemes of a text with their widths. -/
def Uniseg.measured (u : Uniseg) (v : String) : List (String × Nat) :=
  (u.graphemes v).map (fun g => (g, u.width g))

/-- The number of columns `SetStringN` may use. -/
def budget (b : Buffer) (x maxWidth : Int) : Int := min maxWidth (max 0 (b.area.right - x))

/-- **C09 (partial).** If every grapheme is at least one column wide and none straddles the budget,
`SetStringN` started inside the buffer does not panic, changes only row `y`, columns
`[x, x+budget)`, lays the text out there grapheme by grapheme, and returns the column just behind
the text (or the budget).
Missing for the full property: zero-width graphemes (`C09_zero_width_not_skipped`,
`C09_zero_width_panics`) and a wide grapheme straddling the budget (`C09_wide_at_edge_panics`,
`C09_wide_exceeds_budget`), for which the code does not have it. -/
theorem C09_setStringN_partial (u : Uniseg) (b : Buffer) (wf : b.WF) (x y : Int) (v : String)
    (maxWidth : Int) (style : Style) (hin : b.area.contains ⟨x, y⟩ = true) (hm : 0 ≤ maxWidth)
    (hw : ∀ g ∈ u.measured v, 1 ≤ g.2) (hs : NoStraddle (u.measured v) (budget b x maxWidth)) :
    ∃ b', b.setStringN u x y v maxWidth style =
        some (b', x + min (totalWidth (u.measured v)) (budget b x maxWidth)) ∧
      b'.area = b.area ∧ b'.WF ∧
      ∀ q, b'.cellAt q = if q.y = y ∧ x ≤ q.x ∧ q.x < x + budget b x maxWidth then
          (b.cellAt q).map (layoutCell style (u.measured v) (q.x - x)) else b.cellAt q := by
  rw [Rect.contains_iff] at hin
  simp only [Rect.Mem] at hin
  exact setStringLoop_spec y style (u.measured v) x (budget b x maxWidth) b wf hw hs
    (by unfold budget; omega) (by omega)
    (by unfold budget; simp only [Rect.right]; omega) (by omega)
    (by simp only [Rect.bottom]; omega)

example : ∃ b', (Buffer.mk ⟨0, 0, 5, 1⟩ (List.replicate 5 Cell.empty)).setStringN Uniseg.simple 1 0 "a世b" 4 Style.new =
    some (b', 5) ∧ b'.cellAt ⟨2, 0⟩ = some (Cell.new "世") := by
  obtain ⟨b', h, _, _, hq⟩ := C09_setStringN_partial Uniseg.simple ⟨⟨0, 0, 5, 1⟩, List.replicate 5 Cell.empty⟩
    ⟨by decide, by decide, by decide⟩ 1 0 "a世b" 4 Style.new (by decide) (by decide) (by decide) fun pre g post he _ => by
      have ht : totalWidth (Uniseg.simple.measured "a世b") = 4 := by decide
      have := totalWidth_nonneg post
      rw [he] at ht
      simp only [totalWidth, List.map_append, List.map_cons, List.sum_append, List.sum_cons] at ht this ⊢
      rw [show budget ⟨⟨0, 0, 5, 1⟩, List.replicate 5 Cell.empty⟩ 1 4 = 4 by decide]
      omega
  exact ⟨b', h, (hq _).trans (by decide)⟩

/-- Text of single-width graphemes satisfies the hypotheses of `C09_setStringN_partial` for every
budget. -/
theorem noStraddle_of_width_one (gs : List (String × Nat)) (h : ∀ g ∈ gs, g.2 = 1) (R : Int) :
    NoStraddle gs R := by
  intro pre g post he hlt
  have := h g (by rw [he]; simp)
  omega

theorem C09_setStringN_narrow_partial (u : Uniseg) (b : Buffer) (wf : b.WF) (x y : Int) (v : String)
    (maxWidth : Int) (style : Style) (hin : b.area.contains ⟨x, y⟩ = true) (hm : 0 ≤ maxWidth)
    (hw : ∀ g ∈ u.measured v, g.2 = 1) :
    ∃ b', b.setStringN u x y v maxWidth style =
        some (b', x + min (totalWidth (u.measured v)) (budget b x maxWidth)) ∧
      ∀ q, b'.cellAt q = if q.y = y ∧ x ≤ q.x ∧ q.x < x + budget b x maxWidth then
          (b.cellAt q).map (layoutCell style (u.measured v) (q.x - x)) else b.cellAt q := by
  obtain ⟨b', h1, _, _, h4⟩ := C09_setStringN_partial u b wf x y v maxWidth style hin hm
    (fun g hg => by rw [hw g hg]; omega) (noStraddle_of_width_one _ hw _)
  exact ⟨b', h1, h4⟩

example : ∃ b, Buffer.newEmpty ⟨0, 0, 5, 1⟩ = some b ∧ b.WF ∧
    (∀ g ∈ Uniseg.simple.measured "a世b", 1 ≤ g.2) ∧
    (b.setStringN Uniseg.simple 1 0 "a世b" 4 Style.new).map Prod.snd = some 5 :=
  ⟨⟨⟨0, 0, 5, 1⟩, List.replicate 5 Cell.empty⟩, by decide, ⟨by decide, by decide, by decide⟩,
    by decide, by decide⟩

/-- **C09 (negation).** A double-width grapheme that reaches the last column of the buffer panics,
although the start position is inside the buffer. -/
theorem C09_wide_at_edge_panics :
    ∃ (u : Uniseg) (b : Buffer) (v : String), b.WF ∧ b.area.contains ⟨0, 0⟩ = true ∧
      b.setStringN u 0 0 v 10 Style.new = none :=
  ⟨Uniseg.simple, ⟨⟨0, 0, 3, 1⟩, List.replicate 3 Cell.empty⟩, "ab世",
    ⟨by decide, by decide, by decide⟩, by decide, by decide⟩

/-- **C09 (negation).** A double-width grapheme writes one column beyond the width budget. -/
theorem C09_wide_exceeds_budget :
    ∃ (u : Uniseg) (b b' : Buffer) (x' : Int), b.WF ∧ b.setStringN u 0 0 "世" 1 Style.new = some (b', x') ∧
      b'.cellAt ⟨1, 0⟩ ≠ b.cellAt ⟨1, 0⟩ ∧ x' = 2 :=
  ⟨Uniseg.simple, ⟨⟨0, 0, 3, 1⟩, List.replicate 3 (Cell.new "x")⟩,
    ⟨⟨0, 0, 3, 1⟩, [Cell.new "世", Cell.empty, Cell.new "x"]⟩, 2,
    ⟨by decide, by decide, by decide⟩, by decide, by decide, rfl⟩

/-- **C09 (negation).** Zero-width graphemes are not skipped: they overwrite a cell and shift the
rest of the text by one column. -/
theorem C09_zero_width_not_skipped :
    ∃ (u : Uniseg) (b b' : Buffer) (x' : Int), b.WF ∧
      b.setStringN u 0 0 (String.ofList [Char.ofNat 1, 'b']) 2 Style.new = some (b', x') ∧
      u.width (String.ofList [Char.ofNat 1]) = 0 ∧
      (b'.cellAt ⟨0, 0⟩).map Cell.symbol = some (String.ofList [Char.ofNat 1]) ∧
      (b'.cellAt ⟨1, 0⟩).map Cell.symbol = some "b" :=
  ⟨Uniseg.simple, ⟨⟨0, 0, 3, 1⟩, List.replicate 3 Cell.empty⟩,
    ⟨⟨0, 0, 3, 1⟩, [Cell.new (String.ofList [Char.ofNat 1]), Cell.new "b", Cell.empty]⟩, 2,
    ⟨by decide, by decide, by decide⟩, by decide, by decide, by decide, by decide⟩

/-- **C09 (negation).** Enough zero-width graphemes run past the right edge and panic. -/
theorem C09_zero_width_panics :
    ∃ (u : Uniseg) (b : Buffer) (v : String), b.WF ∧ b.area.contains ⟨0, 0⟩ = true ∧
      b.setStringN u 0 0 v 1 Style.new = none :=
  ⟨Uniseg.simple, ⟨⟨0, 0, 1, 1⟩, List.replicate 1 Cell.empty⟩,
    String.ofList [Char.ofNat 1, Char.ofNat 1], ⟨by decide, by decide, by decide⟩, by decide,
    by decide⟩

end Bento
