import Verif.Lemmas.Drawable

/-!
# Properties C10–C11: `Buffer.Diff`

Specification: the emulator grid of `Spec/Screen` (writing over one half of a wide character
destroys the other half, leaving an arbitrary glyph), and `Shows` of `Spec/Frame`.
-/

namespace Bento

open Buffer Diff

/-! ## C10 -/

/-- **C10.** `Diff` is a correct patch: on any screen showing the frame `prev`, writing exactly the
reported cells, in order, makes it show `next`; whatever the terminal leaves behind when it cuts a
wide character in half, and whatever the screen shows outside the area, which stays unchanged (when no
wide character sticks out of the area). -/
theorem C10_diff_is_correct_patch (u : Uniseg) (hu : u.Lawful) (j : Junk) (pen : Cell → Pen)
    (g : Grid) (prev next : Buffer) (wf : prev.WF) (wf' : next.WF) (ha : prev.area = next.area)
    (d : prev.Drawable u) (d' : next.Drawable u) (hs : Shows u pen g prev) :
    ∃ ups, prev.diff u next = some ups ∧
      Shows u pen (g.apply j u pen ups) next ∧
      ((∀ y, g ⟨prev.area.x + prev.area.width, y⟩ ≠ .cont) →
        ∀ q, prev.area.contains q = false → g.apply j u pen ups q = g q) := by
  have hsp : u.stringWidth " " = 1 := by simp [Uniseg.stringWidth, hu.space.1, hu.space.2]
  have hlen : prev.content.length = next.content.length := by
    have h1 := wf.len
    have h2 := wf'.len
    rw [ha] at h1
    omega
  have hex : ∃ ups, prev.diff u next = some ups := by
    by_cases hn : prev.content.length = 0
    · exact ⟨_, diff_nil u _ _ (List.length_eq_zero_iff.1 hn)⟩
    · have hw := width_pos (pos_spec wf (i := 0) (by omega)).1
      exact ⟨_, diff_eq u _ _ hlen (by omega)⟩
  obtain ⟨ups, hups⟩ := hex
  exact ⟨ups, hups, apply_diff j pen wf wf' ha d d' hsp hs ups hups⟩

/-- Without the documented assumption (here: a wide symbol written over the right half of another)
the patch is not correct: the third cell changes and is not reported. -/
theorem C10_overlapping_wide_false :
    let w := Cell.new "世"
    let prev : Buffer := ⟨⟨0, 0, 3, 1⟩, [w, w, Cell.new "a"]⟩
    let next : Buffer := ⟨⟨0, 0, 3, 1⟩, [w, w, Cell.new "b"]⟩
    prev.diff Uniseg.simple next = some [] := by decide

/-- A wide character replaced by narrow ones, and narrow ones by a wide one. -/
example :
    let prev : Buffer := ⟨⟨0, 0, 4, 1⟩, [Cell.new "世", Cell.empty, Cell.new "b", Cell.new "c"]⟩
    let next : Buffer := ⟨⟨0, 0, 4, 1⟩, [Cell.new "a", Cell.empty, Cell.new "界", Cell.empty]⟩
    Uniseg.simple.Lawful ∧ prev.Drawable Uniseg.simple ∧ next.Drawable Uniseg.simple ∧
    prev.WF ∧ next.WF ∧ prev.area = next.area ∧
      (prev.diff Uniseg.simple next).map (List.map (fun pc => (pc.cell.symbol, pc.pos.x))) =
        some [("a", 0), (" ", 1), ("界", 2)] :=
  ⟨Uniseg.simple_lawful, drawable_of_B (by decide), drawable_of_B (by decide),
    ⟨by decide, by decide, by decide⟩, ⟨by decide, by decide, by decide⟩, by decide, by decide⟩

/-! ## C11 -/

/-- Row-major order of positions. -/
def Position.before (p q : Position) : Prop := p.y < q.y ∨ (p.y = q.y ∧ p.x < q.x)

/-- The reported cells, by linear index. -/
theorem diff_sublist (u : Uniseg) (b o : Buffer) (wf : b.WF) (wf' : o.WF) (ha : b.area = o.area) :
    b.diff u o = some (((List.range b.content.length).filter
      (em u.stringWidth b.content o.content)).map (fun i => ⟨fn o.content i, pos b.area i⟩)) := by
  have hlen : b.content.length = o.content.length := by
    have h1 := wf.len
    have h2 := wf'.len
    rw [ha] at h1
    omega
  by_cases hn : b.content.length = 0
  · rw [diff_nil u _ _ (List.length_eq_zero_iff.1 hn), hn]; rfl
  · have hw := width_pos (pos_spec wf (i := 0) (by omega)).1
    exact diff_eq u _ _ hlen (by omega)

/-- For the examples: a claim about every cell of a buffer, from the positions of its area. -/
theorem Buffer.forall_cells {b : Buffer} {P : Cell → Prop} (h : ∀ p ∈ positionsOf b.area, ∀ c ∈ b.cellAt p, P c) :
    ∀ p c, b.cellAt p = some c → P c :=
  fun p c hc => h p (mem_positionsOf.2 (cellAt_some_contains hc)) c hc

/-- **C11.** Every reported cell carries the new frame's cell at its position, and the positions are
strictly increasing in row-major order (so no cell is reported twice), for all frames whatsoever. -/
theorem C11_reported_once_in_order (u : Uniseg) (b o : Buffer) (wf : b.WF) (wf' : o.WF)
    (ha : b.area = o.area) (ups : List PositionedCell) (h : b.diff u o = some ups) :
    (∀ pc ∈ ups, o.cellAt pc.pos = some pc.cell) ∧
    (ups.map PositionedCell.pos).Pairwise Position.before := by
  have hlen : b.content.length = o.content.length := by
    have h1 := wf.len
    have h2 := wf'.len
    rw [ha] at h1
    omega
  rw [diff_sublist u b o wf wf' ha] at h
  injection h with h
  subst h
  constructor
  · intro pc hpc
    simp only [List.mem_map, List.mem_filter, List.mem_range] at hpc
    obtain ⟨i, ⟨hi, _⟩, rfl⟩ := hpc
    simp only [ha]
    exact (pos_spec wf' (by omega)).2.2
  · rw [List.map_map, List.pairwise_map]
    have hp : (List.range b.content.length).Pairwise
        (fun i k => Position.before (pos b.area i) (pos b.area k)) := by
      have := List.pairwise_lt_range (n := b.content.length)
      rw [List.pairwise_iff_getElem] at this ⊢
      intro i k hi hk hik
      simp only [List.length_range] at hi hk
      simp only [List.getElem_range]
      have p1 := pos_spec wf hi
      have p2 := pos_spec wf hk
      have c1 := p1.1
      have c2 := p2.1
      rw [Rect.contains_iff] at c1 c2
      unfold Rect.Mem at c1 c2
      have e1 := idxN_cast p1.1
      have e2 := idxN_cast p2.1
      rw [p1.2.1] at e1
      rw [p2.2.1] at e2
      unfold Rect.idx at e1 e2
      rcases Int.lt_trichotomy (pos b.area i).y (pos b.area k).y with hy | hy | hy
      · exact Or.inl hy
      · rw [hy] at e1; exact Or.inr ⟨hy, by omega⟩
      · exfalso
        have h1 : ((pos b.area k).y - b.area.y + 1) * b.area.width ≤
            ((pos b.area i).y - b.area.y) * b.area.width :=
          Int.mul_le_mul_of_nonneg_right (by omega) (by omega)
        rw [Int.add_mul] at h1
        omega
    exact List.Pairwise.filter _ hp

example : ([(⟨0, 0⟩ : Position), ⟨1, 0⟩, ⟨2, 0⟩]).Pairwise Position.before :=
  (C11_reported_once_in_order Uniseg.simple
    ⟨⟨0, 0, 4, 1⟩, [Cell.new "世", Cell.empty, Cell.new "b", Cell.new "c"]⟩
    ⟨⟨0, 0, 4, 1⟩, [Cell.new "a", Cell.empty, Cell.new "界", Cell.empty]⟩
    ⟨by decide, by decide, by decide⟩ ⟨by decide, by decide, by decide⟩ rfl
    [⟨Cell.new "a", ⟨0, 0⟩⟩, ⟨Cell.empty, ⟨1, 0⟩⟩, ⟨Cell.new "界", ⟨2, 0⟩⟩] (by decide)).2

/-- **C11.** Diffing a frame with itself reports nothing, provided no symbol is wider than two
columns; cells marked `Skip`, zero-width and overlapping wide symbols included. -/
theorem C11_self_diff_empty (u : Uniseg) (hu : u.Lawful) (b : Buffer) (wf : b.WF)
    (hw : ∀ p c, b.cellAt p = some c → u.stringWidth c.symbol ≤ 2) : b.diff u b = some [] := by
  rw [diff_sublist u b b wf wf rfl]
  have hle : ∀ i, u.stringWidth (fn b.content i).symbol ≤ 2 := by
    intro i
    by_cases h : i < b.content.length
    · exact hw _ _ (pos_spec wf h).2.2
    · rw [fn_out (by omega)]
      simp [Cell.empty, Cell.new, Uniseg.stringWidth, hu.space.1, hu.space.2]
  have : (List.range b.content.length).filter (em u.stringWidth b.content b.content) = [] := by
    rw [List.filter_eq_nil_iff]
    intro i _ he
    have := (em_iff hle hle i).1 he
    rcases this.2.2 with h | h
    · exact h rfl
    · exact this.2.1 h
  rw [this]; rfl

example : (Buffer.mk ⟨0, 0, 3, 1⟩ [Cell.new "世", Cell.empty, Cell.new "b"]).diff Uniseg.simple
    ⟨⟨0, 0, 3, 1⟩, [Cell.new "世", Cell.empty, Cell.new "b"]⟩ = some [] :=
  C11_self_diff_empty _ Uniseg.simple_lawful _ ⟨by decide, by decide, by decide⟩ (Buffer.forall_cells (by decide))

/-- The bound on the width is needed: a symbol three columns wide (`Cell.SetSymbol("abc")`) makes an
unchanged frame report a change. -/
theorem C11_width_three_false :
    let b : Buffer := ⟨⟨0, 0, 3, 1⟩, [Cell.new "abc", Cell.empty, Cell.empty]⟩
    b.diff Uniseg.simple b = some [⟨Cell.empty, ⟨2, 0⟩⟩] := by decide

/-- **C11.** If all symbols are single-width, the cell at a position is reported iff it changed (and
is not marked `Skip`). -/
theorem C11_single_width_minimal (u : Uniseg) (hu : u.Lawful) (b o : Buffer) (wf : b.WF)
    (wf' : o.WF) (ha : b.area = o.area)
    (hb : ∀ p c, b.cellAt p = some c → u.stringWidth c.symbol = 1)
    (ho : ∀ p c, o.cellAt p = some c → u.stringWidth c.symbol = 1)
    (ups : List PositionedCell) (h : b.diff u o = some ups) (p : Position) (cb co : Cell)
    (hcb : b.cellAt p = some cb) (hco : o.cellAt p = some co) :
    (∃ pc ∈ ups, pc.pos = p) ↔ co ≠ cb ∧ co.skip = false := by
  have hlen : b.content.length = o.content.length := by
    have h1 := wf.len
    have h2 := wf'.len
    rw [ha] at h1
    omega
  have hP : ∀ i, u.stringWidth (fn b.content i).symbol = 1 := by
    intro i
    by_cases h : i < b.content.length
    · exact hb _ _ (pos_spec wf h).2.2
    · rw [fn_out (by omega)]
      simp [Cell.empty, Cell.new, Uniseg.stringWidth, hu.space.1, hu.space.2]
  have hN : ∀ i, u.stringWidth (fn o.content i).symbol = 1 := by
    intro i
    by_cases h : i < o.content.length
    · exact ho _ _ (pos_spec wf' h).2.2
    · rw [fn_out (by omega)]
      simp [Cell.empty, Cell.new, Uniseg.stringWidth, hu.space.1, hu.space.2]
  rw [diff_sublist u b o wf wf' ha] at h
  injection h with h
  subst h
  have hc := cellAt_some_contains hcb
  have key := em_iff (sw := u.stringWidth) (P := b.content) (N := o.content)
    (fun i => by rw [hP]; omega) (fun i => by rw [hN]; omega) (idxN b.area p)
  have nP : ∀ i, ¬ leftWide u.stringWidth b.content i := by
    intro i h; have := h.2; rw [hP] at this; omega
  have nN : ∀ i, ¬ leftWide u.stringWidth o.content i := by
    intro i h; have := h.2; rw [hN] at this; omega
  have f1 := fn_idxN hcb
  have f2 := fn_idxN hco
  rw [← ha] at f2
  simp only [nP, nN, not_false_eq_true, or_false, true_and, f1, f2] at key
  constructor
  · rintro ⟨pc, hpc, hpos⟩
    simp only [List.mem_map, List.mem_filter, List.mem_range] at hpc
    obtain ⟨i, ⟨hi, he⟩, rfl⟩ := hpc
    simp only at hpos
    have : idxN b.area p = i := by rw [← hpos]; exact (pos_spec wf hi).2.1
    rw [← this] at he
    exact ⟨(key.1 he).2, (key.1 he).1⟩
  · rintro ⟨h1, h2⟩
    refine ⟨⟨fn o.content (idxN b.area p), pos b.area (idxN b.area p)⟩, ?_, pos_idxN wf hc⟩
    simp only [List.mem_map, List.mem_filter, List.mem_range]
    exact ⟨idxN b.area p, ⟨idxN_lt wf hc, key.2 ⟨h2, h1⟩⟩, rfl⟩

example : ∃ pc ∈ [(⟨Cell.new "c", ⟨1, 0⟩⟩ : PositionedCell)], pc.pos = ⟨1, 0⟩ := by
  exact (C11_single_width_minimal Uniseg.simple Uniseg.simple_lawful ⟨⟨0, 0, 2, 1⟩, [Cell.new "a", Cell.new "b"]⟩
    ⟨⟨0, 0, 2, 1⟩, [Cell.new "a", Cell.new "c"]⟩ ⟨by decide, by decide, by decide⟩ ⟨by decide, by decide, by decide⟩ rfl
    (Buffer.forall_cells (by decide)) (Buffer.forall_cells (by decide)) _ (by decide) ⟨1, 0⟩ (Cell.new "b") (Cell.new "c") (by decide) (by decide)).2
    (by decide)

/-- **C11.** In general a cell is reported only if it changed, or lies directly behind a double-width
symbol of the old frame; and never if it is covered by a double-width symbol of the new frame. -/
theorem C11_reported_only_if_needed (u : Uniseg) (hu : u.Lawful) (b o : Buffer) (wf : b.WF)
    (wf' : o.WF) (ha : b.area = o.area) (db : b.Drawable u) (dO : o.Drawable u)
    (ups : List PositionedCell) (h : b.diff u o = some ups) (p : Position) (cb co : Cell)
    (hcb : b.cellAt p = some cb) (hco : o.cellAt p = some co) :
    (∃ pc ∈ ups, pc.pos = p) ↔ o.covered u p = false ∧ (co ≠ cb ∨ b.covered u p = true) := by
  have hsp : u.stringWidth " " = 1 := by simp [Uniseg.stringWidth, hu.space.1, hu.space.2]
  have hlen : b.content.length = o.content.length := by
    have h1 := wf.len
    have h2 := wf'.len
    rw [ha] at h1
    omega
  have hP := drawable_le_two wf db hsp
  have hN := drawable_le_two wf' dO hsp
  rw [diff_sublist u b o wf wf' ha] at h
  injection h with h
  subst h
  have hc := cellAt_some_contains hcb
  have hc' := cellAt_some_contains hco
  have key := em_iff (sw := u.stringWidth) (P := b.content) (N := o.content) hP hN (idxN b.area p)
  have f1 := fn_idxN hcb
  have f2 := fn_idxN hco
  have c1 := covered_iff wf db hc
  have c2 := covered_iff wf' dO hc'
  rw [← ha] at f2 c2
  rw [f1, f2, ← c1, ← c2, dO.noSkip p co hco] at key
  simp only [true_and, Bool.not_eq_true] at key
  rw [← key]
  constructor
  · rintro ⟨pc, hpc, hpos⟩
    simp only [List.mem_map, List.mem_filter, List.mem_range] at hpc
    obtain ⟨i, ⟨hi, he⟩, rfl⟩ := hpc
    simp only at hpos
    have : idxN b.area p = i := by rw [← hpos]; exact (pos_spec wf hi).2.1
    rwa [← this] at he
  · intro he
    refine ⟨⟨fn o.content (idxN b.area p), pos b.area (idxN b.area p)⟩, ?_, pos_idxN wf hc⟩
    simp only [List.mem_map, List.mem_filter, List.mem_range]
    exact ⟨idxN b.area p, ⟨idxN_lt wf hc, he⟩, rfl⟩

/-- The hypotheses are met, and the reported set is as stated, for two concrete frames. -/
example :
    let b : Buffer := ⟨⟨0, 0, 2, 1⟩, [Cell.new "a", Cell.new "b"]⟩
    let o : Buffer := ⟨⟨0, 0, 2, 1⟩, [Cell.new "a", Cell.new "c"]⟩
    b.WF ∧ o.WF ∧ b.diff Uniseg.simple o = some [⟨Cell.new "c", ⟨1, 0⟩⟩] :=
  ⟨⟨by decide, by decide, by decide⟩, ⟨by decide, by decide, by decide⟩, by decide⟩

end Bento
