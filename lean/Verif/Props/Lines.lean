import Verif.Lemmas.Tabs

/-!
# Printing a line (C78) and buffers made of lines (C79)
-/

namespace Bento

open Buffer

/-! ### C78 -/

/-- **C78 (partial).** `Line.Print` started in the buffer with a width that is not negative: it does not
panic, the spans follow each other from the given column on, each in the style of the line overlaid by its
own, at most `maxWidth` columns and none outside of the buffer change, and the returned column is the one
behind the last column printed. Missing: clusters without width and double-width clusters across the
cut (`C78_wide_false`). -/
theorem C78_print_partial (u : Uniseg) (l : Line) (hv : ∀ s ∈ l.spans, Visible u s.content) (b : Buffer) (wf : b.WF)
    (x y maxWidth : Int) (hin : b.area.contains ⟨x, y⟩ = true) (hm : 0 ≤ maxWidth)
    (hc : CutsAt (widthsOf u (l.spans.map Span.content)) (min maxWidth (b.area.right - x))) :
    ∃ b', l.print u x y maxWidth b =
        some (b', x + min (l.width u : Int) (min maxWidth (b.area.right - x))) ∧ b'.area = b.area ∧ b'.WF ∧
      ∀ q, b'.cellAt q = if q.y = y ∧ x ≤ q.x ∧ q.x < x + maxWidth then
          (match (l.columns u)[(q.x - x).toNat]? with
            | some f => (b.cellAt q).map f
            | none => b.cellAt q)
        else b.cellAt q := by
  rw [Rect.contains_iff] at hin
  unfold Rect.Mem at hin
  simp only at hin
  have hright : b.area.right = b.area.x + b.area.width := rfl
  have hbottom : b.area.bottom = b.area.y + b.area.height := rfl
  obtain ⟨b', e, a, wf', c⟩ := line_print_columns u l b wf x y (x + min maxWidth (b.area.right - x)) maxWidth
    ⟨by omega, fun _ => by omega⟩ (by unfold budget; omega) hv
    (by rw [show x + min maxWidth (b.area.right - x) - x = min maxWidth (b.area.right - x) by omega]; exact hc)
  refine ⟨b', ?_, a, wf', fun q => ?_⟩
  · rw [e, (line_columns_length u l hv).2]
    congr 2
    omega
  · rw [c]
    unfold Buffer.overlay
    by_cases hq : q.y = y ∧ x ≤ q.x ∧ q.x < x + maxWidth
    · rw [if_pos hq]
      split_ifs with h
      · rfl
      · have : b.cellAt q = none := by
          apply cellAt_none
          rw [← Bool.not_eq_true, Rect.contains_iff]
          unfold Rect.Mem
          omega
        rw [this]
        split <;> rfl
    · rw [if_neg hq, if_neg (by omega)]

example : ∃ l : Line, (∀ s ∈ l.spans, Visible Uniseg.simple s.content) ∧
    CutsAt (widthsOf Uniseg.simple (l.spans.map Span.content)) 4 ∧ l.width Uniseg.simple = 5 ∧
    ((l.print Uniseg.simple 1 0 4 ⟨⟨0, 0, 6, 1⟩, List.replicate 6 (Cell.new "x")⟩).map fun r =>
      (r.1.content.map Cell.symbol, r.2)) = some (["x", "a", "世", " ", "b", "x"], 5) :=
  ⟨Line.new [Span.new "a世", Span.new "bc"], by unfold Visible; decide +kernel, by
    intro k
    rcases k with _ | _ | _ | _ | _ | k <;> simp only [show widthsOf Uniseg.simple
      ((Line.new [Span.new "a世", Span.new "bc"]).spans.map Span.content) = [1, 2, 1, 1] by decide +kernel] <;> simp,
    by decide +kernel, by decide +kernel⟩

/-- **C78 (negation).** A wide symbol is printed over the width that was asked for. -/
theorem C78_wide_false :
    ∃ (l : Line) (b b' : Buffer) (x' : Int), b.WF ∧ l = newLineStr ['世'] ∧
      l.print Uniseg.simple 0 0 1 b = some (b', x') ∧ x' = 2 ∧ b'.symbolAt ⟨1, 0⟩ ≠ b.symbolAt ⟨1, 0⟩ :=
  ⟨_, ⟨⟨0, 0, 3, 1⟩, List.replicate 3 (Cell.new "x")⟩,
    (((newLineStr ['世']).print Uniseg.simple 0 0 1 ⟨⟨0, 0, 3, 1⟩, List.replicate 3 (Cell.new "x")⟩).getD default).1,
    2, ⟨by decide, by decide, by decide⟩, rfl, by decide +kernel, rfl, by decide +kernel⟩

/-! ### C79 -/

theorem setLoop_columns (u : Uniseg) (l : Line) (y right : Int) (hpos : 0 < right) :
    ∀ (ss : List Span) (x : Int) (b : Buffer), b.WF → Place b x y right → 0 ≤ x → b.area.right = right →
      (∀ s ∈ ss, Visible u s.content) → x + (spanWidths u ss).sum ≤ right →
      ∃ b', l.setLoop u y ss x right b = some b' ∧ b'.area = b.area ∧ b'.WF ∧
        ∀ q, b'.cellAt q = b.overlay x y right
          (ss.flatMap fun s => columnsOf u (l.style.patched s.style) s.content) q
  | [], x, b, wf, _, _, _, _, _ =>
    ⟨b, rfl, rfl, wf, fun q => by simp [overlay_nil]⟩
  | s :: ss, x, b, wf, hp, hx, hr, hv, hsum => by
    unfold Line.setLoop
    rw [if_neg (by omega)]
    have hvs := hv s List.mem_cons_self
    rw [spanWidths_cons, List.sum_append] at hsum
    have hlen := columnsOf_length u (l.style.patched s.style) s.content hvs
    have hsw : ((u.graphemes s.content).map u.width).sum = u.stringWidth s.content := rfl
    obtain ⟨b1, e1, a1, wf1, c1⟩ := setStringN_columns u b wf x y right right s.content (l.style.patched s.style)
      hp (by unfold budget; omega) hvs (CutsAt.of_le (by omega))
    have hmin : min (x + ((columnsOf u (l.style.patched s.style) s.content).length : Int)) right =
        x + (columnsOf u (l.style.patched s.style) s.content).length := by omega
    rw [e1]
    simp only [Option.bind_eq_bind, Option.bind_some]
    have hrem : max (max 0 right) (max 0 (min (x + ((columnsOf u (l.style.patched s.style) s.content).length : Int))
        right - x)) = right := by omega
    rw [hrem]
    obtain ⟨b2, e2, a2, wf2, c2⟩ := setLoop_columns u l y right hpos ss
      (min (x + (columnsOf u (l.style.patched s.style) s.content).length) right) b1 wf1 (hp.next a1 _) (by omega)
      (by rw [a1]; exact hr) (fun s' hs' => hv s' (List.mem_cons_of_mem _ hs')) (by omega)
    refine ⟨b2, e2, a2.trans a1, wf2, fun q => ?_⟩
    rw [c2, List.flatMap_cons]
    exact overlay_clip b b1 x y right _ _ c1 q

theorem linesWidth_le (u : Uniseg) (ls : List Line) : ∀ l ∈ ls, (l.width u : Int) ≤ Lines.width u ls := by
  have key : ∀ (ls : List Line) (w : Int), w ≤ ls.foldl (fun w l => max w (l.width u : Int)) w ∧
      ∀ l ∈ ls, (l.width u : Int) ≤ ls.foldl (fun w l => max w (l.width u : Int)) w := by
    intro ls
    induction ls with
    | nil => intro w; exact ⟨Int.le_refl _, fun l hl => by cases hl⟩
    | cons a ls ih =>
      intro w
      obtain ⟨h1, h2⟩ := ih (max w (a.width u : Int))
      rw [List.foldl_cons]
      refine ⟨by omega, fun l hl => ?_⟩
      rcases List.mem_cons.1 hl with rfl | hl
      · omega
      · exact h2 l hl
  exact (key ls 0).2

theorem linesWidth_attained (u : Uniseg) (ls : List Line) :
    Lines.width u ls = 0 ∨ ∃ l ∈ ls, (l.width u : Int) = Lines.width u ls := by
  have key : ∀ (ls : List Line) (w : Int), ls.foldl (fun w l => max w (l.width u : Int)) w = w ∨
      ∃ l ∈ ls, (l.width u : Int) = ls.foldl (fun w l => max w (l.width u : Int)) w := by
    intro ls
    induction ls with
    | nil => intro w; exact Or.inl rfl
    | cons a ls ih =>
      intro w
      rw [List.foldl_cons]
      rcases ih (max w (a.width u : Int)) with h | ⟨l, hl, h⟩
      · rw [h]
        rcases Int.le_total w (a.width u : Int) with hle | hle
        · exact Or.inr ⟨a, List.mem_cons_self, by omega⟩
        · exact Or.inl (by omega)
      · exact Or.inr ⟨l, List.mem_cons_of_mem _ hl, h⟩
  exact key ls 0

theorem linesWidth_nonneg (u : Uniseg) (ls : List Line) : 0 ≤ Lines.width u ls := by
  rcases linesWidth_attained u ls with h | ⟨l, _, h⟩ <;> omega

theorem setAll_columns (u : Uniseg) (W : Int) :
    ∀ (ls : List Line) (y : Int) (b : Buffer), b.WF → b.area.x = 0 → b.area.width = W → b.area.y ≤ y → 0 ≤ W →
      y + ls.length ≤ b.area.bottom →
      (∀ l ∈ ls, (l.width u : Int) ≤ W) → (∀ l ∈ ls, ∀ s ∈ l.spans, Visible u s.content) →
      ∃ b', Lines.setAll u W ls y b = some b' ∧ b'.area = b.area ∧ b'.WF ∧
        ∀ q : Position, b.area.contains q = true → b'.cellAt q =
          if y ≤ q.y then
            (match ls[(q.y - y).toNat]? with
              | some l => (match (l.columns u)[q.x.toNat]? with
                | some f => (b.cellAt q).map f
                | none => b.cellAt q)
              | none => b.cellAt q)
          else b.cellAt q
  | [], y, b, wf, _, _, _, _, _, _, _ => ⟨b, rfl, rfl, wf, fun q _ => by simp⟩
  | l :: ls, y, b, wf, hx, hW, hy, hW0, hb, hw, hv => by
    unfold Lines.setAll
    have hvl := hv l List.mem_cons_self
    have hwl := hw l List.mem_cons_self
    obtain ⟨hl1, hl2⟩ := line_columns_length u l hvl
    rw [List.length_cons] at hb
    have hright : b.area.right = W := by unfold Rect.right; omega
    have hline : ∃ b1, l.setLoop u y l.spans 0 W b = some b1 ∧ b1.area = b.area ∧ b1.WF ∧
        ∀ q, b1.cellAt q = b.overlay 0 y W (l.columns u) q := by
      by_cases hpos : 0 < W
      · exact setLoop_columns u l y W hpos l.spans 0 b wf ⟨by omega, fun _ => by omega⟩ (Int.le_refl _) hright hvl
          (by rw [← hl1, hl2]; omega)
      · refine ⟨b, ?_, rfl, wf, fun q => (overlay_out _ _ _ _ (by omega) _ _).symm⟩
        cases l.spans with
        | nil => rfl
        | cons s ss => unfold Line.setLoop; rw [if_pos (by omega)]
    obtain ⟨b1, e1, a1, wf1, c1⟩ := hline
    obtain ⟨b2, e2, a2, wf2, c2⟩ := setAll_columns u W ls (y + 1) b1 wf1 (by rw [a1]; exact hx)
      (by rw [a1]; exact hW) (by rw [a1]; omega) hW0 (by rw [a1]; omega)
      (fun l hl => hw l (List.mem_cons_of_mem _ hl)) (fun l hl => hv l (List.mem_cons_of_mem _ hl))
    refine ⟨b2, ?_, a2.trans a1, wf2, fun q hq => ?_⟩
    · rw [e1]; exact e2
    · rw [c2 q (by rw [a1]; exact hq), c1]
      rw [Rect.contains_iff] at hq
      unfold Rect.Mem at hq
      unfold Buffer.overlay
      by_cases h1 : y + 1 ≤ q.y
      · rw [if_pos h1, if_neg (by omega), if_pos (by omega)]
        rw [show (q.y - y).toNat = (q.y - (y + 1)).toNat + 1 by omega, List.getElem?_cons_succ]
      · rw [if_neg h1]
        by_cases h2 : y ≤ q.y
        · have : q.y = y := by omega
          rw [if_pos (by omega), if_pos h2, show (q.y - y).toNat = 0 by omega, List.getElem?_cons_zero,
            Int.sub_zero]
          rfl
        · rw [if_neg (by omega), if_neg h2]

/-- **C79 (partial).** `Lines.NewBuffer` makes a buffer as wide as the widest line and as high as the number
of lines, and every row shows its line from the left, the rest being blank. Missing: clusters
without width (`C79_zero_width_false`). -/
theorem C79_newBuffer_partial (u : Uniseg) (ls : List Line) (hv : ∀ l ∈ ls, ∀ s ∈ l.spans, Visible u s.content) :
    ∃ b, Lines.newBuffer u ls = some b ∧ b.WF ∧ b.area.x = 0 ∧ b.area.y = 0 ∧ b.area.height = ls.length ∧
      (∀ l ∈ ls, (l.width u : Int) ≤ b.area.width) ∧
      (b.area.width = 0 ∨ ∃ l ∈ ls, (l.width u : Int) = b.area.width) ∧
      ∀ (l : Line) (y k : Nat), ls[y]? = some l → (k : Int) < b.area.width →
        b.cellAt ⟨k, y⟩ = some (match (l.columns u)[k]? with
          | some f => f Cell.empty
          | none => Cell.empty) := by
  unfold Lines.newBuffer
  have hW := linesWidth_nonneg u ls
  obtain ⟨b0, e0, a0, wf0, c0⟩ := Buffer.newFilled_some (area := ⟨0, 0, Lines.width u ls, ls.length⟩)
    (c := Cell.empty) hW (by simp)
  obtain ⟨b, e, a, wf, c⟩ := setAll_columns u (Lines.width u ls) ls 0 b0 wf0 (by rw [a0]) (by rw [a0]) (by rw [a0]; exact Int.le_refl _)
    hW (by rw [a0]; unfold Rect.bottom; simp) (linesWidth_le u ls) hv
  refine ⟨b, ?_, wf, by rw [a, a0], by rw [a, a0], by rw [a, a0], ?_, ?_, ?_⟩
  · unfold Buffer.newEmpty
    simp only [Option.bind_eq_bind]
    rw [e0]
    exact e
  · rw [a, a0]; exact linesWidth_le u ls
  · rw [a, a0]; exact linesWidth_attained u ls
  · intro l y k hl hk
    rw [a, a0] at hk
    simp only at hk
    have hy := (List.getElem?_eq_some_iff.1 hl).1
    have hin : b0.area.contains ⟨k, y⟩ = true := by
      rw [a0, Rect.contains_iff]; unfold Rect.Mem; simp only; omega
    rw [c ⟨k, y⟩ hin, if_pos (by simp), c0 _ (by rw [← a0]; exact hin)]
    simp only [Int.sub_zero, Int.toNat_natCast, hl]
    cases (l.columns u)[k]? <;> rfl

example : ((Lines.newBuffer Uniseg.simple [newLineStr ['a', '世'], Line.new [Span.new "b", Span.new "cd", Span.new "e"]]).map
    fun b => (b.area.width, b.content.map Cell.symbol)) = some (4, ["a", "世", " ", " ", "b", "c", "d", "e"]) := by
  decide +kernel

/-- **C79 (negation).** A control character in front of a letter makes `NewBuffer` panic. -/
theorem C79_zero_width_false : Lines.newBuffer Uniseg.simple [newLineStr [Char.ofNat 1, 'a']] = none := by
  decide +kernel

end Bento
