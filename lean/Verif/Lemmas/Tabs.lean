import Verif.Spec.Tabs
import Verif.Lemmas.TextRow
import Verif.Props.Buffer

/-!
# Printing rows of text
-/

namespace Bento

open Buffer

theorem CutsAt.nil (n : Int) (h : 0 ≤ n) : CutsAt [] n := by
  intro k _; simpa using h

theorem CutsAt.append_left {a b : List Nat} {n : Int} (h : CutsAt (a ++ b) n) (hn : 0 ≤ n) : CutsAt a n := by
  intro k hk
  rcases Nat.lt_or_ge k a.length with hl | hl
  · have := h k
    rw [List.take_append_of_le_length (by omega), List.take_append_of_le_length (by omega)] at this
    exact this hk
  · rw [List.take_of_length_le (by omega)] at *
    omega

theorem CutsAt.append_right {a b : List Nat} {n : Int} (h : CutsAt (a ++ b) n) :
    CutsAt b (n - (a.sum : Nat)) := by
  intro k hk
  have := h (a.length + k)
  rw [Nat.add_assoc, List.take_length_add_append, List.take_length_add_append, List.sum_append,
    List.sum_append] at this
  omega

theorem CutsAt.of_le {ws : List Nat} {n : Int} (h : (ws.sum : Int) ≤ n) : CutsAt ws n := by
  intro k _
  have : (ws.take (k + 1)).sum ≤ ws.sum := by
    conv_rhs => rw [← List.take_append_drop (k + 1) ws, List.sum_append]
    omega
  omega

theorem CutsAt.of_ones {ws : List Nat} {n : Int} (h : ∀ w ∈ ws, w = 1) : CutsAt ws n := by
  intro k hk
  have e : ∀ j, (ws.take j).sum = min j ws.length := by
    intro j
    have : ws = List.replicate ws.length 1 := List.eq_replicate_iff.2 ⟨rfl, h⟩
    rw [this]; simp [List.take_replicate]
  rw [e] at *
  omega

theorem CutsAt.noStraddle {u : Uniseg} {v : String} {n : Int}
    (h : CutsAt ((u.graphemes v).map u.width) n) : NoStraddle (u.measured v) n := by
  intro pre g post he hlt
  have hm : (u.graphemes v).map u.width = (pre.map Prod.snd) ++ g.2 :: post.map Prod.snd := by
    have := congrArg (List.map Prod.snd) he
    unfold Uniseg.measured at this
    rw [List.map_map, List.map_append, List.map_cons] at this
    exact this
  have hs : ∀ l : List (String × Nat), totalWidth l = ((l.map Prod.snd).sum : Nat) := by
    intro l
    induction l with
    | nil => rfl
    | cons a l ih => rw [totalWidth_cons, ih]; simp
  have := h pre.length
  rw [hm, List.take_append_of_le_length (by simp), List.take_of_length_le (by simp)] at this
  rw [show pre.length + 1 = (pre.map Prod.snd).length + 1 by simp, List.take_length_add_append] at this
  rw [hs] at hlt ⊢
  have := this hlt
  simp only [List.take_succ_cons, List.take_zero, List.sum_append, List.sum_cons, List.sum_nil] at this
  omega

theorem columnsOf_length (u : Uniseg) (style : Style) (v : String) (hv : Visible u v) :
    (columnsOf u style v).length = u.stringWidth v := by
  unfold columnsOf Uniseg.stringWidth Visible at *
  generalize u.graphemes v = gs at hv
  induction gs with
  | nil => rfl
  | cons g gs ih =>
    have h1 := hv g List.mem_cons_self
    have := ih (fun g hg => hv g (List.mem_cons_of_mem _ hg))
    simp only [List.flatMap_cons, List.length_append, List.length_cons, List.length_replicate, List.map_cons,
      List.sum_cons, this]
    omega

theorem layoutCell_columns (u : Uniseg) (style : Style) (v : String) (hv : Visible u v) (d : Nat) (c : Cell) :
    layoutCell style (u.measured v) d c =
      match (columnsOf u style v)[d]? with
      | some f => f c
      | none => c := by
  unfold Uniseg.measured columnsOf Visible at *
  generalize u.graphemes v = gs at hv
  induction gs generalizing d with
  | nil => simp [layoutCell]
  | cons g gs ih =>
    have h1 := hv g List.mem_cons_self
    have ih := fun d => ih d (fun g hg => hv g (List.mem_cons_of_mem _ hg))
    simp only [List.map_cons, layoutCell, List.flatMap_cons, List.cons_append]
    rcases d with _ | d
    · simp [Cell.put]
    · rw [if_neg (by omega), List.getElem?_cons_succ]
      by_cases hd : d < u.width g - 1
      · rw [if_pos (by omega), List.getElem?_append_left (by simpa using hd),
          List.getElem?_replicate, if_pos hd]
      · rw [if_neg (by omega), List.getElem?_append_right (by simpa using hd), List.length_replicate]
        have := ih (d + 1 - u.width g)
        rw [show (d - (u.width g - 1)) = d + 1 - u.width g by omega, ← this]
        congr 1
        omega

theorem overlay_clip (b b' : Buffer) (x y right : Int) (fs gs : List (Cell → Cell))
    (h : ∀ q, b'.cellAt q = b.overlay x y right fs q) (q : Position) :
    b'.overlay (min (x + fs.length) right) y right gs q = b.overlay x y right (fs ++ gs) q := by
  by_cases hle : x + fs.length ≤ right
  · rw [Int.min_eq_left hle]; exact overlay_append b b' x y right fs gs h q
  · rw [Int.min_eq_right (by omega), overlay_out _ _ _ _ (Int.le_refl _), h]
    unfold Buffer.overlay
    split_ifs with h1
    · rw [List.getElem?_append_left (by omega)]
    · rfl

theorem totalWidth_measured (u : Uniseg) (v : String) : totalWidth (u.measured v) = u.stringWidth v := by
  unfold Uniseg.measured Uniseg.stringWidth
  generalize u.graphemes v = gs
  induction gs with
  | nil => rfl
  | cons g gs ih => rw [List.map_cons, totalWidth_cons, ih]; simp

/-- The place of a row that is being filled: the column is between the start and the end, and if there
is any room, the room is in the buffer. -/
structure Place (b : Buffer) (x y right : Int) : Prop where
  le : x ≤ right
  room : x < right → b.area.x ≤ x ∧ right ≤ b.area.right ∧ b.area.y ≤ y ∧ y < b.area.bottom

theorem Place.next {b b' : Buffer} {x y right : Int} (h : Place b x y right) (ha : b'.area = b.area) (n : Nat) :
    Place b' (min (x + n) right) y right := by
  refine ⟨Int.min_le_right _ _, fun hlt => ?_⟩
  have h2 := h.le
  have := h.room (by omega)
  rw [ha]; omega

theorem setStringN_columns (u : Uniseg) (b : Buffer) (wf : b.WF) (x y right m : Int) (v : String) (style : Style)
    (hp : Place b x y right) (hm : budget b x m = right - x) (hv : Visible u v)
    (hc : CutsAt ((u.graphemes v).map u.width) (right - x)) :
    ∃ b', b.setStringN u x y v m style = some (b', min (x + (columnsOf u style v).length) right) ∧
      b'.area = b.area ∧ b'.WF ∧ ∀ q, b'.cellAt q = b.overlay x y right (columnsOf u style v) q := by
  have hg : ∀ g ∈ u.measured v, 1 ≤ g.2 := by
    intro g hg
    unfold Uniseg.measured at hg
    obtain ⟨c, hc, rfl⟩ := List.mem_map.1 hg
    exact hv c hc
  by_cases hlt : x < right
  · obtain ⟨h1, h2, h3, h4⟩ := hp.room hlt
    obtain ⟨b', e, a, wf', c⟩ := C09_setStringN_partial u b wf x y v m style
      (by rw [Rect.contains_iff]; unfold Rect.Mem; simp only [Rect.right, Rect.bottom] at *; omega)
      (by unfold budget at hm; omega) hg (by rw [hm]; exact hc.noStraddle)
    refine ⟨b', ?_, a, wf', fun q => ?_⟩
    · rw [e, hm, totalWidth_measured, columnsOf_length u style v hv]
      congr 2
      omega
    · rw [c, hm]
      unfold Buffer.overlay
      by_cases hq : q.y = y ∧ x ≤ q.x ∧ q.x < right
      · rw [if_pos (by omega), if_pos hq]
        obtain ⟨d, hd⟩ : ∃ d : Nat, q.x - x = d := ⟨(q.x - x).toNat, by omega⟩
        rw [hd, Int.toNat_natCast]
        cases hcell : b.cellAt q with
        | none => split <;> rfl
        | some c0 =>
          rw [Option.map_some, layoutCell_columns u style v hv]
          cases (columnsOf u style v)[d]? <;> rfl
      · rw [if_neg (by omega), if_neg hq]
  · have hx : right = x := by have := hp.le; omega
    subst hx
    have hb0 : min m (max 0 (b.area.right - right)) = 0 := by
      have := hm; unfold budget at this; omega
    refine ⟨b, ?_, rfl, wf, fun q => (overlay_out _ _ _ _ (Int.le_refl _) _ _).symm⟩
    unfold Buffer.setStringN
    simp only
    rw [hb0]
    have he : min (right + ((columnsOf u style v).length : Int)) right = right := by omega
    rw [he]
    generalize (u.graphemes v).map (fun g => (g, u.width g)) = gs
    cases gs with
    | nil => rfl
    | cons g gs => obtain ⟨s, w⟩ := g; unfold Buffer.setStringLoop; rfl

/-- The widths of the clusters of a list of spans. -/
def spanWidths (u : Uniseg) (ss : List Span) : List Nat := widthsOf u (ss.map Span.content)

theorem spanWidths_cons (u : Uniseg) (s : Span) (ss : List Span) :
    spanWidths u (s :: ss) = (u.graphemes s.content).map u.width ++ spanWidths u ss := by
  simp [spanWidths, widthsOf]

theorem budget_next {b b' : Buffer} {x right m : Int} (n : Nat) (hm : budget b x m = right - x)
    (hle : x ≤ right) (ha : b'.area = b.area) :
    budget b' (min (x + n) right) (max 0 (m - max 0 (min (x + n) right - x))) =
      right - min (x + n) right := by
  unfold budget at *
  rw [ha]
  omega

theorem printLoop_columns (u : Uniseg) (l : Line) (y right : Int) :
    ∀ (ss : List Span) (x m : Int) (b : Buffer), b.WF → Place b x y right → budget b x m = right - x →
      (∀ s ∈ ss, Visible u s.content) → CutsAt (spanWidths u ss) (right - x) →
      ∃ b', l.printLoop u y ss x m b =
          some (b', min (x + (ss.flatMap fun s => columnsOf u (l.style.patched s.style) s.content).length) right) ∧
        b'.area = b.area ∧ b'.WF ∧
        ∀ q, b'.cellAt q = b.overlay x y right
          (ss.flatMap fun s => columnsOf u (l.style.patched s.style) s.content) q
  | [], x, m, b, wf, hp, _, _, _ =>
    ⟨b, by
      have := hp.le
      simp only [Line.printLoop, List.flatMap_nil, List.length_nil]
      congr 2
      omega, rfl, wf, fun q => by
      simp [overlay_nil]⟩
  | s :: ss, x, m, b, wf, hp, hm, hv, hc => by
    unfold Line.printLoop
    have hle := hp.le
    by_cases h0 : m = 0
    · rw [if_pos h0]
      have hx : right = x := by unfold budget at hm; omega
      refine ⟨b, ?_, rfl, wf, fun q => (overlay_out _ _ _ _ (by omega) _ _).symm⟩
      congr 2
      omega
    · rw [if_neg h0]
      rw [spanWidths_cons] at hc
      have hvs := hv s List.mem_cons_self
      obtain ⟨b1, e1, a1, wf1, c1⟩ := setStringN_columns u b wf x y right m s.content (l.style.patched s.style)
        hp hm hvs (hc.append_left (by omega))
      have hlen := columnsOf_length u (l.style.patched s.style) s.content hvs
      have hsum : ((u.graphemes s.content).map u.width).sum = (columnsOf u (l.style.patched s.style) s.content).length := by
        rw [hlen]; rfl
      have hc2 : CutsAt (spanWidths u ss)
          (right - min (x + (columnsOf u (l.style.patched s.style) s.content).length) right) := by
        have := hc.append_right
        rw [hsum] at this
        by_cases hfit : x + (columnsOf u (l.style.patched s.style) s.content).length ≤ right
        · rw [Int.min_eq_left hfit]
          rw [show right - (x + ((columnsOf u (l.style.patched s.style) s.content).length : Int)) =
            right - x - ((columnsOf u (l.style.patched s.style) s.content).length : Int) by omega]
          exact this
        · rw [Int.min_eq_right (by omega)]
          intro k hk
          omega
      obtain ⟨b2, e2, a2, wf2, c2⟩ := printLoop_columns u l y right ss
        (min (x + (columnsOf u (l.style.patched s.style) s.content).length) right) _ b1 wf1
        (hp.next a1 _) (budget_next _ hm hle a1) (fun s' hs' => hv s' (List.mem_cons_of_mem _ hs')) hc2
      refine ⟨b2, ?_, a2.trans a1, wf2, fun q => ?_⟩
      · rw [e1]
        simp only [Option.bind_eq_bind, Option.bind_some]
        rw [e2, List.flatMap_cons, List.length_append]
        congr 2
        omega
      · rw [c2, List.flatMap_cons]
        exact overlay_clip b b1 x y right _ _ c1 q

/-- Cutting the rest of a row after a part of it has been drawn. -/
theorem CutsAt.after {a b : List Nat} {right x : Int} {n : Nat} (h : CutsAt (a ++ b) (right - x)) (hn : a.sum = n) :
    CutsAt b (right - min (x + n) right) := by
  have := h.append_right
  rw [hn] at this
  by_cases hfit : x + n ≤ right
  · rw [Int.min_eq_left hfit, show right - (x + (n : Int)) = right - x - (n : Int) by omega]
    exact this
  · rw [Int.min_eq_right (by omega)]
    intro k hk
    omega

theorem line_columns_length (u : Uniseg) (l : Line) (hv : ∀ s ∈ l.spans, Visible u s.content) :
    (l.columns u).length = (spanWidths u l.spans).sum ∧ (l.columns u).length = l.width u := by
  unfold Line.columns Line.width
  generalize l.spans = ss at hv
  induction ss with
  | nil => exact ⟨rfl, rfl⟩
  | cons s ss ih =>
    obtain ⟨i1, i2⟩ := ih (fun s' hs' => hv s' (List.mem_cons_of_mem _ hs'))
    have h1 := columnsOf_length u (l.style.patched s.style) s.content (hv s List.mem_cons_self)
    constructor
    · rw [List.flatMap_cons, List.length_append, spanWidths_cons, List.sum_append, i1, h1]; rfl
    · rw [List.flatMap_cons, List.length_append, i2, h1]; simp [Span.width]

theorem line_print_columns (u : Uniseg) (l : Line) (b : Buffer) (wf : b.WF) (x y right m : Int)
    (hp : Place b x y right) (hm : budget b x m = right - x) (hv : ∀ s ∈ l.spans, Visible u s.content)
    (hc : CutsAt (spanWidths u l.spans) (right - x)) :
    ∃ b', l.print u x y m b = some (b', min (x + (l.columns u).length) right) ∧ b'.area = b.area ∧ b'.WF ∧
      ∀ q, b'.cellAt q = b.overlay x y right (l.columns u) q :=
  printLoop_columns u l y right l.spans x m b wf hp hm hv hc

end Bento
