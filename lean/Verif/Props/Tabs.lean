import Verif.Lemmas.Tabs
import Verif.Props.Block

/-!
# Tabs and printed lines (C57, C77, C78)
-/

namespace Bento

open Buffer

theorem overlay_highlight (b b1 b2 : Buffer) (x y right : Int) (fs : List (Cell → Cell)) (style : Style)
    (hle : x ≤ right) (h1 : ∀ q, b1.cellAt q = b.overlay x y right fs q)
    (h2 : ∀ q, b2.cellAt q =
      if (⟨x, y, max 0 (min (x + fs.length) right - x), 1⟩ : Rect).contains q = true then
        (b1.cellAt q).map (Cell.setStyle style) else b1.cellAt q) (q : Position) :
    b2.cellAt q = b.overlay x y right (fs.map fun f c => (f c).setStyle style) q := by
  rw [h2, h1]
  unfold Buffer.overlay
  simp only [Rect.contains_iff, Rect.Mem, List.getElem?_map]
  by_cases hq : q.y = y ∧ x ≤ q.x ∧ q.x < right
  · rw [if_pos hq, if_pos hq]
    by_cases hl : (q.x - x).toNat < fs.length
    · rw [if_pos (by omega), List.getElem?_eq_getElem hl]
      simp only [Option.map_some, Option.map_map]
      rfl
    · rw [if_neg (by omega), List.getElem?_eq_none (by omega)]
      rfl
  · rw [if_neg (by omega), if_neg hq, if_neg hq]

namespace Tabs

/-- The strip of the titles from number `i` on. -/
def stripFrom (u : Uniseg) (t : Tabs) : List Line → Nat → List (Cell → Cell)
  | [], _ => []
  | [l], i => t.tab u i l
  | l :: l' :: rest, i =>
    t.tab u i l ++ columnsOf u t.divider.style t.divider.content ++ stripFrom u t (l' :: rest) (i + 1)

theorem stripFrom_eq (u : Uniseg) (t : Tabs) : ∀ (ls : List Line) (i : Nat),
    t.stripFrom u ls i = List.intercalate (columnsOf u t.divider.style t.divider.content)
      (ls.mapIdx fun k => t.tab u (i + k))
  | [], _ => rfl
  | [l], i => by simp [stripFrom, List.intercalate]
  | l :: l' :: rest, i => by
    have := stripFrom_eq u t (l' :: rest) (i + 1)
    unfold stripFrom
    rw [this]
    simp only [List.mapIdx_cons, List.intercalate, List.intersperse_cons_cons, List.flatten_cons, List.append_assoc,
      Nat.add_zero]
    congr 2
    simp only [Nat.add_comm, Nat.add_left_comm, Nat.add_assoc]

theorem strip_eq (u : Uniseg) (t : Tabs) : t.strip u = t.stripFrom u t.titles 0 := by
  rw [stripFrom_eq]; unfold strip; simp

/-- The widths of the clusters of a tab. -/
def tabWidths (u : Uniseg) (t : Tabs) (l : Line) : List Nat :=
  spanWidths u t.paddingLeft.spans ++ (spanWidths u l.spans ++ spanWidths u t.paddingRight.spans)

/-- The widths of the clusters of the strip. -/
def widths (u : Uniseg) (t : Tabs) : List Line → List Nat
  | [] => []
  | [l] => t.tabWidths u l
  | l :: l' :: rest =>
    t.tabWidths u l ++ ((u.graphemes t.divider.content).map u.width ++ widths u t (l' :: rest))

theorem widths_eq (u : Uniseg) (t : Tabs) : ∀ ls : List Line,
    t.widths u ls = widthsOf u (List.intercalate [t.divider.content] (ls.map fun l =>
      (t.paddingLeft.spans ++ l.spans ++ t.paddingRight.spans).map Span.content))
  | [] => rfl
  | [l] => by simp [widths, tabWidths, spanWidths, widthsOf, List.intercalate, List.flatMap_append]
  | l :: l' :: rest => by
    have := widths_eq u t (l' :: rest)
    unfold widths
    rw [this]
    simp only [tabWidths, spanWidths, widthsOf, List.map_cons, List.intercalate, List.intersperse_cons_cons,
      List.flatten_cons, List.flatMap_append, List.flatMap_cons, List.flatMap_nil, List.append_nil, List.map_append,
      List.append_assoc]

theorem texts_widths (u : Uniseg) (t : Tabs) : t.widths u t.titles = widthsOf u t.texts := widths_eq u t t.titles

/-- A part of the row has been drawn. -/
structure Stage (b b' : Buffer) (x x' y right : Int) (fs : List (Cell → Cell)) : Prop where
  area : b'.area = b.area
  wf : b'.WF
  col : x' = min (x + fs.length) right
  cells : ∀ q, b'.cellAt q = b.overlay x y right fs q

theorem Stage.print {u : Uniseg} {b b' : Buffer} {x x' y right : Int} {fs : List (Cell → Cell)} {area : Rect}
    (h : Stage b b' x x' y right fs) (hp : Place b x y right)
    (hr : right = max x (min area.right b.area.right)) (l : Line) (hv : ∀ s ∈ l.spans, Visible u s.content)
    (hc : CutsAt (spanWidths u l.spans) (right - x')) :
    ∃ b2 x2, l.print u x' y (max 0 (area.right - x')) b' = some (b2, x2) ∧
      Stage b' b2 x' x2 y right (l.columns u) ∧ Stage b b2 x x2 y right (fs ++ l.columns u) := by
  have hle := hp.le
  obtain ⟨h1, h2, h3, h4⟩ := h
  have hp' := hp.next h1 fs.length
  rw [← h3] at hp'
  obtain ⟨b2, e2, a2, wf2, c2⟩ := line_print_columns u l b' h2 x' y right (max 0 (area.right - x')) hp'
    (by unfold budget; rw [h1]; omega) hv hc
  refine ⟨b2, _, e2, ⟨a2, wf2, rfl, c2⟩, a2.trans h1, wf2, ?_, fun q => ?_⟩
  · rw [List.length_append]; omega
  · rw [c2, h3]
    exact overlay_clip b b' x y right fs _ h4 q

theorem Stage.full {b b' : Buffer} {x x' y right : Int} {fs : List (Cell → Cell)} {area : Rect}
    (h : Stage b b' x x' y right fs) (hp : Place b x y right)
    (hr : right = max x (min area.right b.area.right)) (h0 : max 0 (area.right - x') = 0)
    (gs : List (Cell → Cell)) :
    b'.area = b.area ∧ b'.WF ∧ ∀ q, b'.cellAt q = b.overlay x y right (fs ++ gs) q := by
  have hle := hp.le
  obtain ⟨h1, h2, h3, h4⟩ := h
  refine ⟨h1, h2, fun q => ?_⟩
  rw [← overlay_clip b b' x y right fs gs h4 q, ← h3, overlay_out _ _ _ _ (by omega)]

theorem Stage.highlight {u : Uniseg} {b b' b1 : Buffer} {x x' x1 y right : Int} {fs : List (Cell → Cell)} (t : Tabs)
    (i : Nat) (l : Line) (h : Stage b b' x x' y right fs) (hle : x' ≤ right)
    (hs : Stage b' b1 x' x1 y right (l.columns u)) (hs' : Stage b b1 x x1 y right (fs ++ l.columns u)) :
    ∃ b2, t.highlight i x' x1 y b1 = some b2 ∧ Stage b b2 x x1 y right (fs ++
      if t.selected = some (i : Int) then (l.columns u).map (fun f c => (f c).setStyle t.highlightStyle)
      else l.columns u) := by
  unfold Tabs.highlight
  by_cases hi : t.selected = some (i : Int)
  · rw [if_pos hi, if_pos hi]
    obtain ⟨b2, e2, a2, wf2, c2⟩ := setStyle_cells hs.wf ⟨x', y, max 0 (x1 - x'), 1⟩ t.highlightStyle
    refine ⟨b2, e2, a2.trans hs'.area, wf2, ?_, fun q => ?_⟩
    · rw [hs'.col]; simp
    · rw [hs.col] at c2
      have := overlay_highlight b' b1 b2 x' y right (l.columns u) t.highlightStyle hle hs.cells c2 q
      rw [this, h.col]
      exact overlay_clip b b' x y right fs _ h.cells q
  · rw [if_neg hi, if_neg hi]
    exact ⟨b1, rfl, hs'⟩

theorem loop_spec (u : Uniseg) (t : Tabs) (area : Rect) (right : Int)
    (hL : ∀ s ∈ t.paddingLeft.spans, Visible u s.content) (hR : ∀ s ∈ t.paddingRight.spans, Visible u s.content)
    (hD : Visible u t.divider.content) :
    ∀ (ls : List Line) (i : Nat) (x : Int) (b : Buffer), b.WF → Place b x area.y right →
      right = max x (min area.right b.area.right) →
      (∀ l ∈ ls, ∀ s ∈ l.spans, Visible u s.content) → CutsAt (t.widths u ls) (right - x) →
      ∃ b', t.loop u area ls i x b = some b' ∧ b'.area = b.area ∧ b'.WF ∧
        ∀ q, b'.cellAt q = b.overlay x area.y right (t.stripFrom u ls i) q
  | [], i, x, b, wf, _, _, _, _ => ⟨b, rfl, rfl, wf, fun q => by simp [stripFrom, overlay_nil]⟩
  | l :: ls, i, x, b, wf, hp, hr, hv, hc => by
    have hle := hp.le
    have hvl := hv l List.mem_cons_self
    obtain ⟨tailW, htailW⟩ : ∃ w, t.widths u (l :: ls) = t.tabWidths u l ++ w := by
      cases ls with
      | nil => exact ⟨[], by simp [widths]⟩
      | cons l' rest => exact ⟨_, by rw [widths]⟩
    obtain ⟨tail, htail⟩ : ∃ g, t.stripFrom u (l :: ls) i = t.tab u i l ++ g := by
      cases ls with
      | nil => exact ⟨[], by simp [stripFrom]⟩
      | cons l' rest => exact ⟨_, by rw [stripFrom, List.append_assoc]⟩
    have hc0 := hc
    rw [htailW] at hc
    unfold tabWidths at hc
    simp only [List.append_assoc] at hc
    have hlenL := (line_columns_length u t.paddingLeft hL).1
    have hlenT := (line_columns_length u l hvl).1
    have hlenR := (line_columns_length u t.paddingRight hR).1
    have s0 : Stage b b x x area.y right [] :=
      ⟨rfl, wf, by simp only [List.length_nil]; omega, fun q => (overlay_nil ..).symm⟩
    unfold loop
    by_cases h0 : max 0 (area.right - x) = 0
    · rw [if_pos h0]
      obtain ⟨e1, e2, e3⟩ := s0.full hp hr h0 (t.stripFrom u (l :: ls) i)
      exact ⟨b, rfl, e1, e2, e3⟩
    rw [if_neg h0]
    obtain ⟨b1, x1, p1, _, s1⟩ := s0.print hp hr t.paddingLeft hL (hc.append_left (by omega))
    rw [show area.top = area.y from rfl, p1]
    simp only [Option.bind_eq_bind, Option.bind_some]
    have hx1 : x1 ≤ right := by have := s1.col; omega
    by_cases h1 : max 0 (area.right - x1) = 0
    · rw [if_pos h1]
      obtain ⟨e1, e2, e3⟩ := s1.full hp hr h1 (((if t.selected = some (i : Int) then
        (l.columns u).map (fun f c => (f c).setStyle t.highlightStyle) else l.columns u) ++
          t.paddingRight.columns u) ++ tail)
      refine ⟨b1, rfl, e1, e2, fun q => ?_⟩
      rw [e3 q, htail]; unfold tab; simp only [List.nil_append, List.append_assoc]
    rw [if_neg h1]
    have hc1 : CutsAt (spanWidths u l.spans ++ (spanWidths u t.paddingRight.spans ++ tailW)) (right - x1) := by
      rw [s1.col]; exact hc.after (by simp [hlenL])
    obtain ⟨b2, x2, p2, s2a, s2b⟩ := s1.print hp hr l hvl (hc1.append_left (by omega))
    rw [p2]
    simp only [Option.bind_some]
    obtain ⟨b3, p3, s3⟩ := s1.highlight t i l hx1 s2a s2b
    rw [p3]
    simp only [Option.bind_some]
    have hx2 : x2 ≤ right := by have := s3.col; omega
    by_cases h2 : max 0 (area.right - x2) = 0
    · rw [if_pos h2]
      obtain ⟨e1, e2, e3⟩ := s3.full hp hr h2 (t.paddingRight.columns u ++ tail)
      refine ⟨b3, rfl, e1, e2, fun q => ?_⟩
      rw [e3 q, htail]; unfold tab; simp only [List.nil_append, List.append_assoc]
    rw [if_neg h2]
    have hc2 : CutsAt (spanWidths u t.paddingRight.spans ++ tailW) (right - x2) := by
      rw [s2a.col]; exact hc1.after (by simp [hlenT])
    obtain ⟨b4, x4, p4, s4a, s4⟩ := s3.print hp hr t.paddingRight hR (hc2.append_left (by omega))
    rw [p4]
    simp only [Option.bind_some]
    have hx4 : x4 ≤ right := by have := s4.col; omega
    by_cases h3 : max 0 (area.right - x4) = 0 ∨ ls = []
    · rw [if_pos h3]
      by_cases h4 : max 0 (area.right - x4) = 0
      · obtain ⟨e1, e2, e3⟩ := s4.full hp hr h4 tail
        refine ⟨b4, rfl, e1, e2, fun q => ?_⟩
        rw [e3 q, htail]; unfold tab; simp only [List.nil_append, List.append_assoc]
      · obtain rfl : ls = [] := h3.resolve_left h4
        refine ⟨b4, rfl, s4.area, s4.wf, fun q => ?_⟩
        rw [s4.cells q]; unfold stripFrom tab; simp only [List.nil_append, List.append_assoc]
    rw [if_neg h3]
    have hne : ls ≠ [] := fun h => h3 (Or.inr h)
    obtain ⟨l', rest, rfl⟩ := List.exists_cons_of_ne_nil hne
    have htw : tailW = (u.graphemes t.divider.content).map u.width ++ t.widths u (l' :: rest) := by
      rw [widths] at htailW
      exact (List.append_cancel_left htailW).symm
    have hc4 : CutsAt tailW (right - x4) := by
      rw [s4a.col]; exact hc2.after (by simp [hlenR])
    rw [htw] at hc4
    have hp4 := hp.next s4.area (([] ++ t.paddingLeft.columns u ++ if t.selected = some (i : Int) then
        (l.columns u).map (fun (f : Cell → Cell) c => (f c).setStyle t.highlightStyle) else l.columns u) ++
          t.paddingRight.columns u).length
    rw [← s4.col] at hp4
    obtain ⟨b5, e5, a5, wf5, c5⟩ := setStringN_columns u b4 s4.wf x4 area.y right (max 0 (area.right - x4))
      t.divider.content t.divider.style hp4 (by unfold budget; rw [s4.area]; have := s4.col; omega) hD
      (hc4.append_left (by omega))
    unfold Span.print
    rw [e5]
    simp only [Option.bind_some]
    have hlenD : ((u.graphemes t.divider.content).map u.width).sum =
        (columnsOf u t.divider.style t.divider.content).length := by
      rw [columnsOf_length u _ _ hD]; rfl
    obtain ⟨b6, e6, a6, wf6, c6⟩ := loop_spec u t area right hL hR hD (l' :: rest) (i + 1)
      (min (x4 + (columnsOf u t.divider.style t.divider.content).length) right) b5 wf5
      (hp4.next a5 _) (by rw [a5, s4.area]; have := s4.col; omega)
      (fun l hl => hv l (List.mem_cons_of_mem _ hl)) (hc4.after hlenD)
    refine ⟨b6, e6, a6.trans (a5.trans s4.area), wf6, fun q => ?_⟩
    rw [c6, overlay_clip b4 b5 x4 area.y right _ _ c5 q]
    have := overlay_clip b b4 x area.y right _ (columnsOf u t.divider.style t.divider.content ++
      t.stripFrom u (l' :: rest) (i + 1)) s4.cells q
    rw [← s4.col] at this
    rw [this, stripFrom]
    unfold tab
    simp only [List.nil_append, List.append_assoc]

/-- Every text of the strip is made of clusters with a width. -/
def AllVisible (u : Uniseg) (t : Tabs) : Prop :=
  (∀ s ∈ t.paddingLeft.spans, Visible u s.content) ∧ (∀ s ∈ t.paddingRight.spans, Visible u s.content) ∧
    Visible u t.divider.content ∧ ∀ l ∈ t.titles, ∀ s ∈ l.spans, Visible u s.content

theorem renderTabs_spec (u : Uniseg) (t : Tabs) (ht : t.AllVisible u) (area : Rect) (b : Buffer) (wf : b.WF)
    (hw : 0 ≤ area.width) (hh : 0 ≤ area.height)
    (hx : b.area.x ≤ area.x) (hy : b.area.y ≤ area.y) (hy' : area.y < b.area.bottom)
    (hc : CutsAt (widthsOf u t.texts) (max 0 (min area.right b.area.right - area.x))) :
    ∃ b', t.renderTabs u area b = some b' ∧ b'.area = b.area ∧ b'.WF ∧
      ∀ q, b'.cellAt q = if area.contains q = true ∧ q.y = area.y then
          (match (t.strip u)[(q.x - area.x).toNat]? with
            | some f => (b.cellAt q).map f
            | none => b.cellAt q)
        else b.cellAt q := by
  unfold renderTabs
  by_cases he : area.isEmpty = true
  · rw [if_pos he]
    refine ⟨b, rfl, rfl, wf, fun q => ?_⟩
    rw [if_neg]
    rintro ⟨hq, _⟩
    rw [Rect.contains_iff] at hq
    unfold Rect.Mem at hq
    simp only [Rect.isEmpty, Bool.or_eq_true, beq_iff_eq] at he
    omega
  · rw [if_neg he]
    simp only [Rect.isEmpty, Bool.or_eq_true, beq_iff_eq, not_or] at he
    obtain ⟨h1, h2, h3, h4⟩ := ht
    obtain ⟨b', e, a, wf', c⟩ := loop_spec u t area (max area.x (min area.right b.area.right)) h1 h2 h3 t.titles 0
      area.x b wf ⟨by omega, fun h => ⟨hx, by omega, hy, hy'⟩⟩ rfl h4
      (by
        rw [texts_widths]
        rw [show max area.x (min area.right b.area.right) - area.x =
          max 0 (min area.right b.area.right - area.x) by omega]
        exact hc)
    refine ⟨b', e, a, wf', fun q => ?_⟩
    rw [c, strip_eq]
    unfold Buffer.overlay
    by_cases hq : area.contains q = true ∧ q.y = area.y
    · rw [if_pos hq]
      have hq2 := hq.1
      rw [Rect.contains_iff] at hq2
      unfold Rect.Mem at hq2
      split_ifs with hin
      · rfl
      · have : b.cellAt q = none := by
          apply cellAt_none
          rw [← Bool.not_eq_true, Rect.contains_iff]
          unfold Rect.Mem Rect.right at *
          omega
        rw [this]
        split <;> rfl
    · rw [if_neg hq, if_neg]
      intro hin
      apply hq
      rw [Rect.contains_iff]
      unfold Rect.Mem Rect.right at *
      omega

end Tabs

/-! ### C57 and C77 -/

/-- **C77 (partial).** Tabs without a block, drawn on a row of the buffer: the area gets the style of
the tabs, the first row of the area shows the strip (every title between its paddings, the divider
between two tabs, the title of the selected tab in the highlight style), and what does not fit into the
area or the buffer is cut off. Missing: areas that begin left of or outside the rows of the buffer,
clusters without width, and double-width clusters that the right edge would cut in half, for which the
code does not have it (`C57_outside_false`, `C57_wide_false`, `C57_zero_width_false`). -/
theorem C77_strip_partial (u : Uniseg) (t : Tabs) (hb : t.block = none) (ht : t.AllVisible u) (area : Rect)
    (b : Buffer) (wf : b.WF) (hw : 0 ≤ area.width) (hh : 0 ≤ area.height) (hx : b.area.x ≤ area.x)
    (hy : b.area.y ≤ area.y) (hy' : area.y < b.area.bottom)
    (hc : CutsAt (widthsOf u t.texts) (max 0 (min area.right b.area.right - area.x))) :
    ∃ b', t.render u area b = some b' ∧ b'.area = b.area ∧ b'.WF ∧
      (∀ q, area.contains q = false → b'.cellAt q = b.cellAt q) ∧
      (∀ q, area.contains q = true → q.y ≠ area.y →
        b'.cellAt q = (b.cellAt q).map (Cell.setStyle t.style)) ∧
      ∀ q, area.contains q = true → q.y = area.y →
        b'.cellAt q = (b.cellAt q).map fun c =>
          match (t.strip u)[(q.x - area.x).toNat]? with
            | some f => f (c.setStyle t.style)
            | none => c.setStyle t.style := by
  unfold Tabs.render
  rw [hb]
  obtain ⟨b1, e1, a1, wf1, c1⟩ := setStyle_cells wf area t.style
  obtain ⟨b2, e2, a2, wf2, c2⟩ := t.renderTabs_spec u ht area b1 wf1 hw hh (by rw [a1]; exact hx)
    (by rw [a1]; exact hy) (by rw [a1]; exact hy') (by rw [a1]; exact hc)
  refine ⟨b2, ?_, a2.trans a1, wf2, fun q hq => ?_, fun q hq hne => ?_, fun q hq he => ?_⟩
  · rw [e1]; exact e2
  · rw [c2, if_neg (by simp [hq]), c1, if_neg (by simp [hq])]
  · rw [c2, if_neg (by simp [hne]), c1, if_pos hq]
  · rw [c2, if_pos ⟨hq, he⟩, c1, if_pos hq]
    cases (t.strip u)[(q.x - area.x).toNat]? with
    | none => rfl
    | some f => simp only [Option.map_map]; rfl

/-- **C57 (partial).** Tabs without a block, drawn on a row of the buffer, do not panic and change only
cells of their area in the buffer. -/
theorem C57_confined_partial (u : Uniseg) (t : Tabs) (hb : t.block = none) (ht : t.AllVisible u) (area : Rect)
    (b : Buffer) (wf : b.WF) (hw : 0 ≤ area.width) (hh : 0 ≤ area.height) (hx : b.area.x ≤ area.x)
    (hy : b.area.y ≤ area.y) (hy' : area.y < b.area.bottom)
    (hc : CutsAt (widthsOf u t.texts) (max 0 (min area.right b.area.right - area.x))) :
    Confined b (t.render u area b) (Clipped b area) := by
  obtain ⟨b', e, a, wf', c, _⟩ := C77_strip_partial u t hb ht area b wf hw hh hx hy hy' hc
  refine ⟨b', e, a, wf', fun q hq => ?_⟩
  by_cases hq2 : area.contains q = true
  · have : b.area.contains q = false := by
      rw [← Bool.not_eq_true]; intro h; exact hq ⟨hq2, h⟩
    rw [cellAt_none (by rw [a]; exact this), cellAt_none this]
  · exact c q (by simpa using hq2)

/-- Tabs in a block: the strip is drawn in the inside of the block and nothing but the area changes. -/
theorem C57_block_partial (u : Uniseg) (t : Tabs) (block : Block) (hb : t.block = some block)
    (ht : t.AllVisible u) (area : Rect) (b : Buffer) (wf : b.WF) (hin : Inside b area) (hx : 0 ≤ area.x)
    (hpad : 0 ≤ block.padding.left ∧ 0 ≤ block.padding.right ∧ 0 ≤ block.padding.top ∧ 0 ≤ block.padding.bottom)
    (hc : CutsAt (widthsOf u t.texts) (block.inner area).width) :
    ∃ b', t.render u area b = some b' ∧ b'.area = b.area ∧ b'.WF ∧
      (∀ q, area.contains q = false → b'.cellAt q = b.cellAt q) ∧
      ∀ q, (block.inner area).contains q = true → q.y = (block.inner area).y →
        b'.cellAt q = (b.cellAt q).map fun c =>
          match (t.strip u)[(q.x - (block.inner area).x).toNat]? with
            | some f => f ((c.setStyle t.style).setStyle block.style)
            | none => (c.setStyle t.style).setStyle block.style := by
  have hin' := hin
  obtain ⟨h1, h2, h3, h4, h5, h6⟩ := hin'
  obtain ⟨b1, e1, a1, wf1, c1⟩ := setStyle_cells wf area t.style
  obtain ⟨b2, e2, a2, wf2, c2, c2'⟩ := C43_frame_only_partial u block area b1 wf1
    (by unfold Inside at *; rw [a1]; exact hin) hx
  have hinner := C42_inner_inside block area h5 h6 hpad
  unfold Tabs.render
  rw [hb, e1]
  simp only [Option.bind_eq_bind, Option.bind_some]
  rw [e2]
  simp only [Option.bind_some]
  by_cases hempty : (block.inner area).isEmpty = true
  · unfold Tabs.renderTabs
    rw [if_pos hempty]
    refine ⟨b2, rfl, a2.trans a1, wf2, fun q hq => ?_, fun q hq _ => ?_⟩
    · rw [c2 q hq, c1, if_neg (by simp [hq])]
    · exfalso
      rw [Rect.contains_iff] at hq
      unfold Rect.Mem at hq
      simp only [Rect.isEmpty, Bool.or_eq_true, beq_iff_eq] at hempty
      omega
  · have hnn := block.inner_eq area h5 h6
    have hw : 0 ≤ (block.inner area).width := by rw [hnn]; simp only; omega
    have hh : 0 ≤ (block.inner area).height := by rw [hnn]; simp only; omega
    simp only [Rect.isEmpty, Bool.or_eq_true, beq_iff_eq, not_or] at hempty
    have ha2 : b2.area = b.area := a2.trans a1
    have hfirst := hinner ⟨(block.inner area).x, (block.inner area).y⟩
      (by rw [Rect.contains_iff]; unfold Rect.Mem; simp only; omega)
    have hlast := hinner ⟨(block.inner area).x + (block.inner area).width - 1, (block.inner area).y⟩
      (by rw [Rect.contains_iff]; unfold Rect.Mem; simp only; omega)
    have hf := hfirst.1
    have hl := hlast.1
    rw [Rect.contains_iff] at hf hl
    unfold Rect.Mem at hf hl
    simp only at hf hl
    obtain ⟨b3, e3, a3, wf3, c3⟩ := t.renderTabs_spec u ht (block.inner area) b2 wf2 hw hh
      (by rw [ha2]; omega) (by rw [ha2]; omega) (by rw [ha2]; unfold Rect.bottom; omega)
      (by
        rw [ha2]
        have : max 0 (min (block.inner area).right b.area.right - (block.inner area).x) = (block.inner area).width := by
          unfold Rect.right; omega
        rw [this]; exact hc)
    refine ⟨b3, e3, a3.trans ha2, wf3, fun q hq => ?_, fun q hq hqy => ?_⟩
    · rw [c3, if_neg, c2 q hq, c1, if_neg (by simp [hq])]
      rintro ⟨hq2, _⟩
      rw [(hinner q hq2).1] at hq
      cases hq
    · obtain ⟨i1, i2⟩ := hinner q hq
      rw [c3, if_pos ⟨hq, hqy⟩, c2' q i1 i2, c1, if_pos i1]
      cases (t.strip u)[(q.x - (block.inner area).x).toNat]? with
      | none => simp only [Option.map_map]; rfl
      | some f => simp only [Option.map_map]; rfl

/-- Text of single-width clusters can be cut at every column. -/
theorem C57_narrow_cuts (u : Uniseg) (t : Tabs) (h : ∀ v ∈ t.texts, ∀ g ∈ u.graphemes v, u.width g = 1) (n : Int) :
    CutsAt (widthsOf u t.texts) n := by
  apply CutsAt.of_ones
  intro w hw
  unfold widthsOf at hw
  obtain ⟨v, hv, hm⟩ := List.mem_flatMap.1 hw
  obtain ⟨g, hg, rfl⟩ := List.mem_map.1 hm
  exact h v hv g hg

/-- The symbols of a text of single-width clusters. -/
theorem columnsOf_symbols (u : Uniseg) (style : Style) (v : String) (h : ∀ g ∈ u.graphemes v, u.width g = 1)
    (c : Cell) : (columnsOf u style v).map (fun f => (f c).symbol) = u.graphemes v := by
  unfold columnsOf
  generalize u.graphemes v = gs at h
  induction gs with
  | nil => rfl
  | cons g gs ih =>
    have := ih (fun g hg => h g (List.mem_cons_of_mem _ hg))
    rw [List.flatMap_cons, List.map_append, this, h g List.mem_cons_self]
    simp [Cell.put, Cell.setSymbol, Cell.setStyle]

theorem line_symbols (u : Uniseg) (l : Line) (h : ∀ s ∈ l.spans, ∀ g ∈ u.graphemes s.content, u.width g = 1)
    (c : Cell) : (l.columns u).map (fun f => (f c).symbol) = (l.spans.map Span.content).flatMap u.graphemes := by
  unfold Line.columns
  generalize l.spans = ss at h
  induction ss with
  | nil => rfl
  | cons s ss ih =>
    rw [List.flatMap_cons, List.map_append, columnsOf_symbols u _ _ (h s List.mem_cons_self),
      ih (fun s' hs' => h s' (List.mem_cons_of_mem _ hs')), List.map_cons, List.flatMap_cons]

namespace Tabs

theorem stripFrom_symbols (u : Uniseg) (t : Tabs) (c : Cell) (hD : ∀ g ∈ u.graphemes t.divider.content, u.width g = 1)
    (hL : ∀ s ∈ t.paddingLeft.spans, ∀ g ∈ u.graphemes s.content, u.width g = 1)
    (hR : ∀ s ∈ t.paddingRight.spans, ∀ g ∈ u.graphemes s.content, u.width g = 1) :
    ∀ (ls : List Line) (i : Nat), (∀ l ∈ ls, ∀ s ∈ l.spans, ∀ g ∈ u.graphemes s.content, u.width g = 1) →
      (t.stripFrom u ls i).map (fun f => (f c).symbol) =
        (List.intercalate [t.divider.content] (ls.map fun l =>
          (t.paddingLeft.spans ++ l.spans ++ t.paddingRight.spans).map Span.content)).flatMap u.graphemes := by
  have htab : ∀ (l : Line) (i : Nat), (∀ s ∈ l.spans, ∀ g ∈ u.graphemes s.content, u.width g = 1) →
      (t.tab u i l).map (fun f => (f c).symbol) =
        ((t.paddingLeft.spans ++ l.spans ++ t.paddingRight.spans).map Span.content).flatMap u.graphemes := by
    intro l i hl
    have hmid : (if t.selected = some (i : Int) then
        (l.columns u).map (fun f c => (f c).setStyle t.highlightStyle) else l.columns u).map
          (fun f => (f c).symbol) = (l.spans.map Span.content).flatMap u.graphemes := by
      rw [← line_symbols u l hl c]
      split_ifs
      · rw [List.map_map]; rfl
      · rfl
    unfold tab
    rw [List.map_append, List.map_append, hmid, line_symbols u _ hL, line_symbols u _ hR]
    simp [List.flatMap_append]
  intro ls
  induction ls with
  | nil => intro _ _; rfl
  | cons l ls ih =>
    intro i hl
    rcases ls with _ | ⟨l', rest⟩
    · rw [stripFrom, htab l i (hl l List.mem_cons_self)]
      simp [List.intercalate]
    · rw [stripFrom, List.map_append, List.map_append, htab l i (hl l List.mem_cons_self),
        columnsOf_symbols u _ _ hD, ih (i + 1) (fun l hl' => hl l (List.mem_cons_of_mem _ hl'))]
      simp only [List.map_cons, List.intercalate, List.intersperse_cons_cons, List.flatten_cons,
        List.flatMap_append, List.flatMap_cons, List.flatMap_nil, List.append_nil, List.append_assoc]

end Tabs

/-- **C77 (partial).** The symbols of the row, for texts of single-width clusters: the clusters of all
texts of the strip, one after the other from the left edge of the area, as far as the area and the buffer
reach. -/
theorem C77_symbols_partial (u : Uniseg) (t : Tabs) (hb : t.block = none)
    (hL : ∀ s ∈ t.paddingLeft.spans, ∀ g ∈ u.graphemes s.content, u.width g = 1)
    (hR : ∀ s ∈ t.paddingRight.spans, ∀ g ∈ u.graphemes s.content, u.width g = 1)
    (hD : ∀ g ∈ u.graphemes t.divider.content, u.width g = 1)
    (hT : ∀ l ∈ t.titles, ∀ s ∈ l.spans, ∀ g ∈ u.graphemes s.content, u.width g = 1) (area : Rect)
    (b : Buffer) (wf : b.WF) (hw : 0 ≤ area.width) (hh : 0 ≤ area.height) (hx : b.area.x ≤ area.x)
    (hy : b.area.y ≤ area.y) (hy' : area.y < b.area.bottom) :
    ∃ b', t.render u area b = some b' ∧
      ∀ q, b.area.contains q = true → b'.symbolAt q =
        if area.contains q = true ∧ q.y = area.y then
          ((t.texts.flatMap u.graphemes)[(q.x - area.x).toNat]?).or (b.symbolAt q)
        else b.symbolAt q := by
  have hcut : CutsAt (widthsOf u t.texts) (max 0 (min area.right b.area.right - area.x)) := by
    rw [← t.texts_widths]
    apply CutsAt.of_ones
    have hs : ∀ ss : List Span, (∀ s ∈ ss, ∀ g ∈ u.graphemes s.content, u.width g = 1) →
        ∀ w ∈ spanWidths u ss, w = 1 := by
      intro ss h w hw
      unfold spanWidths widthsOf at hw
      obtain ⟨v, hv, hm⟩ := List.mem_flatMap.1 hw
      obtain ⟨s, hs, rfl⟩ := List.mem_map.1 hv
      obtain ⟨g, hg, rfl⟩ := List.mem_map.1 hm
      exact h s hs g hg
    have htab : ∀ l ∈ t.titles, ∀ w ∈ t.tabWidths u l, w = 1 := by
      intro l hl w hw
      unfold Tabs.tabWidths at hw
      rcases List.mem_append.1 hw with h | h
      · exact hs _ hL w h
      · rcases List.mem_append.1 h with h | h
        · exact hs _ (hT l hl) w h
        · exact hs _ hR w h
    generalize t.titles = ls at htab
    induction ls with
    | nil => intro w hw; cases hw
    | cons l ls ih =>
      intro w hw
      rcases ls with _ | ⟨l', rest⟩
      · exact htab l List.mem_cons_self w hw
      · rw [Tabs.widths] at hw
        rcases List.mem_append.1 hw with h | h
        · exact htab l List.mem_cons_self w h
        · rcases List.mem_append.1 h with h | h
          · obtain ⟨g, hg, rfl⟩ := List.mem_map.1 h
            exact hD g hg
          · exact ih (fun l hl => htab l (List.mem_cons_of_mem _ hl)) w h
  have hone : ∀ v, (∀ g ∈ u.graphemes v, u.width g = 1) → Visible u v := fun v h g hg => by rw [h g hg]
  obtain ⟨b', e, a, wf', c1, c2, c3⟩ := C77_strip_partial u t hb
    ⟨fun s hs => hone _ (hL s hs), fun s hs => hone _ (hR s hs), hone _ hD, fun l hl s hs => hone _ (hT l hl s hs)⟩
    area b wf hw hh hx hy hy' hcut
  refine ⟨b', e, fun q hq => ?_⟩
  unfold Buffer.symbolAt
  obtain ⟨c, hcell⟩ := wf.cellAt_isSome hq
  by_cases hin : area.contains q = true
  · by_cases hqy : q.y = area.y
    · rw [if_pos ⟨hin, hqy⟩, c3 q hin hqy, hcell]
      have hsym := t.stripFrom_symbols u (c.setStyle t.style) hD hL hR t.titles 0 hT
      rw [← Tabs.strip_eq] at hsym
      have := congrArg (fun l : List String => l[(q.x - area.x).toNat]?) hsym
      simp only [List.getElem?_map] at this
      rw [show t.texts.flatMap u.graphemes = (List.intercalate [t.divider.content] (t.titles.map fun l =>
          (t.paddingLeft.spans ++ l.spans ++ t.paddingRight.spans).map Span.content)).flatMap u.graphemes from rfl,
        ← this]
      cases (t.strip u)[(q.x - area.x).toNat]? <;> rfl
    · rw [if_neg (fun h => hqy h.2), c2 q hin hqy, hcell]; rfl
  · rw [if_neg (fun h => hin h.1), c1 q (by simpa using hin)]

/-- Selecting a tab that does not exist is the same as selecting none. -/
theorem C77_select_outside (u : Uniseg) (t : Tabs) (index : Int) (h : index < 0 ∨ t.titles.length ≤ index) (area : Rect)
    (b : Buffer) : (t.select index).render u area b = t.unselect.render u area b := by
  have hloop : ∀ (ls : List Line) (i : Nat) (area : Rect) (x : Int) (b : Buffer), i + ls.length ≤ t.titles.length →
      (t.select index).loop u area ls i x b = t.unselect.loop u area ls i x b := by
    intro ls
    induction ls with
    | nil => intro i area x b _; rfl
    | cons l ls ih =>
      intro i area x b hlen
      simp only [List.length_cons] at hlen
      have hi : (i : Int) ≠ index := by omega
      have hh : ∀ x y z b, (t.select index).highlight i x y z b = t.unselect.highlight i x y z b := by
        intro x y z b
        unfold Tabs.highlight Tabs.select Tabs.unselect
        simp [hi.symm]
      unfold Tabs.loop
      simp only [hh, ih (i + 1) area _ _ (by omega)]
      rfl
  have hrt : ∀ area b, (t.select index).renderTabs u area b = t.unselect.renderTabs u area b := by
    intro area b
    unfold Tabs.renderTabs
    rw [show (t.select index).titles = t.titles from rfl, show t.unselect.titles = t.titles from rfl,
      hloop _ _ _ _ _ (by omega)]
  unfold Tabs.render
  simp only [hrt]
  rfl

/-! ### Where the code does not have C57 -/

/-- **C57 (negation).** Drawing tabs in an area below the buffer panics, although nothing would have to be
drawn. -/
theorem C57_outside_false :
    ∃ (t : Tabs) (area : Rect) (b : Buffer), b.WF ∧ t = Tabs.new [newLineStr ['a']] ∧ area = ⟨0, 1, 3, 1⟩ ∧
      b.area = ⟨0, 0, 3, 1⟩ ∧ t.render Uniseg.simple area b = none :=
  ⟨_, _, ⟨⟨0, 0, 3, 1⟩, List.replicate 3 Cell.empty⟩, ⟨by decide, by decide, by decide⟩, rfl, rfl, rfl,
    by decide +kernel⟩

/-- **C57 (negation).** A wide symbol at the right edge of the area changes the cell behind the area. -/
theorem C57_wide_false :
    ∃ (t : Tabs) (area : Rect) (b b' : Buffer) (q : Position), b.WF ∧ t = Tabs.new [newLineStr ['世']] ∧
      area = ⟨0, 0, 2, 1⟩ ∧ t.render Uniseg.simple area b = some b' ∧ area.contains q = false ∧
      b'.symbolAt q ≠ b.symbolAt q :=
  ⟨_, _, ⟨⟨0, 0, 3, 1⟩, List.replicate 3 (Cell.new "x")⟩,
    ((Tabs.new [newLineStr ['世']]).render Uniseg.simple ⟨0, 0, 2, 1⟩
      ⟨⟨0, 0, 3, 1⟩, List.replicate 3 (Cell.new "x")⟩).getD default, ⟨2, 0⟩,
    ⟨by decide, by decide, by decide⟩, rfl, rfl, by decide +kernel, by decide, by decide +kernel⟩

/-- **C57 (negation).** Symbols without width run over the right edge of the buffer and panic. -/
theorem C57_zero_width_false :
    ∃ (t : Tabs) (area : Rect) (b : Buffer), b.WF ∧ b.area = area ∧
      t = Tabs.new [newLineStr [Char.ofNat 1, Char.ofNat 1]] ∧ t.render Uniseg.simple area b = none :=
  ⟨_, ⟨0, 0, 2, 1⟩, ⟨⟨0, 0, 2, 1⟩, List.replicate 2 Cell.empty⟩, ⟨by decide, by decide, by decide⟩, rfl, rfl,
    by decide +kernel⟩

/-- Two tabs, the second selected and cut by the area. -/
def twoTabs : Tabs := (Tabs.new [newLineStr ['a', 'b'], newLineStr ['c', 'd']]).select 1

example : twoTabs.AllVisible Uniseg.simple ∧ twoTabs.block = none ∧
    twoTabs.texts = [" ", "ab", " ", "│", " ", "cd", " "] := by
  refine ⟨?_, by decide +kernel, by decide +kernel⟩
  unfold Tabs.AllVisible Visible
  decide +kernel

example : CutsAt (widthsOf Uniseg.simple twoTabs.texts) 7 :=
  C57_narrow_cuts _ _ (by decide +kernel) _

example : ((twoTabs.render Uniseg.simple ⟨0, 0, 7, 1⟩ ⟨⟨0, 0, 8, 1⟩, List.replicate 8 (Cell.new "x")⟩).map
    fun b => b.content.map fun c => (c.symbol, c.modifier)) =
      some [(" ", 0), ("a", 0), ("b", 0), (" ", 0), ("│", 0), (" ", 0), ("c", Modifier.reversed), ("x", 0)] := by
  decide +kernel

end Bento
