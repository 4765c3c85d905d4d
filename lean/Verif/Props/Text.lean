import Verif.Lemmas.TextRow
import Verif.Props.Style
import Verif.Lemmas.Scan
import Verif.Lemmas.Drawable

/-!
# Property theorems: spans, lines and texts
-/

namespace Bento

open Buffer

/-! ### C32 — drawing stays in the area -/

theorem C32_span_confined (u : Uniseg) (s : Span) (area : Rect) (b : Buffer) (wf : b.WF) :
    Confined b (s.render u area b) (Clipped b area) := span_render_confined u s area b wf

theorem C32_line_confined (u : Uniseg) (l : Line) (area : Rect) (b : Buffer) (wf : b.WF) :
    Confined b (l.render u area b) (Clipped b area) := line_render_confined u l area _ b wf

theorem C32_text_confined (u : Uniseg) (t : Text) (area : Rect) (b : Buffer) (wf : b.WF) :
    Confined b (t.render u area b) (Clipped b area) := text_render_confined u t area b wf

example : Confined ⟨⟨0, 0, 3, 1⟩, List.replicate 3 Cell.empty⟩
    ((newTextStr "a long text\nof two lines".toList).render Uniseg.simple ⟨1, 0, 9, 9⟩ ⟨⟨0, 0, 3, 1⟩, List.replicate 3 Cell.empty⟩)
    (Clipped ⟨⟨0, 0, 3, 1⟩, List.replicate 3 Cell.empty⟩ ⟨1, 0, 9, 9⟩) :=
  C32_text_confined _ _ _ _ ⟨by decide, by decide, by decide⟩

/-! ### C33 — where a line is shown -/

/-- The two steps of drawing a line: the line's style, then its text. -/
theorem line_cells {u : Uniseg} (hu : u.Lawful) (hs : u.Suffix) (l : Line) (parent : Alignment)
    (hl : l.NarrowText u) (area : Rect) (b : Buffer) (wf : b.WF) (hin : Inside b area)
    (hh : 0 < area.height) (hw0 : 0 < area.width) (hn : l.clusters u ≠ []) :
    ∃ b1 b' : Buffer, b1.area = b.area ∧ b1.WF ∧
      (∀ q, b1.cellAt q =
        if (⟨area.x, area.y, min area.width (l.clusters u).length, 1⟩ : Rect).contains q = true then
          (b.cellAt q).map (Cell.setStyle l.style) else b.cellAt q) ∧
      l.renderAligned u area parent b = some b' ∧ b'.area = b.area ∧ b'.WF ∧
      ∀ q, b'.cellAt q = b1.overlay
        (area.x + (if (l.clusters u).length ≤ area.width.toNat then
          ((l.alignmentIn parent).before (area.width.toNat - (l.clusters u).length) : Nat) else 0 : Nat))
        area.y (area.x + area.width)
        ((l.spans.flatMap (Span.puts u)).drop (if (l.clusters u).length ≤ area.width.toNat then 0
          else (l.alignmentIn parent).before ((l.clusters u).length - area.width.toNat))) q := by
  obtain ⟨hw, hlen⟩ := line_clusters_length hl
  have hin' := hin
  obtain ⟨h1, h2, h3, h4, h5, h6⟩ := hin'
  obtain ⟨b1, e1, a1, wf1, c1⟩ := setStyle_cells wf
    ⟨area.x, area.y, min area.width (l.clusters u).length, 1⟩ l.style
  have hpos : (l.clusters u).length ≠ 0 := fun h => hn (List.eq_nil_of_length_eq_zero h)
  unfold Line.renderAligned
  simp only [hin.intersection, hw]
  rw [if_neg (by simp [Rect.isEmpty]; omega), if_neg (by omega), e1]
  simp only [Option.bind_eq_bind, Option.bind_some]
  by_cases hfit : ((l.clusters u).length : Int) ≤ area.width
  · rw [if_pos hfit, if_pos (by omega), if_pos (by omega)]
    obtain ⟨d, hd⟩ : ∃ d : Nat, area.width - (l.clusters u).length = d :=
      ⟨(area.width - (l.clusters u).length).toNat, by omega⟩
    rw [hd, share_eq, show area.width.toNat - (l.clusters u).length = d by omega]
    have hbd : (l.alignmentIn parent).before d ≤ d := by
      unfold Alignment.before; cases l.alignmentIn parent <;> simp only <;> omega
    obtain ⟨g1, g2⟩ := afterWidth_narrow hu hs l.spans 0 hl
    obtain ⟨b2, e2, a2, wf2, c2⟩ := renderAll_narrow hu (area.x + area.width)
      (Span.afterWidth u l.spans (0 : Nat))
      ((⟨area.x, area.y, area.width, 1⟩ : Rect).indentX ((l.alignmentIn parent).before d : Nat)) b1 wf1
      (by
        left
        unfold Inside Rect.indentX
        simp only [a1]
        omega) (by show (1 : Int) ≠ 0; omega) g1
    refine ⟨b1, b2, a1, wf1, c1, e2, a2.trans a1, wf2, fun q => ?_⟩
    rw [g2] at c2
    exact c2 q
  · rw [if_neg hfit, if_neg (by omega), if_neg (by omega)]
    obtain ⟨d, hd⟩ : ∃ d : Nat, ((l.clusters u).length : Int) - area.width = d :=
      ⟨((l.clusters u).length - area.width).toNat, by omega⟩
    rw [hd, share_eq, show (l.clusters u).length - area.width.toNat = d by omega]
    obtain ⟨g1, g2⟩ := afterWidth_narrow hu hs l.spans ((l.alignmentIn parent).before d) hl
    obtain ⟨b2, e2, a2, wf2, c2⟩ := renderAll_narrow hu (area.x + area.width)
      (Span.afterWidth u l.spans ((l.alignmentIn parent).before d : Nat))
      (⟨area.x, area.y, area.width, 1⟩ : Rect) b1 wf1
      (by
        left
        refine ⟨?_, rfl⟩
        unfold Inside
        simp only [a1]
        omega) (by show (1 : Int) ≠ 0; omega) g1
    refine ⟨b1, b2, a1, wf1, c1, e2, a2.trans a1, wf2, fun q => ?_⟩
    rw [g2] at c2
    rw [c2 q]
    simp

theorem line_shown {u : Uniseg} (hu : u.Lawful) (hs : u.Suffix) (l : Line) (parent : Alignment)
    (hl : l.NarrowText u) (area : Rect) (b : Buffer) (wf : b.WF) (hin : Inside b area)
    (hh : 0 < area.height) :
    ∃ b', l.renderAligned u area parent b = some b' ∧ b'.area = b.area ∧ b'.WF ∧
      ∀ q, b'.symbolAt q =
        if q.y = area.y ∧ area.x ≤ q.x ∧ q.x < area.x + area.width then
          ((l.alignmentIn parent).shown area.width.toNat (l.clusters u) (q.x - area.x).toNat).or
            (b.symbolAt q)
        else b.symbolAt q := by
  obtain ⟨hw, hlen⟩ := line_clusters_length hl
  have hin' := hin
  obtain ⟨h1, h2, h3, h4, h5, h6⟩ := hin'
  by_cases he : area.isEmpty = true
  · refine ⟨b, ?_, rfl, wf, fun q => ?_⟩
    · unfold Line.renderAligned
      simp only [hin.intersection]
      rw [if_pos he]
    · rw [if_neg]
      simp [Rect.isEmpty] at he
      omega
  by_cases hz : l.clusters u = []
  · refine ⟨b, ?_, rfl, wf, fun q => ?_⟩
    · unfold Line.renderAligned
      simp only [hin.intersection, hw]
      rw [if_neg he, if_pos (by rw [hz]; rfl)]
    · rw [hz]
      unfold Alignment.shown
      simp
  have hw0 : 0 < area.width := by simp [Rect.isEmpty] at he; omega
  obtain ⟨b1, b', a1, wf1, c1, e, a2, wf2, c2⟩ :=
    line_cells hu hs l parent hl area b wf hin hh hw0 hz
  have hs1 := setStyle_symbols c1
  refine ⟨b', e, a2, wf2, fun q => ?_⟩
  have hrow : ∀ q : Position, q.y = area.y → area.x ≤ q.x → q.x < area.x + area.width →
      b1.area.contains q = true := by
    intro q hy hx hx'
    rw [a1, Rect.contains_iff]
    unfold Rect.Mem
    omega
  unfold Alignment.shown
  by_cases hfit : (l.clusters u).length ≤ area.width.toNat
  · simp only [if_pos hfit, List.drop_zero] at c2 ⊢
    generalize (l.alignmentIn parent).before (area.width.toNat - (l.clusters u).length) = i at *
    rw [overlay_symbols wf1 hlen (flatMap_puts_symbol l)
      (fun q hy hx hx' => hrow q hy (by omega) hx') c2 q, hs1 q]
    by_cases hq : q.y = area.y ∧ area.x ≤ q.x ∧ q.x < area.x + area.width
    · rw [if_pos hq]
      by_cases hk : (q.x - area.x).toNat < i
      · rw [if_neg (by omega), if_pos hk]; rfl
      · rw [if_pos (by omega), if_neg hk,
          show (q.x - (area.x + (i : Nat))).toNat = (q.x - area.x).toNat - i by omega]
    · rw [if_neg hq, if_neg (by omega)]
  · simp only [if_neg hfit] at c2 ⊢
    generalize (l.alignmentIn parent).before ((l.clusters u).length - area.width.toNat) = i at *
    rw [overlay_symbols (cs := (l.clusters u).drop i) wf1
      (by rw [List.length_drop, List.length_drop, hlen])
      (by
        intro j f s hf hs
        rw [List.getElem?_drop] at hf hs
        exact flatMap_puts_symbol l _ f s hf hs) (fun q hy hx hx' => hrow q hy (by omega) hx') c2 q,
      hs1 q]
    rw [List.getElem?_drop]
    simp only [Int.natCast_zero, Int.add_zero, Nat.add_comm]

/-- A line of single-width text shows, in each column of the first row of its area, what its alignment
says, and nothing else changes its symbol. -/
theorem C33_line_shown {u : Uniseg} (hu : u.Lawful) (hs : u.Suffix) (l : Line)
    (hl : l.NarrowText u) (area : Rect) (b : Buffer) (wf : b.WF) (hin : Inside b area)
    (hh : 0 < area.height) :
    ∃ b', l.render u area b = some b' ∧
      ∀ q, b'.symbolAt q =
        if q.y = area.y ∧ area.x ≤ q.x ∧ q.x < area.x + area.width then
          (l.alignment.shown area.width.toNat (l.clusters u) (q.x - area.x).toNat).or (b.symbolAt q)
        else b.symbolAt q := by
  obtain ⟨b', e, _, _, h⟩ := line_shown hu hs l .none hl area b wf hin hh
  refine ⟨b', e, ?_⟩
  have : l.alignmentIn .none = l.alignment := by
    unfold Line.alignmentIn; split_ifs with h <;> simp [h]
  rwa [this] at h

/-- A line that fits is shown completely, after the free columns of its alignment. -/
theorem C33_fits (a : Alignment) (w : Nat) (cs : List String) (h : cs.length ≤ w) (k : Nat) :
    a.shown w cs k =
      if (match a with | .center => (w - cs.length) / 2 | .right => w - cs.length | _ => 0) ≤ k then
        cs[k - (match a with | .center => (w - cs.length) / 2 | .right => w - cs.length | _ => 0)]?
      else none := by
  unfold Alignment.shown Alignment.before
  rw [if_pos h]
  cases a <;> simp only <;> split_ifs <;> first | rfl | omega

example : Alignment.shown .center 8 ["a", "b", "c"] 3 = some "b" :=
  (C33_fits .center 8 ["a", "b", "c"] (by decide) 3).trans (by decide)

/-- A line that does not fit fills all columns with consecutive symbols. -/
theorem C33_cut (a : Alignment) (w : Nat) (cs : List String) (h : w < cs.length) (k : Nat) (hk : k < w) :
    a.shown w cs k = (match a with
      | .center => cs[k + (cs.length - w) / 2]?
      | .right => cs[k + (cs.length - w)]?
      | _ => cs[k]?) ∧ (a.shown w cs k).isSome = true := by
  unfold Alignment.shown Alignment.before
  rw [if_neg (by omega)]
  cases a <;> refine ⟨rfl, ?_⟩ <;> simp only <;> rw [List.getElem?_eq_getElem (by omega)] <;> rfl

example : Alignment.shown .right 2 ["a", "b", "c"] 1 = some "c" :=
  (C33_cut .right 2 ["a", "b", "c"] (by decide) 1 (by decide)).1

theorem rows_cons (r : Rect) (h : 0 < r.height) :
    r.rows = ⟨r.x, r.y, r.width, 1⟩ :: (⟨r.x, r.y + 1, r.width, r.height - 1⟩ : Rect).rows := by
  rw [C02_rows_eq, C02_rows_eq]
  obtain ⟨n, hn⟩ : ∃ n : Nat, r.height = (n : Int) + 1 := ⟨(r.height - 1).toNat, by omega⟩
  simp only [hn]
  rw [show ((n : Int) + 1).toNat = n + 1 by omega, show ((n : Int) + 1 - 1).toNat = n by omega,
    List.range_succ_eq_map, List.map_cons, List.map_map]
  congr 1
  · simp
  · apply List.map_congr_left
    intro i _
    simp only [Function.comp, Rect.mk.injEq, true_and, and_true]
    push_cast
    omega

theorem renderLines_shown {u : Uniseg} (hu : u.Lawful) (hs : u.Suffix) (parent : Alignment) :
    ∀ (ls : List Line) (area : Rect) (b : Buffer), b.WF → Inside b area →
      (∀ l ∈ ls, l.NarrowText u) →
      ∃ b', Text.renderLines u parent ls area.rows b = some b' ∧ b'.area = b.area ∧ b'.WF ∧
        ∀ q, b'.symbolAt q =
          if area.contains q = true then
            (match ls[(q.y - area.y).toNat]? with
              | some l => ((l.alignmentIn parent).shown area.width.toNat (l.clusters u)
                  (q.x - area.x).toNat).or (b.symbolAt q)
              | none => b.symbolAt q)
          else b.symbolAt q := by
  intro ls
  induction ls with
  | nil =>
    intro area b wf _ _
    refine ⟨b, by unfold Text.renderLines; rfl, rfl, wf, fun q => ?_⟩
    simp
  | cons l ls ih =>
    intro area b wf hin hn
    have hin' := hin
    obtain ⟨h1, h2, h3, h4, h5, h6⟩ := hin'
    by_cases hh : 0 < area.height
    · rw [rows_cons area hh]
      obtain ⟨b1, e1, a1, wf1, c1⟩ := line_shown hu hs l parent (hn l List.mem_cons_self)
        ⟨area.x, area.y, area.width, 1⟩ b wf (by unfold Inside; simp only; omega) (by simp)
      obtain ⟨b2, e2, a2, wf2, c2⟩ := ih ⟨area.x, area.y + 1, area.width, area.height - 1⟩ b1 wf1
        (by unfold Inside; simp only [a1]; omega) (fun l hl => hn l (List.mem_cons_of_mem _ hl))
      refine ⟨b2, ?_, a2.trans a1, wf2, fun q => ?_⟩
      · unfold Text.renderLines
        rw [e1]; exact e2
      · rw [c2 q, c1 q]
        simp only [Rect.contains_iff, Rect.Mem]
        by_cases hq : area.x ≤ q.x ∧ q.x < area.x + area.width ∧ area.y ≤ q.y ∧
            q.y < area.y + area.height
        · rw [if_pos hq]
          by_cases hy : q.y = area.y
          · rw [if_neg (by omega), if_pos (by omega)]
            rw [show (q.y - area.y).toNat = 0 by omega]
            rfl
          · rw [if_pos (by omega), if_neg (by omega)]
            rw [show (q.y - area.y).toNat = (q.y - (area.y + 1)).toNat + 1 by omega,
              List.getElem?_cons_succ]
        · rw [if_neg hq, if_neg (by omega), if_neg (by omega)]
    · have : area.rows = [] := by
        rw [C02_rows_eq, show area.height.toNat = 0 by omega]; rfl
      rw [this]
      refine ⟨b, by unfold Text.renderLines; rfl, rfl, wf, fun q => ?_⟩
      rw [if_neg]
      rw [Rect.contains_iff]; unfold Rect.Mem; omega

/-- Line `i` of a text is shown in row `i` of the area, at its own alignment or else that of the
text. -/
theorem C33_text_shown {u : Uniseg} (hu : u.Lawful) (hs : u.Suffix) (t : Text)
    (ht : ∀ l ∈ t.lines, l.NarrowText u) (area : Rect) (b : Buffer) (wf : b.WF)
    (hin : Inside b area) :
    ∃ b', t.render u area b = some b' ∧
      ∀ q, b'.symbolAt q =
        if area.contains q = true then
          (match t.lines[(q.y - area.y).toNat]? with
            | some l => ((if l.alignment = .none then t.alignment else l.alignment).shown
                area.width.toNat (l.clusters u) (q.x - area.x).toNat).or (b.symbolAt q)
            | none => b.symbolAt q)
        else b.symbolAt q := by
  unfold Text.render
  simp only [hin.intersection]
  obtain ⟨b1, e1, a1, wf1, c1⟩ := setStyle_cells wf area t.style
  have hs1 := setStyle_symbols c1
  obtain ⟨b2, e2, a2, wf2, c2⟩ := renderLines_shown hu hs t.alignment t.lines area b1 wf1
    (by unfold Inside at *; rw [a1]; exact hin) ht
  refine ⟨b2, by rw [e1]; exact e2, fun q => ?_⟩
  rw [c2 q, hs1 q]
  rfl

/-! ### The hypotheses are met -/

theorem simple_suffix : Uniseg.simple.Suffix := by
  intro s c rest h
  unfold Uniseg.simple at *
  simp only at *
  rcases hs : s.toList with _ | ⟨a, as⟩
  · rw [hs] at h; cases h
  · rw [hs] at h
    simp only [List.map_cons, List.cons.injEq] at h
    obtain ⟨_, rfl⟩ := h
    congr 1
    rw [String.toList_join]
    clear hs
    induction as with
    | nil => rfl
    | cons x xs ih =>
      simp only [List.map_cons, List.flatMap_cons, ih, String.toList_ofList]
      rfl

/-- A centered line of three letters in a row of eight. -/
example : ∃ (l : Line) (area : Rect) (b : Buffer), l.NarrowText Uniseg.simple ∧ b.WF ∧ Inside b area ∧
    0 < area.height ∧ l.alignment = .center ∧ (l.clusters Uniseg.simple).length = 3 ∧
    area.width = 8 :=
  ⟨⟨Style.new, [Span.new "ab", Span.new "c"], .center⟩, ⟨1, 0, 8, 1⟩,
    ⟨⟨0, 0, 10, 1⟩, List.replicate 10 Cell.empty⟩, by
      intro s hs c hc
      simp only [List.mem_cons, List.not_mem_nil, or_false] at hs
      rcases hs with rfl | rfl
      · have : c ∈ ["a", "b"] := hc
        simp only [List.mem_cons, List.not_mem_nil, or_false] at this
        rcases this with rfl | rfl <;> exact ⟨by decide +kernel, by decide +kernel⟩
      · have : c ∈ ["c"] := hc
        simp only [List.mem_cons, List.not_mem_nil, or_false] at this
        subst this
        exact ⟨by decide +kernel, by decide +kernel⟩, ⟨by decide, by decide, by decide⟩,
    by unfold Inside; decide, by decide, rfl, by decide +kernel, rfl⟩

example : Alignment.shown .center 8 ["a", "b", "c"] 2 = some "a" := by decide +kernel
example : Alignment.shown .right 2 ["a", "b", "c"] 0 = some "b" := by decide +kernel

/-! ### C31 — splitting a string into lines -/

/-- The lines of a text, joined with newlines, give back the text, and no line contains a newline; for
texts without carriage returns, without a final newline and with lines below 64 KiB. -/
theorem C31_lines_join_partial (cs : List Char) (hcr : '\r' ∉ cs) (hlast : cs.getLast? ≠ some '\n')
    (hshort : ∀ w, w <:+: cs → '\n' ∉ w → byteSize w < 65536) :
    linesString (newTextStr cs).lines = cs ∧
      ∀ l ∈ (newTextStr cs).lines, '\n' ∉ l.string.toList := by
  unfold newTextStr newLinesStr linesString
  simp only
  by_cases h : cs = []
  · subst h
    rw [if_pos rfl]
    exact ⟨by decide +kernel, by
      intro l hl
      simp only [List.mem_cons, List.not_mem_nil, or_false] at hl
      subst hl
      decide +kernel⟩
  · rw [if_neg h]
    obtain ⟨h1, h2⟩ := scanLines_join (cs.length + 1) cs (by omega) hcr hshort h hlast
    have hstr : ∀ l ∈ scanLines (cs.length + 1) cs, (newLineStr l).string.toList = l := by
      intro l hl
      obtain ⟨i1, i2, i3⟩ := h2 l hl
      exact newLineStr_string l i1 i3 (hshort l i2 i1)
    refine ⟨?_, ?_⟩
    · rw [List.map_map]
      have : (scanLines (cs.length + 1) cs).map ((fun l => l.string.toList) ∘ newLineStr) =
          (scanLines (cs.length + 1) cs).map id := List.map_congr_left hstr
      rw [this, List.map_id]
      exact h1
    · intro l hl
      obtain ⟨w, hw, rfl⟩ := List.mem_map.1 hl
      rw [hstr w hw]
      exact (h2 w hw).1

example : linesString (newTextStr "ab\n\ncd".toList).lines = "ab\n\ncd".toList := by
  refine (C31_lines_join_partial _ (by decide +kernel) (by decide +kernel) fun w hw _ => ?_).1
  obtain ⟨s, t, h⟩ := hw
  have hb : byteSize (s ++ w ++ t) = 6 := by rw [h]; decide +kernel
  simp only [byteSize, List.map_append, List.sum_append] at hb ⊢
  omega

/-- There are as many lines as newline-separated parts. -/
theorem C31_lines_count_partial (cs : List Char) (hcr : '\r' ∉ cs) (hlast : cs.getLast? ≠ some '\n')
    (hshort : ∀ w, w <:+: cs → '\n' ∉ w → byteSize w < 65536) :
    (newTextStr cs).lines.length = cs.count '\n' + 1 := by
  unfold newTextStr newLinesStr
  simp only
  by_cases h : cs = []
  · subst h; rfl
  · rw [if_neg h, List.length_map]
    exact scanLines_count (cs.length + 1) cs (by omega) hshort h hlast

example : linesString (newTextStr "ab\n\ncd".toList).lines = "ab\n\ncd".toList ∧
    (newTextStr "ab\n\ncd".toList).lines.length = 3 := by decide +kernel

/-- A line of 64 KiB or more is lost, together with everything after it. -/
theorem C31_long_line_false (pre suf : List Char) (hpre : byteSize pre ≥ 65536) (hn : '\n' ∉ pre) :
    (newTextStr (pre ++ '\n' :: suf)).lines = [] := by
  unfold newTextStr newLinesStr
  simp only
  rw [if_neg (by simp), scanLines_long _ hn hpre]
  rfl

/-- There is such a text, without carriage returns and without a final newline. -/
theorem C31_lost_false : ∃ cs : List Char, '\r' ∉ cs ∧ cs.getLast? ≠ some '\n' ∧
    linesString (newTextStr cs).lines ≠ cs := by
  have hn : '\n' ∉ List.replicate 65536 'a' := by
    intro h; have := List.eq_of_mem_replicate h; revert this; decide
  have hr : '\r' ∉ List.replicate 65536 'a' := by
    intro h; have := List.eq_of_mem_replicate h; revert this; decide
  refine ⟨List.replicate 65536 'a' ++ '\n' :: ['b'], ?_, ?_, ?_⟩
  · simp only [List.mem_append, not_or]
    exact ⟨hr, by decide⟩
  · rw [List.getLast?_append]; decide
  · rw [C31_long_line_false _ _ ?_ hn]
    · intro h
      have := congrArg List.length h
      rw [List.length_append, List.length_replicate] at this
      have h0 : (linesString []).length = 0 := by decide
      rw [h0] at this
      omega
    · unfold byteSize
      rw [List.map_replicate, List.sum_replicate_nat]
      decide

/-! ### C65 — a line's style is on its text -/

theorem overlay_bg (b : Buffer) (x y right : Int) (fs : List (Cell → Cell))
    (h : ∀ f ∈ fs, ∀ c, (f c).bg = c.bg) (q : Position) :
    (b.overlay x y right fs q).map Cell.bg = (b.cellAt q).map Cell.bg := by
  unfold Buffer.overlay
  split
  · split
    · rename_i f hf
      rw [Option.map_map, show (Cell.bg ∘ f) = Cell.bg from funext (h f (List.mem_of_getElem? hf))]
    · rfl
  · rfl

/-- A left-aligned (or overlong) line shows its text with the line's background, if its spans have
none of their own. Missing: lines that fit and are centered or right-aligned, see
`C65_line_style_false`. -/
theorem C65_line_background_partial {u : Uniseg} (hu : u.Lawful) (hs : u.Suffix) (l : Line)
    (hl : l.NarrowText u) (area : Rect) (b : Buffer) (wf : b.WF) (hin : Inside b area)
    (hh : 0 < area.height)
    (ha : l.alignment = .none ∨ l.alignment = .left ∨ area.width ≤ (l.clusters u).length)
    (bg : Color) (hbg : l.style.bg = some bg) (hspans : ∀ s ∈ l.spans, s.style.bg = none) :
    ∃ b', l.render u area b = some b' ∧
      ∀ q : Position, q.y = area.y → area.x ≤ q.x → q.x < area.x + area.width →
        (l.alignment.shown area.width.toNat (l.clusters u) (q.x - area.x).toNat).isSome = true →
        (b'.cellAt q).map Cell.bg = some bg := by
  have hin' := hin
  obtain ⟨h1, h2, h3, h4, h5, h6⟩ := hin'
  have hcol : ∀ q : Position, area.x ≤ q.x → q.x < area.x + area.width →
      (l.alignment.shown area.width.toNat (l.clusters u) (q.x - area.x).toNat).isSome = true →
      q.x < area.x + (l.clusters u).length := by
    intro q hx hx' hq
    unfold Alignment.shown at hq
    by_cases hfit : (l.clusters u).length ≤ area.width.toNat
    · rw [if_pos hfit] at hq
      have h0 : l.alignment.before (area.width.toNat - (l.clusters u).length) = 0 := by
        unfold Alignment.before
        rcases ha with ha | ha | ha
        · rw [ha]
        · rw [ha]
        · rw [show area.width.toNat - (l.clusters u).length = 0 by omega]
          cases l.alignment <;> rfl
      rw [h0, if_neg (by omega)] at hq
      obtain ⟨c, hc⟩ := Option.isSome_iff_exists.1 hq
      have := (List.getElem?_eq_some_iff.1 hc).1
      omega
    · omega
  by_cases hz : l.clusters u = []
  · obtain ⟨b', e, _⟩ := line_shown hu hs l .none hl area b wf hin hh
    refine ⟨b', e, fun q _ hx hx' hq => ?_⟩
    have hq := hcol q hx hx' hq
    rw [hz] at hq
    simp at hq
    omega
  by_cases hw0 : 0 < area.width
  swap
  · obtain ⟨b', e, _⟩ := line_shown hu hs l .none hl area b wf hin hh
    exact ⟨b', e, fun q _ _ _ hq => by omega⟩
  obtain ⟨b1, b', a1, wf1, c1, e, a2, wf2, c2⟩ :=
    line_cells hu hs l .none hl area b wf hin hh hw0 hz
  refine ⟨b', e, fun q hy hx hx' hq => ?_⟩
  have hq := hcol q hx hx' hq
  have hc1 : (b1.cellAt q).map Cell.bg = some bg := by
    rw [c1 q, if_pos (by rw [Rect.contains_iff]; unfold Rect.Mem; simp only; omega)]
    have hc : b.area.contains q = true := by
      rw [Rect.contains_iff]; unfold Rect.Mem; omega
    obtain ⟨c, hc⟩ := wf.cellAt_isSome hc
    rw [hc]
    simp [Cell.setStyle, hbg]
  have hkeep : ∀ f ∈ l.spans.flatMap (Span.puts u), ∀ c, (f c).bg = c.bg := by
    intro f hf c
    obtain ⟨s, hs, hf⟩ := List.mem_flatMap.1 hf
    unfold Span.puts at hf
    obtain ⟨x, _, rfl⟩ := List.mem_map.1 hf
    simp [Cell.put, Cell.setStyle, Cell.setSymbol, Style.patched, Style.new, hspans s hs]
  rw [c2 q, overlay_bg _ _ _ _ _ (fun f hf => hkeep f (List.mem_of_mem_drop hf))]
  exact hc1

example : ∃ b', (Line.render Uniseg.simple ⟨{ Style.new with bg := some (.ansi 1) }, [Span.new "ab"], .none⟩ ⟨0, 0, 4, 1⟩
      ⟨⟨0, 0, 4, 1⟩, List.replicate 4 Cell.empty⟩) = some b' ∧ (b'.cellAt ⟨1, 0⟩).map Cell.bg = some (.ansi 1) := by
  obtain ⟨b', h, hq⟩ := C65_line_background_partial Uniseg.simple_lawful simple_suffix
    ⟨{ Style.new with bg := some (.ansi 1) }, [Span.new "ab"], .none⟩ (by
      intro s hs c hc
      simp only [List.mem_cons, List.not_mem_nil, or_false] at hs
      subst hs
      have : c ∈ ["a", "b"] := hc
      simp only [List.mem_cons, List.not_mem_nil, or_false] at this
      rcases this with rfl | rfl <;> exact ⟨by decide +kernel, by decide +kernel⟩) ⟨0, 0, 4, 1⟩
    ⟨⟨0, 0, 4, 1⟩, List.replicate 4 Cell.empty⟩ ⟨by decide, by decide, by decide⟩ (by unfold Inside; decide) (by decide)
    (.inl rfl) (.ansi 1) rfl (by simp [Span.new, Style.new])
  exact ⟨b', h, hq ⟨1, 0⟩ rfl (by decide) (by decide) (by decide +kernel)⟩

/-- A line's style is applied to the first columns of the row, wherever its text is: a right-aligned
line with a background leaves its text without it. -/
theorem C65_line_style_false :
    ∃ (l : Line) (area : Rect) (b b' : Buffer), l.NarrowText Uniseg.simple ∧ b.WF ∧ Inside b area ∧
      l.style.bg = some (.ansi 1) ∧ l.render Uniseg.simple area b = some b' ∧
      (∃ c, b'.cellAt ⟨3, 0⟩ = some c ∧ c.symbol = "a" ∧ c.bg = .reset) ∧
      (∃ c, b'.cellAt ⟨0, 0⟩ = some c ∧ c.symbol = " " ∧ c.bg = .ansi 1) := by
  refine ⟨⟨{ Style.new with bg := some (.ansi 1) }, [Span.new "a"], .right⟩, ⟨0, 0, 4, 1⟩,
    ⟨⟨0, 0, 4, 1⟩, List.replicate 4 Cell.empty⟩, _, ?_, ⟨by decide, by decide, by decide⟩,
    by unfold Inside; decide, rfl, rfl, ?_, ?_⟩
  · intro s hs c hc
    simp only [List.mem_cons, List.not_mem_nil, or_false] at hs
    subst hs
    have : c ∈ ["a"] := hc
    simp only [List.mem_cons, List.not_mem_nil, or_false] at this
    subst this
    exact ⟨by decide +kernel, by decide +kernel⟩
  · exact ⟨_, rfl, rfl, rfl⟩
  · exact ⟨_, rfl, rfl, rfl⟩

/-! ### C66 — an overlong line fills its row -/

/-- An overlong line of single-width text fills every column of its row with its text. Missing: texts
with zero-width clusters, see `C66_tab_false`. -/
theorem C66_overlong_line_fills_partial {u : Uniseg} (hu : u.Lawful) (hs : u.Suffix) (l : Line)
    (hl : l.NarrowText u) (area : Rect) (b : Buffer) (wf : b.WF) (hin : Inside b area)
    (hh : 0 < area.height) (hlong : area.width < (l.clusters u).length) :
    ∃ b', l.render u area b = some b' ∧
      ∀ q : Position, q.y = area.y → area.x ≤ q.x → q.x < area.x + area.width →
        ∃ s ∈ l.clusters u, b'.symbolAt q = some s := by
  obtain ⟨b', e, h⟩ := C33_line_shown hu hs l hl area b wf hin hh
  refine ⟨b', e, fun q hy hx hx' => ?_⟩
  rw [h q, if_pos ⟨hy, hx, hx'⟩]
  have := (C33_cut l.alignment area.width.toNat (l.clusters u) (by omega) (q.x - area.x).toNat
    (by omega)).2
  obtain ⟨s, hs⟩ := Option.isSome_iff_exists.1 this
  refine ⟨s, ?_, by rw [hs]; rfl⟩
  unfold Alignment.shown at hs
  split_ifs at hs <;> exact List.mem_of_getElem? hs

example : ∃ b', (Line.render Uniseg.simple ⟨Style.new, [Span.new "abc"], .center⟩ ⟨0, 0, 2, 1⟩
      ⟨⟨0, 0, 2, 1⟩, List.replicate 2 Cell.empty⟩) = some b' ∧ ∃ s ∈ ["a", "b", "c"], b'.symbolAt ⟨1, 0⟩ = some s := by
  obtain ⟨b', h, hq⟩ := C66_overlong_line_fills_partial Uniseg.simple_lawful simple_suffix
    ⟨Style.new, [Span.new "abc"], .center⟩ (by
      intro s hs c hc
      simp only [List.mem_cons, List.not_mem_nil, or_false] at hs
      subst hs
      have : c ∈ ["a", "b", "c"] := hc
      simp only [List.mem_cons, List.not_mem_nil, or_false] at this
      rcases this with rfl | rfl | rfl <;> exact ⟨by decide +kernel, by decide +kernel⟩) ⟨0, 0, 2, 1⟩
    ⟨⟨0, 0, 2, 1⟩, List.replicate 2 Cell.empty⟩ ⟨by decide, by decide, by decide⟩ (by unfold Inside; decide) (by decide)
    (by decide +kernel)
  exact ⟨b', h, hq ⟨1, 0⟩ rfl (by decide) (by decide)⟩

/-- A tab in the part that is cut off makes the whole span disappear: the right-aligned line
`ab⇥cdef` in three columns shows nothing although `def` fits. -/
theorem C66_tab_false :
    ∃ (l : Line) (area : Rect) (b b' : Buffer), b.WF ∧ Inside b area ∧ 0 < area.height ∧
      l.spans = [Span.new "ab\tcdef"] ∧ area.width = 3 ∧ area.width < l.width Uniseg.simple ∧
      l.render Uniseg.simple area b = some b' ∧
      ∀ x ∈ [0, 1, 2], b'.symbolAt ⟨x, 0⟩ = some " " := by
  refine ⟨⟨Style.new, [Span.new "ab\tcdef"], .right⟩, ⟨0, 0, 3, 1⟩,
    ⟨⟨0, 0, 3, 1⟩, List.replicate 3 Cell.empty⟩, ⟨⟨0, 0, 3, 1⟩, List.replicate 3 Cell.empty⟩,
    ⟨by decide, by decide, by decide⟩, by unfold Inside; decide, by decide, rfl, rfl,
    by decide +kernel, by decide +kernel, by decide +kernel⟩

/-! ### C71 — text is shown in its style -/

theorem puts_styled (u : Uniseg) (l : Line) :
    l.spans.flatMap (Span.puts u) = (l.styledClusters u).map fun x => Cell.put x.1 x.2 := by
  unfold Line.styledClusters
  rw [List.map_flatMap]
  congr 1
  funext s
  unfold Span.puts
  rw [List.map_map]
  congr 1
  funext c
  simp only [Function.comp, (C05_new_unit s.style Cell.empty).1]

theorem styledClusters_length (u : Uniseg) (l : Line) :
    (l.styledClusters u).length = (l.clusters u).length := by
  unfold Line.styledClusters Line.clusters
  rw [List.length_flatMap, List.length_flatMap]
  simp

/-- Every cell that shows a cluster of a line has got the symbol and, on top of what was there (and
perhaps the line's style), the style of the span the cluster comes from. -/
theorem C71_line_styles {u : Uniseg} (hu : u.Lawful) (hs : u.Suffix) (l : Line)
    (hl : l.NarrowText u) (area : Rect) (b : Buffer) (wf : b.WF) (hin : Inside b area)
    (hh : 0 < area.height) :
    ∃ b', l.render u area b = some b' ∧
      ∀ q : Position, q.y = area.y → area.x ≤ q.x → q.x < area.x + area.width → ∀ sym st,
        l.alignment.shown area.width.toNat (l.styledClusters u) (q.x - area.x).toNat = some (sym, st) →
        ∃ c c0, b.cellAt q = some c ∧ (c0 = c ∨ c0 = c.setStyle l.style) ∧
          b'.cellAt q = some ((c0.setSymbol sym).setStyle st) := by
  obtain ⟨b0, e0, -⟩ := line_shown hu hs l .none hl area b wf hin hh
  refine ⟨b0, e0, fun q hy hx hx' sym st h => ?_⟩
  have hn : l.clusters u ≠ [] := by
    intro hc
    have : l.styledClusters u = [] := List.eq_nil_of_length_eq_zero (by rw [styledClusters_length, hc]; rfl)
    rw [this] at h
    unfold Alignment.shown at h
    simp at h
  obtain ⟨b1, b', a1, wf1, c1, e, -, -, c2⟩ := line_cells hu hs l .none hl area b wf hin hh (by omega) hn
  rw [e0] at e
  simp only [Option.some.injEq] at e
  subst e
  have hal : l.alignmentIn .none = l.alignment := by
    unfold Line.alignmentIn; split_ifs with h <;> simp [h]
  rw [hal] at c2
  obtain ⟨c, hc⟩ := wf.cellAt_isSome (p := q) (by
    rw [Rect.contains_iff]; unfold Rect.Mem Inside at *; omega)
  have hc1 : ∃ c0, (c0 = c ∨ c0 = c.setStyle l.style) ∧ b1.cellAt q = some c0 := by
    rw [c1 q, hc]
    split_ifs
    · exact ⟨_, .inr rfl, rfl⟩
    · exact ⟨_, .inl rfl, rfl⟩
  obtain ⟨c0, h0, hc0⟩ := hc1
  refine ⟨c, c0, hc, h0, ?_⟩
  rw [c2 q]
  unfold Buffer.overlay
  rw [puts_styled, hc0, ← styledClusters_length]
  unfold Alignment.shown at h
  generalize l.styledClusters u = cs at *
  by_cases hfit : cs.length ≤ area.width.toNat
  · simp only [hfit, if_true, List.drop_zero] at h ⊢
    generalize l.alignment.before (area.width.toNat - cs.length) = i at *
    by_cases hi : (q.x - area.x).toNat < i
    · rw [if_pos hi] at h; simp at h
    · rw [if_neg hi] at h
      rw [if_pos (by omega), show (q.x - (area.x + (i : Nat))).toNat = (q.x - area.x).toNat - i by omega,
        List.getElem?_map, h]
      rfl
  · simp only [hfit, if_false] at h ⊢
    generalize l.alignment.before (cs.length - area.width.toNat) = i at *
    rw [if_pos (by omega), List.getElem?_drop, List.getElem?_map,
      show i + (q.x - (area.x + ((0 : Nat) : Int))).toNat = (q.x - area.x).toNat + i by omega, h]
    rfl

example : (Alignment.right.shown 4 ((⟨Style.new, [⟨{ Style.new with fg := some (.ansi 1) }, "ab"⟩], .right⟩ : Line).styledClusters
    Uniseg.simple) 3).map Prod.fst = some "b" := by decide +kernel

end Bento
