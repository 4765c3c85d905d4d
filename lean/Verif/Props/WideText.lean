import Verif.Lemmas.WideText
import Verif.Props.Text

/-!
# Lines of symbols that take one or more columns

Chinese, Japanese and Korean characters and most emoji take two columns.
-/

namespace Bento

open Buffer

theorem glyphs_eq (u : Uniseg) (l : Line) :
    l.glyphs u = (l.styledClusters u).map fun p => ⟨p.1, Style.new.patched p.2, u.width p.1⟩ := by
  unfold Line.glyphs Line.styledClusters Span.glyphs
  rw [List.map_flatMap]
  simp [List.map_map, Function.comp_def]

theorem glyphs_clusters (u : Uniseg) (l : Line) : (l.glyphs u).map Glyph.symbol = l.clusters u := by
  unfold Line.glyphs Line.clusters Span.glyphs
  rw [List.map_flatMap]
  simp [List.map_map, Function.comp_def]

theorem glyphs_columns (u : Uniseg) (l : Line) (j : Nat) :
    Glyph.total ((l.glyphs u).take j) = u.columns ((l.clusters u).take j) := by
  rw [← glyphs_clusters, ← List.map_take, glyphs_eq]
  unfold Glyph.total Uniseg.columns
  rw [List.map_map]
  congr 1
  rw [← List.map_take, List.map_map, List.map_map]
  rfl

theorem at_shown {u : Uniseg} {l : Line} {o : Int} {w : Nat} {j : Nat} {t : Glyph} {x k : Int}
    (h : Glyph.At (l.glyphs u) o 0 w j t x k) : u.ShownAt (l.clusters u) o w j t.symbol x k := by
  obtain ⟨g1, g2, g3, g4, g5, g6⟩ := h
  have hw : t.width = u.width t.symbol := by
    rw [glyphs_eq, List.getElem?_map] at g1
    obtain ⟨p, _, rfl⟩ := Option.map_eq_some_iff.1 g1
    rfl
  refine ⟨?_, by rw [g2, glyphs_columns], g3, by rw [← hw]; exact g4, g5, by rw [← hw]; exact g6⟩
  rw [← glyphs_clusters, List.getElem?_map, g1]
  rfl

theorem shown_at {u : Uniseg} {l : Line} {o : Int} {w : Nat} {j : Nat} {c : String} {x k : Int}
    (h : u.ShownAt (l.clusters u) o w j c x k) : ∃ t, t.symbol = c ∧ Glyph.At (l.glyphs u) o 0 w j t x k := by
  obtain ⟨g1, g2, g3, g4, g5, g6⟩ := h
  rw [← glyphs_clusters, List.getElem?_map] at g1
  obtain ⟨t, g, rfl⟩ := Option.map_eq_some_iff.1 g1
  have hw : t.width = u.width t.symbol := by
    have g' := g
    rw [glyphs_eq, List.getElem?_map] at g'
    obtain ⟨p, _, rfl⟩ := Option.map_eq_some_iff.1 g'
    rfl
  exact ⟨t, rfl, g, by rw [g2, glyphs_columns], g3, by rw [hw]; exact g4, g5, by rw [hw]; exact g6⟩

theorem line_columns (u : Uniseg) (l : Line) : l.width u = u.columns (l.clusters u) := by
  rw [← Line.glyphs_total]
  have := glyphs_columns u l (l.glyphs u).length
  rw [List.take_length, List.take_of_length_le (by rw [← glyphs_clusters, List.length_map])] at this
  exact this

theorem columns_get {u : Uniseg} {cs : List String} {j : Nat} {c : String} (h : cs[j]? = some c) :
    u.columns (cs.take j) + u.width c ≤ u.columns cs := by
  obtain ⟨hj, rfl⟩ := List.getElem?_eq_some_iff.1 h
  have := columns_split u cs j
  rw [List.drop_eq_getElem_cons hj] at this
  simp only [Uniseg.columns, List.map_cons, List.sum_cons] at this ⊢
  omega

theorem line_visible {u : Uniseg} (hu : u.Lawful) (hs : u.Suffix) (l : Line) (parent : Alignment)
    (hl : l.VisibleText u) (area : Rect) (b : Buffer) (wf : b.WF) (hin : Inside b area) (hh : 0 < area.height) :
    ∃ b', l.renderAligned u area parent b = some b' ∧ b'.area = b.area ∧ b'.WF ∧
      (∀ j c x k, u.ShownAt (l.clusters u) ((l.alignmentIn parent).origin area.width.toNat (u.columns (l.clusters u)))
        area.width.toNat j c x k → b'.symbolAt ⟨area.x + k, area.y⟩ = some (if k = x then c else " ")) ∧
      ∀ q : Position, (q.y = area.y → ∀ j c x, ¬ u.ShownAt (l.clusters u)
        ((l.alignmentIn parent).origin area.width.toNat (u.columns (l.clusters u))) area.width.toNat j c x (q.x - area.x)) →
        b'.symbolAt q = b.symbolAt q := by
  have hin' := hin
  obtain ⟨i1, i2, i3, i4, i5, i6⟩ := hin'
  rw [← line_columns]
  by_cases hz : area.width = 0 ∨ l.width u = 0
  · refine ⟨b, ?_, rfl, wf, ?_, fun q _ => rfl⟩
    · unfold Line.renderAligned
      simp only [hin.intersection]
      rcases hz with hz | hz
      · rw [if_pos (by simp [Rect.isEmpty, hz])]
      · by_cases he : area.isEmpty = true
        · rw [if_pos he]
        · rw [if_neg he, if_pos (by omega)]
    · intro j c x k h
      exfalso
      have hlen := line_columns u l
      obtain ⟨g1, g2, g3, g4, g5, g6⟩ := h
      have hc : 1 ≤ u.width c := by
        have hm := List.mem_of_getElem? g1
        unfold Line.clusters at hm
        obtain ⟨s, hs, hc⟩ := List.mem_flatMap.1 hm
        exact (hl s hs c hc).1
      rcases hz with hz | hz
      · omega
      · rw [hz] at hlen
        have : u.width c ≤ u.columns (l.clusters u) := by
          have := columns_get (u := u) g1
          omega
        omega
  · push Not at hz
    obtain ⟨b1, b', e1, a1, wf1, c1, e, a2, wf2, h1, h2⟩ :=
      line_wide hu hs l parent hl area b wf hin hh (by omega) hz.2
    have hs1 := setStyle_symbols c1
    have hwn : ((area.width.toNat : Nat) : Int) = area.width := by omega
    refine ⟨b', e, a2, wf2, ?_, ?_⟩
    · intro j c x k h
      obtain ⟨t, rfl, hat⟩ := shown_at h
      rw [hwn] at hat
      obtain ⟨g1, g2, g3, g4, g5, g6⟩ := hat
      unfold Buffer.symbolAt
      rw [h1 j t x k ⟨g1, g2, g3, g4, g5, g6⟩]
      obtain ⟨c, hc⟩ := wf1.cellAt_isSome (p := ⟨area.x + k, area.y⟩) (by
        rw [a1, Rect.contains_iff]
        unfold Rect.Mem
        simp only
        omega)
      rw [hc]
      by_cases hk : k = x <;> simp [hk, Cell.put, Cell.setSymbol, Cell.reset]
      rfl
    · intro q hq
      rw [← hs1 q]
      unfold Buffer.symbolAt
      rw [h2 q]
      rintro ⟨hy, j, t, x, hat⟩
      rw [← hwn] at hat
      exact hq hy j t.symbol x (at_shown hat)

/-- **C100.** A line of visible text: each symbol all of whose columns are in the row stands in its first column,
with blanks in its other columns; all other cells keep their symbols. -/
theorem C100_line {u : Uniseg} (hu : u.Lawful) (hs : u.Suffix) (l : Line) (hl : l.VisibleText u) (area : Rect)
    (b : Buffer) (wf : b.WF) (hin : Inside b area) (hh : 0 < area.height) :
    let origin := l.alignment.origin area.width.toNat (u.columns (l.clusters u))
    ∃ b', l.render u area b = some b' ∧
      (∀ j c x k, u.ShownAt (l.clusters u) origin area.width.toNat j c x k →
        b'.symbolAt ⟨area.x + k, area.y⟩ = some (if k = x then c else " ")) ∧
      ∀ q : Position, (q.y = area.y → ∀ j c x, ¬ u.ShownAt (l.clusters u) origin area.width.toNat j c x (q.x - area.x)) →
        b'.symbolAt q = b.symbolAt q := by
  obtain ⟨b', e, _, _, h1, h2⟩ := line_visible hu hs l .none hl area b wf hin hh
  have : l.alignmentIn .none = l.alignment := by
    unfold Line.alignmentIn; split_ifs with h <;> simp [h]
  rw [this] at h1 h2
  exact ⟨b', e, h1, h2⟩

/-- **C100**, a line that fits is shown completely: every symbol is, one behind the other, after the free columns of
the alignment. -/
theorem C100_fits (u : Uniseg) (a : Alignment) (cs : List String) (w : Nat) (hfit : u.columns cs ≤ w) :
    let free := w - u.columns cs
    ∀ j c, cs[j]? = some c → ∀ i : Nat, i < u.width c →
      let x : Int := (match a with | .center => free / 2 | .right => free | _ => 0 : Nat) + u.columns (cs.take j)
      u.ShownAt cs (a.origin w (u.columns cs)) w j c x (x + i) := by
  intro free j c hc i hi x
  have hg := columns_get (u := u) hc
  have hx : x = a.origin w (u.columns cs) + u.columns (cs.take j) := by
    simp only [x, Alignment.origin, if_pos hfit, free]
    cases a <;> rfl
  have hb : 0 ≤ a.origin w (u.columns cs) ∧ a.origin w (u.columns cs) ≤ w - u.columns cs := by
    simp only [Alignment.origin, if_pos hfit]
    cases a <;> simp only [Alignment.before] <;> omega
  refine ⟨hc, hx, by omega, by omega, by omega, by omega⟩

/-- **C100**, a line that does not fit fills the row, but for half symbols at the ends: if no symbol takes more than
two columns, every column other than the first and the last one shows a part of the text, and with left alignment the
first one too. -/
theorem C100_overlong (u : Uniseg) (a : Alignment) (cs : List String) (w : Nat) (hlong : w < u.columns cs)
    (hw : ∀ c ∈ cs, 1 ≤ u.width c ∧ u.width c ≤ 2) (k : Nat) (hk : k < w)
    (hends : (0 < k ∨ a = .left ∨ a = .none) ∧ (k + 1 < w ∨ a = .right)) :
    ∃ j c x, u.ShownAt cs (a.origin w (u.columns cs)) w j c x k := by
  have horg : a.origin w (u.columns cs) = -((a.before (u.columns cs - w) : Nat) : Int) := by
    unfold Alignment.origin
    rw [if_neg (by omega)]
  have hbf : a.before (u.columns cs - w) ≤ u.columns cs - w := by
    cases a <;> simp only [Alignment.before] <;> omega
  have hleft : a = .left ∨ a = .none → a.before (u.columns cs - w) = 0 := by
    rintro (rfl | rfl) <;> rfl
  have hright : a = .right → a.before (u.columns cs - w) = u.columns cs - w := by
    rintro rfl; rfl
  rw [horg]
  generalize a.before (u.columns cs - w) = s at *
  -- the symbol that takes column `k + s` of the text
  have key : ∀ (cs : List String) (m : Nat), m < u.columns cs →
      ∃ (j : Nat) (c : String), cs[j]? = some c ∧ u.columns (cs.take j) ≤ m ∧ m < u.columns (cs.take j) + u.width c := by
    intro cs
    induction cs with
    | nil => intro m h; simp [Uniseg.columns] at h
    | cons c cs ih =>
      intro m h
      have hcol : ∀ ds, u.columns (c :: ds) = u.width c + u.columns ds := by intro ds; simp [Uniseg.columns]
      by_cases hm : m < u.width c
      · exact ⟨0, c, rfl, by simp [Uniseg.columns], by simpa [Uniseg.columns] using hm⟩
      · rw [hcol] at h
        obtain ⟨j, d, h1, h2, h3⟩ := ih (m - u.width c) (by omega)
        refine ⟨j + 1, d, h1, ?_, ?_⟩ <;> rw [List.take_succ_cons, hcol] <;> omega
  obtain ⟨j, c, h1, h2, h3⟩ := key cs (k + s) (by omega)
  have hc := hw c (List.mem_of_getElem? h1)
  have hg := columns_get (u := u) h1
  refine ⟨j, c, _, h1, rfl, ?_, ?_, ?_, ?_⟩
  · rcases hends.1 with h | h
    · omega
    · have := hleft h; omega
  · rcases hends.2 with h | h
    · omega
    · have := hright h; omega
  · omega
  · omega

/-- **C100**, the styles: the cell in which a symbol stands has been given the style of its span. -/
theorem C100_styles {u : Uniseg} (hu : u.Lawful) (hs : u.Suffix) (l : Line) (hl : l.VisibleText u) (area : Rect)
    (b : Buffer) (wf : b.WF) (hin : Inside b area) (hh : 0 < area.height) :
    ∃ b', l.render u area b = some b' ∧
      ∀ j c st x, (l.styledClusters u)[j]? = some (c, st) →
        u.ShownAt (l.clusters u) (l.alignment.origin area.width.toNat (u.columns (l.clusters u))) area.width.toNat j c x x →
        ∃ old c0, b.cellAt ⟨area.x + x, area.y⟩ = some old ∧ (c0 = old ∨ c0 = old.setStyle l.style) ∧
          b'.cellAt ⟨area.x + x, area.y⟩ = some ((c0.setSymbol c).setStyle st) := by
  obtain ⟨b0, e0, -⟩ := C100_line hu hs l hl area b wf hin hh
  refine ⟨b0, e0, fun j c st x hj hsh => ?_⟩
  have hin' := hin
  obtain ⟨i1, i2, i3, i4, i5, i6⟩ := hin'
  have hsh' := hsh
  obtain ⟨g1, g2, g3, g4, g5, g6⟩ := hsh'
  have hcol := line_columns u l
  have hg := columns_get (u := u) g1
  have hwn : ((area.width.toNat : Nat) : Int) = area.width := by omega
  obtain ⟨b1, b', e1, a1, wf1, c1, e, a2, wf2, h1, -⟩ :=
    line_wide hu hs l .none hl area b wf hin hh (by omega) (by omega)
  have hal : l.alignmentIn .none = l.alignment := by
    unfold Line.alignmentIn; split_ifs with h <;> simp [h]
  have : b0 = b' := by
    have e' : l.render u area b = some b' := e
    rw [e0] at e'
    simpa using e'
  subst this
  obtain ⟨old, hc⟩ := wf.cellAt_isSome (p := ⟨area.x + x, area.y⟩) (by
    rw [Rect.contains_iff]; unfold Rect.Mem; simp only; omega)
  have hc1 : ∃ c0, (c0 = old ∨ c0 = old.setStyle l.style) ∧ b1.cellAt ⟨area.x + x, area.y⟩ = some c0 := by
    rw [c1 _, hc]
    split_ifs
    · exact ⟨_, .inr rfl, rfl⟩
    · exact ⟨_, .inl rfl, rfl⟩
  obtain ⟨c0, h0, hc0⟩ := hc1
  refine ⟨old, c0, hc, h0, ?_⟩
  have hat : Glyph.At (l.glyphs u) ((l.alignmentIn .none).origin area.width.toNat (l.width u)) 0 area.width j
      ⟨c, Style.new.patched st, u.width c⟩ x x := by
    refine ⟨by rw [glyphs_eq, List.getElem?_map, hj]; rfl, ?_, g3, by rw [← hwn]; exact g4, g5, g6⟩
    rw [hal, hcol, glyphs_columns]
    exact g2
  rw [h1 j _ x x hat, hc0, if_pos rfl, (C05_new_unit st Cell.empty).1]
  rfl

theorem renderLines_visible {u : Uniseg} (hu : u.Lawful) (hs : u.Suffix) (parent : Alignment) :
    ∀ (ls : List Line) (area : Rect) (b : Buffer), b.WF → Inside b area → (∀ l ∈ ls, l.VisibleText u) →
      ∃ b', Text.renderLines u parent ls area.rows b = some b' ∧ b'.area = b.area ∧ b'.WF ∧
        (∀ (i : Nat) (l : Line), ls[i]? = some l → (i : Int) < area.height → ∀ j c x k,
          u.ShownAt (l.clusters u) ((l.alignmentIn parent).origin area.width.toNat (u.columns (l.clusters u)))
            area.width.toNat j c x k →
          b'.symbolAt ⟨area.x + k, area.y + i⟩ = some (if k = x then c else " ")) ∧
        ∀ q : Position, (∀ (i : Nat) (l : Line), ls[i]? = some l → (i : Int) < area.height → q.y = area.y + i →
          ∀ j c x, ¬ u.ShownAt (l.clusters u) ((l.alignmentIn parent).origin area.width.toNat (u.columns (l.clusters u)))
            area.width.toNat j c x (q.x - area.x)) → b'.symbolAt q = b.symbolAt q := by
  intro ls
  induction ls with
  | nil =>
    intro area b wf _ _
    exact ⟨b, by unfold Text.renderLines; rfl, rfl, wf, fun i l h => by simp at h, fun q _ => rfl⟩
  | cons l ls ih =>
    intro area b wf hin hn
    have hin' := hin
    obtain ⟨h1, h2, h3, h4, h5, h6⟩ := hin'
    by_cases hh : 0 < area.height
    · rw [rows_cons area hh]
      obtain ⟨b1, e1, a1, wf1, s1, k1⟩ := line_visible hu hs l parent (hn l List.mem_cons_self)
        ⟨area.x, area.y, area.width, 1⟩ b wf (by unfold Inside; simp only; omega) (by simp)
      obtain ⟨b2, e2, a2, wf2, s2, k2⟩ := ih ⟨area.x, area.y + 1, area.width, area.height - 1⟩ b1 wf1
        (by unfold Inside; simp only [a1]; omega) (fun l hl => hn l (List.mem_cons_of_mem _ hl))
      refine ⟨b2, ?_, a2.trans a1, wf2, ?_, ?_⟩
      · unfold Text.renderLines
        rw [e1]; exact e2
      · intro i l' hl' hi j c x k hsh
        cases i with
        | zero =>
          simp only [List.getElem?_cons_zero, Option.some.injEq] at hl'
          subst hl'
          rw [k2 ⟨area.x + k, area.y + (0 : Nat)⟩ (fun i l'' _ hi hy => by simp only at hy; omega)]
          have := s1 j c x k hsh
          simpa using this
        | succ i =>
          rw [List.getElem?_cons_succ] at hl'
          have := s2 i l' hl' (by simp only; omega) j c x k hsh
          simp only at this
          rw [show area.y + ((i + 1 : Nat) : Int) = area.y + 1 + (i : Int) by push_cast; omega]
          exact this
      · intro q hq
        rw [k2 q, k1 q]
        · intro hy j c x
          exact hq 0 l rfl (by simpa using hh) (by simpa using hy) j c x
        · intro i l' hl' hi hy j c x
          simp only at hi hy
          exact hq (i + 1) l' (by simpa using hl') (by push_cast; omega) (by push_cast; omega) j c x
    · have : area.rows = [] := by
        rw [C02_rows_eq, show area.height.toNat = 0 by omega]; rfl
      rw [this]
      exact ⟨b, by unfold Text.renderLines; rfl, rfl, wf, fun i l _ hi => by omega, fun q _ => rfl⟩

/-- **C100** for a text: line `i` in row `i` of the area, at its own alignment or else that of the text. -/
theorem C100_text {u : Uniseg} (hu : u.Lawful) (hs : u.Suffix) (t : Text) (ht : ∀ l ∈ t.lines, l.VisibleText u)
    (area : Rect) (b : Buffer) (wf : b.WF) (hin : Inside b area) :
    let shown (l : Line) := u.ShownAt (l.clusters u)
      ((if l.alignment = .none then t.alignment else l.alignment).origin area.width.toNat (u.columns (l.clusters u)))
      area.width.toNat
    ∃ b', t.render u area b = some b' ∧
      (∀ (i : Nat) (l : Line), t.lines[i]? = some l → (i : Int) < area.height → ∀ j c x k, shown l j c x k →
        b'.symbolAt ⟨area.x + k, area.y + i⟩ = some (if k = x then c else " ")) ∧
      ∀ q : Position, (∀ (i : Nat) (l : Line), t.lines[i]? = some l → (i : Int) < area.height → q.y = area.y + i →
        ∀ j c x, ¬ shown l j c x (q.x - area.x)) → b'.symbolAt q = b.symbolAt q := by
  unfold Text.render
  simp only [hin.intersection]
  obtain ⟨b1, e1, a1, wf1, c1⟩ := setStyle_cells wf area t.style
  have hs1 := setStyle_symbols c1
  obtain ⟨b2, e2, a2, wf2, s2, k2⟩ := renderLines_visible hu hs t.alignment t.lines area b1 wf1
    (by unfold Inside at *; rw [a1]; exact hin) ht
  refine ⟨b2, by rw [e1]; exact e2, s2, fun q hq => ?_⟩
  rw [k2 q hq, hs1 q]

theorem columnText_shown {u : Uniseg} {w : Nat} : ∀ {cs : List String} {o : Int} {j : Nat} {c : String} {x k : Int},
    u.ShownAt cs o w j c x k → u.columnText w cs o k = some (if k = x then c else " ")
  | [], o, j, c, x, k, h => by simp [Uniseg.ShownAt] at h
  | d :: cs, o, 0, c, x, k, ⟨h1, h2, h3, h4, h5, h6⟩ => by
    simp only [List.getElem?_cons_zero, Option.some.injEq] at h1
    subst h1
    simp only [List.take_zero, Uniseg.columns, List.map_nil, List.sum_nil, Nat.cast_zero, Int.add_zero] at h2
    subst h2
    unfold Uniseg.columnText
    rw [if_pos h6, if_pos ⟨h3, h5, h4⟩]
  | d :: cs, o, j + 1, c, x, k, ⟨h1, h2, h3, h4, h5, h6⟩ => by
    simp only [List.getElem?_cons_succ] at h1
    have hc : u.columns ((d :: cs).take (j + 1)) = u.width d + u.columns (cs.take j) := by
      simp [Uniseg.columns]
    rw [hc] at h2
    push_cast at h2
    unfold Uniseg.columnText
    rw [if_neg (by omega)]
    exact columnText_shown ⟨h1, by omega, h3, h4, h5, h6⟩

theorem columnText_hidden {u : Uniseg} {w : Nat} : ∀ {cs : List String} {o k : Int},
    (∀ j c x, ¬ u.ShownAt cs o w j c x k) → u.columnText w cs o k = none
  | [], o, k, h => rfl
  | d :: cs, o, k, h => by
    unfold Uniseg.columnText
    by_cases hk : k < o + u.width d
    · rw [if_pos hk, if_neg]
      rintro ⟨a1, a2, a3⟩
      exact h 0 d o ⟨rfl, by simp [Uniseg.columns], a1, a3, a2, hk⟩
    · rw [if_neg hk]
      refine columnText_hidden fun j c x ⟨h1, h2, h3, h4, h5, h6⟩ => h (j + 1) c x ⟨h1, ?_, h3, h4, h5, h6⟩
      have hc : u.columns ((d :: cs).take (j + 1)) = u.width d + u.columns (cs.take j) := by
        simp [Uniseg.columns]
      rw [hc]
      push_cast
      omega

/-- **C100** for a text, cell by cell. -/
theorem C100_cells {u : Uniseg} (hu : u.Lawful) (hs : u.Suffix) (t : Text) (ht : ∀ l ∈ t.lines, l.VisibleText u)
    (area : Rect) (b : Buffer) (wf : b.WF) (hin : Inside b area) :
    ∃ b', t.render u area b = some b' ∧
      ∀ q, b'.symbolAt q =
        if area.contains q = true then
          (match t.lines[(q.y - area.y).toNat]? with
            | some l => (u.aligned (if l.alignment = .none then t.alignment else l.alignment)
                area.width.toNat (l.clusters u) (q.x - area.x).toNat).or (b.symbolAt q)
            | none => b.symbolAt q)
        else b.symbolAt q := by
  obtain ⟨b', e, h1, h2⟩ := C100_text hu hs t ht area b wf hin
  refine ⟨b', e, fun q => ?_⟩
  have hin' := hin
  obtain ⟨i1, i2, i3, i4, i5, i6⟩ := hin'
  by_cases hq : area.contains q = true
  · rw [if_pos hq]
    rw [Rect.contains_iff] at hq
    unfold Rect.Mem at hq
    have hy : q.y = area.y + ((q.y - area.y).toNat : Nat) := by omega
    have hqx : ((q.x - area.x).toNat : Int) = q.x - area.x := by omega
    cases hl : t.lines[(q.y - area.y).toNat]? with
    | none =>
      refine h2 q fun i l hli _ hy' => ?_
      rw [show (q.y - area.y).toNat = i by omega, hli] at hl
      cases hl
    | some l =>
      simp only [Uniseg.aligned, hqx]
      by_cases hsh : ∃ j c x, u.ShownAt (l.clusters u)
          ((if l.alignment = .none then t.alignment else l.alignment).origin area.width.toNat (u.columns (l.clusters u)))
          area.width.toNat j c x (q.x - area.x)
      · obtain ⟨j, c, x, hsh⟩ := hsh
        have := h1 _ l hl (by omega) j c x _ hsh
        rw [columnText_shown hsh, Option.some_or]
        rw [← this]
        congr 1
        ext
        · simp only; omega
        · simp only; omega
      · rw [columnText_hidden (fun j c x h => hsh ⟨j, c, x, h⟩), Option.none_or]
        refine h2 q fun i l' hli _ hy' j c x h => ?_
        rw [show (q.y - area.y).toNat = i by omega, hli] at hl
        simp only [Option.some.injEq] at hl
        subst hl
        exact hsh ⟨j, c, x, h⟩
  · rw [if_neg hq]
    refine h2 q fun i l _ hi hy j c x ⟨_, _, g3, g4, g5, g6⟩ => hq ?_
    rw [Rect.contains_iff]
    unfold Rect.Mem
    omega

/-- For symbols of one column this is the row as `C33` has it. -/
theorem aligned_narrow {u : Uniseg} (a : Alignment) (w : Nat) (cs : List String) (hcs : ∀ c ∈ cs, u.width c = 1) (k : Nat)
    (hk : k < w) : u.aligned a w cs k = a.shown w cs k := by
  have hcol : ∀ ds : List String, (∀ c ∈ ds, u.width c = 1) → u.columns ds = ds.length := by
    intro ds h
    unfold Uniseg.columns
    rw [List.map_congr_left h]
    simp
  have key : ∀ (cs : List String) (o : Int), (∀ c ∈ cs, u.width c = 1) →
      u.columnText w cs o k = if (k : Int) < o then none else cs[((k : Int) - o).toNat]? := by
    intro cs
    induction cs with
    | nil => intro o _; unfold Uniseg.columnText; simp
    | cons c cs ih =>
      intro o h
      have hc := h c List.mem_cons_self
      unfold Uniseg.columnText
      rw [hc]
      by_cases hlt : (k : Int) < o
      · rw [if_pos (by omega), if_neg (by omega), if_pos hlt]
      · by_cases he : (k : Int) = o
        · rw [if_pos (by omega), if_pos ⟨by omega, by omega, by omega⟩, if_pos he, if_neg hlt,
            show ((k : Int) - o).toNat = 0 by omega]
          rfl
        · rw [if_neg (by omega), ih _ (fun d hd => h d (List.mem_cons_of_mem _ hd)), if_neg (by omega), if_neg hlt,
            show ((k : Int) - o).toNat = ((k : Int) - (o + (1 : Nat))).toNat + 1 by omega]
          rfl
  unfold Uniseg.aligned Alignment.shown Alignment.origin
  rw [key cs _ hcs, hcol cs hcs]
  by_cases hfit : cs.length ≤ w
  · simp only [if_pos hfit]
    by_cases hlt : k < a.before (w - cs.length)
    · rw [if_pos (by omega), if_pos hlt]
    · rw [if_neg (by omega), if_neg hlt]
      congr 1
      omega
  · simp only [if_neg hfit]
    rw [if_neg (by omega)]
    congr 1
    omega

/-! ### The hypotheses are met -/

/-- The line "世界ab", right-aligned in a row of five columns: the first symbol does not fit and the row begins with
one free column. -/
example :
    let l : Line := ⟨Style.new, [⟨Style.new, "世"⟩, ⟨Style.new, "界ab"⟩], .right⟩
    let b : Buffer := ⟨⟨0, 0, 5, 1⟩, List.replicate 5 { Cell.empty with symbol := "." }⟩
    (∀ s ∈ l.spans, ∀ c ∈ Uniseg.simple.graphemes s.content, 1 ≤ Uniseg.simple.width c) ∧
    Uniseg.simple.columns (l.clusters Uniseg.simple) = 6 ∧ l.alignment.origin 5 6 = -1 ∧
    (l.render Uniseg.simple ⟨0, 0, 5, 1⟩ b).map (fun b => b.content.map Cell.symbol) =
      some [".", "界", " ", "a", "b"] := by
  decide +kernel

/-- The same line, centered in a row of nine columns. -/
example :
    let l : Line := ⟨Style.new, [⟨Style.new, "世"⟩, ⟨Style.new, "界ab"⟩], .center⟩
    let b : Buffer := ⟨⟨0, 0, 9, 1⟩, List.replicate 9 { Cell.empty with symbol := "." }⟩
    (l.render Uniseg.simple ⟨0, 0, 9, 1⟩ b).map (fun b => b.content.map Cell.symbol) =
      some [".", "世", " ", "界", " ", "a", "b", ".", "."] := by
  decide +kernel

end Bento
