import Verif.Spec.Paragraph
import Verif.Lemmas.Reflow
import Verif.Lemmas.TextRow

/-!
# Lemmas about painting the rows of a paragraph
-/

namespace Bento

theorem atColumn_bound (l : List StyledGrapheme) : ∀ k : Nat, (k : Int) ≥ columns l → atColumn l k = none := by
  induction l with
  | nil => intro k _; rfl
  | cons g t ih =>
    intro k hk
    rw [columns_cons] at hk
    have := columns_nonneg t
    unfold atColumn
    split
    · exact ih k (by omega)
    · rename_i hg
      rw [if_neg (by omega), if_neg (by omega)]
      exact ih _ (by omega)

theorem Cell.showing_none (c : Cell) : c.showing none = c := rfl

/-- The loop over the graphemes of a row. -/
theorem rowLoop_cells (y : Int) (l : List StyledGrapheme) : ∀ (x : Int) (b : Buffer), b.WF →
    (∀ p : Position, p.y = y → x ≤ p.x → p.x < x + columns l → b.area.contains p = true) →
    ∃ b', Paragraph.rowLoop y l x b = some b' ∧ b'.area = b.area ∧ b'.WF ∧
      ∀ q, b'.cellAt q = if q.y = y ∧ x ≤ q.x then
        (b.cellAt q).map (Cell.showing (atColumn l (q.x - x).toNat)) else b.cellAt q := by
  induction l with
  | nil =>
    intro x b wf _
    refine ⟨b, rfl, rfl, wf, fun q => ?_⟩
    simp only [atColumn]
    split
    · cases b.cellAt q <;> rfl
    · rfl
  | cons g t ih =>
    intro x b wf hin
    rw [columns_cons] at hin
    have hnn := columns_nonneg t
    unfold Paragraph.rowLoop
    by_cases hg : g.g.width = 0
    · rw [if_pos hg]
      obtain ⟨b', e, a, w, h⟩ := ih x b wf (fun p h1 h2 h3 => hin p h1 h2 (by omega))
      refine ⟨b', e, a, w, fun q => ?_⟩
      rw [h q]
      conv => rhs; unfold atColumn
      simp only [hg, if_true]
    · rw [if_neg hg]
      obtain ⟨b1, e1, a1, w1, h1⟩ := wf.modifyCell_some
        (fun c => (c.setSymbol (if g.g.symbol = "" then " " else g.g.symbol)).setStyle g.style)
        (hin ⟨x, y⟩ rfl (Int.le_refl _) (by simp only; omega))
      obtain ⟨b2, e2, a2, w2, h2⟩ := ih (x + g.g.width) b1 w1
        (fun p i1 i2 i3 => by rw [a1]; exact hin p i1 (by omega) (by omega))
      refine ⟨b2, by simp only [Option.bind_eq_bind]; rw [e1]; exact e2, a2.trans a1, w2, fun q => ?_⟩
      rw [h2 q, h1 q]
      by_cases hq : q.y = y ∧ x ≤ q.x
      · rw [if_pos hq]
        conv => rhs; unfold atColumn
        rw [if_neg hg]
        by_cases hq0 : q.x = x
        · have hqe : (⟨x, y⟩ : Position) = q := by
            cases q; simp only at hq hq0; simp [hq.1, hq0]
          rw [if_neg (by omega), if_pos hqe.symm]
          rw [if_pos (show (q.x - x).toNat = 0 by omega)]
          rfl
        · have hqne : ¬ q = (⟨x, y⟩ : Position) := by
            intro hc; rw [hc] at hq0; exact hq0 rfl
          rw [if_neg hqne, if_neg (show ¬ (q.x - x).toNat = 0 by omega)]
          by_cases hlt : (q.x - x).toNat < g.g.width
          · rw [if_pos hlt, if_neg (by omega)]
            cases b.cellAt q <;> rfl
          · rw [if_neg hlt, if_pos ⟨hq.1, by omega⟩]
            rw [show (q.x - (x + (g.g.width : Int))).toNat = (q.x - x).toNat - g.g.width by omega]
      · have hqne : ¬ q = (⟨x, y⟩ : Position) := by
          rintro rfl; exact hq ⟨rfl, Int.le_refl _⟩
        rw [if_neg hq, if_neg hqne, if_neg (by omega)]

theorem lineOffset_eq {a : Alignment} (ha : a ≠ .none) (w total : Nat) :
    Paragraph.lineOffset w total a = some ((a.lead total w : Nat) : Int) := by
  unfold Paragraph.lineOffset Alignment.lead
  cases a with
  | none => exact absurd rfl ha
  | left => rfl
  | center =>
    simp only [Option.some.injEq]
    rw [show (total : Int).tdiv 2 = ((total / 2 : Nat) : Int) from rfl,
      show (w : Int).tdiv 2 = ((w / 2 : Nat) : Int) from rfl]
    omega
  | right => simp only [Option.some.injEq]; omega

theorem lead_fits (a : Alignment) {w total : Nat} (h : w ≤ total) : a.lead total w + w ≤ total := by
  unfold Alignment.lead
  cases a <;> simp only <;> omega

/-- A row of the composed text that can be painted. -/
def Paintable (total : Int) (l : WrappedLine) : Prop :=
  l.alignment ≠ .none ∧ l.width = columns l.line ∧ columns l.line ≤ total

theorem row_cells {b : Buffer} (wf : b.WF) {area : Rect} (hin : Inside b area) (scrollY y : Int)
    (l : WrappedLine) (hl : Paintable area.width l) (hy : y < area.height + scrollY) :
    ∃ b', Paragraph.row scrollY area y l b = some b' ∧ b'.area = b.area ∧ b'.WF ∧
      ∀ q, b'.cellAt q = if area.contains q = true ∧ q.y - area.y + scrollY = y then
        (b.cellAt q).map (Cell.showing (l.shownAt area.width.toNat (q.x - area.x).toNat))
        else b.cellAt q := by
  obtain ⟨h1, h2, h3, h4, h5, h6⟩ := hin
  obtain ⟨ha, hw, hle⟩ := hl
  have hnn := columns_nonneg l.line
  have hlead := lead_fits l.alignment (w := (columns l.line).toNat) (total := area.width.toNat) (by omega)
  unfold Paragraph.row
  by_cases hs : y ≥ scrollY
  · rw [if_pos hs]
    have hoff := lineOffset_eq ha (columns l.line).toNat area.width.toNat
    rw [show (((columns l.line).toNat : Nat) : Int) = l.width by omega,
      show ((area.width.toNat : Nat) : Int) = area.width by omega] at hoff
    rw [hoff]
    simp only [Option.bind_eq_bind, Option.bind_some]
    generalize hL : l.alignment.lead area.width.toNat (columns l.line).toNat = L at *
    obtain ⟨b', e, a, w, h⟩ := rowLoop_cells (area.y + y - scrollY) l.line (area.x + (L : Int)) b wf (by
      intro p i1 i2 i3
      rw [Rect.contains_iff]
      unfold Rect.Mem
      omega)
    refine ⟨b', e, a, w, fun q => ?_⟩
    rw [h q]
    unfold WrappedLine.shownAt
    rw [hL]
    by_cases hq : area.contains q = true ∧ q.y - area.y + scrollY = y
    · rw [if_pos hq]
      obtain ⟨hc, hqy⟩ := hq
      rw [Rect.contains_iff] at hc
      unfold Rect.Mem at hc
      by_cases hk : L ≤ (q.x - area.x).toNat
      · rw [if_pos (by omega), if_pos hk]
        rw [show (q.x - (area.x + (L : Int))).toNat = (q.x - area.x).toNat - L by omega]
      · rw [if_neg (by omega), if_neg hk]
        cases b.cellAt q <;> rfl
    · rw [if_neg hq]
      by_cases hc : q.y = area.y + y - scrollY ∧ area.x + (L : Int) ≤ q.x
      · rw [if_pos hc, atColumn_bound]
        · cases b.cellAt q <;> rfl
        · rw [Rect.contains_iff] at hq
          unfold Rect.Mem at hq
          omega
      · rw [if_neg hc]
  · rw [if_neg hs]
    refine ⟨b, rfl, rfl, wf, fun q => ?_⟩
    rw [if_neg]
    rintro ⟨hc, hq⟩
    rw [Rect.contains_iff] at hc
    unfold Rect.Mem at hc
    omega

/-- The loop over the rows of the composed text. -/
theorem textLoop_cells {S : Type} {next : S → Option (WrappedLine × S)} (scrollY : Int) (area : Rect) :
    ∀ (n : Nat) (y : Int) (s : S) (ls : List WrappedLine) (b : Buffer), b.WF → Inside b area →
      Yields next s ls → (∀ l ∈ ls, Paintable area.width l) → 0 ≤ y → y < area.height + scrollY →
      area.height + scrollY - y ≤ n →
      ∃ b', Paragraph.textLoop next scrollY area n y s b = some b' ∧ b'.area = b.area ∧ b'.WF ∧
        ∀ q, b'.cellAt q = if area.contains q = true ∧ y ≤ q.y - area.y + scrollY then
          (b.cellAt q).map (Cell.showing ((ls[(q.y - area.y + scrollY - y).toNat]?).bind fun l =>
            l.shownAt area.width.toNat (q.x - area.x).toNat)) else b.cellAt q := by
  intro n
  induction n with
  | zero => intro y s ls b _ _ _ _ _ h1 h2; exfalso; omega
  | succ n ih =>
    intro y s ls b wf hin hy hp h0 h1 h2
    unfold Paragraph.textLoop
    cases hy with
    | done e =>
      rw [e]
      refine ⟨b, rfl, rfl, wf, fun q => ?_⟩
      simp only [List.getElem?_nil, Option.bind_none]
      split
      · cases b.cellAt q <;> rfl
      · rfl
    | @more _ l s' ls e hy =>
      rw [e]
      simp only
      obtain ⟨b1, e1, a1, w1, c1⟩ := row_cells wf hin scrollY y l (hp l (by simp)) h1
      rw [e1]
      simp only [Option.bind_eq_bind, Option.bind_some]
      by_cases hend : y + 1 ≥ area.height + scrollY
      · rw [if_pos hend]
        refine ⟨b1, rfl, a1, w1, fun q => ?_⟩
        rw [c1 q]
        by_cases hq : area.contains q = true ∧ y ≤ q.y - area.y + scrollY
        · have hc := hq.1
          rw [Rect.contains_iff] at hc
          unfold Rect.Mem at hc
          rw [if_pos hq, if_pos ⟨hq.1, by omega⟩,
            show (q.y - area.y + scrollY - y).toNat = 0 by omega]
          rfl
        · rw [if_neg hq, if_neg (by intro hc; exact hq ⟨hc.1, by omega⟩)]
      · rw [if_neg hend]
        obtain ⟨b2, e2, a2, w2, c2⟩ := ih (y + 1) s' ls b1 w1 (by unfold Inside at *; rw [a1]; exact hin) hy
          (fun x hx => hp x (by simp [hx])) (by omega) (by omega) (by omega)
        refine ⟨b2, e2, a2.trans a1, w2, fun q => ?_⟩
        rw [c2 q, c1 q]
        by_cases hq : area.contains q = true ∧ y ≤ q.y - area.y + scrollY
        · rw [if_pos hq]
          by_cases hq2 : q.y - area.y + scrollY = y
          · rw [if_neg (by omega), if_pos ⟨hq.1, hq2⟩,
              show (q.y - area.y + scrollY - y).toNat = 0 by omega]
            rfl
          · rw [if_pos ⟨hq.1, by omega⟩, if_neg (by intro hc; exact hq2 hc.2),
              show (q.y - area.y + scrollY - y).toNat = (q.y - area.y + scrollY - (y + 1)).toNat + 1 by omega,
              List.getElem?_cons_succ]
        · rw [if_neg hq, if_neg (by intro hc; exact hq ⟨hc.1, by omega⟩),
            if_neg (by intro hc; exact hq ⟨hc.1, by omega⟩)]

theorem renderText_cells {S : Type} {next : S → Option (WrappedLine × S)} {scrollY : Int} {area : Rect}
    {s : S} {ls : List WrappedLine} {b : Buffer} (wf : b.WF) (hin : Inside b area)
    (hy : Yields next s ls) (hp : ∀ l ∈ ls, Paintable area.width l) (h1 : 0 < area.height + scrollY) :
    ∃ b', Paragraph.renderText next scrollY area s b = some b' ∧ b'.area = b.area ∧ b'.WF ∧
      ∀ q, b'.cellAt q = if area.contains q = true then
        (b.cellAt q).map (Cell.showing (rowsShown ls scrollY area q)) else b.cellAt q := by
  obtain ⟨b', e, a, w, h⟩ := textLoop_cells scrollY area ((area.height + scrollY).toNat + 1) 0 s ls b wf hin
    hy hp (Int.le_refl _) h1 (by omega)
  refine ⟨b', e, a, w, fun q => ?_⟩
  rw [h q]
  unfold rowsShown rowAt
  by_cases hc : area.contains q = true
  · rw [if_pos hc]
    by_cases h0 : 0 ≤ q.y - area.y + scrollY
    · rw [if_pos ⟨hc, h0⟩, if_pos h0, Int.sub_zero]
    · rw [if_neg (by intro h; exact h0 h.2), if_neg h0]
      cases b.cellAt q <;> rfl
  · rw [if_neg hc, if_neg (by intro h; exact hc h.1)]

/-! ### The truncator -/

theorem stringWidth_empty {u : Uniseg} (hu : u.Lawful) : u.stringWidth "" = 0 := by
  have h : u.graphemes "" = [] := by
    cases e : u.graphemes "" with
    | nil => rfl
    | cons c t =>
      have hj := hu.join ""
      have hc := hu.nonempty "" c (by rw [e]; simp)
      rw [e] at hj
      have : (String.join (c :: t)).toList = [] := by rw [hj]; rfl
      rw [String.join_cons, String.toList_append, List.append_eq_nil_iff] at this
      exact absurd (String.toList_eq_nil_iff.1 this.1) hc
  unfold Uniseg.stringWidth
  rw [h]
  rfl

/-- A grapheme as `StyledGraphemes` makes them: one cluster with its width. -/
def Uniseg.IsCluster (u : Uniseg) (g : StyledGrapheme) : Prop :=
  u.graphemes g.g.symbol = [g.g.symbol] ∧ g.g.width = u.stringWidth g.g.symbol

theorem styledGraphemes_cluster {u : Uniseg} (hu : u.Lawful) (l : Line) (base : Style) :
    ∀ g ∈ l.styledGraphemes u base, u.IsCluster g := by
  intro g hg
  unfold Line.styledGraphemes Span.styledGraphemes at hg
  simp only [List.mem_flatMap, List.mem_map, List.mem_filter] at hg
  obtain ⟨s, _, c, ⟨hc, _⟩, rfl⟩ := hg
  exact ⟨hu.idem _ c hc, rfl⟩

theorem cut_cluster {u : Uniseg} (hu : u.Lawful) {g : StyledGrapheme} (hg : u.IsCluster g) (a : Alignment)
    (offset : Int) :
    LineTruncator.cut u a offset g =
      (if offset = 0 ∨ a ≠ .left then (g.g.symbol, offset)
       else if (g.g.width : Int) > offset then (g.g.symbol, 0) else ("", offset - g.g.width)) := by
  unfold LineTruncator.cut
  split
  · rfl
  · split
    · rename_i h
      unfold LineTruncator.trimOffset
      rw [hg.1]
      unfold LineTruncator.trimLoop
      have : g.g.width = u.width g.g.symbol := by
        rw [hg.2]; unfold Uniseg.stringWidth; rw [hg.1]; simp
      rw [if_pos (by omega)]
      simp [String.join_cons]
    · rfl

theorem lineLoop_fits {u : Uniseg} (hu : u.Lawful) {max : Int} (a : Alignment) (gs : List StyledGrapheme) :
    ∀ s : LineTruncator.State, (∀ g ∈ gs, u.IsCluster g) → s.width = columns s.line → s.width ≤ max →
      (LineTruncator.lineLoop u max a gs s).width = columns (LineTruncator.lineLoop u max a gs s).line ∧
      (LineTruncator.lineLoop u max a gs s).width ≤ max := by
  induction gs with
  | nil => intro s _ h1 h2; exact ⟨h1, h2⟩
  | cons g t ih =>
    intro s hg h1 h2
    have ht := fun x (hx : x ∈ t) => hg x (by simp [hx])
    unfold LineTruncator.lineLoop
    split
    · exact ih s ht h1 h2
    · split
      · exact ⟨h1, h2⟩
      · rename_i hle
        apply ih _ ht
        · simp only [columns_append, columns_cons, h1]
          simp [columns, Grapheme.new]
        · simp only
          have hw := (hg g (by simp)).2
          have hz := stringWidth_empty hu
          rw [cut_cluster hu (hg g (by simp))]
          split
          · simp only; omega
          · split
            · simp only; omega
            · simp only; omega

theorem linesLoop_fits {u : Uniseg} (hu : u.Lawful) {max : Int} (ls : List InputLine) :
    ∀ s : LineTruncator.State, (∀ l ∈ ls, ∀ g ∈ l.graphemes, u.IsCluster g) →
      s.width = columns s.line → s.width ≤ max →
      (LineTruncator.linesLoop u max ls s).width = columns (LineTruncator.linesLoop u max ls s).line ∧
      (LineTruncator.linesLoop u max ls s).width ≤ max := by
  induction ls with
  | nil => intro s _ h1 h2; exact ⟨h1, h2⟩
  | cons l t ih =>
    intro s hg h1 h2
    unfold LineTruncator.linesLoop
    obtain ⟨i1, i2⟩ := lineLoop_fits hu l.alignment l.graphemes s (hg l (by simp)) h1 h2
    exact ih _ (fun x hx => hg x (by simp [hx])) i1 i2

/-- The only row of the truncator. -/
def truncatorRow (u : Uniseg) (lines : List InputLine) (max h : Int) (a : Alignment) : WrappedLine :=
  ⟨(LineTruncator.linesLoop u max lines ⟨StyledGrapheme.cleared [], 0, h⟩).line,
    (LineTruncator.linesLoop u max lines ⟨StyledGrapheme.cleared [], 0, h⟩).width, a⟩

theorem truncator_some (u : Uniseg) {lines : List InputLine} {last : InputLine}
    (hlast : lines.getLast? = some last) {max : Int} (hmax : max ≠ 0) (h : Int) :
    Yields (LineTruncator.nextLine u) (LineTruncator.new lines max h)
      [truncatorRow u lines max h last.alignment] := by
  have e : LineTruncator.nextLine u (LineTruncator.new lines max h) =
      some (truncatorRow u lines max h last.alignment,
        { LineTruncator.new lines max h with
          inputLines := []
          currentLine := (truncatorRow u lines max h last.alignment).line }) := by
    unfold LineTruncator.nextLine LineTruncator.new
    simp only [hlast]
    rw [if_neg hmax]
    rfl
  refine .more e (.done ?_)
  unfold LineTruncator.nextLine
  simp only [List.getLast?_nil, ite_self]

/-- The truncator delivers at most one row, and it fits. -/
theorem truncator_yields {u : Uniseg} (hu : u.Lawful) (lines : List InputLine) {max : Int} (hmax : 0 < max)
    (h : Int) (hc : ∀ l ∈ lines, ∀ g ∈ l.graphemes, u.IsCluster g)
    (ha : ∀ l ∈ lines, l.alignment ≠ .none) :
    ∃ ls, Yields (LineTruncator.nextLine u) (LineTruncator.new lines max h) ls ∧
      (∀ l ∈ ls, Paintable max l) := by
  rcases hlast : lines.getLast? with _ | last
  · refine ⟨[], .done ?_, by simp⟩
    unfold LineTruncator.nextLine LineTruncator.new
    simp only [hlast]
    split <;> rfl
  · obtain ⟨i1, i2⟩ := linesLoop_fits hu (max := max) lines ⟨StyledGrapheme.cleared [], 0, h⟩ hc rfl (by
      simp only; omega)
    refine ⟨_, truncator_some u hlast (by omega) h, ?_⟩
    intro l hl
    rw [List.mem_singleton] at hl
    subst hl
    exact ⟨ha last (List.mem_of_getLast? hlast), i1, by unfold truncatorRow; rw [← i1]; exact i2⟩

/-- The graphemes of a row that take columns. -/
def solid (l : List StyledGrapheme) : List StyledGrapheme := l.filter fun g => g.g.width ≠ 0

theorem atColumn_solid (l : List StyledGrapheme) : ∀ k, (∀ g ∈ l, g.g.width ≤ 1) →
    atColumn l k = (solid l)[k]? := by
  induction l with
  | nil => intro k _; rfl
  | cons g t ih =>
    intro k h
    have ht := fun x (hx : x ∈ t) => h x (by simp [hx])
    have hg := h g (by simp)
    unfold atColumn solid
    rw [List.filter_cons]
    by_cases h0 : g.g.width = 0
    · simp only [h0, if_true, ne_eq, not_true_eq_false, decide_false, Bool.false_eq_true, if_false]
      exact ih k ht
    · simp only [h0, if_false, ne_eq, not_false_eq_true, decide_true, if_true]
      cases k with
      | zero => simp
      | succ k =>
        rw [if_neg (by omega), if_neg (by omega), List.getElem?_cons_succ,
          show k + 1 - g.g.width = k by omega]
        exact ih k ht

theorem columns_solid (l : List StyledGrapheme) (h : ∀ g ∈ l, g.g.width ≤ 1) :
    columns l = (solid l).length := by
  induction l with
  | nil => rfl
  | cons g t ih =>
    have ht := fun x (hx : x ∈ t) => h x (by simp [hx])
    have hg := h g (by simp)
    rw [columns_cons, ih ht]
    unfold solid
    rw [List.filter_cons]
    by_cases h0 : g.g.width = 0
    · simp [h0]
    · simp only [h0, ne_eq, not_false_eq_true, decide_true, if_true, List.length_cons]
      omega

theorem solid_append (a b : List StyledGrapheme) : solid (a ++ b) = solid a ++ solid b := by
  simp [solid]

/-- What the truncator keeps of a line of single-width graphemes. -/
theorem lineLoop_narrow {u : Uniseg} (hu : u.Lawful) {max : Int} (hmax : 0 < max) (a : Alignment)
    (gs : List StyledGrapheme) :
    ∀ s : LineTruncator.State, (∀ g ∈ gs, u.IsCluster g ∧ g.g.width = 1) → (∀ g ∈ s.line, g.g.width ≤ 1) →
      solid (LineTruncator.lineLoop u max a gs s).line =
        solid s.line ++ (gs.drop (if a = .left then s.offset.toNat else 0)).take (max - s.width).toNat ∧
      (∀ g ∈ (LineTruncator.lineLoop u max a gs s).line, g.g.width ≤ 1) := by
  induction gs with
  | nil =>
    intro s _ h
    exact ⟨by simp [LineTruncator.lineLoop], h⟩
  | cons g t ih =>
    intro s hg h
    have ht := fun x (hx : x ∈ t) => hg x (by simp [hx])
    obtain ⟨hc, h1⟩ := hg g (by simp)
    unfold LineTruncator.lineLoop
    rw [if_neg (by omega)]
    by_cases hover : s.width + (g.g.width : Int) > max
    · rw [if_pos hover]
      refine ⟨?_, h⟩
      rw [show (max - s.width).toNat = 0 by omega]
      simp
    · rw [if_neg hover]
      simp only
      have hself : (⟨Grapheme.new u g.g.symbol, g.style⟩ : StyledGrapheme) = g := by
        unfold Grapheme.new
        rw [← hc.2]
      have hsw : u.stringWidth g.g.symbol = 1 := by rw [← hc.2]; exact h1
      have hn : (max - s.width).toNat = (max - (s.width + 1)).toNat + 1 := by omega
      have hone : solid [g] = [g] := by simp [solid, h1]
      rw [cut_cluster hu hc]
      by_cases hkeep : s.offset = 0 ∨ a ≠ .left
      · rw [if_pos hkeep]
        simp only
        obtain ⟨i1, i2⟩ := ih ⟨s.line ++ [⟨Grapheme.new u g.g.symbol, g.style⟩],
          s.width + u.stringWidth g.g.symbol, s.offset⟩ ht (by
            intro x hx
            simp only [List.mem_append, List.mem_singleton] at hx
            rcases hx with hx | rfl
            · exact h x hx
            · rw [hself]; omega)
        refine ⟨?_, i2⟩
        rw [i1]
        simp only
        have hz : (if a = .left then s.offset.toNat else 0) = 0 := by
          split
          · rcases hkeep with hk | hk
            · rw [hk]; rfl
            · rename_i hl; exact absurd hl hk
          · rfl
        rw [hz, List.drop_zero, List.drop_zero, solid_append, hself, hone, hsw, hn, List.take_succ_cons]
        simp
      · rw [if_neg hkeep]
        simp only [not_or, ne_eq, not_not] at hkeep
        obtain ⟨hk1, rfl⟩ := hkeep
        by_cases hneg : (g.g.width : Int) > s.offset
        · rw [if_pos hneg]
          simp only
          obtain ⟨i1, i2⟩ := ih ⟨s.line ++ [⟨Grapheme.new u g.g.symbol, g.style⟩],
            s.width + u.stringWidth g.g.symbol, 0⟩ ht (by
              intro x hx
              simp only [List.mem_append, List.mem_singleton] at hx
              rcases hx with hx | rfl
              · exact h x hx
              · rw [hself]; omega)
          refine ⟨?_, i2⟩
          rw [i1]
          simp only [if_true]
          rw [show s.offset.toNat = 0 by omega, solid_append, hself, hone, hsw, hn]
          simp
        · rw [if_neg hneg]
          simp only
          have hz : (Grapheme.new u "").width = 0 := stringWidth_empty hu
          obtain ⟨i1, i2⟩ := ih ⟨s.line ++ [⟨Grapheme.new u "", g.style⟩],
            s.width + u.stringWidth "", s.offset - g.g.width⟩ ht (by
              intro x hx
              simp only [List.mem_append, List.mem_singleton] at hx
              rcases hx with hx | rfl
              · exact h x hx
              · simp only [hz]; omega)
          refine ⟨?_, i2⟩
          rw [i1]
          simp only [if_true]
          have hse : solid [(⟨Grapheme.new u "", g.style⟩ : StyledGrapheme)] = [] := by
            simp [solid, hz]
          rw [solid_append, hse, List.append_nil, stringWidth_empty hu,
            show s.offset.toNat = (s.offset - (g.g.width : Int)).toNat + 1 by omega, List.drop_succ_cons]
          simp

end Bento
