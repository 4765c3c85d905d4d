import Verif.Props.InputField
import Verif.Props.Popup
import Verif.Props.Block
import Verif.Props.ListWidget
import Verif.Props.WideText

/-!
# The row of an input field
-/

namespace Bento

namespace InputField

/-- The row of the content area, counted from its first one, in which an input field is drawn. -/
def rowOf (vertical : Flex) (height : Int) : Int :=
  match vertical with
  | .end' => height - 1
  | .center => height / 2
  | _ => 0

/-- The area inside of the block. -/
def content (i : InputField.Widget) (area : Rect) : Rect := (i.block.map fun k => k.inner area).getD area

/-- The layout of a single line. -/
def lineLayout (vertical : Flex) : Layout := ⟨.vertical, [.len 1], Padding.none', vertical, .space 0⟩

theorem inner_none (area : Rect) (hw : 0 ≤ area.width) (hh : 0 ≤ area.height) : area.inner Padding.none' = area := by
  obtain ⟨x, y, w, h⟩ := area
  simp only at hw hh
  unfold Rect.inner Padding.none'
  simp only
  rw [if_neg (by omega)]
  simp [hw, hh]

theorem whole_row {vertical : Flex} (hv : vertical ≠ .spaceAround)
    (hf : ¬(vertical = .start ∨ vertical = .end' ∨ vertical = .center)) (h : Int) (c : Constraint) :
    Layout.singleSize vertical h c = h ∧ (∀ z, Layout.singleStart vertical h z = 0) ∧ rowOf vertical h = 0 := by
  cases vertical
  · exact ⟨rfl, fun _ => rfl, rfl⟩
  · exact absurd (.inl rfl) hf
  · exact absurd (.inr (.inl rfl)) hf
  · exact absurd (.inr (.inr rfl)) hf
  · exact ⟨rfl, fun _ => rfl, rfl⟩
  · exact absurd rfl hv

theorem row_split (ω : Nat → Nat) (fuel : Nat) (vertical : Flex) (hv : vertical ≠ .spaceAround) (area : Rect)
    (hw : 0 ≤ area.width) (hy : 0 ≤ area.y) (hh : 1 ≤ area.height) :
    Layout.splitWithSpacers ω fuel (lineLayout vertical) area = .running ∨
    ∃ (row before after : Rect), Layout.splitWithSpacers ω fuel (lineLayout vertical) area = .ok [row] [before, after] ∧
      row.x = area.x ∧ row.width = area.width ∧ row.y = area.y + rowOf vertical area.height ∧
      1 ≤ row.height ∧ row.y + row.height ≤ area.y + area.height := by
  have hin : area.inner (lineLayout vertical).padding = area := inner_none area hw (by omega)
  rcases C86_single_segment ω fuel (lineLayout vertical) (.len 1) rfl area with h | ⟨r, bf, af, q, h, hfit, s1, s2, _, _, _, _, q0, q1, q2, _⟩
  · exact .inl h
  refine .inr ⟨r, bf, af, h, ?_⟩
  rw [hin] at hfit s1 s2 q1 q2
  have hd : (lineLayout vertical).direction = .vertical := rfl
  rw [hd] at hfit s1 s2 q1 q2
  obtain ⟨f1, f2, f3, f4, f5⟩ := hfit
  simp only [Layout.lo, Layout.extent] at f1 f2 f3 s1 s2 q1 q2
  refine ⟨f4, f5, ?_⟩
  by_cases hf : vertical = .start ∨ vertical = .end' ∨ vertical = .center
  · rcases C86_exact_length ω fuel (lineLayout vertical) 1 rfl hf area (by rw [hin]; exact hy) (by omega)
      (by rw [hin]; exact hh) with h' | ⟨r', _, _, h', e1, e2⟩
    · rw [h] at h'; cases h'
    rw [h] at h'
    cases h'
    rw [hin] at e2
    have e1 : r.height = 1 := e1
    have : r.y = area.y + rowOf vertical area.height := by
      rcases hf with hf | hf | hf
      · subst hf; exact e2
      · subst hf; exact e2
      · subst hf
        have e2 : r.y = area.y + (area.height - 1 + 1) / 2 := e2
        show r.y = area.y + area.height / 2
        omega
    omega
  · have hq := q2 hv
    have hsz := whole_row hv hf area.height (.len 1)
    have hl : (lineLayout vertical).flex = vertical := rfl
    rw [hl] at hq s2
    rw [hsz.2.1] at hq
    have hsz2 := hsz.2.2
    subst hq
    rw [hsz.1] at s2
    have a := s1.2 area.y (by push_cast; ring)
    have b := s2.2 (area.y + area.height) (by push_cast; ring)
    omega

end InputField

open InputField

/-- **C99.** However large its area, an input field is drawn in one row of what is inside of its block: the
first one, the last one or the middle one. (`FlexSpaceAround` leaves the place open.) -/
theorem C99_row (ω : Nat → Nat) (fuel : Nat) (u : Uniseg) (i : InputField.Widget) (hv : i.vertical ≠ .spaceAround)
    (area : Rect) (hw : 0 ≤ (content i area).width) (hy : 0 ≤ (content i area).y) (hh : 1 ≤ (content i area).height)
    (b : Buffer) (s : State) :
    Layout.splitWithSpacers ω fuel (lineLayout i.vertical) (content i area) = .running ∨
    ∃ row : Rect, row.x = (content i area).x ∧ row.width = (content i area).width ∧
      row.y = (content i area).y + rowOf i.vertical (content i area).height ∧ 1 ≤ row.height ∧
      row.y + row.height ≤ (content i area).y + (content i area).height ∧
      i.render ω fuel u area b s = (do
        let b ← b.setStyle area i.style
        let b ← i.block.elim (some b) fun k => k.render u area b
        i.renderRow u row b s) := by
  rcases row_split ω fuel i.vertical hv (content i area) hw hy hh with h | ⟨row, _, _, h, h1, h2, h3, h4, h5⟩
  · exact .inl h
  refine .inr ⟨row, h1, h2, h3, h4, h5, ?_⟩
  have hl : i.rowLayout = lineLayout i.vertical := rfl
  unfold InputField.Widget.render content at *
  cases hb : i.block with
  | none =>
    rw [hb] at h
    simp only [Option.map_none, Option.getD_none] at h
    simp only [hl, Option.elim_none, Option.bind_eq_bind, Option.bind_some, h]
  | some k =>
    rw [hb] at h
    simp only [Option.map_some, Option.getD_some] at h
    simp only [hl, Option.elim_some, Option.bind_eq_bind]
    congr 1
    funext b1
    cases k.render u area b1 with
    | none => rfl
    | some b2 => simp only [Option.map_some, Option.bind_some, h]

/-- What is on the screen, for text of symbols that take one or more columns and stay apart: the prompt, a part of
the text with the cursor in it and nothing else, aligned in the row, each symbol in its first column with blanks in its
other ones; and the symbol at the cursor has the cursor's style. -/
theorem C39_visible_partial {u : Uniseg} (hu : u.Lawful) (hs : u.Suffix) (i : InputField.Widget) (row : Rect) (b : Buffer)
    (wf : b.WF) (hin : Inside b row) (hh : 0 < row.height) (s : State)
    (hp : ∀ c ∈ u.graphemes i.prompt, u.Visible c) (hne : s.graphemes ≠ [])
    (hvis : ∀ g ∈ s.graphemes, g.width = u.width g.symbol ∧ u.Visible g.symbol) (hsep : Separate u s.graphemes)
    (hw : (u.stringWidth i.prompt : Int) + 1 ≤ row.width)
    (h : Ready (row.width - u.stringWidth i.prompt - 1) s) :
    ∃ b' s', i.renderRow u row b s = some (b', s') ∧
      ∃ pre before after post : List Grapheme,
        s.graphemes = pre ++ before ++ after ++ post ∧ s.cursor = (pre ++ before).length ∧
        (0 < s.cursor → before ≠ []) ∧ s' = { s with offset := pre.length } ∧
        ∃ (text : List String) (origin : Int), text = u.graphemes i.prompt ++ before.map Grapheme.symbol ++
            cursorText s.showCursor after ++ after.tail.map Grapheme.symbol ∧
          (u.columns text : Int) ≤ row.width ∧
          origin = (match i.alignment with
            | .center => (row.width - u.columns text) / 2
            | .right => row.width - u.columns text
            | _ => 0) ∧
          (∀ (j : Nat) (c : String), text[j]? = some c → ∀ k : Nat, k < u.width c →
            b'.symbolAt ⟨row.x + origin + u.columns (text.take j) + k, row.y⟩ = some (if k = 0 then c else " ")) ∧
          (∀ q : Position, ¬ (q.y = row.y ∧ row.x + origin ≤ q.x ∧ q.x < row.x + origin + u.columns text) →
            b'.symbolAt q = b.symbolAt q) ∧
          (s.showCursor = true → ∀ q : Position, q.y = row.y →
            q.x = row.x + origin + u.columns (u.graphemes i.prompt) + u.columns (before.map Grapheme.symbol) →
            ∃ c, b.cellAt q = some c ∧ ∃ c0, (c0 = c ∨ c0 = c.setStyle Style.new) ∧
              b'.cellAt q = some ((c0.setSymbol ((after.head?.map Grapheme.symbol).getD " ")).setStyle
                (Style.new.patched i.cursorStyle))) := by
  obtain ⟨l, s', e, pre, before, after, post, h1, h2, h3, h4, h5, h6⟩ := line_spec u i hw h
  have hsym : ∀ g ∈ s.graphemes, g.symbol ≠ "" := by
    intro g hg
    obtain ⟨x, y, hxy⟩ := List.append_of_mem hg
    have := hsep [g] ⟨x, y, by rw [hxy]; simp⟩
    have hm := hu.nonempty (graphemesString [g]) g.symbol (by rw [this]; simp)
    exact hm
  have hl := h6 hne hsym
  rw [h1] at hsep
  have hst := textLine_clusters hu i s.showCursor hsep
  rw [← hl] at hst
  have hcl : l.clusters u = u.graphemes i.prompt ++ before.map Grapheme.symbol ++
      cursorText s.showCursor after ++ after.tail.map Grapheme.symbol := by
    have : l.clusters u = (l.styledClusters u).map Prod.fst := by
      unfold Line.clusters Line.styledClusters
      rw [List.map_flatMap]
      congr 1
      funext sp
      simp [List.map_map, Function.comp_def]
    rw [this, hst]
    simp [List.map_map, Function.comp_def]
  have hmem : ∀ g, (g ∈ before ∨ g ∈ after) → g ∈ s.graphemes := by
    intro g hg
    rw [h1]
    simp only [List.mem_append]
    tauto
  have hvc : ∀ c ∈ l.clusters u, u.Visible c := by
    intro c hcm
    rw [hcl] at hcm
    simp only [List.mem_append, List.mem_map] at hcm
    rcases hcm with ((hc | ⟨g, hg, rfl⟩) | hc) | ⟨g, hg, rfl⟩
    · exact hp c hc
    · exact (hvis g (hmem g (.inl hg))).2
    · unfold cursorText at hc
      cases after with
      | nil =>
        simp only [List.head?_nil] at hc
        split at hc
        · simp only [List.mem_singleton] at hc
          subst hc
          exact ⟨by rw [hu.space.2], by decide⟩
        · simp at hc
      | cons g t =>
        simp only [List.head?_cons, List.mem_singleton] at hc
        subst hc
        exact (hvis g (hmem g (.inr (List.mem_cons_self ..)))).2
    · exact (hvis g (hmem g (.inr (List.mem_of_mem_tail hg)))).2
  have hnt : l.VisibleText u := fun sp hsp c hc => hvc c (List.mem_flatMap.2 ⟨sp, hsp, hc⟩)
  have hcols : ∀ gs : List Grapheme, (∀ g ∈ gs, g ∈ s.graphemes) →
      widthOf gs = (u.columns (gs.map Grapheme.symbol) : Nat) := by
    intro gs
    induction gs with
    | nil => intro _; rfl
    | cons g gs ih =>
      intro hg
      have := ih fun x hx => hg x (List.mem_cons_of_mem _ hx)
      unfold widthOf Uniseg.columns at this ⊢
      simp only [List.map_cons, List.sum_cons, (hvis g (hg g List.mem_cons_self)).1, this]
      push_cast
      rfl
  have hcapp : ∀ x y : List String, u.columns (x ++ y) = u.columns x + u.columns y := by
    intro x y; simp [Uniseg.columns]
  have hpr : u.columns (u.graphemes i.prompt) = u.stringWidth i.prompt := rfl
  have hlen : (u.columns (l.clusters u) : Int) ≤ row.width := by
    have hb := hcols before fun g hg => hmem g (.inl hg)
    have ha := hcols after fun g hg => hmem g (.inr hg)
    have hba : widthOf (before ++ after) = widthOf before + widthOf after := by simp [widthOf]
    rw [hcl, hcapp, hcapp, hcapp, hpr]
    have hct : u.columns (cursorText s.showCursor after) + u.columns (after.tail.map Grapheme.symbol) ≤
        u.columns (after.map Grapheme.symbol) + 1 := by
      unfold cursorText
      cases after with
      | nil => cases s.showCursor <;> simp [Uniseg.columns, hu.space.2]
      | cons g t => simp [Uniseg.columns]
    omega
  have hal : l.alignment = i.alignment := by rw [hl]; rfl
  have hls : l.style = Style.new := by rw [hl]; rfl
  obtain ⟨b', eb, hb, ho⟩ := C100_line hu hs l hnt row b wf hin hh
  obtain ⟨b2, eb2, hb2⟩ := C100_styles hu hs l hnt row b wf hin hh
  rw [eb] at eb2
  simp only [Option.some.injEq] at eb2
  subst eb2
  have hwn : ((row.width.toNat : Nat) : Int) = row.width := by omega
  have horg : l.alignment.origin row.width.toNat (u.columns (l.clusters u)) = (match i.alignment with
            | .center => (row.width - u.columns (l.clusters u)) / 2
            | .right => row.width - u.columns (l.clusters u)
            | _ => 0) := by
    rw [hal]
    unfold Alignment.origin
    rw [if_pos (by omega)]
    cases i.alignment <;> simp only [Alignment.before] <;> omega
  have hbnd : 0 ≤ l.alignment.origin row.width.toNat (u.columns (l.clusters u)) ∧
      l.alignment.origin row.width.toNat (u.columns (l.clusters u)) + u.columns (l.clusters u) ≤ row.width := by
    rw [horg]
    cases i.alignment <;> simp only <;> omega
  rw [horg] at hb ho hb2 hbnd
  generalize horig : (match i.alignment with
            | .center => (row.width - u.columns (l.clusters u)) / 2
            | .right => row.width - u.columns (l.clusters u)
            | _ => 0) = origin at horg hb ho hb2 hbnd
  refine ⟨b', s', ?_, pre, before, after, post, h1, h2, h3, h5, l.clusters u, origin, hcl, hlen, ?_, ?_, ?_, ?_⟩
  · unfold InputField.Widget.renderRow
    rw [e, Option.bind_eq_bind, Option.bind_some]
    simp only
    rw [eb]
    rfl
  · rw [← horig]
  · intro j c hj k hk
    have hg := columns_get (u := u) hj
    have := hb j c (origin + u.columns ((l.clusters u).take j)) (origin + u.columns ((l.clusters u).take j) + k)
      ⟨hj, rfl, by omega, by omega, by omega, by omega⟩
    rw [show row.x + origin + (u.columns ((l.clusters u).take j) : Int) + (k : Int) =
      row.x + (origin + u.columns ((l.clusters u).take j) + k) by omega, this]
    by_cases hk0 : k = 0
    · rw [if_pos (by omega), if_pos hk0]
    · rw [if_neg (by omega), if_neg hk0]
  · intro q hq
    refine ho q fun hy j c x ⟨g1, g2, g3, g4, g5, g6⟩ => ?_
    have hg := columns_get (u := u) g1
    exact hq ⟨hy, by omega, by omega⟩
  · intro hshow q hy hx
    have hidx : (l.styledClusters u)[(u.graphemes i.prompt).length + before.length]? =
        some ((after.head?.map Grapheme.symbol).getD " ", Style.new.patched i.cursorStyle) := by
      rw [hst, hshow, List.append_assoc, List.getElem?_append_right (by simp)]
      simp only [List.length_append, List.length_map, Nat.sub_self]
      unfold cursorText
      cases after <;> simp
    have hidc : (l.clusters u)[(u.graphemes i.prompt).length + before.length]? =
        some ((after.head?.map Grapheme.symbol).getD " ") := by
      rw [hcl, hshow, List.append_assoc, List.getElem?_append_right (by simp)]
      simp only [List.length_append, List.length_map, Nat.sub_self]
      unfold cursorText
      cases after <;> simp
    have htake : (l.clusters u).take ((u.graphemes i.prompt).length + before.length) =
        u.graphemes i.prompt ++ before.map Grapheme.symbol := by
      rw [hcl, List.append_assoc, List.take_append_of_le_length (by simp), List.take_of_length_le (by simp)]
    have hvx := (hvc _ (List.mem_of_getElem? hidc)).1
    have hg := columns_get (u := u) hidc
    rw [htake, hcapp] at hg
    obtain ⟨c, c0, a1, a2, a3⟩ := hb2 _ _ _ (q.x - row.x) hidx
      ⟨hidc, by rw [htake, hcapp]; push_cast; omega, by omega, by omega, by omega, by omega⟩
    have hq : (⟨row.x + (q.x - row.x), row.y⟩ : Position) = q := by
      obtain ⟨qx, qy⟩ := q
      simp only at hy
      subst hy
      simp only [Position.mk.injEq, and_true]
      omega
    rw [hq] at a1 a3
    rw [hls] at a2
    exact ⟨c, a1, c0, a2, a3⟩

/-- **C99**, what is on the screen afterwards, for text of symbols that take one or more columns and stay apart: in the
row, the prompt and a part of the text with the cursor in it, aligned, each symbol in its first column with blanks in
its other ones; all other cells of the content area keep their symbols, and no symbol outside of the area changes. -/
theorem C99_shown (ω : Nat → Nat) (fuel : Nat) {u : Uniseg} (hu : u.Lawful) (hs : u.Suffix) (i : InputField.Widget)
    (hv : i.vertical ≠ .spaceAround) (area : Rect) (hx : 0 ≤ area.x) (hy : 0 ≤ (content i area).y)
    (hpad : ∀ k ∈ i.block, 0 ≤ k.padding.left ∧ 0 ≤ k.padding.right ∧ 0 ≤ k.padding.top ∧ 0 ≤ k.padding.bottom)
    (hh : 1 ≤ (content i area).height) (b : Buffer) (wf : b.WF) (hin : Inside b area) (s : State)
    (hp : ∀ c ∈ u.graphemes i.prompt, u.Visible c) (hne : s.graphemes ≠ [])
    (hvis : ∀ g ∈ s.graphemes, g.width = u.width g.symbol ∧ u.Visible g.symbol) (hsep : Separate u s.graphemes)
    (hw : (u.stringWidth i.prompt : Int) + 1 ≤ (content i area).width)
    (h : Ready ((content i area).width - u.stringWidth i.prompt - 1) s) :
    Layout.splitWithSpacers ω fuel (lineLayout i.vertical) (content i area) = .running ∨
    ∃ b' s', i.render ω fuel u area b s = some (b', s') ∧
      (∀ q, area.contains q = false → b'.symbolAt q = b.symbolAt q) ∧
      ∃ pre before after post : List Grapheme,
        s.graphemes = pre ++ before ++ after ++ post ∧ s.cursor = (pre ++ before).length ∧
        (0 < s.cursor → before ≠ []) ∧ s' = { s with offset := pre.length } ∧
        ∃ (text : List String) (x y : Int), text = u.graphemes i.prompt ++ before.map Grapheme.symbol ++
            cursorText s.showCursor after ++ after.tail.map Grapheme.symbol ∧
          (u.columns text : Int) ≤ (content i area).width ∧
          x = (content i area).x + (match i.alignment with
            | .center => ((content i area).width - u.columns text) / 2
            | .right => (content i area).width - u.columns text
            | _ => 0) ∧
          y = (content i area).y + rowOf i.vertical (content i area).height ∧
          (∀ (j : Nat) (c : String), text[j]? = some c → ∀ k : Nat, k < u.width c →
            b'.symbolAt ⟨x + u.columns (text.take j) + k, y⟩ = some (if k = 0 then c else " ")) ∧
          ∀ q : Position, (content i area).contains q = true → ¬ (q.y = y ∧ x ≤ q.x ∧ q.x < x + u.columns text) →
            b'.symbolAt q = b.symbolAt q := by
  rcases C99_row ω fuel u i hv area (by omega) hy hh b s with hr | ⟨row, r1, r2, r3, r4, r5, hr⟩
  · exact .inl hr
  right
  obtain ⟨b1, e1, a1, wf1, c1⟩ := setStyle_cells wf area i.style
  have s1 := setStyle_symbols c1
  have hin1 : Inside b1 area := by unfold Inside at *; rw [a1]; exact hin
  obtain ⟨b2, e2, a2, wf2, o2, s2, hsub⟩ : ∃ b2 : Buffer, (i.block.elim (some b1) fun k => k.render u area b1) = some b2 ∧
      b2.area = b.area ∧ b2.WF ∧ (∀ q, area.contains q = false → b2.symbolAt q = b.symbolAt q) ∧
      (∀ q, (content i area).contains q = true → b2.symbolAt q = b.symbolAt q) ∧
      (∀ q, (content i area).contains q = true → area.contains q = true) := by
    cases hb : i.block with
    | none =>
      have hc : content i area = area := by unfold content; rw [hb]; rfl
      rw [hc]
      exact ⟨b1, rfl, a1, wf1, fun q _ => s1 q, fun q _ => s1 q, fun q h => h⟩
    | some k =>
      have hc : content i area = k.inner area := by unfold content; rw [hb]; rfl
      rw [hc]
      obtain ⟨b2, e2, a2, wf2, o2, i2⟩ := C43_frame_only_partial u k area b1 wf1 hin1 hx
      have hsub : ∀ q, (k.inner area).contains q = true → area.contains q = true ∧ ¬ k.OnFrame area q :=
        fun q hq => C42_inner_inside k area hin.2.2.2.2.1 hin.2.2.2.2.2 (hpad k hb) q hq
      refine ⟨b2, e2, a2.trans a1, wf2, ?_, ?_, fun q hq => (hsub q hq).1⟩
      · intro q hq
        rw [← s1 q]
        unfold Buffer.symbolAt
        rw [o2 q hq]
      · intro q hq
        rw [← s1 q]
        unfold Buffer.symbolAt
        rw [i2 q (hsub q hq).1 (hsub q hq).2]
        cases b1.cellAt q <;> rfl
  have hinc : Inside b2 (content i area) :=
    ListWidget.inside_of_sub (by unfold Inside at *; rw [a2]; exact hin) (by omega) (by omega) hsub
  have hro : 0 ≤ rowOf i.vertical (content i area).height := by
    unfold rowOf
    split <;> omega
  have hrow : Inside b2 row := by
    unfold Inside at *
    omega
  obtain ⟨b', s', g1, pre, before, after, post, g2, g3, g4, g5, text, origin, g6, g7, g8, g9, g10, _⟩ :=
    C39_visible_partial hu hs i row b2 wf2 hrow (by omega) s hp hne hvis hsep (by rw [r2]; exact hw)
      (by rw [r2]; exact h)
  have hbnd : 0 ≤ origin ∧ origin + u.columns text ≤ row.width := by
    rw [g8]
    cases i.alignment <;> simp only <;> omega
  rw [r2] at g7 g8 hbnd
  refine ⟨b', s', ?_, ?_, pre, before, after, post, g2, g3, g4, g5, text, row.x + origin, row.y, g6, g7,
    by rw [g8, r1], r3, g9, ?_⟩
  · rw [hr, e1]
    simp only [Option.bind_eq_bind, Option.bind_some, e2]
    exact g1
  · intro q hq
    rw [g10 q, o2 q hq]
    rintro ⟨t1, t2, t3⟩
    have := hsub q (by
      rw [Rect.contains_iff]
      unfold Rect.Mem
      omega)
    rw [this] at hq
    cases hq
  · intro q hq hn
    rw [g10 q hn, s2 q hq]

/-- "世界a" after the prompt "> " with the cursor at its end in a row of seven columns, centered: the first symbol has
scrolled out, and the wide one takes two columns. -/
example :
    let s : State := ⟨3, true, [⟨"世", 2⟩, ⟨"界", 2⟩, ⟨"a", 1⟩], 1⟩
    let i : InputField.Widget := { sampleInput with prompt := "> ", alignment := .center }
    (∀ g ∈ s.graphemes, g.width = Uniseg.simple.width g.symbol) ∧
    (i.renderRow Uniseg.simple ⟨0, 0, 7, 1⟩ ⟨⟨0, 0, 7, 1⟩, List.replicate 7 { Cell.empty with symbol := "." }⟩ s).map
      (fun r => r.1.content.map Cell.symbol) = some [">", " ", "界", " ", "a", " ", "."] := by
  decide +kernel

/-- **C99**, termination: the row is found with probability one over the orders of the solver's maps. -/
theorem C99_almost_surely (vertical : Flex) (area : Rect) (μ : ℕ → MeasureTheory.Measure ℕ)
    [∀ n, MeasureTheory.IsProbabilityMeasure (μ n)] {ε : ENNReal} (hε : ε ≠ 0) (h0 : ∀ n, ε ≤ μ n {0}) :
    ∀ᵐ ω ∂(MeasureTheory.Measure.infinitePi μ), Returns ω (lineLayout vertical) area :=
  C86_almost_surely (lineLayout vertical) (.len 1) rfl area μ hε h0

/-- An input at the bottom of a framed box of eight columns and five rows, with "abc" in it and the cursor at
"c". -/
def boxedInput : InputField.Widget :=
  { sampleInput with block := some { Block.new with borders := 15 }, vertical := .end', prompt := ">" }

/-- The hypotheses are met by it, and the row it is drawn in is the one above the lower border. -/
example : content boxedInput ⟨0, 0, 8, 5⟩ = ⟨1, 1, 6, 3⟩ ∧ rowOf boxedInput.vertical 3 = 2 ∧
    boxedInput.vertical ≠ .spaceAround ∧
    Ready (6 - 1 - 1) ⟨2, true, "abc".toList.map fun c => ⟨String.ofList [c], 1⟩, 0⟩ :=
  ⟨by decide +kernel, rfl, by decide, by decide, by decide, by decide, by decide, by decide +kernel, by decide +kernel⟩

/-- The solver does find that row. -/
example : Layout.splitWithSpacers (fun _ => 0) 100 (lineLayout .end') ⟨1, 1, 6, 3⟩ =
    .ok [⟨1, 3, 6, 1⟩] [⟨1, 1, 6, 2⟩, ⟨1, 4, 6, 0⟩] := by
  unfold lineLayout
  rw [Layout.split_fast _ _ (by decide)]
  decide +kernel

end Bento
