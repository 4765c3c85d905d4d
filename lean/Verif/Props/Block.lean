import Verif.Props.Style
import Verif.Lemmas.Block
import Verif.Props.WideText

/-!
# Property theorems: blocks
-/

namespace Bento

open Buffer

open Classical in
/-- One cell if the side is taken. -/
noncomputable def oneIf (p : Prop) : Int := if p then 1 else 0

theorem oneIf_pos {p : Prop} (h : p) : oneIf p = 1 := by unfold oneIf; rw [if_pos h]
theorem oneIf_neg {p : Prop} (h : ¬ p) : oneIf p = 0 := by unfold oneIf; rw [if_neg h]

theorem oneIf_cases (p : Prop) : (p ∧ oneIf p = 1) ∨ (¬ p ∧ oneIf p = 0) := by
  by_cases h : p
  · exact Or.inl ⟨h, oneIf_pos h⟩
  · exact Or.inr ⟨h, oneIf_neg h⟩

theorem oneIf_bool {x : Bool} {p : Prop} (h : x = true ↔ p) :
    (x = true ∧ oneIf p = 1) ∨ (x = false ∧ oneIf p = 0) := by
  rcases oneIf_cases p with ⟨hp, e⟩ | ⟨hp, e⟩
  · exact Or.inl ⟨h.2 hp, e⟩
  · refine Or.inr ⟨?_, e⟩
    cases x with
    | false => rfl
    | true => exact absurd (h.1 rfl) hp

/-- `Inner` with its conditions spelled out. -/
theorem Block.inner_eq (b : Block) (area : Rect) (hw : 0 ≤ area.width) (hh : 0 ≤ area.height) :
    b.inner area =
      { x := area.x + min area.width (oneIf (b.Has 8)) + b.padding.left
        y := area.y + min area.height (oneIf (b.Takes 1 .top)) + b.padding.top
        width := max 0 (max 0 (area.width - oneIf (b.Has 8) - oneIf (b.Has 2)) - b.padding.left -
          b.padding.right)
        height := max 0 (max 0 (area.height - oneIf (b.Takes 1 .top) - oneIf (b.Takes 4 .bottom)) -
          b.padding.top - b.padding.bottom) } := by
  unfold Block.inner Rect.right Rect.bottom
  have hL := Block.intersects_iff b Block.sideLeft
  have hR := Block.intersects_iff b Block.sideRight
  have hT := Block.takes_iff b Block.sideTop .top
  have hB := Block.takes_iff b Block.sideBottom .bottom
  have e8 : Block.sideLeft = 8 := rfl
  have e2 : Block.sideRight = 2 := rfl
  have e1 : Block.sideTop = 1 := rfl
  have e4 : Block.sideBottom = 4 := rfl
  rw [e8] at hL ⊢
  rw [e2] at hR ⊢
  rw [e1] at hT ⊢
  rw [e4] at hB ⊢
  rcases oneIf_bool hL with ⟨h8, e8⟩ | ⟨h8, e8⟩ <;>
    rcases oneIf_bool hR with ⟨h2, e2⟩ | ⟨h2, e2⟩ <;>
    rcases oneIf_bool hT with ⟨h1, e1⟩ | ⟨h1, e1⟩ <;>
    rcases oneIf_bool hB with ⟨h4, e4⟩ | ⟨h4, e4⟩ <;>
    simp only [h8, h2, h1, h4, if_true, e8, e2, e1, e4, Rect.mk.injEq, Bool.false_eq_true, if_false] <;>
    refine ⟨?_, ?_, ?_, ?_⟩ <;> omega

/-! ### C42 — `Inner` -/

/-- Every cell of `Inner` is in the area and on no border or title row. -/
theorem C42_inner_inside (b : Block) (area : Rect) (hw : 0 ≤ area.width) (hh : 0 ≤ area.height)
    (hp : 0 ≤ b.padding.left ∧ 0 ≤ b.padding.right ∧ 0 ≤ b.padding.top ∧ 0 ≤ b.padding.bottom)
    (q : Position) (hq : (b.inner area).contains q = true) :
    area.contains q = true ∧ ¬ b.OnFrame area q := by
  rw [b.inner_eq area hw hh, Rect.contains_iff] at hq
  rw [Rect.contains_iff]
  unfold Rect.Mem Block.OnFrame at *
  simp only at hq
  rcases oneIf_cases (b.Has 8) with ⟨h8, e8⟩ | ⟨h8, e8⟩ <;>
    rcases oneIf_cases (b.Has 2) with ⟨h2, e2⟩ | ⟨h2, e2⟩ <;>
    rcases oneIf_cases (b.Takes 1 .top) with ⟨h1, e1⟩ | ⟨h1, e1⟩ <;>
    rcases oneIf_cases (b.Takes 4 .bottom) with ⟨h4, e4⟩ | ⟨h4, e4⟩ <;>
    rw [e8, e2, e1, e4] at hq <;> simp only [h8, h2, h1, h4, true_and, false_and, false_or, or_false,
      or_self, not_false_eq_true, and_true] <;>
    omega

example : (Rect.mk 2 3 10 6).contains ⟨5, 6⟩ = true :=
  (C42_inner_inside { Block.new.bordered with padding := ⟨1, 1, 1, 1⟩ } ⟨2, 3, 10, 6⟩ (by decide) (by decide) (by decide)
    ⟨5, 6⟩ (by decide +kernel)).1

/-- If the area is large enough, `Inner` is the area shrunk by one cell for each side with a border or a
title, and by the padding. -/
theorem C42_inner_exact (b : Block) (area : Rect)
    (hw : oneIf (b.Has 8) + oneIf (b.Has 2) + b.padding.left + b.padding.right ≤ area.width)
    (hh : oneIf (b.Takes 1 .top) + oneIf (b.Takes 4 .bottom) + b.padding.top + b.padding.bottom ≤ area.height)
    (hp : 0 ≤ b.padding.left ∧ 0 ≤ b.padding.right ∧ 0 ≤ b.padding.top ∧ 0 ≤ b.padding.bottom) :
    b.inner area =
      { x := area.x + oneIf (b.Has 8) + b.padding.left
        y := area.y + oneIf (b.Takes 1 .top) + b.padding.top
        width := area.width - oneIf (b.Has 8) - oneIf (b.Has 2) - b.padding.left - b.padding.right
        height := area.height - oneIf (b.Takes 1 .top) - oneIf (b.Takes 4 .bottom) - b.padding.top -
          b.padding.bottom } := by
  have h8 := oneIf_cases (b.Has 8)
  have h2 := oneIf_cases (b.Has 2)
  have h1 := oneIf_cases (b.Takes 1 .top)
  have h4 := oneIf_cases (b.Takes 4 .bottom)
  rw [b.inner_eq area (by omega) (by omega)]
  simp only [Rect.mk.injEq]
  refine ⟨?_, ?_, ?_, ?_⟩ <;> omega

/-- A bordered block with a padding of one. -/
example : ({ Block.new.bordered with padding := ⟨1, 1, 1, 1⟩ } : Block).inner ⟨2, 3, 10, 6⟩ =
    ⟨4, 5, 6, 2⟩ := by decide +kernel

/-! ### C43 — `Render` -/

/-- Inside the buffer, a block changes only its frame, apart from the style of its area; the symbols of
the inner area stay. Missing: areas that are partly outside of the buffer, see `C43_outside_false`. -/
theorem C43_frame_only_partial (u : Uniseg) (b : Block) (area : Rect) (buf : Buffer) (wf : buf.WF)
    (hin : Inside buf area) (hx : 0 ≤ area.x) :
    ∃ b', b.render u area buf = some b' ∧ b'.area = buf.area ∧ b'.WF ∧
      (∀ q, area.contains q = false → b'.cellAt q = buf.cellAt q) ∧
      (∀ q, area.contains q = true → ¬ b.OnFrame area q →
        b'.cellAt q = (buf.cellAt q).map (Cell.setStyle b.style)) := by
  have hin' := hin
  obtain ⟨h1, h2, h3, h4, h5, h6⟩ := hin'
  have hself : area.intersection area = area := by
    unfold Rect.intersection Rect.right Rect.bottom
    ext <;> simp only <;> omega
  unfold Block.render
  simp only [hself]
  by_cases he : area.isEmpty = true
  · rw [if_pos he]
    refine ⟨buf, rfl, rfl, wf, fun _ _ => rfl, fun q hq => ?_⟩
    rw [Rect.contains_iff] at hq
    unfold Rect.Mem at hq
    simp [Rect.isEmpty] at he
    omega
  rw [if_neg he]
  have hne := not_isEmpty (by simpa using he)
  obtain ⟨b1, e1, a1, wf1, c1⟩ := setStyle_cells wf area b.style
  have hin1 : Inside b1 area := by unfold Inside at *; rw [a1]; exact hin
  obtain ⟨b2, e2, a2, wf2, c2⟩ := Block.renderBorders_confined wf1 b area hin1 (by omega) (by omega)
  obtain ⟨b3, e3, a3, wf3, c3⟩ := Block.renderTitles_confined u b area wf2 hx (by omega) (by omega)
  refine ⟨b3, ?_, a3.trans (a2.trans a1), wf3, fun q hq => ?_, fun q hq hf => ?_⟩
  · rw [e1]
    simp only [Option.bind_eq_bind, Option.bind_some]
    rw [e2]
    exact e3
  · rw [c3 q (fun h => by have := h.1.1; rw [hq] at this; cases this),
      c2 q (fun h => by have := h.1; rw [hq] at this; cases this), c1 q, if_neg (by rw [hq]; decide)]
  · rw [c3 q (fun h => hf h.1.2), c2 q (fun h => hf h.2), c1 q, if_pos hq]

example : ∃ b', Block.new.bordered.render Uniseg.simple ⟨1, 0, 3, 3⟩ ⟨⟨0, 0, 4, 3⟩, List.replicate 12 (Cell.new "x")⟩ =
    some b' ∧ b'.cellAt ⟨0, 2⟩ = some (Cell.new "x") := by
  obtain ⟨b', h, _, _, ho, _⟩ := C43_frame_only_partial Uniseg.simple Block.new.bordered ⟨1, 0, 3, 3⟩
    ⟨⟨0, 0, 4, 3⟩, List.replicate 12 (Cell.new "x")⟩ ⟨by decide, by decide, by decide⟩ (by unfold Inside; decide) (by decide)
  exact ⟨b', h, (ho _ (by decide)).trans (by decide)⟩

/-- The inner area keeps its symbols. -/
theorem C43_inner_kept_partial (u : Uniseg) (b : Block) (area : Rect) (buf : Buffer) (wf : buf.WF)
    (hin : Inside buf area) (hx : 0 ≤ area.x)
    (hp : 0 ≤ b.padding.left ∧ 0 ≤ b.padding.right ∧ 0 ≤ b.padding.top ∧ 0 ≤ b.padding.bottom) :
    ∃ b', b.render u area buf = some b' ∧
      ∀ q, (b.inner area).contains q = true → b'.symbolAt q = buf.symbolAt q := by
  obtain ⟨b', e, _, _, _, h⟩ := C43_frame_only_partial u b area buf wf hin hx
  refine ⟨b', e, fun q hq => ?_⟩
  obtain ⟨i1, i2⟩ := C42_inner_inside b area hin.2.2.2.2.1 hin.2.2.2.2.2 hp q hq
  unfold Buffer.symbolAt
  rw [h q i1 i2]
  cases buf.cellAt q <;> rfl

example : ∃ b', Block.new.bordered.render Uniseg.simple ⟨1, 0, 3, 3⟩ ⟨⟨0, 0, 4, 3⟩, List.replicate 12 (Cell.new "x")⟩ =
    some b' ∧ b'.symbolAt ⟨2, 1⟩ = some "x" := by
  obtain ⟨b', h, hq⟩ := C43_inner_kept_partial Uniseg.simple Block.new.bordered ⟨1, 0, 3, 3⟩
    ⟨⟨0, 0, 4, 3⟩, List.replicate 12 (Cell.new "x")⟩ ⟨by decide, by decide, by decide⟩ (by unfold Inside; decide) (by decide)
    (by decide)
  exact ⟨b', h, (hq _ (by decide +kernel)).trans (by decide)⟩

/-- A block without borders is drawn without panic wherever it lies, and changes only cells of its area
that are in the buffer. -/
theorem C43_borderless_partial (u : Uniseg) (b : Block) (hb : b.borders = 0) (area : Rect) (buf : Buffer)
    (wf : buf.WF) (hx : 0 ≤ area.x) :
    Confined buf (b.render u area buf) (Clipped buf area) := by
  unfold Block.render
  simp only
  have hself : ∀ q, (area.intersection area).contains q = true ↔ area.contains q = true := by
    intro q; rw [contains_intersection]; exact and_self_iff
  have hx' : (area.intersection area).x = area.x := by
    unfold Rect.intersection; simp
  have hnn := C01_intersection_nonneg area area
  by_cases he : (area.intersection area).isEmpty = true
  · rw [if_pos he]; exact Confined.pure wf _
  rw [if_neg he]
  have hne := not_isEmpty (by simpa using he)
  refine Confined.bind ((Confined.setStyle wf _ _).mono ?_) ?_
  · intro q hq; exact ⟨(hself q).1 hq.1, hq.2⟩
  intro b1 a1 wf1
  rw [Block.renderBorders_none b (by unfold Block.Has; rw [hb]; simp)]
  simp only [Option.bind_eq_bind, Option.bind_some]
  refine (Block.renderTitles_confined u b _ wf1 (by rw [hx']; exact hx) (by omega) (by omega)).mono ?_
  intro q hq
  exact ⟨(hself q).1 hq.1.1, by rw [← a1]; exact hq.2⟩

example : Confined ⟨⟨0, 0, 4, 3⟩, List.replicate 12 (Cell.new "x")⟩
    ((Block.new.withTitle ⟨.center, none, Line.new [Span.new "long title"]⟩).render Uniseg.simple ⟨2, 1, 9, 9⟩
      ⟨⟨0, 0, 4, 3⟩, List.replicate 12 (Cell.new "x")⟩)
    (Clipped ⟨⟨0, 0, 4, 3⟩, List.replicate 12 (Cell.new "x")⟩ ⟨2, 1, 9, 9⟩) :=
  C43_borderless_partial _ _ rfl _ _ ⟨by decide, by decide, by decide⟩ (by decide)

/-- A bordered block that reaches beyond the buffer panics. -/
theorem C43_outside_false :
    ∃ (b : Block) (area : Rect) (buf : Buffer), buf.WF ∧ b = Block.new.bordered ∧
      area = ⟨0, 0, 5, 3⟩ ∧ buf.area = ⟨0, 0, 4, 3⟩ ∧ b.render Uniseg.simple area buf = none :=
  ⟨_, _, ⟨⟨0, 0, 4, 3⟩, List.replicate 12 Cell.empty⟩, ⟨by decide, by decide, by decide⟩, rfl, rfl, rfl,
    by decide +kernel⟩

/-- A block with all borders in a buffer of its size. -/
example : ∃ (b : Block) (area : Rect) (buf : Buffer), buf.WF ∧ Inside buf area ∧ 0 ≤ area.x ∧
    b.borders = 15 ∧ area.width = 5 :=
  ⟨Block.new.bordered, ⟨0, 0, 5, 3⟩, ⟨⟨0, 0, 5, 3⟩, List.replicate 15 Cell.empty⟩,
    ⟨by decide, by decide, by decide⟩, by unfold Inside; decide, by decide, by decide, rfl⟩

/-! ### C67 — the border is a frame -/

/-- Applying a style twice is applying it once. -/
theorem Cell.setStyle_setStyle (st : Style) (c : Cell) : (c.setStyle st).setStyle st = c.setStyle st := by
  rw [C05_setStyle_patched]
  apply Cell.ext
  · rfl
  · simp only [Cell.setStyle, Style.patched]
    cases st.fg <;> simp
  · simp only [Cell.setStyle, Style.patched]
    cases st.bg <;> simp
  · simp only [Cell.setStyle, Style.patched]
    apply Modifier.ext_bits
    intro i
    simp only [Modifier.difference_bit, Modifier.union_bit]
    cases st.addModifier.getLsbD i <;> cases st.subModifier.getLsbD i <;> simp
  · rfl

/-- The symbol and the style of a later drawing win. -/
theorem Cell.put_put (s s' : String) (st : Style) (c : Cell) : Cell.put s st (Cell.put s' st c) = Cell.put s st c :=
  Cell.setStyle_setStyle st (c.setSymbol s)

theorem Cell.bordered_some (s : String) (st : Style) (c : Cell) : c.bordered st (some s) = Cell.put s st c := rfl

theorem Cell.bordered_none (st : Style) (c : Cell) : c.bordered st none = c := rfl

theorem drawIf_all {buf : Buffer} (wf : buf.WF) (b : Block) (sides : Nat) (symbol : String)
    {ps : List Position} (hn : ps.Nodup) (hin : ∀ p ∈ ps, buf.area.contains p = true) :
    ∃ b', b.drawIf sides symbol ps buf = some b' ∧ b'.area = buf.area ∧ b'.WF ∧
      ∀ q, b'.cellAt q = if Block.hasSides b.borders sides = true ∧ q ∈ ps then
        (buf.cellAt q).map (Cell.put symbol b.borderStyle) else buf.cellAt q :=
  Block.drawIf_cells wf b sides symbol hn (fun _ => hin)

/-- A block without titles shows on each cell of its area the border symbol of the sides the cell lies
on, in the border's style over the block's style, and elsewhere what was there, in the block's style. In an area of one
column (row) this is so if both sides (top and bottom) have the same symbol, as in all border sets of the library; then
the top and left corners win. -/
theorem C67_border_cells (u : Uniseg) (b : Block) (ht : b.titles = []) (area : Rect) (buf : Buffer)
    (wf : buf.WF) (hin : Inside buf area)
    (hw : 2 ≤ area.width ∨ area.width = 1 ∧ b.borderSet.verticalLeft = b.borderSet.verticalRight)
    (hh : 2 ≤ area.height ∨ area.height = 1 ∧ b.borderSet.horizontalTop = b.borderSet.horizontalBottom) :
    ∃ b', b.render u area buf = some b' ∧
      ∀ q, area.contains q = true →
        b'.cellAt q = (buf.cellAt q).map fun c => (c.setStyle b.style).bordered b.borderStyle
          (b.borderSet.symbol
            (Block.hasSides b.borders 8 && decide (q.x = area.x))
            (Block.hasSides b.borders 1 && decide (q.y = area.y))
            (Block.hasSides b.borders 2 && decide (q.x = area.x + area.width - 1))
            (Block.hasSides b.borders 4 && decide (q.y = area.y + area.height - 1))) := by
  have hin' := hin
  obtain ⟨h1, h2, h3, h4, h5, h6⟩ := hin'
  have hself : area.intersection area = area := by
    unfold Rect.intersection Rect.right Rect.bottom
    ext <;> simp only <;> omega
  have htitles : ∀ buf, b.renderTitles u area buf = some buf := by
    intro buf
    unfold Block.renderTitles Block.renderTitlePosition Block.renderRightTitles
      Block.renderCenterTitles Block.renderLeftTitles Block.filterTitles
    simp only [ht, List.filter_nil, List.reverse_nil]
    rfl
  unfold Block.render
  simp only [hself]
  rw [if_neg (by simp [Rect.isEmpty]; omega)]
  obtain ⟨b0, e0, a0, wf0, c0⟩ := setStyle_cells wf area b.style
  rw [e0]
  simp only [Option.bind_eq_bind, Option.bind_some, htitles]
  have key : ∀ buf' : Buffer, buf'.area = buf.area → ∀ p : Position,
      area.x ≤ p.x → p.x < area.x + area.width → area.y ≤ p.y → p.y < area.y + area.height →
      buf'.area.contains p = true := by
    intro buf' ha p i1 i2 i3 i4
    rw [ha, Rect.contains_iff]
    unfold Rect.Mem
    exact ⟨by omega, by omega, by omega, by omega⟩
  have hcol : ∀ buf' : Buffer, buf'.area = buf.area → ∀ x, area.x ≤ x → x < area.x + area.width →
      ∀ p ∈ Block.columnOf area x, buf'.area.contains p = true := by
    intro buf' ha x hx hx' p hp
    obtain ⟨i1, i2, i3⟩ := Block.mem_columnOf.1 hp
    exact key buf' ha p (by omega) (by omega) i2 i3
  have hrow : ∀ buf' : Buffer, buf'.area = buf.area → ∀ y, area.y ≤ y → y < area.y + area.height →
      ∀ p ∈ Block.rowOf area y, buf'.area.contains p = true := by
    intro buf' ha y hy hy' p hp
    obtain ⟨i1, i2, i3⟩ := Block.mem_rowOf.1 hp
    exact key buf' ha p i2 i3 (by omega) (by omega)
  have hone : ∀ buf' : Buffer, buf'.area = buf.area → ∀ x y, area.x ≤ x → x < area.x + area.width →
      area.y ≤ y → y < area.y + area.height → ∀ p ∈ [(⟨x, y⟩ : Position)],
      buf'.area.contains p = true := by
    intro buf' ha x y i1 i2 i3 i4 p hp
    simp only [List.mem_cons, List.not_mem_nil, or_false] at hp
    subst hp
    exact key buf' ha _ i1 i2 i3 i4
  have hr1 : area.x ≤ area.right - 1 := by unfold Rect.right; omega
  have hr2 : area.right - 1 < area.x + area.width := by unfold Rect.right; omega
  have hb1 : area.y ≤ area.bottom - 1 := by unfold Rect.bottom; omega
  have hb2 : area.bottom - 1 < area.y + area.height := by unfold Rect.bottom; omega
  have hl1 : area.x ≤ area.left := Int.le_refl _
  have hl2 : area.left < area.x + area.width := by unfold Rect.left; omega
  have ht1 : area.y ≤ area.top := Int.le_refl _
  have ht2 : area.top < area.y + area.height := by unfold Rect.top; omega
  unfold Block.renderBorders
  obtain ⟨b1, e1, a1, wf1, s1⟩ := drawIf_all wf0 b Block.sideLeft b.borderSet.verticalLeft
    (Block.nodup_columnOf area area.left) (hcol _ a0 _ hl1 hl2)
  have a1 := a1.trans a0
  obtain ⟨b2, e2, a2, wf2, s2⟩ := drawIf_all wf1 b Block.sideTop b.borderSet.horizontalTop
    (Block.nodup_rowOf area area.top) (hrow _ a1 _ ht1 ht2)
  have a2 := a2.trans a1
  obtain ⟨b3, e3, a3, wf3, s3⟩ := drawIf_all wf2 b Block.sideRight b.borderSet.verticalRight
    (Block.nodup_columnOf area (area.right - 1)) (hcol _ a2 _ hr1 hr2)
  have a3 := a3.trans a2
  obtain ⟨b4, e4, a4, wf4, s4⟩ := drawIf_all wf3 b Block.sideBottom b.borderSet.horizontalBottom
    (Block.nodup_rowOf area (area.bottom - 1)) (hrow _ a3 _ hb1 hb2)
  have a4 := a4.trans a3
  obtain ⟨b5, e5, a5, wf5, s5⟩ := drawIf_all wf4 b (Block.sideRight ||| Block.sideBottom)
    b.borderSet.bottomRight (List.nodup_singleton (⟨area.right - 1, area.bottom - 1⟩ : Position))
    (hone _ a4 _ _ hr1 hr2 hb1 hb2)
  have a5 := a5.trans a4
  obtain ⟨b6, e6, a6, wf6, s6⟩ := drawIf_all wf5 b (Block.sideRight ||| Block.sideTop)
    b.borderSet.topRight (List.nodup_singleton (⟨area.right - 1, area.top⟩ : Position))
    (hone _ a5 _ _ hr1 hr2 ht1 ht2)
  have a6 := a6.trans a5
  obtain ⟨b7, e7, a7, wf7, s7⟩ := drawIf_all wf6 b (Block.sideLeft ||| Block.sideBottom)
    b.borderSet.bottomLeft (List.nodup_singleton (⟨area.left, area.bottom - 1⟩ : Position))
    (hone _ a6 _ _ hl1 hl2 hb1 hb2)
  have a7 := a7.trans a6
  obtain ⟨b8, e8, a8, wf8, s8⟩ := drawIf_all wf7 b (Block.sideLeft ||| Block.sideTop)
    b.borderSet.topLeft (List.nodup_singleton (⟨area.left, area.top⟩ : Position))
    (hone _ a7 _ _ hl1 hl2 ht1 ht2)
  refine ⟨b8, ?_, fun q hq => ?_⟩
  · rw [e1]
    simp only [Option.bind_eq_bind, Option.bind_some]
    rw [e2]
    simp only [Option.bind_some]
    rw [e3]
    simp only [Option.bind_some]
    rw [e4]
    simp only [Option.bind_some]
    rw [e5]
    simp only [Option.bind_some]
    rw [e6]
    simp only [Option.bind_some]
    rw [e7]
    simp only [Option.bind_some]
    rw [e8]; rfl
  · have hq0 := hq
    rw [Rect.contains_iff] at hq
    unfold Rect.Mem at hq
    rw [s8, s7, s6, s5, s4, s3, s2, s1, c0, if_pos hq0]
    simp only [Block.mem_columnOf, Block.mem_rowOf, List.mem_cons, List.not_mem_nil, or_false,
      Block.hasSides_or, Bool.and_eq_true, Rect.left, Rect.right, Rect.top, Rect.bottom,
      show Block.sideLeft = 8 from rfl, show Block.sideTop = 1 from rfl,
      show Block.sideRight = 2 from rfl, show Block.sideBottom = 4 from rfl]
    have hqe : ∀ x y, q = ⟨x, y⟩ ↔ q.x = x ∧ q.y = y := by
      intro x y; rw [Position.ext_iff]
    have hcy : ∀ x, (q.x = x ∧ area.y ≤ q.y ∧ q.y < area.y + area.height) ↔ q.x = x :=
      fun x => ⟨And.left, fun h => ⟨h, hq.2.2⟩⟩
    have hcx : ∀ y, (q.y = y ∧ area.x ≤ q.x ∧ q.x < area.x + area.width) ↔ q.y = y :=
      fun y => ⟨And.left, fun h => ⟨h, hq.1, hq.2.1⟩⟩
    simp only [hqe, hcy, hcx]
    unfold BorderSet.symbol
    have x12 : (q.x = area.x ∧ q.x = area.x + area.width - 1) → b.borderSet.verticalLeft = b.borderSet.verticalRight := by
      rcases hw with h | h
      · intro k; omega
      · exact fun _ => h.2
    have x34 : (q.y = area.y ∧ q.y = area.y + area.height - 1) →
        b.borderSet.horizontalTop = b.borderSet.horizontalBottom := by
      rcases hh with h | h
      · intro k; omega
      · exact fun _ => h.2
    rcases Classical.propComplete (q.x = area.x) with p1 | p1 <;>
      rcases Classical.propComplete (q.x = area.x + area.width - 1) with p2 | p2 <;>
      rcases Classical.propComplete (q.y = area.y) with p3 | p3 <;>
      rcases Classical.propComplete (q.y = area.y + area.height - 1) with p4 | p4
    all_goals clear s1 s2 s3 s4 s5 s6 s7 s8 c0 e1 e2 e3 e4 e5 e6 e7 e8 key hcol hrow hone
    all_goals simp only [p1, p2, p3, p4, decide_true, decide_false, Bool.and_true, Bool.and_false,
      and_true, and_false, if_false, false_and, Bool.false_eq_true, true_and, forall_const] at x12 x34 ⊢
    all_goals generalize buf.cellAt q = oc
    all_goals
      cases oc <;> cases Block.hasSides b.borders 8 <;> cases Block.hasSides b.borders 1 <;>
        cases Block.hasSides b.borders 2 <;> cases Block.hasSides b.borders 4 <;>
        simp [Cell.bordered_some, Cell.bordered_none, Cell.put_put, *]

example : ∃ b', Block.new.bordered.render Uniseg.simple ⟨1, 0, 3, 3⟩ ⟨⟨0, 0, 4, 3⟩, List.replicate 12 (Cell.new "x")⟩ =
    some b' ∧ b'.symbolAt ⟨3, 2⟩ = some "┘" ∧ b'.symbolAt ⟨2, 0⟩ = some "─" := by
  obtain ⟨b', h, hq⟩ := C67_border_cells Uniseg.simple Block.new.bordered rfl ⟨1, 0, 3, 3⟩
    ⟨⟨0, 0, 4, 3⟩, List.replicate 12 (Cell.new "x")⟩ ⟨by decide, by decide, by decide⟩ (by unfold Inside; decide) (.inl (by decide))
    (.inl (by decide))
  refine ⟨b', h, ?_, ?_⟩
  · unfold Buffer.symbolAt; rw [hq _ (by decide)]; decide +kernel
  · unfold Buffer.symbolAt; rw [hq _ (by decide)]; decide +kernel

/-! ### C68 — a title is shown -/

theorem drawTitle_shown {u : Uniseg} (hu : u.Lawful) (hs : u.Suffix) (b : Block) (t : Title)
    (ht : t.line.VisibleText u) (x y : Int) {buf : Buffer} (wf : buf.WF)
    (hin : Inside buf ⟨x, y, u.columns (t.line.clusters u), 1⟩) :
    ∃ b', b.drawTitle u t ⟨x, y, u.columns (t.line.clusters u), 1⟩ buf = some b' ∧
      u.Spelled (t.line.clusters u) x y b' := by
  unfold Block.drawTitle
  obtain ⟨b1, e1, a1, wf1, _⟩ := setStyle_cells wf ⟨x, y, u.columns (t.line.clusters u), 1⟩ b.titlesStyle
  rw [e1]
  obtain ⟨b2, e2, h, -⟩ := C100_line hu hs t.line ht ⟨x, y, u.columns (t.line.clusters u), 1⟩ b1 wf1
    (by unfold Inside at *; rw [a1]; exact hin) (by simp)
  refine ⟨b2, e2, fun j c hj i hi => ?_⟩
  simp only [Int.toNat_natCast] at h
  have h0 : t.line.alignment.origin (u.columns (t.line.clusters u)) (u.columns (t.line.clusters u)) = 0 := by
    unfold Alignment.origin
    rw [if_pos (Nat.le_refl _), Nat.sub_self]
    cases t.line.alignment <;> rfl
  have hg := columns_get (u := u) hj
  have := h j c (u.columns ((t.line.clusters u).take j)) (u.columns ((t.line.clusters u).take j) + i)
    ⟨hj, by rw [h0]; omega, by omega, by omega, by omega, by omega⟩
  rw [Int.add_assoc, this]
  by_cases hi0 : i = 0
  · rw [if_pos (by omega), if_pos hi0]
  · rw [if_neg (by omega), if_neg hi0]

/-- The only title of a block, if it fits, is shown completely on the top or bottom row, at the start, in
the middle or at the end of the columns between the side borders. -/
theorem C68_title_shown {u : Uniseg} (hu : u.Lawful) (hs : u.Suffix) (b : Block) (t : Title)
    (hb : b.titles = [t]) (ht : t.line.VisibleText u) (area : Rect) (buf : Buffer) (wf : buf.WF)
    (hin : Inside buf area) (hx : 0 ≤ area.x) (hh : 0 < area.height) (a : Alignment)
    (ha : a = if t.alignment = .none then b.titlesAlignment else t.alignment) (hne : a ≠ .none)
    (hfit : oneIf (b.Has 8) + u.columns (t.line.clusters u) + oneIf (b.Has 2) ≤ area.width) :
    ∃ b', b.render u area buf = some b' ∧
      u.Spelled (t.line.clusters u)
        (area.x + oneIf (b.Has 8) + (a.before (area.width - oneIf (b.Has 8) - oneIf (b.Has 2) -
          u.columns (t.line.clusters u)).toNat : Nat))
        ((t.position.getD b.titlesPosition).row area) b' := by
  have hin' := hin
  obtain ⟨h1, h2, h3, h4, h5, h6⟩ := hin'
  have hwid := line_columns u t.line
  -- an empty title needs nothing
  by_cases hpos : u.columns (t.line.clusters u) = 0
  · obtain ⟨b', e, _⟩ := C43_frame_only_partial u b area buf wf hin hx
    refine ⟨b', e, fun k s hk i hi => ?_⟩
    have := columns_get (u := u) hk
    omega
  have hself : area.intersection area = area := by
    unfold Rect.intersection Rect.right Rect.bottom
    ext <;> simp only <;> omega
  have o8 := oneIf_cases (b.Has 8)
  have o2 := oneIf_cases (b.Has 2)
  unfold Block.render
  simp only [hself]
  rw [if_neg (by simp [Rect.isEmpty]; omega)]
  obtain ⟨b0, e0, a0, wf0, _⟩ := setStyle_cells wf area b.style
  obtain ⟨b1, e1, a1, wf1, _⟩ := Block.renderBorders_confined wf0 b area
    (by unfold Inside at *; rw [a0]; exact hin) (by omega) (by omega)
  rw [e0]
  simp only [Option.bind_eq_bind, Option.bind_some]
  rw [e1]
  simp only [Option.bind_some]
  have a1 := a1.trans a0
  -- where the title goes
  generalize hpq : t.position.getD b.titlesPosition = p
  have hp : b.positionOf t = p := hpq
  have hal : (if t.alignment ≠ .none then t.alignment else b.titlesAlignment) = a := by
    rw [ha]; by_cases h : t.alignment = .none <;> simp [h]
  have hfilter : ∀ p' a', b.filterTitles p' a' = if p = p' ∧ a = a' then [t] else [] := by
    intro p' a'
    unfold Block.filterTitles
    rw [hb, List.filter_cons, List.filter_nil, hp, hal]
    simp only [Bool.and_eq_true, decide_eq_true_eq]
  have hta : ∀ p', b.titlesArea area p' =
      ⟨area.x + oneIf (b.Has 8), p'.row area,
        area.width - oneIf (b.Has 8) - oneIf (b.Has 2), 1⟩ := by
    intro p'
    unfold Block.titlesArea
    have hL := oneIf_bool (Block.has_left b)
    have hR := oneIf_bool (Block.has_right b)
    rcases hL with ⟨l1, l2⟩ | ⟨l1, l2⟩ <;> rcases hR with ⟨r1, r2⟩ | ⟨r1, r2⟩ <;>
      simp only [l1, r1, l2, r2, if_true, Bool.false_eq_true, if_false, Rect.mk.injEq, Rect.left] <;>
      refine ⟨trivial, ?_, by omega, trivial⟩ <;> cases p' <;> rfl
  generalize hW : area.width - oneIf (b.Has 8) - oneIf (b.Has 2) = W at *
  generalize hX : area.x + oneIf (b.Has 8) = X at *
  have hY : ∃ Y, p.row area = Y ∧
      area.y ≤ Y ∧ Y < area.y + area.height := by
    cases p
    · exact ⟨area.y, rfl, by omega, by omega⟩
    · exact ⟨area.y + area.height - 1, rfl, by omega, by omega⟩
  obtain ⟨Y, hYe, hY1, hY2⟩ := hY
  obtain ⟨d, hd⟩ : ∃ d : Nat, W - u.columns (t.line.clusters u) = d :=
    ⟨(W - u.columns (t.line.clusters u)).toNat, by omega⟩
  have hbd : a.before d ≤ d := by unfold Alignment.before; cases a <;> simp only <;> omega
  obtain ⟨b2, e2, h⟩ := drawTitle_shown hu hs b t ht (X + (a.before d : Nat)) Y wf1 (by
    unfold Inside
    rw [a1]
    simp only
    omega)
  refine ⟨b2, ?_, ?_⟩
  · have hstep : ∀ p', b.renderTitlePosition u p' area b1 = if p = p' then some b2 else some b1 := by
      intro p'
      unfold Block.renderTitlePosition Block.renderRightTitles Block.renderCenterTitles
        Block.renderLeftTitles
      simp only [hfilter, hta]
      by_cases hpp : p = p'
      · subst hpp
        simp only [true_and, if_true, hYe]
        have hempty : (⟨X, Y, W, 1⟩ : Rect).isEmpty = false := by
          simp [Rect.isEmpty]; omega
        cases a with
        | none => exact absurd rfl hne
        | left =>
          simp only [reduceCtorEq, if_false, if_true, List.reverse_nil, Block.rightLoop, Block.leftLoop,
            Option.bind_eq_bind, Option.bind_some, hempty, Bool.false_eq_true, hwid]
          rw [show min (u.columns (t.line.clusters u) : Int) W = u.columns (t.line.clusters u) by omega]
          have : X + ((Alignment.left.before d : Nat) : Int) = X := by
            simp [Alignment.before]
          rw [this] at e2
          rw [e2]; rfl
        | center =>
          simp only [reduceCtorEq, if_false, if_true, List.reverse_nil, Block.rightLoop, Block.leftLoop,
            Option.bind_eq_bind, Option.bind_some, Bool.false_eq_true, hwid, Rect.left,
            Block.totalWidth, List.map_cons, List.map_nil, List.sum_cons, List.sum_nil]
          rw [show max 0 ((u.columns (t.line.clusters u) : Int) + 1 + 0 - 1) = u.columns (t.line.clusters u) by
            omega, hd, show max (0 : Int) (d : Int) = d by omega]
          rw [if_neg (by simp [Rect.isEmpty]; omega)]
          rw [show min (u.columns (t.line.clusters u) : Int) W = u.columns (t.line.clusters u) by omega]
          have : (d : Int).tdiv 2 = ((Alignment.center.before d : Nat) : Int) := rfl
          rw [this, e2]; rfl
        | right =>
          simp only [reduceCtorEq, if_false, if_true, List.reverse_singleton, Block.rightLoop,
            Block.leftLoop, Option.bind_eq_bind, hempty, Bool.false_eq_true, hwid,
            Rect.left, Rect.right]
          rw [show min W (u.columns (t.line.clusters u) : Int) = u.columns (t.line.clusters u) by omega]
          have : max 0 (max X (X + W - (u.columns (t.line.clusters u) : Int))) =
              X + ((Alignment.right.before d : Nat) : Int) := by
            simp only [Alignment.before]; omega
          rw [this, e2]; rfl
      · simp only [hpp, false_and, if_false]
        rfl
    have hstep2 : ∀ p', p ≠ p' → ∀ buf, b.renderTitlePosition u p' area buf = some buf := by
      intro p' hpp buf
      unfold Block.renderTitlePosition Block.renderRightTitles Block.renderCenterTitles
        Block.renderLeftTitles
      simp only [hfilter, hpp, false_and, if_false]
      rfl
    unfold Block.renderTitles
    rw [hstep]
    cases p with
    | top => simp only [if_true, Option.bind_eq_bind, Option.bind_some]; rw [hstep2 _ (by decide)]
    | bottom =>
      rw [if_neg (by decide)]
      simp only [Option.bind_eq_bind, Option.bind_some]; rw [hstep, if_pos rfl]
  · rw [hYe, hd, Int.toNat_natCast]
    exact h

/-- A centered title with a wide symbol. -/
example :
    let b : Block := Block.new.bordered.withTitle ⟨.center, none, Line.new [Span.new "世a"]⟩
    b.titles.length = 1 ∧ b.borders = 15 ∧ Uniseg.simple.columns ["世", "a"] = 3 ∧
    (b.render Uniseg.simple ⟨0, 0, 8, 2⟩ ⟨⟨0, 0, 8, 2⟩, List.replicate 16 Cell.empty⟩).map
      (fun b => (b.content.map Cell.symbol).take 8) = some ["┌", "─", "世", " ", "a", "─", "─", "┐"] := by
  decide +kernel

/-- A centered title. -/
example : ∃ (b : Block) (t : Title), b.titles = [t] ∧ t.line.VisibleText Uniseg.simple ∧
    t.line.clusters Uniseg.simple = ["世", "b"] ∧ b.borders = 15 :=
  ⟨Block.new.bordered.withTitle ⟨.center, none, Line.new [Span.new "世b"]⟩, _, rfl, by
    unfold Line.VisibleText Uniseg.Visible Harmless Control
    decide +kernel, by decide +kernel, rfl⟩

end Bento
