import Verif.Props.Clear
import Verif.Props.Single
import Verif.Lemmas.Fuel

/-!
# Popups
-/

namespace Bento

open MeasureTheory

/-- The area of a layout with a single segment lies in the area that is split. -/
theorem Popup.unwrap_split (ω : Nat → Nat) (fuel : Nat) (l : Layout) (hl : l.constraints.length = 1) (area : Rect) :
    Popup.unwrap (Layout.splitWithSpacers ω fuel l area) = .running ∨
    ∃ r, Popup.unwrap (Layout.splitWithSpacers ω fuel l area) = .ok r ∧
      Layout.Fits l.direction (area.inner l.padding) r := by
  rcases C18_well_formed_partial ω fuel l area (Layout.few_of_small (.inl (by omega))) with h | ⟨segs, spacers, h, h1, _, h3⟩
  · left; rw [h]; rfl
  · right
    rw [h]
    match segs, h1, h3 with
    | [], h1, _ => simp [hl] at h1
    | r :: _, _, h3 => exact ⟨r, rfl, h3 r (.inl (by simp))⟩

/-- Padding that is not negative keeps inside. -/
theorem Rect.inner_inside {area : Rect} {p : Padding} (hp : 0 ≤ p.top ∧ 0 ≤ p.right ∧ 0 ≤ p.bottom ∧ 0 ≤ p.left)
    (d : Direction) {r : Rect} (h : Layout.Fits d (area.inner p) r) :
    (area.width < p.left + p.right ∨ area.height < p.top + p.bottom → ∀ q, r.contains q = false) ∧
    (p.left + p.right ≤ area.width → p.top + p.bottom ≤ area.height →
      area.x ≤ r.x ∧ area.y ≤ r.y ∧ r.x + r.width ≤ area.x + area.width ∧ r.y + r.height ≤ area.y + area.height ∧
        0 ≤ r.width ∧ 0 ≤ r.height) := by
  constructor
  · intro hlt q
    have e : area.inner p = Rect.zero := by
      unfold Rect.inner
      simp only
      rw [if_pos (by omega)]
    rw [e] at h
    rw [← Bool.not_eq_true, Rect.contains_iff]
    unfold Rect.Mem
    unfold Layout.Fits Layout.lo Layout.extent Rect.zero at h
    cases d <;> simp only at h <;> omega
  · intro hw hh
    have e : area.inner p = ⟨area.x + p.left, area.y + p.top, area.width - (p.right + p.left),
        area.height - (p.top + p.bottom)⟩ := by
      unfold Rect.inner
      simp only
      rw [if_neg (by omega)]
      simp only [Rect.mk.injEq, true_and]
      omega
    rw [e] at h
    unfold Layout.Fits Layout.lo Layout.extent at h
    cases d <;> simp only at h <;> omega

theorem Rect.inner_size {area : Rect} {p : Padding} {d : Direction} {r : Rect}
    (h : Layout.Fits d (area.inner p) r) : 0 ≤ r.width ∧ 0 ≤ r.height := by
  have hi : 0 ≤ (area.inner p).width ∧ 0 ≤ (area.inner p).height := by
    unfold Rect.inner
    simp only
    split
    · exact ⟨Int.le_refl _, Int.le_refl _⟩
    · exact ⟨Int.le_max_left _ _, Int.le_max_left _ _⟩
  unfold Layout.Fits Layout.lo Layout.extent at h
  cases d <;> simp only at h <;> omega

/-- The popup's area is inside the area it is given, or has no cells. -/
theorem Popup.place_inside (ω ω' : Nat → Nat) (fuel : Nat) (p : Popup) (area : Rect)
    (hp : 0 ≤ p.padding.top ∧ 0 ≤ p.padding.right ∧ 0 ≤ p.padding.bottom ∧ 0 ≤ p.padding.left) :
    p.place ω ω' fuel area = .running ∨ ∃ r, p.place ω ω' fuel area = .ok r ∧ (0 ≤ r.width ∧ 0 ≤ r.height) ∧
      ((∀ q, r.contains q = false) ∨
        (area.x ≤ r.x ∧ area.y ≤ r.y ∧ r.x + r.width ≤ area.x + area.width ∧
          r.y + r.height ≤ area.y + area.height ∧ 0 ≤ r.width ∧ 0 ≤ r.height)) := by
  have key : ∀ {r1 r : Rect},
      Layout.Fits .vertical (area.inner p.padding) r1 → Layout.Fits .horizontal (r1.inner p.padding) r →
      ((∀ q, r.contains q = false) ∨
        (area.x ≤ r.x ∧ area.y ≤ r.y ∧ r.x + r.width ≤ area.x + area.width ∧
          r.y + r.height ≤ area.y + area.height ∧ 0 ≤ r.width ∧ 0 ≤ r.height)) := by
    intro r1 r h1 h2
    obtain ⟨a1, a2⟩ := Rect.inner_inside hp .vertical h1
    obtain ⟨c1, c2⟩ := Rect.inner_inside hp .horizontal h2
    by_cases k2 : r1.width < p.padding.left + p.padding.right ∨ r1.height < p.padding.top + p.padding.bottom
    · exact .inl (c1 k2)
    have c2 := c2 (by omega) (by omega)
    by_cases k1 : area.width < p.padding.left + p.padding.right ∨ area.height < p.padding.top + p.padding.bottom
    · left
      intro q
      have := a1 k1 q
      rw [← Bool.not_eq_true, Rect.contains_iff] at this ⊢
      unfold Rect.Mem at *
      omega
    · right
      have a2 := a2 (by omega) (by omega)
      omega
  unfold place
  rcases unwrap_split ω fuel ⟨.vertical, [p.height], p.padding, p.vertical, .space 0⟩ rfl area with h | ⟨r1, h, h1⟩
  · left; rw [h]
  rw [h]
  simp only
  rcases unwrap_split ω' fuel ⟨.horizontal, [p.width], p.padding, p.horizontal, .space 0⟩ rfl r1 with h | ⟨r, h, h2⟩
  · exact .inl h
  · exact .inr ⟨r, h, Rect.inner_size h2, key h1 h2⟩

/-- A cell without content, in the style of the popup and of its block. -/
def Popup.background (p : Popup) : Cell :=
  match p.block with
  | none => Cell.setStyle p.style ⟨" ", .reset, .reset, 0, false⟩
  | some block => Cell.setStyle block.style (Cell.setStyle p.style ⟨" ", .reset, .reset, 0, false⟩)

/-- Any two runs that end place the popup the same way. -/
theorem Popup.place_same {ω ω' η η' : Nat → Nat} {fuel fuel' : Nat} {p : Popup} {area : Rect}
    (hv : p.vertical ≠ .spaceAround) (hh : p.horizontal ≠ .spaceAround)
    (h : p.place ω ω' fuel area ≠ .running) (h' : p.place η η' fuel' area ≠ .running) :
    p.place η η' fuel' area = p.place ω ω' fuel area := by
  have key : ∀ (α β : Nat → Nat) (n m : Nat) (l : Layout) (c : Constraint), l.constraints = [c] →
      l.flex ≠ .spaceAround → ∀ area,
      unwrap (Layout.splitWithSpacers α n l area) ≠ .running →
      unwrap (Layout.splitWithSpacers β m l area) ≠ .running →
      unwrap (Layout.splitWithSpacers β m l area) = unwrap (Layout.splitWithSpacers α n l area) := by
    intro α β n m l c hl hf area h1 h2
    rcases C86_single_segment α n l c hl area with e1 | ⟨r1, _, _, _, e1, _⟩
    · rw [e1] at h1; exact absurd rfl h1
    rcases C86_single_segment β m l c hl area with e2 | ⟨r2, _, _, _, e2, _⟩
    · rw [e2] at h2; exact absurd rfl h2
    obtain ⟨e, -⟩ := C86_same_result α β n m l c hl hf area e1 e2
    rw [e1, e2, e]
    rfl
  unfold place at h h' ⊢
  have k1 : ∀ (α α' : Nat → Nat) (n : Nat),
      (match unwrap (Layout.splitWithSpacers α n ⟨.vertical, [p.height], p.padding, p.vertical, .space 0⟩ area) with
        | .panics => Result.panics
        | .running => .running
        | .ok area => unwrap (Layout.splitWithSpacers α' n ⟨.horizontal, [p.width], p.padding, p.horizontal, .space 0⟩ area))
        ≠ .running →
      unwrap (Layout.splitWithSpacers α n ⟨.vertical, [p.height], p.padding, p.vertical, .space 0⟩ area)
        ≠ .running := by
    intro α α' n h e
    rw [e] at h
    exact h rfl
  have e := key ω η fuel fuel' ⟨.vertical, [p.height], p.padding, p.vertical, .space 0⟩ p.height rfl hv area
    (k1 ω ω' fuel h) (k1 η η' fuel' h')
  rw [e] at h' ⊢
  cases hs : unwrap (Layout.splitWithSpacers ω fuel ⟨.vertical, [p.height], p.padding, p.vertical, .space 0⟩ area) with
  | panics => rfl
  | running => rfl
  | ok r =>
    rw [hs] at h h'
    exact key ω' η' fuel fuel' _ p.width rfl hh r h h'

/-- **C50 (partial).** A popup changes only the cells of one rectangle inside the given area; those that are not
on the frame of its block are emptied, in its style; and `Inner`, although it solves the layout again, with
other orders of the maps, lies in that rectangle (in `FlexSpaceAround`: if the orders are the same). Missing:
the content, which is not drawn at all; for the end of the solver see `C50_almost_surely`. -/
theorem C50_popup_partial (ω ω' η η' : Nat → Nat) (fuel : Nat) (u : Uniseg) (p : Popup) (area : Rect) (b : Buffer)
    (wf : b.WF) (hin : Inside b area) (hx : 0 ≤ area.x)
    (hsame : (p.vertical ≠ .spaceAround ∧ p.horizontal ≠ .spaceAround) ∨ (η = ω ∧ η' = ω'))
    (hp : 0 ≤ p.padding.top ∧ 0 ≤ p.padding.right ∧ 0 ≤ p.padding.bottom ∧ 0 ≤ p.padding.left)
    (hbp : ∀ block ∈ p.block, 0 ≤ block.padding.left ∧ 0 ≤ block.padding.right ∧ 0 ≤ block.padding.top ∧
      0 ≤ block.padding.bottom) :
    (∃ r inner : Rect, ∃ b' : Buffer, p.inner η η' fuel area = .ok inner ∧ p.render ω ω' fuel u area b = .ok b' ∧
      b'.area = b.area ∧ b'.WF ∧
      (∀ q, r.contains q = true → area.contains q = true) ∧
      (∀ q, inner.contains q = true → r.contains q = true ∧ b'.cellAt q = some p.background) ∧
      (∀ q, r.contains q = false → b'.cellAt q = b.cellAt q) ∧
      (∀ q, r.contains q = true → (∀ block ∈ p.block, ¬ block.OnFrame r q) → b'.cellAt q = some p.background)) ∨
    p.inner η η' fuel area = .running ∨ p.render ω ω' fuel u area b = .running := by
  rcases p.place_inside ω ω' fuel area hp with h | ⟨r, h, hdim, hr⟩
  · right; right
    unfold Popup.render
    rw [h]
  have hinner : p.place η η' fuel area = .running ∨ p.place η η' fuel area = .ok r := by
    rcases hsame with ⟨hv, hh⟩ | ⟨rfl, rfl⟩
    · by_cases hr : p.place η η' fuel area = .running
      · exact .inl hr
      · right
        rw [Popup.place_same hv hh (by rw [h]; exact fun h => nomatch h) hr, h]
    · exact .inr h
  rcases hinner with h' | h'
  · right; left
    unfold Popup.inner
    rw [h']
  left
  obtain ⟨i1, i2, i3, i4, i5, i6⟩ := hin
  have hsub : ∀ q, r.contains q = true → area.contains q = true := by
    intro q hq
    rcases hr with hr | hr
    · rw [hr q] at hq; cases hq
    · rw [Rect.contains_iff] at *
      unfold Rect.Mem at *
      omega
  have hsub' : ∀ q, r.contains q = true → b.area.contains q = true := by
    intro q hq
    have := hsub q hq
    rw [Rect.contains_iff] at *
    unfold Rect.Mem at *
    omega
  obtain ⟨b1, e1, a1, wf1, c1⟩ := C49_clear_partial r b wf hsub'
  obtain ⟨b2, e2, a2, wf2, c2⟩ := setStyle_cells wf1 r p.style
  have hdraw : ∃ b' : Buffer, p.draw u r b = some b' ∧ b'.area = b.area ∧ b'.WF ∧
      (∀ q, r.contains q = false → b'.cellAt q = b.cellAt q) ∧
      (∀ q, r.contains q = true → (∀ block ∈ p.block, ¬ block.OnFrame r q) → b'.cellAt q = some p.background) := by
    unfold Popup.draw Popup.background
    simp only [e1, e2, Option.bind_eq_bind, Option.bind_some]
    have hout : ∀ q, r.contains q = false → b2.cellAt q = b.cellAt q := by
      intro q hq
      rw [c2, c1]
      simp [hq]
    have hinn : ∀ q, r.contains q = true →
        b2.cellAt q = some (Cell.setStyle p.style ⟨" ", .reset, .reset, 0, false⟩) := by
      intro q hq
      rw [c2, c1]
      simp [hq]
    cases p.block with
    | none => exact ⟨b2, rfl, a2.trans a1, wf2, hout, fun q hq _ => hinn q hq⟩
    | some block =>
      simp only
      rcases hr with hr | hr
      · refine ⟨b2, ?_, a2.trans a1, wf2, hout, fun q hq => by rw [hr q] at hq; cases hq⟩
        unfold Block.render
        simp only
        rw [if_pos]
        have := hr ⟨r.x, r.y⟩
        rw [← Bool.not_eq_true, Rect.contains_iff] at this
        unfold Rect.Mem at this
        unfold Rect.isEmpty Rect.intersection Rect.right Rect.bottom
        simp only [Bool.or_eq_true, beq_iff_eq] at *
        omega
      · obtain ⟨b', e', a', wf', o', n'⟩ := C43_frame_only_partial u block r b2 wf2
          (by unfold Inside; rw [a2.trans a1]; omega) (by omega)
        refine ⟨b', e', a'.trans (a2.trans a1), wf', ?_, ?_⟩
        · intro q hq
          rw [o' q hq, hout q hq]
        · intro q hq hf
          rw [n' q hq (hf block (by simp)), hinn q hq]
          rfl
  obtain ⟨b', e', a', wf', h1, h2⟩ := hdraw
  refine ⟨r, _, b', by unfold Popup.inner; rw [h'], by unfold Popup.render; rw [h]; simp only [e'], a', wf', hsub, ?_,
    h1, h2⟩
  intro q hq
  cases hb : p.block with
  | none =>
    rw [hb] at hq
    exact ⟨hq, h2 q hq (by rw [hb]; simp)⟩
  | some block =>
    rw [hb] at hq
    obtain ⟨k1, k2⟩ := C42_inner_inside block r hdim.1 hdim.2 (hbp block (by rw [hb]; rfl)) q hq
    refine ⟨k1, h2 q k1 ?_⟩
    rw [hb]
    intro block' h
    simp only [Option.mem_def, Option.some.injEq] at h
    subst h
    exact k2

/-- **C50 (negation).** Whatever the content of a popup is, it makes no difference. -/
theorem C50_content_false (ω ω' : Nat → Nat) (fuel : Nat) (u : Uniseg) (p : Popup)
    (content content' : Option (Rect → Buffer → Option Buffer)) (area : Rect) (b : Buffer) :
    Popup.render ω ω' fuel u { p with content := content } area b =
      Popup.render ω ω' fuel u { p with content := content' } area b := rfl

/-- The hypotheses are met by the default popup with a bordered block. -/
example : (0 ≤ Popup.new.padding.top ∧ 0 ≤ Popup.new.padding.right ∧ 0 ≤ Popup.new.padding.bottom ∧
    0 ≤ Popup.new.padding.left) ∧ ∀ block ∈ Popup.new.block, 0 ≤ block.padding.left := by
  decide

/-- Two nested splits come to an end, with probability one. -/
theorem Popup.nested_almost_surely (l l' : Layout) (hl : l.constraints.length = 1) (hl' : l'.constraints.length = 1)
    (area : Rect) (μ : ℕ → Measure ℕ) [∀ i, IsProbabilityMeasure (μ i)] {ε : ENNReal} (hε : ε ≠ 0)
    (h0 : ∀ i, ε ≤ μ i {0}) :
    ∀ᵐ ω ∂(Measure.infinitePi μ), ∀ᵐ ω' ∂(Measure.infinitePi μ), ∃ n, ∀ fuel, n ≤ fuel → ∃ r r',
      unwrap (Layout.splitWithSpacers ω fuel l area) = .ok r ∧
      unwrap (Layout.splitWithSpacers ω' fuel l' r) = .ok r' := by
  filter_upwards [C80_split_almost_surely l area (Layout.few_of_small (.inl (by omega))) μ hε h0] with ω ⟨n, hn⟩
  obtain ⟨segs, spacers, hs⟩ := hn n (Nat.le_refl _)
  obtain ⟨r, hr⟩ : ∃ r, unwrap (Layout.splitWithSpacers ω n l area) = .ok r := by
    rcases unwrap_split ω n l hl area with h | ⟨r, h, _⟩
    · rw [hs] at h
      cases segs <;> cases h
    · exact ⟨r, h⟩
  filter_upwards [C80_split_almost_surely l' r (Layout.few_of_small (.inl (by omega))) μ hε h0] with ω' ⟨m, hm⟩
  refine ⟨n + m, fun fuel hf => ?_⟩
  obtain ⟨segs', spacers', hs'⟩ := hm fuel (by omega)
  obtain ⟨r', hr'⟩ : ∃ r', unwrap (Layout.splitWithSpacers ω' fuel l' r) = .ok r' := by
    rcases unwrap_split ω' fuel l' hl' r with h | ⟨r', h, _⟩
    · rw [hs'] at h
      cases segs' <;> cases h
    · exact ⟨r', h⟩
  refine ⟨r, r', ?_, hr'⟩
  rw [Layout.split_more (show n ≤ fuel by omega) (by rw [hs]; exact fun h => nomatch h)]
  exact hr

/-- **C50**, termination: `Inner` and `Render` find the area of the popup with probability one over the orders
of the maps of the two layouts. -/
theorem C50_almost_surely (p : Popup) (area : Rect) (μ : ℕ → Measure ℕ) [∀ i, IsProbabilityMeasure (μ i)]
    {ε : ENNReal} (hε : ε ≠ 0) (h0 : ∀ i, ε ≤ μ i {0}) :
    ∀ᵐ ω ∂(Measure.infinitePi μ), ∀ᵐ ω' ∂(Measure.infinitePi μ), ∃ n, ∀ fuel, n ≤ fuel →
      ∃ r, p.place ω ω' fuel area = .ok r := by
  filter_upwards [Popup.nested_almost_surely ⟨.vertical, [p.height], p.padding, p.vertical, .space 0⟩
    ⟨.horizontal, [p.width], p.padding, p.horizontal, .space 0⟩ rfl rfl area μ hε h0] with ω h
  filter_upwards [h] with ω' ⟨n, h⟩
  refine ⟨n, fun fuel hf => ?_⟩
  obtain ⟨r, r', h1, h2⟩ := h fuel hf
  refine ⟨r', ?_⟩
  unfold Popup.place
  rw [h1]
  exact h2

theorem Rect.inner_none {area : Rect} (hw : 0 ≤ area.width) (hh : 0 ≤ area.height) :
    area.inner Padding.none' = area := by
  unfold Rect.inner Padding.none'
  simp only [Int.add_zero]
  rw [if_neg (by omega)]
  obtain ⟨x, y, w, h⟩ := area
  simp only [Rect.mk.injEq, true_and] at *
  constructor <;> omega

/-- **C50**, the place: a popup without padding has the height and the width it asks for, cut down to the area,
and stands in the area as its two flex modes say (up to rounding, and exactly where the edges are whole). -/
theorem C50_placed (ω ω' : Nat → Nat) (fuel : Nat) (p : Popup) (area : Rect) (hw : 0 ≤ area.width)
    (hh : 0 ≤ area.height) (hp : p.padding = Padding.none') (hfv : p.vertical ≠ .spaceAround)
    (hfh : p.horizontal ≠ .spaceAround) :
    p.place ω ω' fuel area = .running ∨ ∃ r, p.place ω ω' fuel area = .ok r ∧
      let height := Layout.singleSize p.vertical area.height p.height
      let width := Layout.singleSize p.horizontal area.width p.width
      Layout.StandsFor r.y (area.y + Layout.singleStart p.vertical area.height height) ∧
      Layout.StandsFor (r.y + r.height) (area.y + (Layout.singleStart p.vertical area.height height + height)) ∧
      Layout.StandsFor r.x (area.x + Layout.singleStart p.horizontal area.width width) ∧
      Layout.StandsFor (r.x + r.width) (area.x + (Layout.singleStart p.horizontal area.width width + width)) := by
  unfold Popup.place
  rw [hp]
  rcases C86_single_segment ω fuel ⟨.vertical, [p.height], Padding.none', p.vertical, .space 0⟩ p.height rfl area with
    e | ⟨r1, _, _, q, e, hfit, s1, s2, _, _, _, _, _, _, hq, _⟩
  · left; rw [e]; rfl
  rw [e]
  simp only [Popup.unwrap]
  rw [Rect.inner_none hw hh] at *
  simp only [Layout.lo, Layout.extent] at s1 s2 hq
  obtain ⟨-, -, hr1, hx, hwid⟩ := hfit
  simp only [Layout.extent] at hr1
  rcases C86_single_segment ω' fuel ⟨.horizontal, [p.width], Padding.none', p.horizontal, .space 0⟩ p.width rfl r1 with
    e' | ⟨r, _, _, q', e', hfit', s1', s2', _, _, _, _, _, _, hq', _⟩
  · left; rw [e']
  rw [e']
  right
  refine ⟨r, rfl, ?_⟩
  rw [Rect.inner_none (by omega) (by omega)] at *
  simp only [Layout.lo, Layout.extent] at s1' s2' hq'
  obtain ⟨-, -, -, hy, hhei⟩ := hfit'
  rw [hq hfv] at s1 s2
  rw [hq' hfh, hx, hwid] at s1' s2'
  rw [hy, hhei]
  exact ⟨s1, s2, s1', s2'⟩

/-- The default popup, 60 % by 20 %, in a screen of 80 by 25 is 48 by 5, at (16, 10). -/
example : (Popup.new.padding = Padding.none' ∧ Popup.new.vertical ≠ .spaceAround ∧
      Popup.new.horizontal ≠ .spaceAround) ∧
    Layout.singleSize .center 25 (.percentage 20) = 5 ∧ Layout.singleSize .center 80 (.percentage 60) = 48 ∧
    Layout.singleStart .center 25 5 = 10 ∧ Layout.singleStart .center 80 48 = 16 := by
  refine ⟨⟨rfl, by decide, by decide⟩, ?_⟩
  rw [singleSize_free (by simp), singleSize_free (by simp)]
  simp only [Layout.definiteSize, Option.getD_some, Layout.singleStart]
  norm_num

/-- **C50 (negation).** The padding is applied by both layouts, and so twice: with a padding of two cells a popup
that takes all there is leaves four cells free on every side. -/
theorem C50_padding_false :
    ({ Popup.new with padding := ⟨2, 2, 2, 2⟩, width := .fill 1, height := .fill 1 } : Popup).place
      (fun _ => 0) (fun _ => 0) 100 ⟨0, 0, 20, 20⟩ = .ok ⟨4, 4, 12, 12⟩ := by
  have hv : Layout.splitWithSpacers (fun _ => 0) 100 ⟨.vertical, [.fill 1], ⟨2, 2, 2, 2⟩, .center, .space 0⟩
      ⟨0, 0, 20, 20⟩ = .ok [⟨2, 2, 16, 16⟩] [⟨2, 2, 16, 0⟩, ⟨2, 18, 16, 0⟩] := by
    rw [Layout.split_fast _ _ (by decide)]
    decide +kernel
  have hh : Layout.splitWithSpacers (fun _ => 0) 100 ⟨.horizontal, [.fill 1], ⟨2, 2, 2, 2⟩, .center, .space 0⟩
      ⟨2, 2, 16, 16⟩ = .ok [⟨4, 4, 12, 12⟩] [⟨4, 4, 0, 12⟩, ⟨16, 4, 0, 12⟩] := by
    rw [Layout.split_fast _ _ (by decide)]
    decide +kernel
  have place_of : ∀ (p : Popup) (area r r' : Rect) (t t' : List Rect),
      Layout.splitWithSpacers (fun _ => 0) 100 ⟨.vertical, [p.height], p.padding, p.vertical, .space 0⟩ area = .ok [r] t →
      Layout.splitWithSpacers (fun _ => 0) 100 ⟨.horizontal, [p.width], p.padding, p.horizontal, .space 0⟩ r
        = .ok [r'] t' → p.place (fun _ => 0) (fun _ => 0) 100 area = .ok r' := by
    intro p area r r' t t' e1 e2
    unfold Popup.place
    rw [e1]
    simp only [Popup.unwrap]
    rw [e2]
  exact place_of _ _ _ _ _ _ hv hh

end Bento
