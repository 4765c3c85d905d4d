import Verif.Spec.Settings

/-!
# C108: builder calls set what they are named after, and nothing else
-/

namespace Bento

theorem lastOf_nil {σ α : Type} (f : σ → Option α) (d : α) : lastOf f d [] = d := rfl

theorem lastOf_cons {σ α : Type} (f : σ → Option α) (d : α) (c : σ) (cs : List σ) :
    lastOf f d (c :: cs) = lastOf f ((f c).getD d) cs := by
  unfold lastOf
  cases h : f c with
  | none => simp [List.filterMap_cons, h]
  | some v =>
    simp only [List.filterMap_cons, h, Option.getD_some]
    rw [List.getLast?_cons]
    rfl

theorem allOf_nil {σ α : Type} (f : σ → List α) (d : List α) : allOf f d [] = d := by simp [allOf]

theorem allOf_cons {σ α : Type} (f : σ → List α) (d : List α) (c : σ) (cs : List σ) :
    allOf f d (c :: cs) = allOf f (d ++ f c) cs := by simp [allOf]

theorem sideOn_union (side : Side) (ss : List Side) (a : Side) :
    ((ss.foldl (fun x s => x ||| s) a) &&& side != 0) = ((a &&& side != 0) || ss.any fun s => s &&& side != 0) := by
  induction ss generalizing a with
  | nil => simp
  | cons s ss ih =>
    rw [List.foldl_cons, ih, List.any_cons, ← Bool.or_assoc]
    congr 1
    rw [Nat.and_or_distrib_right]
    generalize a &&& side = x
    generalize s &&& side = y
    rcases Nat.eq_zero_or_pos x with rfl | hx
    · simp
    · have : 0 < x ||| y := lt_of_lt_of_le hx Nat.left_le_or
      have h1 : (x != 0) = true := by simp; omega
      have h2 : (x ||| y != 0) = true := by simp; omega
      rw [h1, h2]; rfl

/-- Layouts: the direction, padding, flex and spacing of the last call, and all constraints in the order they were
added. -/
theorem C108_layout (l : Layout) (calls : List Layout.Call) :
    calls.foldl Layout.Call.apply l =
      { direction := lastOf Layout.Call.direction? l.direction calls
        constraints := allOf Layout.Call.constraints l.constraints calls
        padding := lastOf Layout.Call.padding? l.padding calls
        flex := lastOf Layout.Call.flex? l.flex calls
        spacing := lastOf Layout.Call.spacing? l.spacing calls } := by
  induction calls generalizing l with
  | nil => simp only [List.foldl_nil, lastOf_nil, allOf_nil]
  | cons c cs ih =>
    rw [List.foldl_cons, ih]
    simp only [lastOf_cons, allOf_cons]
    cases c <;> simp [Layout.Call.apply, Layout.Call.direction?, Layout.Call.constraints, Layout.Call.padding?,
      Layout.Call.flex?, Layout.Call.spacing?]

theorem spansStr_foldl (ss : List String) (acc : List Span) :
    ss.foldl (fun spans s => spans ++ [Span.new s]) acc = acc ++ ss.map fun s => ⟨Style.new, s⟩ := by
  induction ss generalizing acc with
  | nil => simp
  | cons s ss ih => rw [List.foldl_cons, ih]; simp [Span.new]

/-- Lines. -/
theorem C108_line (l : Line) (calls : List Line.Call) :
    calls.foldl Line.Call.apply l =
      { style := lastOf Line.Call.style? l.style calls
        spans := allOf Line.Call.spans l.spans calls
        alignment := lastOf Line.Call.alignment? l.alignment calls } := by
  induction calls generalizing l with
  | nil => simp only [List.foldl_nil, lastOf_nil, allOf_nil]
  | cons c cs ih =>
    rw [List.foldl_cons, ih]
    simp only [lastOf_cons, allOf_cons]
    cases c <;> simp [Line.Call.apply, Line.Call.style?, Line.Call.spans, Line.Call.alignment?, spansStr_foldl, -List.foldl_append_eq_append]

/-- Texts. -/
theorem C108_text (t : Text) (calls : List Text.Call) :
    calls.foldl Text.Call.apply t =
      { style := lastOf Text.Call.style? t.style calls
        lines := allOf Text.Call.lines t.lines calls
        alignment := lastOf Text.Call.alignment? t.alignment calls } := by
  induction calls generalizing t with
  | nil => simp only [List.foldl_nil, lastOf_nil, allOf_nil]
  | cons c cs ih =>
    rw [List.foldl_cons, ih]
    simp only [lastOf_cons, allOf_cons]
    cases c <;> simp [Text.Call.apply, Text.Call.style?, Text.Call.lines, Text.Call.alignment?]

/-- Titles: the line stays. -/
theorem C108_title (t : Title) (calls : List Title.Call) :
    calls.foldl Title.Call.apply t =
      { alignment := lastOf Title.Call.alignment? t.alignment calls
        position := lastOf (fun c => (Title.Call.position? c).map some) t.position calls
        line := t.line } := by
  induction calls generalizing t with
  | nil => simp only [List.foldl_nil, lastOf_nil]
  | cons c cs ih =>
    rw [List.foldl_cons, ih]
    simp only [lastOf_cons]
    cases c <;> simp [Title.Call.apply, Title.Call.position?, Title.Call.alignment?]

/-- Blocks: every setting but the sides, which are in `C108_block_sides`. -/
theorem C108_block (b : Block) (calls : List Block.Call) :
    calls.foldl Block.Call.apply b =
      { titles := allOf Block.Call.titles b.titles calls
        titlesStyle := lastOf Block.Call.titlesStyle? b.titlesStyle calls
        titlesAlignment := lastOf Block.Call.titlesAlignment? b.titlesAlignment calls
        titlesPosition := lastOf Block.Call.titlesPosition? b.titlesPosition calls
        borders := (calls.foldl Block.Call.apply b).borders
        borderStyle := lastOf Block.Call.borderStyle? b.borderStyle calls
        borderSet := lastOf Block.Call.borderSet? b.borderSet calls
        style := lastOf Block.Call.style? b.style calls
        padding := lastOf Block.Call.padding? b.padding calls } := by
  induction calls generalizing b with
  | nil => simp only [List.foldl_nil, lastOf_nil, allOf_nil]
  | cons c cs ih =>
    rw [List.foldl_cons]
    conv_lhs => rw [ih]
    simp only [lastOf_cons, allOf_cons]
    cases c with
    | withBorderType t => cases t <;> simp [Block.Call.apply, Block.Call.titles, Block.Call.titlesStyle?,
        Block.Call.titlesAlignment?, Block.Call.titlesPosition?, Block.Call.borderStyle?, Block.Call.borderSet?,
        Block.Call.style?, Block.Call.padding?, BorderType.set, BorderSet.sharp, BorderSet.rounded, BorderSet.double,
        BorderSet.thick, BorderSet.withTopLeft, BorderSet.withTopRight, BorderSet.withBottomLeft,
        BorderSet.withBottomRight]
    | withTitle t =>
      obtain ⟨a, p, line⟩ := t
      cases a <;> simp [Block.Call.apply, Block.withTitle, Block.Call.titles, Block.Call.titlesStyle?,
        Block.Call.titlesAlignment?, Block.Call.titlesPosition?, Block.Call.borderStyle?, Block.Call.borderSet?,
        Block.Call.style?, Block.Call.padding?]
    | withBorderSides ss =>
      by_cases h : ss = [] <;> simp [Block.Call.apply, Block.withBorderSides, h, Block.Call.titles,
        Block.Call.titlesStyle?, Block.Call.titlesAlignment?, Block.Call.titlesPosition?, Block.Call.borderStyle?,
        Block.Call.borderSet?, Block.Call.style?, Block.Call.padding?]
    | _ => simp [Block.Call.apply, Block.withTitle, Title.new, Block.bordered, Block.withBorderSides,
        Block.Call.titles, Block.Call.titlesStyle?,
        Block.Call.titlesAlignment?, Block.Call.titlesPosition?, Block.Call.borderStyle?, Block.Call.borderSet?,
        Block.Call.style?, Block.Call.padding?, BorderType.set, BorderSet.sharp, BorderSet.rounded, BorderSet.double,
        BorderSet.thick, BorderSet.withTopLeft, BorderSet.withTopRight, BorderSet.withBottomLeft,
        BorderSet.withBottomRight]

/-- Blocks: each of the four sides has a border as the last call says that sets the borders. -/
theorem C108_block_sides (b : Block) (calls : List Block.Call) (side : Side)
    (h : side = Block.sideTop ∨ side = Block.sideRight ∨ side = Block.sideBottom ∨ side = Block.sideLeft) :
    Block.intersects (calls.foldl Block.Call.apply b).borders side =
      lastOf (Block.Call.sideOn? side) (Block.intersects b.borders side) calls := by
  induction calls generalizing b with
  | nil => simp only [List.foldl_nil, lastOf_nil]
  | cons c cs ih =>
    rw [List.foldl_cons, ih, lastOf_cons]
    congr 1
    have hall : Block.intersects Block.sideAll side = true := by rcases h with h | h | h | h <;> subst h <;> decide
    cases c with
    | withBorderSides ss =>
      by_cases h0 : ss = []
      · subst h0
        simpa [Block.Call.apply, Block.withBorderSides, Block.Call.sideOn?] using hall
      · have e : ss.isEmpty = false := by simpa using h0
        simp only [Block.Call.apply, Block.withBorderSides, if_neg h0, Block.Call.sideOn?, Option.getD_some, e,
          Bool.false_or, Block.intersects]
        rw [sideOn_union]
        simp [Block.sideNone]
    | bordered => simpa [Block.Call.apply, Block.bordered, Block.withBorderSides, Block.Call.sideOn?] using hall
    | _ => simp [Block.Call.apply, Block.withTitle, Block.Call.sideOn?]

/-- Lists. -/
theorem C108_list (l : ListWidget) (calls : List ListWidget.Call) :
    calls.foldl ListWidget.Call.apply l =
      { items := lastOf ListWidget.Call.items? l.items calls
        block := lastOf ListWidget.Call.block? l.block calls
        style := lastOf ListWidget.Call.style? l.style calls
        direction := lastOf ListWidget.Call.direction? l.direction calls
        highlightStyle := lastOf ListWidget.Call.highlightStyle? l.highlightStyle calls
        highlightSymbol := lastOf ListWidget.Call.highlightSymbol? l.highlightSymbol calls
        repeatHighlightSymbol := lastOf ListWidget.Call.repeatHighlightSymbol? l.repeatHighlightSymbol calls
        highlightSpacing := lastOf ListWidget.Call.highlightSpacing? l.highlightSpacing calls
        scrollPadding := lastOf ListWidget.Call.scrollPadding? l.scrollPadding calls } := by
  induction calls generalizing l with
  | nil => simp only [List.foldl_nil, lastOf_nil]
  | cons c cs ih =>
    rw [List.foldl_cons, ih]
    simp only [lastOf_cons]
    cases c <;> simp [ListWidget.Call.apply, ListWidget.Call.items?, ListWidget.Call.block?, ListWidget.Call.style?,
      ListWidget.Call.direction?, ListWidget.Call.highlightStyle?, ListWidget.Call.highlightSymbol?,
      ListWidget.Call.repeatHighlightSymbol?, ListWidget.Call.highlightSpacing?, ListWidget.Call.scrollPadding?]

/-- Input fields; the style of the whole field cannot be set. -/
theorem C108_input (u : Uniseg) (w : InputField.Widget) (calls : List InputField.Call) :
    calls.foldl (InputField.Call.apply u) w =
      { block := lastOf InputField.Call.block? w.block calls
        style := w.style
        alignment := lastOf InputField.Call.alignment? w.alignment calls
        placeholder := lastOf (InputField.Call.placeholder? u) w.placeholder calls
        placeholderStyle := lastOf InputField.Call.placeholderStyle? w.placeholderStyle calls
        cursorStyle := lastOf InputField.Call.cursorStyle? w.cursorStyle calls
        vertical := lastOf InputField.Call.vertical? w.vertical calls
        prompt := lastOf InputField.Call.prompt? w.prompt calls
        promptStyle := lastOf InputField.Call.promptStyle? w.promptStyle calls } := by
  induction calls generalizing w with
  | nil => simp only [List.foldl_nil, lastOf_nil]
  | cons c cs ih =>
    rw [List.foldl_cons, ih]
    simp only [lastOf_cons]
    cases c <;> simp [InputField.Call.apply, InputField.Call.block?, InputField.Call.alignment?,
      InputField.Call.placeholder?, InputField.Call.placeholderStyle?, InputField.Call.cursorStyle?,
      InputField.Call.vertical?, InputField.Call.prompt?, InputField.Call.promptStyle?, newGraphemes]

/-- Paragraphs: the text stays. -/
theorem C108_paragraph (p : Paragraph) (calls : List Paragraph.Call) :
    calls.foldl Paragraph.Call.apply p =
      { block := lastOf Paragraph.Call.block? p.block calls
        style := lastOf Paragraph.Call.style? p.style calls
        wrap := lastOf Paragraph.Call.wrap? p.wrap calls
        text := p.text
        scroll := ⟨lastOf Paragraph.Call.scrollRight? p.scroll.x calls,
          lastOf Paragraph.Call.scrollDown? p.scroll.y calls⟩
        alignment := lastOf Paragraph.Call.alignment? p.alignment calls } := by
  induction calls generalizing p with
  | nil => simp only [List.foldl_nil, lastOf_nil]
  | cons c cs ih =>
    rw [List.foldl_cons, ih]
    simp only [lastOf_cons]
    cases c <;> simp [Paragraph.Call.apply, Paragraph.Call.block?, Paragraph.Call.style?, Paragraph.Call.wrap?,
      Paragraph.Call.scrollRight?, Paragraph.Call.scrollDown?, Paragraph.Call.alignment?]

/-- Popups: the content stays. -/
theorem C108_popup (p : Popup) (calls : List Popup.Call) :
    calls.foldl Popup.Call.apply p =
      { block := lastOf Popup.Call.block? p.block calls
        horizontal := lastOf Popup.Call.horizontal? p.horizontal calls
        vertical := lastOf Popup.Call.vertical? p.vertical calls
        style := lastOf Popup.Call.style? p.style calls
        width := lastOf Popup.Call.width? p.width calls
        height := lastOf Popup.Call.height? p.height calls
        content := p.content
        padding := lastOf Popup.Call.padding? p.padding calls } := by
  induction calls generalizing p with
  | nil => simp only [List.foldl_nil, lastOf_nil]
  | cons c cs ih =>
    rw [List.foldl_cons, ih]
    simp only [lastOf_cons]
    cases c <;> simp [Popup.Call.apply, Popup.Call.block?, Popup.Call.horizontal?, Popup.Call.vertical?,
      Popup.Call.style?, Popup.Call.width?, Popup.Call.height?, Popup.Call.padding?]

/-- Tabs. -/
theorem C108_tabs (t : Tabs) (calls : List Tabs.Call) :
    calls.foldl Tabs.Call.apply t =
      { block := lastOf Tabs.Call.block? t.block calls
        titles := lastOf Tabs.Call.titles? t.titles calls
        selected := lastOf Tabs.Call.selected? t.selected calls
        style := lastOf Tabs.Call.style? t.style calls
        highlightStyle := lastOf Tabs.Call.highlightStyle? t.highlightStyle calls
        divider := lastOf Tabs.Call.divider? t.divider calls
        paddingLeft := lastOf Tabs.Call.paddingLeft? t.paddingLeft calls
        paddingRight := lastOf Tabs.Call.paddingRight? t.paddingRight calls } := by
  induction calls generalizing t with
  | nil => simp only [List.foldl_nil, lastOf_nil]
  | cons c cs ih =>
    rw [List.foldl_cons, ih]
    simp only [lastOf_cons]
    cases c <;> simp [Tabs.Call.apply, Tabs.Call.block?, Tabs.Call.titles?, Tabs.Call.selected?, Tabs.Call.style?,
      Tabs.Call.highlightStyle?, Tabs.Call.divider?, Tabs.Call.paddingLeft?, Tabs.Call.paddingRight?, Tabs.select,
      Tabs.unselect, Span.new]

/-- Gauges: a chain of calls panics if and only if a percentage in it is not between 0 and 100. -/
theorem C108_gauge (rnd : ℚ → ℚ) (g : Gauge) (calls : List Gauge.Call) :
    ((∀ c ∈ calls, c.Legal) → calls.foldlM (Gauge.Call.apply rnd) g = some
      { ratio := lastOf (Gauge.Call.ratio? rnd) g.ratio calls
        label := lastOf Gauge.Call.label? g.label calls
        useUnicode := lastOf Gauge.Call.unicode? g.useUnicode calls
        style := lastOf Gauge.Call.style? g.style calls
        gaugeStyle := lastOf Gauge.Call.gaugeStyle? g.gaugeStyle calls }) ∧
    ((∃ c ∈ calls, ¬ c.Legal) → calls.foldlM (Gauge.Call.apply rnd) g = none) := by
  induction calls generalizing g with
  | nil => simp [lastOf_nil]
  | cons c cs ih =>
    rw [List.foldlM_cons]
    simp only [lastOf_cons]
    constructor
    · intro h
      have hc := h c List.mem_cons_self
      have hcs : ∀ c ∈ cs, c.Legal := fun x hx => h x (List.mem_cons_of_mem _ hx)
      cases c with
      | withRatio r =>
        have : ¬ (r < 0 ∧ r > 1) := fun ⟨h1, h2⟩ => by linarith
        simp only [Gauge.Call.apply, Gauge.withRatio, if_neg this]
        simpa [Gauge.Call.ratio?, Gauge.Call.label?, Gauge.Call.unicode?, Gauge.Call.style?,
          Gauge.Call.gaugeStyle?] using (ih { g with ratio := r }).1 hcs
      | withPercent n =>
        obtain ⟨h1, h2⟩ := hc
        simp only [Gauge.Call.apply, Gauge.withPercent, if_neg (show ¬ (n < 0 ∨ n > 100) by omega)]
        simpa [Gauge.Call.ratio?, Gauge.Call.label?, Gauge.Call.unicode?, Gauge.Call.style?,
          Gauge.Call.gaugeStyle?] using (ih { g with ratio := rnd (n / 100) }).1 hcs
      | withLabel l => simpa [Gauge.Call.apply, Gauge.withLabel, Gauge.Call.ratio?, Gauge.Call.label?,
          Gauge.Call.unicode?, Gauge.Call.style?, Gauge.Call.gaugeStyle?] using (ih { g with label := some l }).1 hcs
      | withLabelStr s => simpa [Gauge.Call.apply, Gauge.withLabelStr, Span.new, Gauge.Call.ratio?, Gauge.Call.label?,
          Gauge.Call.unicode?, Gauge.Call.style?, Gauge.Call.gaugeStyle?]
          using (ih { g with label := some ⟨Style.new, s⟩ }).1 hcs
      | withStyle s => simpa [Gauge.Call.apply, Gauge.Call.ratio?, Gauge.Call.label?,
          Gauge.Call.unicode?, Gauge.Call.style?, Gauge.Call.gaugeStyle?] using (ih { g with style := s }).1 hcs
      | withGaugeStyle s => simpa [Gauge.Call.apply, Gauge.Call.ratio?, Gauge.Call.label?,
          Gauge.Call.unicode?, Gauge.Call.style?, Gauge.Call.gaugeStyle?] using (ih { g with gaugeStyle := s }).1 hcs
      | withUnicode b => simpa [Gauge.Call.apply, Gauge.withUnicode, Gauge.Call.ratio?, Gauge.Call.label?,
          Gauge.Call.unicode?, Gauge.Call.style?, Gauge.Call.gaugeStyle?] using (ih { g with useUnicode := b }).1 hcs
    · rintro ⟨x, hx, hbad⟩
      rcases List.mem_cons.1 hx with rfl | hx
      · cases x with
        | withPercent n =>
          have : n < 0 ∨ n > 100 := by
            simp only [Gauge.Call.Legal] at hbad
            omega
          simp [Gauge.Call.apply, Gauge.withPercent, if_pos this]
        | _ => exact absurd trivial hbad
      · cases e : Gauge.Call.apply rnd g c with
        | none => rfl
        | some g' => exact (ih g').2 ⟨x, hx, hbad⟩

/-- What the constructors start from. -/
theorem C108_defaults :
    (∀ cs, Layout.new cs = ⟨.vertical, cs, ⟨0, 0, 0, 0⟩, .legacy, .space 0⟩) ∧
    (∀ ss, Line.new ss = ⟨⟨none, none, 0, 0⟩, ss, .none⟩) ∧
    (∀ ls, Text.new ls = ⟨⟨none, none, 0, 0⟩, ls, .none⟩) ∧
    (∀ l, Title.new l = ⟨.none, none, l⟩) ∧
    Block.new = ⟨[], ⟨none, none, 0, 0⟩, .left, .top, 0, ⟨none, none, 0, 0⟩,
      ⟨"┌", "┐", "└", "┘", "│", "│", "─", "─"⟩, ⟨none, none, 0, 0⟩, ⟨0, 0, 0, 0⟩⟩ ∧
    (∀ ts, ListWidget.new ts = ⟨ts, none, ⟨none, none, 0, 0⟩, .topToBottom, ⟨none, none, 0, 0⟩, "", false,
      .whenSelected, 0⟩) ∧
    InputField.Widget.new = ⟨none, ⟨none, none, 0, 0⟩, .left, [], ⟨none, none, 0b110, 0⟩, ⟨none, none, 0b1000000, 0⟩,
      .legacy, "", ⟨none, none, 0, 0⟩⟩ ∧
    (∀ t, Paragraph.new t = ⟨none, ⟨none, none, 0, 0⟩, none, t, ⟨0, 0⟩, .left⟩) ∧
    Popup.new = ⟨none, .center, .center, ⟨none, none, 0, 0⟩, .percentage 60, .percentage 20, none, ⟨0, 0, 0, 0⟩⟩ ∧
    (∀ ls, Tabs.new ls = ⟨none, ls, none, ⟨none, none, 0, 0⟩, ⟨none, none, 0b1000000, 0⟩,
      ⟨⟨none, none, 0, 0⟩, "│"⟩, ⟨⟨none, none, 0, 0⟩, [⟨⟨none, none, 0, 0⟩, " "⟩], .none⟩,
      ⟨⟨none, none, 0, 0⟩, [⟨⟨none, none, 0, 0⟩, " "⟩], .none⟩⟩) ∧
    Gauge.new = ⟨0, none, false, ⟨none, none, 0, 0⟩, ⟨none, none, 0, 0⟩⟩ := by
  refine ⟨fun _ => rfl, fun _ => rfl, fun _ => rfl, fun _ => rfl, rfl, fun _ => rfl, ?_, fun _ => rfl, rfl, ?_, rfl⟩
  · rfl
  · intro ls
    have : newLineStr [' '] = ⟨⟨none, none, 0, 0⟩, [⟨⟨none, none, 0, 0⟩, " "⟩], .none⟩ := by decide +kernel
    unfold Tabs.new
    rw [this]
    rfl

example : [Layout.Call.horizontal, .withConstraints [.len 3], .withFlex .center, .vertical, .withConstraints [.fill 1]].foldl
    Layout.Call.apply (Layout.new [.min 1]) =
      ⟨.vertical, [.min 1, .len 3, .fill 1], ⟨0, 0, 0, 0⟩, .center, .space 0⟩ := by
  rw [C108_layout]
  rfl

example : Block.intersects ([Block.Call.bordered, .withBorderSides [1, 8], .thick].foldl Block.Call.apply Block.new).borders
    2 = false := by
  rw [C108_block_sides _ _ _ (by decide)]
  decide

example : [Gauge.Call.withPercent 25, .withPercent 101, .withUnicode true].foldlM (Gauge.Call.apply id) Gauge.new = none :=
  (C108_gauge id Gauge.new _).2 ⟨.withPercent 101, by simp, by simp [Gauge.Call.Legal]⟩

example : ([Tabs.Call.select 3, .withDividerStr "|", .unselect].foldl Tabs.Call.apply (Tabs.new [])).selected = none := by
  rw [C108_tabs]
  rfl

example : ([Paragraph.Call.withScroll 2 5, .wrapped, .center, .withWrap true].foldl Paragraph.Call.apply
    (Paragraph.new (Text.new []))) = ⟨none, Style.new, some true, Text.new [], ⟨5, 2⟩, .center⟩ := by
  rw [C108_paragraph]
  rfl

end Bento
