import Verif.Lemmas.Palette
import Verif.Props.Side
import Verif.Props.Terminal
import Verif.Props.Text

/-!
# What the widgets draw is what the screen shows

C102 — the library's widgets, put together in any way, out of symbols and styles the terminal can show.
-/

namespace Bento

variable {u : Uniseg} {S : String → Prop} {T : Termenv}

theorem env_of_plainly (hu : u.Lawful) (hc : T.convert .reset = some .reset) (hS : Plainly u S) : Env u T S :=
  ⟨hu, hc, hS.space, hS.apart⟩

theorem Style.Shown.patched {s t : Style} (hs : s.Shown T) (ht : t.Shown T) : (s.patched t).Shown T := by
  refine ⟨fun c hc => ?_, fun c hc => ?_, fun i hi => ?_⟩
  · simp only [Style.patched] at hc
    split at hc
    · exact ht.fg c hc
    · exact hs.fg c hc
  · simp only [Style.patched] at hc
    split at hc
    · exact ht.bg c hc
    · exact hs.bg c hc
  · simp [Style.patched, Modifier.union, Modifier.difference, hs.modifier i hi, ht.modifier i hi]

theorem bit_setStyle {s : Style} {c : Cell} {i : Nat} (h : c.modifier.getLsbD i = false)
    (hs : s.addModifier.getLsbD i = false) : (c.setStyle s).modifier.getLsbD i = false := by
  simp [Cell.setStyle, Modifier.union, Modifier.difference, h, hs]

/-- The cells the terminal can show, with no rapid blinking. -/
def Cell.Calm (u : Uniseg) (T : Termenv) (S : String → Prop) (c : Cell) : Prop :=
  c.Showable u T S ∧ c.modifier.getLsbD 5 = false

theorem palette_calm (hu : u.Lawful) (hc : T.convert .reset = some .reset) (hS : Plainly u S) :
    Palette u S (Style.Shown T) (Cell.Calm u T S) := by
  have hreset : ((T.convert .reset).bind (Color.shown T)).isSome = true := by rw [hc]; rfl
  refine ⟨hu, hS.space, fun s h => (hS.column s h).ge, hS.single, hS.apart, ⟨fun c h => (by cases h), fun c h => (by cases h), fun i _ => ?_⟩,
    fun s t hs ht => hs.patched ht, fun v c hv h => ?_, fun s c hs h => ?_, fun s c hs h => ?_, fun s c hs h => ?_,
    fun c h => ?_⟩
  · simp [Style.new, Modifier.none]
  · obtain ⟨⟨⟨h1, h2, h3, h4, h5⟩, h6, h7⟩, h8⟩ := h
    exact ⟨⟨⟨h1, h2, hv, hS.printable v hv, h5⟩, hS.column v hv, h7⟩, h8⟩
  · obtain ⟨⟨⟨h1, h2, h3, h4, h5⟩, h6, h7⟩, h8⟩ := h
    have m5 := hs.modifier 5 (Or.inl rfl)
    have b5 : (c.setStyle s).modifier.getLsbD 5 = false := bit_setStyle h8 m5
    refine ⟨⟨⟨?_, ?_, h3, h4, ⟨?_, fun i hi => ?_, fun h => ?_⟩⟩, h6, h7⟩, b5⟩
    · show ((T.convert (match s.fg with | some f => f | none => c.fg)).bind (Color.shown T)).isSome = true
      cases hf : s.fg with
      | none => exact h1
      | some f => exact hs.fg f hf
    · show ((T.convert (match s.bg with | some f => f | none => c.bg)).bind (Color.shown T)).isSome = true
      cases hf : s.bg with
      | none => exact h2
      | some f => exact hs.bg f hf
    · exact bit_setStyle h5.1 (hs.modifier 7 (Or.inr (Or.inl rfl)))
    · exact bit_setStyle (h5.2.1 i hi) (hs.modifier i (Or.inr (Or.inr hi)))
    · rw [b5] at h
      cases h.2
  · obtain ⟨⟨⟨h1, h2, h3, h4, h5⟩, h6, h7⟩, h8⟩ := h
    refine ⟨⟨⟨?_, h2, h3, h4, h5⟩, h6, h7⟩, h8⟩
    show ((T.convert (s.fg.getD .reset)).bind (Color.shown T)).isSome = true
    cases hf : s.fg with
    | none => exact hreset
    | some f => exact hs.fg f hf
  · obtain ⟨⟨⟨h1, h2, h3, h4, h5⟩, h6, h7⟩, h8⟩ := h
    refine ⟨⟨⟨h1, ?_, h3, h4, h5⟩, h6, h7⟩, h8⟩
    show ((T.convert (s.bg.getD .reset)).bind (Color.shown T)).isSome = true
    cases hf : s.bg with
    | none => exact hreset
    | some f => exact hs.bg f hf
  · refine ⟨⟨⟨hreset, hreset, hS.space, hS.printable _ hS.space, ⟨?_, fun i _ => ?_, fun h => ?_⟩⟩,
      hS.column _ hS.space, rfl⟩, ?_⟩
    · simp [Cell.reset]
    · simp [Cell.reset]
    · simp [Cell.reset] at h
    · simp [Cell.reset]

theorem calm_empty (hc : T.convert .reset = some .reset) (hS : Plainly u S) : Cell.empty.Calm u T S := by
  have hreset : ((T.convert .reset).bind (Color.shown T)).isSome = true := by rw [hc]; rfl
  refine ⟨⟨⟨hreset, hreset, hS.space, hS.printable _ hS.space, ⟨?_, fun i _ => ?_, fun h => ?_⟩⟩,
      hS.column _ hS.space, rfl⟩, ?_⟩ <;> simp [Cell.empty, Cell.new, Modifier.none] at *

/-- Every drawing keeps what its palette keeps. -/
theorem drawing_paints {St : Style → Prop} {P : Cell → Prop} (hP : Palette u S St P) {f : Buffer → Option Buffer}
    (h : Drawing u S St f) : Paints P f := by
  have first : ∀ {β : Type} {f : Buffer → Option (Buffer × β)},
      (∀ b r, b.All P → f b = some r → r.1.All P) → Paints P fun b => (f b).map Prod.fst := by
    intro β f hf b b' hb e
    obtain ⟨r, er, rfl⟩ := Option.map_eq_some_iff.1 e
    exact hf b r hb er
  induction h with
  | nothing => exact Paints.pure
  | both _ _ ihf ihg => exact Paints.bind ihf ihg
  | span h area => exact hP.span h area
  | line h area => exact hP.line h area _
  | text h area => exact hP.text h area
  | block h area => exact hP.block h area
  | paragraph h area => exact hP.paragraph h area
  | list h area s => exact first fun b r hb e => hP.list h hb e
  | tabs h area => exact hP.tabs h area
  | gauge h area => exact hP.gauge h area
  | scroll rd h area state => exact hP.scroll rd h area state
  | clear area => exact hP.clear area
  | fill hs hst area => exact hP.fill hs hst area
  | input ω fuel h area hs => exact first fun b r hb e => hP.input h hs hb e
  | popup ω ω' fuel h area =>
    rename_i p
    intro b b' hb e
    simp only [Popup.render] at e
    cases hp : p.place ω ω' fuel area with
    | panics => rw [hp] at e; cases e
    | running => rw [hp] at e; cases e
    | ok a =>
      rw [hp] at e
      simp only at e
      cases hd : p.draw u a b with
      | none => rw [hd] at e; cases e
      | some b1 =>
        rw [hd] at e
        cases e
        exact hP.popup h a b _ hb hd
  | throbber ω ω' fuel h area s =>
    rename_i t
    intro b b' hb e
    simp only at e
    cases hr : t.render ω ω' fuel u area b s with
    | panics => rw [hr] at e; cases e
    | running => rw [hr] at e; cases e
    | ok b1 =>
      rw [hr] at e
      cases e
      exact hP.throbber h hb hr

/-- Every drawing treats each cell by itself. -/
theorem drawing_cellwise {St : Style → Prop} {f : Buffer → Option Buffer} (h : Drawing u S St f) : Cellwise f := by
  induction h with
  | nothing =>
    intro b c wb wc e
    exact Or.inr ⟨b, c, rfl, rfl, wb, wc, rfl, rfl, fun _ h => h⟩
  | both _ _ ihf ihg =>
    intro b c wb wc e
    rcases ihf b c wb wc e with ⟨h1, h2⟩ | ⟨b1, c1, h1, h2, w1, w2, a1, a2, h3⟩
    · exact Or.inl ⟨by simp [h1], by simp [h2]⟩
    · rcases ihg b1 c1 w1 w2 (by rw [a1, a2, e]) with ⟨h4, h5⟩ | ⟨b2, c2, h4, h5, w3, w4, a3, a4, h6⟩
      · exact Or.inl ⟨by simp [h1, h4], by simp [h2, h5]⟩
      · exact Or.inr ⟨b2, c2, by simp [h1, h4], by simp [h2, h5], w3, w4, a3.trans a1, a4.trans a2,
          fun q hq => h6 q (h3 q hq)⟩
  | span h area => exact (C101_widgets u area).1 _
  | line h area => exact (C101_widgets u area).2.1 _
  | text h area => exact (C101_widgets u area).2.2.1 _
  | block h area => exact (C101_widgets u area).2.2.2.1 _
  | paragraph h area => exact (C101_widgets u area).2.2.2.2.1 _
  | list h area s => exact ((C101_widgets u area).2.2.2.2.2.1 _ _).1
  | tabs h area => exact (C101_widgets u area).2.2.2.2.2.2.1 _
  | gauge h area => exact (C101_widgets u area).2.2.2.2.2.2.2.1 _ _
  | scroll rd h area state => exact (C101_widgets u area).2.2.2.2.2.2.2.2.1 _ _ _
  | clear area => exact (C101_widgets u area).2.2.2.2.2.2.2.2.2.1
  | fill hs hst area => exact (C101_widgets u area).2.2.2.2.2.2.2.2.2.2.1 _
  | input ω fuel h area hs => exact ((C101_widgets u area).2.2.2.2.2.2.2.2.2.2.2.1 _ _ _ _).1
  | popup ω ω' fuel h area => exact (C101_widgets u area).2.2.2.2.2.2.2.2.2.2.2.2.1 _ _ _ _
  | throbber ω ω' fuel h area s => exact (C101_widgets u area).2.2.2.2.2.2.2.2.2.2.2.2.2 _ _ _ _ _

theorem Buffer.Blank.all_empty {area : Rect} {b : Buffer} (hb : b.Blank area) : ∀ c ∈ b.content, c = Cell.empty := by
  have wf : Buffer.WF ⟨b.area, List.replicate b.content.length Cell.empty⟩ :=
    ⟨by simpa using hb.wf.len, hb.wf.width_nonneg, hb.wf.height_nonneg⟩
  have : b = ⟨b.area, List.replicate b.content.length Cell.empty⟩ := by
    refine hb.wf.ext wf rfl fun q hq => ?_
    rw [hb.cells q (by rw [← hb.area_eq]; exact hq), Buffer.cellAt_eq (b := ⟨b.area, List.replicate b.content.length Cell.empty⟩) hq]
    simp only
    rw [List.getElem?_replicate, if_pos (hb.wf.idx_lt_length hq)]
  intro c hc
  rw [this] at hc
  exact (List.mem_replicate.1 hc).2

/-- **C102**. Whatever is drawn with the widgets of the library into a blank buffer, out of symbols and styles that can
be shown, is a frame that can be shown. -/
theorem C102_frame (hu : u.Lawful) (hc : T.convert .reset = some .reset) (hS : Plainly u S)
    {f : Buffer → Option Buffer} (h : Drawing u S (Style.Shown T) f) {area : Rect} {b b' : Buffer} (hb : b.Blank area)
    (e : f b = some b') : b'.Good u T S area ∧ ∀ p c, b'.cellAt p = some c → c.Showable u T S := by
  have hP := palette_calm hu hc hS
  have hall : b.All (Cell.Calm u T S) := by
    intro c hc'
    rw [hb.all_empty c hc']
    exact calm_empty hc hS
  have hall' := drawing_paints hP h b b' hall e
  have hcell : ∀ p c, b'.cellAt p = some c → c.Showable u T S := by
    intro p c hc'
    simp only [Buffer.cellAt] at hc'
    obtain ⟨i, _, hi⟩ := Option.bind_eq_some_iff.1 hc'
    split at hi
    · cases hi
    · exact (hall' c (List.mem_of_getElem? hi)).1
  rcases drawing_cellwise h b b hb.wf hb.wf rfl with ⟨h1, _⟩ | ⟨b1, _, h1, _, w1, _, a1, _⟩
  · rw [e] at h1; cases h1
  · rw [e] at h1
    cases h1
    refine ⟨⟨a1.trans hb.area_eq, w1, ⟨fun p c hc => hS.single _ (hcell p c hc).displayable.sym,
      fun p c hc => Or.inl (hcell p c hc).column, fun p c hc => (hcell p c hc).shown, fun p c hc h2 => ?_⟩,
      fun p c hc => (hcell p c hc).displayable⟩, hcell⟩
    rw [(hcell p c hc).column] at h2
    cases h2

theorem draw_congr {t : Terminal} {w w' : Widget} (h : w t.viewportArea t.cur = w' t.viewportArea t.cur)
    (faults : Nat → Option Nat) : t.draw u T w faults = t.draw u T w' faults := by
  unfold Terminal.draw
  rw [h]

/-- **C102**. After any history (see C12), drawing with the widgets of the library out of symbols and styles that can
be shown, if it does not panic, makes the screen show exactly what was drawn: every cell its symbol, colours and
modifiers. The history goes on with the new screen. -/
theorem C102_screen {j : Junk} (hu : u.Lawful) (hc : T.convert .reset = some .reset) (hS : Plainly u S)
    {t : Terminal} {sc : Screen} (h : History j u T S t sc true) {f : Buffer → Option Buffer}
    (hf : Drawing u S (Style.Shown T) f) {blank frame : Buffer} (hb : blank.Blank t.viewportArea)
    (hframe : f blank = some frame) (w : Widget) (hw : ∀ b, w t.viewportArea b = (f b).map fun b => (b, none)) :
    ∃ t' out, t.draw u T w noFault = some (t', out, true) ∧ t'.viewportArea = t.viewportArea ∧
      History j u T S t' (sc.feed j u out) true ∧
      (∀ p c, frame.cellAt p = some c → (sc.feed j u out).grid p = .glyph c.symbol false (penOf T c)) ∧
      ((∀ y, sc.grid ⟨t.viewportArea.x + t.viewportArea.width, y⟩ ≠ .cont) →
        ∀ q, t.viewportArea.contains q = false → (sc.feed j u out).grid q = sc.grid q) := by
  have env := env_of_plainly hu hc hS
  have same : ∀ b : Buffer, b.Blank t.viewportArea → b = blank := by
    intro b h
    refine h.wf.ext hb.wf (h.area_eq.trans hb.area_eq.symm) fun q hq => ?_
    rw [h.area_eq] at hq
    rw [h.cells q hq, hb.cells q hq]
  obtain ⟨hgood, hcells⟩ := C102_frame hu hc hS hf hb hframe
  let w' : Widget := fun area b => if area = t.viewportArea then w area b else some (b, none)
  have hw' : w'.Good u T S := by
    intro area b _ _ hblank
    by_cases ha : area = t.viewportArea
    · subst ha
      rw [same b hblank]
      refine ⟨frame, none, ?_, hgood, fun p h => (by cases h)⟩
      show (if t.viewportArea = t.viewportArea then w t.viewportArea blank else some (blank, none)) = _
      rw [if_pos rfl, hw, hframe]
      rfl
    · refine ⟨b, none, if_neg ha, ?_, fun p h => (by cases h)⟩
      exact (C102_frame hu hc hS Drawing.nothing hblank rfl).1
  obtain ⟨blank', frame', cur, t', out, h1, h2, h3, h4, h5⟩ := C12_screen_shows_frame env h w' hw'
  have e1 := same blank' h1
  subst e1
  have e2 : w' t.viewportArea blank' = some (frame, none) := by
    show (if t.viewportArea = t.viewportArea then w t.viewportArea blank' else some (blank', none)) = _
    rw [if_pos rfl, hw, hframe]
    rfl
  rw [e2] at h2
  cases h2
  have h3' : t.draw u T w noFault = some (t', out, true) := by
    rw [← h3]
    apply draw_congr
    show _ = (if t.viewportArea = t.viewportArea then w t.viewportArea t.cur else some (t.cur, none))
    rw [if_pos rfl]
  refine ⟨t', out, h3', ?_, History.draw h w' hw' t' out h3, fun p c hp => ?_, h5⟩
  · obtain ⟨ht, _, _⟩ := history_inv env h
    have hwcur : w t.viewportArea t.cur = some (frame, none) := by
      rw [same t.cur ht.cur, hw, hframe]
      rfl
    obtain ⟨t2, _, out2, e1, _, _, _, _, _, _, e8, _⟩ := draw_spec env ht.toPInv hwcur hgood fun p h => (by cases h)
    rw [h3'] at e1
    cases e1
    exact e8
  · rw [h4 p c hp, if_neg, (hcells p c hp).column]
    · rfl
    · unfold Buffer.covered
      cases hq : frame.cellAt ⟨p.x - 1, p.y⟩ with
      | none => simp
      | some d => simp [(hcells _ d hq).column]

/-- **C102**. A text drawn into an area of the viewport can be read off the screen: line `i` in row `i`, each cluster in
its column, at the alignment of the line or else of the text; the rest of the viewport is blank. -/
theorem C102_text {j : Junk} (hu : u.Lawful) (hs : u.Suffix) (hc : T.convert .reset = some .reset) (hS : Plainly u S)
    {t : Terminal} {sc : Screen} (h : History j u T S t sc true) (x : Text) (hx : x.MadeOf u S (Style.Shown T))
    (hvis : ∀ s, S s → s.toList.any isControlRune = false) (area : Rect)
    (hin : t.viewportArea.x ≤ area.x ∧ area.x + area.width ≤ t.viewportArea.x + t.viewportArea.width ∧
      t.viewportArea.y ≤ area.y ∧ area.y + area.height ≤ t.viewportArea.y + t.viewportArea.height ∧
      0 ≤ area.width ∧ 0 ≤ area.height)
    (w : Widget) (hw : ∀ b, w t.viewportArea b = (x.render u area b).map fun b => (b, none)) :
    ∃ t' out, t.draw u T w noFault = some (t', out, true) ∧
      ∀ q, t.viewportArea.contains q = true → ∃ pen, (sc.feed j u out).grid q = .glyph
        (if area.contains q = true then
          (match x.lines[(q.y - area.y).toNat]? with
            | some l => ((if l.alignment = .none then x.alignment else l.alignment).shown
                area.width.toNat (l.clusters u) (q.x - area.x).toNat).getD " "
            | none => " ")
        else " ") false pen := by
  obtain ⟨ht, _, _⟩ := history_inv (env_of_plainly hu hc hS) h
  have hnarrow : ∀ l ∈ x.lines, l.NarrowText u := fun l hl s hs c hc' =>
    ⟨hS.column c (((hx.lines l hl).spans s hs).text c hc'), hvis c (((hx.lines l hl).spans s hs).text c hc')⟩
  obtain ⟨b', e, hcells⟩ := C33_text_shown hu hs x hnarrow area t.cur ht.cur.wf
    (by unfold Inside; rw [ht.cur.area_eq]; exact hin)
  obtain ⟨t', out, h1, _, _, h2, _⟩ := C102_screen hu hc hS h (Drawing.text hx area) ht.cur e w hw
  refine ⟨t', out, h1, fun q hq => ?_⟩
  obtain ⟨hgood, _⟩ := C102_frame hu hc hS (Drawing.text hx area) ht.cur e
  obtain ⟨c, hcq⟩ := hgood.wf.cellAt_isSome (p := q) (by rw [hgood.area_eq]; exact hq)
  refine ⟨penOf T c, ?_⟩
  rw [h2 q c hcq]
  have hsym := hcells q
  have hblank : t.cur.symbolAt q = some " " := by
    unfold Buffer.symbolAt
    rw [ht.cur.cells q hq]
    rfl
  have hb' : b'.symbolAt q = some c.symbol := by
    unfold Buffer.symbolAt
    rw [hcq]
    rfl
  rw [hblank, hb'] at hsym
  congr 1
  split
  · rename_i ha
    rw [if_pos ha] at hsym
    split
    · rename_i l hl
      simp only [hl] at hsym
      cases ho : (if l.alignment = .none then x.alignment else l.alignment).shown
                area.width.toNat (l.clusters u) (q.x - area.x).toNat with
      | none => rw [ho] at hsym; simpa using hsym
      | some v => rw [ho] at hsym; simpa using hsym
    · rename_i hl
      simp only [hl] at hsym
      simpa using hsym
  · rename_i ha
    rw [if_neg ha] at hsym
    simpa using hsym

/-- The symbols of the examples. -/
def fewSymbols : List String := [" ", "a", "b", "┌", "─", "┐", "│", "└", "┘"]

theorem few_plainly : Plainly Uniseg.simple (· ∈ fewSymbols) where
  space := by decide
  column := by decide
  single := by decide
  printable := by unfold Printable; decide
  apart := simple_separable _

/-- A red title in a frame of one cell width, on a screen of three columns and two rows: the hypotheses are met, and
the title can be read off the screen. -/
example (j : Junk) : ∃ (t : Terminal) (sc : Screen) (f : Buffer → Option Buffer) (blank frame : Buffer),
    History j Uniseg.simple simpleEnv (· ∈ fewSymbols) t sc true ∧
    Drawing Uniseg.simple (· ∈ fewSymbols) (Style.Shown simpleEnv) f ∧ blank.Blank t.viewportArea ∧
    f blank = some frame ∧ frame.content.map Cell.symbol = ["┌", "a", "┐", "└", "─", "┘"] ∧
    (frame.cellAt ⟨1, 0⟩).map Cell.fg = some (.ansi 1) := by
  let sc0 : Screen := ⟨3, 2, Grid.blank, 0, 0, Pen.neutral, true, false, Grid.blank, false⟩
  let blank : Buffer := ⟨⟨0, 0, 3, 2⟩, List.replicate 6 Cell.empty⟩
  have hnew : Style.Shown simpleEnv Style.new := ⟨by simp [Style.new], by simp [Style.new], by simp [Style.new, Modifier.none]⟩
  have hred : Style.Shown simpleEnv (Style.new.withForeground (.ansi 1)) :=
    ⟨fun c hc => by cases hc; decide, by simp [Style.new, Style.withForeground],
      by simp [Style.new, Style.withForeground, Modifier.none]⟩
  refine ⟨⟨.fullscreen, ⟨0, 0, 3, 2⟩, blank, blank, ⟨0, 0, 3, 2⟩, ⟨0, 0⟩, false, 0⟩, sc0,
    fun b => (Block.new.bordered.render Uniseg.simple ⟨0, 0, 3, 2⟩ b).bind
      ((⟨Style.new.withForeground (.ansi 1), "a"⟩ : Span).render Uniseg.simple ⟨1, 0, 1, 1⟩),
    blank, _, .start .fullscreen sc0 _ (by decide)
      ⟨by decide, by decide, by decide, by decide, by decide, by decide⟩ rfl rfl,
    .both (.block ⟨hnew, hnew, hnew, by decide, fun _ ht => absurd ht List.not_mem_nil⟩ _) (.span ⟨hred, by unfold Uniseg.MadeOf; decide⟩ _), ?_, rfl, ?_⟩
  · refine ⟨rfl, ⟨by decide, by decide, by decide⟩, fun p hp => ?_⟩
    rw [Buffer.cellAt_eq (b := blank) hp]
    show (List.replicate 6 Cell.empty)[_]? = _
    rw [List.getElem?_replicate, if_pos]
    exact Buffer.WF.idx_lt_length (b := blank) ⟨by decide, by decide, by decide⟩ hp
  · decide +kernel

end Bento
