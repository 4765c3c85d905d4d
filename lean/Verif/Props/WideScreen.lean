import Verif.Props.Palette
import Verif.Props.WideText

/-!
# Symbols of two columns, from the widgets to the screen

C107 — the text of a widget with Chinese, Japanese or Korean characters or emoji among its symbols, on the screen.
-/

namespace Bento

variable {u : Uniseg} {S : String → Prop} {T : Termenv}

theorem env_of_neatly (hu : u.Lawful) (hc : T.convert .reset = some .reset) (hS : Neatly u S) : Env u T S :=
  ⟨hu, hc, hS.space, hS.apart⟩

/-- The cells the terminal can show, in one column or two, with no rapid blinking. -/
def Cell.Decent (T : Termenv) (S : String → Prop) (c : Cell) : Prop :=
  c.Displayable T S ∧ c.skip = false ∧ c.modifier.getLsbD 5 = false

theorem palette_decent (hu : u.Lawful) (hc : T.convert .reset = some .reset) (hS : Neatly u S) :
    Palette u S (Style.Shown T) (Cell.Decent T S) := by
  have hreset : ((T.convert .reset).bind (Color.shown T)).isSome = true := by rw [hc]; rfl
  refine ⟨hu, hS.space, fun s h => by rcases hS.column s h with h | h <;> omega, hS.single, hS.apart,
    ⟨fun c h => (by cases h), fun c h => (by cases h), fun i _ => ?_⟩,
    fun s t hs ht => hs.patched ht, fun v c hv h => ?_, fun s c hs h => ?_, fun s c hs h => ?_, fun s c hs h => ?_,
    fun c h => ?_⟩
  · simp [Style.new, Modifier.none]
  · obtain ⟨⟨h1, h2, h3, h4, h5⟩, h7, h8⟩ := h
    exact ⟨⟨h1, h2, hv, hS.printable v hv, h5⟩, h7, h8⟩
  · obtain ⟨⟨h1, h2, h3, h4, h5⟩, h7, h8⟩ := h
    have m5 := hs.modifier 5 (Or.inl rfl)
    have b5 : (c.setStyle s).modifier.getLsbD 5 = false := bit_setStyle h8 m5
    refine ⟨⟨?_, ?_, h3, h4, ⟨?_, fun i hi => ?_, fun h => ?_⟩⟩, h7, b5⟩
    · show ((T.convert (match s.fg with | some f => f | none => c.fg)).bind (Color.shown T)).isSome = true
      cases hf : s.fg with
      | none => exact h1
      | some f => exact hs.fg f hf
    · show ((T.convert (match s.bg with | some f => f | none => c.bg)).bind (Color.shown T)).isSome = true
      cases hf : s.bg with
      | none => exact h2
      | some f => exact hs.bg f hf
    · exact bit_setStyle h5.1 (hs.modifier 7 (Or.inr (Or.inl rfl)))
    · exact bit_setStyle (h5.2.1 i hi) (hs.modifier i (Or.inr (Or.inr hi)))
    · rw [b5] at h
      cases h.2
  · obtain ⟨⟨h1, h2, h3, h4, h5⟩, h7, h8⟩ := h
    refine ⟨⟨?_, h2, h3, h4, h5⟩, h7, h8⟩
    show ((T.convert (s.fg.getD .reset)).bind (Color.shown T)).isSome = true
    cases hf : s.fg with
    | none => exact hreset
    | some f => exact hs.fg f hf
  · obtain ⟨⟨h1, h2, h3, h4, h5⟩, h7, h8⟩ := h
    refine ⟨⟨h1, ?_, h3, h4, h5⟩, h7, h8⟩
    show ((T.convert (s.bg.getD .reset)).bind (Color.shown T)).isSome = true
    cases hf : s.bg with
    | none => exact hreset
    | some f => exact hs.bg f hf
  · refine ⟨⟨hreset, hreset, hS.space, hS.printable _ hS.space, ⟨?_, fun i _ => ?_, fun h => ?_⟩⟩, rfl, ?_⟩
    · simp [Cell.reset]
    · simp [Cell.reset]
    · simp [Cell.reset] at h
    · simp [Cell.reset]

theorem decent_empty (hc : T.convert .reset = some .reset) (hS : Neatly u S) : Cell.empty.Decent T S := by
  have hreset : ((T.convert .reset).bind (Color.shown T)).isSome = true := by rw [hc]; rfl
  refine ⟨⟨hreset, hreset, hS.space, hS.printable _ hS.space, ⟨?_, fun i _ => ?_, fun h => ?_⟩⟩, rfl, ?_⟩ <;>
    simp [Cell.empty, Cell.new, Modifier.none] at *

/-- **C107**. Whatever is drawn with the widgets of the library into a blank buffer, out of symbols of one or two columns
and styles that can be shown, can be shown, if only there is a symbol of one column behind each one of two. -/
theorem C107_frame (hu : u.Lawful) (hc : T.convert .reset = some .reset) (hS : Neatly u S)
    {f : Buffer → Option Buffer} (h : Drawing u S (Style.Shown T) f) {area : Rect} {b b' : Buffer} (hb : b.Blank area)
    (e : f b = some b')
    (hroom : ∀ p s, b'.symbolAt p = some s → u.width s = 2 →
      ∃ s', b'.symbolAt ⟨p.x + 1, p.y⟩ = some s' ∧ u.width s' = 1) : b'.Good u T S area := by
  have hP := palette_decent hu hc hS
  have hall : b.All (Cell.Decent T S) := by
    intro c hc'
    rw [hb.all_empty c hc']
    exact decent_empty hc hS
  have hall' := drawing_paints hP h b b' hall e
  have hcell : ∀ p c, b'.cellAt p = some c → c.Decent T S := by
    intro p c hc'
    simp only [Buffer.cellAt] at hc'
    obtain ⟨i, _, hi⟩ := Option.bind_eq_some_iff.1 hc'
    split at hi
    · cases hi
    · exact hall' c (List.mem_of_getElem? hi)
  rcases drawing_cellwise h b b hb.wf hb.wf rfl with ⟨h1, _⟩ | ⟨b1, _, h1, _, w1, _, a1, _⟩
  · rw [e] at h1; cases h1
  · rw [e] at h1
    cases h1
    refine ⟨a1.trans hb.area_eq, w1, ⟨fun p c hc => hS.single _ (hcell p c hc).1.sym,
      fun p c hc => hS.column _ (hcell p c hc).1.sym, fun p c hc => (hcell p c hc).2.1, fun p c hc h2 => ?_⟩,
      fun p c hc => (hcell p c hc).1⟩
    obtain ⟨s', h3, h4⟩ := hroom p c.symbol (by unfold Buffer.symbolAt; rw [hc]; rfl) h2
    unfold Buffer.symbolAt at h3
    obtain ⟨c', h5, rfl⟩ := Option.map_eq_some_iff.1 h3
    exact ⟨c', h5, h4⟩

/-- **C107**. What the widgets draw is what the screen shows, symbols of two columns included: a symbol of two columns
takes the cell behind its own too, and all other cells show their own symbols. -/
theorem C107_screen {j : Junk} (hu : u.Lawful) (hc : T.convert .reset = some .reset) (hS : Neatly u S)
    {t : Terminal} {sc : Screen} (h : History j u T S t sc true) {f : Buffer → Option Buffer}
    (hf : Drawing u S (Style.Shown T) f) {blank frame : Buffer} (hb : blank.Blank t.viewportArea)
    (hframe : f blank = some frame)
    (hroom : ∀ p s, frame.symbolAt p = some s → u.width s = 2 →
      ∃ s', frame.symbolAt ⟨p.x + 1, p.y⟩ = some s' ∧ u.width s' = 1)
    (w : Widget) (hw : ∀ b, w t.viewportArea b = (f b).map fun b => (b, none)) :
    ∃ t' out, t.draw u T w noFault = some (t', out, true) ∧ History j u T S t' (sc.feed j u out) true ∧
      (∀ p c, frame.cellAt p = some c → (sc.feed j u out).grid p =
        if ∃ s, frame.symbolAt ⟨p.x - 1, p.y⟩ = some s ∧ u.width s = 2 then .cont
        else .glyph c.symbol (decide (u.width c.symbol = 2)) (penOf T c)) ∧
      ((∀ y, sc.grid ⟨t.viewportArea.x + t.viewportArea.width, y⟩ ≠ .cont) →
        ∀ q, t.viewportArea.contains q = false → (sc.feed j u out).grid q = sc.grid q) := by
  have env : Env u T S := env_of_neatly hu hc hS
  have same : ∀ b : Buffer, b.Blank t.viewportArea → b = blank := by
    intro b h
    refine h.wf.ext hb.wf (h.area_eq.trans hb.area_eq.symm) fun q hq => ?_
    rw [h.area_eq] at hq
    rw [h.cells q hq, hb.cells q hq]
  have hgood := C107_frame hu hc hS hf hb hframe hroom
  let w' : Widget := fun area b => if area = t.viewportArea then w area b else some (b, none)
  have hw' : w'.Good u T S := by
    intro area b _ _ hblank
    by_cases ha : area = t.viewportArea
    · subst ha
      rw [same b hblank]
      refine ⟨frame, none, ?_, hgood, fun p h => (by cases h)⟩
      show (if t.viewportArea = t.viewportArea then w t.viewportArea blank else some (blank, none)) = _
      rw [if_pos rfl, hw, hframe]
      rfl
    · refine ⟨b, none, if_neg ha, ?_, fun p h => (by cases h)⟩
      refine C107_frame hu hc hS Drawing.nothing hblank rfl fun p s hs h2 => ?_
      unfold Buffer.symbolAt at hs
      obtain ⟨c, hc', rfl⟩ := Option.map_eq_some_iff.1 hs
      have hm : c ∈ b.content := by
        simp only [Buffer.cellAt] at hc'
        obtain ⟨i, _, hi⟩ := Option.bind_eq_some_iff.1 hc'
        split at hi
        · cases hi
        · exact List.mem_of_getElem? hi
      rw [hblank.all_empty c hm] at h2
      have := hS.blank
      change u.width " " = 2 at h2
      omega
  obtain ⟨blank', frame', cur, t', out, h1, h2, h3, h4, h5⟩ := C12_screen_shows_frame env h w' hw'
  have e1 := same blank' h1
  subst e1
  have e2 : w' t.viewportArea blank' = some (frame, none) := by
    show (if t.viewportArea = t.viewportArea then w t.viewportArea blank' else some (blank', none)) = _
    rw [if_pos rfl, hw, hframe]
    rfl
  rw [e2] at h2
  cases h2
  have h3' : t.draw u T w noFault = some (t', out, true) := by
    rw [← h3]
    apply draw_congr
    show _ = (if t.viewportArea = t.viewportArea then w t.viewportArea t.cur else some (t.cur, none))
    rw [if_pos rfl]
  refine ⟨t', out, h3', History.draw h w' hw' t' out h3, fun p c hp => ?_, h5⟩
  rw [h4 p c hp]
  refine if_congr ?_ rfl rfl
  unfold Buffer.covered Buffer.symbolAt
  cases hq : frame.cellAt ⟨p.x - 1, p.y⟩ with
  | none => simp
  | some d => simp

theorem columns_mono (u : Uniseg) (cs : List String) {i j : Nat} (h : i ≤ j) :
    u.columns (cs.take i) ≤ u.columns (cs.take j) := by
  have : cs.take i = (cs.take j).take i := by rw [List.take_take, Nat.min_eq_left h]
  rw [this]
  have := columns_split u (cs.take j) i
  omega

/-- Two symbols do not share a column. -/
theorem shown_once {cs : List String} {o : Int} {w j j' : Nat} {c c' : String} {x x' k : Int}
    (h : u.ShownAt cs o w j c x k) (h' : u.ShownAt cs o w j' c' x' k) : c = c' ∧ x = x' := by
  obtain ⟨g1, g2, g3, g4, g5, g6⟩ := h
  obtain ⟨f1, f2, f3, f4, f5, f6⟩ := h'
  have step : ∀ {i : Nat} {d : String}, cs[i]? = some d → u.columns (cs.take (i + 1)) = u.columns (cs.take i) + u.width d := by
    intro i d hd
    rw [List.take_add_one, hd]
    simp [Uniseg.columns]
  rcases Nat.lt_trichotomy j j' with hlt | rfl | hlt
  · have := columns_mono u cs (i := j + 1) (j := j') hlt
    have := step g1
    omega
  · rw [g1] at f1
    cases f1
    exact ⟨rfl, by omega⟩
  · have := columns_mono u cs (i := j' + 1) (j := j) hlt
    have := step f1
    omega

/-- **C107**. A text with symbols of one and two columns, drawn into an area of the viewport, can be read off the screen:
line `i` in row `i`, each symbol that fits whole into its row in its columns, at the alignment of the line or else of
the text; a symbol of two columns takes both; the rest of the viewport is blank. -/
theorem C107_text {j : Junk} (hu : u.Lawful) (hs : u.Suffix) (hc : T.convert .reset = some .reset) (hS : Neatly u S)
    {t : Terminal} {sc : Screen} (h : History j u T S t sc true) (v : Text) (hv : v.MadeOf u S (Style.Shown T))
    (hvis : ∀ s, S s → Harmless s) (area : Rect)
    (hin : t.viewportArea.x ≤ area.x ∧ area.x + area.width ≤ t.viewportArea.x + t.viewportArea.width ∧
      t.viewportArea.y ≤ area.y ∧ area.y + area.height ≤ t.viewportArea.y + t.viewportArea.height ∧
      0 ≤ area.width ∧ 0 ≤ area.height)
    (w : Widget) (hw : ∀ b, w t.viewportArea b = (v.render u area b).map fun b => (b, none)) :
    let shown (l : Line) := u.ShownAt (l.clusters u)
      ((if l.alignment = .none then v.alignment else l.alignment).origin area.width.toNat (u.columns (l.clusters u)))
      area.width.toNat
    ∃ t' out, t.draw u T w noFault = some (t', out, true) ∧
      (∀ (i : Nat) (l : Line), v.lines[i]? = some l → (i : Int) < area.height → ∀ k c x, shown l k c x x →
        (∃ pen, (sc.feed j u out).grid ⟨area.x + x, area.y + i⟩ = .glyph c (decide (u.width c = 2)) pen) ∧
        (u.width c = 2 → (sc.feed j u out).grid ⟨area.x + x + 1, area.y + i⟩ = .cont)) ∧
      ∀ q, t.viewportArea.contains q = true →
        (∀ (i : Nat) (l : Line), v.lines[i]? = some l → (i : Int) < area.height → q.y = area.y + i →
          ∀ k c x, ¬ shown l k c x (q.x - area.x)) →
        ∃ pen, (sc.feed j u out).grid q = .glyph " " false pen := by
  intro shown
  obtain ⟨ht, _, _⟩ := history_inv (env_of_neatly hu hc hS) h
  have hvisible : ∀ l ∈ v.lines, l.VisibleText u := by
    intro l hl s hs' c hc'
    have hSc := ((hv.lines l hl).spans s hs').text c hc'
    exact ⟨by rcases hS.column c hSc with h | h <;> omega, hvis c hSc⟩
  obtain ⟨b', e, hshown, hrest⟩ := C100_text hu hs v hvisible area t.cur ht.cur.wf
    (by unfold Inside; rw [ht.cur.area_eq]; exact hin)
  have hblank : ∀ q, t.viewportArea.contains q = true → t.cur.symbolAt q = some " " := by
    intro q hq
    unfold Buffer.symbolAt
    rw [ht.cur.cells q hq]
    rfl
  have hw1 := hS.blank
  -- a symbol of two columns is a symbol of the text
  have hwide : ∀ p s, b'.symbolAt p = some s → u.width s = 2 → ∃ (i : Nat) (l : Line), v.lines[i]? = some l ∧
      (i : Int) < area.height ∧ p.y = area.y + i ∧ ∃ k, shown l k s (p.x - area.x) (p.x - area.x) := by
    intro p s hp h2
    by_contra hno
    by_cases hex : ∃ (i : Nat) (l : Line), v.lines[i]? = some l ∧ (i : Int) < area.height ∧ p.y = area.y + i ∧
        ∃ k c x, shown l k c x (p.x - area.x)
    · obtain ⟨i, l, h3, h4, h5, k, c, x, h6⟩ := hex
      have h7 := hshown i l h3 h4 k c x _ h6
      have hpe : (⟨area.x + (p.x - area.x), area.y + i⟩ : Position) = p := by ext <;> simp only <;> omega
      rw [hpe, hp, Option.some.injEq] at h7
      by_cases hk : p.x - area.x = x
      · rw [if_pos hk] at h7
        subst h7
        subst hk
        exact hno ⟨i, l, h3, h4, h5, k, h6⟩
      · rw [if_neg hk] at h7
        rw [h7] at h2
        omega
    · have h7 := hrest p fun i l h3 h4 h5 k c x h6 => hex ⟨i, l, h3, h4, h5, k, c, x, h6⟩
      rw [hp] at h7
      by_cases hq : t.viewportArea.contains p = true
      · rw [hblank p hq, Option.some.injEq] at h7
        rw [h7] at h2
        omega
      · unfold Buffer.symbolAt at h7
        cases hcell : t.cur.cellAt p with
        | none => rw [hcell] at h7; cases h7
        | some d =>
          have := Buffer.cellAt_some_contains hcell
          rw [ht.cur.area_eq] at this
          exact hq this
  have hnext : ∀ {l : Line} {k : Nat} {c : String} {x : Int}, shown l k c x x → u.width c = 2 → shown l k c x (x + 1) :=
    fun ⟨g1, g2, g3, g4, g5, g6⟩ h2 => ⟨g1, g2, g3, g4, by omega, by omega⟩
  have hroom : ∀ p s, b'.symbolAt p = some s → u.width s = 2 →
      ∃ s', b'.symbolAt ⟨p.x + 1, p.y⟩ = some s' ∧ u.width s' = 1 := by
    intro p s hp h2
    obtain ⟨i, l, h3, h4, h5, k, h6⟩ := hwide p s hp h2
    have h7 := hshown i l h3 h4 k s _ _ (hnext h6 h2)
    rw [if_neg (by omega)] at h7
    refine ⟨" ", ?_, hw1⟩
    rw [← h7]
    congr 1
    ext <;> simp <;> omega
  have hdr : Drawing u S (Style.Shown T) (v.render u area) := .text hv area
  obtain ⟨t', out, h1, _, h2, _⟩ := C107_screen hu hc hS h hdr ht.cur e hroom w hw
  have hgood := C107_frame hu hc hS hdr ht.cur e hroom
  refine ⟨t', out, h1, fun i l hl hi k c x hk => ?_, fun q hq hno => ?_⟩
  · have hk' := hk
    obtain ⟨g1, g2, g3, g4, g5, g6⟩ := hk'
    have hsym := hshown i l hl hi k c x x hk
    rw [if_pos rfl] at hsym
    have hsym' := hsym
    unfold Buffer.symbolAt at hsym'
    obtain ⟨d, hd, rfl⟩ := Option.map_eq_some_iff.1 hsym'
    refine ⟨⟨penOf T d, ?_⟩, fun hc2 => ?_⟩
    · rw [h2 _ d hd, if_neg]
      rintro ⟨s, hs1, hs2⟩
      obtain ⟨i', l', q1, q2, q3, k', q4⟩ := hwide _ s hs1 hs2
      have : i' = i := by simp only at q3; omega
      subst this
      rw [hl] at q1
      cases q1
      have q5 := hnext q4 hs2
      have q6 : (⟨area.x + x - 1, area.y + i'⟩ : Position).x - area.x + 1 = x := by simp only; omega
      rw [q6] at q5
      have := (shown_once hk q5).2
      simp only at this
      omega
    · have hn := hshown i l hl hi k _ x (x + 1) (hnext hk hc2)
      unfold Buffer.symbolAt at hn
      obtain ⟨d', hd', _⟩ := Option.map_eq_some_iff.1 hn
      have he : (⟨area.x + (x + 1), area.y + i⟩ : Position) = ⟨area.x + x + 1, area.y + i⟩ := by
        ext
        · simp only; omega
        · rfl
      rw [he] at hd'
      rw [h2 _ d' hd', if_pos]
      refine ⟨_, ?_, hc2⟩
      have : (⟨(⟨area.x + x + 1, area.y + i⟩ : Position).x - 1, (⟨area.x + x + 1, area.y + i⟩ : Position).y⟩ : Position) =
          ⟨area.x + x, area.y + i⟩ := by ext <;> simp
      rw [this]
      exact hsym
  · have hsym := hrest q hno
    rw [hblank q hq] at hsym
    have hsym' := hsym
    unfold Buffer.symbolAt at hsym'
    obtain ⟨d, hd, hd'⟩ := Option.map_eq_some_iff.1 hsym'
    refine ⟨penOf T d, ?_⟩
    rw [h2 _ d hd, if_neg, hd', hw1]
    · rfl
    · rintro ⟨s, hs1, hs2⟩
      obtain ⟨i', l', q1, q2, q3, k', q4⟩ := hwide _ s hs1 hs2
      have q5 := hnext q4 hs2
      have q6 : (⟨q.x - 1, q.y⟩ : Position).x - area.x + 1 = q.x - area.x := by simp; omega
      rw [q6] at q5
      exact hno i' l' q1 q2 q3 k' s _ q5

/-- The symbols of the example. -/
def wideSymbols : List String := [" ", "a", "世"]

theorem wideSymbols_neatly : Neatly Uniseg.simple (· ∈ wideSymbols) where
  space := by decide
  blank := by decide
  column := by decide
  single := by decide
  printable := by unfold Printable; decide
  apart := simple_separable _

/-- The text "a世" on a screen of four columns, at the right: the screen shows a blank, the `a`, and the wide symbol in
the last two columns. -/
example (j : Junk) : ∃ (t : Terminal) (sc : Screen) (w : Widget) (t' : Terminal) (out : List Char),
    History j Uniseg.simple simpleEnv (· ∈ wideSymbols) t sc true ∧
    t.draw Uniseg.simple simpleEnv w noFault = some (t', out, true) ∧
    (∃ pen, (sc.feed j Uniseg.simple out).grid ⟨0, 0⟩ = .glyph " " false pen) ∧
    (∃ pen, (sc.feed j Uniseg.simple out).grid ⟨1, 0⟩ = .glyph "a" false pen) ∧
    (∃ pen, (sc.feed j Uniseg.simple out).grid ⟨2, 0⟩ = .glyph "世" true pen) ∧
    (sc.feed j Uniseg.simple out).grid ⟨3, 0⟩ = .cont := by
  let sc0 : Screen := ⟨4, 1, Grid.blank, 0, 0, Pen.neutral, true, false, Grid.blank, false⟩
  let blank : Buffer := ⟨⟨0, 0, 4, 1⟩, List.replicate 4 Cell.empty⟩
  let t0 : Terminal := ⟨.fullscreen, ⟨0, 0, 4, 1⟩, blank, blank, ⟨0, 0, 4, 1⟩, ⟨0, 0⟩, false, 0⟩
  let l : Line := ⟨Style.new, [⟨Style.new, "a世"⟩], .right⟩
  let v : Text := ⟨Style.new, [l], .left⟩
  have hnew : Style.Shown simpleEnv Style.new := ⟨by simp [Style.new], by simp [Style.new], by simp [Style.new, Modifier.none]⟩
  have hist : History j Uniseg.simple simpleEnv (· ∈ wideSymbols) t0 sc0 true :=
    .start .fullscreen sc0 _ (by decide) ⟨by decide, by decide, by decide, by decide, by decide, by decide⟩ rfl rfl
  have hv : v.MadeOf Uniseg.simple (· ∈ wideSymbols) (Style.Shown simpleEnv) := by
    refine ⟨hnew, fun l' hl => ?_⟩
    rw [show l' = l from List.mem_singleton.1 hl]
    refine ⟨hnew, fun s hs => ?_⟩
    rw [show s = ⟨Style.new, "a世"⟩ from List.mem_singleton.1 hs]
    exact ⟨hnew, by unfold Uniseg.MadeOf; decide⟩
  obtain ⟨t', out, h1, h2, h3⟩ := C107_text Uniseg.simple_lawful simple_suffix (by decide) wideSymbols_neatly hist v hv
    (by unfold Harmless Control; decide) ⟨0, 0, 4, 1⟩ (by decide) (fun _ b => (v.render Uniseg.simple ⟨0, 0, 4, 1⟩ b).map fun b => (b, none))
    fun b => rfl
  refine ⟨t0, sc0, _, t', out, hist, h1, ?_, ?_, ?_, ?_⟩
  · refine h3 ⟨0, 0⟩ (by decide) fun i l' hl hi hy k c x hk => ?_
    obtain ⟨g1, g2, g3, g4, g5, g6⟩ := hk
    have hi0 : i = 0 := by simp only at hi; omega
    subst hi0
    cases hl
    have : (2 : Int) ≤ x + 1 := by
      rw [g2]
      have : l.alignment.origin 4 (Uniseg.simple.columns (l.clusters Uniseg.simple)) = 1 := by decide
      show (2 : Int) ≤ l.alignment.origin 4 (Uniseg.simple.columns (l.clusters Uniseg.simple)) + _ + 1
      omega
    simp only at g5
    omega
  · exact (h2 0 l rfl (by decide) 0 "a" 1 (by unfold Uniseg.ShownAt; decide)).1
  · exact (h2 0 l rfl (by decide) 1 "世" 2 (by unfold Uniseg.ShownAt; decide)).1
  · exact (h2 0 l rfl (by decide) 1 "世" 2 (by unfold Uniseg.ShownAt; decide)).2 (by decide)

end Bento
