import Verif.Lemmas.Reflow

/-!
# Words on one row

The loop of the word wrapper around one word that fits on a row.
-/

namespace Bento

namespace Wrap

open StyledGrapheme (cleared)

/-- Graphemes too wide for any row do not count. -/
theorem foldl_filter (max : Int) (trim : Bool) : ∀ (l : List StyledGrapheme) (s : State),
    l.foldl (State.step max trim) s = (l.filter fun g => (g.g.width : Int) ≤ max).foldl (State.step max trim) s
  | [], _ => rfl
  | g :: t, s => by
    rw [List.foldl_cons, foldl_filter max trim t, List.filter_cons]
    by_cases h : (g.g.width : Int) ≤ max
    · simp only [h, decide_true, if_true, List.foldl_cons]
    · have hs : s.step max trim g = s := by
        unfold State.step
        rw [if_pos (by omega)]
      simp only [h, decide_false, Bool.false_eq_true, if_false, hs]

theorem dropFront_le : ∀ (l : List StyledGrapheme) (r w : Int), (dropFront l r w).2 ≤ w
  | [], _, _ => Int.le_refl _
  | g :: t, r, w => by
    unfold dropFront
    split
    · exact Int.le_refl _
    · have := dropFront_le t (r - g.g.width) (w - g.g.width)
      omega

/-- The widths that are kept are those of the graphemes. -/
structure State.Sized (s : State) : Prop where
  line : s.lineWidth = columns s.pendingLine
  word : s.wordWidth = columns s.pendingWord
  white : s.whitespaceWidth = columns s.pendingWhitespace

theorem sized_flush (trim : Bool) {s : State} (h : s.Sized) : (s.flush trim).Sized := by
  obtain ⟨h1, h2, h3⟩ := h
  refine ⟨?_, ?_, rfl⟩
  · simp only [State.flush]
    split <;> simp only [columns_append] <;> omega
  · simp only [State.flush, columns_cleared]

theorem sized_emit (max : Int) {s : State} (h : s.Sized) : (s.emit max).Sized := by
  obtain ⟨h1, h2, h3⟩ := h
  refine ⟨?_, h2, dropFront_columns _ _ _ h3⟩
  simp only [State.emit, columns_cleared]

theorem sized_push (g : StyledGrapheme) {s : State} (h : s.Sized) : (s.push g).Sized := by
  obtain ⟨h1, h2, h3⟩ := h
  unfold State.push
  split
  · refine ⟨h1, h2, ?_⟩
    simp only [columns_append, columns_cons, h3]; simp [columns]
  · refine ⟨h1, ?_, h3⟩
    simp only [columns_append, columns_cons, h2]; simp [columns]

theorem sized_place (max : Int) (g : StyledGrapheme) {s : State} (h : s.Sized) : (s.place max g).Sized := by
  unfold State.place
  split
  · simp only
    split
    · exact sized_emit max h
    · exact sized_push g (sized_emit max h)
  · exact sized_push g h

theorem sized_step (max : Int) (trim : Bool) (g : StyledGrapheme) {s : State} (h : s.Sized) :
    (s.step max trim g).Sized := by
  unfold State.step
  split
  · exact h
  · apply sized_place
    split
    · exact sized_flush trim h
    · exact h

/-- Cleared graphemes. -/
def Zeros (l : List StyledGrapheme) : Prop := ∀ g ∈ l, g = StyledGrapheme.zero

theorem zeros_cleared (l : List StyledGrapheme) : Zeros (cleared l) := by
  intro g hg
  simp only [cleared, List.mem_map] at hg
  obtain ⟨_, _, rfl⟩ := hg
  rfl

theorem Zeros.eq_cleared {l : List StyledGrapheme} (h : Zeros l) : l = cleared l := by
  induction l with
  | nil => rfl
  | cons a t ih =>
    have e := ih fun g hg => h g (List.mem_cons_of_mem _ hg)
    show a :: t = StyledGrapheme.zero :: cleared t
    rw [← e, h a List.mem_cons_self]

theorem Zeros.visible {l : List StyledGrapheme} (h : Zeros l) : Bento.visible l = [] := by
  rw [h.eq_cleared]; exact visible_cleared l

theorem Zeros.symbols {l : List StyledGrapheme} (h : Zeros l) : Bento.symbols l = [] := by
  rw [h.eq_cleared]; exact symbols_cleared l

theorem Zeros.columns {l : List StyledGrapheme} (h : Zeros l) : Bento.columns l = 0 := by
  rw [h.eq_cleared]; exact columns_cleared l

/-- Graphemes that are no whitespace have symbols. -/
theorem symbols_solid {l : List StyledGrapheme} (h : ∀ g ∈ l, g.g.isWhitespace = false) : symbols l = l := by
  unfold symbols
  rw [List.filter_eq_self]
  intro g hg
  have := h g hg
  simp only [ne_eq, decide_not, Bool.not_eq_eq_eq_not, Bool.not_true, decide_eq_false_iff_not]
  intro e
  unfold Grapheme.isWhitespace at this
  rw [e] at this
  revert this
  decide +kernel

/-! ### Before the word -/

/-- What is known after the graphemes `pre`. -/
structure State.Outside (max : Int) (trim : Bool) (pre : List StyledGrapheme) (s : State) : Prop where
  sized : s.Sized
  blank : s.Blank
  idle : s.nonWhitespacePrevious = false → Zeros s.pendingWord
  ended : ∀ g ∈ pre.getLast?, g.g.isWhitespace = true → Zeros s.pendingWord
  none_ : pre = [] → Zeros s.pendingWord
  white : s.pendingLine = [] → (trim = true → s.whitespaceWidth ≤ max) ∧ s.whitespaceWidth ≤ columns pre
  begun : (∃ g ∈ pre, g.g.isWhitespace = false) →
    s.pendingLine ≠ [] ∨ (s.nonWhitespacePrevious = true ∧ s.pendingWord ≠ [])
  begun' : (∃ g ∈ pre, g.g.isWhitespace = false) → (∀ g ∈ pre.getLast?, g.g.isWhitespace = true) →
    s.pendingLine ≠ []

theorem cleared_eq_nil {l : List StyledGrapheme} : cleared l = [] ↔ l = [] := by
  unfold cleared; exact List.map_eq_nil_iff

theorem outside_step {max : Int} (hmax : 0 < max) {trim : Bool} {pre : List StyledGrapheme} {s : State}
    (g : StyledGrapheme) (hg : (g.g.width : Int) ≤ max) (h : s.Outside max trim pre) :
    (s.step max trim g).Outside max trim (pre ++ [g]) := by
  have hsized := sized_step max trim g h.sized
  have hblank := (content_step max trim g h.blank).2
  obtain ⟨hs, hb, hidle, hended, hnone, hwhite, hbegun, hbegun'⟩ := h
  have hcol : 0 ≤ columns pre := columns_nonneg pre
  have hcolg : columns (pre ++ [g]) = columns pre + g.g.width := by
    rw [columns_append, columns_cons]; simp [columns]
  have hlast : (pre ++ [g]).getLast? = some g := by simp
  -- the state after the word may have been flushed
  obtain ⟨t, ht⟩ : ∃ t, t = (if s.ends max trim g then s.flush trim else s) := ⟨_, rfl⟩
  have hstep : s.step max trim g = t.place max g := by
    unfold State.step
    rw [if_neg (by omega), ht]
  have hprev : t.nonWhitespacePrevious = s.nonWhitespacePrevious := by
    rw [ht]; split <;> rfl
  have hidle' : (s.nonWhitespacePrevious = false ∨ g.g.isWhitespace = true) → Zeros t.pendingWord := by
    intro hc
    rw [ht]
    by_cases he : s.ends max trim g = true
    · simp only [he, if_true]; exact zeros_cleared _
    · simp only [he, Bool.false_eq_true, if_false]
      refine hidle ?_
      rcases hc with hc | hc
      · exact hc
      · cases hp : s.nonWhitespacePrevious with
        | false => rfl
        | true =>
          exfalso
          apply he
          unfold State.ends
          simp [hp, hc]
  have hline : s.pendingLine ≠ [] → t.pendingLine ≠ [] := by
    intro hne
    rw [ht]
    split
    · simp only [State.flush]
      intro e
      rw [List.append_eq_nil_iff] at e
      have e1 := e.1
      split at e1
      · rw [List.append_eq_nil_iff] at e1; exact hne e1.1
      · exact hne e1
    · exact hne
  have hbeg : (∃ x ∈ pre, x.g.isWhitespace = false) →
      t.pendingLine ≠ [] ∨ (s.nonWhitespacePrevious = true ∧ t.pendingWord ≠ [] ∧ g.g.isWhitespace = false) := by
    intro hx
    rcases hbegun hx with hl | ⟨hp, hw⟩
    · exact .inl (hline hl)
    · rw [ht]
      by_cases he : s.ends max trim g = true
      · simp only [he, if_true]
        left
        simp only [State.flush]
        intro e
        rw [List.append_eq_nil_iff] at e
        exact hw e.2
      · simp only [he, Bool.false_eq_true, if_false]
        right
        refine ⟨hp, hw, ?_⟩
        cases hgw : g.g.isWhitespace with
        | false => rfl
        | true =>
          exfalso
          apply he
          unfold State.ends
          simp [hp, hgw]
  have hwh : t.pendingLine = [] → (trim = true → t.whitespaceWidth ≤ max ∧
      (g.g.isWhitespace = true → t.whitespaceWidth + g.g.width ≤ max)) ∧ t.whitespaceWidth ≤ columns pre := by
    intro hnil
    rw [ht] at hnil ⊢
    by_cases he : s.ends max trim g = true
    · simp only [he, if_true] at hnil ⊢
      show (trim = true → (0 : Int) ≤ max ∧ (g.g.isWhitespace = true → (0 : Int) + g.g.width ≤ max)) ∧ (0 : Int) ≤ _
      exact ⟨fun _ => ⟨by omega, fun _ => by omega⟩, hcol⟩
    · simp only [he, Bool.false_eq_true, if_false] at hnil ⊢
      obtain ⟨h1, h2⟩ := hwhite hnil
      refine ⟨fun htr => ⟨h1 htr, fun _ => ?_⟩, h2⟩
      by_contra hgt
      apply he
      unfold State.ends
      have : decide (s.whitespaceWidth + (g.g.width : Int) > max) = true := by simp; omega
      simp [hnil, htr, this]
  -- the word that is emitted or not
  have key : ∀ r : State, (r.pendingLine = [] ↔ t.pendingLine = []) → r.pendingWord = t.pendingWord →
      r.nonWhitespacePrevious = t.nonWhitespacePrevious → r.whitespaceWidth ≤ t.whitespaceWidth →
      ((r.push g).nonWhitespacePrevious = false → Zeros (r.push g).pendingWord) ∧
      (g.g.isWhitespace = true → Zeros (r.push g).pendingWord) ∧
      ((r.push g).pendingLine = [] → (trim = true → (r.push g).whitespaceWidth ≤ max) ∧
        (r.push g).whitespaceWidth ≤ columns pre + g.g.width) ∧
      ((∃ x ∈ pre ++ [g], x.g.isWhitespace = false) → (r.push g).pendingLine ≠ [] ∨
        ((r.push g).nonWhitespacePrevious = true ∧ (r.push g).pendingWord ≠ [])) ∧
      ((∃ x ∈ pre ++ [g], x.g.isWhitespace = false) → g.g.isWhitespace = true → (r.push g).pendingLine ≠ []) := by
    intro r r1 r2 r3 r4
    unfold State.push
    cases hgw : g.g.isWhitespace with
    | true =>
      simp only [if_true]
      refine ⟨fun _ => ?_, fun _ => ?_, fun hnil => ?_, fun hx => ?_, fun hx _ => ?_⟩
      · rw [r2]; exact hidle' (.inr hgw)
      · rw [r2]; exact hidle' (.inr hgw)
      · obtain ⟨h1, h2⟩ := hwh (r1.1 hnil)
        exact ⟨fun htr => by have := (h1 htr).2 hgw; omega, by omega⟩
      all_goals
        have hx' : ∃ x ∈ pre, x.g.isWhitespace = false := by
          obtain ⟨x, hx, hxw⟩ := hx
          simp only [List.mem_append, List.mem_singleton] at hx
          rcases hx with hx | rfl
          · exact ⟨x, hx, hxw⟩
          · rw [hgw] at hxw; cases hxw
        have hb' : r.pendingLine ≠ [] := by
          rcases hbeg hx' with hb' | ⟨_, _, hb'⟩
          · exact fun e => hb' (r1.1 e)
          · rw [hgw] at hb'; cases hb'
      · exact .inl hb'
      · exact hb'
    | false =>
      simp only [Bool.false_eq_true, if_false]
      refine ⟨fun h => by simp at h, fun h => absurd h (by simp), fun hnil => ?_, fun _ => .inr ⟨trivial, by simp⟩,
        fun _ h => absurd h (by simp)⟩
      obtain ⟨h1, h2⟩ := hwh (r1.1 hnil)
      exact ⟨fun htr => by have := (h1 htr).1; omega, by omega⟩
  rw [hstep] at hsized hblank ⊢
  refine ⟨hsized, hblank, ?_, ?_, fun h => absurd h (by simp), ?_, ?_, ?_⟩
  all_goals
    unfold State.place
    by_cases hf : t.full max g = true
    · simp only [hf, if_true]
      have hem : ((t.emit max).pendingLine = [] ↔ t.pendingLine = []) := by
        simp only [State.emit]; exact cleared_eq_nil
      have hle : (t.emit max).whitespaceWidth ≤ t.whitespaceWidth := by
        simp only [State.emit]; exact dropFront_le _ _ _
      obtain ⟨k1, k2, k3, k4, k5⟩ := key (t.emit max) hem rfl rfl hle
      by_cases hd : (g.g.isWhitespace && (t.emit max).pendingWhitespace.isEmpty) = true
      · simp only [hd, if_true]
        have hgw : g.g.isWhitespace = true := (Bool.and_eq_true _ _ ▸ hd).1
        have hx' : (∃ x ∈ pre ++ [g], x.g.isWhitespace = false) → (t.emit max).pendingLine ≠ [] := by
          rintro ⟨x, hx, hxw⟩
          simp only [List.mem_append, List.mem_singleton] at hx
          rcases hx with hx | rfl
          · rcases hbeg ⟨x, hx, hxw⟩ with hb' | ⟨_, _, hb'⟩
            · exact fun e => hb' (hem.1 e)
            · rw [hgw] at hb'; cases hb'
          · rw [hgw] at hxw; cases hxw
        first
        | exact fun _ => hidle' (.inr hgw)
        | exact fun _ _ _ => hidle' (.inr hgw)
        | exact fun hnil => ⟨fun htr => by have := ((hwh (hem.1 hnil)).1 htr).1; omega, by
            rw [hcolg]; have := (hwh (hem.1 hnil)).2; omega⟩
        | exact fun hx => .inl (hx' hx)
        | exact fun hx _ => hx' hx
      · simp only [hd, Bool.false_eq_true, if_false]
        first
        | exact k1
        | exact fun x hx hxw => k2 (by rw [hlast] at hx; cases hx; exact hxw)
        | (rw [hcolg]; exact k3)
        | exact k4
        | exact fun hx hl => k5 hx (hl g (by rw [hlast]; rfl))
    · simp only [hf, Bool.false_eq_true, if_false]
      obtain ⟨k1, k2, k3, k4, k5⟩ := key t Iff.rfl rfl rfl (Int.le_refl _)
      first
      | exact k1
      | exact fun x hx hxw => k2 (by rw [hlast] at hx; cases hx; exact hxw)
      | (rw [hcolg]; exact k3)
      | exact k4
      | exact fun hx hl => k5 hx (hl g (by rw [hlast]; rfl))

theorem outside_foldl {max : Int} (hmax : 0 < max) {trim : Bool} : ∀ (l pre : List StyledGrapheme) (s : State),
    (∀ g ∈ l, (g.g.width : Int) ≤ max) → s.Outside max trim pre →
      (l.foldl (State.step max trim) s).Outside max trim (pre ++ l)
  | [], pre, s, _, h => by simpa using h
  | g :: t, pre, s, hl, h => by
    rw [List.foldl_cons]
    have := outside_foldl hmax t (pre ++ [g]) _ (fun x hx => hl x (List.mem_cons_of_mem _ hx))
      (outside_step hmax g (hl g List.mem_cons_self) h)
    simpa using this

/-! ### Inside the word -/

/-- The part `cur` of the word `word` that has been read is held together. -/
def State.Held (max : Int) (trim : Bool) (before word cur : List StyledGrapheme) (s : State) : Prop :=
  s.Sized ∧ s.Blank ∧ (cur ≠ [] → s.nonWhitespacePrevious = true) ∧
  (s.pendingLine = [] → (trim = true → s.whitespaceWidth ≤ max) ∧
    (trim = false → s.whitespaceWidth + columns word ≤ max)) ∧
  ∃ a p z q, s.pendingLine = a ++ p ∧ s.pendingWord = z ++ q ∧ Zeros z ∧ p ++ q = cur ∧
    visible (s.queue.flatten ++ a) = visible before ∧
    (p ≠ [] → s.pendingWhitespace = [] ∧ s.lineWidth + s.wordWidth = columns cur ∧ s.lineWidth < max)

theorem held_step {max : Int} (hmax : 0 < max) {trim : Bool} {before word cur rest : List StyledGrapheme} {s : State}
    (g : StyledGrapheme) (hword : cur ++ g :: rest = word) (hw : columns word ≤ max)
    (hsolid : g.g.isWhitespace = false) (h : s.Held max trim before word cur) :
    (s.step max trim g).Held max trim before word (cur ++ [g]) := by
  have hcw : columns cur + g.g.width ≤ columns word := by
    rw [← hword, columns_append, columns_cons]
    have := columns_nonneg rest
    omega
  have hc0 := columns_nonneg cur
  have hsized := sized_step max trim g h.1
  have hblank := (content_step max trim g h.2.1).2
  obtain ⟨hs, hb, hprev, hcond, a, p, z, q, e1, e2, hz, e3, hv, hp⟩ := h
  have hcq : columns p + columns q = columns cur := by rw [← e3, columns_append]
  have hp0 := columns_nonneg p
  have hq0 := columns_nonneg q
  have hword' : s.wordWidth = columns q := by rw [hs.word, e2, columns_append, hz.columns]; omega
  have hwhite0 : 0 ≤ s.whitespaceWidth := by rw [hs.white]; exact columns_nonneg _
  -- after flushing or not
  obtain ⟨t, ht⟩ : ∃ t, t = (if s.ends max trim g then s.flush trim else s) := ⟨_, rfl⟩
  have hstep : s.step max trim g = t.place max g := by
    unfold State.step
    rw [if_neg (by omega), ht]
  have hts : t.Sized ∧ t.Blank := by
    rw [ht]
    split
    · exact ⟨sized_flush trim hs, (content_flush trim hb).2⟩
    · exact ⟨hs, hb⟩
  have hheld : (t.pendingLine = [] → (trim = true → t.whitespaceWidth ≤ max) ∧
        (trim = false → t.whitespaceWidth + columns word ≤ max)) ∧
      ∃ a p z q, t.pendingLine = a ++ p ∧ t.pendingWord = z ++ q ∧ Zeros z ∧ p ++ q = cur ∧
        visible (t.queue.flatten ++ a) = visible before ∧
        (p ≠ [] → t.pendingWhitespace = [] ∧ t.lineWidth + t.wordWidth = columns cur ∧ t.lineWidth < max) := by
    rw [ht]
    by_cases he : s.ends max trim g = true
    · simp only [he, if_true]
      -- only leading whitespace that is dropped gets here
      have hcase : s.pendingLine = [] ∧ trim = true ∧ s.whitespaceWidth + g.g.width > max := by
        unfold State.ends at he
        simp only [hsolid, Bool.and_false, Bool.false_or, Bool.or_eq_true, Bool.and_eq_true, List.isEmpty_iff,
          decide_eq_true_eq, Bool.not_eq_true'] at he
        rcases he with (⟨⟨h1, h2⟩, h3⟩ | ⟨⟨h1, h2⟩, h3⟩) | ⟨⟨h1, h2⟩, h3⟩
        · omega
        · exact ⟨h1, h2, h3⟩
        · have := (hcond h1).2 h2
          omega
      obtain ⟨c1, c2, c3⟩ := hcase
      have hws := (hcond c1).1 c2
      have hap : a = [] ∧ p = [] := by rw [c1] at e1; simpa using e1.symm
      obtain ⟨rfl, rfl⟩ := hap
      simp only [List.nil_append] at e3
      subst e3
      have hfl : (s.flush trim).pendingLine = z ++ q := by
        simp only [State.flush, c1, c2, e2]; rfl
      have hfw : (s.flush trim).lineWidth = columns q := by
        simp only [State.flush, c1, c2]
        simp only [List.isEmpty_nil, Bool.not_true, Bool.or_self, Bool.false_eq_true, if_false]
        rw [hs.line, c1, hword']
        simp [columns]
      refine ⟨fun _ => ⟨fun _ => ?_, fun h => absurd h (by rw [c2]; simp)⟩, z, q, cleared s.pendingWord, [], hfl,
        by simp [State.flush], zeros_cleared _, by simp, ?_, fun _ => ⟨rfl, ?_, ?_⟩⟩
      · show (0 : Int) ≤ max; omega
      · show visible (s.queue.flatten ++ z) = _
        rw [visible_append, hz.visible, List.append_nil]
        rw [List.append_nil] at hv
        exact hv
      · rw [hfw]; show columns q + 0 = _; omega
      · rw [hfw]; omega
    · simp only [he, Bool.false_eq_true, if_false]
      exact ⟨hcond, a, p, z, q, e1, e2, hz, e3, hv, hp⟩
  obtain ⟨hcond', a', p', z', q', f1, f2, hz', f3, hv', hp'⟩ := hheld
  rw [hstep] at hsized hblank ⊢
  have key : ∀ r : State, (r.pendingLine = [] → (trim = true → r.whitespaceWidth ≤ max) ∧
        (trim = false → r.whitespaceWidth + columns word ≤ max)) →
      (∃ a p z q, r.pendingLine = a ++ p ∧ r.pendingWord = z ++ q ∧ Zeros z ∧ p ++ q = cur ∧
        visible (r.queue.flatten ++ a) = visible before ∧
        (p ≠ [] → r.pendingWhitespace = [] ∧ r.lineWidth + r.wordWidth = columns cur ∧ r.lineWidth < max)) →
      ((r.push g).nonWhitespacePrevious = true) ∧
      ((r.push g).pendingLine = [] → (trim = true → (r.push g).whitespaceWidth ≤ max) ∧
        (trim = false → (r.push g).whitespaceWidth + columns word ≤ max)) ∧
      (∃ a p z q, (r.push g).pendingLine = a ++ p ∧ (r.push g).pendingWord = z ++ q ∧ Zeros z ∧ p ++ q = cur ++ [g] ∧
        visible ((r.push g).queue.flatten ++ a) = visible before ∧
        (p ≠ [] → (r.push g).pendingWhitespace = [] ∧
          (r.push g).lineWidth + (r.push g).wordWidth = columns (cur ++ [g]) ∧ (r.push g).lineWidth < max)) := by
    rintro r rc ⟨a, p, z, q, g1, g2, g3, g4, g5, g6⟩
    unfold State.push
    simp only [hsolid, Bool.false_eq_true, if_false]
    refine ⟨trivial, rc, a, p, z, q ++ [g], g1, by rw [g2, List.append_assoc], g3, by rw [← g4, List.append_assoc], g5,
      fun hne => ?_⟩
    obtain ⟨i1, i2, i3⟩ := g6 hne
    refine ⟨i1, ?_, i3⟩
    rw [columns_append, columns_cons]
    have : columns [] = 0 := rfl
    omega
  unfold State.place at hsized hblank ⊢
  by_cases hf : t.full max g = true
  · simp only [hf, if_true, hsolid, Bool.false_and, Bool.false_eq_true, if_false] at hsized hblank ⊢
    -- the word has not begun on the line that is finished
    have hpe : p' = [] := by
      by_contra hne
      obtain ⟨i1, i2, i3⟩ := hp' hne
      have hw0 : t.whitespaceWidth = 0 := by rw [hts.1.white, i1]; rfl
      unfold State.full at hf
      simp only [Bool.or_eq_true, Bool.and_eq_true, decide_eq_true_eq] at hf
      rcases hf with hf | ⟨hf1, hf2⟩ <;> omega
    subst hpe
    rw [List.append_nil] at f1
    have hcond'' : (t.emit max).pendingLine = [] → (trim = true → (t.emit max).whitespaceWidth ≤ max) ∧
        (trim = false → (t.emit max).whitespaceWidth + columns word ≤ max) := by
      intro hnil
      have hnil' : t.pendingLine = [] := cleared_eq_nil.1 hnil
      have hle : (t.emit max).whitespaceWidth ≤ t.whitespaceWidth := dropFront_le _ _ _
      obtain ⟨j1, j2⟩ := hcond' hnil'
      exact ⟨fun h => by have := j1 h; omega, fun h => by have := j2 h; omega⟩
    have hv'' : visible ((t.emit max).queue.flatten ++ cleared t.pendingLine) = visible before := by
      show visible ((t.queue ++ [t.pendingLine]).flatten ++ cleared t.pendingLine) = _
      rw [visible_append, visible_cleared, List.append_nil, List.flatten_append, f1, ← hv']
      simp
    obtain ⟨k1, k2, k3⟩ := key (t.emit max) hcond''
      ⟨cleared t.pendingLine, [], z', q', by simp [State.emit], f2, hz', f3, hv'', fun h => absurd rfl h⟩
    exact ⟨hsized, hblank, fun _ => k1, k2, k3⟩
  · simp only [hf, Bool.false_eq_true, if_false] at hsized hblank ⊢
    obtain ⟨k1, k2, k3⟩ := key t hcond' ⟨a', p', z', q', f1, f2, hz', f3, hv', hp'⟩
    exact ⟨hsized, hblank, fun _ => k1, k2, k3⟩

theorem held_foldl {max : Int} (hmax : 0 < max) {trim : Bool} {before word : List StyledGrapheme}
    (hw : columns word ≤ max) (hsolid : ∀ g ∈ word, g.g.isWhitespace = false) :
    ∀ (l cur : List StyledGrapheme) (s : State), cur ++ l = word → s.Held max trim before word cur →
      (l.foldl (State.step max trim) s).Held max trim before word word
  | [], cur, s, e, h => by
    rw [List.append_nil] at e
    subst e
    exact h
  | g :: t, cur, s, e, h => by
    rw [List.foldl_cons]
    exact held_foldl hmax hw hsolid t (cur ++ [g]) _ (by rw [← e]; simp)
      (held_step hmax g e hw (hsolid g (by rw [← e]; simp)) h)

/-! ### After the word -/

/-- The word is on a row that is finished, or on the row at hand. -/
def State.Shown (before word : List StyledGrapheme) (s : State) : Prop :=
  ∃ a m b, symbols m = word ∧
    ((s.pendingLine = a ++ m ++ b ∧ visible (s.queue.flatten ++ a) = visible before) ∨
      ∃ q₁ q₂, s.queue = q₁ ++ (a ++ m ++ b) :: q₂ ∧ visible (q₁.flatten ++ a) = visible before)

theorem held_shown {max : Int} {trim : Bool} {before word : List StyledGrapheme} {s : State}
    (hsolid : ∀ g ∈ word, g.g.isWhitespace = false) (h : s.Held max trim before word word) :
    (s.flush trim).Shown before word := by
  obtain ⟨hs, hb, hprev, hcond, a, p, z, q, e1, e2, hz, e3, hv, hp⟩ := h
  by_cases hpe : p = []
  · subst hpe
    rw [List.append_nil] at e1
    simp only [List.nil_append] at e3
    subst e3
    refine ⟨(if (!s.pendingLine.isEmpty || !trim) = true then s.pendingLine ++ s.pendingWhitespace else s.pendingLine) ++ z,
      q, [], symbols_solid hsolid, .inl ⟨?_, ?_⟩⟩
    · simp only [State.flush, e2, List.append_nil, List.append_assoc]
    · show visible (s.queue.flatten ++ _) = _
      rw [← hv, visible_append, visible_append, visible_append, hz.visible, List.append_nil, e1]
      congr 1
      split
      · rw [visible_append, visible_whitespace hb, List.append_nil]
      · rfl
  · obtain ⟨i1, -, -⟩ := hp hpe
    refine ⟨a, p ++ z ++ q, [], ?_, .inl ⟨?_, hv⟩⟩
    · rw [symbols_append, symbols_append, hz.symbols, List.append_nil,
        symbols_solid (fun g hg => hsolid g (by rw [← e3]; exact List.mem_append_left _ hg)),
        symbols_solid (fun g hg => hsolid g (by rw [← e3]; exact List.mem_append_right _ hg)), e3]
    · simp only [State.flush, e1, e2, i1, List.append_nil, ite_self]
      simp

theorem shown_flush {before word : List StyledGrapheme} (trim : Bool) {s : State} (h : s.Shown before word) :
    (s.flush trim).Shown before word := by
  obtain ⟨a, m, b, hm, ⟨h1, h2⟩ | h⟩ := h
  · refine ⟨a, m, b ++ (if (!s.pendingLine.isEmpty || !trim) = true then s.pendingWhitespace else []) ++ s.pendingWord, hm,
      .inl ⟨?_, h2⟩⟩
    simp only [State.flush]
    split <;> rw [h1] <;> simp
  · exact ⟨a, m, b, hm, .inr h⟩

theorem shown_emit {before word : List StyledGrapheme} (max : Int) {s : State} (h : s.Shown before word) :
    (s.emit max).Shown before word := by
  obtain ⟨a, m, b, hm, ⟨h1, h2⟩ | ⟨q₁, q₂, h1, h2⟩⟩ := h
  · refine ⟨a, m, b, hm, .inr ⟨s.queue, [], ?_, h2⟩⟩
    simp only [State.emit, h1]
  · refine ⟨a, m, b, hm, .inr ⟨q₁, q₂ ++ [s.pendingLine], ?_, h2⟩⟩
    simp only [State.emit, h1]
    simp

theorem shown_push {before word : List StyledGrapheme} (g : StyledGrapheme) {s : State} (h : s.Shown before word) :
    (s.push g).Shown before word := by
  unfold State.push
  split <;> exact h

theorem shown_place {before word : List StyledGrapheme} (max : Int) (g : StyledGrapheme) {s : State}
    (h : s.Shown before word) : (s.place max g).Shown before word := by
  unfold State.place
  split
  · simp only
    split
    · exact shown_emit max h
    · exact shown_push g (shown_emit max h)
  · exact shown_push g h

theorem shown_step {before word : List StyledGrapheme} (max : Int) (trim : Bool) (g : StyledGrapheme) {s : State}
    (h : s.Shown before word) : (s.step max trim g).Shown before word := by
  unfold State.step
  split
  · exact h
  · apply shown_place
    split
    · exact shown_flush trim h
    · exact h

theorem shown_foldl {before word : List StyledGrapheme} (max : Int) (trim : Bool) :
    ∀ (l : List StyledGrapheme) (s : State), s.Shown before word →
      (l.foldl (State.step max trim) s).Shown before word
  | [], _, h => h
  | g :: t, _, h => shown_foldl max trim t _ (shown_step max trim g h)

/-- The first whitespace after the word. -/
theorem held_blank {max : Int} {trim : Bool} {before word : List StyledGrapheme} {s : State} (g : StyledGrapheme)
    (hg : g.g.isWhitespace = true) (hgw : (g.g.width : Int) ≤ max) (hne : word ≠ [])
    (hsolid : ∀ g ∈ word, g.g.isWhitespace = false) (h : s.Held max trim before word word) :
    (s.step max trim g).Shown before word := by
  unfold State.step
  rw [if_neg (by omega)]
  apply shown_place
  have : s.ends max trim g = true := by
    unfold State.ends
    simp [h.2.2.1 hne, hg]
  rw [if_pos this]
  exact held_shown hsolid h

/-- The rows at the end of the input. -/
theorem finish_shown {before word : List StyledGrapheme} (hne : word ≠ []) (trim : Bool) {s : State}
    (h : (s.flush trim).Shown before word) :
    ∃ rows₁ rows₂ a m b, (s.finish trim).1 = rows₁ ++ (a ++ m ++ b) :: rows₂ ∧ symbols m = word ∧
      visible (rows₁.flatten ++ a) = visible before := by
  obtain ⟨a, m, b, hm, h⟩ := h
  have hmne : m ≠ [] := by
    rintro rfl
    exact hne (by rw [← hm]; rfl)
  have hline : ∀ q : List (List StyledGrapheme), (if (s.flush trim).pendingLine.isEmpty then q else q ++ [(s.flush trim).pendingLine])
      = if (s.flush trim).pendingLine = [] then q else q ++ [(s.flush trim).pendingLine] := by
    intro q; simp [List.isEmpty_iff]
  have hfin : (s.finish trim).1 = (let q0 := if s.pendingLine.isEmpty && s.pendingWord.isEmpty && !s.pendingWhitespace.isEmpty
        then s.queue ++ [[]] else s.queue
      let q1 := if (s.flush trim).pendingLine.isEmpty then q0 else q0 ++ [(s.flush trim).pendingLine]
      if q1.isEmpty then [[]] else q1) := rfl
  rw [hfin]
  simp only
  rcases h with ⟨h1, h2⟩ | ⟨q₁, q₂, h1, h2⟩
  · have hn : (s.flush trim).pendingLine ≠ [] := by
      rw [h1]; simp [hmne]
    rw [hline, if_neg hn]
    refine ⟨if s.pendingLine.isEmpty && s.pendingWord.isEmpty && !s.pendingWhitespace.isEmpty then s.queue ++ [[]] else s.queue,
      [], a, m, b, ?_, hm, ?_⟩
    · rw [if_neg (by simp), h1]
    · have hq : (if s.pendingLine.isEmpty && s.pendingWord.isEmpty && !s.pendingWhitespace.isEmpty then s.queue ++ [[]] else s.queue).flatten
          = s.queue.flatten := by split <;> simp
      rw [hq]
      exact h2
  · have hq : s.queue = q₁ ++ (a ++ m ++ b) :: q₂ := h1
    refine ⟨q₁, q₂ ++ (if s.pendingLine.isEmpty && s.pendingWord.isEmpty && !s.pendingWhitespace.isEmpty then [[]] else []) ++
      (if (s.flush trim).pendingLine.isEmpty then [] else [(s.flush trim).pendingLine]), a, m, b, ?_, hm, h2⟩
    rw [hq]
    split <;> split <;> simp

end Wrap

open WordWrapper in
/-- A word that fits on a row is on one row. -/
theorem processInput_word (w : WordWrapper) (hq : w.wrappedLines = []) (hmax : 0 < w.maxLineWidth)
    (gs before word after : List StyledGrapheme)
    (hword : IsWord (gs.filter fun g => (g.g.width : Int) ≤ w.maxLineWidth) before word after)
    (hfit : columns word ≤ w.maxLineWidth)
    (hroom : w.trim = true ∨ (∃ g ∈ before, g.g.isWhitespace = false) ∨ columns before + columns word ≤ w.maxLineWidth) :
    OnOneRow (w.processInput gs).wrappedLines before word after := by
  obtain ⟨hparts, hne, hsolid, hleft, hright⟩ := hword
  have hall : ∀ g ∈ before ++ word ++ after, (g.g.width : Int) ≤ w.maxLineWidth := by
    intro g hg
    rw [← hparts, List.mem_filter] at hg
    simpa using hg.2
  have hfold : gs.foldl (Wrap.State.step w.maxLineWidth w.trim) w.start =
      after.foldl (Wrap.State.step w.maxLineWidth w.trim) (word.foldl (Wrap.State.step w.maxLineWidth w.trim)
        (before.foldl (Wrap.State.step w.maxLineWidth w.trim) w.start)) := by
    rw [Wrap.foldl_filter, hparts, List.foldl_append, List.foldl_append]
  have hstart : w.start.Outside w.maxLineWidth w.trim [] := by
    have hz := Wrap.zeros_cleared w.pendingWord
    refine ⟨⟨?_, ?_, rfl⟩, ?_, fun _ => hz, (fun g hg => by cases hg), fun _ => hz, fun _ => ⟨fun _ => ?_, ?_⟩,
      fun h => ?_, fun h => ?_⟩
    · simp only [start, columns_cleared]
    · simp only [start, columns_cleared]
    · intro g hg; simp [start] at hg
    · show (0 : Int) ≤ _; omega
    · exact columns_nonneg _
    · obtain ⟨g, hg, _⟩ := h; cases hg
    · obtain ⟨g, hg, _⟩ := h; cases hg
  have hout := Wrap.outside_foldl hmax before [] w.start
    (fun g hg => hall g (List.mem_append_left _ (List.mem_append_left _ hg))) hstart
  rw [List.nil_append] at hout
  have hcont := (Wrap.content_foldl w.maxLineWidth w.trim before w.start hstart.blank).1
  have hbf : before.filter (fun g => (g.g.width : Int) ≤ w.maxLineWidth) = before := by
    rw [List.filter_eq_self]
    intro g hg
    simpa using hall g (List.mem_append_left _ (List.mem_append_left _ hg))
  rw [hbf] at hcont
  obtain ⟨s₁, hs₁⟩ : ∃ s, s = before.foldl (Wrap.State.step w.maxLineWidth w.trim) w.start := ⟨_, rfl⟩
  rw [← hs₁] at hout hcont hfold
  have hz : Wrap.Zeros s₁.pendingWord := by
    rcases List.eq_nil_or_concat before with hb | ⟨r, g, hb⟩
    · exact hout.none_ hb
    · have hl : before.getLast? = some g := by rw [hb]; simp
      exact hout.ended g hl (hleft g hl)
  have hheld : s₁.Held w.maxLineWidth w.trim before word [] := by
    refine ⟨hout.sized, hout.blank, fun h => absurd rfl h, fun hnil => ?_, s₁.pendingLine, [], s₁.pendingWord, [],
      by simp, by simp, hz, rfl, ?_, fun h => absurd rfl h⟩
    · obtain ⟨h1, h2⟩ := hout.white hnil
      refine ⟨h1, fun htr => ?_⟩
      rcases hroom with h | h | h
      · rw [htr] at h; cases h
      · exact absurd hnil (hout.begun' h hleft)
      · omega
    · unfold Wrap.State.content at hcont
      rw [hz.visible, List.append_nil] at hcont
      rw [visible_append, hcont]
      simp only [start, hq, List.flatten_nil, visible_cleared]
      rfl
  have hheld' := Wrap.held_foldl hmax hfit hsolid word [] s₁ rfl hheld
  -- the rows
  obtain ⟨s₂, hs₂⟩ : ∃ s, s = after.foldl (Wrap.State.step w.maxLineWidth w.trim)
    (word.foldl (Wrap.State.step w.maxLineWidth w.trim) s₁) := ⟨_, rfl⟩
  have hshown : (s₂.flush w.trim).Shown before word := by
    rw [hs₂]
    rcases after with _ | ⟨g, t⟩
    · exact Wrap.held_shown hsolid hheld'
    · rw [List.foldl_cons]
      exact Wrap.shown_flush _ (Wrap.shown_foldl _ _ t _ (Wrap.held_blank g (hright g rfl)
        (hall g (by simp)) hne hsolid hheld'))
  have hrows : (w.processInput gs).wrappedLines = (s₂.finish w.trim).1 := by
    unfold processInput
    rw [hfold, hs₂]
  obtain ⟨rows₁, rows₂, a, m, b, e, hm, hv⟩ := Wrap.finish_shown hne w.trim hshown
  refine ⟨rows₁, rows₂, a, m, b, by rw [hrows, e], hm, hv, ?_⟩
  have htot := (processInput_content w gs).1
  rw [hrows, e, hq, hparts] at htot
  have hvm : visible m = word := by
    have hsub : visible m = visible (symbols m) := by
      unfold visible symbols
      rw [List.filter_filter]
      congr 1
      funext g
      by_cases hg : g.g.symbol = ""
      · have : g.g.isWhitespace = true := by unfold Grapheme.isWhitespace; rw [hg]; decide +kernel
        simp [this]
      · simp [hg]
    rw [hsub, hm]
    unfold visible
    rw [List.filter_eq_self]
    intro g hg
    simp [hsolid g hg]
  have hvw : visible word = word := by
    unfold visible
    rw [List.filter_eq_self]
    intro g hg
    simp [hsolid g hg]
  simp only [List.flatten_append, List.flatten_cons, List.flatten_nil, visible_append, List.append_assoc, List.nil_append,
    hvm, hvw] at htot hv ⊢
  have hnil : visible [] = [] := rfl
  rw [← List.append_assoc, hv] at htot
  first
  | exact List.append_cancel_left (List.append_cancel_left htot)
  | (rw [hnil, List.nil_append] at htot; exact List.append_cancel_left (List.append_cancel_left htot))

end Bento
