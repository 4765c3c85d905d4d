import Verif.Spec.Reflow
import Mathlib.Data.List.Forall2

/-!
# Lemmas about the word wrapper
-/

namespace Bento

theorem Yields.unique {S : Type} {next : S → Option (WrappedLine × S)} {s : S} {l₁ : List WrappedLine}
    (h₁ : Yields next s l₁) : ∀ {l₂}, Yields next s l₂ → l₁ = l₂ := by
  induction h₁ with
  | done h =>
    intro l₂ h₂
    cases h₂ with
    | done _ => rfl
    | more e _ => rw [h] at e; exact absurd e (by simp)
  | more h _ ih =>
    intro l₂ h₂
    cases h₂ with
    | done e => rw [h] at e; exact absurd e (by simp)
    | more e hy =>
      rw [h] at e
      simp only [Option.some.injEq, Prod.mk.injEq] at e
      obtain ⟨rfl, rfl⟩ := e
      rw [ih hy]

theorem visible_append (a b : List StyledGrapheme) : visible (a ++ b) = visible a ++ visible b := by
  simp [visible]

theorem zero_whitespace : StyledGrapheme.zero.g.isWhitespace = true := by decide +kernel

theorem visible_cleared (l : List StyledGrapheme) : visible (StyledGrapheme.cleared l) = [] := by
  unfold visible StyledGrapheme.cleared
  rw [List.filter_eq_nil_iff]
  intro g hg
  rw [List.mem_map] at hg
  obtain ⟨_, _, rfl⟩ := hg
  simp [zero_whitespace]

theorem visible_whitespace {l : List StyledGrapheme} (h : ∀ g ∈ l, g.g.isWhitespace = true) :
    visible l = [] := by
  unfold visible
  rw [List.filter_eq_nil_iff]
  intro g hg
  simp [h g hg]

theorem columns_append (a b : List StyledGrapheme) : columns (a ++ b) = columns a + columns b := by
  simp [columns]

theorem columns_cleared (l : List StyledGrapheme) : columns (StyledGrapheme.cleared l) = 0 := by
  unfold columns StyledGrapheme.cleared
  induction l with
  | nil => rfl
  | cons a t ih =>
    simp only [List.map_cons, List.sum_cons] at *
    rw [ih]
    rfl

theorem columns_nonneg (l : List StyledGrapheme) : 0 ≤ columns l := by
  induction l with
  | nil => simp [columns]
  | cons a t ih =>
    unfold columns at *
    simp only [List.map_cons, List.sum_cons]
    omega

theorem columns_cons (a : StyledGrapheme) (t : List StyledGrapheme) :
    columns (a :: t) = a.g.width + columns t := by
  simp [columns]

theorem isEmpty_cleared (l : List StyledGrapheme) :
    (StyledGrapheme.cleared l).isEmpty = l.isEmpty := by
  cases l <;> rfl

namespace Wrap

/-- Everything still to be output, in order, without whitespace. -/
def State.content (s : State) : List StyledGrapheme :=
  visible s.queue.flatten ++ visible s.pendingLine ++ visible s.pendingWord

def State.Blank (s : State) : Prop := ∀ g ∈ s.pendingWhitespace, g.g.isWhitespace = true

theorem dropFront_sub (l : List StyledGrapheme) : ∀ r w, ∀ g ∈ (dropFront l r w).1, g ∈ l := by
  induction l with
  | nil => intro r w g hg; simp [dropFront] at hg
  | cons a t ih =>
    intro r w g hg
    unfold dropFront at hg
    split at hg
    · exact hg
    · exact List.mem_cons_of_mem _ (ih _ _ g hg)

theorem content_flush (trim : Bool) {s : State} (hb : s.Blank) :
    (s.flush trim).content = s.content ∧ (s.flush trim).Blank := by
  refine ⟨?_, by intro g hg; simp [State.flush] at hg⟩
  simp only [State.content, State.flush]
  rw [visible_cleared, List.append_nil, visible_append]
  split
  · rw [visible_append, visible_whitespace hb, List.append_nil, List.append_assoc]
  · rw [List.append_assoc]

theorem content_emit (max : Int) {s : State} (hb : s.Blank) :
    (s.emit max).content = s.content ∧ (s.emit max).Blank := by
  refine ⟨?_, fun g hg => hb g (dropFront_sub _ _ _ g hg)⟩
  simp only [State.content, State.emit]
  rw [visible_cleared, List.append_nil, List.flatten_append, visible_append]
  simp

theorem content_push (g : StyledGrapheme) {s : State} (hb : s.Blank) :
    (s.push g).content = s.content ++ visible [g] ∧ (s.push g).Blank := by
  unfold State.push
  split
  · rename_i h
    refine ⟨?_, ?_⟩
    · simp [State.content, visible, h]
    · intro g' hg'
      simp only [List.mem_append, List.mem_singleton] at hg'
      rcases hg' with hg' | rfl
      · exact hb _ hg'
      · exact h
  · rename_i h
    refine ⟨?_, hb⟩
    simp only [State.content]
    rw [visible_append, ← List.append_assoc]

theorem content_place (max : Int) (g : StyledGrapheme) {s : State} (hb : s.Blank) :
    (s.place max g).content = s.content ++ visible [g] ∧ (s.place max g).Blank := by
  unfold State.place
  split
  · obtain ⟨e, hb'⟩ := content_emit max hb
    simp only
    split
    · rename_i h
      simp only [Bool.and_eq_true] at h
      refine ⟨?_, hb'⟩
      rw [e]
      simp [visible, h.1]
    · rw [← e]
      exact content_push g hb'
  · exact content_push g hb

theorem content_step (max : Int) (trim : Bool) (g : StyledGrapheme) {s : State} (hb : s.Blank) :
    (s.step max trim g).content = s.content ++ (if (g.g.width : Int) ≤ max then visible [g] else []) ∧
      (s.step max trim g).Blank := by
  unfold State.step
  by_cases h : (g.g.width : Int) > max
  · rw [if_pos h, if_neg (by omega), List.append_nil]
    exact ⟨rfl, hb⟩
  · have h' : (g.g.width : Int) ≤ max := by omega
    simp only [h, h', if_true, if_false]
    by_cases he : s.ends max trim g = true
    · obtain ⟨e, hb'⟩ := content_flush trim hb
      rw [← e, if_pos he]
      exact content_place max g hb'
    · rw [if_neg he]
      exact content_place max g hb

theorem content_foldl (max : Int) (trim : Bool) (l : List StyledGrapheme) :
    ∀ s : State, s.Blank →
      (l.foldl (State.step max trim) s).content =
          s.content ++ visible (l.filter fun g => (g.g.width : Int) ≤ max) ∧
        (l.foldl (State.step max trim) s).Blank := by
  induction l with
  | nil => intro s hb; exact ⟨by simp [visible], hb⟩
  | cons g t ih =>
    intro s hb
    rw [List.foldl_cons]
    obtain ⟨e, hb'⟩ := content_step max trim g hb
    obtain ⟨e2, hb2⟩ := ih _ hb'
    refine ⟨?_, hb2⟩
    rw [e2, e, List.filter_cons]
    by_cases h : (g.g.width : Int) ≤ max
    · simp only [h, if_true, decide_true]
      rw [List.append_assoc, ← visible_append]
      rfl
    · simp only [h, if_false, decide_false, Bool.false_eq_true, List.append_nil]

theorem content_finish (trim : Bool) {s : State} (hb : s.Blank) :
    visible (s.finish trim).1.flatten = s.content ∧ (s.finish trim).1 ≠ [] := by
  have key : ∀ q : List (List StyledGrapheme), visible q.flatten = s.content →
      visible (if q.isEmpty then [[]] else q : List (List StyledGrapheme)).flatten = s.content ∧
      (if q.isEmpty then [[]] else q : List (List StyledGrapheme)) ≠ [] := by
    intro q hq
    cases q with
    | nil => exact ⟨by simpa using hq, by simp⟩
    | cons a t => exact ⟨by simpa using hq, by simp⟩
  unfold State.finish
  apply key
  have hq : visible (if (s.pendingLine.isEmpty && s.pendingWord.isEmpty && !s.pendingWhitespace.isEmpty) =
      true then s.queue ++ [[]] else s.queue).flatten = visible s.queue.flatten := by
    split <;> simp
  have hl : visible ((if (!s.pendingLine.isEmpty || !trim) = true then s.pendingLine ++ s.pendingWhitespace
      else s.pendingLine) ++ s.pendingWord) = visible s.pendingLine ++ visible s.pendingWord := by
    rw [visible_append]
    split
    · rw [visible_append, visible_whitespace hb, List.append_nil]
    · rfl
  generalize (if (s.pendingLine.isEmpty && s.pendingWord.isEmpty && !s.pendingWhitespace.isEmpty) =
      true then s.queue ++ [[]] else s.queue) = q at *
  generalize ((if (!s.pendingLine.isEmpty || !trim) = true then s.pendingLine ++ s.pendingWhitespace
      else s.pendingLine) ++ s.pendingWord) = line at *
  unfold State.content
  rw [List.append_assoc, ← hl, ← hq]
  cases line with
  | nil => simp [visible]
  | cons a t => simp [visible]

/-! ### The width of the rows -/

/-- The widths the loop keeps are those of what is pending, and what is pending fits. -/
structure State.Fits (max : Int) (s : State) : Prop where
  line : s.lineWidth = columns s.pendingLine
  word : s.wordWidth = columns s.pendingWord
  white : s.whitespaceWidth = columns s.pendingWhitespace
  queue : ∀ l ∈ s.queue, columns l ≤ max
  total : s.lineWidth + s.whitespaceWidth + s.wordWidth ≤ max
  prev : 0 < s.wordWidth → s.nonWhitespacePrevious = true

theorem dropFront_columns (l : List StyledGrapheme) : ∀ r w, w = columns l →
    (dropFront l r w).2 = columns (dropFront l r w).1 := by
  induction l with
  | nil => intro r w h; exact h
  | cons a t ih =>
    intro r w h
    unfold dropFront
    split
    · exact h
    · apply ih
      rw [columns_cons] at h
      omega

/-- Whitespace of single columns: either all of it is dropped or the whole remaining width is. -/
theorem dropFront_full (l : List StyledGrapheme) : ∀ r w, AtMostSingle l → 0 ≤ r →
    (dropFront l r w).1 = [] ∨ (dropFront l r w).2 = w - r := by
  induction l with
  | nil => intro r w _ _; exact .inl rfl
  | cons a t ih =>
    intro r w h hr
    unfold dropFront
    split
    · have := h a (by simp)
      right
      simp only
      omega
    · rcases ih (r - a.g.width) (w - a.g.width) (fun g hg => h g (by simp [hg])) (by omega) with e | e
      · exact .inl e
      · right
        rw [e]
        omega

theorem fits_flush {max : Int} (trim : Bool) {s : State} (h : s.Fits max) :
    (s.flush trim).Fits max ∧ (s.flush trim).wordWidth = 0 := by
  obtain ⟨h1, h2, h3, h4, h5, h6⟩ := h
  have hs := columns_nonneg s.pendingWhitespace
  refine ⟨⟨?_, ?_, ?_, h4, ?_, ?_⟩, rfl⟩
  · simp only [State.flush]
    split <;> simp only [columns_append] <;> omega
  · simp only [State.flush, columns_cleared]
  · simp [State.flush, columns]
  · simp only [State.flush]
    split <;> omega
  · simp [State.flush]

theorem fits_push {max : Int} {s : State} (g : StyledGrapheme) (h : s.Fits max)
    (ht : s.lineWidth + s.whitespaceWidth + s.wordWidth + g.g.width ≤ max)
    (hw : g.g.isWhitespace = true → s.wordWidth = 0) : (s.push g).Fits max := by
  obtain ⟨h1, h2, h3, h4, h5, h6⟩ := h
  unfold State.push
  split
  · rename_i hg
    refine ⟨h1, h2, ?_, h4, ?_, ?_⟩
    · simp only [columns_append, columns_cons, h3]; simp [columns]
    · simp only; omega
    · simp [hw hg]
  · refine ⟨h1, ?_, h3, h4, ?_, ?_⟩
    · simp only [columns_append, columns_cons, h2]; simp [columns]
    · simp only; omega
    · simp

theorem push_wordWidth (g : StyledGrapheme) (s : State) :
    (s.push g).wordWidth = if g.g.isWhitespace then s.wordWidth else s.wordWidth + g.g.width := by
  unfold State.push
  split <;> rfl

theorem fits_emit {max : Int} {s : State} (h : s.Fits max) : (s.emit max).Fits max := by
  obtain ⟨h1, h2, h3, h4, h5, h6⟩ := h
  have h7 := columns_nonneg s.pendingLine
  have h8 := columns_nonneg s.pendingWhitespace
  have h9 := columns_nonneg s.pendingWord
  have hle : ∀ (l : List StyledGrapheme) (r w : Int), (dropFront l r w).2 ≤ w := by
    intro l
    induction l with
    | nil => intro r w; exact Int.le_refl _
    | cons a t ih =>
      intro r w
      unfold dropFront
      split
      · exact Int.le_refl _
      · have := ih (r - a.g.width) (w - a.g.width)
        omega
  refine ⟨?_, h2, ?_, ?_, ?_, h6⟩
  · simp only [State.emit, columns_cleared]
  · simp only [State.emit]
    exact dropFront_columns _ _ _ h3
  · intro l hl
    simp only [State.emit, List.mem_append, List.mem_singleton] at hl
    rcases hl with hl | rfl
    · exact h4 l hl
    · omega
  · simp only [State.emit]
    have := hle s.pendingWhitespace (Max.max 0 (max - s.lineWidth)) s.whitespaceWidth
    omega

/-- The second half of the loop body keeps everything within the width. -/
theorem fits_place {max : Int} {s : State} (g : StyledGrapheme) (h : s.Fits max)
    (hmax : 0 < max) (hg : g.g.width ≤ 1) (hs : AtMostSingle s.pendingWhitespace)
    (hw : g.g.isWhitespace = true → s.wordWidth = 0)
    (hrun : g.g.isWhitespace = false → s.wordWidth + g.g.width ≤ max) :
    (s.place max g).Fits max ∧
      (s.place max g).wordWidth = (if g.g.isWhitespace then 0 else s.wordWidth + g.g.width) := by
  have hres : ∀ t : State, t.wordWidth = s.wordWidth →
      (t.push g).wordWidth = (if g.g.isWhitespace then 0 else s.wordWidth + g.g.width) := by
    intro t ht
    rw [push_wordWidth, ht]
    by_cases hx : g.g.isWhitespace = true
    · simp [hx, hw hx]
    · simp [hx]
  have h1 := columns_nonneg s.pendingLine
  have h2 := columns_nonneg s.pendingWhitespace
  have h3 := columns_nonneg s.pendingWord
  unfold State.place
  by_cases hfull : s.full max g = true
  · rw [if_pos hfull]
    have he := fits_emit h
    simp only
    by_cases hc : (g.g.isWhitespace && (s.emit max).pendingWhitespace.isEmpty) = true
    · rw [if_pos hc]
      simp only [Bool.and_eq_true] at hc
      refine ⟨he, ?_⟩
      rw [if_pos hc.1]
      exact hw hc.1
    · rw [if_neg hc]
      refine ⟨fits_push g he ?_ (fun hx => hw hx), hres _ rfl⟩
      have hz : (s.emit max).lineWidth = 0 := rfl
      have hww : (s.emit max).wordWidth = s.wordWidth := rfl
      rw [hz, hww]
      rcases dropFront_full s.pendingWhitespace (Max.max 0 (max - s.lineWidth)) s.whitespaceWidth hs
        (by omega) with e | e
      · have e' : (s.emit max).pendingWhitespace = [] := e
        have hzero : (s.emit max).whitespaceWidth = 0 := by rw [he.white, e']; rfl
        rw [hzero]
        by_cases hx : g.g.isWhitespace = true
        · simp [hx, e'] at hc
        · have := hrun (by simpa using hx)
          omega
      · have e' : (s.emit max).whitespaceWidth = s.whitespaceWidth - Max.max 0 (max - s.lineWidth) := e
        have := columns_nonneg (s.emit max).pendingWhitespace
        have := he.white
        obtain ⟨i1, i2, i3, i4, i5, i6⟩ := h
        omega
  · rw [if_neg hfull]
    refine ⟨fits_push g h ?_ hw, hres _ rfl⟩
    simp only [State.full, Bool.or_eq_true, Bool.and_eq_true, decide_eq_true_eq, not_or, not_and] at hfull
    obtain ⟨i1, i2, i3, i4, i5, i6⟩ := h
    omega

/-- What a prefix of the input line leaves behind. -/
structure State.Inv (max : Int) (pre : List StyledGrapheme) (s : State) : Prop where
  fits : s.Fits max
  single : AtMostSingle s.pendingWhitespace
  run : ∃ before word, pre = before ++ word ∧ (∀ g ∈ word, g.g.isWhitespace = false) ∧
    s.wordWidth ≤ columns word

theorem single_place {s : State} {max : Int} {g : StyledGrapheme} (hg : g.g.width ≤ 1)
    (hs : AtMostSingle s.pendingWhitespace) : AtMostSingle (s.place max g).pendingWhitespace := by
  have hpush : ∀ t : State, AtMostSingle t.pendingWhitespace → AtMostSingle (t.push g).pendingWhitespace := by
    intro t ht
    unfold State.push
    split
    · intro x hx
      simp only [List.mem_append, List.mem_singleton] at hx
      rcases hx with hx | rfl
      · exact ht _ hx
      · exact hg
    · exact ht
  have hemit : AtMostSingle (s.emit max).pendingWhitespace := fun x hx => hs x (dropFront_sub _ _ _ x hx)
  unfold State.place
  split
  · simp only
    split
    · exact hemit
    · exact hpush _ hemit
  · exact hpush _ hs

theorem inv_step {max : Int} (trim : Bool) {pre : List StyledGrapheme} {s : State} (g : StyledGrapheme)
    (h : s.Inv max pre) (hmax : 0 < max) (hg : g.g.width ≤ 1)
    (hfit : ∀ before word, pre ++ [g] = before ++ word → (∀ x ∈ word, x.g.isWhitespace = false) →
      columns word ≤ max) : (s.step max trim g).Inv max (pre ++ [g]) := by
  obtain ⟨hf, hs, before, word, e, hword, hle⟩ := h
  unfold State.step
  rw [if_neg (by omega)]
  -- the pending word, flushed or not
  have key : ∀ t : State, t.Fits max → AtMostSingle t.pendingWhitespace → t.wordWidth ≤ s.wordWidth →
      (g.g.isWhitespace = true → t.wordWidth = 0) → (t.place max g).Inv max (pre ++ [g]) := by
    intro t ht hts htw hws
    obtain ⟨hp, hpw⟩ := fits_place g ht hmax hg hts hws (fun hx => by
      have := hfit before (word ++ [g]) (by rw [e, List.append_assoc]) (by
        intro x hx'
        simp only [List.mem_append, List.mem_singleton] at hx'
        rcases hx' with hx' | rfl
        · exact hword x hx'
        · exact hx)
      rw [columns_append, columns_cons] at this
      have h0 : columns [] = 0 := rfl
      omega)
    refine ⟨hp, single_place hg hts, ?_⟩
    by_cases hx : g.g.isWhitespace = true
    · exact ⟨pre ++ [g], [], by simp, by simp, by rw [hpw, if_pos hx]; exact Int.le_refl _⟩
    · refine ⟨before, word ++ [g], by rw [e, List.append_assoc], ?_, ?_⟩
      · intro x hx'
        simp only [List.mem_append, List.mem_singleton] at hx'
        rcases hx' with hx' | rfl
        · exact hword x hx'
        · simpa using hx
      · rw [hpw, if_neg hx, columns_append, columns_cons]
        have h0 : columns [] = 0 := rfl
        omega
  by_cases he : s.ends max trim g = true
  · rw [if_pos he]
    obtain ⟨f1, f2⟩ := fits_flush trim hf
    have hn := columns_nonneg s.pendingWord
    exact key _ f1 (by intro x hx; simp [State.flush] at hx) (by rw [f2, hf.word]; exact hn) (fun _ => f2)
  · rw [if_neg he]
    refine key s hf hs (Int.le_refl _) fun hx => ?_
    have hn := columns_nonneg s.pendingWord
    have hz : ¬ 0 < s.wordWidth := by
      intro hpos
      have := hf.prev hpos
      apply he
      unfold State.ends
      simp [this, hx]
    have := hf.word
    omega

theorem inv_foldl {max : Int} (trim : Bool) (hmax : 0 < max) (l : List StyledGrapheme) :
    ∀ pre (s : State), s.Inv max pre → AtMostSingle l → WordsFit max (pre ++ l) →
      (l.foldl (State.step max trim) s).Inv max (pre ++ l) := by
  induction l with
  | nil => intro pre s h _ _; simpa using h
  | cons g t ih =>
    intro pre s h hl hf
    rw [List.foldl_cons]
    have := ih (pre ++ [g]) (s.step max trim g)
      (inv_step trim g h hmax (hl g (by simp)) (fun b w hb hw => hf b w t (by rw [← hb]; simp) hw))
      (fun x hx => hl x (by simp [hx])) (by simpa using hf)
    simpa using this

theorem fits_finish {max : Int} (trim : Bool) {s : State} (h : s.Fits max) (hmax : 0 ≤ max) :
    ∀ l ∈ (s.finish trim).1, columns l ≤ max := by
  obtain ⟨h1, h2, h3, h4, h5, h6⟩ := h
  have i1 := columns_nonneg s.pendingLine
  have i2 := columns_nonneg s.pendingWhitespace
  have i3 := columns_nonneg s.pendingWord
  have hnil : columns [] = 0 := rfl
  have hline : columns ((if (!s.pendingLine.isEmpty || !trim) = true then
      s.pendingLine ++ s.pendingWhitespace else s.pendingLine) ++ s.pendingWord) ≤ max := by
    rw [columns_append]
    split
    · rw [columns_append]; omega
    · omega
  have hq : ∀ l ∈ (if (s.pendingLine.isEmpty && s.pendingWord.isEmpty && !s.pendingWhitespace.isEmpty) =
      true then s.queue ++ [[]] else s.queue), columns l ≤ max := by
    intro l hl
    split at hl
    · simp only [List.mem_append, List.mem_singleton] at hl
      rcases hl with hl | rfl
      · exact h4 l hl
      · omega
    · exact h4 l hl
  unfold State.finish
  simp only
  generalize (if (s.pendingLine.isEmpty && s.pendingWord.isEmpty && !s.pendingWhitespace.isEmpty) =
      true then s.queue ++ [[]] else s.queue) = q at *
  generalize ((if (!s.pendingLine.isEmpty || !trim) = true then s.pendingLine ++ s.pendingWhitespace
      else s.pendingLine) ++ s.pendingWord) = line at *
  have hq2 : ∀ l ∈ (if line.isEmpty = true then q else q ++ [line]), columns l ≤ max := by
    intro l hl
    split at hl
    · exact hq l hl
    · simp only [List.mem_append, List.mem_singleton] at hl
      rcases hl with hl | rfl
      · exact hq l hl
      · exact hline
  generalize (if line.isEmpty = true then q else q ++ [line]) = q2 at *
  intro l hl
  cases q2 with
  | nil =>
    have : l ∈ [[]] := hl
    simp only [List.mem_singleton] at this
    subst this
    omega
  | cons a t => exact hq2 l hl

/-! ### A line that fits -/

theorem symbols_append (a b : List StyledGrapheme) : symbols (a ++ b) = symbols a ++ symbols b := by
  simp [symbols]

theorem symbols_cleared (l : List StyledGrapheme) : symbols (StyledGrapheme.cleared l) = [] := by
  unfold symbols StyledGrapheme.cleared
  rw [List.filter_eq_nil_iff]
  intro g hg
  rw [List.mem_map] at hg
  obtain ⟨_, _, rfl⟩ := hg
  simp [StyledGrapheme.zero, Grapheme.empty]

/-- The row that would be finished now. -/
def State.whole (trim : Bool) (s : State) : List StyledGrapheme :=
  (if !s.pendingLine.isEmpty || !trim then s.pendingLine ++ s.pendingWhitespace else s.pendingLine) ++
    s.pendingWord

/-- What a line that fits becomes. -/
def target (keep : Bool) (l : List StyledGrapheme) : List StyledGrapheme :=
  if keep then l else l.dropWhile fun g => g.g.isWhitespace

/-- The loop on a line that fits. -/
structure State.Short (trim keep : Bool) (pre : List StyledGrapheme) (s : State) : Prop where
  queue : s.queue = []
  width : s.lineWidth + s.whitespaceWidth + s.wordWidth ≤ columns pre
  nonneg : 0 ≤ s.lineWidth ∧ 0 ≤ s.whitespaceWidth ∧ 0 ≤ s.wordWidth
  whole : symbols (s.whole trim) = symbols (target keep pre)
  kept : keep = true → s.pendingLine ≠ [] ∨ trim = false
  some : keep = false → trim = true ∧ (s.pendingLine ≠ [] → ∃ g ∈ pre, g.g.isWhitespace = false)
  none : s.pendingLine = [] → s.nonWhitespacePrevious = false → ∀ g ∈ pre, g.g.isWhitespace = true
  word : s.nonWhitespacePrevious = true → s.pendingWord ≠ [] ∧ ∃ g ∈ pre, g.g.isWhitespace = false
  noWord : s.nonWhitespacePrevious = false → symbols s.pendingWord = []

theorem dropWhile_append_of {p : StyledGrapheme → Bool} {l : List StyledGrapheme} (r)
    (h : ∃ g ∈ l, p g = false) : (l ++ r).dropWhile p = l.dropWhile p ++ r := by
  induction l with
  | nil => simp at h
  | cons a t ih =>
    rw [List.cons_append, List.dropWhile_cons, List.dropWhile_cons]
    split
    · apply ih
      obtain ⟨g, hg, hp⟩ := h
      rw [List.mem_cons] at hg
      rcases hg with rfl | hg
      · rename_i hx; rw [hx] at hp; exact absurd hp (by simp)
      · exact ⟨g, hg, hp⟩
    · rfl

theorem dropWhile_append_all {p : StyledGrapheme → Bool} {l : List StyledGrapheme} (r)
    (h : ∀ g ∈ l, p g = true) : (l ++ r).dropWhile p = r.dropWhile p := by
  induction l with
  | nil => rfl
  | cons a t ih =>
    rw [List.cons_append, List.dropWhile_cons, if_pos (h a (by simp))]
    exact ih fun g hg => h g (by simp [hg])

theorem target_append_of (keep : Bool) {l : List StyledGrapheme} (r)
    (h : keep = true ∨ ∃ g ∈ l, g.g.isWhitespace = false) :
    target keep (l ++ r) = target keep l ++ r := by
  unfold target
  cases keep with
  | true => rfl
  | false =>
    simp only [Bool.false_eq_true, if_false, false_or] at *
    exact dropWhile_append_of r h

theorem target_push (keep : Bool) (l : List StyledGrapheme) {g : StyledGrapheme}
    (hg : g.g.isWhitespace = false) : target keep (l ++ [g]) = target keep l ++ [g] := by
  by_cases h : keep = true ∨ ∃ g ∈ l, g.g.isWhitespace = false
  · exact target_append_of keep [g] h
  · simp only [not_or, not_exists, not_and, Bool.not_eq_true, Bool.not_eq_false] at h
    unfold target
    rw [h.1]
    simp only [Bool.false_eq_true, if_false]
    rw [dropWhile_append_all _ h.2, List.dropWhile_cons, if_neg (by simp [hg])]
    have := dropWhile_append_all (p := fun g => g.g.isWhitespace) [] h.2
    rw [List.append_nil] at this
    rw [this]
    rfl

theorem short_push {trim keep : Bool} {pre : List StyledGrapheme} {s : State} {g : StyledGrapheme}
    (h : s.Short trim keep pre)
    (hp : g.g.isWhitespace = true → s.nonWhitespacePrevious = false) :
    (s.push g).Short trim keep (pre ++ [g]) := by
  obtain ⟨h1, h2, h3, h4, h5, h6, h7, h8, h9⟩ := h
  have hcol : columns (pre ++ [g]) = columns pre + g.g.width := by
    rw [columns_append, columns_cons]; simp [columns]
  unfold State.push
  by_cases hg : g.g.isWhitespace = true
  · rw [if_pos hg]
    have hprev := hp hg
    refine ⟨h1, ?_, ?_, ?_, h5, ?_, ?_, ?_, ?_⟩
    · rw [hcol]; simp only; omega
    · simp only; omega
    · simp only [State.whole]
      simp only [State.whole] at h4
      rw [symbols_append, h9 hprev, List.append_nil] at h4 ⊢
      by_cases hk : (!s.pendingLine.isEmpty || !trim) = true
      · rw [if_pos hk] at h4 ⊢
        rw [← List.append_assoc, symbols_append, h4, ← symbols_append, target_append_of]
        by_cases hkk : keep = true
        · exact .inl hkk
        · have hkk' : keep = false := by simpa using hkk
          obtain ⟨ht, hex⟩ := h6 hkk'
          right
          apply hex
          simpa [ht] using hk
      · rw [if_neg hk] at h4 ⊢
        rw [h4]
        simp only [Bool.or_eq_true, Bool.not_eq_true', not_or, Bool.not_eq_false] at hk
        have hpl : s.pendingLine = [] := by simpa using hk.1
        have hkeep : keep = false := by
          cases keep with
          | false => rfl
          | true =>
            rcases h5 rfl with h | h
            · exact absurd hpl h
            · rw [hk.2] at h; exact absurd h (by simp)
        have hall := h7 hpl hprev
        unfold target
        rw [hkeep]
        simp only [Bool.false_eq_true, if_false]
        rw [dropWhile_append_all _ hall]
        have := dropWhile_append_all (p := fun g => g.g.isWhitespace) [] hall
        rw [List.append_nil] at this
        rw [this, List.dropWhile_cons, if_pos hg]
    · intro hk
      obtain ⟨a, b⟩ := h6 hk
      refine ⟨a, fun hne => ?_⟩
      obtain ⟨x, hx, hx'⟩ := b hne
      exact ⟨x, by simp [hx], hx'⟩
    · intro hpl _ x hx
      simp only [List.mem_append, List.mem_singleton] at hx
      rcases hx with hx | rfl
      · exact h7 hpl hprev x hx
      · exact hg
    · simp
    · intro _
      exact h9 hprev
  · rw [if_neg hg]
    have hg' : g.g.isWhitespace = false := by simpa using hg
    have hex : ∃ x ∈ pre ++ [g], x.g.isWhitespace = false := ⟨g, by simp, hg'⟩
    refine ⟨h1, ?_, ?_, ?_, h5, fun hk => ⟨(h6 hk).1, fun _ => hex⟩, ?_, fun _ => ⟨by simp, hex⟩, ?_⟩
    · rw [hcol]; simp only; omega
    · simp only; omega
    · simp only [State.whole]
      simp only [State.whole] at h4
      rw [← List.append_assoc, symbols_append, h4, target_push keep pre hg', symbols_append]
    · simp
    · simp

theorem short_flush {trim keep : Bool} {pre : List StyledGrapheme} {s : State}
    (h : s.Short trim keep pre) (hp : s.nonWhitespacePrevious = true) :
    ({ s.flush trim with nonWhitespacePrevious := false } : State).Short trim keep pre := by
  obtain ⟨h1, h2, h3, h4, h5, h6, h7, h8, h9⟩ := h
  obtain ⟨hw, hex⟩ := h8 hp
  have hne : (s.flush trim).pendingLine ≠ [] := by
    simp only [State.flush]
    intro hc
    rw [List.append_eq_nil_iff] at hc
    exact hw hc.2
  refine ⟨h1, ?_, ?_, ?_, fun _ => .inl hne, fun hk => ⟨(h6 hk).1, fun _ => hex⟩, fun hc => absurd hc hne, ?_, ?_⟩
  · simp only [State.flush]; split <;> omega
  · simp only [State.flush]; split <;> omega
  · have : (!(s.flush trim).pendingLine.isEmpty || !trim) = true := by simp [hne]
    simp only [State.whole]
    rw [if_pos this, symbols_append]
    simp only [State.flush, symbols_cleared, List.append_nil]
    exact h4
  · simp
  · intro _
    simp only [State.flush, symbols_cleared]

theorem short_step {max : Int} {trim keep : Bool} {pre : List StyledGrapheme} {s : State}
    {g : StyledGrapheme} (h : s.Short trim keep pre) (hg : g.g.width = 1) (hw : columns pre + 1 ≤ max) :
    (s.step max trim g).Short trim keep (pre ++ [g]) := by
  obtain ⟨n1, n2, n3⟩ := h.nonneg
  have hwid := h.width
  unfold State.step
  rw [if_neg (by omega)]
  have hplace : ∀ t : State, t.lineWidth + t.whitespaceWidth + t.wordWidth ≤ columns pre →
      0 ≤ t.whitespaceWidth → 0 ≤ t.wordWidth → t.place max g = t.push g := by
    intro t ht a b
    unfold State.place
    rw [if_neg]
    simp only [State.full, Bool.or_eq_true, Bool.and_eq_true, decide_eq_true_eq, not_or, not_and]
    omega
  have hends : s.ends max trim g = (s.nonWhitespacePrevious && g.g.isWhitespace) := by
    unfold State.ends
    simp only [hg]
    rw [decide_eq_false (by omega), decide_eq_false (by omega), decide_eq_false (by omega)]
    simp
  by_cases hp : (s.nonWhitespacePrevious && g.g.isWhitespace) = true
  · rw [if_pos (by rw [hends]; exact hp)]
    simp only [Bool.and_eq_true] at hp
    have hf := short_flush h hp.1
    obtain ⟨m1, m2, m3⟩ := hf.nonneg
    rw [hplace (s.flush trim) hf.width m2 m3]
    have := short_push (g := g) hf (fun _ => rfl)
    unfold State.push at this ⊢
    rw [if_pos hp.2] at this ⊢
    exact this
  · rw [if_neg (by rw [hends]; exact hp), hplace _ hwid n2 n3]
    refine short_push h fun hx => ?_
    simp only [Bool.and_eq_true, not_and] at hp
    cases hq : s.nonWhitespacePrevious with
    | false => rfl
    | true => exact absurd hx (hp hq)

theorem short_foldl {max : Int} {trim keep : Bool} (l : List StyledGrapheme) :
    ∀ pre (s : State), s.Short trim keep pre → (∀ g ∈ l, g.g.width = 1) → columns (pre ++ l) ≤ max →
      (l.foldl (State.step max trim) s).Short trim keep (pre ++ l) := by
  induction l with
  | nil => intro pre s h _ _; simpa using h
  | cons g t ih =>
    intro pre s h hl hw
    rw [List.foldl_cons]
    have hg := hl g (by simp)
    have hstep : (s.step max trim g).Short trim keep (pre ++ [g]) := by
      refine short_step h hg ?_
      rw [columns_append, columns_cons] at hw
      have := columns_nonneg t
      omega
    have := ih (pre ++ [g]) _ hstep (fun x hx => hl x (by simp [hx])) (by simpa using hw)
    simpa using this

theorem short_finish {trim keep : Bool} {pre : List StyledGrapheme} {s : State}
    (h : s.Short trim keep pre)
    (hpre : trim = true ∨ pre = [] ∨ ∃ g ∈ pre, g.g.isWhitespace = false)
    (hws : pre = [] → s.pendingWhitespace = []) :
    ∃ l, (s.finish trim).1 = [l] ∧ symbols l = symbols (target keep pre) := by
  have h4 := h.whole
  unfold State.whole at h4
  unfold State.finish
  simp only [h.queue, List.nil_append]
  by_cases hc : (s.pendingLine.isEmpty && s.pendingWord.isEmpty && !s.pendingWhitespace.isEmpty) = true
  · rw [if_pos hc]
    simp only [Bool.and_eq_true, List.isEmpty_iff, Bool.not_eq_true'] at hc
    obtain ⟨⟨c1, c2⟩, c3⟩ := hc
    have hprev : s.nonWhitespacePrevious = false := by
      cases hq : s.nonWhitespacePrevious with
      | false => rfl
      | true => exact absurd c2 (h.word hq).1
    have hall := h.none c1 hprev
    have ht : trim = true := by
      rcases hpre with ht | he | ⟨g, hg, hg'⟩
      · exact ht
      · rw [hws he] at c3; exact absurd c3 (by simp)
      · rw [hall g hg] at hg'; exact absurd hg' (by simp)
    have hl : ((if (!s.pendingLine.isEmpty || !trim) = true then s.pendingLine ++ s.pendingWhitespace
        else s.pendingLine) ++ s.pendingWord) = [] := by
      simp [c1, c2, ht]
    rw [hl] at h4 ⊢
    exact ⟨[], rfl, h4⟩
  · rw [if_neg hc]
    generalize ((if (!s.pendingLine.isEmpty || !trim) = true then s.pendingLine ++ s.pendingWhitespace
        else s.pendingLine) ++ s.pendingWord) = line at *
    cases line with
    | nil => exact ⟨[], rfl, h4⟩
    | cons a t => exact ⟨a :: t, rfl, h4⟩

/-! ### Nothing is made up -/

/-- Everything in the wrapper satisfies a predicate. -/
structure State.All (P : StyledGrapheme → Prop) (s : State) : Prop where
  queue : ∀ l ∈ s.queue, ∀ g ∈ l, P g
  line : ∀ g ∈ s.pendingLine, P g
  word : ∀ g ∈ s.pendingWord, P g
  white : ∀ g ∈ s.pendingWhitespace, P g

variable {P : StyledGrapheme → Prop}

theorem all_cleared (h0 : P StyledGrapheme.zero) (l : List StyledGrapheme) :
    ∀ g ∈ StyledGrapheme.cleared l, P g := by
  intro g hg
  unfold StyledGrapheme.cleared at hg
  rw [List.mem_map] at hg
  obtain ⟨_, _, rfl⟩ := hg
  exact h0

theorem all_whole {s : State} (h : s.All P) (c : Bool) :
    ∀ g ∈ (if c = true then s.pendingLine ++ s.pendingWhitespace else s.pendingLine) ++ s.pendingWord,
      P g := by
  intro g hg
  rw [List.mem_append] at hg
  rcases hg with hg | hg
  · split at hg
    · rw [List.mem_append] at hg
      rcases hg with hg | hg
      · exact h.line g hg
      · exact h.white g hg
    · exact h.line g hg
  · exact h.word g hg

theorem all_flush (h0 : P StyledGrapheme.zero) (trim : Bool) {s : State} (h : s.All P) :
    (s.flush trim).All P :=
  ⟨h.queue, all_whole h _, all_cleared h0 _, by simp [State.flush]⟩

theorem all_emit (h0 : P StyledGrapheme.zero) (max : Int) {s : State} (h : s.All P) :
    (s.emit max).All P := by
  refine ⟨?_, all_cleared h0 _, h.word, fun g hg => h.white g (dropFront_sub _ _ _ g hg)⟩
  intro l hl
  simp only [State.emit, List.mem_append, List.mem_singleton] at hl
  rcases hl with hl | rfl
  · exact h.queue l hl
  · exact h.line

theorem all_push {g : StyledGrapheme} (hg : P g) {s : State} (h : s.All P) : (s.push g).All P := by
  unfold State.push
  split
  · refine ⟨h.queue, h.line, h.word, ?_⟩
    intro x hx
    simp only [List.mem_append, List.mem_singleton] at hx
    rcases hx with hx | rfl
    · exact h.white x hx
    · exact hg
  · refine ⟨h.queue, h.line, ?_, h.white⟩
    intro x hx
    simp only [List.mem_append, List.mem_singleton] at hx
    rcases hx with hx | rfl
    · exact h.word x hx
    · exact hg

theorem all_place (h0 : P StyledGrapheme.zero) (max : Int) {g : StyledGrapheme} (hg : P g) {s : State}
    (h : s.All P) : (s.place max g).All P := by
  unfold State.place
  split
  · simp only
    split
    · exact all_emit h0 max h
    · exact all_push hg (all_emit h0 max h)
  · exact all_push hg h

theorem all_foldl (h0 : P StyledGrapheme.zero) (max : Int) (trim : Bool) (l : List StyledGrapheme) :
    ∀ s : State, s.All P → (∀ g ∈ l, P g) → (l.foldl (State.step max trim) s).All P := by
  induction l with
  | nil => intro s h _; exact h
  | cons g t ih =>
    intro s h hl
    rw [List.foldl_cons]
    refine ih _ ?_ fun x hx => hl x (by simp [hx])
    unfold State.step
    split
    · exact h
    · apply all_place h0 max (hl g (by simp))
      split
      · exact all_flush h0 trim h
      · exact h

theorem all_finish (trim : Bool) {s : State} (h : s.All P) : ∀ l ∈ (s.finish trim).1, ∀ g ∈ l, P g := by
  have hline := all_whole h (!s.pendingLine.isEmpty || !trim)
  have hq : ∀ l ∈ (if (s.pendingLine.isEmpty && s.pendingWord.isEmpty && !s.pendingWhitespace.isEmpty) =
      true then s.queue ++ [[]] else s.queue), ∀ g ∈ l, P g := by
    intro l hl
    split at hl
    · simp only [List.mem_append, List.mem_singleton] at hl
      rcases hl with hl | rfl
      · exact h.queue l hl
      · simp
    · exact h.queue l hl
  unfold State.finish
  simp only
  generalize (if (s.pendingLine.isEmpty && s.pendingWord.isEmpty && !s.pendingWhitespace.isEmpty) =
      true then s.queue ++ [[]] else s.queue) = q at *
  generalize ((if (!s.pendingLine.isEmpty || !trim) = true then s.pendingLine ++ s.pendingWhitespace
      else s.pendingLine) ++ s.pendingWord) = line at *
  have hq2 : ∀ l ∈ (if line.isEmpty = true then q else q ++ [line]), ∀ g ∈ l, P g := by
    intro l hl
    split at hl
    · exact hq l hl
    · simp only [List.mem_append, List.mem_singleton] at hl
      rcases hl with hl | rfl
      · exact hq l hl
      · exact hline
  generalize (if line.isEmpty = true then q else q ++ [line]) = q2 at *
  intro l hl
  cases q2 with
  | nil =>
    have : l ∈ [[]] := hl
    simp only [List.mem_singleton] at this
    subst this
    simp
  | cons a t => exact hq2 l hl

end Wrap

namespace WordWrapper

theorem start_blank (w : WordWrapper) : w.start.Blank := by intro g hg; simp [start] at hg

theorem processInput_content (w : WordWrapper) (gs : List StyledGrapheme) :
    visible (w.processInput gs).wrappedLines.flatten =
        visible w.wrappedLines.flatten ++ visible (gs.filter fun g => (g.g.width : Int) ≤ w.maxLineWidth) ∧
      (w.processInput gs).wrappedLines ≠ [] := by
  unfold processInput
  obtain ⟨e, hb⟩ := Wrap.content_foldl w.maxLineWidth w.trim gs w.start (start_blank w)
  obtain ⟨e2, hne⟩ := Wrap.content_finish w.trim hb
  refine ⟨?_, hne⟩
  simp only
  rw [e2, e]
  simp [Wrap.State.content, start, visible_cleared]

theorem pop_some {w : WordWrapper} {input r} (h : pop w input = some r) :
    ∃ line q, w.wrappedLines = line :: q ∧ r.1.line = line ∧ r.1.width = columns line ∧
      r.1.alignment = w.currentAlignment ∧ r.2.wrappedLines = q ∧ r.2.inputLines = input ∧
      r.2.maxLineWidth = w.maxLineWidth ∧ r.2.trim = w.trim ∧ r.2.currentAlignment = w.currentAlignment := by
  unfold pop at h
  cases hq : w.wrappedLines with
  | nil => simp [hq] at h
  | cons line q =>
    simp only [hq, Option.some.injEq] at h
    subst h
    exact ⟨line, q, rfl, rfl, rfl, rfl, rfl, rfl, rfl, rfl, rfl⟩

theorem pop_none {w : WordWrapper} {input} : pop w input = none ↔ w.wrappedLines = [] := by
  unfold pop
  cases w.wrappedLines <;> simp

/-- One call of NextLine: the queue is served first, then the next input line is processed. -/
theorem nextLoop_cases (input : List InputLine) (w : WordWrapper) :
    (w.wrappedLines ≠ [] ∧ nextLoop input w = pop w input) ∨
    (w.wrappedLines = [] ∧ input = [] ∧ nextLoop input w = none) ∨
    (w.wrappedLines = [] ∧ ∃ l t, input = l :: t ∧
      nextLoop input w = pop (processInput { w with currentAlignment := l.alignment } l.graphemes) t) := by
  have hserve : ∀ input (w : WordWrapper), w.wrappedLines ≠ [] → nextLoop input w = pop w input := by
    intro input w h
    cases input with
    | nil => rfl
    | cons l t =>
      unfold nextLoop
      cases hp : pop w (l :: t) with
      | none => exact absurd (pop_none.1 hp) h
      | some r => rfl
  by_cases h : w.wrappedLines = []
  · right
    cases input with
    | nil => exact .inl ⟨h, rfl, pop_none.2 h⟩
    | cons l t =>
      refine .inr ⟨h, l, t, rfl, ?_⟩
      conv => lhs; unfold nextLoop
      rw [pop_none.2 h]
      simp only
      exact hserve _ _ (processInput_content _ _).2
  · exact .inl ⟨h, hserve _ _ h⟩

theorem yields_exists : ∀ n m (w : WordWrapper), w.inputLines.length = n → w.wrappedLines.length = m →
    ∃ ls, Yields nextLine w ls := by
  intro n
  induction n using Nat.strongRecOn with
  | _ n ihn =>
    intro m
    induction m using Nat.strongRecOn with
    | _ m ihm =>
      intro w hn hm
      cases h : w.nextLine with
      | none => exact ⟨[], .done h⟩
      | some r =>
        have h' := h
        unfold nextLine at h'
        split at h'
        · simp at h'
        obtain ⟨ls, hls⟩ : ∃ ls, Yields nextLine r.2 ls := by
          rcases nextLoop_cases w.inputLines w with ⟨_, e⟩ | ⟨_, _, e⟩ | ⟨_, l, t, ht, e⟩
          · rw [e] at h'
            obtain ⟨line, q, hq, -, -, -, h2, h3, -⟩ := pop_some h'
            exact ihm r.2.wrappedLines.length (by rw [← hm, hq, h2]; simp) _ (by rw [h3]; exact hn) rfl
          · rw [e] at h'; exact absurd h' (by simp)
          · rw [e] at h'
            obtain ⟨line, q, -, -, -, -, -, h3, -⟩ := pop_some h'
            exact ihn r.2.inputLines.length (by rw [h3, ← hn, ht]; simp) _ _ rfl rfl
        exact ⟨_, .more h hls⟩

/-- These rows are what processing the input line yields in some state of the wrapper. -/
def RowsOf (max : Int) (trim : Bool) (l : InputLine) (rows : List WrappedLine) : Prop :=
  ∃ w : WordWrapper, w.maxLineWidth = max ∧ w.trim = trim ∧ w.wrappedLines = [] ∧
    rows.map WrappedLine.line = (w.processInput l.graphemes).wrappedLines ∧
    ∀ r ∈ rows, r.alignment = l.alignment ∧ r.width = columns r.line

theorem yields_groups {w : WordWrapper} {ls : List WrappedLine} (h : Yields nextLine w ls)
    (hm : w.maxLineWidth ≠ 0) :
    ∃ first groups, ls = first ++ groups.flatten ∧ first.map WrappedLine.line = w.wrappedLines ∧
      (∀ r ∈ first, r.alignment = w.currentAlignment ∧ r.width = columns r.line) ∧
      List.Forall₂ (RowsOf w.maxLineWidth w.trim) w.inputLines groups := by
  induction h with
  | @done w e =>
    unfold nextLine at e
    rw [if_neg hm] at e
    rcases nextLoop_cases w.inputLines w with ⟨h1, e'⟩ | ⟨h1, h2, _⟩ | ⟨_, l, t, _, e'⟩
    · rw [e'] at e; exact absurd (pop_none.1 e) h1
    · exact ⟨[], [], rfl, h1.symm, by simp, by rw [h2]; exact .nil⟩
    · rw [e'] at e; exact absurd (pop_none.1 e) (processInput_content _ _).2
  | more e hy ih =>
    rename_i w r w' ls
    unfold nextLine at e
    rw [if_neg hm] at e
    rcases nextLoop_cases w.inputLines w with ⟨h1, e'⟩ | ⟨h1, h2, e'⟩ | ⟨h0, l, t, ht, e'⟩
    · rw [e'] at e
      obtain ⟨line, q, hq, h1, h1', h1'', h2, h3, h4, h5, h6⟩ := pop_some e
      simp only at h1 h1' h1'' h2 h3 h4 h5 h6
      obtain ⟨first, groups, i1, i2, i3, i4⟩ := ih (by rw [h4]; exact hm)
      refine ⟨r :: first, groups, by rw [i1]; rfl, ?_, ?_, ?_⟩
      · rw [List.map_cons, i2, h1, h2, hq]
      · intro x hx
        rw [List.mem_cons] at hx
        rcases hx with rfl | hx
        · exact ⟨h1'', by rw [h1', h1]⟩
        · rw [← h6]; exact i3 x hx
      · rw [h3, h4, h5] at i4
        exact i4
    · rw [e'] at e; exact absurd e (by simp)
    · rw [e'] at e
      obtain ⟨line, q, hq, h1, h1', h1'', h2, h3, h4, h5, h6⟩ := pop_some e
      simp only at h1 h1' h1'' h2 h3 h4 h5 h6
      have h4' : w'.maxLineWidth = w.maxLineWidth := h4
      have h5' : w'.trim = w.trim := h5
      have h6' : w'.currentAlignment = l.alignment := h6
      obtain ⟨first, groups, i1, i2, i3, i4⟩ := ih (by rw [h4']; exact hm)
      refine ⟨[], (r :: first) :: groups, by rw [i1]; simp, by rw [h0]; rfl, by simp, ?_⟩
      rw [ht]
      rw [h3, h4', h5'] at i4
      refine .cons ⟨{ w with currentAlignment := l.alignment }, rfl, rfl, h0, ?_, ?_⟩ i4
      · rw [hq, List.map_cons, i2, h1, h2]
      · intro x hx
        rw [List.mem_cons] at hx
        rcases hx with rfl | hx
        · exact ⟨h1'', by rw [h1', h1]⟩
        · rw [← h6']; exact i3 x hx

/-- A new wrapper delivers, for each input line in order, the rows of that line. -/
theorem new_groups {lines : List InputLine} {max : Int} {trim : Bool} {ls : List WrappedLine}
    (h : Yields nextLine (new lines max trim) ls) (hm : max ≠ 0) :
    ∃ groups, ls = groups.flatten ∧ List.Forall₂ (RowsOf max trim) lines groups := by
  obtain ⟨first, groups, e, e1, -, e2⟩ := yields_groups h hm
  have : first = [] := by
    have : first.map WrappedLine.line = [] := e1
    simpa using this
  subst this
  exact ⟨groups, by simpa using e, e2⟩

theorem RowsOf.visible {max : Int} {trim : Bool} {l : InputLine} {rows : List WrappedLine}
    (h : RowsOf max trim l rows) :
    rows ≠ [] ∧ Bento.visible (rows.flatMap WrappedLine.line) =
      Bento.visible (l.graphemes.filter fun g => (g.g.width : Int) ≤ max) := by
  obtain ⟨w, rfl, rfl, hq, e, -⟩ := h
  obtain ⟨c, hne⟩ := processInput_content w l.graphemes
  refine ⟨?_, ?_⟩
  · rintro rfl
    exact hne e.symm
  · rw [List.flatMap_def, e, c, hq]
    rfl

theorem start_inv {max : Int} (w : WordWrapper) (hmax : 0 ≤ max) (hq : ∀ l ∈ w.wrappedLines, columns l ≤ max) :
    w.start.Inv max [] := by
  refine ⟨⟨?_, ?_, rfl, hq, hmax, ?_⟩, ?_, [], [], rfl, ?_, Int.le_refl _⟩
  · simp only [start, columns_cleared]
  · simp only [start, columns_cleared]
  · simp [start]
  · intro g hg; simp [start] at hg
  · simp

theorem processInput_fits (w : WordWrapper) (gs : List StyledGrapheme) (hmax : 0 < w.maxLineWidth)
    (hq : ∀ l ∈ w.wrappedLines, columns l ≤ w.maxLineWidth) (hs : AtMostSingle gs)
    (hf : WordsFit w.maxLineWidth gs) :
    ∀ l ∈ (w.processInput gs).wrappedLines, columns l ≤ w.maxLineWidth := by
  have := Wrap.inv_foldl w.trim hmax gs [] w.start (start_inv w (by omega) hq) hs hf
  exact Wrap.fits_finish w.trim this.fits (by omega)

theorem RowsOf.fits {max : Int} {trim : Bool} {l : InputLine} {rows : List WrappedLine}
    (h : RowsOf max trim l rows) (hmax : 0 < max) (hs : AtMostSingle l.graphemes)
    (hf : WordsFit max l.graphemes) : ∀ r ∈ rows, columns r.line ≤ max := by
  obtain ⟨w, rfl, rfl, hq, e, -⟩ := h
  intro r hr
  refine processInput_fits w l.graphemes hmax (by rw [hq]; simp) hs hf r.line ?_
  rw [← e]
  exact List.mem_map_of_mem hr

theorem processInput_short (w : WordWrapper) (hq : w.wrappedLines = []) (gs : List StyledGrapheme)
    (hg : ∀ g ∈ gs, g.g.width = 1) (hw : columns gs ≤ w.maxLineWidth)
    (hgs : w.trim = true ∨ gs = [] ∨ ∃ g ∈ gs, g.g.isWhitespace = false) :
    ∃ l, (w.processInput gs).wrappedLines = [l] ∧
      symbols l = symbols (Wrap.target (!w.trim || !(w.pool.headD []).isEmpty) gs) := by
  have h0 : w.start.Short w.trim (!w.trim || !(w.pool.headD []).isEmpty) [] := by
    refine ⟨hq, Int.le_refl _, ⟨Int.le_refl _, Int.le_refl _, Int.le_refl _⟩, ?_, ?_, ?_, by simp, ?_, ?_⟩
    · unfold Wrap.State.whole
      have : symbols (Wrap.target (!w.trim || !(w.pool.headD []).isEmpty) []) = [] := by
        unfold Wrap.target
        split <;> rfl
      rw [this]
      simp only [start, Wrap.symbols_append, Wrap.symbols_cleared, List.append_nil, ite_self]
    · intro hk
      simp only [Bool.or_eq_true, Bool.not_eq_true'] at hk
      rcases hk with hk | hk
      · exact .inr hk
      · left
        intro hc
        have : (w.pool.headD []).isEmpty = true := by
          rw [← isEmpty_cleared]
          show w.start.pendingLine.isEmpty = true
          rw [hc]; rfl
        rw [this] at hk
        exact absurd hk (by simp)
    · intro hk
      simp only [Bool.or_eq_false_iff, Bool.not_eq_false'] at hk
      refine ⟨hk.1, fun hne => ?_⟩
      exfalso
      apply hne
      have : (StyledGrapheme.cleared (w.pool.headD [])).isEmpty = true := by
        rw [isEmpty_cleared]; exact hk.2
      exact List.isEmpty_iff.1 this
    · simp [start]
    · intro _
      simp only [start, Wrap.symbols_cleared]
  have h1 := Wrap.short_foldl gs [] w.start h0 hg hw
  exact Wrap.short_finish h1 hgs (by
    intro he
    have he : gs = [] := he
    rw [he]; rfl)

theorem RowsOf.mem {max : Int} {trim : Bool} {l : InputLine} {rows : List WrappedLine}
    (h : RowsOf max trim l rows) : ∀ r ∈ rows, ∀ g ∈ r.line, g = StyledGrapheme.zero ∨ g ∈ l.graphemes := by
  obtain ⟨w, rfl, rfl, hq, e, -⟩ := h
  intro r hr
  have hall : w.start.All fun g => g = StyledGrapheme.zero ∨ g ∈ l.graphemes :=
    ⟨by simp [start, hq], Wrap.all_cleared (.inl rfl) _, Wrap.all_cleared (.inl rfl) _, by simp [start]⟩
  refine Wrap.all_finish w.trim (Wrap.all_foldl (.inl rfl) w.maxLineWidth w.trim l.graphemes _ hall
    (fun g hg => .inr hg)) r.line ?_
  have : r.line ∈ rows.map WrappedLine.line := List.mem_map_of_mem hr
  rw [e] at this
  exact this

end WordWrapper

end Bento
