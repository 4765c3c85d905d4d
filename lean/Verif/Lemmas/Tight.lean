import Verif.Lemmas.Words

/-!
# Rows that are not ended early

The word wrapper ends a row only when it is full, or when what comes next does not fit.
-/

namespace Bento

namespace Wrap

open StyledGrapheme (cleared)

/-- The row `r` behind the rows `rows` was ended for a reason that can be seen in `pre`. -/
def Reason (max : Int) (rows : List (List StyledGrapheme)) (r pre : List StyledGrapheme) : Prop :=
  ∃ done gap next rest, pre = done ++ gap ++ next ++ rest ∧ (∀ g ∈ done.getLast?, g.g.isWhitespace = false) ∧
    (∀ g ∈ gap, g.g.isWhitespace = true) ∧ (∀ g ∈ next, g.g.isWhitespace = false) ∧
    visible done = visible (rows.flatten ++ r) ∧ (max ≤ columns r ∨ max < columns r + columns gap + columns next)

theorem Reason.mono {max : Int} {rows : List (List StyledGrapheme)} {r pre : List StyledGrapheme}
    (h : Reason max rows r pre) (more : List StyledGrapheme) : Reason max rows r (pre ++ more) := by
  obtain ⟨d, g, n, t, rfl, h1, h2, h3, h4, h5⟩ := h
  exact ⟨d, g, n, t ++ more, by simp, h1, h2, h3, h4, h5⟩

/-- Every row of the queue has a reason. -/
def Reasons (max : Int) (queue : List (List StyledGrapheme)) (pre : List StyledGrapheme) : Prop :=
  ∀ rows r rest, queue = rows ++ r :: rest → Reason max rows r pre

theorem Reasons.mono {max : Int} {queue : List (List StyledGrapheme)} {pre : List StyledGrapheme}
    (h : Reasons max queue pre) (more : List StyledGrapheme) : Reasons max queue (pre ++ more) :=
  fun rows r rest e => (h rows r rest e).mono more

theorem Reasons.snoc {max : Int} {queue : List (List StyledGrapheme)} {r pre : List StyledGrapheme}
    (h : Reasons max queue pre) (hr : Reason max queue r pre) : Reasons max (queue ++ [r]) pre := by
  intro rows x rest e
  rcases List.eq_nil_or_concat rest with rfl | ⟨t, y, rfl⟩
  · obtain ⟨rfl, e2⟩ := List.append_inj' e rfl
    simp only [List.cons.injEq, and_true] at e2
    subst e2
    exact hr
  · rw [List.concat_eq_append, ← List.cons_append, ← List.append_assoc] at e
    obtain ⟨rfl, -⟩ := List.append_inj' e rfl
    exact h rows x t rfl

/-- The parts of what has been read. -/
structure State.Parts (s : State) (pre done gap cur : List StyledGrapheme) : Prop where
  sized : s.Sized
  blank : s.Blank
  parts : pre = done ++ gap ++ cur
  last : ∀ g ∈ done.getLast?, g.g.isWhitespace = false
  spaces : ∀ g ∈ gap, g.g.isWhitespace = true
  solid : ∀ g ∈ cur, g.g.isWhitespace = false
  shown : visible done = visible (s.queue.flatten ++ s.pendingLine)
  word : ∃ z, Zeros z ∧ s.pendingWord = z ++ cur
  white : s.whitespaceWidth ≤ columns gap
  prev : cur ≠ [] → s.nonWhitespacePrevious = true

theorem visible_solid {l : List StyledGrapheme} (h : ∀ g ∈ l, g.g.isWhitespace = false) : visible l = l := by
  unfold visible
  rw [List.filter_eq_self]
  intro g hg
  simp [h g hg]

theorem visible_gap {l : List StyledGrapheme} (h : ∀ g ∈ l, g.g.isWhitespace = true) : visible l = [] := by
  unfold visible
  rw [List.filter_eq_nil_iff]
  intro g hg
  simp [h g hg]

/-- Flushing: the word that has been read counts as shown. -/
theorem parts_flush {s : State} {pre done gap cur : List StyledGrapheme} (trim : Bool) (h : s.Parts pre done gap cur) :
    ∃ done' gap', (s.flush trim).Parts pre done' gap' [] := by
  obtain ⟨hs, hb, hp, hl, hg, hc, hv, ⟨z, hz, hw⟩, hwh, hpr⟩ := h
  have hshown : visible ((s.flush trim).queue.flatten ++ (s.flush trim).pendingLine) =
      visible (s.queue.flatten ++ s.pendingLine) ++ cur := by
    have := (content_flush trim hb).1
    unfold State.content at this
    have hfw : visible (s.flush trim).pendingWord = [] := by
      show visible (cleared s.pendingWord) = []
      exact visible_cleared _
    rw [hfw, List.append_nil] at this
    rw [visible_append, this, visible_append, hw, visible_append, hz.visible, visible_solid hc, List.nil_append]
  by_cases hce : cur = []
  · subst hce
    rw [List.append_nil] at hshown
    exact ⟨done, gap, sized_flush trim hs, (content_flush trim hb).2, hp, hl, hg, hc, by rw [hshown, hv],
      ⟨cleared s.pendingWord, zeros_cleared _, by simp [State.flush]⟩, by
        show (0 : Int) ≤ _; exact columns_nonneg _, fun h => absurd rfl h⟩
  · refine ⟨done ++ gap ++ cur, [], sized_flush trim hs, (content_flush trim hb).2, by rw [hp]; simp, ?_, by simp, by simp, ?_,
      ⟨cleared s.pendingWord, zeros_cleared _, by simp [State.flush]⟩, by
        show (0 : Int) ≤ _; exact columns_nonneg _, fun h => absurd rfl h⟩
    · intro g hgl
      rw [List.getLast?_append_of_ne_nil _ hce] at hgl
      exact hc g (List.mem_of_getLast? hgl)
    · rw [hshown, visible_append, visible_append, visible_gap hg, List.append_nil, hv, visible_solid hc]

theorem parts_step {max : Int} {trim : Bool} {s : State} {pre done gap cur : List StyledGrapheme} (g : StyledGrapheme)
    (hgw : (g.g.width : Int) ≤ max) (h : s.Parts pre done gap cur) (hr : Reasons max s.queue pre) :
    ∃ done' gap' cur', (s.step max trim g).Parts (pre ++ [g]) done' gap' cur' ∧
      Reasons max (s.step max trim g).queue (pre ++ [g]) := by
  obtain ⟨t, ht⟩ : ∃ t, t = (if s.ends max trim g then s.flush trim else s) := ⟨_, rfl⟩
  have hstep : s.step max trim g = t.place max g := by
    unfold State.step
    rw [if_neg (by omega), ht]
  have hq : t.queue = s.queue := by rw [ht]; split <;> rfl
  -- before whitespace no word is pending
  obtain ⟨d, p, c, hp, hc⟩ : ∃ d p c, t.Parts pre d p c ∧ (g.g.isWhitespace = true → c = []) := by
    rw [ht]
    by_cases he : s.ends max trim g = true
    · simp only [he, if_true]
      obtain ⟨d, p, hp⟩ := parts_flush trim h
      exact ⟨d, p, [], hp, fun _ => rfl⟩
    · simp only [he, Bool.false_eq_true, if_false]
      refine ⟨done, gap, cur, h, fun hw => ?_⟩
      by_contra hne
      apply he
      unfold State.ends
      simp [h.prev hne, hw]
  clear h ht
  rw [← hq] at hr
  rw [hstep]
  obtain ⟨hs, hb, hpp, hl, hg, hcc, hv, ⟨z, hz, hw⟩, hwh, hpr⟩ := hp
  -- pushing
  have key : ∀ r : State, r.Sized → r.Blank → visible d = visible (r.queue.flatten ++ r.pendingLine) →
      r.pendingWord = t.pendingWord → r.whitespaceWidth ≤ columns p →
      ∃ d' p' c', (r.push g).Parts (pre ++ [g]) d' p' c' := by
    intro r r1 r2 r3 r4 r5
    cases hgs : g.g.isWhitespace with
    | true =>
      have hce := hc hgs
      subst hce
      refine ⟨d, p ++ [g], [], sized_push g r1, (content_push g r2).2, by rw [hpp]; simp, hl, ?_, by simp, ?_, ?_, ?_,
        fun h => absurd rfl h⟩
      · intro x hx
        rw [List.mem_append, List.mem_singleton] at hx
        rcases hx with hx | rfl
        · exact hg x hx
        · exact hgs
      · unfold State.push; simp only [hgs, if_true]; exact r3
      · unfold State.push; simp only [hgs, if_true]; exact ⟨z, hz, by rw [r4, hw]⟩
      · unfold State.push
        simp only [hgs, if_true]
        rw [columns_append, columns_cons]
        have : columns [] = 0 := rfl
        omega
    | false =>
      refine ⟨d, p, c ++ [g], sized_push g r1, (content_push g r2).2, by rw [hpp]; simp, hl, hg, ?_, ?_, ?_, ?_, ?_⟩
      · intro x hx
        rw [List.mem_append, List.mem_singleton] at hx
        rcases hx with hx | rfl
        · exact hcc x hx
        · exact hgs
      · unfold State.push; simp only [hgs, Bool.false_eq_true, if_false]; exact r3
      · unfold State.push; simp only [hgs, Bool.false_eq_true, if_false]; exact ⟨z, hz, by rw [r4, hw, List.append_assoc]⟩
      · unfold State.push; simp only [hgs, Bool.false_eq_true, if_false]; exact r5
      · unfold State.push; simp only [hgs, Bool.false_eq_true, if_false]; exact fun _ => trivial
  have hpush : ∀ r : State, (r.push g).queue = r.queue := by
    intro r; unfold State.push; split <;> rfl
  unfold State.place
  by_cases hf : t.full max g = true
  · simp only [hf, if_true]
    -- the reason of the row that is ended
    have hreason : Reason max t.queue t.pendingLine (pre ++ [g]) := by
      have hword : t.wordWidth = columns c := by rw [hs.word, hw, columns_append, hz.columns]; omega
      have hcols : columns ([g] : List StyledGrapheme) = g.g.width := by
        rw [columns_cons]; have : columns [] = 0 := rfl; omega
      unfold State.full at hf
      simp only [Bool.or_eq_true, Bool.and_eq_true, decide_eq_true_eq] at hf
      cases hgs : g.g.isWhitespace with
      | true =>
        have hce := hc hgs
        subst hce
        refine ⟨d, p ++ [g], [], [], by rw [hpp]; simp, hl, ?_, by simp, hv, ?_⟩
        · intro x hx
          rw [List.mem_append, List.mem_singleton] at hx
          rcases hx with hx | rfl
          · exact hg x hx
          · exact hgs
        · rw [columns_append, hcols, ← hs.line]
          have : columns [] = 0 := rfl
          omega
      | false =>
        refine ⟨d, p, c ++ [g], [], by rw [hpp]; simp, hl, hg, ?_, hv, ?_⟩
        · intro x hx
          rw [List.mem_append, List.mem_singleton] at hx
          rcases hx with hx | rfl
          · exact hcc x hx
          · exact hgs
        · rw [columns_append, hcols, ← hs.line]
          omega
    have hqe : Reasons max (t.emit max).queue (pre ++ [g]) := (hr.mono [g]).snoc hreason
    have hve : visible d = visible ((t.emit max).queue.flatten ++ (t.emit max).pendingLine) := by
      show _ = visible ((t.queue ++ [t.pendingLine]).flatten ++ cleared t.pendingLine)
      rw [visible_append, visible_cleared, List.append_nil, hv]
      simp
    have hle : (t.emit max).whitespaceWidth ≤ columns p := by
      have : (t.emit max).whitespaceWidth ≤ t.whitespaceWidth := dropFront_le _ _ _
      omega
    by_cases hd : (g.g.isWhitespace && (t.emit max).pendingWhitespace.isEmpty) = true
    · simp only [hd, if_true]
      have hgs : g.g.isWhitespace = true := (Bool.and_eq_true _ _ ▸ hd).1
      have hce := hc hgs
      subst hce
      refine ⟨d, p ++ [g], [], ⟨sized_emit max hs, (content_emit max hb).2, by rw [hpp]; simp, hl, ?_, by simp, hve,
        ⟨z, hz, hw⟩, ?_, fun h => absurd rfl h⟩, hqe⟩
      · intro x hx
        rw [List.mem_append, List.mem_singleton] at hx
        rcases hx with hx | rfl
        · exact hg x hx
        · exact hgs
      · rw [columns_append, columns_cons]
        have : columns [] = 0 := rfl
        omega
    · simp only [hd, Bool.false_eq_true, if_false]
      obtain ⟨d', p', c', hk⟩ := key (t.emit max) (sized_emit max hs) (content_emit max hb).2 hve rfl hle
      exact ⟨d', p', c', hk, by rw [hpush]; exact hqe⟩
  · simp only [hf, Bool.false_eq_true, if_false]
    obtain ⟨d', p', c', hk⟩ := key t hs hb hv rfl hwh
    exact ⟨d', p', c', hk, by rw [hpush]; exact hr.mono [g]⟩

theorem parts_foldl {max : Int} {trim : Bool} : ∀ (l pre done gap cur : List StyledGrapheme) (s : State),
    (∀ g ∈ l, (g.g.width : Int) ≤ max) → s.Parts pre done gap cur → Reasons max s.queue pre →
      Reasons max (l.foldl (State.step max trim) s).queue (pre ++ l)
  | [], pre, _, _, _, s, _, _, hr => by simpa using hr
  | g :: t, pre, done, gap, cur, s, hl, h, hr => by
    rw [List.foldl_cons]
    obtain ⟨d, p, c, h', hr'⟩ := parts_step (trim := trim) g (hl g List.mem_cons_self) h hr
    have := parts_foldl (trim := trim) t (pre ++ [g]) d p c _ (fun x hx => hl x (List.mem_cons_of_mem _ hx)) h' hr'
    simpa using this

/-- Two beginnings of a text that show the same and end with something visible are the same. -/
theorem done_unique {a b x y : List StyledGrapheme} (e : a ++ x = b ++ y) (hv : visible a = visible b)
    (ha : ∀ g ∈ a.getLast?, g.g.isWhitespace = false) (hb : ∀ g ∈ b.getLast?, g.g.isWhitespace = false) : a = b := by
  have key : ∀ a b : List StyledGrapheme, visible a = visible b → (∀ g ∈ b.getLast?, g.g.isWhitespace = false) →
      a <+: b → a = b := by
    rintro a b hv hb ⟨c, rfl⟩
    rcases List.eq_nil_or_concat c with rfl | ⟨t, g, rfl⟩
    · simp
    · exfalso
      have hg : g.g.isWhitespace = false := hb g (by simp)
      rw [visible_append] at hv
      have hn : visible (t.concat g) = [] := by
        have := congrArg List.length hv
        rw [List.length_append] at this
        exact List.eq_nil_of_length_eq_zero (by omega)
      unfold visible at hn
      rw [List.filter_eq_nil_iff] at hn
      exact absurd (hn g (by simp)) (by simp [hg])
  rcases List.prefix_or_prefix_of_prefix (l₃ := a ++ x) ⟨x, rfl⟩ ⟨y, e.symm⟩ with h | h
  · exact key a b hv hb h
  · exact (key b a hv.symm ha h).symm

/-- The reason also holds for the whole of the whitespace and the word that come next. -/
theorem Reason.next {max : Int} {rows : List (List StyledGrapheme)} {r text : List StyledGrapheme}
    (h : Reason max rows r text) {done gap next rest : List StyledGrapheme} (hn : NextWord text done gap next rest)
    (hv : visible done = visible (rows.flatten ++ r)) :
    max ≤ columns r ∨ max < columns r + columns gap + columns next := by
  obtain ⟨d, g, n, t, e, h1, h2, h3, h4, h5⟩ := h
  obtain ⟨e', hl, hg, hne, hwh, hall⟩ := hn
  have hd : d = done := by
    refine done_unique (x := g ++ n ++ t) (y := gap ++ next ++ rest) ?_ (by rw [h4, hv]) h1 hl
    rw [e] at e'
    simpa using e'
  subst hd
  have ee : g ++ (n ++ t) = gap ++ (next ++ rest) := by
    rw [e] at e'
    simpa using e'
  refine h5.imp id fun h5 => ?_
  have hle : columns g + columns n ≤ columns gap + columns next := by
    rcases List.append_eq_append_iff.1 ee with ⟨x, hx1, hx2⟩ | ⟨x, hx1, hx2⟩
    · -- the gap is longer
      rw [hx1, columns_append]
      have hx0 := columns_nonneg x
      have hn0 := columns_nonneg next
      rcases n with _ | ⟨n0, n'⟩
      · have : columns [] = 0 := rfl
        omega
      · rcases x with _ | ⟨x0, x'⟩
        · -- the same gap
          simp only [List.nil_append, List.cons_append] at hx2
          have h0 : columns ([] : List StyledGrapheme) = 0 := rfl
          rcases List.append_eq_append_iff.1 (show (n0 :: n') ++ t = next ++ rest by simpa using hx2) with
            ⟨y, hy1, hy2⟩ | ⟨y, hy1, hy2⟩
          · rw [hy1, columns_append]
            have := columns_nonneg y
            omega
          · rcases y with _ | ⟨y0, y'⟩
            · rw [hy1, columns_append]; omega
            · exfalso
              have a1 : y0.g.isWhitespace = true := hwh y0 (by rw [hy2]; simp)
              have a2 : y0.g.isWhitespace = false := h3 y0 (by rw [hy1]; simp)
              rw [a1] at a2; cases a2
        · exfalso
          have a1 : x0.g.isWhitespace = true := hg x0 (by rw [hx1]; simp)
          have a2 : n0.g.isWhitespace = false := h3 n0 (by simp)
          simp only [List.cons_append, List.cons.injEq] at hx2
          rw [hx2.1, a1] at a2
          cases a2
    · -- the gap is shorter
      rcases x with _ | ⟨x0, x'⟩
      · simp only [List.append_nil, List.nil_append] at hx1 hx2
        subst hx1
        have h0 : columns ([] : List StyledGrapheme) = 0 := rfl
        rcases List.append_eq_append_iff.1 hx2.symm with ⟨y, hy1, hy2⟩ | ⟨y, hy1, hy2⟩
        · rw [hy1, columns_append]
          have := columns_nonneg y
          omega
        · rcases y with _ | ⟨y0, y'⟩
          · rw [hy1, columns_append]; omega
          · exfalso
            have a1 : y0.g.isWhitespace = true := hwh y0 (by rw [hy2]; simp)
            have a2 : y0.g.isWhitespace = false := h3 y0 (by rw [hy1]; simp)
            rw [a1] at a2; cases a2
      · exfalso
        have a1 : x0.g.isWhitespace = true := h2 x0 (by rw [hx1]; simp)
        rcases next with _ | ⟨m0, m'⟩
        · rw [hall rfl] at hx2
          simp at hx2
        · simp only [List.cons_append, List.cons.injEq] at hx2
          have a2 : m0.g.isWhitespace = false := hne m0 (by simp)
          rw [hx2.1, a1] at a2
          cases a2
  omega

end Wrap

open WordWrapper in
/-- A row behind which there are others was full, or what comes next did not fit behind it. -/
theorem processInput_tight (w : WordWrapper) (hq : w.wrappedLines = []) (hmax : 0 < w.maxLineWidth)
    (gs : List StyledGrapheme) (rows₁ rows₂ : List (List StyledGrapheme)) (r : List StyledGrapheme)
    (hrows : (w.processInput gs).wrappedLines = rows₁ ++ r :: rows₂) (hmore : rows₂ ≠ []) (hr : visible r ≠ [])
    (done gap next rest : List StyledGrapheme)
    (hn : NextWord (gs.filter fun g => (g.g.width : Int) ≤ w.maxLineWidth) done gap next rest)
    (hv : visible done = visible (rows₁.flatten ++ r)) :
    w.maxLineWidth ≤ columns r ∨ w.maxLineWidth < columns r + columns gap + columns next := by
  have hstart : w.start.Parts [] [] [] [] := by
    refine ⟨⟨?_, ?_, rfl⟩, ?_, rfl, by simp, by simp, by simp, ?_, ⟨_, Wrap.zeros_cleared w.pendingWord, by simp [start]⟩,
      Int.le_refl _, fun h => absurd rfl h⟩
    · simp only [start, columns_cleared]
    · simp only [start, columns_cleared]
    · intro g hg; simp [start] at hg
    · simp only [start, hq, List.flatten_nil, List.nil_append, visible_cleared]
      rfl
  have hreasons := Wrap.parts_foldl (max := w.maxLineWidth) (trim := w.trim)
    (gs.filter fun g => (g.g.width : Int) ≤ w.maxLineWidth) [] [] [] [] w.start
    (fun g hg => by simpa using (List.mem_filter.1 hg).2) hstart (by
      intro rows x t e
      simp only [start, hq] at e
      simp at e)
  rw [← Wrap.foldl_filter, List.nil_append] at hreasons
  obtain ⟨s, hs⟩ : ∃ s, s = gs.foldl (Wrap.State.step w.maxLineWidth w.trim) w.start := ⟨_, rfl⟩
  rw [← hs] at hreasons
  have hfin : (w.processInput gs).wrappedLines = (s.finish w.trim).1 := by
    unfold processInput; rw [hs]
  rw [hfin] at hrows
  -- the row is in the queue
  have hin : ∃ t, s.queue = rows₁ ++ r :: t := by
    have hlast : ∀ q : List (List StyledGrapheme), (q = s.queue ∨ q = s.queue ++ [[]]) → ∀ line,
        rows₁ ++ r :: rows₂ = q ++ [line] → ∃ t, s.queue = rows₁ ++ r :: t := by
      intro q hq' line e
      rcases List.eq_nil_or_concat rows₂ with h | ⟨t, y, rfl⟩
      · exact absurd h hmore
      · rw [List.concat_eq_append, ← List.cons_append, ← List.append_assoc] at e
        obtain ⟨e1, -⟩ := List.append_inj' e rfl
        rcases hq' with rfl | rfl
        · exact ⟨t, e1.symm⟩
        · rcases List.eq_nil_or_concat t with rfl | ⟨t', y', rfl⟩
          · obtain ⟨-, e2⟩ := List.append_inj' e1 rfl
            simp only [List.cons.injEq, and_true] at e2
            subst e2
            exact absurd rfl hr
          · rw [List.concat_eq_append, ← List.cons_append, ← List.append_assoc] at e1
            obtain ⟨e3, -⟩ := List.append_inj' e1 rfl
            exact ⟨t', e3.symm⟩
    have hany : ∀ q : List (List StyledGrapheme), (q = s.queue ∨ q = s.queue ++ [[]]) → rows₁ ++ r :: rows₂ = q →
        ∃ t, s.queue = rows₁ ++ r :: t := by
      intro q hq' e
      rcases hq' with rfl | rfl
      · exact ⟨rows₂, e.symm⟩
      · exact hlast s.queue (.inl rfl) [] e
    unfold Wrap.State.finish at hrows
    simp only at hrows
    have hq0 : (if s.pendingLine.isEmpty && s.pendingWord.isEmpty && !s.pendingWhitespace.isEmpty then s.queue ++ [[]] else s.queue) = s.queue ∨
        (if s.pendingLine.isEmpty && s.pendingWord.isEmpty && !s.pendingWhitespace.isEmpty then s.queue ++ [[]] else s.queue) = s.queue ++ [[]] := by
      split
      · exact .inr rfl
      · exact .inl rfl
    generalize (if s.pendingLine.isEmpty && s.pendingWord.isEmpty && !s.pendingWhitespace.isEmpty then s.queue ++ [[]] else s.queue) = q0 at hrows hq0
    generalize (if (!s.pendingLine.isEmpty || !w.trim) = true then s.pendingLine ++ s.pendingWhitespace
      else s.pendingLine) ++ s.pendingWord = line at hrows
    have hcase : rows₁ ++ r :: rows₂ = q0 ∨ rows₁ ++ r :: rows₂ = q0 ++ [line] := by
      by_cases hl : line.isEmpty = true
      · simp only [hl, if_true] at hrows
        by_cases he : q0.isEmpty = true
        · simp only [he, if_true] at hrows
          rcases rows₁ with _ | ⟨a, t⟩
          · simp only [List.nil_append, List.cons.injEq] at hrows
            exact absurd hrows.2.symm hmore
          · simp at hrows
        · simp only [he, Bool.false_eq_true, if_false] at hrows
          exact .inl hrows.symm
      · simp only [hl, Bool.false_eq_true, if_false] at hrows
        rw [if_neg (by simp)] at hrows
        exact .inr hrows.symm
    rcases hcase with h | h
    · exact hany q0 hq0 h
    · exact hlast q0 hq0 _ h
  obtain ⟨t, ht⟩ := hin
  exact (hreasons rows₁ r t ht).next hn hv

end Bento
