import Verif.Spec.Filling
import Verif.Props.Paragraph

/-!
# Filling rows with words
-/

namespace Bento

open Wrap

open StyledGrapheme (cleared)

theorem solid_cleared (l : List StyledGrapheme) : solid (cleared l) = [] := by
  unfold solid cleared
  rw [List.filter_eq_nil_iff]
  intro g hg
  obtain ⟨_, _, rfl⟩ := List.mem_map.1 hg
  decide

theorem solid_one {l : List StyledGrapheme} (h : ∀ g ∈ l, g.g.width = 1) : solid l = l := by
  unfold solid
  rw [List.filter_eq_self]
  intro g hg
  simp [h g hg]

/-- The state between two graphemes: `done` are the rows that are finished, `a` is on the row, `b` is the whitespace behind it
and `w` the word that is being read. -/
structure Wrap.State.Reads (s : State) (done : List (List StyledGrapheme)) (a b w : List StyledGrapheme) : Prop where
  queue : s.queue.map solid = done
  line : solid s.pendingLine = a
  none_ : s.pendingLine = [] → b = []
  blanks : s.pendingWhitespace = b
  word : solid s.pendingWord = w
  lineWidth : s.lineWidth = a.length
  whitespaceWidth : s.whitespaceWidth = b.length
  wordWidth : s.wordWidth = w.length

/-- Reading a word that fits on a row. -/
theorem reads_word {max : Int} (trim : Bool) :
    ∀ (todo w : List StyledGrapheme) (done : List (List StyledGrapheme)) (a b : List StyledGrapheme) (s : State),
      s.Reads done a b w → (∀ g ∈ b, g.g.width = 1) → b.length ≤ 1 → 
      (∀ g ∈ todo, g.g.isWhitespace = false ∧ g.g.width = 1) → (w.length + todo.length : Int) ≤ max →
      (a.length + b.length + w.length : Int) ≤ max → (todo = [] → s.nonWhitespacePrevious = true) →
      (todo.foldl (State.step max trim) s).nonWhitespacePrevious = true ∧
        if (a.length + b.length + (w.length + todo.length) : Int) ≤ max then
          (todo.foldl (State.step max trim) s).Reads done a b (w ++ todo)
        else (todo.foldl (State.step max trim) s).Reads (done ++ [a]) [] [] (w ++ todo) := by
  intro todo
  induction todo with
  | nil =>
    intro w done a b s h _ _ _ _ hfit hn
    rw [if_pos (by simpa using hfit)]
    exact ⟨hn rfl, by simpa using h⟩
  | cons g todo ih =>
    intro w done a b s h hb hb1 hg hlen hfit _
    obtain ⟨h1, h2, h3, h4, h5, h6, h7, h8⟩ := h
    obtain ⟨hg1, hg2⟩ := hg g (List.mem_cons_self ..)
    have hgs : ∀ g ∈ todo, g.g.isWhitespace = false ∧ g.g.width = 1 := fun x hx => hg x (List.mem_cons_of_mem _ hx)
    simp only [List.length_cons, Nat.cast_add, Nat.cast_one] at hlen
    have hends : s.ends max trim g = false := by
      unfold State.ends
      rw [hg1, hg2, h8, h7]
      have e1 : decide ((w.length : Int) + ((1 : Nat) : Int) > max) = false := by simp only [decide_eq_false_iff_not]; omega
      rw [e1]
      cases hp : s.pendingLine with
      | cons x l => simp
      | nil =>
        rw [h3 hp]
        have e2 : decide ((([] : List StyledGrapheme).length : Int) + ((1 : Nat) : Int) > max) = false := by
          simp only [decide_eq_false_iff_not, List.length_nil]; omega
        have e3 : decide ((w.length : Int) + (([] : List StyledGrapheme).length : Int) + ((1 : Nat) : Int) > max) = false := by
          simp only [decide_eq_false_iff_not, List.length_nil]; omega
        rw [e2, e3]
        simp
    have hstep : State.step max trim s g = State.place max g s := by
      unfold State.step
      rw [if_neg (by rw [hg2]; omega), hends]
      rfl
    have hfull : s.full max g = decide ((a.length + b.length + w.length : Int) ≥ max) := by
      unfold State.full
      rw [hg2, h6, h7, h8]
      by_cases hm : (a.length + b.length + w.length : Int) ≥ max
      · rw [decide_eq_true hm]; simp
      · rw [decide_eq_false hm, decide_eq_false (show ¬ (a.length : Int) ≥ max by omega)]; rfl
    have hsw : solid (s.pendingWord ++ [g]) = w ++ [g] := by
      rw [solid_append, h5, solid_one (l := [g]) (by simpa using hg2)]
    rw [List.foldl_cons, hstep]
    unfold State.place
    rw [hfull]
    by_cases hm : (a.length + b.length + w.length : Int) ≥ max
    · rw [decide_eq_true hm, if_pos rfl, hg1]
      simp only [Bool.false_and, Bool.false_eq_true, if_false]
      have hdrop : dropFront s.pendingWhitespace (Max.max 0 (max - s.lineWidth)) s.whitespaceWidth = ([], 0) := by
        rw [h4, h6, h7]
        match b, hb, hb1, hfit with
        | [], _, _, _ => rfl
        | [x], hb, _, hfit =>
          have hx := hb x (by simp)
          simp only [List.length_cons, List.length_nil] at hfit ⊢
          unfold dropFront
          rw [if_neg (by rw [hx]; omega), hx]
          rfl
      have hr : ((s.emit max).push g).Reads (done ++ [a]) [] [] (w ++ [g]) := by
        unfold State.push State.emit
        rw [hg1, hdrop]
        refine ⟨by simp [h1, h2], solid_cleared _, fun _ => rfl, rfl, hsw, rfl, rfl, ?_⟩
        simp [h8, hg2]
      obtain ⟨r1, r2⟩ := ih (w ++ [g]) (done ++ [a]) [] [] _ hr (by simp) (by simp) hgs (by simp; omega) (by simp; omega)
        (fun _ => by unfold State.push; rw [hg1]; rfl)
      refine ⟨r1, ?_⟩
      rw [if_neg (by simp only [List.length_cons]; push_cast; omega)]
      rw [if_pos (by simp; omega), List.append_assoc] at r2
      exact r2
    · rw [decide_eq_false hm, if_neg (by simp)]
      have hr : (s.push g).Reads done a b (w ++ [g]) := by
        unfold State.push
        rw [hg1]
        exact ⟨h1, h2, h3, h4, hsw, h6, h7, by simp [h8, hg2]⟩
      obtain ⟨r1, r2⟩ := ih (w ++ [g]) done a b _ hr hb hb1 hgs (by simp; omega) (by simp; omega)
        (fun _ => by unfold State.push; rw [hg1]; rfl)
      refine ⟨r1, ?_⟩
      rw [List.append_assoc] at r2
      have : (((w ++ [g]).length : Int) + todo.length) = w.length + ((g :: todo).length : Int) := by
        simp only [List.length_append, List.length_cons, List.length_nil]; push_cast; omega
      rw [this] at r2
      exact r2

/-- Reading the blank behind a word. -/
theorem reads_blank {max : Int} (trim : Bool) {done : List (List StyledGrapheme)} {a b w : List StyledGrapheme} {s : State}
    (h : s.Reads done a b w) (hn : s.nonWhitespacePrevious = true) (hb : ∀ g ∈ b, g.g.width = 1) (hw : w ≠ [])
    (hfit : (a.length + b.length + w.length : Int) ≤ max)
    {g : StyledGrapheme} (hg : g.g.isWhitespace = true) (hg1 : g.g.width = 1) :
    if (a.length + b.length + w.length : Int) < max then (State.step max trim s g).Reads done (a ++ b ++ w) [g] []
    else (State.step max trim s g).Reads (done ++ [a ++ b ++ w]) [] [] [] := by
  obtain ⟨h1, h2, h3, h4, h5, h6, h7, h8⟩ := h
  have hwl : 1 ≤ w.length := List.length_pos_iff.2 hw
  have hends : s.ends max trim g = true := by
    unfold State.ends
    rw [hn, hg]; rfl
  have hflush : (s.flush trim).Reads done (a ++ b ++ w) [] [] := by
    unfold State.flush
    have hlen : ((a ++ b ++ w).length : Int) = a.length + b.length + w.length := by
      simp only [List.length_append]; push_cast; omega
    by_cases hk : (!s.pendingLine.isEmpty || !trim) = true
    · simp only [hk, if_true]
      refine ⟨h1, ?_, fun _ => rfl, rfl, solid_cleared _, ?_, rfl, rfl⟩
      · simp only [solid_append, h2, h4, h5, solid_one hb]
      · simp only [h6, h7, h8, hlen]
    · simp only [hk]
      have hp : s.pendingLine = [] := by
        cases hq : s.pendingLine with
        | nil => rfl
        | cons x l => simp [hq] at hk
      have hb0 := h3 hp
      subst hb0
      refine ⟨h1, ?_, fun _ => rfl, rfl, solid_cleared _, ?_, rfl, rfl⟩
      · simp only [Bool.false_eq_true, if_false, solid_append, h2, h5, List.append_nil]
      · simp only [Bool.false_eq_true, if_false, h6, h8, hlen, List.length_nil]; omega
  have hne : (s.flush trim).pendingLine ≠ [] := by
    intro e
    have := hflush.line
    rw [e] at this
    have : (a ++ b ++ w).length = 0 := by rw [← this]; rfl
    simp at this
    exact hw this.2.2
  have hstep : State.step max trim s g = State.place max g (s.flush trim) := by
    unfold State.step
    rw [if_neg (by rw [hg1]; omega), hends]
    rfl
  rw [hstep]
  generalize s.flush trim = s at *
  obtain ⟨k1, k2, k3, k4, k5, k6, k7, k8⟩ := hflush
  simp only [List.length_append, Nat.cast_add, List.length_nil, Nat.cast_zero] at k6 k7 k8
  have hfull : s.full max g = decide ((a.length + b.length + w.length : Int) ≥ max) := by
    unfold State.full
    rw [hg1, k6, k7, k8]
    simp
  unfold State.place
  rw [hfull]
  by_cases hm : (a.length + b.length + w.length : Int) < max
  · rw [if_pos hm, decide_eq_false (by omega), if_neg (by simp)]
    unfold State.push
    rw [hg]
    refine ⟨k1, k2, fun e => absurd e hne, by simp [k4], k5, ?_, ?_, k8⟩
    · simp only [k6, List.length_append]; push_cast; omega
    · simp [k7, hg1]
  · rw [if_neg hm, decide_eq_true (by omega), if_pos rfl, hg]
    have hdrop : dropFront s.pendingWhitespace (Max.max 0 (max - s.lineWidth)) s.whitespaceWidth = ([], 0) := by
      rw [k4, k7]; rfl
    have he : (s.emit max).pendingWhitespace = [] := by unfold State.emit; rw [hdrop]
    simp only [he, List.isEmpty_nil, Bool.true_and, if_true]
    unfold State.emit
    rw [hdrop]
    exact ⟨by simp [k1, k2], solid_cleared _, fun _ => rfl, rfl, k5, rfl, rfl, k8⟩

/-- Reading the other words of a line. -/
theorem reads_rest {max : Int} (trim : Bool) : ∀ (rest : List (StyledGrapheme × List StyledGrapheme))
    (done : List (List StyledGrapheme)) (a b w : List StyledGrapheme) (s : State),
    s.Reads done a b w → s.nonWhitespacePrevious = true → (∀ g ∈ b, g.g.width = 1) → w ≠ [] →
    (a.length + b.length + w.length : Int) ≤ max →
    (∀ p ∈ rest, p.1.g.isWhitespace = true ∧ p.1.g.width = 1 ∧ FitsRow max p.2) →
    ∃ done' a' b' w', ((rest.flatMap fun p => p.1 :: p.2).foldl (State.step max trim) s).Reads done' a' b' w' ∧
      (∀ g ∈ b', g.g.width = 1) ∧ w' ≠ [] ∧ done' ++ [a' ++ b' ++ w'] = done ++ fillRows max (a ++ b ++ w) rest := by
  intro rest
  induction rest with
  | nil =>
    intro done a b w s h _ hb hw _ _
    exact ⟨done, a, b, w, h, hb, hw, rfl⟩
  | cons p rest ih =>
    obtain ⟨g, v⟩ := p
    intro done a b w s h hn hb hw hfit hrest
    obtain ⟨hg, hg1, hv⟩ := hrest (g, v) (List.mem_cons_self ..)
    have hrest' := fun p hp => hrest p (List.mem_cons_of_mem _ hp)
    simp only at hg hg1 hv
    obtain ⟨v1, v2, v3⟩ := hv
    have hblank := reads_blank trim h hn hb hw hfit hg hg1
    have hlen : ((a ++ b ++ w).length : Int) = a.length + b.length + w.length := by
      simp only [List.length_append]; push_cast; omega
    rw [List.flatMap_cons, List.foldl_append, List.foldl_cons]
    by_cases hm : (a.length + b.length + w.length : Int) < max
    · rw [if_pos hm] at hblank
      obtain ⟨r1, r2⟩ := reads_word (max := max) trim v [] done (a ++ b ++ w) [g] _ hblank (by simpa using hg1) (by simp) v2
        (by simpa using v3) (by simp; omega) (fun e => absurd e v1)
      simp only [List.nil_append] at r2
      by_cases hq : ((a ++ b ++ w).length + 1 + v.length : Int) ≤ max
      · rw [if_pos (by simp only [List.length_cons, List.length_nil]; push_cast; omega)] at r2
        obtain ⟨d', a', b', w', q1, q2, q3, q4⟩ := ih done (a ++ b ++ w) [g] v _ r2 r1 (by simpa using hg1) v1
          (by simp only [List.length_cons, List.length_nil]; push_cast; omega) hrest'
        refine ⟨d', a', b', w', q1, q2, q3, ?_⟩
        rw [q4, fillRows, if_pos hq, List.append_assoc (a ++ b ++ w), List.singleton_append]
      · rw [if_neg (by simp only [List.length_cons, List.length_nil]; push_cast; omega)] at r2
        obtain ⟨d', a', b', w', q1, q2, q3, q4⟩ := ih (done ++ [a ++ b ++ w]) [] [] v _ r2 r1 (by simp) v1 (by simpa using v3) hrest'
        refine ⟨d', a', b', w', q1, q2, q3, ?_⟩
        rw [q4, fillRows, if_neg hq]
        simp
    · rw [if_neg hm] at hblank
      obtain ⟨r1, r2⟩ := reads_word (max := max) trim v [] (done ++ [a ++ b ++ w]) [] [] _ hblank (by simp) (by simp) v2
        (by simpa using v3) (by simp; omega) (fun e => absurd e v1)
      rw [if_pos (by simpa using v3)] at r2
      simp only [List.nil_append] at r2
      obtain ⟨d', a', b', w', q1, q2, q3, q4⟩ := ih (done ++ [a ++ b ++ w]) [] [] v _ r2 r1 (by simp) v1 (by simpa using v3) hrest'
      refine ⟨d', a', b', w', q1, q2, q3, ?_⟩
      rw [q4, fillRows, if_neg (by rw [hlen]; omega)]
      simp

/-- The rows of a line of words. -/
theorem processInput_rows (w : WordWrapper) (hq : w.wrappedLines = []) (hmax : 0 < w.maxLineWidth) (l : Option Words)
    (hl : ∀ v ∈ l, v.Fit w.maxLineWidth) :
    (w.processInput (lineText l)).wrappedLines.map solid = lineRows w.maxLineWidth l := by
  have hstart : w.start.Reads [] [] [] [] := by
    refine ⟨by simp [WordWrapper.start, hq], solid_cleared _, fun _ => rfl, rfl, solid_cleared _, rfl, rfl, rfl⟩
  have hfin : ∀ (s : State) done a b v, s.Reads done a b v → (∀ g ∈ b, g.g.width = 1) → v ≠ [] →
      (s.finish w.trim).1.map solid = done ++ [a ++ b ++ v] := by
    intro s done a b v h hb hv
    obtain ⟨h1, h2, h3, h4, h5, h6, h7, h8⟩ := h
    have hword : s.pendingWord ≠ [] := by
      intro e
      rw [e] at h5
      exact hv h5.symm
    unfold State.finish
    have e1 : (s.pendingLine.isEmpty && s.pendingWord.isEmpty && !s.pendingWhitespace.isEmpty) = false := by
      simp [hword]
    have e2 : (((if (!s.pendingLine.isEmpty || !w.trim) = true then s.pendingLine ++ s.pendingWhitespace else s.pendingLine) ++
      s.pendingWord).isEmpty) = false := by simp [hword]
    have e3 : solid ((if (!s.pendingLine.isEmpty || !w.trim) = true then s.pendingLine ++ s.pendingWhitespace else s.pendingLine) ++
      s.pendingWord) = a ++ b ++ v := by
      split_ifs with hk
      · simp only [solid_append, h2, h4, h5, solid_one hb]
      · have hp : s.pendingLine = [] := by
          cases hq : s.pendingLine with
          | nil => rfl
          | cons x l => simp [hq] at hk
        rw [solid_append, h2, h5, h3 hp, List.append_nil]
    simp only [e1, e2, Bool.false_eq_true, if_false]
    rw [if_neg (by simp), List.map_append, h1, List.map_singleton, e3]
  cases l with
  | none =>
    show ((([] : List StyledGrapheme).foldl (State.step w.maxLineWidth w.trim) w.start).finish w.trim).1.map solid = [[]]
    obtain ⟨h1, h2, h3, h4, h5, h6, h7, h8⟩ := hstart
    simp only [List.foldl_nil]
    generalize w.start = s at *
    have hq' : s.queue = [] := by simpa using h1
    unfold State.finish
    rw [h4, hq']
    simp only [List.isEmpty_nil, Bool.not_true, Bool.and_false, Bool.false_eq_true, if_false, List.append_nil, ite_self,
      List.nil_append]
    by_cases he : (s.pendingLine ++ s.pendingWord).isEmpty = true
    · simp only [he, if_true, List.isEmpty_nil, List.map_singleton]
      rfl
    · simp only [he]
      simp [solid_append, h2, h5]
  | some v =>
    obtain ⟨⟨f1, f2, f3⟩, hr⟩ := hl v rfl
    show (((v.first ++ _).foldl (State.step w.maxLineWidth w.trim) w.start).finish w.trim).1.map solid = _
    rw [List.foldl_append]
    obtain ⟨r1, r2⟩ := reads_word (max := w.maxLineWidth) w.trim v.first [] [] [] [] _ hstart (by simp) (by simp) f2
      (by simpa using f3) (by simp; omega) (fun e => absurd e f1)
    rw [if_pos (by simpa using f3)] at r2
    obtain ⟨d', a', b', w', q1, q2, q3, q4⟩ := reads_rest w.trim v.rest [] [] [] ([] ++ v.first) _ r2 r1 (by simp)
      (by simpa using f1) (by simpa using f3) hr
    rw [hfin _ d' a' b' w' q1 q2 q3, q4]
    rfl

end Bento
