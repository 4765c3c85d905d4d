import Verif.Lemmas.Words

/-!
# The width of rows with wide graphemes

With graphemes of up to `k` columns, rows can be up to `k - 1` columns wider than they should be.
-/

namespace Bento

namespace Wrap

theorem fits_emit_wide {max bound : Int} {s : State} (h : s.Fits bound) : (s.emit max).Fits bound := by
  obtain ⟨h1, h2, h3, h4, h5, h6⟩ := h
  have h7 := columns_nonneg s.pendingLine
  have h8 := columns_nonneg s.pendingWhitespace
  have h9 := columns_nonneg s.pendingWord
  refine ⟨?_, h2, ?_, ?_, ?_, h6⟩
  · simp only [State.emit, columns_cleared]
  · simp only [State.emit]
    exact dropFront_columns _ _ _ h3
  · intro l hl
    simp only [State.emit, List.mem_append, List.mem_singleton] at hl
    rcases hl with hl | rfl
    · exact h4 l hl
    · omega
  · simp only [State.emit]
    have := dropFront_le s.pendingWhitespace (Max.max 0 (max - s.lineWidth)) s.whitespaceWidth
    omega

theorem fits_place_wide {max k : Int} {s : State} (g : StyledGrapheme) (h : s.Fits (max + k - 1))
    (hk : 1 ≤ k) (hkm : k ≤ max) (hg : (g.g.width : Int) ≤ k) (hs : AtMostSingle s.pendingWhitespace)
    (hw : g.g.isWhitespace = true → s.wordWidth = 0)
    (hrun : g.g.isWhitespace = false → s.wordWidth + g.g.width ≤ max) :
    (s.place max g).Fits (max + k - 1) ∧
      (s.place max g).wordWidth = (if g.g.isWhitespace then 0 else s.wordWidth + g.g.width) := by
  have hres : ∀ t : State, t.wordWidth = s.wordWidth →
      (t.push g).wordWidth = (if g.g.isWhitespace then 0 else s.wordWidth + g.g.width) := by
    intro t ht
    rw [push_wordWidth, ht]
    by_cases hx : g.g.isWhitespace = true
    · simp [hx, hw hx]
    · simp [hx]
  have h1 := columns_nonneg s.pendingLine
  have h2 := columns_nonneg s.pendingWhitespace
  have h3 := columns_nonneg s.pendingWord
  unfold State.place
  by_cases hfull : s.full max g = true
  · rw [if_pos hfull]
    have he := fits_emit_wide (max := max) h
    simp only
    by_cases hc : (g.g.isWhitespace && (s.emit max).pendingWhitespace.isEmpty) = true
    · rw [if_pos hc]
      simp only [Bool.and_eq_true] at hc
      refine ⟨he, ?_⟩
      rw [if_pos hc.1]
      exact hw hc.1
    · rw [if_neg hc]
      refine ⟨fits_push g he ?_ (fun hx => hw hx), hres _ rfl⟩
      have hz : (s.emit max).lineWidth = 0 := rfl
      have hww : (s.emit max).wordWidth = s.wordWidth := rfl
      rw [hz, hww]
      rcases dropFront_full s.pendingWhitespace (Max.max 0 (max - s.lineWidth)) s.whitespaceWidth hs
        (by omega) with e | e
      · have e' : (s.emit max).pendingWhitespace = [] := e
        have hzero : (s.emit max).whitespaceWidth = 0 := by rw [he.white, e']; rfl
        rw [hzero]
        by_cases hx : g.g.isWhitespace = true
        · simp [hx, e'] at hc
        · have := hrun (by simpa using hx)
          omega
      · have e' : (s.emit max).whitespaceWidth = s.whitespaceWidth - Max.max 0 (max - s.lineWidth) := e
        have := columns_nonneg (s.emit max).pendingWhitespace
        have := he.white
        obtain ⟨i1, i2, i3, i4, i5, i6⟩ := h
        omega
  · rw [if_neg hfull]
    refine ⟨fits_push g h ?_ hw, hres _ rfl⟩
    simp only [State.full, Bool.or_eq_true, Bool.and_eq_true, decide_eq_true_eq, not_or, not_and] at hfull
    obtain ⟨i1, i2, i3, i4, i5, i6⟩ := h
    by_cases h0 : g.g.width > 0
    · have := hfull.2 h0
      omega
    · omega

/-- What a prefix of the input line leaves behind. -/
structure State.WideInv (max k : Int) (pre : List StyledGrapheme) (s : State) : Prop where
  fits : s.Fits (max + k - 1)
  single : AtMostSingle s.pendingWhitespace
  run : ∃ before word, pre = before ++ word ∧ (∀ g ∈ word, g.g.isWhitespace = false) ∧
    s.wordWidth ≤ columns word

theorem single_place_wide {s : State} {max : Int} {g : StyledGrapheme} (hg : g.g.isWhitespace = true → g.g.width ≤ 1)
    (hs : AtMostSingle s.pendingWhitespace) : AtMostSingle (s.place max g).pendingWhitespace := by
  have hpush : ∀ t : State, AtMostSingle t.pendingWhitespace → AtMostSingle (t.push g).pendingWhitespace := by
    intro t ht
    unfold State.push
    split
    · rename_i hgw
      intro x hx
      simp only [List.mem_append, List.mem_singleton] at hx
      rcases hx with hx | rfl
      · exact ht _ hx
      · exact hg hgw
    · exact ht
  have hemit : AtMostSingle (s.emit max).pendingWhitespace := fun x hx => hs x (dropFront_sub _ _ _ x hx)
  unfold State.place
  split
  · simp only
    split
    · exact hemit
    · exact hpush _ hemit
  · exact hpush _ hs

theorem wide_step {max k : Int} (trim : Bool) {pre : List StyledGrapheme} {s : State} (g : StyledGrapheme)
    (h : s.WideInv max k pre) (hk : 1 ≤ k) (hkm : k ≤ max) (hg : (g.g.width : Int) ≤ k)
    (hg' : g.g.isWhitespace = true → g.g.width ≤ 1)
    (hfit : ∀ before word, pre ++ [g] = before ++ word → (∀ x ∈ word, x.g.isWhitespace = false) →
      columns word ≤ max) : (s.step max trim g).WideInv max k (pre ++ [g]) := by
  obtain ⟨hf, hs, before, word, e, hword, hle⟩ := h
  unfold State.step
  rw [if_neg (by omega)]
  -- the pending word, flushed or not
  have key : ∀ t : State, t.Fits (max + k - 1) → AtMostSingle t.pendingWhitespace → t.wordWidth ≤ s.wordWidth →
      (g.g.isWhitespace = true → t.wordWidth = 0) → (t.place max g).WideInv max k (pre ++ [g]) := by
    intro t ht hts htw hws
    obtain ⟨hp, hpw⟩ := fits_place_wide g ht hk hkm hg hts hws (fun hx => by
      have := hfit before (word ++ [g]) (by rw [e, List.append_assoc]) (by
        intro x hx'
        simp only [List.mem_append, List.mem_singleton] at hx'
        rcases hx' with hx' | rfl
        · exact hword x hx'
        · exact hx)
      rw [columns_append, columns_cons] at this
      have h0 : columns [] = 0 := rfl
      omega)
    refine ⟨hp, single_place_wide hg' hts, ?_⟩
    by_cases hx : g.g.isWhitespace = true
    · exact ⟨pre ++ [g], [], by simp, by simp, by rw [hpw, if_pos hx]; exact Int.le_refl _⟩
    · refine ⟨before, word ++ [g], by rw [e, List.append_assoc], ?_, ?_⟩
      · intro x hx'
        simp only [List.mem_append, List.mem_singleton] at hx'
        rcases hx' with hx' | rfl
        · exact hword x hx'
        · simpa using hx
      · rw [hpw, if_neg hx, columns_append, columns_cons]
        have h0 : columns [] = 0 := rfl
        omega
  by_cases he : s.ends max trim g = true
  · rw [if_pos he]
    obtain ⟨f1, f2⟩ := fits_flush trim hf
    have hn := columns_nonneg s.pendingWord
    exact key _ f1 (by intro x hx; simp [State.flush] at hx) (by rw [f2, hf.word]; exact hn) (fun _ => f2)
  · rw [if_neg he]
    refine key s hf hs (Int.le_refl _) fun hx => ?_
    have hn := columns_nonneg s.pendingWord
    have hz : ¬ 0 < s.wordWidth := by
      intro hpos
      have := hf.prev hpos
      apply he
      unfold State.ends
      simp [this, hx]
    have := hf.word
    omega

theorem wide_foldl {max k : Int} (trim : Bool) (hk : 1 ≤ k) (hkm : k ≤ max) (l : List StyledGrapheme) :
    ∀ pre (s : State), s.WideInv max k pre → (∀ g ∈ l, (g.g.width : Int) ≤ k) →
      (∀ g ∈ l, g.g.isWhitespace = true → g.g.width ≤ 1) → WordsFit max (pre ++ l) →
      (l.foldl (State.step max trim) s).WideInv max k (pre ++ l) := by
  induction l with
  | nil => intro pre s h _ _ _; simpa using h
  | cons g t ih =>
    intro pre s h hl hl' hf
    rw [List.foldl_cons]
    have := ih (pre ++ [g]) (s.step max trim g)
      (wide_step trim g h hk hkm (hl g (by simp)) (hl' g (by simp)) (fun b w hb hw => hf b w t (by rw [← hb]; simp) hw))
      (fun x hx => hl x (by simp [hx])) (fun x hx => hl' x (by simp [hx])) (by simpa using hf)
    simpa using this

end Wrap

open WordWrapper in
theorem processInput_wide (w : WordWrapper) (gs : List StyledGrapheme) (k : Int) (hk : 1 ≤ k) (hkm : k ≤ w.maxLineWidth)
    (hq : w.wrappedLines = []) (hs : ∀ g ∈ gs, (g.g.width : Int) ≤ k)
    (hs' : ∀ g ∈ gs, g.g.isWhitespace = true → g.g.width ≤ 1) (hf : WordsFit w.maxLineWidth gs) :
    ∀ l ∈ (w.processInput gs).wrappedLines, columns l ≤ w.maxLineWidth + k - 1 := by
  have hstart : w.start.WideInv w.maxLineWidth k [] := by
    refine ⟨⟨?_, ?_, rfl, ?_, ?_, ?_⟩, ?_, [], [], rfl, ?_, Int.le_refl _⟩
    · simp only [start, columns_cleared]
    · simp only [start, columns_cleared]
    · simp [start, hq]
    · simp only [start]; omega
    · simp [start]
    · intro g hg; simp [start] at hg
    · simp
  have := Wrap.wide_foldl w.trim hk hkm gs [] w.start hstart hs hs' hf
  exact Wrap.fits_finish w.trim this.fits (by omega)

end Bento
