import Verif.Model.Text
import Mathlib.Data.List.Basic
import Mathlib.Data.List.Infix

/-!
# Splitting text into lines
-/

namespace Bento

theorem dropCR_eq {l : List Char} (h : '\r' ∉ l) : dropCR l = l := by
  unfold dropCR
  rw [if_neg]
  intro hl
  exact h (List.mem_of_getLast? hl)

theorem takeWhile_no_nl (cs : List Char) : '\n' ∉ cs.takeWhile (· ≠ '\n') := by
  induction cs with
  | nil => simp
  | cons c cs ih =>
    rw [List.takeWhile_cons]
    split_ifs with h
    · simp only [List.mem_cons, not_or]
      exact ⟨fun e => by subst e; simp at h, ih⟩
    · simp

theorem while_none {cs : List Char} (h : '\n' ∉ cs) :
    cs.takeWhile (· ≠ '\n') = cs ∧ cs.dropWhile (· ≠ '\n') = [] := by
  induction cs with
  | nil => simp
  | cons c cs ih =>
    simp only [List.mem_cons, not_or] at h
    obtain ⟨i1, i2⟩ := ih h.2
    have hc : decide (c ≠ '\n') = true := by simpa using fun e => h.1 e.symm
    rw [List.takeWhile_cons, List.dropWhile_cons, if_pos hc, if_pos hc, i1, i2]
    exact ⟨rfl, rfl⟩

theorem dropWhile_head {cs rest : List Char} {c : Char} (h : cs.dropWhile (· ≠ '\n') = c :: rest) :
    c = '\n' := by
  have := List.head?_dropWhile_not (fun x : Char => decide (x ≠ '\n')) cs
  rw [h] at this
  simpa using this

theorem scanLines_join : ∀ (n : Nat) (cs : List Char), cs.length < n → '\r' ∉ cs →
    (∀ w, w <:+: cs → '\n' ∉ w → byteSize w < 65536) → cs ≠ [] → cs.getLast? ≠ some '\n' →
    List.intercalate ['\n'] (scanLines n cs) = cs ∧
      ∀ l ∈ scanLines n cs, '\n' ∉ l ∧ l <:+: cs ∧ '\r' ∉ l := by
  intro n
  induction n with
  | zero => intro cs h; omega
  | succ n ih =>
    intro cs hlen hcr hshort hne hlast
    rcases cs with _ | ⟨c, cs⟩
    · exact absurd rfl hne
    have hsplit := List.takeWhile_append_dropWhile (p := fun x => decide (x ≠ '\n')) (l := c :: cs)
    have hline : (c :: cs).takeWhile (· ≠ '\n') <:+: c :: cs := (List.takeWhile_prefix _).isInfix
    have hnl := takeWhile_no_nl (c :: cs)
    have hcr' : '\r' ∉ (c :: cs).takeWhile (· ≠ '\n') := fun h => hcr (hline.subset h)
    have hs := hshort _ hline hnl
    unfold scanLines
    simp only
    generalize hl : (c :: cs).takeWhile (· ≠ '\n') = line at *
    generalize hd : (c :: cs).dropWhile (· ≠ '\n') = d at *
    rw [if_neg (by unfold maxToken; omega), dropCR_eq hcr']
    rcases d with _ | ⟨x, rest⟩
    · simp only at hsplit ⊢
      rw [List.append_nil] at hsplit
      refine ⟨by rw [← hsplit]; simp [List.intercalate], ?_⟩
      intro l hl
      simp only [List.mem_cons, List.not_mem_nil, or_false] at hl
      subst hl
      exact ⟨hnl, hline, hcr'⟩
    · have hx := dropWhile_head hd
      subst hx
      have hr : rest ≠ [] := by
        rintro rfl
        apply hlast
        rw [← hsplit]; simp
      have hsuf : rest <:+: c :: cs := by
        rw [← hsplit]
        exact ⟨line ++ ['\n'], [], by simp⟩
      obtain ⟨i1, i2⟩ := ih rest (by
          have := congrArg List.length hsplit
          simp only [List.length_append, List.length_cons] at this hlen
          omega) (fun h => hcr (hsuf.subset h)) (fun w hw => hshort w (hw.trans hsuf)) hr (by
          intro h
          apply hlast
          rw [← hsplit, List.getLast?_append, List.getLast?_cons, h]
          simp)
      refine ⟨?_, ?_⟩
      · simp only
        have hne' : scanLines n rest ≠ [] := by
          intro h0
          rw [h0] at i1
          exact hr (by simpa [List.intercalate] using i1.symm)
        obtain ⟨y, ys, hys⟩ := List.exists_cons_of_ne_nil hne'
        rw [hys] at i1 ⊢
        have : List.intercalate ['\n'] (line :: y :: ys) =
            line ++ '\n' :: List.intercalate ['\n'] (y :: ys) := by
          simp [List.intercalate]
        rw [this, i1]
        exact hsplit
      · intro l hl
        simp only at hl
        rcases List.mem_cons.1 hl with rfl | hl
        · exact ⟨hnl, hline, hcr'⟩
        · obtain ⟨j1, j2, j3⟩ := i2 l hl
          exact ⟨j1, j2.trans hsuf, j3⟩

theorem scanLines_count : ∀ (n : Nat) (cs : List Char), cs.length < n →
    (∀ w, w <:+: cs → '\n' ∉ w → byteSize w < 65536) → cs ≠ [] → cs.getLast? ≠ some '\n' →
    (scanLines n cs).length = cs.count '\n' + 1 := by
  intro n
  induction n with
  | zero => intro cs h; omega
  | succ n ih =>
    intro cs hlen hshort hne hlast
    rcases cs with _ | ⟨c, cs⟩
    · exact absurd rfl hne
    have hsplit := List.takeWhile_append_dropWhile (p := fun x => decide (x ≠ '\n')) (l := c :: cs)
    have hline : (c :: cs).takeWhile (· ≠ '\n') <:+: c :: cs := (List.takeWhile_prefix _).isInfix
    have hnl := takeWhile_no_nl (c :: cs)
    have hs := hshort _ hline hnl
    unfold scanLines
    simp only
    generalize hl : (c :: cs).takeWhile (· ≠ '\n') = line at *
    generalize hd : (c :: cs).dropWhile (· ≠ '\n') = d at *
    rw [if_neg (by unfold maxToken; omega)]
    rcases d with _ | ⟨x, rest⟩
    · simp only
      rw [← hsplit, List.append_nil, List.count_eq_zero.2 hnl]
      rfl
    · have hx := dropWhile_head hd
      subst hx
      have hr : rest ≠ [] := by
        rintro rfl
        apply hlast
        rw [← hsplit]; simp
      have hsuf : rest <:+: c :: cs := by
        rw [← hsplit]
        exact ⟨line ++ ['\n'], [], by simp⟩
      have := ih rest (by
          have := congrArg List.length hsplit
          simp only [List.length_append, List.length_cons] at this hlen
          omega) (fun w hw => hshort w (hw.trans hsuf)) hr (by
          intro h
          apply hlast
          rw [← hsplit, List.getLast?_append, List.getLast?_cons, h]
          simp)
      simp only [List.length_cons, this]
      rw [← hsplit, List.count_append, List.count_eq_zero.2 hnl, List.count_cons]
      simp

theorem newLineStr_string (l : List Char) (h : '\n' ∉ l) (hcr : '\r' ∉ l)
    (hshort : byteSize l < 65536) : (newLineStr l).string.toList = l := by
  unfold newLineStr Line.string Line.new
  simp only
  rcases l with _ | ⟨c, cs⟩
  · decide +kernel
  · unfold scanLines
    simp only
    obtain ⟨h1, h2⟩ := while_none h
    rw [h1, h2, if_neg (by unfold maxToken; omega), dropCR_eq hcr]
    simp [Span.new, String.join]

theorem scanLines_long {pre suf : List Char} (n : Nat) (hn : '\n' ∉ pre)
    (h : byteSize pre ≥ 65536) : scanLines n (pre ++ '\n' :: suf) = [] := by
  rcases n with _ | n
  · rfl
  · have ht : (pre ++ '\n' :: suf).takeWhile (· ≠ '\n') = pre := by
      rw [List.takeWhile_append_of_pos]
      · simp
      · intro x hx
        simp only [decide_eq_true_eq]
        rintro rfl; exact hn hx
    rcases hp : pre ++ '\n' :: suf with _ | ⟨c, cs⟩
    · rfl
    · unfold scanLines
      simp only
      rw [← hp, ht, if_pos (by unfold maxToken; omega)]

end Bento
