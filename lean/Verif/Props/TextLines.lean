import Verif.Spec.TextLines
import Verif.Lemmas.Scan

/-!
# Splitting any text into lines

Property C31, for texts with carriage returns, with a newline at the end, and with lines of any length.
-/

namespace Bento

theorem dropCR_withoutReturn (l : List Char) : dropCR l = withoutReturn l := by
  unfold dropCR withoutReturn
  rcases List.eq_nil_or_concat l with rfl | ⟨r, c, rfl⟩
  · rfl
  · simp only [List.getLast?_concat, Option.some.injEq, List.dropLast_concat, List.reverse_append, List.reverse_cons,
      List.reverse_nil, List.nil_append, List.cons_append, List.concat_eq_append]
    by_cases h : c = '\r'
    · subst h; simp
    · rw [if_neg (by simpa using h)]
      split
      · rename_i heq; exact absurd (List.cons.inj heq).1 h
      · rfl

/-- The lines of a text, one character after the other. -/
def pieces : List Char → List (List Char)
  | [] => []
  | c :: cs => if c = '\n' then [] :: pieces cs else match pieces cs with
    | [] => [[c]]
    | l :: ls => (c :: l) :: ls

theorem pieces_while (c : Char) (cs : List Char) : pieces (c :: cs) = (c :: cs).takeWhile (· ≠ '\n') ::
    (match (c :: cs).dropWhile (· ≠ '\n') with | [] => [] | _ :: rest => pieces rest) := by
  induction cs generalizing c with
  | nil =>
    by_cases h : c = '\n'
    · subst h; rfl
    · simp [pieces, h]
  | cons d cs ih =>
    by_cases h : c = '\n'
    · subst h; simp [pieces]
    · rw [pieces, if_neg h, ih d]
      simp [h]

theorem scanLines_pieces : ∀ (n : Nat) (cs : List Char), cs.length < n →
    scanLines n cs = ((pieces cs).takeWhile fun l => byteSize l < 65536).map dropCR := by
  intro n
  induction n with
  | zero => intro cs h; omega
  | succ n ih =>
    intro cs hlen
    rcases cs with _ | ⟨c, cs⟩
    · rfl
    rw [pieces_while]
    unfold scanLines
    simp only
    have hsplit := List.takeWhile_append_dropWhile (p := fun x => decide (x ≠ '\n')) (l := c :: cs)
    generalize hl : (c :: cs).takeWhile (· ≠ '\n') = line at *
    generalize hd : (c :: cs).dropWhile (· ≠ '\n') = d at *
    by_cases hb : byteSize line ≥ maxToken
    · rw [if_pos hb, List.takeWhile_cons_of_neg]
      · rfl
      · simpa [maxToken] using hb
    · rw [if_neg hb, List.takeWhile_cons_of_pos (by simpa [maxToken] using hb)]
      rcases d with _ | ⟨x, rest⟩
      · rfl
      · simp only [List.map_cons]
        rw [ih rest]
        have := congrArg List.length hsplit
        simp only [List.length_append, List.length_cons] at this hlen
        omega

theorem pieces_lines (cs : List Char) : LinesOf cs (pieces cs) := by
  induction cs with
  | nil => exact ⟨by simp [pieces], .inl rfl⟩
  | cons c cs ih =>
    obtain ⟨hn, hj⟩ := ih
    rw [pieces]
    by_cases h : c = '\n'
    · subst h
      rw [if_pos rfl]
      refine ⟨fun l hl => ?_, ?_⟩
      · rcases List.mem_cons.1 hl with rfl | hl
        · simp
        · exact hn l hl
      · rcases hj with hj | ⟨h0, hl, hj⟩
        · exact .inl (by simp [hj])
        · refine .inr ⟨by simp, ?_, by simp [hj]⟩
          rw [List.getLast?_cons]
          cases hg : cs.getLast? with
          | none => exact absurd (List.getLast?_eq_none_iff.1 hg) h0
          | some x => rw [hg] at hl; simpa using hl
    · rw [if_neg h]
      cases hp : pieces cs with
      | nil =>
        have h0 : cs = [] := by
          rcases hj with hj | ⟨h0, hl, hj⟩
          · rw [hp] at hj; exact hj.symm
          · rw [hp] at hj; simp at hj
        subst h0
        exact ⟨by simpa using Ne.symm h, .inr ⟨by simp, by simpa using h, by simp⟩⟩
      | cons l ls =>
        rw [hp] at hn hj
        refine ⟨fun l' hl => ?_, ?_⟩
        · rcases List.mem_cons.1 hl with rfl | hl
          · simpa using ⟨Ne.symm h, hn l (by simp)⟩
          · exact hn l' (by simp [hl])
        · rcases hj with hj | ⟨h0, hl, hj⟩
          · exact .inl (by simpa using hj)
          · refine .inr ⟨by simp, ?_, by simpa using hj⟩
            rw [List.getLast?_cons]
            cases hg : cs.getLast? with
            | none => exact absurd (List.getLast?_eq_none_iff.1 hg) h0
            | some x => rw [hg] at hl; simpa using hl

theorem lines_unique {cs : List Char} {ls ls' : List (List Char)} (h : LinesOf cs ls) (h' : LinesOf cs ls') : ls = ls' := by
  have key : ∀ ls ls' : List (List Char), (∀ l ∈ ls, '\n' ∉ l) → (∀ l ∈ ls', '\n' ∉ l) →
      ls.flatMap (· ++ ['\n']) = ls'.flatMap (· ++ ['\n']) → ls = ls' := by
    intro ls
    induction ls with
    | nil =>
      intro ls' _ _ h
      cases ls' with
      | nil => rfl
      | cons l' ls' => simp at h
    | cons l ls ih =>
      intro ls' hn hn' h
      cases ls' with
      | nil => simp at h
      | cons l' ls' =>
        simp only [List.flatMap_cons, List.append_assoc, List.cons_append, List.nil_append] at h
        have e : l = l' := by
          have h1 := congrArg (List.takeWhile (· ≠ '\n')) h
          rw [List.takeWhile_append_of_pos (fun x hx => by
            simp only [decide_eq_true_eq]; rintro rfl; exact hn l (by simp) hx), List.takeWhile_append_of_pos
            (fun x hx => by simp only [decide_eq_true_eq]; rintro rfl; exact hn' l' (by simp) hx)] at h1
          simpa using h1
        subst e
        rw [ih ls' (fun x hx => hn x (by simp [hx])) (fun x hx => hn' x (by simp [hx])) (by simpa using h)]
  have hlast : ∀ ls : List (List Char), ls.flatMap (· ++ ['\n']) = [] ∨ (ls.flatMap (· ++ ['\n'])).getLast? = some '\n' := by
    intro ls
    rcases List.eq_nil_or_concat ls with rfl | ⟨r, l, rfl⟩
    · exact .inl rfl
    · right; simp
  refine key _ _ h.1 h'.1 ?_
  rcases h.2 with a | ⟨h0, hl, a⟩ <;> rcases h'.2 with a' | ⟨h0', hl', a'⟩
  · rw [a, a']
  · rcases hlast ls with e | e <;> rw [a] at e
    · exact absurd e h0'
    · exact absurd e hl'
  · rcases hlast ls' with e | e <;> rw [a'] at e
    · exact absurd e h0
    · exact absurd e hl
  · rw [a, a']

theorem byteSize_withoutReturn (l : List Char) : byteSize (withoutReturn l) ≤ byteSize l := by
  rw [← dropCR_withoutReturn]
  unfold dropCR
  split
  · rcases List.eq_nil_or_concat l with rfl | ⟨r, c, rfl⟩
    · exact Nat.le_refl _
    · simp [byteSize]
  · exact Nat.le_refl _

theorem withoutReturn_subset (l : List Char) : ∀ c ∈ withoutReturn l, c ∈ l := by
  rw [← dropCR_withoutReturn]
  unfold dropCR
  split
  · exact fun c h => List.dropLast_subset _ h
  · exact fun c h => h

theorem newLineStr_exact (l : List Char) (h : '\n' ∉ l) (hs : byteSize l < 65536) :
    (newLineStr l).string.toList = withoutReturn l := by
  unfold newLineStr Line.string Line.new
  simp only
  rcases l with _ | ⟨c, cs⟩
  · decide +kernel
  · unfold scanLines
    simp only
    obtain ⟨h1, h2⟩ := while_none h
    rw [h1, h2, if_neg (by unfold maxToken; omega), dropCR_withoutReturn]
    simp [Span.new, String.join]

/-- **C31.** What becomes of any text at all: its lines up to the first of 64 KiB or more, each without up to two
carriage returns at its end (`NewLinesStr` and `NewLineStr` drop one each). An empty text has one empty line. -/
theorem C31_exact_partial (cs : List Char) : ∃ ls, LinesOf cs ls ∧ (∀ ls', LinesOf cs ls' → ls' = ls) ∧
    (newTextStr cs).lines.map (fun l => l.string.toList) =
      if cs = [] then [[]]
      else (ls.takeWhile fun l => byteSize l < 65536).map fun l => withoutReturn (withoutReturn l) := by
  refine ⟨pieces cs, pieces_lines cs, fun ls' h => lines_unique h (pieces_lines cs), ?_⟩
  unfold newTextStr newLinesStr
  simp only
  by_cases h0 : cs = []
  · rw [if_pos h0, if_pos h0]; decide +kernel
  · rw [if_neg h0, if_neg h0, scanLines_pieces _ _ (by omega), List.map_map, List.map_map]
    refine List.map_congr_left fun l hl => ?_
    have hb := List.all_eq_true.1 (List.all_takeWhile (p := fun l => decide (byteSize l < 65536))) l hl
    simp only [decide_eq_true_eq] at hb
    have hm := (List.takeWhile_prefix _).subset hl
    simp only [Function.comp]
    rw [dropCR_withoutReturn]
    exact newLineStr_exact _ (fun h => (pieces_lines cs).1 l hm (withoutReturn_subset l _ h))
      (lt_of_le_of_lt (byteSize_withoutReturn l) hb)

example : LinesOf "a\r\n\nb\r\r\n".toList ["a\r".toList, [], "b\r\r".toList] ∧
    (newTextStr "a\r\n\nb\r\r\n".toList).lines.map (fun l => l.string) = ["a", "", "b"] := by
  unfold LinesOf
  decide +kernel

/-- The length that a line may have is counted in bytes of UTF-8. -/
theorem C31_bytes (l : List Char) : byteSize l = (String.ofList l).utf8ByteSize := by
  induction l with
  | nil => rfl
  | cons c cs ih =>
    have e : String.ofList (c :: cs) = String.ofList [c] ++ String.ofList cs := by
      rw [← String.ofList_append]; rfl
    rw [e, String.utf8ByteSize_append, ← ih]
    have : (String.ofList [c]).utf8ByteSize = c.utf8Size := by
      rw [← String.singleton_eq_ofList]
      simp
    rw [this]
    simp [byteSize]

example : byteSize "aé漢".toList = 6 := by decide +kernel

end Bento
