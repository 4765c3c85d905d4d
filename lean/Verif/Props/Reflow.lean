import Verif.Lemmas.Tight
import Verif.Lemmas.WideRows

/-!
# C35, C64, C69, C116, C117 — word wrapping
-/

namespace Bento

/-! ### Running a composer on examples -/

/-- The rows a composer delivers, if it is done after at most `n`. -/
def takeRows {S : Type} (next : S → Option (WrappedLine × S)) : Nat → S → Option (List WrappedLine)
  | 0, _ => none
  | n + 1, s =>
    match next s with
    | none => some []
    | some (l, s') => (takeRows next n s').map (l :: ·)

theorem takeRows_yields {S : Type} {next : S → Option (WrappedLine × S)} (n : Nat) :
    ∀ s ls, takeRows next n s = some ls → Yields next s ls := by
  induction n with
  | zero => intro s ls h; simp [takeRows] at h
  | succ n ih =>
    intro s ls h
    unfold takeRows at h
    cases e : next s with
    | none =>
      rw [e] at h
      simp only [Option.some.injEq] at h
      subst h
      exact .done e
    | some r =>
      rw [e] at h
      simp only at h
      cases h2 : takeRows next n r.2 with
      | none => rw [h2] at h; simp at h
      | some t =>
        rw [h2] at h
        simp only [Option.map_some, Option.some.injEq] at h
        subst h
        exact .more e (ih _ _ h2)

theorem takeRows_get {S : Type} {next : S → Option (WrappedLine × S)} (n : Nat) (s : S)
    (h : (takeRows next n s).isSome = true) : Yields next s ((takeRows next n s).get h) :=
  takeRows_yields n s _ (Option.some_get h).symm

/-- A text of graphemes for examples. -/
def sampleLine (l : List (String × Nat)) : InputLine := ⟨l.map fun c => ⟨⟨c.1, c.2⟩, Style.new⟩, .left⟩

/-- Single-width graphemes from characters. -/
def sampleText (s : String) : InputLine := sampleLine (s.toList.map fun c => (String.singleton c, 1))

/-! ### C35 -/

/-- Wrapping comes to an end, and every input line, in order, becomes at least one row of its own; its rows
have its alignment, hold graphemes of the line only (apart from cleared ones, which show nothing), and
together hold exactly its visible graphemes (those not wider than a whole row), with their styles, in
order. -/
theorem C35_text_preserved (lines : List InputLine) (max : Int) (trim : Bool) (hmax : max ≠ 0) :
    ∃ groups : List (List WrappedLine),
      Yields WordWrapper.nextLine (WordWrapper.new lines max trim) groups.flatten ∧
      List.Forall₂ (fun l rows => rows ≠ [] ∧ (∀ r ∈ rows, r.alignment = l.alignment) ∧
        (∀ r ∈ rows, ∀ g ∈ r.line, g = StyledGrapheme.zero ∨ g ∈ l.graphemes) ∧
        visible (rows.flatMap WrappedLine.line) =
          visible (l.graphemes.filter fun g => (g.g.width : Int) ≤ max)) lines groups := by
  obtain ⟨ls, h⟩ := WordWrapper.yields_exists _ _ (WordWrapper.new lines max trim) rfl rfl
  obtain ⟨groups, rfl, hg⟩ := WordWrapper.new_groups h hmax
  refine ⟨groups, h, hg.imp fun l rows hr => ?_⟩
  obtain ⟨hne, hv⟩ := hr.visible
  have hm := hr.mem
  obtain ⟨_, _, _, _, _, ha⟩ := hr
  exact ⟨hne, fun r hr => (ha r hr).1, hm, hv⟩

/-- A text that really wraps. -/
example : ∃ ls, Yields WordWrapper.nextLine (WordWrapper.new [sampleText "hello big world"] 6 true) ls ∧
    ls.length = 3 ∧ visible (ls.flatMap WrappedLine.line) = visible (sampleText "hello big world").graphemes :=
  ⟨_, takeRows_get 5 _ (by decide +kernel), by decide +kernel, by decide +kernel⟩

/-- Where lines may break: at graphemes all of whose characters are white space, other than the no-break space, and
at the zero-width space. -/
theorem C35_blanks (g : Grapheme) :
    g.isWhitespace = true ↔
      g.symbol = "\u200b" ∨ ((∀ c ∈ g.symbol.toList, c.toNat ∈ blankCodes) ∧ g.symbol ≠ "\u00a0") := by
  have hr : ∀ c : Char, Grapheme.isSpaceRune c = true ↔ c.toNat ∈ blankCodes := by
    intro c
    unfold Grapheme.isSpaceRune blankCodes
    generalize c.toNat = n
    simp only [Bool.or_eq_true, Bool.and_eq_true, decide_eq_true_eq, beq_iff_eq, List.mem_cons, List.not_mem_nil, or_false]
    omega
  have ha : g.symbol.toList.all Grapheme.isSpaceRune = true ↔ ∀ c ∈ g.symbol.toList, c.toNat ∈ blankCodes := by
    rw [List.all_eq_true]
    exact forall₂_congr fun c _ => hr c
  unfold Grapheme.isWhitespace
  by_cases h1 : g.symbol = "\u200b"
  · simp [h1]
  · simp only [h1, if_false, false_or]
    by_cases h2 : g.symbol.toList.all Grapheme.isSpaceRune = true
    · simp only [h2, if_true, bne_iff_ne]
      exact ⟨fun h => ⟨ha.1 h2, h⟩, fun h => h.2⟩
    · simp only [h2, Bool.false_eq_true, if_false, false_iff, not_and]
      exact fun h => absurd (ha.2 h) h2

example : (⟨" ", 1⟩ : Grapheme).isWhitespace = true ∧ (⟨"\u00a0", 1⟩ : Grapheme).isWhitespace = false ∧
    (⟨"a", 1⟩ : Grapheme).isWhitespace = false ∧ (⟨"\u3000", 2⟩ : Grapheme).isWhitespace = true := by
  decide +kernel

/-- Lines do break at other spaces that are not to be broken at: here at the narrow no-break space. -/
theorem C35_narrow_false :
    ¬ ∀ c : Char, c.toNat ∈ unbreakable → (⟨String.singleton c, 1⟩ : Grapheme).isWhitespace = false := by
  intro h
  have := h '\u202f' (by decide)
  exact absurd this (by decide +kernel)

/-- If no grapheme takes more than one column and no word is wider than a row, every row fits. -/
theorem C35_rows_fit_partial (lines : List InputLine) (max : Int) (trim : Bool) (hmax : 0 < max)
    (hl : ∀ l ∈ lines, AtMostSingle l.graphemes ∧ WordsFit max l.graphemes) (ls : List WrappedLine)
    (h : Yields WordWrapper.nextLine (WordWrapper.new lines max trim) ls) :
    ∀ r ∈ ls, r.width = columns r.line ∧ columns r.line ≤ max := by
  obtain ⟨groups, rfl, hg⟩ := WordWrapper.new_groups h (by omega)
  have : ∀ (lines : List InputLine) (groups : List (List WrappedLine)),
      List.Forall₂ (WordWrapper.RowsOf max trim) lines groups →
      (∀ l ∈ lines, AtMostSingle l.graphemes ∧ WordsFit max l.graphemes) →
      ∀ r ∈ groups.flatten, r.width = columns r.line ∧ columns r.line ≤ max := by
    intro lines groups hg
    induction hg with
    | nil => simp
    | cons hr _ ih =>
      intro hl r hmem
      rw [List.flatten_cons, List.mem_append] at hmem
      rcases hmem with hmem | hmem
      · obtain ⟨a, b⟩ := hl _ (List.mem_cons_self ..)
        refine ⟨?_, hr.fits hmax a b r hmem⟩
        obtain ⟨_, _, _, _, _, ha⟩ := hr
        exact (ha r hmem).2
      · exact ih (fun l hl' => hl l (by simp [hl'])) r hmem
  exact this lines groups hg hl

/-- A text with two words that meets the hypotheses. -/
example : ∃ l : InputLine, AtMostSingle l.graphemes ∧ WordsFit 2 l.graphemes ∧ columns l.graphemes = 5 := by
  refine ⟨sampleText "ab cd", ?_, ?_, by decide +kernel⟩
  · unfold AtMostSingle; decide +kernel
  · intro before word after e hw
    have hlen : before.length + word.length + after.length = 5 := by
      have := congrArg List.length e
      simpa [sampleText, sampleLine, Nat.add_assoc] using this
    have hcol : ∀ w : List StyledGrapheme, (∀ g ∈ w, g.g.width = 1) → columns w = w.length := by
      intro w hw
      induction w with
      | nil => rfl
      | cons a t ih =>
        rw [columns_cons, ih fun g hg => hw g (by simp [hg]), hw a (by simp)]
        simp only [List.length_cons]
        omega
    have hone : ∀ g ∈ (sampleText "ab cd").graphemes, g.g.width = 1 := by decide +kernel
    have hsp : ((sampleText "ab cd").graphemes[2]?.map fun g => g.g.isWhitespace) = some true := by
      decide +kernel
    rw [hcol word fun g hg => hone g (by rw [← e]; simp [hg])]
    -- the blank is not in the word
    by_cases h1 : word.length ≤ 2
    · omega
    exfalso
    have h2 : before.length ≤ 2 := by omega
    rw [← e, List.append_assoc, List.getElem?_append_right h2,
      List.getElem?_append_left (by omega)] at hsp
    rw [Option.map_eq_some_iff] at hsp
    obtain ⟨g, hg, hgw⟩ := hsp
    rw [hw g (List.mem_of_getElem? hg)] at hgw
    exact absurd hgw (by simp)

/-- Without the hypotheses rows can be too wide: a long word after the first wrap is not split, and a wide
grapheme can go over the end of the row. -/
theorem C35_long_word_false :
    ¬ ∀ (lines : List InputLine) (max : Int) (trim : Bool) (ls : List WrappedLine), 0 < max →
      (∀ l ∈ lines, AtMostSingle l.graphemes) →
      Yields WordWrapper.nextLine (WordWrapper.new lines max trim) ls → ∀ r ∈ ls, columns r.line ≤ max := by
  intro h
  have := h [sampleText "aa bbbbbbb"] 3 false _ (by decide) (by unfold AtMostSingle; decide +kernel)
    (takeRows_get 9 _ (by decide +kernel))
  exact absurd this (by decide +kernel)

theorem wideSample_fits : ∀ l ∈ [sampleLine [("x", 1), (" ", 1), ("a", 1), ("世", 2)]], WordsFit 4 l.graphemes := by
  intro l hl before word after e hw
  rw [List.mem_singleton] at hl
  subst hl
  have hsp : ((sampleLine [("x", 1), (" ", 1), ("a", 1), ("世", 2)]).graphemes[1]?.map
    fun g => g.g.isWhitespace) = some true := by decide +kernel
  have hcol : columns before + columns word + columns after = 5 := by
    rw [← columns_append, ← columns_append, e]
    decide +kernel
  have h1 := columns_nonneg before
  have h2 := columns_nonneg after
  by_cases hc : columns word ≤ 4
  · exact hc
  exfalso
  have hb : before = [] := by
    cases before with
    | nil => rfl
    | cons a t =>
      have : a.g.width = 1 := by
        have := congrArg (fun l => l.head?.map fun g => g.g.width) e
        simpa [sampleLine] using this
      rw [columns_cons, this] at hcol
      have := columns_nonneg t
      omega
  subst hb
  have hlen : 2 ≤ word.length := by
    rcases word with _ | ⟨a, _ | ⟨b, t⟩⟩
    · simp [columns] at hc
    · have : a.g.width = 1 := by
        have := congrArg (fun l => l.head?.map fun g => g.g.width) e
        simpa [sampleLine] using this
      rw [columns_cons, this] at hc
      simp [columns] at hc
    · simp
  rw [← e, List.nil_append, List.getElem?_append_left (by omega), Option.map_eq_some_iff] at hsp
  obtain ⟨g, hg, hgw⟩ := hsp
  rw [hw g (List.mem_of_getElem? hg)] at hgw
  exact absurd hgw (by simp)

/-- The wide grapheme: five columns in a row of four. -/
theorem C35_wide_false :
    ¬ ∀ (lines : List InputLine) (max : Int) (trim : Bool) (ls : List WrappedLine), 0 < max →
      (∀ l ∈ lines, WordsFit max l.graphemes) →
      Yields WordWrapper.nextLine (WordWrapper.new lines max trim) ls → ∀ r ∈ ls, columns r.line ≤ max := by
  intro h
  have := h [sampleLine [("x", 1), (" ", 1), ("a", 1), ("世", 2)]] 4 false _ (by decide) wideSample_fits
    (takeRows_get 9 _ (by decide +kernel))
  exact absurd this (by decide +kernel)

/-- How far: if graphemes take at most `k` columns (whitespace one), and no word is wider than a row, no row is more than
`k - 1` columns too wide; so with wide graphemes of two columns, at most one. -/
theorem C35_rows_wide_partial (lines : List InputLine) (max k : Int) (trim : Bool) (hk : 1 ≤ k) (hkm : k ≤ max)
    (hl : ∀ l ∈ lines, (∀ g ∈ l.graphemes, (g.g.width : Int) ≤ k ∧ (g.g.isWhitespace = true → g.g.width ≤ 1)) ∧
      WordsFit max l.graphemes) (ls : List WrappedLine)
    (h : Yields WordWrapper.nextLine (WordWrapper.new lines max trim) ls) :
    ∀ r ∈ ls, columns r.line ≤ max + k - 1 := by
  obtain ⟨groups, rfl, hg⟩ := WordWrapper.new_groups h (by omega)
  clear h
  induction hg with
  | nil => simp
  | @cons l rows _ _ hr _ ih =>
    intro r hmem
    rw [List.flatten_cons, List.mem_append] at hmem
    rcases hmem with hmem | hmem
    · obtain ⟨a, b⟩ := hl l (List.mem_cons_self ..)
      obtain ⟨w, rfl, rfl, hq, e, -⟩ := hr
      refine processInput_wide w l.graphemes k hk hkm hq (fun g hg => (a g hg).1) (fun g hg => (a g hg).2) b r.line ?_
      rw [← e]
      exact List.mem_map_of_mem hmem
    · exact ih (fun l hl' => hl l (by simp [hl'])) r hmem

/-- The line of `C35_wide_false`: rows of up to five columns where four are asked for, so the bound is reached. -/
example : ∃ ls, Yields WordWrapper.nextLine
      (WordWrapper.new [sampleLine [("x", 1), (" ", 1), ("a", 1), ("世", 2)]] 4 false) ls ∧
    (∀ r ∈ ls, columns r.line ≤ 4 + 2 - 1) ∧ ∃ r ∈ ls, columns r.line = 5 := by
  refine ⟨_, takeRows_get 9 _ (by decide +kernel), ?_, by decide +kernel⟩
  exact C35_rows_wide_partial _ 4 2 false (by decide) (by decide)
    (fun l hl => ⟨by rw [List.mem_singleton] at hl; subst hl; decide +kernel, wideSample_fits l hl⟩) _
    (takeRows_get 9 _ (by decide +kernel))

/-! ### C64 -/

/-- The first two input lines, if they fit, come out as the first two rows, without their leading
whitespace and otherwise unchanged. -/
theorem C64_first_lines_partial (l₁ l₂ : InputLine) (rest : List InputLine) (max : Int) (hmax : 0 < max)
    (h₁ : ∀ g ∈ l₁.graphemes, g.g.width = 1) (w₁ : columns l₁.graphemes ≤ max)
    (h₂ : ∀ g ∈ l₂.graphemes, g.g.width = 1) (w₂ : columns l₂.graphemes ≤ max)
    (ls : List WrappedLine)
    (h : Yields WordWrapper.nextLine (WordWrapper.new (l₁ :: l₂ :: rest) max true) ls) :
    ∃ r₁ r₂ tail, ls = r₁ :: r₂ :: tail ∧
      symbols r₁.line = symbols (l₁.graphemes.dropWhile fun g => g.g.isWhitespace) ∧
      symbols r₂.line = symbols (l₂.graphemes.dropWhile fun g => g.g.isWhitespace) := by
  have hnext : ∀ (w : WordWrapper) (l : InputLine) (t : List InputLine), w.maxLineWidth = max →
      w.trim = true → w.wrappedLines = [] → w.pool = [] → w.inputLines = l :: t →
      (∀ g ∈ l.graphemes, g.g.width = 1) → columns l.graphemes ≤ max →
      ∃ r w', w.nextLine = some (r, w') ∧
        symbols r.line = symbols (l.graphemes.dropWhile fun g => g.g.isWhitespace) ∧
        w'.maxLineWidth = max ∧ w'.trim = true ∧ w'.wrappedLines = [] ∧
        (w.currentLine = [] → w'.pool = []) ∧ w'.inputLines = t := by
    intro w l t hm ht hq hp hi hg hw
    obtain ⟨row, e, hs⟩ := WordWrapper.processInput_short { w with currentAlignment := l.alignment } hq
      l.graphemes hg (by rw [← hm] at hw; exact hw) (.inl ht)
    have hs' : symbols row = symbols (Wrap.target (!w.trim || !(w.pool.headD []).isEmpty) l.graphemes) := hs
    rw [ht, hp] at hs'
    rcases WordWrapper.nextLoop_cases w.inputLines w with ⟨c, _⟩ | ⟨_, c, _⟩ | ⟨_, l', t', c, e'⟩
    · exact absurd hq c
    · rw [hi] at c; exact absurd c (by simp)
    · rw [hi] at c
      simp only [List.cons.injEq] at c
      obtain ⟨rfl, rfl⟩ := c
      have hnl : w.nextLine = WordWrapper.nextLoop w.inputLines w := by
        unfold WordWrapper.nextLine
        rw [if_neg (by omega)]
      rw [hnl, e']
      unfold WordWrapper.pop
      rw [e]
      refine ⟨_, _, rfl, hs', hm, ht, rfl, ?_, rfl⟩
      intro hcl
      simp only [WordWrapper.replaceCurrentLine]
      have hc2 : (WordWrapper.processInput { w with currentAlignment := l.alignment } l.graphemes).currentLine
        = w.currentLine := rfl
      rw [hc2, hcl]
      simp only [List.isEmpty_nil, if_true]
      show w.pool.tail = []
      rw [hp]; rfl
  obtain ⟨r₁, w1, e1, s1, m1, t1, q1, p1, i1⟩ := hnext (WordWrapper.new (l₁ :: l₂ :: rest) max true) l₁
    (l₂ :: rest) rfl rfl rfl rfl rfl h₁ w₁
  obtain ⟨r₂, w2, e2, s2, -⟩ := hnext w1 l₂ rest m1 t1 q1 (p1 rfl) i1 h₂ w₂
  cases h with
  | done e => rw [e1] at e; exact absurd e (by simp)
  | more e hy =>
    rw [e1] at e
    simp only [Option.some.injEq, Prod.mk.injEq] at e
    obtain ⟨rfl, rfl⟩ := e
    cases hy with
    | done e => rw [e2] at e; exact absurd e (by simp)
    | more e hy =>
      rw [e2] at e
      simp only [Option.some.injEq, Prod.mk.injEq] at e
      obtain ⟨rfl, rfl⟩ := e
      exact ⟨_, _, _, rfl, s1, s2⟩

/-- Two lines with leading blanks. -/
example : (∀ g ∈ (sampleText "  ab").graphemes, g.g.width = 1) ∧ columns (sampleText "  ab").graphemes ≤ 10 ∧
    symbols ((sampleText "  ab").graphemes.dropWhile fun g => g.g.isWhitespace) =
      (sampleText "ab").graphemes := by decide +kernel

/-- From the third line on the leading whitespace stays. -/
theorem C64_third_line_false :
    ¬ ∀ (lines : List InputLine) (max : Int) (ls : List WrappedLine), 0 < max →
      (∀ l ∈ lines, (∀ g ∈ l.graphemes, g.g.width = 1) ∧ columns l.graphemes ≤ max) →
      Yields WordWrapper.nextLine (WordWrapper.new lines max true) ls →
      ls.map (fun r => symbols r.line) =
        lines.map fun l => symbols (l.graphemes.dropWhile fun g => g.g.isWhitespace) := by
  intro h
  have := h [sampleText "  a", sampleText "  b", sampleText "  c"] 10 _ (by decide) (by decide +kernel)
    (takeRows_get 9 _ (by decide +kernel))
  exact absurd this (by decide +kernel)

/-! ### C69 -/

/-- Without trimming, lines that fit come out as they are: one row each, in order, with their
alignment. (Lines of whitespace only are left out.) -/
theorem C69_fitting_lines_partial (lines : List InputLine) (max : Int) (hmax : 0 < max)
    (hl : ∀ l ∈ lines, (∀ g ∈ l.graphemes, g.g.width = 1) ∧ columns l.graphemes ≤ max ∧
      (l.graphemes = [] ∨ ∃ g ∈ l.graphemes, g.g.isWhitespace = false))
    (ls : List WrappedLine) (h : Yields WordWrapper.nextLine (WordWrapper.new lines max false) ls) :
    ls.map (fun r => (symbols r.line, r.alignment)) =
        lines.map (fun l => (symbols l.graphemes, l.alignment)) ∧
      ∀ r ∈ ls, ∀ g ∈ r.line, g = StyledGrapheme.zero ∨ ∃ l ∈ lines, g ∈ l.graphemes := by
  obtain ⟨groups, rfl, hg⟩ := WordWrapper.new_groups h (by omega)
  clear h
  induction hg with
  | nil => simp
  | @cons l rows ls gs hr _ ih =>
    obtain ⟨ih1, ih2⟩ := ih fun x hx => hl x (by simp [hx])
    refine ⟨?_, ?_⟩
    · rw [List.flatten_cons, List.map_append, List.map_cons, ih1]
      obtain ⟨w, hm, ht, hq, e, ha⟩ := hr
      obtain ⟨a, b, c⟩ := hl l (by simp)
      obtain ⟨row, e2, hs⟩ := WordWrapper.processInput_short w hq l.graphemes a (by rw [hm]; exact b) (.inr c)
      rw [e2] at e
      rw [ht] at hs
      match rows, e with
      | [r], e =>
        simp only [List.map_cons, List.map_nil, List.cons.injEq, and_true] at e
        rw [← e] at hs
        simp only [List.map_cons, List.map_nil, List.cons_append, List.nil_append, List.cons.injEq, and_true,
          Prod.mk.injEq]
        exact ⟨hs, (ha r (by simp)).1⟩
    · intro r hmem g hg
      rw [List.flatten_cons, List.mem_append] at hmem
      rcases hmem with hmem | hmem
      · rcases hr.mem r hmem g hg with h | h
        · exact .inl h
        · exact .inr ⟨l, by simp, h⟩
      · rcases ih2 r hmem g hg with h | ⟨x, hx, h⟩
        · exact .inl h
        · exact .inr ⟨x, by simp [hx], h⟩

example : ∀ l ∈ [sampleText "a b", sampleText "", sampleText "  c"],
    (∀ g ∈ l.graphemes, g.g.width = 1) ∧ columns l.graphemes ≤ 5 ∧
      (l.graphemes = [] ∨ ∃ g ∈ l.graphemes, g.g.isWhitespace = false) := by
  decide +kernel

/-- A line of whitespace takes two rows. -/
theorem C69_whitespace_line_false :
    ¬ ∀ (lines : List InputLine) (max : Int) (ls : List WrappedLine), 0 < max →
      (∀ l ∈ lines, (∀ g ∈ l.graphemes, g.g.width = 1) ∧ columns l.graphemes ≤ max) →
      Yields WordWrapper.nextLine (WordWrapper.new lines max false) ls → ls.length = lines.length := by
  intro h
  have := h [sampleText "  "] 10 _ (by decide) (by decide +kernel) (takeRows_get 9 _ (by decide +kernel))
  exact absurd this (by decide +kernel)

/-! ### C116 -/

/-- A word that is no wider than a row is not broken: it is on one row, behind the visible graphemes that are before it
in its line, and before those that are after it. Without trimming this needs another word before it in the line, or
room for it behind the whitespace that the line begins with. -/
theorem C116_words_partial (lines : List InputLine) (max : Int) (trim : Bool) (hmax : 0 < max) :
    ∃ groups : List (List WrappedLine),
      Yields WordWrapper.nextLine (WordWrapper.new lines max trim) groups.flatten ∧
      List.Forall₂ (fun l rows => ∀ before word after,
        IsWord (l.graphemes.filter fun g => (g.g.width : Int) ≤ max) before word after → columns word ≤ max →
        (trim = true ∨ (∃ g ∈ before, g.g.isWhitespace = false) ∨ columns before + columns word ≤ max) →
        OnOneRow (rows.map WrappedLine.line) before word after) lines groups := by
  obtain ⟨ls, h⟩ := WordWrapper.yields_exists _ _ (WordWrapper.new lines max trim) rfl rfl
  obtain ⟨groups, rfl, hg⟩ := WordWrapper.new_groups h (by omega)
  refine ⟨groups, h, hg.imp fun l rows hr before word after hw hfit hroom => ?_⟩
  obtain ⟨w, rfl, rfl, hq, e, -⟩ := hr
  rw [e]
  exact processInput_word w hq hmax l.graphemes before word after hw hfit hroom

/-- With trimming, every word that is no wider than a row is on one row. -/
theorem C116_trimmed (lines : List InputLine) (max : Int) (hmax : 0 < max) :
    ∃ groups : List (List WrappedLine),
      Yields WordWrapper.nextLine (WordWrapper.new lines max true) groups.flatten ∧
      List.Forall₂ (fun l rows => ∀ before word after,
        IsWord (l.graphemes.filter fun g => (g.g.width : Int) ≤ max) before word after → columns word ≤ max →
        OnOneRow (rows.map WrappedLine.line) before word after) lines groups := by
  obtain ⟨groups, h, hg⟩ := C116_words_partial lines max true hmax
  exact ⟨groups, h, hg.imp fun l rows hr before word after hw hfit => hr before word after hw hfit (.inl rfl)⟩

/-- The word "big" of a text that wraps around it. -/
example : IsWord ((sampleText "hello big world").graphemes.filter fun g => (g.g.width : Int) ≤ 6)
      (sampleText "hello ").graphemes (sampleText "big").graphemes (sampleText " world").graphemes ∧
    columns (sampleText "big").graphemes ≤ 6 := by
  refine ⟨⟨by decide +kernel, by decide +kernel, by decide +kernel, by decide +kernel, by decide +kernel⟩, by decide +kernel⟩

/-- Without trimming, whitespace at the beginning of a line and the word after it are broken where the row ends, even if
the word fits on a row. -/
theorem C116_leading_false :
    ¬ ∀ (lines : List InputLine) (max : Int) (ls : List WrappedLine), 0 < max →
      Yields WordWrapper.nextLine (WordWrapper.new lines max false) ls →
      ∀ l before word after, lines = [l] → IsWord l.graphemes before word after → columns word ≤ max →
        ∃ r ∈ ls, word <:+: symbols r.line := by
  intro h
  have := h [sampleText "   abc"] 5 _ (by decide) (takeRows_get 9 _ (by decide +kernel)) _
    (sampleText "   ").graphemes (sampleText "abc").graphemes [] rfl
    ⟨by decide +kernel, by decide +kernel, by decide +kernel, by decide +kernel, by decide +kernel⟩ (by decide +kernel)
  obtain ⟨r, hr, a, b, e⟩ := this
  have hlen : ∀ r ∈ ((takeRows WordWrapper.nextLine 9 (WordWrapper.new [sampleText "   abc"] 5 false)).get (by decide +kernel)),
      (symbols r.line).any (fun g => g.g.symbol == "a") = false ∨
        (symbols r.line).any (fun g => g.g.symbol == "c") = false := by decide +kernel
  have := hlen r hr
  rw [← e] at this
  have ha : (sampleText "abc").graphemes.any (fun g => g.g.symbol == "a") = true := by decide +kernel
  have hc : (sampleText "abc").graphemes.any (fun g => g.g.symbol == "c") = true := by decide +kernel
  simp [List.any_append, ha, hc] at this

/-! ### C117 -/

/-- No row is ended early: a row that shows something, and behind which its line has another row, is full, or the next
word (or the rest of the word it ends in) does not fit behind it with the whitespace in between. -/
theorem C117_rows_filled (lines : List InputLine) (max : Int) (trim : Bool) (hmax : 0 < max) :
    ∃ groups : List (List WrappedLine),
      Yields WordWrapper.nextLine (WordWrapper.new lines max trim) groups.flatten ∧
      List.Forall₂ (fun l rows => ∀ rows₁ r rows₂, rows = rows₁ ++ r :: rows₂ → rows₂ ≠ [] → visible r.line ≠ [] →
        ∀ done gap next rest,
          NextWord (l.graphemes.filter fun g => (g.g.width : Int) ≤ max) done gap next rest →
          visible done = visible (rows₁.flatMap WrappedLine.line ++ r.line) →
          max ≤ columns r.line ∨ max < columns r.line + columns gap + columns next) lines groups := by
  obtain ⟨ls, h⟩ := WordWrapper.yields_exists _ _ (WordWrapper.new lines max trim) rfl rfl
  obtain ⟨groups, rfl, hg⟩ := WordWrapper.new_groups h (by omega)
  refine ⟨groups, h, hg.imp fun l rows hr rows₁ r rows₂ e hne hv done gap next rest hn hd => ?_⟩
  obtain ⟨w, rfl, rfl, hq, e', -⟩ := hr
  refine processInput_tight w hq hmax l.graphemes (rows₁.map WrappedLine.line) (rows₂.map WrappedLine.line) r.line ?_ ?_ hv
    done gap next rest hn ?_
  · rw [← e', e]; simp
  · simpa using hne
  · rw [hd, List.flatMap_def]

/-- Such a row: `hello` is not full, but `world` does not fit behind it. -/
example : (takeRows WordWrapper.nextLine 9 (WordWrapper.new [sampleText "hello world"] 8 true)).map
      (fun rows => rows.map (fun r => visible r.line)) =
        some [(sampleText "hello").graphemes, (sampleText "world").graphemes] ∧
    NextWord ((sampleText "hello world").graphemes.filter fun g => (g.g.width : Int) ≤ 8)
      (sampleText "hello").graphemes (sampleText " ").graphemes (sampleText "world").graphemes [] := by
  refine ⟨by decide +kernel, ⟨by decide +kernel, by decide +kernel, by decide +kernel, by decide +kernel, by simp,
    fun h => absurd h (by decide +kernel)⟩⟩

/-- Behind every beginning that ends with something visible there are the parts that C117 speaks of. -/
theorem C117_next (text done tail : List StyledGrapheme) (e : text = done ++ tail)
    (hl : ∀ g ∈ done.getLast?, g.g.isWhitespace = false) :
    ∃ gap next rest, NextWord text done gap next rest := by
  refine ⟨tail.takeWhile (fun g => g.g.isWhitespace),
    (tail.dropWhile (fun g => g.g.isWhitespace)).takeWhile (fun g => !g.g.isWhitespace),
    (tail.dropWhile (fun g => g.g.isWhitespace)).dropWhile (fun g => !g.g.isWhitespace), ?_, hl, ?_, ?_, ?_, ?_⟩
  · rw [List.append_assoc, List.append_assoc, List.takeWhile_append_dropWhile, List.takeWhile_append_dropWhile, e]
  · intro g hg
    simpa using List.all_eq_true.1 List.all_takeWhile g hg
  · intro g hg
    simpa using List.all_eq_true.1 List.all_takeWhile g hg
  · intro g hg
    have := List.head?_dropWhile_not (fun g : StyledGrapheme => !g.g.isWhitespace)
      (tail.dropWhile (fun g => g.g.isWhitespace))
    rw [Option.mem_def] at hg
    rw [hg] at this
    simpa using this
  · intro h
    have h1 := List.head?_dropWhile_not (fun g : StyledGrapheme => g.g.isWhitespace) tail
    rcases hd : tail.dropWhile (fun g => g.g.isWhitespace) with _ | ⟨x, t⟩
    · rw [hd]; rfl
    · rw [hd] at h h1
      simp only [List.head?_cons] at h1
      rw [List.takeWhile_cons] at h
      simp [h1] at h

end Bento
