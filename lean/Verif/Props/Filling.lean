import Mathlib.Data.List.TakeWhile
import Verif.Lemmas.Filling
import Verif.Props.TextLines
import Verif.Props.Palette
import Verif.Props.Lazygit

/-!
# C125: a paragraph fills its rows with words
-/

namespace Bento

variable {u : Uniseg} {S : String → Prop} {T : Termenv}

theorem WrappedLine.seen_eq (l : WrappedLine) : l.seen = solid l.line := rfl

theorem fillRows_length {max : Int} : ∀ (rest : List (StyledGrapheme × List StyledGrapheme)) (row : List StyledGrapheme),
    (row.length : Int) ≤ max → (∀ p ∈ rest, (p.2.length : Int) ≤ max) → ∀ r ∈ fillRows max row rest, (r.length : Int) ≤ max
  | [], row, h, _, r, hr => by
    rw [fillRows, List.mem_singleton] at hr
    rw [hr]; exact h
  | (g, w) :: rest, row, h, hw, r, hr => by
    have hw1 := hw _ (List.mem_cons_self ..)
    have hw2 := fun p hp => hw p (List.mem_cons_of_mem _ hp)
    rw [fillRows] at hr
    split_ifs at hr with hq
    · exact fillRows_length rest _ (by simp only [List.length_append, List.length_cons]; push_cast; omega) hw2 r hr
    · rcases List.mem_cons.1 hr with rfl | hr
      · exact h
      · exact fillRows_length rest w hw1 hw2 r hr

/-- **C125**, the rows: the word wrapper fills rows as on a page, with and without trimming, each input line on its own and
with its alignment. -/
theorem C125_rows (ps : List (Option Words × Alignment)) (max : Int) (trim : Bool) (hmax : 0 < max)
    (hfit : ∀ p ∈ ps, ∀ v ∈ p.1, v.Fit max) (ls : List WrappedLine)
    (h : Yields WordWrapper.nextLine (WordWrapper.new (ps.map fun p => ⟨lineText p.1, p.2⟩) max trim) ls) :
    ls.map (fun r => (r.seen, r.alignment)) = (ps.flatMap fun p => (lineRows max p.1).map fun r => (r, p.2)) ∧
    ∀ r ∈ ls, r.width = columns r.line ∧ columns r.line ≤ max ∧ ∀ g ∈ r.line, g.g.width ≤ 1 := by
  obtain ⟨groups, rfl, hg⟩ := WordWrapper.new_groups h (by omega)
  clear h
  induction ps generalizing groups with
  | nil =>
    cases hg
    exact ⟨rfl, by simp⟩
  | cons p ps ih =>
    obtain ⟨rows, gs, hr, hg', rfl⟩ : ∃ rows gs, WordWrapper.RowsOf max trim ⟨lineText p.1, p.2⟩ rows ∧
        List.Forall₂ (WordWrapper.RowsOf max trim) (ps.map fun p => ⟨lineText p.1, p.2⟩) gs ∧ groups = rows :: gs := by
      cases hg with
      | cons h1 h2 => exact ⟨_, _, h1, h2, rfl⟩
    obtain ⟨i1, i2⟩ := ih (fun p hp => hfit p (List.mem_cons_of_mem _ hp)) gs hg'
    have hmem := hr.mem
    obtain ⟨w, rfl, rfl, hq, e, ha⟩ := hr
    have hrows := processInput_rows w hq hmax p.1 (hfit p (List.mem_cons_self ..))
    rw [← e, List.map_map] at hrows
    have hsingle : ∀ g ∈ lineText p.1, g.g.width = 1 := by
      intro g hg
      cases hp : p.1 with
      | none => rw [hp] at hg; exact absurd hg List.not_mem_nil
      | some v =>
        rw [hp] at hg
        obtain ⟨f1, f2⟩ := hfit p (List.mem_cons_self ..) v hp
        rcases List.mem_append.1 hg with hg | hg
        · exact (f1.solid g hg).2
        · obtain ⟨x, hx, hg⟩ := List.mem_flatMap.1 hg
          obtain ⟨_, k2, k3⟩ := f2 x hx
          rcases List.mem_cons.1 hg with rfl | hg
          · exact k2
          · exact (k3.solid g hg).2
    have hle : ∀ r ∈ rows, ∀ g ∈ r.line, g.g.width ≤ 1 := by
      intro r hr g hg
      rcases hmem r hr g hg with rfl | hg
      · decide
      · exact le_of_eq (hsingle g hg)
    refine ⟨?_, fun r hr => ?_⟩
    · rw [List.flatten_cons, List.map_append, i1, List.flatMap_cons]
      congr 1
      rw [← hrows, List.map_map]
      refine List.map_congr_left fun r hr => ?_
      show (r.seen, r.alignment) = (solid r.line, p.2)
      rw [r.seen_eq, (ha r hr).1]
    · rw [List.flatten_cons, List.mem_append] at hr
      rcases hr with hr | hr
      · refine ⟨(ha r hr).2, ?_, hle r hr⟩
        rw [columns_solid _ (hle r hr)]
        have hin : solid r.line ∈ lineRows w.maxLineWidth p.1 := by
          rw [← hrows]
          exact List.mem_map_of_mem (f := solid ∘ WrappedLine.line) hr
        cases hp : p.1 with
        | none =>
          rw [hp] at hin
          rw [List.mem_singleton.1 hin]
          simpa using hmax.le
        | some v =>
          rw [hp] at hin
          obtain ⟨f1, f2⟩ := hfit p (List.mem_cons_self ..) v hp
          exact fillRows_length v.rest v.first f1.fits (fun x hx => (f2 x hx).2.2.fits) _ hin
      · exact i2 r hr

theorem pageShows_eq {max : Int} (ls : List WrappedLine) (rows : List (List StyledGrapheme × Alignment))
    (h : ls.map (fun r => (r.seen, r.alignment)) = rows)
    (hle : ∀ r ∈ ls, r.width = columns r.line ∧ columns r.line ≤ max ∧ ∀ g ∈ r.line, g.g.width ≤ 1)
    (scrollY : Int) (area : Rect) (q : Position) : rowsShown ls scrollY area q = pageShows rows scrollY area q := by
  subst h
  unfold rowsShown rowAt pageShows
  split_ifs with h0
  · rw [List.getElem?_map]
    cases hr : ls[(q.y - area.y + scrollY).toNat]? with
    | none => rfl
    | some r =>
      obtain ⟨_, _, h1⟩ := hle r (List.mem_of_getElem? hr)
      simp only [Option.map_some, Option.bind_some]
      unfold WrappedLine.shownAt
      rw [columns_solid _ h1, r.seen_eq, Int.toNat_natCast]
      split_ifs
      · rw [atColumn_solid _ _ h1]
      · rfl
  · rfl

theorem fillRows_mem {max : Int} : ∀ (rest : List (StyledGrapheme × List StyledGrapheme)) (row : List StyledGrapheme),
    ∀ r ∈ fillRows max row rest, ∀ g ∈ r, g ∈ row ++ rest.flatMap fun p => p.1 :: p.2
  | [], row, r, hr, g, hg => by
    rw [fillRows, List.mem_singleton] at hr
    rw [hr] at hg
    simpa using hg
  | (x, w) :: rest, row, r, hr, g, hg => by
    rw [fillRows] at hr
    split_ifs at hr with hq
    · have := fillRows_mem rest _ r hr g hg
      simpa using this
    · rcases List.mem_cons.1 hr with rfl | hr
      · exact List.mem_append_left _ hg
      · have := fillRows_mem rest w r hr g hg
        rw [List.flatMap_cons]
        simp only [List.mem_append, List.mem_cons] at this ⊢
        tauto

theorem pageShows_mem {max : Int} {ps : List (Option Words × Alignment)} {scrollY : Int} {area : Rect} {q : Position}
    {g : StyledGrapheme}
    (h : pageShows (ps.flatMap fun x => (lineRows max x.1).map fun r => (r, x.2)) scrollY area q = some g) :
    ∃ x ∈ ps, g ∈ lineText x.1 := by
  unfold pageShows at h
  split at h
  · rename_i row a he
    split_ifs at he
    dsimp only at h
    split_ifs at h
    have hrow := List.mem_of_getElem? he
    have hg := List.mem_of_getElem? h
    simp only [List.mem_flatMap, List.mem_map, Prod.mk.injEq] at hrow
    obtain ⟨x, hx, r, hr, rfl, _⟩ := hrow
    refine ⟨x, hx, ?_⟩
    cases hv : x.1 with
    | none => rw [hv] at hr; rw [List.mem_singleton.1 hr] at hg; exact absurd hg List.not_mem_nil
    | some v => rw [hv] at hr; exact fillRows_mem v.rest v.first r hr g hg
  · cases h

/-- **C125**, the cells: a wrapped paragraph shows these rows one below the other, from the one that the scroll offset asks
for, each at its alignment and in the style of its text; the other cells inside of the block keep their symbols. -/
theorem C125_cells (hu : u.Lawful) (p : Paragraph) (trim : Bool) (hwrap : p.wrap = some trim) (halign : p.alignment ≠ .none)
    (area : Rect) (b : Buffer) (wf : b.WF) (hin : Inside b area)
    (hblock : ∀ k ∈ p.block, 0 ≤ area.x ∧
      0 ≤ k.padding.left ∧ 0 ≤ k.padding.right ∧ 0 ≤ k.padding.top ∧ 0 ≤ k.padding.bottom)
    (hw : 0 < (p.content area).width) (hh : 0 < (p.content area).height) (hs : 0 ≤ p.scroll.y)
    (ps : List (Option Words × Alignment)) (hps : p.inputLines u = ps.map fun x => ⟨lineText x.1, x.2⟩)
    (hfit : ∀ x ∈ ps, ∀ v ∈ x.1, v.Fit (p.content area).width) :
    ∃ b', p.render u area b = some b' ∧ b'.area = b.area ∧ b'.WF ∧
      (∀ q, (p.content area).contains q = true →
        b'.cellAt q = (b.cellAt q).map fun c =>
          let c := match p.block with
            | some k => ((c.setStyle p.style).setStyle k.style).setStyle p.style
            | none => c.setStyle p.style
          match pageShows (ps.flatMap fun x => (lineRows (p.content area).width x.1).map fun r => (r, x.2)) p.scroll.y
            (p.content area) q with
          | some g => (c.setSymbol g.g.symbol).setStyle g.style
          | none => c) ∧
      (∀ q, area.contains q = false → b'.cellAt q = b.cellAt q) := by
  obtain ⟨ls, hy⟩ := WordWrapper.yields_exists _ _ (WordWrapper.new (p.inputLines u) (p.content area).width trim) rfl rfl
  have hy' := hy
  rw [hps] at hy'
  obtain ⟨r1, r2⟩ := C125_rows ps _ trim hw hfit ls hy'
  have hal := inputLines_aligned (u := u) halign
  obtain ⟨_, b', _, e, a', wf', c1, _, c3⟩ := C70_rows_shown (u := u) p area b wf hin hblock hw hh (by omega) ls
    (by unfold Paragraph.Rows; rw [hwrap]; exact hy) (fun l hl => by
      obtain ⟨k1, k2, _⟩ := r2 l hl
      refine ⟨?_, k1, k2⟩
      have : (l.seen, l.alignment) ∈ ls.map fun r => (r.seen, r.alignment) :=
        List.mem_map_of_mem (f := fun r : WrappedLine => (r.seen, r.alignment)) hl
      rw [r1] at this
      simp only [List.mem_flatMap, List.mem_map, Prod.mk.injEq] at this
      obtain ⟨x, hx, _, _, _, h2⟩ := this
      rw [← h2]
      exact hal ⟨lineText x.1, x.2⟩ (by rw [hps]; exact List.mem_map_of_mem (f := fun x : Option Words × Alignment =>
        (⟨lineText x.1, x.2⟩ : InputLine)) hx))
  refine ⟨b', e, a', wf', fun q hq => ?_, c3⟩
  rw [(c1 q hq).2]
  have hshow := pageShows_eq ls _ r1 r2 p.scroll.y (p.content area) q
  rw [hshow]
  congr 1
  funext c
  simp only
  cases hg : pageShows (ps.flatMap fun x => (lineRows (p.content area).width x.1).map fun r => (r, x.2)) p.scroll.y
      (p.content area) q with
  | none => rfl
  | some g =>
    have hne : g.g.symbol ≠ "" := by
      obtain ⟨x, hx, hgx⟩ := pageShows_mem hg
      have hmem : (⟨lineText x.1, x.2⟩ : InputLine) ∈ p.inputLines u := by
        rw [hps]
        exact List.mem_map_of_mem (f := fun x : Option Words × Alignment => (⟨lineText x.1, x.2⟩ : InputLine)) hx
      unfold Paragraph.inputLines at hmem
      obtain ⟨l, _, e⟩ := List.mem_map.1 hmem
      have hgl : g ∈ l.styledGraphemes u p.text.style := by
        rw [show l.styledGraphemes u p.text.style = lineText x.1 from congrArg InputLine.graphemes e]
        exact hgx
      unfold Line.styledGraphemes Span.styledGraphemes at hgl
      obtain ⟨sp, _, hgl⟩ := List.mem_flatMap.1 hgl
      obtain ⟨c, hc, rfl⟩ := List.mem_map.1 hgl
      exact hu.nonempty _ c (List.mem_of_mem_filter hc)
    simp only [if_neg hne]
    rfl

/-! ### Plain text -/

/-- A character of a plain text. -/
def plainChar (c : Char) : StyledGrapheme := ⟨⟨String.ofList [c], 1⟩, Style.new⟩

theorem plainChar_visible {c : Char} (h : 33 ≤ c.toNat ∧ c.toNat < 127) :
    (plainChar c).g.isWhitespace = false ∧ (plainChar c).g.width = 1 := by
  refine ⟨?_, rfl⟩
  rw [← Bool.not_eq_true, C35_blanks]
  show ¬ (String.ofList [c] = "\u200b" ∨ (∀ d ∈ (String.ofList [c]).toList, d.toNat ∈ blankCodes) ∧ _)
  rintro (e | ⟨e, _⟩)
  · have : c = '\u200b' := by
      have := congrArg String.toList e
      rw [String.toList_ofList] at this
      exact (List.cons.inj this).1
    rw [this] at h
    exact absurd h.2 (by decide)
  · have := e c (by rw [String.toList_ofList]; simp)
    unfold blankCodes at this
    simp only [List.mem_cons, List.not_mem_nil, or_false] at this
    omega

theorem written_cons (w : List Char) (ws : List (List Char)) : written (w :: ws) = w ++ ws.flatMap fun v => ' ' :: v := by
  unfold written
  induction ws generalizing w with
  | nil => simp
  | cons v ws ih =>
    rw [List.intercalate_cons_cons, ih v]
    simp

/-- A line of plain words. -/
def plainWords : List (List Char) → Option Words
  | [] => none
  | w :: ws => some ⟨w.map plainChar, ws.map fun v => (plainChar ' ', v.map plainChar)⟩

theorem plainWords_text (ws : List (List Char)) : lineText (plainWords ws) = (written ws).map plainChar := by
  cases ws with
  | nil => rfl
  | cons w ws =>
    rw [written_cons]
    show w.map plainChar ++ (ws.map fun v => (plainChar ' ', v.map plainChar)).flatMap (fun p => p.1 :: p.2) = _
    rw [List.map_append]
    congr 1
    induction ws with
    | nil => rfl
    | cons v ws ih => simp [ih]

theorem plainWords_fit {max : Int} {ws : List (List Char)} (h : PlainWords max ws) : ∀ v ∈ plainWords ws, v.Fit max := by
  intro v hv
  cases ws with
  | nil => cases hv
  | cons w ws =>
    cases hv
    have key : ∀ x ∈ w :: ws, FitsRow max (x.map plainChar) := by
      intro x hx
      refine ⟨by simpa using h.some_ x hx, fun g hg => ?_, by simpa using h.fits x hx⟩
      obtain ⟨c, hc, rfl⟩ := List.mem_map.1 hg
      exact plainChar_visible (h.visible x hx c hc)
    refine ⟨key w (List.mem_cons_self ..), fun p hp => ?_⟩
    obtain ⟨x, hx, rfl⟩ := List.mem_map.1 hp
    exact ⟨show (plainChar ' ').g.isWhitespace = true by decide +kernel, rfl, key x (List.mem_cons_of_mem _ hx)⟩

theorem plainWords_rows (max : Int) (ws : List (List Char)) :
    lineRows max (plainWords ws) = (wordRows max ws).map fun r => r.map plainChar := by
  cases ws with
  | nil => rfl
  | cons w ws =>
    show fillRows max (w.map plainChar) (ws.map fun v => (plainChar ' ', v.map plainChar)) =
      (fillWords max w ws).map fun r => r.map plainChar
    induction ws generalizing w with
    | nil => rfl
    | cons v ws ih =>
      rw [List.map_cons, fillRows, fillWords]
      simp only [List.length_map]
      split_ifs
      · rw [← ih, List.map_append, List.map_cons]
      · rw [ih, List.map_cons]

theorem written_plain {max : Int} {ws : List (List Char)} (h : PlainWords max ws) : Lazygit.Plain (written ws) := by
  intro c hc
  cases ws with
  | nil => exact absurd hc List.not_mem_nil
  | cons w ws =>
    rw [written_cons] at hc
    rcases List.mem_append.1 hc with hc | hc
    · have := h.visible w (List.mem_cons_self ..) c hc
      omega
    · obtain ⟨v, hv, hc⟩ := List.mem_flatMap.1 hc
      rcases List.mem_cons.1 hc with rfl | hc
      · decide
      · have := h.visible v (List.mem_cons_of_mem _ hv) c hc
        omega

theorem plain_lines {max : Int} (cs : List Char) (lines : List (List (List Char))) (hne : lines ≠ [])
    (hcs : LinesOf cs (lines.map written)) (hl : ∀ ws ∈ lines, PlainWords max ws) :
    newTextStr cs = ⟨Style.new, lines.map fun ws => newLineStr (written ws), .none⟩ := by
  have hcs0 : cs ≠ [] := by
    rintro rfl
    rcases hcs.2 with h | ⟨h, _⟩
    · cases lines with
      | nil => exact hne rfl
      | cons w ws => simp at h
    · exact h rfl
  have hscan : scanLines (cs.length + 1) cs = lines.map written := by
    rw [scanLines_pieces _ _ (by omega), lines_unique (pieces_lines cs) hcs]
    rw [List.takeWhile_eq_self_iff.2]
    · rw [List.map_map]
      refine List.map_congr_left fun ws hws => ?_
      have := written_plain (hl ws hws)
      exact dropCR_eq (fun k => absurd (this _ k).1 (by decide))
    · intro l hl'
      obtain ⟨ws, hws, rfl⟩ := List.mem_map.1 hl'
      simpa using (hl ws hws).short
  unfold newTextStr newLinesStr
  rw [if_neg hcs0, hscan, List.map_map]
  rfl

/-- The lines that a paragraph of a plain text hands to the composer. -/
theorem plain_inputLines (hS : Plainly u Lazygit.Ascii) (hu : u.Lawful) (p : Paragraph) (cs : List Char)
    (htext : p.text = newTextStr cs) {max : Int} (lines : List (List (List Char))) (hne : lines ≠ [])
    (hcs : LinesOf cs (lines.map written)) (hl : ∀ ws ∈ lines, PlainWords max ws) :
    p.inputLines u = (lines.map fun ws => (plainWords ws, p.alignment)).map fun x => ⟨lineText x.1, x.2⟩ := by
  unfold Paragraph.inputLines
  rw [htext, plain_lines cs lines hne hcs hl]
  simp only [List.map_map]
  refine List.map_congr_left fun ws hws => ?_
  have hp := written_plain (hl ws hws)
  simp only [Function.comp]
  rw [plainWords_text]
  by_cases hw0 : written ws = []
  · rw [hw0, show newLineStr [] = ⟨Style.new, [], .none⟩ by decide]
    rfl
  · rw [hp.newLineStr hw0 (hl ws hws).short]
    show (⟨[Span.new (String.ofList (written ws))].flatMap _, _⟩ : InputLine) = _
    rw [List.flatMap_singleton, styledGraphemes_narrow hu _ _ (fun c hc => ?_)]
    · have hg := hp.graphemes hS
      rw [show (Span.new (String.ofList (written ws))).content = String.ofList (written ws) from rfl, hg, List.map_map]
      show (⟨_, _⟩ : InputLine) = ⟨_, _⟩
      congr 1
      have e : (Style.new.patched Style.new).patched Style.new = Style.new := by decide +kernel
      refine List.map_congr_left fun c _ => ?_
      show (⟨⟨String.ofList [c], 1⟩, (Style.new.patched Style.new).patched Style.new⟩ : StyledGrapheme) = _
      rw [e]
      rfl
    · exact hp.narrow hS c hc

theorem pageShows_plain (a : Alignment) (rows : List (List Char)) {scrollY : Int} (hs : 0 ≤ scrollY) {area : Rect} {q : Position}
    (hq : area.contains q = true) :
    pageShows (rows.map fun r => (r.map plainChar, a)) scrollY area q = (pageChar rows a scrollY area q).map plainChar := by
  have h := (Rect.contains_iff area q).1 hq
  unfold Rect.Mem at h
  unfold pageShows pageChar
  rw [if_pos (by omega), List.getElem?_map]
  cases rows[(q.y - area.y + scrollY).toNat]? with
  | none => rfl
  | some r =>
    simp only [Option.map_some, Option.bind_some, List.length_map, List.getElem?_map]
    split_ifs <;> rfl

/-- **C125**, for a text of ASCII words with one space between two of them: the cells inside of the block show the rows of
words, everything else keeps its symbol. -/
theorem C125_page (hu : u.Lawful) (hS : Plainly u Lazygit.Ascii) (p : Paragraph) (trim : Bool) (hwrap : p.wrap = some trim)
    (halign : p.alignment ≠ .none) (area : Rect) (b : Buffer) (wf : b.WF) (hin : Inside b area)
    (hblock : ∀ k ∈ p.block, 0 ≤ area.x ∧
      0 ≤ k.padding.left ∧ 0 ≤ k.padding.right ∧ 0 ≤ k.padding.top ∧ 0 ≤ k.padding.bottom)
    (hw : 0 < (p.content area).width) (hh : 0 < (p.content area).height) (hs : 0 ≤ p.scroll.y)
    (cs : List Char) (htext : p.text = newTextStr cs) (lines : List (List (List Char))) (hne : lines ≠ [])
    (hcs : LinesOf cs (lines.map written)) (hl : ∀ ws ∈ lines, PlainWords (p.content area).width ws) :
    ∃ b', p.render u area b = some b' ∧ b'.area = b.area ∧ b'.WF ∧
      (∀ q, (p.content area).contains q = true →
        b'.cellAt q = (b.cellAt q).map fun c =>
          let c := match p.block with
            | some k => ((c.setStyle p.style).setStyle k.style).setStyle p.style
            | none => c.setStyle p.style
          match pageChar (lines.flatMap (wordRows (p.content area).width)) p.alignment p.scroll.y (p.content area) q with
          | some ch => c.setSymbol (String.ofList [ch])
          | none => c) ∧
      (∀ q, area.contains q = false → b'.cellAt q = b.cellAt q) := by
  obtain ⟨b', e, a', wf', c1, c2⟩ := C125_cells hu p trim hwrap halign area b wf hin hblock hw hh hs
    (lines.map fun ws => (plainWords ws, p.alignment)) (plain_inputLines hS hu p cs htext lines hne hcs hl) (by
      intro x hx
      obtain ⟨ws, hws, rfl⟩ := List.mem_map.1 hx
      exact plainWords_fit (hl ws hws))
  refine ⟨b', e, a', wf', fun q hq => ?_, c2⟩
  rw [c1 q hq]
  have hrows : ((lines.map fun ws => (plainWords ws, p.alignment)).flatMap fun x =>
      (lineRows (p.content area).width x.1).map fun r => (r, x.2)) =
      (lines.flatMap (wordRows (p.content area).width)).map fun r => (r.map plainChar, p.alignment) := by
    rw [List.flatMap_map, List.map_flatMap]
    refine List.flatMap_congr fun ws _ => ?_
    simp only
    rw [plainWords_rows, List.map_map]
    rfl
  rw [hrows, pageShows_plain _ _ hs hq]
  congr 1
  funext c
  cases pageChar (lines.flatMap (wordRows (p.content area).width)) p.alignment p.scroll.y (p.content area) q with
  | none => rfl
  | some ch => exact Lazygit.put_new _ _

theorem plainText_madeOf {St : Style → Prop} (hn : St Style.new) (hS : Plainly u Lazygit.Ascii) {max : Int}
    (cs : List Char) (lines : List (List (List Char))) (hne : lines ≠ []) (hcs : LinesOf cs (lines.map written))
    (hl : ∀ ws ∈ lines, PlainWords max ws) : (newTextStr cs).MadeOf u Lazygit.Ascii St := by
  rw [plain_lines cs lines hne hcs hl]
  refine ⟨hn, fun l hl' => ?_⟩
  obtain ⟨ws, hws, rfl⟩ := List.mem_map.1 hl'
  have hp := written_plain (hl ws hws)
  by_cases hw0 : written ws = []
  · rw [hw0, show newLineStr [] = ⟨Style.new, [], .none⟩ by decide]
    exact ⟨hn, fun s hs => absurd hs List.not_mem_nil⟩
  · rw [hp.newLineStr hw0 (hl ws hws).short]
    refine ⟨hn, fun s hs => ?_⟩
    obtain rfl : s = Span.new (String.ofList (written ws)) := by simpa [Line.new] using hs
    refine ⟨hn, fun c hcc => ?_⟩
    rw [show (Span.new (String.ofList (written ws))).content = String.ofList (written ws) from rfl, hp.graphemes hS] at hcc
    obtain ⟨ch, hch, rfl⟩ := List.mem_map.1 hcc
    exact ⟨ch, (hp ch hch).1, (hp ch hch).2, rfl⟩

/-- **C125**, on the screen: after any history of drawing, a paragraph without a block that is drawn on the whole screen shows
its page there, blank where there is no word, in the paragraph's style everywhere. -/
theorem C125_screen {j : Junk} (hu : u.Lawful) (hc : T.convert .reset = some .reset) (hS : Plainly u Lazygit.Ascii)
    {t : Terminal} {sc : Screen} (h : History j u T Lazygit.Ascii t sc true) (p : Paragraph) (trim : Bool)
    (hwrap : p.wrap = some trim) (halign : p.alignment ≠ .none) (hblock : p.block = none) (hstyle : p.style.Shown T)
    (hw : 0 < t.viewportArea.width) (hh : 0 < t.viewportArea.height) (hs : 0 ≤ p.scroll.y)
    (cs : List Char) (htext : p.text = newTextStr cs) (lines : List (List (List Char))) (hne : lines ≠ [])
    (hcs : LinesOf cs (lines.map written)) (hl : ∀ ws ∈ lines, PlainWords t.viewportArea.width ws) (w : Widget)
    (hdraw : ∀ b, w t.viewportArea b = (p.render u t.viewportArea b).map fun b => (b, none)) :
    ∃ t' out, t.draw u T w noFault = some (t', out, true) ∧ t'.viewportArea = t.viewportArea ∧
      History j u T Lazygit.Ascii t' (sc.feed j u out) true ∧
      ∀ q, t.viewportArea.contains q = true → (sc.feed j u out).grid q =
        .glyph (match pageChar (lines.flatMap (wordRows t.viewportArea.width)) p.alignment p.scroll.y t.viewportArea q with
          | some ch => String.ofList [ch]
          | none => " ") false (penOf T (Cell.empty.setStyle p.style)) := by
  obtain ⟨ht, _, _⟩ := history_inv (env_of_plainly hu hc hS) h
  have hcon : p.content t.viewportArea = t.viewportArea := by
    unfold Paragraph.content
    rw [hblock]
    rfl
  have hinb : Inside t.cur t.viewportArea := by
    unfold Inside
    rw [ht.cur.area_eq]
    omega
  obtain ⟨frame, e1, a1, _, c1, _⟩ := C125_page hu hS p trim hwrap halign t.viewportArea t.cur ht.cur.wf hinb
    (by rw [hblock]; intro k hk; cases hk) (by rw [hcon]; exact hw) (by rw [hcon]; exact hh) hs cs htext lines hne hcs
    (by rw [hcon]; exact hl)
  have hmade : p.MadeOf u Lazygit.Ascii (Style.Shown T) := by
    refine ⟨hstyle, ?_, by rw [hblock]; intro k hk; cases hk⟩
    rw [htext]
    exact plainText_madeOf (Lazygit.shown_new T) hS cs lines hne hcs hl
  obtain ⟨t', out, h1, h2, h3, h4, _⟩ := C102_screen hu hc hS h (Drawing.paragraph hmade t.viewportArea) ht.cur e1 w hdraw
  refine ⟨t', out, h1, h2, h3, fun q hq => ?_⟩
  rw [hcon] at c1
  have hcell := c1 q hq
  rw [ht.cur.cells q hq, hblock] at hcell
  rw [h4 q _ hcell]
  cases pageChar (lines.flatMap (wordRows t.viewportArea.width)) p.alignment p.scroll.y t.viewportArea q with
  | none => rfl
  | some ch => rfl

/-! ### Examples -/

/-- Two words fit on the first row of nine columns, the third one does not. -/
example : wordRows 9 ["hello".toList, "big".toList, "world".toList] = ["hello big".toList, "world".toList] := by decide +kernel

/-- With one column less each word has a row of its own... -/
example : wordRows 8 ["hello".toList, "big".toList, "world".toList] = ["hello".toList, "big".toList, "world".toList] := by
  decide +kernel

/-- ... and the last one is shown at the right edge of the third row. -/
example : (List.range 8).map (fun i => pageChar (wordRows 8 ["hello".toList, "big".toList, "world".toList]) .right 1
    ⟨2, 5, 8, 2⟩ ⟨2 + i, 6⟩) = [none, none, none, some 'w', some 'o', some 'r', some 'l', some 'd'] := by decide +kernel

def pageWords : List (List (List Char)) := [["hello".toList, "big".toList, "world".toList], [], ["bye".toList]]

theorem pageWords_plain : ∀ ws ∈ pageWords, PlainWords 9 ws := by
  have h1 : ∀ ws ∈ pageWords, ∀ w ∈ ws, w ≠ [] ∧ (∀ c ∈ w, 33 ≤ c.toNat ∧ c.toNat < 127) ∧ (w.length : Int) ≤ 9 := by
    decide +kernel
  have h2 : ∀ ws ∈ pageWords, byteSize (written ws) < 65536 := by decide +kernel
  exact fun ws h => ⟨fun w hw => (h1 ws h w hw).1, fun w hw => (h1 ws h w hw).2.1, fun w hw => (h1 ws h w hw).2.2, h2 ws h⟩

/-- A text of three lines, the second one empty. -/
theorem pageWords_lines : LinesOf "hello big world\n\nbye".toList (pageWords.map written) := by
  refine ⟨by decide +kernel, .inr ⟨by decide, by decide +kernel⟩⟩

example : pageWords.flatMap (wordRows 9) = ["hello big".toList, "world".toList, [], "bye".toList] := by decide +kernel

example : ∃ b' : Buffer, ({ Paragraph.new (newTextStr "hello big world\n\nbye".toList) with wrap := some true }).render
    Uniseg.simple ⟨0, 0, 9, 4⟩ ⟨⟨0, 0, 9, 4⟩, List.replicate 36 Cell.empty⟩ = some b' := by
  have hb : Buffer.Blank ⟨0, 0, 9, 4⟩ ⟨⟨0, 0, 9, 4⟩, List.replicate 36 Cell.empty⟩ :=
    blank_of_content 36 (by decide) (by decide) (by decide)
  obtain ⟨b', e, _⟩ := C125_page Uniseg.simple_lawful (Lazygit.plainly_ascii Lazygit.simple_plainly fun s hs => .inl hs)
    { Paragraph.new (newTextStr "hello big world\n\nbye".toList) with wrap := some true } true rfl (by decide) ⟨0, 0, 9, 4⟩
    ⟨⟨0, 0, 9, 4⟩, List.replicate 36 Cell.empty⟩ hb.wf (by unfold Inside; decide) (by intro k hk; cases hk) (by decide) (by decide)
    (by decide) _ rfl pageWords (by decide) pageWords_lines pageWords_plain
  exact ⟨b', e⟩

end Bento
