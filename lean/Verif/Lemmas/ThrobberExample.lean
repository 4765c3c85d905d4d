import Verif.Lemmas.InputExample
import Verif.Lemmas.LazygitLayout
import Verif.Lemmas.LazygitFrame
import Verif.Props.Throbber
import Verif.Props.Palette
import Verif.Spec.ThrobberExample

/-!
# The frame of the example program with throbbers
-/

namespace Bento.ThrobberExample

open Lazygit (Plain Ascii Splits Split textLine putSymbol charAt onRim near_third whole_bound third_bound share_one share_len
  rows_of columns_of Usual)

open Layout (idealStart idealSize lenOf)

variable {u : Uniseg} {S : String → Prop}

/-- Single characters of one column. -/
structure Clean (u : Uniseg) (cs : List Char) : Prop where
  graphemes : u.graphemes (String.ofList cs) = cs.map fun c => String.ofList [c]
  narrow : ∀ c ∈ cs, u.Narrow (String.ofList [c])
  visible : ∀ c ∈ cs, isControlRune c = false

theorem clean_of (hS : Plainly u S) (hvis : ∀ s, S s → s.toList.any isControlRune = false) {cs : List Char}
    (h : ∀ c ∈ cs, S (String.ofList [c])) : Clean u cs := by
  have hmem : ∀ s ∈ cs.map (fun c => String.ofList [c]), S s := by
    intro s hs
    obtain ⟨c, hc, rfl⟩ := List.mem_map.1 hs
    exact h c hc
  refine ⟨?_, fun c hc => ⟨hS.column _ (h c hc), hvis _ (h c hc)⟩, fun c hc => ?_⟩
  · rw [← Lazygit.join_singles, hS.apart _ hmem]
    have : ∀ l : List String, (∀ s ∈ l, S s) → l.flatMap u.graphemes = l := by
      intro l
      induction l with
      | nil => intro _; rfl
      | cons s l ih =>
        intro hl
        rw [List.flatMap_cons, hS.single s (hl s (List.mem_cons_self ..)),
          ih fun t ht => hl t (List.mem_cons_of_mem _ ht)]
        rfl
    exact this _ hmem
  · have := hvis _ (h c hc)
    simpa using this

theorem Clean.noBreak {cs : List Char} (h : Clean u cs) : '\n' ∉ cs ∧ '\r' ∉ cs :=
  ⟨fun k => absurd (h.visible _ k) (by decide), fun k => absurd (h.visible _ k) (by decide)⟩

theorem Clean.text {cs : List Char} (h : Clean u cs) (hne : cs ≠ []) (hb : byteSize cs < 65536) :
    newTextStr cs = ⟨Style.new, [textLine .none cs], .none⟩ := by
  have h1 := Lazygit.newLineStr_one cs hne h.noBreak.1 h.noBreak.2 hb
  unfold newTextStr newLinesStr
  rw [if_neg hne]
  have : scanLines (cs.length + 1) cs = [cs] := by
    rcases cs with _ | ⟨c, cs⟩
    · exact absurd rfl hne
    · unfold scanLines
      simp only
      obtain ⟨k1, k2⟩ := while_none h.noBreak.1
      rw [k1, k2, if_neg (by unfold maxToken; omega), dropCR_eq h.noBreak.2]
  rw [this, List.map_singleton, h1]
  rfl

theorem Clean.width {cs : List Char} (h : Clean u cs) (al : Alignment) : (textLine al cs).width u = cs.length := by
  have hn : (textLine al cs).NarrowText u := by
    intro s hs c hc
    simp only [textLine, List.mem_cons, List.not_mem_nil, or_false] at hs
    subst hs
    rw [show (Span.new (String.ofList cs)).content = String.ofList cs from rfl, h.graphemes] at hc
    obtain ⟨ch, hch, rfl⟩ := List.mem_map.1 hc
    exact h.narrow ch hch
  rw [(line_clusters_length hn).1]
  unfold Line.clusters textLine
  simp only [List.flatMap_cons, List.flatMap_nil, List.append_nil]
  rw [show (Span.new (String.ofList cs)).content = String.ofList cs from rfl, h.graphemes, List.length_map]

/-- A line of text at the left of the first row of an area. -/
theorem Clean.line_paints (hu : u.Lawful) (hs : u.Suffix) {cs : List Char} (h : Clean u cs) (window area : Rect)
    (hin : window.In area) :
    Repaints window (fun q c => putSymbol (if area.contains q = true ∧ q.y = area.y then
        (cs[(q.x - area.x).toNat]?).map fun ch => String.ofList [ch] else none) c)
      ((textLine .none cs).render u area) := by
  have hn : (textLine .none cs).NarrowText u := by
    intro s hs c hc
    simp only [textLine, List.mem_cons, List.not_mem_nil, or_false] at hs
    subst hs
    rw [show (Span.new (String.ofList cs)).content = String.ofList cs from rfl, h.graphemes] at hc
    obtain ⟨ch, hch, rfl⟩ := List.mem_map.1 hc
    exact h.narrow ch hch
  refine (Repaints.line hu hs (textLine .none cs) hn rfl window area hin).congr fun q _ c => ?_
  have : (textLine .none cs).styledClusters u = cs.map fun ch => (String.ofList [ch], Style.new) := by
    unfold textLine Line.styledClusters
    simp only [List.flatMap_cons, List.flatMap_nil, List.append_nil]
    rw [show (Span.new (String.ofList cs)).content = String.ofList cs from rfl, h.graphemes, List.map_map]
    rfl
  rw [this]
  show (if area.contains q = true ∧ q.y = area.y then
    match Alignment.none.shown area.width.toNat (cs.map fun ch => (String.ofList [ch], Style.new)) (q.x - area.x).toNat with
      | some (s, st) => c.put s st
      | none => c else c) = _
  rw [Lazygit.shown_map]
  split_ifs with hq
  · have hl : Alignment.none.shown area.width.toNat cs (q.x - area.x).toNat = cs[(q.x - area.x).toNat]? := by
      rw [Rect.contains_iff] at hq
      unfold Rect.Mem at hq
      unfold Alignment.shown Alignment.before
      simp only
      split_ifs <;> first | omega | simp
    rw [hl]
    cases cs[(q.x - area.x).toNat]? with
    | none => rfl
    | some ch => simp only [Option.map_some]; rw [Lazygit.put_new]; rfl
  · rfl

theorem inter_in {window area : Rect} (h : window.In area) : area.intersection window = area := by
  unfold Rect.In at h
  unfold Rect.intersection Rect.right Rect.bottom
  ext <;> simp only <;> omega

/-- A text of one line in an area of one row is that line. -/
theorem text_paints {l : Line} {g : Position → Cell → Cell} {window area : Rect} (hl : Repaints window g (l.render u area))
    (hin : window.In area) (hh : area.height = 1) :
    Repaints window g ((⟨Style.new, [l], .none⟩ : Text).render u area) := by
  intro b wf ha
  have h0 := (Repaints.setStyle window area Style.new).bind hl
  obtain ⟨b', e, wf', a', c'⟩ := h0 b wf ha
  refine ⟨b', ?_, wf', a', fun q => ?_⟩
  · unfold Text.render
    rw [ha, inter_in hin]
    simp only [Option.bind_eq_bind]
    have hr : area.rows = [area] := by
      unfold Rect.rows Rect.bottom
      rw [hh, show (area.y + 1 - area.y).toNat = 1 by omega]
      unfold Rect.rowsLoop
      rw [if_pos (by omega)]
      unfold Rect.rowsLoop
      rw [← hh]
    rw [hr]
    rw [← e]
    congr 1
    funext b1
    unfold Text.renderLines
    simp only [Option.bind_eq_bind]
    show (l.renderAligned u area .none b1).bind some = _
    rw [Option.bind_fun_some]
    rfl
  · rw [c']
    cases b.cellAt q with
    | none => rfl
    | some c =>
      simp only [Option.map_some]
      rw [(C05_new_unit Style.new c).2.2]
      simp

/-- The paint of a text. -/
def textPaint (cs : List Char) (area : Rect) (q : Position) (c : Cell) : Cell :=
  putSymbol (if area.contains q = true ∧ q.y = area.y then
    (cs[(q.x - area.x).toNat]?).map fun ch => String.ofList [ch] else none) c

/-- A text without line breaks is one line. -/
theorem Clean.one (hu : u.Lawful) (hs : u.Suffix) {cs : List Char} (h : Clean u cs) (hb : byteSize cs < 65536) :
    ∃ l : Line, newTextStr cs = ⟨Style.new, [l], .none⟩ ∧ newLinesStr cs = [l] ∧ l.width u = cs.length ∧
      ∀ window area, window.In area → Repaints window (textPaint cs area) (l.render u area) := by
  by_cases hne : cs = []
  · subst hne
    have hl : newLineStr [] = ⟨Style.new, [], .none⟩ := by decide
    have ht : newLinesStr [] = [⟨Style.new, [], .none⟩] := by
      unfold newLinesStr
      rw [if_pos rfl, hl]
    refine ⟨⟨Style.new, [], .none⟩, by unfold newTextStr; rw [ht], ht, rfl, fun window area hin => ?_⟩
    refine (Repaints.line hu hs ⟨Style.new, [], .none⟩ (fun s hs => absurd hs List.not_mem_nil) rfl window area hin).congr
      fun q _ c => ?_
    unfold textPaint
    show (if area.contains q = true ∧ q.y = area.y then
      match Alignment.none.shown area.width.toNat ([] : List (String × Style)) (q.x - area.x).toNat with
        | some (s, st) => c.put s st
        | none => c else c) = _
    have : Alignment.none.shown area.width.toNat ([] : List (String × Style)) (q.x - area.x).toNat = none := by
      unfold Alignment.shown
      split_ifs <;> simp
    rw [this]
    simp [putSymbol]
  · have ht := h.text hne hb
    refine ⟨_, ht, ?_, h.width .none, fun window area hin => h.line_paints hu hs window area hin⟩
    have := congrArg Text.lines ht
    exact this

theorem Clean.text_paints (hu : u.Lawful) (hs : u.Suffix) {cs : List Char} (h : Clean u cs) (hb : byteSize cs < 65536)
    (window area : Rect) (hin : window.In area) (hh : area.height = 1) :
    Repaints window (textPaint cs area) ((newTextStr cs).render u area) := by
  obtain ⟨l, e, _, _, hl⟩ := h.one hu hs hb
  rw [e]
  exact ThrobberExample.text_paints (hl window area hin) hin hh

/-! ### The areas -/

theorem usual_screen : Usual screenLayout := ⟨rfl, rfl, rfl, by decide, by decide⟩
theorem usual_rows : Usual (rowsLayout 9) := ⟨rfl, rfl, rfl, by decide, by decide⟩
theorem usual_columns : Usual columnsLayout := ⟨rfl, rfl, rfl, by decide, by decide⟩

theorem screen_areas {split : Split} (hs : Splits split) (area : Rect) (hw : 0 ≤ area.width) (hh : 2 ≤ area.height) :
    split screenLayout area =
      [⟨area.x, area.y, area.width, 1⟩, ⟨area.x, area.y + 1, area.width, area.height - 2⟩,
        ⟨area.x, area.y + (area.height - 1), area.width, 1⟩] := by
  have h := rows_of hs usual_screen rfl area hw (by omega)
    (by
      intro c hc
      simp only [screenLayout, Layout.Call.apply, Layout.new, List.mem_cons, List.not_mem_nil, or_false] at hc
      rcases hc with rfl | rfl | rfl
      · exact .inl ⟨1, rfl, by decide⟩
      · exact .inr ⟨1, rfl⟩
      · exact .inl ⟨1, rfl, by decide⟩)
    (by show (1 + (0 + (1 + 0)) : Int) ≤ area.height; omega) ⟨1, List.mem_cons_of_mem _ (List.mem_cons_self ..)⟩
    (fun i => if i = 0 then 0 else if i = 1 then 1 else if i = 2 then area.height - 1 else area.height) (by
      intro i hi a ha
      have : i = 0 ∨ i = 1 ∨ i = 2 ∨ i = 3 := by simp [screenLayout, Layout.Call.apply, Layout.new] at hi; omega
      rcases this with rfl | rfl | rfl | rfl
      · exact whole_bound (by simp [idealStart]) ha
      · exact whole_bound (by
          simp [idealStart, screenLayout, Layout.Call.apply, Layout.new, idealSize, lenOf, share_one, share_len]) ha
      · exact whole_bound (by
          simp [idealStart, screenLayout, Layout.Call.apply, Layout.new, idealSize, lenOf, share_one, share_len]
          try ring) ha
      · exact whole_bound (by
          simp [idealStart, screenLayout, Layout.Call.apply, Layout.new, idealSize, lenOf, share_one, share_len]
          try ring) ha)
  rw [h]
  show [_, _, _] = _
  simp
  omega

theorem rows_areas {split : Split} (hs : Splits split) (area : Rect) (hw : 0 ≤ area.width) (hh : 0 ≤ area.height) :
    split (rowsLayout 9) area = (List.range 3).map fun i : Nat =>
      (⟨area.x, area.y + third area.height i, area.width, third area.height (i + 1) - third area.height i⟩ : Rect) := by
  have h := rows_of hs usual_rows rfl area hw hh
    (by
      intro c hc
      simp only [rowsLayout, Layout.Call.apply, Layout.new, List.mem_replicate] at hc
      exact .inr ⟨1, hc.2⟩)
    (by show (0 + (0 + (0 + 0)) : Int) ≤ area.height; omega) ⟨1, List.mem_cons_self ..⟩
    (fun i => third area.height i) (by
      intro i hi a ha
      have : i = 0 ∨ i = 1 ∨ i = 2 ∨ i = 3 := by simp [rowsLayout, Layout.Call.apply, Layout.new] at hi; omega
      unfold third
      rcases this with rfl | rfl | rfl | rfl
      · exact third_bound (by simp [idealStart]) ha
      · exact third_bound (by
          simp [idealStart, rowsLayout, Layout.Call.apply, Layout.new, idealSize, lenOf, share_one]
          try norm_num
          try ring) ha
      · exact third_bound (by
          simp [idealStart, rowsLayout, Layout.Call.apply, Layout.new, idealSize, lenOf, share_one]
          try norm_num
          try ring) ha
      · exact third_bound (by
          simp [idealStart, rowsLayout, Layout.Call.apply, Layout.new, idealSize, lenOf, share_one]
          try norm_num
          try ring) ha)
  rw [h]
  show (List.range 3).map _ = _
  refine List.map_congr_left fun i _ => ?_
  push_cast
  rfl

theorem columns_areas {split : Split} (hs : Splits split) (area : Rect) (hw : 0 ≤ area.width) (hh : 0 ≤ area.height) :
    split columnsLayout area = (List.range 3).map fun i : Nat =>
      (⟨area.x + third area.width i, area.y, third area.width (i + 1) - third area.width i, area.height⟩ : Rect) := by
  have h := columns_of hs usual_columns rfl area hw hh
    (by
      intro c hc
      simp only [columnsLayout, Layout.Call.apply, Layout.new, List.mem_replicate] at hc
      exact .inr ⟨1, hc.2⟩)
    (by show (0 + (0 + (0 + 0)) : Int) ≤ area.width; omega) ⟨1, List.mem_cons_self ..⟩
    (fun i => third area.width i) (by
      intro i hi a ha
      have : i = 0 ∨ i = 1 ∨ i = 2 ∨ i = 3 := by simp [columnsLayout, Layout.Call.apply, Layout.new] at hi; omega
      unfold third
      rcases this with rfl | rfl | rfl | rfl
      · exact third_bound (by simp [idealStart]) ha
      · exact third_bound (by
          simp [idealStart, columnsLayout, Layout.Call.apply, Layout.new, idealSize, lenOf, share_one]
          try norm_num
          try ring) ha
      · exact third_bound (by
          simp [idealStart, columnsLayout, Layout.Call.apply, Layout.new, idealSize, lenOf, share_one]
          try norm_num
          try ring) ha
      · exact third_bound (by
          simp [idealStart, columnsLayout, Layout.Call.apply, Layout.new, idealSize, lenOf, share_one]
          try norm_num
          try ring) ha)
  rw [h]
  show (List.range 3).map _ = _
  refine List.map_congr_left fun i _ => ?_
  push_cast
  rfl

theorem grid_areas {split : Split} (hs : Splits split) (area : Rect) (hw : 0 ≤ area.width) (hh : 2 ≤ area.height) :
    getGrid split ⟨area.x, area.y + 1, area.width, area.height - 2⟩ 9 = (List.range 9).map (boxArea area) := by
  have hr := rows_areas hs ⟨area.x, area.y + 1, area.width, area.height - 2⟩ hw (by simp only; omega)
  unfold getGrid
  rw [hr, List.flatMap_map]
  have : ∀ i ∈ List.range 3, split columnsLayout ⟨area.x, area.y + 1 + third (area.height - 2) (i : Nat), area.width,
      third (area.height - 2) ((i : Nat) + 1) - third (area.height - 2) (i : Nat)⟩ =
      (List.range 3).map fun j : Nat => (⟨area.x + third area.width j, area.y + 1 + third (area.height - 2) i,
        third area.width (j + 1) - third area.width j,
        third (area.height - 2) (i + 1) - third (area.height - 2) i⟩ : Rect) := by
    intro i hi
    refine columns_areas hs _ hw ?_
    simp only
    have := List.mem_range.1 hi
    unfold third
    have : i = 0 ∨ i = 1 ∨ i = 2 := by omega
    rcases this with rfl | rfl | rfl <;> simp <;> omega
  rw [List.flatMap_congr this]
  rfl

/-! ### A box -/

theorem block_eq (name : String) (h : Plain name.toList) (hne : name.toList ≠ []) (hb : byteSize name.toList < 65536) :
    block name = boxBlock .sharp name := by
  have h : newLineStr name.toList = textLine .none name.toList := (Plain.newLineStr h hne hb).trans rfl
  unfold block
  simp only [Block.Call.apply]
  rw [h]
  unfold Block.withTitle Block.bordered Block.withBorderSides boxBlock
  simp only [if_true, Title.new, ne_eq, not_true, if_false, Block.new, List.nil_append]
  rfl

theorem boxBlock_inner (set : BorderSet) (name : String) (r : Rect) (hw : 2 ≤ r.width) (hh : 2 ≤ r.height) :
    (boxBlock set name).inner r = ⟨r.x + 1, r.y + 1, r.width - 2, r.height - 2⟩ := by
  have h1 : Block.intersects (boxBlock set name).borders Block.sideLeft = true := by
    show Block.intersects 15 8 = true; decide
  have h2 : Block.intersects (boxBlock set name).borders Block.sideTop = true := by
    show Block.intersects 15 1 = true; decide
  have h3 : Block.intersects (boxBlock set name).borders Block.sideRight = true := by
    show Block.intersects 15 2 = true; decide
  have h4 : Block.intersects (boxBlock set name).borders Block.sideBottom = true := by
    show Block.intersects 15 4 = true; decide
  unfold Block.inner
  simp only [h1, h2, h3, h4, Bool.true_or, if_true, Rect.right, Rect.bottom]
  ext <;> simp [boxBlock] <;> omega

/-- Where a throbber of one row and `n` columns is drawn. -/
def spot (area : Rect) (n : Int) : Rect := ⟨area.x + (area.width - n + 1) / 2, area.y + area.height / 2, n, 1⟩

theorem throbber_paints (hu : u.Lawful) (hs : u.Suffix) {throb : Throb} (ht : Throbs u throb) (k : Throbber.Kind)
    (s : Throbber.State) {cs : List Char} (hf : Throbber.frameOf k.set s.frame = some cs) (h : Clean u cs)
    (hb : byteSize cs < 65536) (window area : Rect) (hin : window.In area) (hx : 0 ≤ area.x) (hy : 0 ≤ area.y)
    (hw : (cs.length : Int) ≤ area.width) (hh : 1 ≤ area.height) :
    Repaints window (textPaint cs (spot area cs.length)) (throb (Throbber.new.withType k) area s) := by
  obtain ⟨l, e1, e2, e3, hl⟩ := h.one hu hs hb
  obtain ⟨ω, ω', fuel, hb⟩ := ht (Throbber.new.withType k) area s
  have hin' := hin
  unfold Rect.In at hin'
  have hspot : window.In (spot area cs.length) := by
    unfold Rect.In spot
    simp only
    omega
  have hp := ThrobberExample.text_paints (u := u) (hl window _ hspot) hspot rfl
  intro b wf ha
  obtain ⟨b', e, r⟩ := hp b wf ha
  refine ⟨b', ?_, r⟩
  obtain ⟨hrun, hv⟩ := hb b
  rw [hv]
  clear hv hb r
  revert hrun
  unfold Throbber.render
  rw [show (Throbber.new.withType k).set = k.set from rfl, hf]
  simp only [e1, e2, List.map_cons, List.map_nil, List.foldl_cons, List.foldl_nil, e3, Nat.zero_max, List.length_singleton]
  rw [show (Throbber.new.withType k).padding = Padding.none' from rfl, show (Throbber.new.withType k).vertical = .center from rfl,
    show (Throbber.new.withType k).horizontal = .center from rfl, show (Throbber.new.withType k).style = Style.new from rfl]
  have hi : area.inner Padding.none' = area := Rect.inner_none (by omega) (by omega)
  rcases C86_single_segment ω fuel ⟨.vertical, [.len ((1 : Nat) : Int)], Padding.none', .center, .space 0⟩ _ rfl area with
    e' | ⟨r1, _, _, _, e', hfit, _⟩
  · rw [e']
    intro hrun
    exact absurd rfl hrun
  rcases C86_exact_length ω fuel ⟨.vertical, [.len ((1 : Nat) : Int)], Padding.none', .center, .space 0⟩ _ rfl
    (.inr (.inr rfl)) area (by simp only [hi, Layout.lo]; exact hy) (by omega) (by simp only [hi, Layout.extent]; omega) with
    e'' | ⟨r2, _, _, e'', hx1, hx2⟩
  · rw [e''] at e'; cases e'
  rw [e'] at e''
  simp only [Layout.Outcome.ok.injEq, List.cons.injEq, and_true] at e''
  obtain ⟨rfl, -⟩ := e''
  simp only [hi, Layout.lo, Layout.extent] at hfit hx1 hx2
  obtain ⟨-, -, -, hx', hwid⟩ := hfit
  rw [e']
  simp only [Popup.unwrap]
  have hi1 : r1.inner Padding.none' = r1 := Rect.inner_none (by omega) (by omega)
  rcases C86_single_segment ω' fuel ⟨.horizontal, [.len (cs.length : Int)], Padding.none', .center, .space 0⟩ _ rfl r1 with
    e' | ⟨r, _, _, _, e', hfit, _⟩
  · rw [e']
    intro hrun
    exact absurd rfl hrun
  rcases C86_exact_length ω' fuel ⟨.horizontal, [.len (cs.length : Int)], Padding.none', .center, .space 0⟩ _ rfl
    (.inr (.inr rfl)) r1 (by simp only [hi1, Layout.lo]; omega) (by omega) (by simp only [hi1, Layout.extent]; omega) with
    e'' | ⟨r2, _, _, e'', hz1, hz2⟩
  · rw [e''] at e'; cases e'
  rw [e'] at e''
  simp only [Layout.Outcome.ok.injEq, List.cons.injEq, and_true] at e''
  obtain ⟨rfl, -⟩ := e''
  simp only [hi1, Layout.lo, Layout.extent] at hfit hz1 hz2
  obtain ⟨-, -, -, hy', hhei⟩ := hfit
  rw [e']
  have hr : r = spot area cs.length := by
    unfold spot
    ext <;> simp only <;> omega
  intro _
  simp only [hr, e]
  rfl

/-- The paint of a box with its throbber. -/
def cellPaint (name : String) (cs : List Char) (r : Rect) (q : Position) (c : Cell) : Cell :=
  textPaint cs (spot ⟨r.x + 1, r.y + 1, r.width - 2, r.height - 2⟩ cs.length) q (boxPaint .sharp name r q c)

theorem cellPaint_out {name : String} {cs : List Char} {r : Rect} (hw : (cs.length : Int) + 2 ≤ r.width) (hh : 3 ≤ r.height)
    {q : Position} (h : r.contains q = false) (c : Cell) : cellPaint name cs r q c = c := by
  unfold cellPaint boxPaint textPaint
  rw [if_neg (c := r.contains q = true) (by rw [h]; decide), if_neg]
  · rfl
  · rintro ⟨k, -⟩
    rw [← Bool.not_eq_true, Rect.contains_iff] at h
    rw [Rect.contains_iff] at k
    unfold Rect.Mem spot at *
    simp only at *
    omega

theorem cellPaint_in {name : String} {cs : List Char} {r : Rect} (hw : (cs.length : Int) + 2 ≤ r.width) (hh : 3 ≤ r.height)
    {q : Position} (h : r.contains q = true) :
    cellPaint name cs r q Cell.empty =
      plain (boxSymbol name (String.ofList cs) r.width r.height (q.x - r.x) (q.y - r.y)) := by
  have hq := h
  rw [Rect.contains_iff] at hq
  unfold Rect.Mem at hq
  have htext : (if (spot ⟨r.x + 1, r.y + 1, r.width - 2, r.height - 2⟩ (cs.length : Int)).contains q = true ∧
        q.y = (spot ⟨r.x + 1, r.y + 1, r.width - 2, r.height - 2⟩ (cs.length : Int)).y then
      (cs[(q.x - (spot ⟨r.x + 1, r.y + 1, r.width - 2, r.height - 2⟩ (cs.length : Int)).x).toNat]?).map
        (fun ch => String.ofList [ch]) else none) =
      if q.y - r.y = r.height / 2 then charAt (String.ofList cs) (q.x - r.x - (r.width + 1 - cs.length) / 2) else none := by
    unfold charAt
    rw [String.toList_ofList]
    by_cases hy : q.y - r.y = r.height / 2
    · rw [if_pos hy]
      by_cases hx : 0 ≤ q.x - r.x - (r.width + 1 - cs.length) / 2
      · rw [if_pos hx]
        by_cases hx' : q.x - r.x - (r.width + 1 - cs.length) / 2 < cs.length
        · rw [if_pos]
          · congr 2
            unfold spot
            simp only
            omega
          · rw [Rect.contains_iff]
            unfold Rect.Mem spot
            simp only
            omega
        · rw [if_neg]
          · rw [List.getElem?_eq_none (by omega)]
            rfl
          · rw [Rect.contains_iff]
            unfold Rect.Mem spot
            simp only
            omega
      · rw [if_neg hx, if_neg]
        rw [Rect.contains_iff]
        unfold Rect.Mem spot
        simp only
        omega
    · rw [if_neg hy, if_neg]
      unfold spot
      simp only
      omega
  unfold cellPaint textPaint
  rw [htext]
  unfold boxPaint
  rw [if_pos h]
  unfold onRim BorderSet.boxSymbol boxSymbol plain
  have hset : BorderSet.sharp = ⟨"┌", "┐", "└", "┘", "│", "│", "─", "─"⟩ := rfl
  rw [hset, String.toList_ofList]
  simp only [Lazygit.put_symbol_style]
  generalize hi : q.x - r.x = i at *
  generalize hj : q.y - r.y = j at *
  have hi1 : 0 ≤ i ∧ i ≤ r.width - 1 := by omega
  have hj1 : 0 ≤ j ∧ j ≤ r.height - 1 := by omega
  have hw' : (cs.length : Int) + 2 ≤ r.width := hw
  have hmid : 1 ≤ r.height / 2 ∧ r.height / 2 ≤ r.height - 2 := by omega
  generalize r.height / 2 = mid at *
  have hout : ∀ k : Int, k < (r.width + 1 - cs.length) / 2 ∨ (r.width + 1 - cs.length) / 2 + cs.length ≤ k →
      charAt (String.ofList cs) (k - (r.width + 1 - cs.length) / 2) = none := by
    intro k hk
    unfold charAt
    rw [String.toList_ofList]
    split_ifs
    · rw [List.getElem?_eq_none (by omega)]; rfl
    · rfl
  have h0 : charAt (String.ofList cs) (0 - (r.width + 1 - cs.length) / 2) = none := hout 0 (by omega)
  have h1 : charAt (String.ofList cs) (r.width - 1 - (r.width + 1 - cs.length) / 2) = none := hout _ (by omega)
  generalize charAt (String.ofList cs) = X at *
  generalize charAt name = Y at *
  generalize (r.width + 1 - (cs.length : Int)) / 2 = a at *
  generalize r.width = w at *
  generalize r.height = n at *
  clear hi hj hq htext h hout
  have hempty : Cell.empty = ⟨" ", .reset, .reset, 0, false⟩ := rfl
  rw [hempty]
  by_cases j0 : j = 0
  · subst j0
    have : ¬ (0 : Int) = mid := by omega
    have : ¬ (0 : Int) = n - 1 := by omega
    by_cases i0 : i = 0
    · subst i0
      simp [*, Cell.setSymbol]
    · by_cases i1 : i = w - 1
      · have h2 : ¬ i ≤ w - 2 := by omega
        have h3 : (i = w - 1) = True := eq_true i1
        simp only [i0, h2, h3]
        simp [*, Cell.setSymbol]
      · have h2 : i ≤ w - 2 := by omega
        have h3 : 1 ≤ i := by omega
        simp [*, Cell.setSymbol]
        try (cases Y (i - 1) <;> simp)
  · by_cases j1 : j = n - 1
    · have h2 : ¬ j = mid := by omega
      have h3 : (j = n - 1) = True := eq_true j1
      by_cases i0 : i = 0
      · subst i0
        simp only [j0, h2, h3]
        simp [*, Cell.setSymbol]
      · by_cases i1 : i = w - 1
        · have h4 : (i = w - 1) = True := eq_true i1
          simp only [i0, j0, h2, h3, h4]
          simp [*, Cell.setSymbol]
        · simp only [i0, j0, h2, h3, i1]
          simp [*, Cell.setSymbol]
    · by_cases i0 : i = 0
      · subst i0
        have : ¬ (0 : Int) = w - 1 := by omega
        by_cases hjm : j = mid
        · have h3 : (j = mid) = True := eq_true hjm
          simp only [j0, j1, h3, h0]
          simp [*, Cell.setSymbol]
        · simp [*, Cell.setSymbol]
      · by_cases i1 : i = w - 1
        · have h4 : (i = w - 1) = True := eq_true i1
          by_cases hjm : j = mid
          · have h3 : (j = mid) = True := eq_true hjm
            have : X (i - a) = none := by rw [i1]; exact h1
            simp only [j0, j1, h3, i0, h4]
            simp [*, Cell.setSymbol]
          · simp only [j0, j1, hjm, i0, h4]
            simp [*, Cell.setSymbol]
        · simp only [j0, j1, i0, i1]
          by_cases hjm : j = mid <;> simp [hjm, Cell.setSymbol]

/-! ### All boxes -/

theorem repaints_fold {window : Rect} {g : Nat → Position → Cell → Cell} {f : Nat → Buffer → Option Buffer} :
    ∀ is : List Nat, (∀ i ∈ is, Repaints window (g i) (f i)) →
      Repaints window (fun q c => is.foldl (fun c i => g i q c) c) (fun b => is.foldlM (fun b i => f i b) b)
  | [], _ => Repaints.nothing window
  | i :: is, h => (h i (List.mem_cons_self ..)).bind (repaints_fold is fun j hj => h j (List.mem_cons_of_mem _ hj))

theorem foldl_none {g : Nat → Cell → Cell} : ∀ (is : List Nat) (c : Cell), (∀ j ∈ is, ∀ c, g j c = c) →
    is.foldl (fun c i => g i c) c = c
  | [], _, _ => rfl
  | j :: is, c, h => by
    rw [List.foldl_cons, h j (List.mem_cons_self ..)]
    exact foldl_none is c fun k hk => h k (List.mem_cons_of_mem _ hk)

theorem foldl_one {g : Nat → Cell → Cell} {i : Nat} : ∀ (is : List Nat) (c : Cell), is.Nodup → i ∈ is →
    (∀ j ∈ is, j ≠ i → ∀ c, g j c = c) → is.foldl (fun c i => g i c) c = g i c
  | [], _, _, hi, _ => absurd hi List.not_mem_nil
  | j :: is, c, hn, hi, h => by
    obtain ⟨hj, hn⟩ := List.nodup_cons.1 hn
    rw [List.foldl_cons]
    by_cases e : j = i
    · subst e
      exact foldl_none is _ fun k hk c => h k (List.mem_cons_of_mem _ hk) (fun e => hj (e ▸ hk)) c
    · rw [h j (List.mem_cons_self ..) e]
      rcases List.mem_cons.1 hi with k | hi
      · exact absurd k.symm e
      · exact foldl_one is c hn hi fun k hk => h k (List.mem_cons_of_mem _ hk)

/-- What is known of a throbber of the program. -/
structure Act (k : Throbber.Kind) (name : String) : Prop where
  named : nameOf k = some name
  plain : Plain name.toList
  nonempty : name.toList ≠ []
  short : byteSize name.toList < 65536
  set : k.set ≠ []
  small : ∀ f ∈ k.set, f.length ≤ 3 ∧ byteSize f < 65536
  symbols : ∀ f ∈ k.set, ∀ c ∈ f, Symbols (String.ofList [c])

theorem acts_types : acts = types.map fun k => ((nameOf k).getD "", k.set.map String.ofList) := by decide +kernel

theorem act_of {k : Throbber.Kind} (hk : k ∈ types) : Act k ((nameOf k).getD "") := by
  refine ⟨?_, ?_, ?_, ?_, ?_, ?_, fun f hf c hc => .inr (.inr ?_)⟩
  · revert k; decide
  · revert k; decide
  · revert k; decide
  · revert k; decide
  · revert k; decide
  · revert k; decide
  · refine ⟨((nameOf k).getD "", k.set.map String.ofList), ?_, String.ofList f, List.mem_map.2 ⟨f, hf, rfl⟩, c, ?_, rfl⟩
    · rw [acts_types]; exact List.mem_map.2 ⟨k, hk, rfl⟩
    · rw [String.toList_ofList]; exact hc

theorem frame_of {k : Throbber.Kind} {name : String} (h : Act k name) (frame : Nat) :
    ∃ cs, Throbber.frameOf k.set frame = some cs ∧ cs ∈ k.set ∧ k.set[frame % k.set.length]? = some cs := by
  obtain ⟨h1, h2, _⟩ := C74_cycle k.set h.set frame (by omega)
  obtain ⟨cs, hcs⟩ := Option.isSome_iff_exists.1 h2
  rw [hcs] at h1
  have : ((frame : Int) % (k.set.length : Int)).toNat = frame % k.set.length := by omega
  rw [this] at h1
  exact ⟨cs, hcs, List.mem_of_getElem? h1.symm, h1.symm⟩

theorem ascii_of (hS : Plainly u S) (hsym : ∀ s, Symbols s → S s) : Plainly u Ascii :=
  Lazygit.plainly_ascii hS fun s hs => hsym s (.inl hs)

theorem box_paints (hu : u.Lawful) (hs : u.Suffix) (hS : Plainly u S) (hsym : ∀ s, Symbols s → S s)
    (hvis : ∀ s, S s → s.toList.any isControlRune = false) {throb : Throb} (ht : Throbs u throb) (m : Model) (frame : Nat)
    (hf : m.throbber.frame = frame) {grid : List Rect} {i : Nat} {k : Throbber.Kind} {name : String} (hk : types[i]? = some k)
    (ha : Act k name) {r : Rect} (hr : grid[i]? = some r) {cs : List Char} (hcs : k.set[frame % k.set.length]? = some cs)
    (window : Rect) (hin : window.In r) (hx : 0 ≤ r.x) (hy : 0 ≤ r.y) (hw : 5 ≤ r.width) (hh : 3 ≤ r.height) :
    Repaints window (cellPaint name cs r) (renderThrobber throb u m grid i) := by
  obtain ⟨cs', e1, e2, e3⟩ := frame_of ha frame
  rw [hcs] at e3
  cases e3
  obtain ⟨s1, s2⟩ := ha.small cs e2
  have hbox := boxBlock_paints hu hs (ascii_of hS hsym) .sharp name ha.plain window r hin (by omega) (by omega)
  have hin' := hin
  unfold Rect.In at hin'
  have hthr := throbber_paints hu hs ht k m.throbber (by rw [hf]; exact e1)
    (clean_of hS hvis fun c hc => hsym _ (ha.symbols cs e2 c hc)) s2 window
    ⟨r.x + 1, r.y + 1, r.width - 2, r.height - 2⟩ (by unfold Rect.In; simp only; omega) (by simp only; omega)
    (by simp only; omega) (by simp only; omega) (by simp only; omega)
  have he : renderThrobber throb u m grid i = fun b => ((boxBlock .sharp name).render u r b).bind
      (throb (Throbber.new.withType k) ⟨r.x + 1, r.y + 1, r.width - 2, r.height - 2⟩ m.throbber) := by
    funext b
    unfold renderThrobber
    rw [hk, hr]
    simp only [Option.bind_eq_bind, Option.bind_some, ha.named]
    rw [block_eq name ha.plain ha.nonempty ha.short, boxBlock_inner .sharp name r (by omega) (by omega)]
  rw [he]
  exact hbox.bind hthr

theorem third_facts (n : Int) (h : 9 ≤ n) (i : Nat) (hi : i < 3) : 0 ≤ third n i ∧ third n i + 3 ≤ third n (i + 1) ∧
    third n (i + 1) ≤ n := by
  unfold third
  have : i = 0 ∨ i = 1 ∨ i = 2 := by omega
  rcases this with rfl | rfl | rfl <;> simp <;> omega

theorem third_wide (n : Int) (h : 15 ≤ n) (i : Nat) (hi : i < 3) : third n i + 5 ≤ third n (i + 1) := by
  unfold third
  have : i = 0 ∨ i = 1 ∨ i = 2 := by omega
  rcases this with rfl | rfl | rfl <;> simp <;> omega

theorem third_mono (n : Int) (h : 0 ≤ n) {i j : Nat} (hij : i ≤ j) : third n i ≤ third n j := by
  unfold third
  have : (i : Int) * n ≤ j * n := Int.mul_le_mul_of_nonneg_right (by omega) h
  omega

/-- The boxes do not overlap. -/
theorem boxes_apart (area : Rect) (hw : 0 ≤ area.width) (hh : 2 ≤ area.height) {i j : Nat} (q : Position)
    (h1 : (boxArea area i).contains q = true) (h2 : (boxArea area j).contains q = true) : i = j := by
  rw [Rect.contains_iff] at h1 h2
  unfold Rect.Mem boxArea at h1 h2
  simp only at h1 h2
  have m1 : ∀ a b : Nat, a < b → third area.width (a + 1) ≤ third area.width b := by
    intro a b h
    exact_mod_cast third_mono area.width hw (i := a + 1) (j := b) h
  have m2 : ∀ a b : Nat, a < b → third (area.height - 2) (a + 1) ≤ third (area.height - 2) b := by
    intro a b h
    exact_mod_cast third_mono (area.height - 2) (by omega) (i := a + 1) (j := b) h
  have hr : i / 3 = j / 3 := by
    rcases Nat.lt_trichotomy (i / 3) (j / 3) with h | h | h
    · have := m2 _ _ h; omega
    · exact h
    · have := m2 _ _ h; omega
  have hc : i % 3 = j % 3 := by
    rcases Nat.lt_trichotomy (i % 3) (j % 3) with h | h | h
    · have := m1 _ _ h; omega
    · exact h
    · have := m1 _ _ h; omega
  omega

/-- The boxes are between the first and the last row. -/
theorem boxes_between (area : Rect) (hw : 15 ≤ area.width) (hh : 11 ≤ area.height) {i : Nat} (hi : i < 9) :
    area.x ≤ (boxArea area i).x ∧ (boxArea area i).x + (boxArea area i).width ≤ area.x + area.width ∧
    area.y + 1 ≤ (boxArea area i).y ∧ (boxArea area i).y + (boxArea area i).height ≤ area.y + area.height - 1 ∧
    5 ≤ (boxArea area i).width ∧ 3 ≤ (boxArea area i).height := by
  have h1 := third_facts area.width (by omega) (i % 3) (by omega)
  have h2 := third_wide area.width (by omega) (i % 3) (by omega)
  have h3 := third_facts (area.height - 2) (by omega) (i / 3) (by omega)
  unfold boxArea
  simp only
  omega

theorem render_eq {split : Split} {throb : Throb} {duration : Int → String} (m : Model) (area : Rect) {a0 a1 a2 : Rect}
    (e : split screenLayout area = [a0, a1, a2]) :
    render split throb u duration m area = fun b => (((newTextStr (info duration m).toList).render u a0 b).bind
      (renderThrobbers split throb u m a1)).bind ((newTextStr footer.toList).render u a2) := by
  funext b
  unfold render
  simp only [e, Option.bind_eq_bind]
  show (some a0).bind _ = _
  simp only [Option.bind_some, List.getElem?_cons_succ, List.getElem?_cons_zero]
  cases (newTextStr (info duration m).toList).render u a0 b <;> rfl

theorem textPaint_out {cs : List Char} {r : Rect} {q : Position} (h : r.contains q = false) (c : Cell) :
    textPaint cs r q c = c := by
  unfold textPaint
  rw [if_neg (by rw [h]; simp)]
  rfl

theorem textPaint_row (text : String) {r : Rect} (hh : r.height = 1) {q : Position} (h : r.contains q = true) :
    textPaint text.toList r q Cell.empty = plain ((charAt text (q.x - r.x)).getD " ") := by
  have hq := h
  rw [Rect.contains_iff] at hq
  unfold Rect.Mem at hq
  unfold textPaint charAt plain
  rw [if_pos ⟨h, by omega⟩, if_pos (by omega)]
  cases text.toList[(q.x - r.x).toNat]? <;> rfl

theorem byteSize_append (a b : List Char) : byteSize (a ++ b) = byteSize a + byteSize b := by
  unfold byteSize
  simp

theorem info_clean (hsym : ∀ s, Symbols s → S s) {duration : Int → String} (hd : Writes S duration) (m : Model) :
    (∀ c ∈ (info duration m).toList, S (String.ofList [c])) ∧ byteSize (info duration m).toList < 65536 := by
  obtain ⟨d1, d2⟩ := hd m.fps
  unfold info
  rw [String.toList_append]
  refine ⟨fun c hc => ?_, ?_⟩
  · rcases List.mem_append.1 hc with h | h
    · have := InputExample.plain_text (s := "FPS ") (by decide) c h
      exact hsym _ (.inl ⟨c, this.1, this.2, rfl⟩)
    · exact d1 c h
  · rw [byteSize_append]
    have : byteSize "FPS ".toList = 4 := by decide
    omega

theorem frame_cells (hu : u.Lawful) (hs : u.Suffix) (hS : Plainly u S) (hsym : ∀ s, Symbols s → S s)
    (hvis : ∀ s, S s → s.toList.any isControlRune = false) {split : Split} (hsp : Splits split) {throb : Throb}
    (ht : Throbs u throb) {duration : Int → String} (hd : Writes S duration) (m : Model) (frame : Nat)
    (hf : m.throbber.frame = frame) (area : Rect) (hx : 0 ≤ area.x) (hy : 0 ≤ area.y) (hw : 15 ≤ area.width)
    (hh : 11 ≤ area.height) (b : Buffer) (hb : b.Blank area) :
    ∃ b', render split throb u duration m area b = some b' ∧ b'.area = area ∧
      Pictured (duration m.fps) frame area b' := by
  have hin : ∀ r : Rect, area.x ≤ r.x → r.x + r.width ≤ area.x + area.width → area.y ≤ r.y →
      r.y + r.height ≤ area.y + area.height → 0 ≤ r.width → 0 ≤ r.height → area.In r :=
    fun r h1 h2 h3 h4 h5 h6 => ⟨h1, h2, h3, h4, h5, h6⟩
  have hinfo : Clean u (info duration m).toList ∧ byteSize (info duration m).toList < 65536 :=
    ⟨clean_of hS hvis (info_clean hsym hd m).1, (info_clean hsym hd m).2⟩
  have hfoot : Clean u footer.toList ∧ byteSize footer.toList < 65536 := by
    refine ⟨clean_of hS hvis fun c hc => ?_, by decide⟩
    have := InputExample.plain_text (s := footer) (by decide) c hc
    exact hsym _ (.inl ⟨c, this.1, this.2, rfl⟩)
  have e0 := screen_areas hsp area (by omega) (by omega)
  have p0 := hinfo.1.text_paints hu hs hinfo.2 area ⟨area.x, area.y, area.width, 1⟩
    (hin _ (by simp) (by simp) (by simp) (by simp only; omega) (by simp only; omega) (by simp)) rfl
  have p2 := hfoot.1.text_paints hu hs hfoot.2 area ⟨area.x, area.y + (area.height - 1), area.width, 1⟩
    (hin _ (by simp) (by simp) (by simp only; omega) (by simp only; omega) (by simp only; omega) (by simp)) rfl
  have hgrid := grid_areas hsp area (by omega) (by omega)
  -- the boxes
  have hact : ∀ i < 9, ∃ k name cs, types[i]? = some k ∧ Act k name ∧ k.set[frame % k.set.length]? = some cs ∧ cs.length ≤ 3 := by
    intro i hi
    have hlt : i < types.length := hi
    have hk : types[i]? = some types[i] := List.getElem?_eq_getElem hlt
    have ha := act_of (List.getElem_mem hlt)
    obtain ⟨cs, _, h2, h3⟩ := frame_of ha frame
    exact ⟨_, _, cs, hk, ha, h3, (ha.small cs h2).1⟩
  have hget : ∀ i < 9, (getGrid split ⟨area.x, area.y + 1, area.width, area.height - 2⟩ 9)[i]? = some (boxArea area i) := by
    intro i hi
    rw [hgrid, List.getElem?_map, List.getElem?_range hi]
    rfl
  choose! kind name cs k1 k2 k3 k4 using hact
  have p1 : Repaints area (fun q c => (List.range 9).foldl (fun c i => cellPaint (name i) (cs i) (boxArea area i) q c) c)
      (renderThrobbers split throb u m ⟨area.x, area.y + 1, area.width, area.height - 2⟩) := by
    refine repaints_fold (g := fun i => cellPaint (name i) (cs i) (boxArea area i)) (List.range 9) fun i hi => ?_
    have hi := List.mem_range.1 hi
    have := boxes_between area hw hh hi
    exact box_paints hu hs hS hsym hvis ht m frame hf (k1 i hi) (k2 i hi) (hget i hi) (k3 i hi) area
      (hin _ (by omega) (by omega) (by omega) (by omega) (by omega) (by omega)) (by omega) (by omega) (by omega) (by omega)
  have hp := (p0.bind p1).bind p2
  obtain ⟨b', e, wf', a', c'⟩ := hp b hb.wf hb.area_eq
  dsimp only at c'
  have hsub : ∀ i < 9, ∀ q, (boxArea area i).contains q = true →
      area.contains q = true ∧ area.y + 1 ≤ q.y ∧ q.y < area.y + area.height - 1 := by
    intro i hi q hq
    have := boxes_between area hw hh hi
    rw [Rect.contains_iff] at hq ⊢
    unfold Rect.Mem at *
    omega
  have hout : ∀ (r : Rect) (q : Position), ¬ (r.y ≤ q.y ∧ q.y < r.y + r.height) → r.contains q = false := by
    intro r q h
    rw [← Bool.not_eq_true, Rect.contains_iff]
    unfold Rect.Mem
    omega
  have hnobox : ∀ q, ¬ (area.y + 1 ≤ q.y ∧ q.y < area.y + area.height - 1) → ∀ c,
      (List.range 9).foldl (fun c i => cellPaint (name i) (cs i) (boxArea area i) q c) c = c := by
    intro q hq c
    refine foldl_none (g := fun i => cellPaint (name i) (cs i) (boxArea area i) q) _ c fun i hi c => ?_
    have hi := List.mem_range.1 hi
    have hbt := boxes_between area hw hh hi
    have := k4 i hi
    refine cellPaint_out (by omega) (by omega) ?_ c
    rw [← Bool.not_eq_true]
    intro k
    exact hq (hsub i hi q k).2
  refine ⟨b', by rw [render_eq m area e0]; exact e, a', ?_, ?_, ?_⟩
  · intro q hq hqy
    rw [c', hb.cells q hq, Option.map_some]
    rw [hnobox q (by omega), textPaint_out (r := ⟨area.x, area.y + (area.height - 1), area.width, 1⟩) (hout _ q (by simp only; omega))]
    congr 1
    refine textPaint_row (info duration m) rfl ?_
    rw [Rect.contains_iff] at hq ⊢
    unfold Rect.Mem at *
    simp only
    omega
  · intro i nm frames f h1 h2 q hq
    have hi : i < 9 := by
      have := (List.getElem?_eq_some_iff.1 h1).1
      exact this
    obtain ⟨s1, s2, s3⟩ := hsub i hi q hq
    have hbt := boxes_between area hw hh hi
    have hlen := k4 i hi
    rw [c', hb.cells q s1, Option.map_some]
    rw [textPaint_out (r := ⟨area.x, area.y, area.width, 1⟩) (hout _ q (by simp only; omega)) Cell.empty]
    rw [foldl_one (g := fun j => cellPaint (name j) (cs j) (boxArea area j) q) (i := i) (List.range 9) _ List.nodup_range
      (List.mem_range.2 hi) (fun j hj hji c => ?_)]
    · rw [textPaint_out (r := ⟨area.x, area.y + (area.height - 1), area.width, 1⟩) (hout _ q (by simp only; omega))]
      congr 1
      rw [cellPaint_in (by omega) (by omega) hq]
      rw [acts_types, List.getElem?_map, k1 i hi, Option.map_some] at h1
      obtain ⟨rfl, rfl⟩ := Prod.mk.inj (Option.some.inj h1)
      rw [List.length_map, List.getElem?_map, k3 i hi, Option.map_some] at h2
      obtain rfl := Option.some.inj h2
      rw [(k2 i hi).named]
      rfl
    · have hj := List.mem_range.1 hj
      have hbt := boxes_between area hw hh hj
      have := k4 j hj
      refine cellPaint_out (by omega) (by omega) ?_ c
      rw [← Bool.not_eq_true]
      intro k
      exact hji (boxes_apart area (by omega) (by omega) q k hq)
  · intro q hq hqy
    rw [c', hb.cells q hq, Option.map_some]
    rw [hnobox q (by omega), textPaint_out (r := ⟨area.x, area.y, area.width, 1⟩) (hout _ q (by simp only; omega))]
    congr 1
    refine textPaint_row footer rfl ?_
    rw [Rect.contains_iff] at hq ⊢
    unfold Rect.Mem at *
    simp only
    omega

/-! ### Nothing panics, whatever the size -/

/-- The operation does not panic on a buffer of the window. -/
def Safe (window : Rect) (f : Buffer → Option Buffer) : Prop :=
  ∀ b : Buffer, b.WF → b.area = window → ∃ b', f b = some b' ∧ b'.WF ∧ b'.area = window

theorem Safe.bind {window : Rect} {f g : Buffer → Option Buffer} (hf : Safe window f) (hg : Safe window g) :
    Safe window fun b => (f b).bind g := by
  intro b wf ha
  obtain ⟨b1, e1, w1, a1⟩ := hf b wf ha
  obtain ⟨b2, e2, w2, a2⟩ := hg b1 w1 a1
  refine ⟨b2, ?_, w2, a2⟩
  show (f b).bind g = some b2
  rw [e1]
  exact e2

theorem safe_fold {window : Rect} {f : Nat → Buffer → Option Buffer} :
    ∀ is : List Nat, (∀ i ∈ is, Safe window (f i)) → Safe window (fun b => is.foldlM (fun b i => f i b) b)
  | [], _ => fun b wf ha => ⟨b, rfl, wf, ha⟩
  | i :: is, h => (h i (List.mem_cons_self ..)).bind (safe_fold is fun j hj => h j (List.mem_cons_of_mem _ hj))

theorem safe_text (window : Rect) (t : Text) (area : Rect) : Safe window (t.render u area) := by
  intro b wf ha
  obtain ⟨b', e, a, w, _⟩ := C32_text_confined u t area b wf
  exact ⟨b', e, w, a.trans ha⟩

theorem grid_in {split : Split} (hs : Splits split) {window area : Rect} (hin : window.In area) (hx : 0 ≤ area.x) :
    (getGrid split area 9).length = 9 ∧ ∀ r ∈ getGrid split area 9, window.In r ∧ 0 ≤ r.x := by
  obtain ⟨i1, i2, i3, i4, i5, i6⟩ := id hin
  obtain ⟨l1, f1⟩ := Lazygit.split_fits hs usual_rows area i5 i6
  have hrow : ∀ r ∈ split (rowsLayout 9) area, window.In r ∧ 0 ≤ r.x := fun r hr => Lazygit.fits_in hin hx (f1 r hr)
  have hlen : ∀ r ∈ split (rowsLayout 9) area, (split columnsLayout r).length = 3 := by
    intro r hr
    have := (hrow r hr).1
    exact (Lazygit.split_fits hs usual_columns r this.2.2.2.2.1 this.2.2.2.2.2).1
  unfold getGrid
  refine ⟨?_, fun r hr => ?_⟩
  · rw [List.length_flatMap, List.map_congr_left hlen, List.map_const', List.sum_replicate, l1]
    rfl
  · obtain ⟨r1, h1, h2⟩ := List.mem_flatMap.1 hr
    have := hrow r1 h1
    exact Lazygit.fits_in this.1 this.2 ((Lazygit.split_fits hs usual_columns r1 this.1.2.2.2.2.1 this.1.2.2.2.2.2).2 r h2)

theorem safe_box {throb : Throb} (ht : Throbs u throb) (m : Model) (hf : 0 ≤ m.throbber.frame) {grid : List Rect} {i : Nat}
    {k : Throbber.Kind} {name : String} (hk : types[i]? = some k) (ha : Act k name) {r : Rect} (hr : grid[i]? = some r)
    (window : Rect) (hin : window.In r) (hx : 0 ≤ r.x) : Safe window (renderThrobber throb u m grid i) := by
  have he : renderThrobber throb u m grid i = fun b => ((block name).render u r b).bind
      (throb (Throbber.new.withType k) ((block name).inner r) m.throbber) := by
    funext b
    unfold renderThrobber
    rw [hk, hr]
    simp only [Option.bind_eq_bind, Option.bind_some, ha.named]
  rw [he]
  refine Safe.bind (fun b wf hb => ?_) fun b wf hb => ?_
  · obtain ⟨b', e, a, w, _⟩ := C43_frame_only_partial u (block name) r b wf (by unfold Inside; rw [hb]; exact hin) hx
    exact ⟨b', e, w, a.trans hb⟩
  · obtain ⟨ω, ω', fuel, h⟩ := ht (Throbber.new.withType k) ((block name).inner r) m.throbber
    obtain ⟨h1, h2⟩ := h b
    rcases C74_confined ω ω' fuel u (Throbber.new.withType k) ha.set ((block name).inner r) b wf m.throbber hf
      (show (0 : Int) ≤ 0 ∧ (0 : Int) ≤ 0 ∧ (0 : Int) ≤ 0 ∧ (0 : Int) ≤ 0 by decide) with
      e | ⟨b', e, a, w, _⟩
    · exact absurd e h1
    · exact ⟨b', by rw [h2, e]; rfl, w, a.trans hb⟩

theorem act_at {i : Nat} (hi : i < 9) : ∃ k name, types[i]? = some k ∧ Act k name := by
  have hlt : i < types.length := hi
  exact ⟨_, _, List.getElem?_eq_getElem hlt, act_of (List.getElem_mem hlt)⟩

theorem list_three {α : Type} {l : List α} (h : l.length = 3) : ∃ a b c, l = [a, b, c] := by
  rcases l with _ | ⟨a, _ | ⟨b, _ | ⟨c, _ | ⟨d, l⟩⟩⟩⟩ <;> simp at h
  exact ⟨a, b, c, rfl⟩

theorem render_safe {split : Split} (hsp : Splits split) {throb : Throb} (ht : Throbs u throb) (duration : Int → String)
    (m : Model) (hf : 0 ≤ m.throbber.frame) (area : Rect) (hx : 0 ≤ area.x) (hw : 0 ≤ area.width) (hh : 0 ≤ area.height) :
    Safe area (render split throb u duration m area) := by
  have hin : area.In area := by unfold Rect.In; omega
  obtain ⟨l1, f1⟩ := Lazygit.split_fits hsp usual_screen area hw hh
  obtain ⟨a0, a1, a2, e⟩ := list_three (l := split screenLayout area) (by rw [l1]; rfl)
  have i1 := Lazygit.fits_in hin hx (f1 a1 (by rw [e]; simp))
  obtain ⟨g1, g2⟩ := grid_in hsp i1.1 i1.2
  rw [render_eq m area e]
  refine ((safe_text area _ a0).bind ?_).bind (safe_text area _ a2)
  refine safe_fold (List.range types.length) fun i hi => ?_
  have hi : i < 9 := List.mem_range.1 hi
  obtain ⟨k, name, h1, h2⟩ := act_at hi
  have hlt : i < (getGrid split a1 9).length := by rw [g1]; exact hi
  have hr := g2 _ (List.getElem_mem hlt)
  exact safe_box ht m hf h1 h2 (List.getElem?_eq_getElem hlt) area hr.1 hr.2

/-! ### What is drawn can be shown -/

theorem text_madeOf {St : Style → Prop} (hn : St Style.new) (hS : Plainly u S)
    (hvis : ∀ s, S s → s.toList.any isControlRune = false) {cs : List Char} (h : ∀ c ∈ cs, S (String.ofList [c]))
    (hb : byteSize cs < 65536) : (newTextStr cs).MadeOf u S St := by
  have hc := clean_of hS hvis h
  by_cases hne : cs = []
  · subst hne
    have hl : newLineStr [] = ⟨Style.new, [], .none⟩ := by decide
    have : newTextStr [] = ⟨Style.new, [⟨Style.new, [], .none⟩], .none⟩ := by
      unfold newTextStr newLinesStr
      rw [if_pos rfl, hl]
    rw [this]
    refine ⟨hn, fun l hl => ?_⟩
    obtain rfl := List.mem_singleton.1 hl
    exact ⟨hn, fun s hs => absurd hs List.not_mem_nil⟩
  · rw [hc.text hne hb]
    refine ⟨hn, fun l hl => ?_⟩
    obtain rfl := List.mem_singleton.1 hl
    refine ⟨hn, fun s hs => ?_⟩
    obtain rfl : s = Span.new (String.ofList cs) := by simpa [textLine] using hs
    refine ⟨hn, fun c hcc => ?_⟩
    rw [show (Span.new (String.ofList cs)).content = String.ofList cs from rfl, hc.graphemes] at hcc
    obtain ⟨ch, hch, rfl⟩ := List.mem_map.1 hcc
    exact h ch hch

theorem drawing_fold {St : Style → Prop} {f : Nat → Buffer → Option Buffer} :
    ∀ is : List Nat, (∀ i ∈ is, Drawing u S St (f i)) → Drawing u S St (fun b => is.foldlM (fun b i => f i b) b)
  | [], _ => .nothing
  | i :: is, h => .both (h i (List.mem_cons_self ..)) (drawing_fold is fun j hj => h j (List.mem_cons_of_mem _ hj))

theorem boxBlock_madeOf {St : Style → Prop} (hn : St Style.new) (hS : Plainly u S) (hsym : ∀ s, Symbols s → S s)
    (hvis : ∀ s, S s → s.toList.any isControlRune = false) {name : String} (h : Plain name.toList) :
    (boxBlock .sharp name).MadeOf u S St := by
  refine ⟨hn, hn, hn, fun s hs => hsym s (.inr (.inl ?_)), fun t ht => ?_⟩
  · revert s
    show ∀ s ∈ ["┌", "┐", "└", "┘", "│", "│", "─", "─"], s ∈ ["┌", "┐", "└", "┘", "─", "│"]
    decide
  · have : t = ⟨.none, none, textLine .none name.toList⟩ := by simpa [boxBlock] using ht
    subst this
    refine ⟨hn, fun s hs => ?_⟩
    obtain rfl : s = Span.new (String.ofList name.toList) := by simpa [textLine] using hs
    refine ⟨hn, fun c hcc => ?_⟩
    have hc : ∀ c ∈ name.toList, S (String.ofList [c]) := fun c hc => hsym _ (.inl ⟨c, (h c hc).1, (h c hc).2, rfl⟩)
    rw [show (Span.new (String.ofList name.toList)).content = String.ofList name.toList from rfl,
      (clean_of hS hvis hc).graphemes] at hcc
    obtain ⟨ch, hch, rfl⟩ := List.mem_map.1 hcc
    exact hc ch hch

theorem throb_drawing {St : Style → Prop} (hn : St Style.new) (hS : Plainly u S) (hsym : ∀ s, Symbols s → S s)
    (hvis : ∀ s, S s → s.toList.any isControlRune = false) {throb : Throb} (ht : Throbs u throb) {k : Throbber.Kind}
    {name : String} (ha : Act k name) (area : Rect) (s : Throbber.State) :
    Drawing u S St (throb (Throbber.new.withType k) area s) := by
  obtain ⟨ω, ω', fuel, h⟩ := ht (Throbber.new.withType k) area s
  rw [show throb (Throbber.new.withType k) area s = fun b =>
    (Throbber.render ω ω' fuel u (Throbber.new.withType k) area b s).value from funext fun b => (h b).2]
  refine .throbber ω ω' fuel ⟨hn, fun n f hf => ?_⟩ area s
  have hf : f ∈ k.set := by
    change Throbber.frameOf k.set n = some f at hf
    unfold Throbber.frameOf at hf
    rw [if_neg ha.set] at hf
    dsimp only at hf
    by_cases hneg : n.tmod (k.set.length : Int) < 0
    · rw [if_pos hneg] at hf
      cases hf
    · rw [if_neg hneg] at hf
      exact List.mem_of_getElem? hf
  exact text_madeOf hn hS hvis (fun c hc => hsym _ (ha.symbols f hf c hc)) (ha.small f hf).2

theorem render_drawing {T : Termenv} (hS : Plainly u S) (hsym : ∀ s, Symbols s → S s)
    (hvis : ∀ s, S s → s.toList.any isControlRune = false) {split : Split} (hsp : Splits split) {throb : Throb}
    (ht : Throbs u throb) {duration : Int → String} (hd : Writes S duration) (m : Model) (area : Rect) (hx : 0 ≤ area.x)
    (hw : 0 ≤ area.width) (hh : 0 ≤ area.height) :
    Drawing u S (Style.Shown T) (render split throb u duration m area) := by
  have hn := Lazygit.shown_new T
  have hin : area.In area := by unfold Rect.In; omega
  obtain ⟨l1, f1⟩ := Lazygit.split_fits hsp usual_screen area hw hh
  obtain ⟨a0, a1, a2, e⟩ := list_three (l := split screenLayout area) (by rw [l1]; rfl)
  have i1 := Lazygit.fits_in hin hx (f1 a1 (by rw [e]; simp))
  obtain ⟨g1, g2⟩ := grid_in hsp i1.1 i1.2
  rw [render_eq m area e]
  obtain ⟨t1, t2⟩ := info_clean hsym hd m
  refine .both (.both (.text (text_madeOf hn hS hvis t1 t2) a0) ?_) (.text (text_madeOf hn hS hvis (fun c hc => ?_) (by decide)) a2)
  · refine drawing_fold (List.range types.length) fun i hi => ?_
    have hi : i < 9 := List.mem_range.1 hi
    obtain ⟨k, name, h1, h2⟩ := act_at hi
    have hlt : i < (getGrid split a1 9).length := by rw [g1]; exact hi
    have he : renderThrobber throb u m (getGrid split a1 9) i = fun b =>
        ((boxBlock .sharp name).render u (getGrid split a1 9)[i] b).bind
        (throb (Throbber.new.withType k) ((boxBlock .sharp name).inner (getGrid split a1 9)[i]) m.throbber) := by
      funext b
      unfold renderThrobber
      rw [h1, List.getElem?_eq_getElem hlt]
      simp only [Option.bind_eq_bind, Option.bind_some, h2.named]
      rw [block_eq name h2.plain h2.nonempty h2.short]
    show Drawing u S (Style.Shown T) (renderThrobber throb u m (getGrid split a1 9) i)
    rw [he]
    exact .both (.block (boxBlock_madeOf hn hS hsym hvis h2.plain) _) (throb_drawing hn hS hsym hvis ht h2 _ _)
  · have := InputExample.plain_text (s := footer) (by decide) c hc
    exact hsym _ (.inl ⟨c, this.1, this.2, rfl⟩)

theorem view_good {T : Termenv} (hu : u.Lawful) (hc : T.convert .reset = some .reset) (hS : Plainly u S)
    (hsym : ∀ s, Symbols s → S s) (hvis : ∀ s, S s → s.toList.any isControlRune = false) {split : Split}
    (hsp : Splits split) {throb : Throb} (ht : Throbs u throb) {duration : Int → String} (hd : Writes S duration) (m : Model)
    (hf : 0 ≤ m.throbber.frame) : (view split throb u duration m).Good u T S := by
  intro area b hx hy hb
  have hw : 0 ≤ area.width := by rw [← hb.area_eq]; exact hb.wf.width_nonneg
  have hh : 0 ≤ area.height := by rw [← hb.area_eq]; exact hb.wf.height_nonneg
  obtain ⟨b', e, _⟩ := render_safe hsp ht duration m hf area hx hw hh b hb.wf hb.area_eq
  refine ⟨b', none, ?_, (C102_frame hu hc hS (render_drawing hS hsym hvis hsp ht hd m area hx hw hh) hb e).1,
    fun p hp => (by cases hp)⟩
  show (render split throb u duration m area b).map _ = _
  rw [e]
  rfl

end Bento.ThrobberExample
