import Verif.Lemmas.Repaints
import Verif.Lemmas.Scan
import Verif.Spec.Lazygit

/-!
# The panels of the example program
-/

namespace Bento.Lazygit

theorem newLineStr_one (cs : List Char) (hne : cs ≠ []) (h1 : '\n' ∉ cs) (h2 : '\r' ∉ cs) (h3 : byteSize cs < 65536) :
    newLineStr cs = Line.new [Span.new (String.ofList cs)] := by
  unfold newLineStr
  rcases cs with _ | ⟨c, cs⟩
  · exact absurd rfl hne
  · unfold scanLines
    simp only
    obtain ⟨k1, k2⟩ := while_none h1
    rw [k1, k2, if_neg (by unfold maxToken; omega), dropCR_eq h2]
    rfl

/-- Printable characters of ASCII. -/
def Plain (cs : List Char) : Prop := ∀ c ∈ cs, 32 ≤ c.toNat ∧ c.toNat < 127

theorem Plain.newLineStr {cs : List Char} (h : Plain cs) (hne : cs ≠ []) (hb : byteSize cs < 65536) :
    Bento.newLineStr cs = Line.new [Span.new (String.ofList cs)] :=
  newLineStr_one cs hne (fun k => absurd (h _ k).1 (by decide)) (fun k => absurd (h _ k).1 (by decide)) hb

theorem join_singles : ∀ cs : List Char, String.join (cs.map fun c => String.ofList [c]) = String.ofList cs := by
  intro cs
  apply String.toList_injective
  rw [String.toList_join]
  simp [List.flatMap_map]

/-- The printable characters of ASCII as symbols. -/
def Ascii (s : String) : Prop := ∃ c : Char, 32 ≤ c.toNat ∧ c.toNat < 127 ∧ s = String.ofList [c]

/-- Fewer symbols. -/
theorem plainly_ascii {u : Uniseg} {S : String → Prop} (hS : Plainly u S) (h : ∀ s, Ascii s → S s) : Plainly u Ascii where
  space := ⟨' ', by decide, by decide, rfl⟩
  column s hs := hS.column s (h s hs)
  single s hs := hS.single s (h s hs)
  printable s hs := hS.printable s (h s hs)
  apart ss hss := hS.apart ss fun s hs => h s (hss s hs)

theorem symbols_ascii {u : Uniseg} (hS : Plainly u Symbols) : Plainly u Ascii := plainly_ascii hS fun _ h => .inl h

theorem Plain.graphemes {u : Uniseg} (hS : Plainly u Ascii) {cs : List Char} (h : Plain cs) :
    u.graphemes (String.ofList cs) = cs.map fun c => String.ofList [c] := by
  have hmem : ∀ s ∈ cs.map (fun c => String.ofList [c]), Ascii s := by
    intro s hs
    obtain ⟨c, hc, rfl⟩ := List.mem_map.1 hs
    exact ⟨c, (h c hc).1, (h c hc).2, rfl⟩
  rw [← join_singles, hS.apart _ hmem]
  have : ∀ l : List String, (∀ s ∈ l, Ascii s) → l.flatMap u.graphemes = l := by
    intro l
    induction l with
    | nil => intro _; rfl
    | cons s l ih =>
      intro hl
      rw [List.flatMap_cons, hS.single s (hl s (List.mem_cons_self ..)),
        ih fun t ht => hl t (List.mem_cons_of_mem _ ht)]
      rfl
  exact this _ hmem

theorem Plain.narrow {u : Uniseg} (hS : Plainly u Ascii) {cs : List Char} (h : Plain cs) :
    ∀ c ∈ u.graphemes (String.ofList cs), u.Narrow c := by
  rw [h.graphemes hS]
  intro s hs
  obtain ⟨c, hc, rfl⟩ := List.mem_map.1 hs
  have hsy : Ascii (String.ofList [c]) := ⟨c, (h c hc).1, (h c hc).2, rfl⟩
  refine ⟨hS.column _ hsy, ?_⟩
  have := h c hc
  rw [String.toList_ofList]
  simp only [List.any_cons, List.any_nil, Bool.or_false, isControlRune]
  simp
  omega

/-- A line of one piece of text without a style. -/
def textLine (al : Alignment) (cs : List Char) : Line := ⟨Style.new, [Span.new (String.ofList cs)], al⟩

/-- A symbol, if there is one. -/
def putSymbol (s : Option String) (c : Cell) : Cell :=
  match s with
  | some s => c.setSymbol s
  | none => c

theorem put_new (c : Cell) (s : String) : c.put s Style.new = c.setSymbol s := (C05_new_unit Style.new (c.setSymbol s)).2.2

theorem shown_map {α β : Type} (f : α → β) (a : Alignment) (w : Nat) (cs : List α) (k : Nat) :
    a.shown w (cs.map f) k = (a.shown w cs k).map f := by
  unfold Alignment.shown
  rw [List.length_map]
  split_ifs <;> simp

theorem textLine_paints {u : Uniseg} (hu : u.Lawful) (hs : u.Suffix) (hS : Plainly u Ascii) (al : Alignment)
    {cs : List Char} (h : Plain cs) (window area : Rect) (hin : window.In area) :
    Repaints window (fun q c => putSymbol (if area.contains q = true ∧ q.y = area.y then
        (al.shown area.width.toNat cs (q.x - area.x).toNat).map fun ch => String.ofList [ch] else none) c)
      ((textLine al cs).render u area) := by
  have hn : (textLine al cs).NarrowText u := by
    intro s hs c hc
    simp only [textLine, List.mem_cons, List.not_mem_nil, or_false] at hs
    subst hs
    exact h.narrow hS c hc
  refine (Repaints.line hu hs (textLine al cs) hn rfl window area hin).congr fun q _ c => ?_
  have : (textLine al cs).styledClusters u = cs.map fun ch => (String.ofList [ch], Style.new) := by
    unfold textLine Line.styledClusters
    simp only [List.flatMap_cons, List.flatMap_nil, List.append_nil]
    rw [show (Span.new (String.ofList cs)).content = String.ofList cs from rfl, h.graphemes hS, List.map_map]
    rfl
  rw [this]
  show (if area.contains q = true ∧ q.y = area.y then
    match al.shown area.width.toNat (cs.map fun ch => (String.ofList [ch], Style.new)) (q.x - area.x).toNat with
      | some (s, st) => c.put s st
      | none => c else c) = _
  rw [shown_map]
  split_ifs
  · cases al.shown area.width.toNat cs (q.x - area.x).toNat with
    | none => rfl
    | some ch => simp only [Option.map_some]; rw [put_new]; rfl
  · rfl

theorem textLine_width {u : Uniseg} (hS : Plainly u Ascii) (al : Alignment) {cs : List Char} (h : Plain cs) :
    (textLine al cs).width u = cs.length := by
  have hn : (textLine al cs).NarrowText u := by
    intro s hs c hc
    simp only [textLine, List.mem_cons, List.not_mem_nil, or_false] at hs
    subst hs
    exact h.narrow hS c hc
  rw [(line_clusters_length hn).1]
  unfold Line.clusters textLine
  simp only [List.flatMap_cons, List.flatMap_nil, List.append_nil]
  rw [show (Span.new (String.ofList cs)).content = String.ofList cs from rfl, h.graphemes hS, List.length_map]

/-- The block of a panel. -/
def panelBlock (active : Bool) (title footer : String) : Block where
  titles := ⟨.left, some .top, textLine .left title.toList⟩ ::
    (if footer = "" then [] else [⟨.right, some .bottom, textLine .right footer.toList⟩])
  titlesStyle := Style.new
  titlesAlignment := .left
  titlesPosition := .top
  borders := 15
  borderStyle := if active then (Style.new.withModifier Modifier.bold).withForeground (.ansi 2) else Style.new
  borderSet := ⟨"╭", "╮", "╰", "╯", "│", "│", "─", "─"⟩
  style := Style.new
  padding := ⟨0, 0, 0, 0⟩

theorem drawTitle_paints {u : Uniseg} (hu : u.Lawful) (hs : u.Suffix) (hS : Plainly u Ascii) (active : Bool)
    (title footer : String) (a al : Alignment) (p : Option TitlePosition)
    {cs : List Char} (h : Plain cs) (window area : Rect) (hin : window.In area) :
    Repaints window (fun q c => putSymbol (if area.contains q = true ∧ q.y = area.y then
        (al.shown area.width.toNat cs (q.x - area.x).toNat).map fun ch => String.ofList [ch] else none) c)
      ((panelBlock active title footer).drawTitle u ⟨a, p, textLine al cs⟩ area) := by
  refine ((Repaints.setStyle window area Style.new).bind (textLine_paints hu hs hS al h window area hin)).congr
    fun q _ c => ?_
  rw [(C05_new_unit Style.new c).2.2]
  simp

theorem panel_rim (active : Bool) (title footer : String) (area : Rect) (q : Position) (c : Cell)
    (hq : area.contains q = true) :
    (c.setStyle (panelBlock active title footer).style).bordered (panelBlock active title footer).borderStyle
          ((panelBlock active title footer).borderSet.symbol
            (Block.hasSides (panelBlock active title footer).borders 8 && decide (q.x = area.x))
            (Block.hasSides (panelBlock active title footer).borders 1 && decide (q.y = area.y))
            (Block.hasSides (panelBlock active title footer).borders 2 && decide (q.x = area.x + area.width - 1))
            (Block.hasSides (panelBlock active title footer).borders 4 && decide (q.y = area.y + area.height - 1))) =
      if onRim area.width area.height (q.x - area.x) (q.y - area.y) then
        (c.setSymbol (boxSymbol area.width area.height (q.x - area.x) (q.y - area.y))).setStyle
          (if active then (Style.new.withModifier Modifier.bold).withForeground (.ansi 2) else Style.new)
      else c := by
  rw [Rect.contains_iff] at hq
  unfold Rect.Mem at hq
  have h15 : Block.hasSides (panelBlock active title footer).borders 8 = true ∧
      Block.hasSides (panelBlock active title footer).borders 1 = true ∧
      Block.hasSides (panelBlock active title footer).borders 2 = true ∧
      Block.hasSides (panelBlock active title footer).borders 4 = true := by
    show Block.hasSides 15 8 = true ∧ Block.hasSides 15 1 = true ∧ Block.hasSides 15 2 = true ∧ Block.hasSides 15 4 = true
    decide
  rw [h15.1, h15.2.1, h15.2.2.1, h15.2.2.2]
  simp only [Bool.true_and]
  have hst : c.setStyle (panelBlock active title footer).style = c := (C05_new_unit Style.new c).2.2
  rw [hst]
  unfold onRim boxSymbol
  have e1 : (q.x = area.x) ↔ (q.x - area.x = 0) := by omega
  have e2 : (q.y = area.y) ↔ (q.y - area.y = 0) := by omega
  have e3 : (q.x = area.x + area.width - 1) ↔ (q.x - area.x = area.width - 1) := by omega
  have e4 : (q.y = area.y + area.height - 1) ↔ (q.y - area.y = area.height - 1) := by omega
  simp only [e1, e2, e3, e4]
  generalize q.x - area.x = i
  generalize q.y - area.y = j
  rcases Classical.propComplete (i = 0) with p1 | p1 <;>
    rcases Classical.propComplete (j = 0) with p2 | p2 <;>
    rcases Classical.propComplete (i = area.width - 1) with p3 | p3 <;>
    rcases Classical.propComplete (j = area.height - 1) with p4 | p4 <;>
    simp [p1, p2, p3, p4, BorderSet.symbol, panelBlock, Cell.bordered]

/-- What a panel without its text does to a cell. -/
def panelPaint (active : Bool) (title footer : String) (r : Rect) (q : Position) (c : Cell) : Cell :=
  if r.contains q = true then
    putSymbol (if 1 ≤ q.x - r.x ∧ q.x - r.x ≤ r.width - 2 ∧ q.y - r.y = r.height - 1 then
        charAt footer (q.x - r.x - 1 - (r.width - 2 - footer.toList.length)) else none)
      (putSymbol (if 1 ≤ q.x - r.x ∧ q.x - r.x ≤ r.width - 2 ∧ q.y - r.y = 0 then charAt title (q.x - r.x - 1) else none)
        (if onRim r.width r.height (q.x - r.x) (q.y - r.y) then
          (c.setSymbol (boxSymbol r.width r.height (q.x - r.x) (q.y - r.y))).setStyle
            (if active then (Style.new.withModifier Modifier.bold).withForeground (.ansi 2) else Style.new)
        else c))
  else c

theorem titlesArea_panel (active : Bool) (title footer : String) (area : Rect) (p : TitlePosition) :
    (panelBlock active title footer).titlesArea area p =
      ⟨area.x + 1, p.row area, max 0 (area.width - 2), 1⟩ := by
  have h8 : Block.hasSides (panelBlock active title footer).borders Block.sideLeft = true := by
    show Block.hasSides 15 8 = true; decide
  have h2 : Block.hasSides (panelBlock active title footer).borders Block.sideRight = true := by
    show Block.hasSides 15 2 = true; decide
  unfold Block.titlesArea
  rw [h8, h2]
  simp only [if_true, Rect.left, Rect.mk.injEq, and_true, true_and]
  refine ⟨by cases p <;> rfl, by omega⟩

theorem leftLoop_one (u : Uniseg) (b : Block) (t : Title) (ta : Rect) :
    b.leftLoop u [t] ta = fun buf => if ta.isEmpty then some buf else
      (b.drawTitle u t ⟨ta.x, ta.y, min (t.line.width u : Int) ta.width, ta.height⟩ buf).bind some := by
  funext buf
  unfold Block.leftLoop
  split_ifs <;> rfl

theorem rightLoop_one (u : Uniseg) (b : Block) (t : Title) (ta : Rect) :
    b.rightLoop u [t] ta = fun buf => if ta.isEmpty then some buf else
      (b.drawTitle u t ⟨max 0 (max ta.left (ta.right - (t.line.width u : Int))), ta.y,
        min ta.width (t.line.width u : Int), ta.height⟩ buf).bind some := by
  funext buf
  unfold Block.rightLoop
  split_ifs <;> rfl

theorem topTitle_paints {u : Uniseg} (hu : u.Lawful) (hs : u.Suffix) (hS : Plainly u Symbols) (active : Bool)
    (title footer : String) (ht : Plain title.toList) (window area : Rect) (hin : window.In area) (hh : 1 ≤ area.height) :
    Repaints window (fun q c => putSymbol (if area.contains q = true ∧ 1 ≤ q.x - area.x ∧ q.x - area.x ≤ area.width - 2 ∧ q.y - area.y = 0 then
        charAt title (q.x - area.x - 1) else none) c)
      ((panelBlock active title footer).leftLoop u [⟨.left, some .top, textLine .left title.toList⟩]
        ⟨area.x + 1, area.y, max 0 (area.width - 2), 1⟩) := by
  obtain ⟨h1, h2, h3, h4, h5, h6⟩ := id hin
  rw [leftLoop_one]
  by_cases hw : area.width ≤ 2
  · have he : (⟨area.x + 1, area.y, max 0 (area.width - 2), 1⟩ : Rect).isEmpty = true := by
      simp [Rect.isEmpty]; omega
    simp only [he, if_true]
    refine (Repaints.nothing window).congr fun q _ c => ?_
    rw [if_neg (by omega)]
    rfl
  have he : (⟨area.x + 1, area.y, max 0 (area.width - 2), 1⟩ : Rect).isEmpty = false := by
    simp [Rect.isEmpty]; omega
  simp only [he, Bool.false_eq_true, if_false]
  rw [textLine_width (symbols_ascii hS) .left ht]
  generalize hcs : title.toList = cs at *
  refine ((drawTitle_paints hu hs (symbols_ascii hS) active title footer .left .left (some .top) ht window
    ⟨area.x + 1, area.y, min cs.length (max 0 (area.width - 2)), 1⟩ ?_).bind (Repaints.nothing window)).congr
    fun q _ c => ?_
  · unfold Rect.In
    simp only
    omega
  · simp only
    congr 1
    by_cases hq : area.contains q = true ∧ 1 ≤ q.x - area.x ∧ q.x - area.x ≤ area.width - 2 ∧ q.y - area.y = 0
    · rw [if_pos hq]
      unfold charAt
      rw [hcs]
      have h0 : 0 ≤ q.x - area.x - 1 := by omega
      simp only [h0, if_true]
      by_cases hl : (q.x - area.x - 1).toNat < cs.length
      · have hc : (⟨area.x + 1, area.y, min (cs.length : Int) (max 0 (area.width - 2)), 1⟩ : Rect).contains q = true := by
          rw [Rect.contains_iff]
          unfold Rect.Mem
          simp only
          omega
        rw [if_pos ⟨hc, by omega⟩]
        congr 1
        unfold Alignment.shown Alignment.before
        simp only
        rw [show q.x - (area.x + 1) = q.x - area.x - 1 by omega]
        split_ifs <;> first | omega | simp
      · rw [List.getElem?_eq_none (by omega), if_neg]
        · rfl
        · rw [Rect.contains_iff]
          unfold Rect.Mem
          simp only
          omega
    · rw [if_neg hq, if_neg]
      intro h
      apply hq
      rw [Rect.contains_iff] at h ⊢
      unfold Rect.Mem at *
      simp only at h
      omega

theorem bottomTitle_paints {u : Uniseg} (hu : u.Lawful) (hs : u.Suffix) (hS : Plainly u Ascii) (active : Bool)
    (title footer : String) (ht : Plain footer.toList) (window area : Rect) (hin : window.In area) (hx : 0 ≤ area.x)
    (hh : 1 ≤ area.height) :
    Repaints window (fun q c => putSymbol (if area.contains q = true ∧ 1 ≤ q.x - area.x ∧ q.x - area.x ≤ area.width - 2 ∧
        q.y - area.y = area.height - 1 then
        charAt footer (q.x - area.x - 1 - (area.width - 2 - footer.toList.length)) else none) c)
      ((panelBlock active title footer).rightLoop u [⟨.right, some .bottom, textLine .right footer.toList⟩]
        ⟨area.x + 1, area.y + area.height - 1, max 0 (area.width - 2), 1⟩) := by
  obtain ⟨h1, h2, h3, h4, h5, h6⟩ := id hin
  rw [rightLoop_one]
  by_cases hw : area.width ≤ 2
  · have he : (⟨area.x + 1, area.y + area.height - 1, max 0 (area.width - 2), 1⟩ : Rect).isEmpty = true := by
      simp [Rect.isEmpty]; omega
    simp only [he, if_true]
    refine (Repaints.nothing window).congr fun q _ c => ?_
    rw [if_neg (by omega)]
    rfl
  have he : (⟨area.x + 1, area.y + area.height - 1, max 0 (area.width - 2), 1⟩ : Rect).isEmpty = false := by
    simp [Rect.isEmpty]; omega
  simp only [he, Bool.false_eq_true, if_false]
  rw [textLine_width hS .right ht]
  generalize hcs : footer.toList = cs at *
  obtain ⟨X, hX⟩ : ∃ X, X = max 0 (max (⟨area.x + 1, area.y + area.height - 1, max 0 (area.width - 2), 1⟩ : Rect).left
    ((⟨area.x + 1, area.y + area.height - 1, max 0 (area.width - 2), 1⟩ : Rect).right - (cs.length : Int))) := ⟨_, rfl⟩
  rw [← hX]
  simp only [Rect.left, Rect.right] at hX
  refine ((drawTitle_paints hu hs hS active title footer .right .right (some .bottom) ht window
    ⟨X, area.y + area.height - 1, min (max 0 (area.width - 2)) cs.length, 1⟩ ?_).bind (Repaints.nothing window)).congr
    fun q _ c => ?_
  · unfold Rect.In
    simp only
    omega
  · simp only
    congr 1
    by_cases hq : area.contains q = true ∧ 1 ≤ q.x - area.x ∧ q.x - area.x ≤ area.width - 2 ∧
        q.y - area.y = area.height - 1
    · rw [if_pos hq]
      unfold charAt
      rw [hcs]
      by_cases hl : 0 ≤ q.x - area.x - 1 - (area.width - 2 - cs.length)
      · have hc : (⟨X, area.y + area.height - 1, min (max 0 (area.width - 2)) cs.length, 1⟩ : Rect).contains q = true := by
          rw [Rect.contains_iff]
          unfold Rect.Mem
          simp only
          omega
        rw [if_pos ⟨hc, by omega⟩, if_pos hl]
        congr 1
        unfold Alignment.shown Alignment.before
        simp only
        by_cases hfit : cs.length ≤ (min (max 0 (area.width - 2)) (cs.length : Int)).toNat
        · rw [if_pos hfit, if_neg (by omega)]
          congr 1
          omega
        · rw [if_neg hfit]
          congr 1
          omega
      · rw [if_neg hl, if_neg]
        rw [Rect.contains_iff]
        unfold Rect.Mem
        simp only
        omega
    · rw [if_neg hq, if_neg]
      intro h
      apply hq
      rw [Rect.contains_iff] at h ⊢
      unfold Rect.Mem at *
      simp only at h
      omega

theorem panelBlock_titles (u : Uniseg) (active : Bool) (title footer : String) (area : Rect) :
    (panelBlock active title footer).renderTitles u area = fun buf =>
      ((panelBlock active title footer).leftLoop u [⟨.left, some .top, textLine .left title.toList⟩]
        ⟨area.x + 1, area.y, max 0 (area.width - 2), 1⟩ buf).bind fun buf =>
      if footer = "" then some buf else
        (panelBlock active title footer).rightLoop u [⟨.right, some .bottom, textLine .right footer.toList⟩]
          ⟨area.x + 1, area.y + area.height - 1, max 0 (area.width - 2), 1⟩ buf := by
  funext buf
  have hl : ∀ ta b, (panelBlock active title footer).leftLoop u [] ta b = some b := fun _ _ => rfl
  have hr : ∀ ta b, (panelBlock active title footer).rightLoop u [] ta b = some b := fun _ _ => rfl
  have f1 : (panelBlock active title footer).filterTitles .top .right = [] := by
    unfold Block.filterTitles panelBlock Block.positionOf; by_cases h : footer = "" <;> simp [h]
  have f2 : (panelBlock active title footer).filterTitles .top .center = [] := by
    unfold Block.filterTitles panelBlock Block.positionOf; by_cases h : footer = "" <;> simp [h]
  have f3 : (panelBlock active title footer).filterTitles .top .left =
      [⟨.left, some .top, textLine .left title.toList⟩] := by
    unfold Block.filterTitles panelBlock Block.positionOf; by_cases h : footer = "" <;> simp [h]
  have f4 : (panelBlock active title footer).filterTitles .bottom .right =
      if footer = "" then [] else [⟨.right, some .bottom, textLine .right footer.toList⟩] := by
    unfold Block.filterTitles panelBlock Block.positionOf; by_cases h : footer = "" <;> simp [h]
  have f5 : (panelBlock active title footer).filterTitles .bottom .center = [] := by
    unfold Block.filterTitles panelBlock Block.positionOf; by_cases h : footer = "" <;> simp [h]
  have f6 : (panelBlock active title footer).filterTitles .bottom .left = [] := by
    unfold Block.filterTitles panelBlock Block.positionOf; by_cases h : footer = "" <;> simp [h]
  unfold Block.renderTitles Block.renderTitlePosition Block.renderRightTitles Block.renderCenterTitles
    Block.renderLeftTitles
  rw [f1, f2, f3, f4, f5, f6]
  simp only [titlesArea_panel, List.reverse_nil, hl, hr, Option.bind_eq_bind, Option.bind_some, TitlePosition.row]
  congr 1
  funext b
  by_cases h : footer = ""
  · rw [if_pos h, if_pos h]
    rfl
  · simp [h]

theorem panelBlock_paints {u : Uniseg} (hu : u.Lawful) (hs : u.Suffix) (hS : Plainly u Symbols) (active : Bool)
    (title footer : String) (ht : Plain title.toList) (hf : Plain footer.toList) (window area : Rect)
    (hin : window.In area) (hx : 0 ≤ area.x) :
    Repaints window (panelPaint active title footer area) ((panelBlock active title footer).render u area) := by
  obtain ⟨h1, h2, h3, h4, h5, h6⟩ := id hin
  have hself : area.intersection area = area := by
    unfold Rect.intersection Rect.right Rect.bottom
    ext <;> simp only <;> omega
  by_cases he : area.isEmpty = true
  · have : (panelBlock active title footer).render u area = some := by
      funext buf
      unfold Block.render
      simp only [hself, he, if_true]
    rw [this]
    refine (Repaints.nothing window).congr fun q _ c => ?_
    unfold panelPaint
    rw [if_neg]
    rw [Rect.contains_iff]
    unfold Rect.Mem
    simp [Rect.isEmpty] at he
    omega
  have hw : 0 < area.width := by simp [Rect.isEmpty] at he; omega
  have hh : 0 < area.height := by simp [Rect.isEmpty] at he; omega
  have hr : (panelBlock active title footer).render u area = fun buf =>
      ((buf.setStyle area (panelBlock active title footer).style).bind
        ((panelBlock active title footer).renderBorders area)).bind
        ((panelBlock active title footer).renderTitles u area) := by
    funext buf
    unfold Block.render
    simp only [hself, he, Bool.false_eq_true, if_false]
    rw [Option.bind_assoc]
    rfl
  rw [hr]
  have hb := Repaints.borders (panelBlock active title footer) window area hin
    (by rcases Int.lt_or_le 1 area.width with h | h; exacts [.inl h, .inr ⟨by omega, rfl⟩])
    (by rcases Int.lt_or_le 1 area.height with h | h; exacts [.inl h, .inr ⟨by omega, rfl⟩])
  have htop := topTitle_paints hu hs hS active title footer ht window area hin (by omega)
  have hbot : Repaints window (fun q c => putSymbol (if area.contains q = true ∧ 1 ≤ q.x - area.x ∧
        q.x - area.x ≤ area.width - 2 ∧ q.y - area.y = area.height - 1 then
        charAt footer (q.x - area.x - 1 - (area.width - 2 - footer.toList.length)) else none) c) (fun buf =>
      if footer = "" then some buf else
        (panelBlock active title footer).rightLoop u [⟨.right, some .bottom, textLine .right footer.toList⟩]
          ⟨area.x + 1, area.y + area.height - 1, max 0 (area.width - 2), 1⟩ buf) := by
    by_cases h : footer = ""
    · simp only [h, if_true]
      refine (Repaints.nothing window).congr fun q _ c => ?_
      unfold charAt
      simp [putSymbol]
    · simp only [h, if_false]
      exact bottomTitle_paints hu hs (symbols_ascii hS) active title footer hf window area hin hx (by omega)
  refine (hb.bind (f2 := (panelBlock active title footer).renderTitles u area) (by
    rw [panelBlock_titles]; exact htop.bind hbot)).congr fun q _ c => ?_
  unfold panelPaint
  by_cases hq : area.contains q = true
  · simp only [hq, if_true, true_and]
    rw [panel_rim _ _ _ _ _ _ hq]
  · simp only [hq]
    simp [putSymbol]

end Bento.Lazygit
