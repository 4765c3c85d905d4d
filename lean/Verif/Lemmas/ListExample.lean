import Verif.Lemmas.InputExample
import Verif.Lemmas.ParagraphLine
import Verif.Lemmas.Cells
import Verif.Props.Scrolling
import Verif.Spec.ListExample

/-!
# The frame of the example program with a list
-/

namespace Bento.ListExample

open Input ListWidget
open Lazygit
open InputExample (plain_text)

variable {u : Uniseg}

/-- The frame around the list. -/
def listBlock : Block := { boxBlock .rounded "List" with
  titles := [⟨.none, none, textLine .none "List".toList⟩, ⟨.right, some .bottom, textLine .right "100 items".toList⟩] }

theorem bottomTitle_eq : bottomTitle = "100 items" := by
  unfold bottomTitle
  have : items.length = 100 := by unfold items; simp
  rw [this]
  rfl

theorem block_eq : block = listBlock := by
  have h : newLineStr "List".toList = textLine .none "List".toList :=
    (Plain.newLineStr (plain_text (by decide)) (by decide) (by decide)).trans rfl
  have h' : newLineStr "100 items".toList = textLine .none "100 items".toList :=
    (Plain.newLineStr (plain_text (by decide)) (by decide) (by decide)).trans rfl
  unfold block newTitleStr
  rw [bottomTitle_eq, h, h']
  simp only [Block.Call.apply, Title.Call.apply]
  unfold Block.withTitle Block.withBorderSides listBlock boxBlock
  simp only [if_true, Title.new, ne_eq, not_true, if_false, Block.new, List.nil_append, BorderType.set]
  rfl

theorem popupBlock_eq : popupBlock = boxBlock .thick "Popup" := by
  have h : newLineStr "Popup".toList = textLine .none "Popup".toList :=
    (Plain.newLineStr (plain_text (by decide)) (by decide) (by decide)).trans rfl
  unfold popupBlock
  simp only [Block.Call.apply]
  rw [h]
  unfold Block.withTitle Block.withBorderSides boxBlock
  simp only [if_true, Title.new, ne_eq, not_true, if_false, Block.new, List.nil_append, BorderType.set]
  rfl

theorem listBlock_titles (u : Uniseg) (area : Rect) :
    listBlock.renderTitles u area = fun buf =>
      ((boxBlock .rounded "List").leftLoop u [⟨.none, none, textLine .none "List".toList⟩]
        ⟨area.x + 1, area.y, max 0 (area.width - 2), 1⟩ buf).bind
      ((panelBlock false "" "100 items").rightLoop u [⟨.right, some .bottom, textLine .right "100 items".toList⟩]
          ⟨area.x + 1, area.y + area.height - 1, max 0 (area.width - 2), 1⟩) := by
  funext buf
  have hl : ∀ ta b, listBlock.leftLoop u [] ta b = some b := fun _ _ => rfl
  have hr : ∀ ta b, listBlock.rightLoop u [] ta b = some b := fun _ _ => rfl
  have f1 : listBlock.filterTitles .top .right = [] := by
    unfold Block.filterTitles listBlock boxBlock Block.positionOf; simp
  have f2 : listBlock.filterTitles .top .center = [] := by
    unfold Block.filterTitles listBlock boxBlock Block.positionOf; simp
  have f3 : listBlock.filterTitles .top .left = [⟨.none, none, textLine .none "List".toList⟩] := by
    unfold Block.filterTitles listBlock boxBlock Block.positionOf; simp
  have f4 : listBlock.filterTitles .bottom .right = [⟨.right, some .bottom, textLine .right "100 items".toList⟩] := by
    unfold Block.filterTitles listBlock boxBlock Block.positionOf; simp
  have f5 : listBlock.filterTitles .bottom .center = [] := by
    unfold Block.filterTitles listBlock boxBlock Block.positionOf; simp
  have f6 : listBlock.filterTitles .bottom .left = [] := by
    unfold Block.filterTitles listBlock boxBlock Block.positionOf; simp
  have hta : ∀ p, listBlock.titlesArea area p = ⟨area.x + 1, p.row area, max 0 (area.width - 2), 1⟩ := by
    intro p
    have h8 : Block.hasSides listBlock.borders Block.sideLeft = true := by
      show Block.hasSides 15 8 = true; decide
    have h2 : Block.hasSides listBlock.borders Block.sideRight = true := by
      show Block.hasSides 15 2 = true; decide
    unfold Block.titlesArea
    rw [h8, h2]
    simp only [if_true, Rect.left, Rect.mk.injEq, and_true, true_and]
    refine ⟨by cases p <;> rfl, by omega⟩
  have hL : ∀ ta b, listBlock.leftLoop u [⟨.none, none, textLine .none "List".toList⟩] ta b =
      (boxBlock .rounded "List").leftLoop u [⟨.none, none, textLine .none "List".toList⟩] ta b := by
    intro ta b
    rw [leftLoop_one, leftLoop_one]
    rfl
  have hR : ∀ ta b, listBlock.rightLoop u [⟨.right, some .bottom, textLine .right "100 items".toList⟩] ta b =
      (panelBlock false "" "100 items").rightLoop u [⟨.right, some .bottom, textLine .right "100 items".toList⟩] ta b := by
    intro ta b
    rw [rightLoop_one, rightLoop_one]
    rfl
  unfold Block.renderTitles Block.renderTitlePosition Block.renderRightTitles Block.renderCenterTitles
    Block.renderLeftTitles
  rw [f1, f2, f3, f4, f5, f6]
  simp only [hta, List.reverse_nil, List.reverse_singleton, hl, hr, hL, hR, Option.bind_eq_bind, Option.bind_some, TitlePosition.row]
  congr 1
  funext b
  cases (panelBlock false "" "100 items").rightLoop u [⟨.right, some .bottom, textLine .right "100 items".toList⟩]
    ⟨area.x + 1, area.y + area.height - 1, max 0 (area.width - 2), 1⟩ b <;> rfl

/-- What the frame around the list does to a cell. -/
def framePaint (r : Rect) (q : Position) (c : Cell) : Cell :=
  if r.contains q = true then
    putSymbol (if 1 ≤ q.x - r.x ∧ q.x - r.x ≤ r.width - 2 ∧ q.y - r.y = r.height - 1 then
        charAt "100 items" (q.x - r.x - 1 - (r.width - 2 - "100 items".toList.length)) else none)
      (putSymbol (if 1 ≤ q.x - r.x ∧ q.x - r.x ≤ r.width - 2 ∧ q.y - r.y = 0 then charAt "List" (q.x - r.x - 1) else none)
        (if onRim r.width r.height (q.x - r.x) (q.y - r.y) then
          c.setSymbol (BorderSet.rounded.boxSymbol r.width r.height (q.x - r.x) (q.y - r.y)) else c))
  else c

theorem listBlock_paints (hu : u.Lawful) (hs : u.Suffix) (hS : Plainly u Ascii) (window area : Rect) (hin : window.In area)
    (hx : 0 ≤ area.x) (w2 : 2 ≤ area.width) (h2 : 2 ≤ area.height) :
    Repaints window (framePaint area) (listBlock.render u area) := by
  obtain ⟨i1, i2, i3, i4, i5, i6⟩ := id hin
  have hself : area.intersection area = area := by
    unfold Rect.intersection Rect.right Rect.bottom
    ext <;> simp only <;> omega
  have he : area.isEmpty = false := by simp [Rect.isEmpty]; omega
  have hr : listBlock.render u area = fun buf =>
      ((buf.setStyle area listBlock.style).bind (listBlock.renderBorders area)).bind (listBlock.renderTitles u area) := by
    funext buf
    unfold Block.render
    simp only [hself, he, Bool.false_eq_true, if_false]
    rw [Option.bind_assoc]
    rfl
  rw [hr]
  have hb := Repaints.borders listBlock window area hin (.inl w2) (.inl h2)
  have htop := boxTitle_paints hu hs hS .rounded "List" (plain_text (by decide)) window area hin (by omega)
  have hbot := bottomTitle_paints hu hs hS false "" "100 items" (plain_text (by decide)) window area hin hx (by omega)
  refine (hb.bind (f2 := listBlock.renderTitles u area) (by
    rw [listBlock_titles]; exact htop.bind hbot)).congr fun q _ c => ?_
  unfold framePaint
  by_cases hq : area.contains q = true
  · simp only [hq, if_true, true_and]
    have := box_rim .rounded "List" area h2 w2 q c hq
    congr 2
  · simp only [hq]
    simp [putSymbol]

theorem frame_inner (area : Rect) (hw : 2 ≤ area.width) (hh : 2 ≤ area.height) :
    block.inner area = ⟨area.x + 1, area.y + 1, area.width - 2, area.height - 2⟩ := by
  rw [block_eq]
  have h1 : Block.intersects listBlock.borders Block.sideLeft = true := by
    show Block.intersects 15 8 = true; decide
  have h2 : Block.intersects listBlock.borders Block.sideTop = true := by
    show Block.intersects 15 1 = true; decide
  have h3 : Block.intersects listBlock.borders Block.sideRight = true := by
    show Block.intersects 15 2 = true; decide
  have h4 : Block.intersects listBlock.borders Block.sideBottom = true := by
    show Block.intersects 15 4 = true; decide
  unfold Block.inner
  simp only [h1, h2, h3, h4, Bool.true_or, if_true, Rect.right, Rect.bottom]
  ext <;> simp [listBlock, boxBlock] <;> omega

/-- A blank cell of the frame around the list. -/
theorem frame_cell (area : Rect) (hw : 30 ≤ area.width) (hh : 4 ≤ area.height) (q : Position)
    (hq : area.contains q = true) :
    framePaint area q InputExample.blank =
      if q.x - area.x = 0 ∨ q.x - area.x = area.width - 1 ∨ q.y - area.y = 0 ∨ q.y - area.y = area.height - 1 then
        ⟨frameSymbol area.width area.height (q.x - area.x) (q.y - area.y), .reset, .reset, 0, false⟩
      else InputExample.blank := by
  unfold framePaint
  rw [if_pos hq]
  rw [Rect.contains_iff] at hq
  unfold Rect.Mem at hq
  have hi : 0 ≤ q.x - area.x ∧ q.x - area.x ≤ area.width - 1 := by omega
  have hj : 0 ≤ q.y - area.y ∧ q.y - area.y ≤ area.height - 1 := by omega
  generalize q.x - area.x = i at *
  generalize q.y - area.y = j at *
  generalize area.width = w at *
  generalize area.height = h at *
  have hset : BorderSet.rounded = ⟨"╭", "╮", "╰", "╯", "│", "│", "─", "─"⟩ := rfl
  have hlen : "100 items".toList.length = 9 := by decide
  unfold onRim BorderSet.boxSymbol frameSymbol
  rw [hset, hlen]
  by_cases hj0 : j = 0
  · subst hj0
    have hne : ¬ (0 : Int) = h - 1 := by omega
    by_cases h0 : i = 0
    · subst h0
      simp [putSymbol, InputExample.blank, Cell.setSymbol, hne]
    by_cases h1 : i = w - 1
    · have hle : ¬ i ≤ w - 2 := by omega
      have h1' : (i = w - 1) = True := eq_true h1
      simp only [h1', hle, h0, if_false, if_true, and_false, false_and, hne]
      simp [putSymbol, InputExample.blank, Cell.setSymbol]
    · have h2 : 1 ≤ i := by omega
      have h3 : i ≤ w - 2 := by omega
      have h4 : 0 ≤ i - 1 := by omega
      simp only [h0, h1, h2, h3, hne, if_false, if_true, charAt, h4, and_false, and_true, true_and, or_true, or_false,
        decide_true, Bool.or_true, Bool.true_or, false_or, true_or]
      cases ("List".toList[(i - 1).toNat]?) <;> simp [putSymbol, InputExample.blank, Cell.setSymbol]
  by_cases hj1 : j = h - 1
  · have hj1' : (j = h - 1) = True := eq_true hj1
    simp only [hj1', hj0, if_true, if_false, and_true, and_false, or_true]
    by_cases h0 : i = 0
    · subst h0
      simp [putSymbol, InputExample.blank, Cell.setSymbol]
    by_cases h1 : i = w - 1
    · have hle : ¬ i ≤ w - 2 := by omega
      have h1' : (i = w - 1) = True := eq_true h1
      simp only [h1', hle, h0, if_false, if_true, and_false, false_and]
      simp [putSymbol, InputExample.blank, Cell.setSymbol]
    · have h2 : 1 ≤ i := by omega
      have h3 : i ≤ w - 2 := by omega
      simp only [h0, h1, h2, h3, if_false, if_true, charAt, and_true, or_true, decide_true, Bool.or_true, Bool.true_or]
      have e : i - 1 - (w - 2 - ((9 : Nat) : Int)) = i - (w - 10) := by omega
      rw [e]
      by_cases h5 : w - 10 ≤ i
      · have h6 : 0 ≤ i - (w - 10) := by omega
        simp only [h5, h6, if_true]
        cases ("100 items".toList[(i - (w - 10)).toNat]?) <;> simp [putSymbol, InputExample.blank, Cell.setSymbol]
      · have h6 : ¬ 0 ≤ i - (w - 10) := by omega
        simp only [h5, h6, if_false]
        simp [putSymbol, InputExample.blank, Cell.setSymbol]
  · by_cases h0 : i = 0
    · simp [putSymbol, InputExample.blank, Cell.setSymbol, h0, hj0, hj1]
    by_cases h1 : i = w - 1
    · have h1' : (i = w - 1) = True := eq_true h1
      simp only [h1', h0, hj0, hj1]
      simp [putSymbol, InputExample.blank, Cell.setSymbol]
    · simp [putSymbol, h0, h1, hj0, hj1]

/-! ## The items -/

theorem itemText_good : ∀ i < 100, Plain (itemText i 0) ∧ itemText i 0 ≠ [] ∧ byteSize (itemText i 0) < 65536 ∧
    (itemText i 0).length ≤ 9 := by decide +kernel

theorem itemText_plain {i : Nat} (hi : i < 100) (r : Nat) : Plain (itemText i r) := by
  by_cases h : r = 0
  · subst h; exact (itemText_good i hi).1
  · unfold itemText
    rw [if_neg h]
    exact plain_text (by decide)

theorem itemText_length {i : Nat} (hi : i < 100) (r : Nat) : (itemText i r).length ≤ 11 := by
  by_cases h : r = 0
  · subst h; have := (itemText_good i hi).2.2.2; omega
  · unfold itemText
    rw [if_neg h]
    decide

/-- The style of line `r` of an item. -/
def lineStyle (r : Nat) : Style :=
  if r = 0 then Style.new.withModifier Modifier.bold else (Style.new.withModifier Modifier.italic).withModifier Modifier.dim

theorem item_eq {i : Nat} (hi : i < 100) : item i = ⟨Style.new, [⟨lineStyle 0, [Span.new (String.ofList (itemText i 0))], .none⟩,
    ⟨lineStyle 1, [Span.new (String.ofList (itemText i 1))], .none⟩], .none⟩ := by
  obtain ⟨h1, h2, h3, _⟩ := itemText_good i hi
  have e1 : newLineStr ("Item #" ++ toString (i + 1)).toList = Line.new [Span.new (String.ofList (itemText i 0))] :=
    Plain.newLineStr h1 h2 h3
  have e2 : newLineStr "Description".toList = Line.new [Span.new (String.ofList (itemText i 1))] :=
    Plain.newLineStr (plain_text (by decide)) (by decide) (by decide)
  unfold item
  rw [e1, e2]
  rfl

theorem plain_cellIn (hS : Plainly u Ascii) (st : Style) {cs : List Char} (h : Plain cs) (w k : Nat) (hw : cs.length ≤ w)
    (c : Cell) : Line.cellIn u ⟨st, [Span.new (String.ofList cs)], .none⟩ .none w k c =
      match cs[k]? with
      | some ch => (c.setStyle st).setSymbol (String.ofList [ch])
      | none => c := by
  have h1 : Line.clusters u ⟨st, [Span.new (String.ofList cs)], .none⟩ = cs.map fun ch => String.ofList [ch] := by
    unfold Line.clusters
    simp only [List.flatMap_cons, List.flatMap_nil, List.append_nil]
    rw [show (Span.new (String.ofList cs)).content = String.ofList cs from rfl, h.graphemes hS]
  have h2 : Line.styledClusters u ⟨st, [Span.new (String.ofList cs)], .none⟩ =
      cs.map fun ch => (String.ofList [ch], Style.new) := by
    unfold Line.styledClusters
    simp only [List.flatMap_cons, List.flatMap_nil, List.append_nil]
    rw [show (Span.new (String.ofList cs)).content = String.ofList cs from rfl, h.graphemes hS, List.map_map]
    rfl
  unfold Line.cellIn
  simp only [h1, h2, List.length_map, if_true]
  rw [shown_map]
  unfold Alignment.shown Alignment.before
  simp only [hw, if_true, Nat.not_lt_zero, if_false, Nat.sub_zero, Nat.min_eq_right hw]
  by_cases hk : k < cs.length
  · rw [if_pos hk, List.getElem?_eq_getElem hk]
    simp only [Option.map_some]
    rw [put_new]
  · rw [if_neg hk, List.getElem?_eq_none (by omega)]
    rfl

theorem highlight_graphemes (hS : Plainly u Ascii) : u.graphemes list.highlightSymbol = [">", " "] := by
  have hp : Plain "> ".toList := plain_text (by decide)
  have hg := hp.graphemes hS
  rw [String.ofList_toList] at hg
  exact hg

/-- A cell of item `i`. -/
def itemPicture (selected : Bool) (i r k : Nat) : Cell :=
  ⟨(((if selected = true ∧ r = 0 then ['>', ' '] else [' ', ' ']) ++ itemText i r)[k]?.map fun c => String.ofList [c]).getD " ",
      if selected then .ansi 0 else .reset, if selected then .ansi 4 else .reset,
      if 2 ≤ k ∧ k < 2 + (itemText i r).length then (if r = 0 then Modifier.bold else Modifier.italic ||| Modifier.dim) else 0,
      false⟩

theorem item_cell (hS : Plainly u Ascii) {i : Nat} (hi : i < 100) (selected : Bool) (row : Rect) (hw : 28 ≤ row.width)
    (hh : row.height = 2) (q : Position) (hq : row.contains q = true) :
    list.itemCell u true selected row (item i) q InputExample.blank =
      itemPicture selected i (q.y - row.y).toNat (q.x - row.x).toNat := by
  rw [Rect.contains_iff] at hq
  unfold Rect.Mem at hq
  have hst : list.style.patched (item i).style = Style.new := by
    rw [item_eq hi]
    show Style.new.patched Style.new = Style.new
    decide +kernel
  have hrep : list.repeatHighlightSymbol = false := rfl
  have hhs : list.highlightStyle = (Style.new.withForeground (.ansi 0)).withBackground (.ansi 4) := rfl
  have h0 : ∀ c : Cell, c.setStyle Style.new = c := fun c => (C05_new_unit Style.new c).2.2
  unfold itemCell
  simp only [hst, highlight_graphemes hS, hrep, hhs, if_true, h0, Bool.false_eq_true, or_false, put_new]
  have hy : (q.y = row.y) ↔ (q.y - row.y).toNat = 0 := by omega
  have hr : (q.y - row.y).toNat = 0 ∨ (q.y - row.y).toNat = 1 := by omega
  have hlen : (([">", " "] : List String).length : Int) = 2 := rfl
  have hlen' : ([">", " "] : List String).length = 2 := rfl
  rw [hlen, hlen']
  -- the text
  have htext : Text.cellIn u (item i) ⟨row.x + 2, row.y, max 0 (row.width - 2), row.height⟩ q InputExample.blank =
      if 2 ≤ (q.x - row.x).toNat then
        match (itemText i (q.y - row.y).toNat)[(q.x - row.x).toNat - 2]? with
        | some ch => (InputExample.blank.setStyle (lineStyle (q.y - row.y).toNat)).setSymbol (String.ofList [ch])
        | none => InputExample.blank
      else InputExample.blank := by
    unfold Text.cellIn
    by_cases h2 : 2 ≤ (q.x - row.x).toNat
    · have hc : (⟨row.x + 2, row.y, max 0 (row.width - 2), row.height⟩ : Rect).contains q = true := by
        rw [Rect.contains_iff]
        unfold Rect.Mem
        simp only
        omega
      rw [if_pos hc, if_pos h2]
      have hk : (q.x - (row.x + 2)).toNat = (q.x - row.x).toNat - 2 := by omega
      have hl := itemText_length hi (q.y - row.y).toNat
      rw [item_eq hi]
      simp only [h0, hk]
      rcases hr with hr | hr <;> rw [hr] <;> rw [hr] at hl <;>
        simp only [List.getElem?_cons_zero, List.getElem?_cons_succ] <;>
        exact plain_cellIn hS _ (itemText_plain hi _) _ _ (by omega) _
    · have hc : (⟨row.x + 2, row.y, max 0 (row.width - 2), row.height⟩ : Rect).contains q = false := by
        rw [← Bool.not_eq_true, Rect.contains_iff]
        unfold Rect.Mem
        simp only
        omega
      rw [if_neg h2, hc]
      rfl
  rw [htext]
  generalize (q.x - row.x).toNat = k at *
  generalize (q.y - row.y).toNat = r at *
  have hbold : InputExample.blank.setStyle (lineStyle 0) = ⟨" ", .reset, .reset, Modifier.bold, false⟩ := by decide +kernel
  have hdim : InputExample.blank.setStyle (lineStyle 1) = ⟨" ", .reset, .reset, Modifier.italic ||| Modifier.dim, false⟩ := by
    decide +kernel
  have hsel : ∀ (s : String) (m : Modifier), (⟨s, .reset, .reset, m, false⟩ : Cell).setStyle
      ((Style.new.withForeground (.ansi 0)).withBackground (.ansi 4)) = ⟨s, .ansi 0, .ansi 4, m, false⟩ := by
    intro s m
    unfold Cell.setStyle
    simp [Style.withForeground, Style.withBackground, Style.new, Modifier.union, Modifier.difference, Modifier.none]
    exact BitVec.and_allOnes
  have hstyle : InputExample.blank.setStyle (lineStyle r) =
      ⟨" ", .reset, .reset, if r = 0 then Modifier.bold else Modifier.italic ||| Modifier.dim, false⟩ := by
    rcases hr with rfl | rfl
    · rw [hbold]; rfl
    · rw [hdim]; rfl
  unfold itemPicture
  simp only [hy]
  by_cases hk : k < 2
  · have hk' : ¬ 2 ≤ k := by omega
    have hk2 : k = 0 ∨ k = 1 := by omega
    simp only [hk, hk', if_true, if_false, false_and]
    by_cases hs : selected = true
    · by_cases hr0 : r = 0
      · rcases hk2 with rfl | rfl <;> simp [hs, hr0, InputExample.blank, Cell.setSymbol, hsel]
      · rcases hk2 with rfl | rfl <;> simp [hs, hr0, InputExample.blank, Cell.setSymbol, hsel]
    · rcases hk2 with rfl | rfl <;> simp [hs, InputExample.blank, Cell.setSymbol]
  · have hk' : 2 ≤ k := by omega
    have hap : ∀ l : List Char, l.length = 2 → (l ++ itemText i r)[k]? = (itemText i r)[k - 2]? := by
      intro l hl
      rw [List.getElem?_append_right (by omega), hl]
    have hap' : ((if selected = true ∧ r = 0 then ['>', ' '] else [' ', ' ']) ++ itemText i r)[k]? =
        (itemText i r)[k - 2]? := by
      apply hap
      split_ifs <;> rfl
    simp only [hk, hk', if_true, if_false, true_and, hap', hstyle]
    by_cases hl : k - 2 < (itemText i r).length
    · have hl' : k < 2 + (itemText i r).length := by omega
      rw [List.getElem?_eq_getElem hl]
      simp only [hl', if_true, Option.map_some, Option.getD_some, Cell.setSymbol]
      cases selected
      · simp
      · simp [hsel]
    · have hl' : ¬ k < 2 + (itemText i r).length := by omega
      rw [List.getElem?_eq_none (by omega)]
      simp only [hl', if_false, Option.map_none, Option.getD_none]
      cases selected
      · simp [InputExample.blank]
      · simp [InputExample.blank, hsel]

theorem item_lines {t : Text} (h : t ∈ items) : t.lines.length = 2 := by
  unfold items at h
  obtain ⟨i, hi, rfl⟩ := List.mem_map.1 h
  rw [item_eq (by simpa using hi)]
  rfl

theorem items_length : items.length = 100 := by unfold items; simp

theorem items_get {i : Nat} (hi : i < 100) : items[i]? = some (item i) := by
  unfold items
  simp [hi]

theorem blanks_of_plainly (hS : Plainly u Ascii) : Blanks u := by
  intro n
  have h : Plain (List.replicate n ' ') := by
    intro c hc
    rw [List.eq_of_mem_replicate hc]
    decide
  rw [h.graphemes hS, List.map_replicate]

theorem rows_eq (area : Rect) (f n k : Nat) (t : Text) (ht : ((list.items.drop f).take n)[k]? = some t) :
    rowsOf list area ((list.items.drop f).take n) k t = ⟨area.x, area.y + 2 * k, area.width, 2⟩ := by
  have hitems : ∀ t ∈ (list.items.drop f).take n, t.lines.length = 2 := fun t ht =>
    item_lines (List.mem_of_mem_drop (List.mem_of_mem_take ht))
  generalize (list.items.drop f).take n = l at *
  have hk : k < l.length := (List.getElem?_eq_some_iff.1 ht).1
  have hs : ((l.take k).map fun t => t.lines.length).sum = 2 * k := by
    have : (l.take k).map (fun t => t.lines.length) = List.replicate k 2 := by
      rw [List.eq_replicate_iff]
      refine ⟨by simp; omega, fun x hx => ?_⟩
      obtain ⟨t, ht, rfl⟩ := List.mem_map.1 hx
      exact hitems t (List.mem_of_mem_take ht)
    rw [this, List.sum_replicate_nat]
    omega
  unfold rowsOf
  rw [hs, hitems t (List.mem_of_getElem? ht)]
  have hd : list.direction = .topToBottom := rfl
  simp only [hd]
  rfl

/-- The list on blank cells, in its frame. -/
theorem list_cells (hu : u.Lawful) (hs : u.Suffix) (hS : Plainly u Ascii) {s : State} {e : Ideal} (hg : s.Good)
    (hsel : drawnSelection list s = e.selected) (hrange : ∀ i ∈ e.selected, 0 ≤ i ∧ i < 100) (hoff : s.offset = e.top)
    (htop : e.top < 100) (area : Rect) (hroom : Roomy area) (b : Buffer) (wf : b.WF) (hin : Inside b area)
    (hblank : ∀ q, area.contains q = true → b.cellAt q = some InputExample.blank) :
    ∃ b', list.render u area b s = some (b', ⟨(e.draw area).top, e.selected⟩) ∧ b'.WF ∧ b'.area = b.area ∧
      ∀ q, b'.cellAt q = if area.contains q = true then some (pictureCell { e.draw area with popup := false } area q)
        else b.cellAt q := by
  obtain ⟨hx, hy, hrows, hcols⟩ := hroom
  obtain ⟨i1, i2, i3, i4, i5, i6⟩ := id hin
  -- the style and the frame
  obtain ⟨b1, e1, wf1, a1, c1⟩ := (Repaints.setStyle b.area area Style.new) b wf rfl
  obtain ⟨b2, e2, wf2, a2, c2⟩ := listBlock_paints hu hs hS b.area area (by unfold Rect.In; omega) hx (by omega) (by omega)
    b1 wf1 a1
  have hinner := frame_inner area (by omega) (by omega)
  obtain ⟨inner, hi⟩ : ∃ r, block.inner area = r := ⟨_, rfl⟩
  have hi' : inner = ⟨area.x + 1, area.y + 1, area.width - 2, area.height - 2⟩ := hi.symm.trans hinner
  -- the items
  obtain ⟨f, n, hbounds, hrowsin, hdraw⟩ := renderItems_cells hu hs (blanks_of_plainly hS) list (by
      rw [highlight_graphemes hS]
      intro c hc
      simp only [List.mem_cons, List.not_mem_nil, or_false] at hc
      rcases hc with rfl | rfl
      · exact hS.column _ ⟨'>', by decide, by decide, rfl⟩
      · exact hS.column _ ⟨' ', by decide, by decide, rfl⟩) (by
      intro h
      have : items.length = 0 := by
        have : list.items = items := rfl
        rw [← this, h]; rfl
      rw [items_length] at this
      cases this) (by
      intro t ht line hline
      have ht : t ∈ items := ht
      unfold items at ht
      obtain ⟨i, hi, rfl⟩ := List.mem_map.1 ht
      have hi : i < 100 := by simpa using hi
      rw [item_eq hi] at hline
      simp only [List.mem_cons, List.not_mem_nil, or_false] at hline
      intro sp hsp c hc
      rcases hline with rfl | rfl <;> simp only [List.mem_cons, List.not_mem_nil, or_false] at hsp <;> subst hsp
      · exact (itemText_plain hi 0).narrow hS c hc
      · exact (itemText_plain hi 1).narrow hS c hc) (by decide) inner (by rw [hi']; simp only; omega)
      (by rw [hi']; simp only; omega) s hg
  have hmap : list.items.map itemHeight = List.replicate 100 2 := by
    rw [List.eq_replicate_iff]
    refine ⟨by rw [List.length_map]; exact items_length, fun x hx => ?_⟩
    obtain ⟨t, ht, rfl⟩ := List.mem_map.1 hx
    exact item_lines ht
  have hselN : e.selected = (e.selected.map Int.toNat).map Int.ofNat := by
    cases he : e.selected with
    | none => rfl
    | some i =>
      have := hrange i he
      simp only [Option.map_some, Option.some.injEq]
      show i = ((i.toNat : Nat) : Int)
      omega
  have hwin := C123_window 100 2 e.top (e.selected.map Int.toNat) inner.height (by decide) (by decide)
    (by rw [hi']; simp only; omega) (by
      intro i hi
      simp only [Option.mem_def, Option.map_eq_some_iff] at hi
      obtain ⟨j, hj, rfl⟩ := hi
      have := hrange j hj
      omega)
  have hpad : list.scrollPadding = 0 := rfl
  rw [hmap, hpad, hsel, hoff, hselN, hwin] at hbounds
  have hshown : inner.height.toNat / 2 = shownItems area := by rw [hi']; rfl
  have hf : f = (e.draw area).top ∧ f + n = min 100 ((e.draw area).top + shownItems area) := by
    have hd : (e.draw area).top = scrolled (shownItems area) e.top (e.selected.map Int.toNat) := by
      unfold Ideal.draw
      cases e.selected <;> rfl
    rw [hd]
    rw [show min e.top (100 - 1) = e.top by omega, hshown] at hbounds
    simp only [Option.some.injEq, Prod.mk.injEq] at hbounds
    omega
  obtain ⟨hf1, hf2⟩ := hf
  obtain ⟨b3, e3, a3, wf3, o3, s3⟩ := hdraw b2 wf2 (by unfold Inside; rw [a2, hi']; simp only; omega)
  refine ⟨b3, ?_, wf3, a3.trans a2, fun q => ?_⟩
  · unfold ListWidget.render
    have hb : list.block = some block := rfl
    replace e1 : b.setStyle area Style.new = some b1 := e1
    have hst : list.style = Style.new := rfl
    rw [hb, hst, e1]
    simp only [Option.bind_eq_bind, Option.bind_some]
    rw [block_eq, e2]
    simp only [Option.bind_some]
    rw [← block_eq, hi, e3, hf1, hsel]
  have hb2 : b2.cellAt q = if area.contains q = true then some (framePaint area q InputExample.blank) else b.cellAt q := by
    rw [c2, c1]
    by_cases hq : area.contains q = true
    · simp only [hq, if_true, hblank q hq, Option.map_some, (C05_new_unit Style.new InputExample.blank).2.2]
    · simp only [hq]
      unfold framePaint
      simp only [hq]
      cases b.cellAt q <;> rfl
  have hmem : ∀ r : Rect, r.contains q = true ↔ r.x ≤ q.x ∧ q.x < r.x + r.width ∧ r.y ≤ q.y ∧ q.y < r.y + r.height :=
    fun r => Rect.contains_iff r q
  by_cases hq : area.contains q = true
  case neg =>
    rw [if_neg hq, o3 q, hb2, if_neg hq]
    intro k t ht
    by_contra h
    have := hrowsin k t ht q (by simpa using h)
    rw [hmem, hi'] at this
    rw [hmem] at hq
    simp only at this
    omega
  rw [if_pos hq]
  rw [if_pos hq, frame_cell area hcols hrows q hq] at hb2
  have hqm := (hmem _).1 hq
  unfold pictureCell
  simp only [Bool.false_eq_true, false_and, if_false]
  by_cases hrim : q.x - area.x = 0 ∨ q.x - area.x = area.width - 1 ∨ q.y - area.y = 0 ∨ q.y - area.y = area.height - 1
  · rw [if_pos hrim, o3 q, hb2, if_pos hrim]
    intro k t ht
    by_contra h
    have := hrowsin k t ht q (by simpa using h)
    rw [hmem, hi'] at this
    simp only at this
    omega
  rw [if_neg hrim]
  rw [if_neg hrim] at hb2
  have hcellform : ∀ i r k : Nat, listCell { e.draw area with popup := false } area k r =
      if r / 2 < shownItems area ∧ (e.draw area).top + r / 2 < 100 then
        itemPicture (decide (e.selected = some (((e.draw area).top + r / 2 : Nat) : Int))) ((e.draw area).top + r / 2) (r % 2) k
      else InputExample.blank := by
    intro i r k
    rfl
  rw [hcellform 0]
  obtain ⟨r, hr⟩ : ∃ r, (q.y - area.y - 1).toNat = r := ⟨_, rfl⟩
  rw [hr, ← hf1]
  by_cases hin2 : r / 2 < shownItems area ∧ f + r / 2 < 100
  · rw [if_pos hin2]
    have hlt : r / 2 < n := by omega
    have hget : ((list.items.drop f).take n)[r / 2]? = some (item (f + r / 2)) := by
      rw [List.getElem?_take_of_lt hlt, List.getElem?_drop]
      exact items_get hin2.2
    have hrow := rows_eq inner f n (r / 2) _ hget
    have hqrow : (rowsOf list inner ((list.items.drop f).take n) (r / 2) (item (f + r / 2))).contains q = true := by
      rw [hrow, hmem, hi']
      simp only
      omega
    have := s3 (r / 2) _ hget q hqrow
    rw [this, hb2, Option.map_some, hrow, hsel]
    have hsp : list.highlightSpacing.shouldAdd s.selected.isSome = true := rfl
    rw [hsp, item_cell hS hin2.2 _ _ (by rw [hi']; simp only; omega) rfl q (by rw [← hrow]; exact hqrow)]
    have k1 : (q.y - (⟨inner.x, inner.y + 2 * ((r / 2 : Nat) : Int), inner.width, 2⟩ : Rect).y).toNat = r % 2 := by
      rw [hi']
      simp only
      omega
    have k2 : (q.x - (⟨inner.x, inner.y + 2 * ((r / 2 : Nat) : Int), inner.width, 2⟩ : Rect).x).toNat =
        (q.x - area.x - 1).toNat := by
      rw [hi']
      simp only
      omega
    rw [k1, k2]
    congr 2
    rw [Bool.eq_iff_iff]
    simp
  · rw [if_neg hin2, o3 q, hb2]
    intro k t ht
    by_contra h
    have hkn : k < n := by
      have := (List.getElem?_eq_some_iff.1 ht).1
      rw [List.length_take] at this
      omega
    have := rows_eq inner f n k t ht
    rw [this, Bool.not_eq_false, hmem, hi'] at h
    simp only at h
    omega

/-! ## The popup -/

theorem place_eq (ω ω' : Nat → Nat) (fuel : Nat) (area : Rect) (hx : 0 ≤ area.x) (hy : 0 ≤ area.y) (hw : 30 ≤ area.width)
    (hh : 3 ≤ area.height) :
    popup.place ω ω' fuel area = .running ∨ popup.place ω ω' fuel area = .ok (popupArea area) := by
  have hin : area.inner Padding.none' = area := Rect.inner_none (by omega) (by omega)
  have hp : popup.place ω ω' fuel area = (match Popup.unwrap (Layout.splitWithSpacers ω fuel
        ⟨.vertical, [.len 3], Padding.none', .center, .space 0⟩ area) with
      | .panics => .panics
      | .running => .running
      | .ok area => Popup.unwrap (Layout.splitWithSpacers ω' fuel
          ⟨.horizontal, [.len 30], Padding.none', .center, .space 0⟩ area)) := rfl
  rw [hp]
  rcases C86_single_segment ω fuel ⟨.vertical, [.len 3], Padding.none', .center, .space 0⟩ (.len 3) rfl area with
    e | ⟨r1, _, _, _, e, hfit, _⟩
  · left; rw [e]; rfl
  rcases C86_exact_length ω fuel ⟨.vertical, [.len 3], Padding.none', .center, .space 0⟩ 3 rfl
    (.inr (.inr rfl)) area (by simp only [hin, Layout.lo]; exact hy) (by omega) (by simp only [hin, Layout.extent]; omega) with
    e' | ⟨r2, _, _, e', hx1, hx2⟩
  · left; rw [e']; rfl
  rw [e] at e'
  simp only [Layout.Outcome.ok.injEq, List.cons.injEq, and_true] at e'
  obtain ⟨rfl, -⟩ := e'
  simp only [hin, Layout.lo, Layout.extent] at hfit hx1 hx2
  obtain ⟨-, -, -, hx', hwid⟩ := hfit
  rw [e]
  simp only [Popup.unwrap]
  have hin1 : r1.inner Padding.none' = r1 := Rect.inner_none (by omega) (by omega)
  rcases C86_single_segment ω' fuel ⟨.horizontal, [.len 30], Padding.none', .center, .space 0⟩ (.len 30) rfl
    r1 with e' | ⟨r, _, _, _, e', hfit', _⟩
  · left; rw [e']
  rcases C86_exact_length ω' fuel ⟨.horizontal, [.len 30], Padding.none', .center, .space 0⟩ 30 rfl
    (.inr (.inr rfl)) r1 (by simp only [hin1, Layout.lo]; omega) (by omega) (by simp only [hin1, Layout.extent]; omega) with
    e'' | ⟨r2, _, _, e'', hx3, hx4⟩
  · left; rw [e'']
  rw [e'] at e''
  simp only [Layout.Outcome.ok.injEq, List.cons.injEq, and_true] at e''
  obtain ⟨rfl, -⟩ := e''
  simp only [hin1, Layout.lo, Layout.extent] at hfit' hx3 hx4
  obtain ⟨-, -, -, hy', hh'⟩ := hfit'
  right
  rw [e']
  have hr : r = popupArea area := by
    unfold popupArea
    ext <;> simp only <;> omega
  rw [← hr]

theorem popup_inner (r : Rect) (hw : r.width = 30) (hh : r.height = 3) :
    popupBlock.inner r = ⟨r.x + 1, r.y + 1, 28, 1⟩ := by
  rw [popupBlock_eq]
  have h1 : Block.intersects (boxBlock .thick "Popup").borders Block.sideLeft = true := by
    show Block.intersects 15 8 = true; decide
  have h2 : Block.intersects (boxBlock .thick "Popup").borders Block.sideTop = true := by
    show Block.intersects 15 1 = true; decide
  have h3 : Block.intersects (boxBlock .thick "Popup").borders Block.sideRight = true := by
    show Block.intersects 15 2 = true; decide
  have h4 : Block.intersects (boxBlock .thick "Popup").borders Block.sideBottom = true := by
    show Block.intersects 15 4 = true; decide
  unfold Block.inner
  simp only [h1, h2, h3, h4, Bool.true_or, if_true, Rect.right, Rect.bottom]
  ext <;> simp [boxBlock] <;> omega

/-- The cells of the popup, without its text. -/
theorem popup_paints (hu : u.Lawful) (hs : u.Suffix) (hS : Plainly u Ascii) (window r : Rect) (hin : window.In r)
    (hw : 2 ≤ r.width) (hh : 2 ≤ r.height) :
    Repaints window (fun q c => if r.contains q = true then boxPaint .thick "Popup" r q InputExample.blank else c)
      (popup.draw u r) := by
  have hd : popup.draw u r = fun b => (((clear r b).bind fun b => b.setStyle r Style.new).bind
      fun b => (boxBlock .thick "Popup").render u r b) := by
    funext b
    rw [← popupBlock_eq]
    unfold Popup.draw
    show ((clear r b).bind fun b => (b.setStyle r Style.new).bind fun b => popupBlock.render u r b) = _
    rw [Option.bind_assoc]
  have hc : Repaints window (fun q c => if r.contains q = true then InputExample.blank else c) (clear r) := by
    intro b wf ha
    obtain ⟨b', h1, h2, h3, h4⟩ := C49_clear_partial r b wf (by
      intro q hq
      rw [ha]
      rw [Rect.contains_iff] at hq ⊢
      unfold Rect.In Rect.Mem at *
      omega)
    refine ⟨b', h1, h3, h2.trans ha, fun q => ?_⟩
    rw [h4]
    by_cases hq : r.contains q = true
    · obtain ⟨c, hc⟩ := wf.cellAt_isSome (p := q) (by
        rw [ha]
        rw [Rect.contains_iff] at hq ⊢
        unfold Rect.In Rect.Mem at *
        omega)
      simp only [hq, if_true, hc]
      rfl
    · simp only [hq]
      cases b.cellAt q <;> rfl
  rw [hd]
  refine ((hc.bind (Repaints.setStyle window r Style.new)).bind (boxBlock_paints hu hs hS .thick "Popup"
    (plain_text (by decide)) window r hin hw hh)).congr fun q _ c => ?_
  by_cases hq : r.contains q = true
  · simp only [hq, if_true]
    rw [(C05_new_unit Style.new InputExample.blank).2.2]
  · simp only [hq]
    unfold boxPaint
    simp [hq]

theorem paragraph_text : paragraph.text = ⟨Style.new, [textLine .none "Hello, world!".toList], .none⟩ := by
  have hp : Plain "Hello, world!".toList := plain_text (by decide)
  have h : newLinesStr "Hello, world!".toList = [newLineStr "Hello, world!".toList] := by
    unfold newLinesStr
    rw [if_neg (by decide)]
    have : scanLines ("Hello, world!".toList.length + 1) "Hello, world!".toList = ["Hello, world!".toList] := by
      decide +kernel
    rw [this]
    rfl
  show newTextStr "Hello, world!".toList = _
  unfold newTextStr
  rw [h, hp.newLineStr (by decide) (by decide)]
  rfl

/-- The text of the popup. -/
theorem paragraph_paints (hu : u.Lawful) (hS : Plainly u Ascii) (window area : Rect) (hin : window.In area)
    (hw : area.width = 28) (hh : area.height = 1) :
    Repaints window (fun q c => if area.contains q = true then
        putSymbol (if 8 ≤ (q.x - area.x).toNat then
          ("Hello, world!".toList[(q.x - area.x).toNat - 8]?).map fun ch => String.ofList [ch] else none) c
      else c) (paragraph.render u area) := by
  have hp : Plain "Hello, world!".toList := plain_text (by decide)
  have hn : (textLine .none "Hello, world!".toList).NarrowText u := by
    intro s hs c hc
    simp only [textLine, List.mem_cons, List.not_mem_nil, or_false] at hs
    subst hs
    exact hp.narrow hS c hc
  refine (Repaints.paragraphLine hu paragraph rfl rfl rfl (textLine .none "Hello, world!".toList) (by rw [paragraph_text])
    hn .center rfl (by decide) window area hin (by omega) (by omega)
    ("Hello, world!".toList.map fun ch => (String.ofList [ch], Style.new)) (by
      rw [paragraph_text, hw]
      have hst : (Style.new.patched (textLine .none "Hello, world!".toList).style).patched Style.new = Style.new := by
        show (Style.new.patched Style.new).patched Style.new = Style.new
        decide +kernel
      simp only [textLine, List.flatMap_cons, List.flatMap_nil, List.append_nil]
      rw [show (Span.new (String.ofList "Hello, world!".toList)).content = String.ofList "Hello, world!".toList from rfl,
        hp.graphemes hS, List.map_map, List.take_of_length_le (by rw [List.length_map]; decide)]
      congr 1)).congr fun q _ c => ?_
  by_cases hq : area.contains q = true
  · simp only [hq, if_true]
    have hst : ∀ c : Cell, c.setStyle paragraph.style = c := fun c => (C05_new_unit Style.new c).2.2
    have hlead : Alignment.center.lead area.width.toNat
        ("Hello, world!".toList.map fun ch => (String.ofList [ch], Style.new)).length = 8 := by
      rw [hw]; rfl
    have hrow : q.y = area.y := by
      rw [Rect.contains_iff] at hq
      unfold Rect.Mem at hq
      omega
    rw [hlead, hst]
    simp only [hrow, true_and]
    by_cases h8 : 8 ≤ (q.x - area.x).toNat
    · simp only [h8, if_true, List.getElem?_map]
      cases "Hello, world!".toList[(q.x - area.x).toNat - 8]? with
      | none => rfl
      | some ch => simp only [Option.map_some]; rw [put_new]; rfl
    · simp only [h8, if_false]
      rfl
  · simp only [hq]
    simp

/-- The cells of the popup are its picture. -/
theorem popup_picture : ∀ i : Nat, i < 30 → ∀ j : Nat, j < 3 →
    (let c := putSymbol (if 1 ≤ (i : Int) ∧ (i : Int) ≤ 30 - 2 ∧ (j : Int) = 0 then charAt "Popup" ((i : Int) - 1) else none)
        (if onRim 30 3 i j then InputExample.blank.setSymbol (BorderSet.thick.boxSymbol 30 3 i j) else InputExample.blank)
     if 1 ≤ i ∧ i ≤ 28 ∧ j = 1 then
        putSymbol (if 8 ≤ i - 1 then ("Hello, world!".toList[i - 1 - 8]?).map fun ch => String.ofList [ch] else none) c
      else c) =
    (⟨(((popupRows[j]?.bind fun s => s.toList[i]?).map fun c => String.ofList [c]).getD " "), .reset, .reset, 0, false⟩ : Cell) := by
  decide +kernel

/-- What the model holds is what the user has in mind. -/
structure Agrees (m : Model) (e : Ideal) : Prop where
  selected : drawnSelection list m.list = e.selected
  good : m.list.Good
  range : ∀ i ∈ e.selected, 0 ≤ i ∧ i < 100
  offset : m.list.offset = e.top
  top : e.top < 100
  popup : m.popup = e.popup

/-- **The frame.** -/
theorem frame_cells (ω : Nat → Nat → Nat) (fuel : Nat) (hu : u.Lawful) (hs : u.Suffix) (hS : Plainly u Ascii) {m : Model}
    {e : Ideal} (h : Agrees m e) (area : Rect) (hroom : Roomy area) (b : Buffer) (wf : b.WF) (hin : Inside b area)
    (hblank : ∀ q, area.contains q = true → b.cellAt q = some InputExample.blank) :
    (e.popup = true ∧ Running ω fuel area) ∨ ∃ b', render ω fuel u m area b =
        some (b', ⟨⟨(e.draw area).top, e.selected⟩, e.popup⟩) ∧ b'.WF ∧ b'.area = b.area ∧
      ∀ q, b'.cellAt q = if area.contains q = true then some (pictureCell (e.draw area) area q) else b.cellAt q := by
  obtain ⟨h1, h2, h3, h4, h5, h6⟩ := h
  obtain ⟨b1, e1, wf1, a1, c1⟩ := list_cells hu hs hS h2 h1 h3 h4 h5 area hroom b wf hin hblank
  obtain ⟨hx, hy, hrows, hcols⟩ := hroom
  by_cases hp : e.popup = true
  case neg =>
    right
    have hp' : e.popup = false := by simpa using hp
    have hm : m.popup = false := h6.trans hp'
    refine ⟨b1, ?_, wf1, a1, fun q => ?_⟩
    · unfold render
      rw [e1]
      simp only [Option.bind_eq_bind, Option.bind_some, hm, Bool.false_eq_true, if_false, hp']
    · rw [c1]
      have : ({ e.draw area with popup := false } : Ideal) = e.draw area := by
        unfold Ideal.draw
        rw [hp']
      rw [this]
  rcases place_eq (ω 0) (ω 1) fuel area hx hy hcols (by omega) with hpl | hpl
  · exact .inl ⟨hp, .inl hpl⟩
  rcases place_eq (ω 2) (ω 3) fuel area hx hy hcols (by omega) with hpl' | hpl'
  · exact .inl ⟨hp, .inr hpl'⟩
  right
  obtain ⟨i1, i2, i3, i4, i5, i6⟩ := id hin
  obtain ⟨p, hpa⟩ : ∃ p, popupArea area = p := ⟨_, rfl⟩
  have hpa' : p = ⟨area.x + (area.width - 29) / 2, area.y + (area.height - 2) / 2, 30, 3⟩ := hpa.symm
  have hpw : p.width = 30 ∧ p.height = 3 ∧ area.x ≤ p.x ∧ p.x + 30 ≤ area.x + area.width ∧ area.y ≤ p.y ∧
      p.y + 3 ≤ area.y + area.height := by
    rw [hpa']
    refine ⟨rfl, rfl, ?_, ?_, ?_, ?_⟩ <;> simp only <;> omega
  rw [hpa] at hpl hpl'
  obtain ⟨pw, ph, p1, p2, p3, p4⟩ := hpw
  obtain ⟨b2, e2, wf2, a2, c2⟩ := popup_paints hu hs hS b.area p (by unfold Rect.In; omega) (by omega) (by omega) b1 wf1 a1
  have hpi := popup_inner p pw ph
  obtain ⟨b3, e3, wf3, a3, c3⟩ := paragraph_paints hu hS b.area ⟨p.x + 1, p.y + 1, 28, 1⟩
    (by unfold Rect.In; simp only; omega) rfl rfl b2 wf2 a2
  refine ⟨b3, ?_, wf3, a3, fun q => ?_⟩
  · have hd1 : popup.render (ω 0) (ω 1) fuel u area b1 = .ok b2 := by
      unfold Popup.render
      rw [hpl]
      simp only [e2]
    have hd2 : popup.inner (ω 2) (ω 3) fuel area = .ok ⟨p.x + 1, p.y + 1, 28, 1⟩ := by
      unfold Popup.inner
      rw [hpl', ← hpi]
      rfl
    unfold render
    rw [e1]
    simp only [Option.bind_eq_bind, Option.bind_some, h6, hp, if_true, hd1, hd2, e3, Option.map_some]
  have hmem : ∀ r : Rect, r.contains q = true ↔ r.x ≤ q.x ∧ q.x < r.x + r.width ∧ r.y ≤ q.y ∧ q.y < r.y + r.height :=
    fun r => Rect.contains_iff r q
  by_cases hq : area.contains q = true
  case neg =>
    have hq1 : ¬ p.contains q = true := by rw [hmem] at hq ⊢; omega
    have hq2 : ¬ (⟨p.x + 1, p.y + 1, 28, 1⟩ : Rect).contains q = true := by rw [hmem] at hq ⊢; simp only; omega
    rw [if_neg hq, c3, c2, c1, if_neg hq]
    simp only [hq1, hq2]
    cases b.cellAt q <;> rfl
  rw [if_pos hq]
  by_cases hq1 : p.contains q = true
  case neg =>
    have hq2 : ¬ (⟨p.x + 1, p.y + 1, 28, 1⟩ : Rect).contains q = true := by rw [hmem] at hq1 ⊢; simp only; omega
    rw [c3, c2, c1, if_pos hq]
    simp only [hq1, hq2, Option.map_some]
    unfold pictureCell
    simp only [hpa, hq1, and_false, if_false, Bool.false_eq_true]
    rfl
  rw [c3, c2, c1, if_pos hq]
  simp only [hq1, Option.map_some, if_true]
  have hqm := (hmem _).1 hq1
  rw [pw, ph] at hqm
  obtain ⟨i, hi⟩ : ∃ i : Nat, q.x - p.x = i := ⟨(q.x - p.x).toNat, by omega⟩
  obtain ⟨j, hj⟩ : ∃ j : Nat, q.y - p.y = j := ⟨(q.y - p.y).toNat, by omega⟩
  have hpic := popup_picture i (by omega) j (by omega)
  have hdp : (e.draw area).popup = true := hp
  unfold pictureCell
  simp only [hpa, hq1, hdp, and_self, if_true]
  rw [hi, hj]
  simp only [Int.toNat_natCast]
  rw [← hpic]
  have hbox : boxPaint .thick "Popup" p q InputExample.blank =
      putSymbol (if 1 ≤ (i : Int) ∧ (i : Int) ≤ 30 - 2 ∧ (j : Int) = 0 then charAt "Popup" ((i : Int) - 1) else none)
        (if onRim 30 3 i j then InputExample.blank.setSymbol (BorderSet.thick.boxSymbol 30 3 i j) else InputExample.blank) := by
    unfold boxPaint
    rw [if_pos hq1, hi, hj, pw, ph]
  rw [hbox]
  by_cases hq2 : (⟨p.x + 1, p.y + 1, 28, 1⟩ : Rect).contains q = true
  · have hij : 1 ≤ i ∧ i ≤ 28 ∧ j = 1 := by
      rw [hmem] at hq2
      simp only at hq2
      omega
    simp only [hq2, if_true, if_pos hij]
    have : (q.x - (p.x + 1)).toNat = i - 1 := by omega
    rw [this]
  · have hij : ¬ (1 ≤ i ∧ i ≤ 28 ∧ j = 1) := by
      rw [hmem] at hq2
      simp only at hq2
      omega
    simp only [hq2, if_neg hij]
    rfl

end Bento.ListExample
