import Verif.Lemmas.LazygitPanel

/-!
# Boxes with a title

The cells of a block with all four borders and one title at the top left.
-/

namespace Bento

open Lazygit

/-- The symbol of a box in column `i` of row `j`, not at its corners' insides. -/
def BorderSet.boxSymbol (set : BorderSet) (w h i j : Int) : String :=
  if j = 0 then if i = 0 then set.topLeft else if i = w - 1 then set.topRight else set.horizontalTop
  else if j = h - 1 then if i = 0 then set.bottomLeft else if i = w - 1 then set.bottomRight else set.horizontalBottom
  else if i = 0 then set.verticalLeft else set.verticalRight

/-- A block with all borders and a title, otherwise as it is made. -/
def boxBlock (set : BorderSet) (title : String) : Block where
  titles := [⟨.none, none, textLine .none title.toList⟩]
  titlesStyle := Style.new
  titlesAlignment := .left
  titlesPosition := .top
  borders := 15
  borderStyle := Style.new
  borderSet := set
  style := Style.new
  padding := ⟨0, 0, 0, 0⟩

/-- What it does to a cell. -/
def boxPaint (set : BorderSet) (title : String) (r : Rect) (q : Position) (c : Cell) : Cell :=
  if r.contains q = true then
    putSymbol (if 1 ≤ q.x - r.x ∧ q.x - r.x ≤ r.width - 2 ∧ q.y - r.y = 0 then charAt title (q.x - r.x - 1) else none)
      (if onRim r.width r.height (q.x - r.x) (q.y - r.y) then
        c.setSymbol (set.boxSymbol r.width r.height (q.x - r.x) (q.y - r.y)) else c)
  else c

theorem box_rim (set : BorderSet) (title : String) (area : Rect) (h2 : 2 ≤ area.height) (w2 : 2 ≤ area.width) (q : Position)
    (c : Cell) (hq : area.contains q = true) :
    (c.setStyle (boxBlock set title).style).bordered (boxBlock set title).borderStyle
          ((boxBlock set title).borderSet.symbol
            (Block.hasSides (boxBlock set title).borders 8 && decide (q.x = area.x))
            (Block.hasSides (boxBlock set title).borders 1 && decide (q.y = area.y))
            (Block.hasSides (boxBlock set title).borders 2 && decide (q.x = area.x + area.width - 1))
            (Block.hasSides (boxBlock set title).borders 4 && decide (q.y = area.y + area.height - 1))) =
      if onRim area.width area.height (q.x - area.x) (q.y - area.y) then
        c.setSymbol (set.boxSymbol area.width area.height (q.x - area.x) (q.y - area.y))
      else c := by
  rw [Rect.contains_iff] at hq
  unfold Rect.Mem at hq
  have h15 : Block.hasSides (boxBlock set title).borders 8 = true ∧
      Block.hasSides (boxBlock set title).borders 1 = true ∧
      Block.hasSides (boxBlock set title).borders 2 = true ∧
      Block.hasSides (boxBlock set title).borders 4 = true := by
    show Block.hasSides 15 8 = true ∧ Block.hasSides 15 1 = true ∧ Block.hasSides 15 2 = true ∧ Block.hasSides 15 4 = true
    decide
  rw [h15.1, h15.2.1, h15.2.2.1, h15.2.2.2]
  simp only [Bool.true_and]
  have hst : c.setStyle (boxBlock set title).style = c := (C05_new_unit Style.new c).2.2
  have hst' : ∀ c : Cell, c.setStyle (boxBlock set title).borderStyle = c := fun c => (C05_new_unit Style.new c).2.2
  rw [hst]
  unfold onRim BorderSet.boxSymbol
  have e1 : (q.x = area.x) ↔ (q.x - area.x = 0) := by omega
  have e2 : (q.y = area.y) ↔ (q.y - area.y = 0) := by omega
  have e3 : (q.x = area.x + area.width - 1) ↔ (q.x - area.x = area.width - 1) := by omega
  have e4 : (q.y = area.y + area.height - 1) ↔ (q.y - area.y = area.height - 1) := by omega
  simp only [e1, e2, e3, e4]
  have n1 : q.x - area.x = 0 → ¬ q.x - area.x = area.width - 1 := by omega
  have n2 : q.y - area.y = 0 → ¬ q.y - area.y = area.height - 1 := by omega
  have hset : (boxBlock set title).borderSet = set := rfl
  rw [hset]
  generalize q.x - area.x = i at *
  generalize q.y - area.y = j at *
  rcases Classical.propComplete (i = 0) with p1 | p1 <;>
    rcases Classical.propComplete (j = 0) with p2 | p2 <;>
    rcases Classical.propComplete (i = area.width - 1) with p3 | p3 <;>
    rcases Classical.propComplete (j = area.height - 1) with p4 | p4 <;>
    first
      | (simp [p1, p3] at n1; done)
      | (simp [p2, p4] at n2; done)
      | simp [p1, p2, p3, p4, BorderSet.symbol, Cell.bordered, hst']

theorem boxBlock_titles (u : Uniseg) (set : BorderSet) (title : String) (area : Rect) :
    (boxBlock set title).renderTitles u area = 
      (boxBlock set title).leftLoop u [⟨.none, none, textLine .none title.toList⟩]
        ⟨area.x + 1, area.y, max 0 (area.width - 2), 1⟩ := by
  funext buf
  have hl : ∀ ta b, (boxBlock set title).leftLoop u [] ta b = some b := fun _ _ => rfl
  have hr : ∀ ta b, (boxBlock set title).rightLoop u [] ta b = some b := fun _ _ => rfl
  have f1 : (boxBlock set title).filterTitles .top .right = [] := by
    unfold Block.filterTitles boxBlock Block.positionOf; simp
  have f2 : (boxBlock set title).filterTitles .top .center = [] := by
    unfold Block.filterTitles boxBlock Block.positionOf; simp
  have f3 : (boxBlock set title).filterTitles .top .left = [⟨.none, none, textLine .none title.toList⟩] := by
    unfold Block.filterTitles boxBlock Block.positionOf; simp
  have f4 : (boxBlock set title).filterTitles .bottom .right = [] := by
    unfold Block.filterTitles boxBlock Block.positionOf; simp
  have f5 : (boxBlock set title).filterTitles .bottom .center = [] := by
    unfold Block.filterTitles boxBlock Block.positionOf; simp
  have f6 : (boxBlock set title).filterTitles .bottom .left = [] := by
    unfold Block.filterTitles boxBlock Block.positionOf; simp
  have hta : (boxBlock set title).titlesArea area .top = ⟨area.x + 1, area.y, max 0 (area.width - 2), 1⟩ := by
    have h8 : Block.hasSides (boxBlock set title).borders Block.sideLeft = true := by
      show Block.hasSides 15 8 = true; decide
    have h2 : Block.hasSides (boxBlock set title).borders Block.sideRight = true := by
      show Block.hasSides 15 2 = true; decide
    unfold Block.titlesArea
    rw [h8, h2]
    simp only [if_true, Rect.left, Rect.mk.injEq, and_true, true_and]
    refine ⟨rfl, by omega⟩
  unfold Block.renderTitles Block.renderTitlePosition Block.renderRightTitles Block.renderCenterTitles
    Block.renderLeftTitles
  rw [f1, f2, f3, f4, f5, f6]
  simp only [hta, List.reverse_nil, hl, hr, Option.bind_eq_bind, Option.bind_some]
  cases (boxBlock set title).leftLoop u [⟨.none, none, textLine .none title.toList⟩]
    ⟨area.x + 1, area.y, max 0 (area.width - 2), 1⟩ buf <;> rfl

theorem boxTitle_paints {u : Uniseg} (hu : u.Lawful) (hs : u.Suffix) (hS : Plainly u Ascii) (set : BorderSet)
    (title : String) (ht : Plain title.toList) (window area : Rect) (hin : window.In area) (hh : 1 ≤ area.height) :
    Repaints window (fun q c => putSymbol (if area.contains q = true ∧ 1 ≤ q.x - area.x ∧ q.x - area.x ≤ area.width - 2 ∧ q.y - area.y = 0 then
        charAt title (q.x - area.x - 1) else none) c)
      ((boxBlock set title).leftLoop u [⟨.none, none, textLine .none title.toList⟩]
        ⟨area.x + 1, area.y, max 0 (area.width - 2), 1⟩) := by
  obtain ⟨h1, h2, h3, h4, h5, h6⟩ := id hin
  rw [leftLoop_one]
  by_cases hw : area.width ≤ 2
  · have he : (⟨area.x + 1, area.y, max 0 (area.width - 2), 1⟩ : Rect).isEmpty = true := by
      simp [Rect.isEmpty]; omega
    simp only [he, if_true]
    refine (Repaints.nothing window).congr fun q _ c => ?_
    rw [if_neg (by omega)]
    rfl
  have he : (⟨area.x + 1, area.y, max 0 (area.width - 2), 1⟩ : Rect).isEmpty = false := by
    simp [Rect.isEmpty]; omega
  simp only [he, Bool.false_eq_true, if_false]
  rw [textLine_width hS .none ht]
  generalize hcs : title.toList = cs at *
  have hdraw : Repaints window (fun q c => putSymbol (if (⟨area.x + 1, area.y, min cs.length (max 0 (area.width - 2)), 1⟩ : Rect).contains q = true ∧
        q.y = area.y then
        (Alignment.none.shown (min (cs.length : Int) (max 0 (area.width - 2))).toNat cs (q.x - (area.x + 1)).toNat).map
          fun ch => String.ofList [ch] else none) c)
      ((boxBlock set title).drawTitle u ⟨.none, none, textLine .none cs⟩
        ⟨area.x + 1, area.y, min cs.length (max 0 (area.width - 2)), 1⟩) := by
    refine ((Repaints.setStyle window _ Style.new).bind (textLine_paints hu hs hS .none ht window
      ⟨area.x + 1, area.y, min cs.length (max 0 (area.width - 2)), 1⟩ ?_)).congr fun q _ c => ?_
    · unfold Rect.In
      simp only
      omega
    · rw [(C05_new_unit Style.new c).2.2]
      simp
  refine (hdraw.bind (Repaints.nothing window)).congr fun q _ c => ?_
  congr 1
  by_cases hq : area.contains q = true ∧ 1 ≤ q.x - area.x ∧ q.x - area.x ≤ area.width - 2 ∧ q.y - area.y = 0
  · rw [if_pos hq]
    unfold charAt
    rw [hcs]
    have h0 : 0 ≤ q.x - area.x - 1 := by omega
    simp only [h0, if_true]
    by_cases hl : (q.x - area.x - 1).toNat < cs.length
    · have hc : (⟨area.x + 1, area.y, min (cs.length : Int) (max 0 (area.width - 2)), 1⟩ : Rect).contains q = true := by
        rw [Rect.contains_iff]
        unfold Rect.Mem
        simp only
        omega
      rw [if_pos ⟨hc, by omega⟩]
      congr 1
      unfold Alignment.shown Alignment.before
      simp only
      rw [show q.x - (area.x + 1) = q.x - area.x - 1 by omega]
      split_ifs <;> first | omega | simp
    · rw [List.getElem?_eq_none (by omega), if_neg]
      · rfl
      · rw [Rect.contains_iff]
        unfold Rect.Mem
        simp only
        omega
  · rw [if_neg hq, if_neg]
    intro h
    apply hq
    rw [Rect.contains_iff] at h ⊢
    unfold Rect.Mem at *
    simp only at h
    omega

/-- The cells of a box of at least two rows and columns. -/
theorem boxBlock_paints {u : Uniseg} (hu : u.Lawful) (hs : u.Suffix) (hS : Plainly u Ascii) (set : BorderSet)
    (title : String) (ht : Plain title.toList) (window area : Rect) (hin : window.In area) (w2 : 2 ≤ area.width)
    (h2 : 2 ≤ area.height) : Repaints window (boxPaint set title area) ((boxBlock set title).render u area) := by
  obtain ⟨i1, i2, i3, i4, i5, i6⟩ := id hin
  have hself : area.intersection area = area := by
    unfold Rect.intersection Rect.right Rect.bottom
    ext <;> simp only <;> omega
  have he : area.isEmpty = false := by simp [Rect.isEmpty]; omega
  have hr : (boxBlock set title).render u area = fun buf =>
      ((buf.setStyle area (boxBlock set title).style).bind ((boxBlock set title).renderBorders area)).bind
        ((boxBlock set title).renderTitles u area) := by
    funext buf
    unfold Block.render
    simp only [hself, he, Bool.false_eq_true, if_false]
    rw [Option.bind_assoc]
    rfl
  rw [hr]
  have hb := Repaints.borders (boxBlock set title) window area hin (.inl w2) (.inl h2)
  have htop := boxTitle_paints hu hs hS set title ht window area hin (by omega)
  refine (hb.bind (f2 := (boxBlock set title).renderTitles u area) (by
    rw [boxBlock_titles]; exact htop)).congr fun q _ c => ?_
  unfold boxPaint
  by_cases hq : area.contains q = true
  · simp only [hq, if_true, true_and]
    rw [box_rim _ _ _ h2 w2 _ _ hq]
  · simp only [hq]
    simp [putSymbol]

end Bento
