import Verif.Lemmas.Cells
import Verif.Props.Titles
import Verif.Spec.Page

/-!
# The cells of a block with titles
-/

namespace Bento

variable {u : Uniseg}

theorem columns_of_narrow {l : Line} (hl : l.NarrowText u) : u.columns (l.clusters u) = (l.clusters u).length := by
  rw [← line_columns]
  exact (line_clusters_length hl).1

theorem Repaints.same {window : Rect} {g : Position → Cell → Cell} {f : Buffer → Option Buffer} (hf : ∀ b, f b = some b)
    (hg : ∀ q c, g q c = c) : Repaints window g f := by
  have e : f = some := funext hf
  rw [e]
  exact (Repaints.nothing window).congr fun q _ c => (hg q c).symm

/-- One title. -/
theorem drawTitle_repaints (hu : u.Lawful) (hs : u.Suffix) (b : Block) (t : Title) (ht : t.line.NarrowText u)
    (window : Rect) (x y : Int) (n : Nat) (hin : n ≠ 0 → window.In ⟨x, y, n, 1⟩) :
    Repaints window (fun q c => if q.y = y ∧ x ≤ q.x ∧ q.x < x + n then
        t.line.cellIn u .none n (q.x - x).toNat (c.setStyle b.titlesStyle) else c)
      (fun buf => b.drawTitle u t ⟨x, y, n, 1⟩ buf) := by
  by_cases hn : n = 0
  · subst hn
    refine (((Repaints.setStyle window ⟨x, y, (0 : Nat), 1⟩ b.titlesStyle).bind
      (Repaints.same (g := fun _ c => c) (f := t.line.render u ⟨x, y, (0 : Nat), 1⟩) (fun buf => ?_)
        (fun _ _ => rfl))).congr fun q _ c => ?_)
    · unfold Line.render Line.renderAligned
      rw [if_pos]
      unfold Rect.isEmpty Rect.intersection Rect.right Rect.bottom
      simp only [Bool.or_eq_true, beq_iff_eq]
      omega
    · simp only [Rect.contains_iff, Rect.Mem]
      rw [if_neg (by omega), if_neg (by omega)]
  have hin := hin hn
  refine (((Repaints.setStyle window ⟨x, y, n, 1⟩ b.titlesStyle).bind
    (Repaints.styledLine hu hs t.line .none ht window ⟨x, y, n, 1⟩ hin)).congr fun q _ c => ?_)
  simp only [Rect.contains_iff, Rect.Mem]
  by_cases hq : q.y = y ∧ x ≤ q.x ∧ q.x < x + n
  · rw [if_pos (by omega), if_pos (by omega), if_pos hq]
    simp
  · rw [if_neg (by omega), if_neg (by omega), if_neg hq]

/-- What a row of titles does to a cell. -/
def placesCell (u : Uniseg) (style : Style) (x y : Int) (ps : List TitlePlace) (q : Position) (c : Cell) : Cell :=
  if q.y = y ∧ x ≤ q.x then ps.foldl (TitlePlace.cellIn u style (q.x - x).toNat) c else c

theorem placesCell_cons (u : Uniseg) (style : Style) (x y : Int) (p : TitlePlace) (ps : List TitlePlace) (q : Position)
    (c : Cell) : placesCell u style x y (p :: ps) q c =
      placesCell u style x y ps q (if q.y = y ∧ x + p.start ≤ q.x ∧ q.x < x + p.start + p.columns then
        p.line.cellIn u .none p.columns (q.x - (x + p.start)).toNat (c.setStyle style) else c) := by
  unfold placesCell
  by_cases h : q.y = y ∧ x ≤ q.x
  · rw [if_pos h, if_pos h, List.foldl_cons]
    congr 1
    unfold TitlePlace.cellIn
    by_cases h2 : p.start ≤ (q.x - x).toNat ∧ (q.x - x).toNat < p.start + p.columns
    · rw [if_pos h2, if_pos (by omega), show (q.x - (x + (p.start : Int))).toNat = (q.x - x).toNat - p.start by omega]
    · rw [if_neg h2, if_neg (by omega)]
  · rw [if_neg h, if_neg h, if_neg (by omega)]

theorem placesCell_append (u : Uniseg) (style : Style) (x y : Int) (ps ps' : List TitlePlace) (q : Position) (c : Cell) :
    placesCell u style x y (ps ++ ps') q c = placesCell u style x y ps' q (placesCell u style x y ps q c) := by
  unfold placesCell
  by_cases h : q.y = y ∧ x ≤ q.x
  · simp only [if_pos h, List.foldl_append]
  · simp only [if_neg h]

/-- Places without columns do nothing. -/
theorem placesCell_empty (u : Uniseg) (style : Style) (x y : Int) : ∀ (ps : List TitlePlace),
    (∀ p ∈ ps, p.columns = 0) → ∀ q c, placesCell u style x y ps q c = c
  | [], _, q, c => by unfold placesCell; split_ifs <;> rfl
  | p :: ps, h, q, c => by
    have := h p List.mem_cons_self
    rw [placesCell_cons, if_neg (by omega)]
    exact placesCell_empty u style x y ps (fun p' h' => h p' (List.mem_cons_of_mem _ h')) q c

theorem titlesWidth_length (t : Title) (ts : List Title) (ht : t.line.NarrowText u) :
    titlesWidth u (t :: ts) = (t.line.clusters u).length + 1 + titlesWidth u ts := by
  rw [titlesWidth_cons, columns_of_narrow ht]

theorem forwardPlaces_cons (first room : Nat) (t : Title) (ts : List Title) (ht : t.line.NarrowText u) :
    forwardPlaces u first room (t :: ts) = ⟨first, min (t.line.clusters u).length room, t.line⟩ ::
      forwardPlaces u (first + (t.line.clusters u).length + 1) (room - ((t.line.clusters u).length + 1)) ts := by
  unfold forwardPlaces
  rw [List.mapIdx_cons]
  refine congrArg₂ _ (by simp [titlesWidth]) ?_
  apply List.ext_getElem?
  intro j
  simp only [List.getElem?_mapIdx, List.take_succ_cons, titlesWidth_length t _ ht]
  cases ts[j]? with
  | none => rfl
  | some t' =>
    simp only [Option.map_some, Option.some.injEq, TitlePlace.mk.injEq, and_true]
    omega

theorem backwardPlaces_snoc (room : Nat) (t : Title) (rs : List Title) (ht : t.line.NarrowText u) :
    backwardPlaces u room (t :: rs).reverse =
      ⟨room - (t.line.clusters u).length, min (t.line.clusters u).length room, t.line⟩ ::
      backwardPlaces u (room - ((t.line.clusters u).length + 1)) rs.reverse := by
  unfold backwardPlaces
  rw [List.reverse_reverse, List.reverse_reverse, List.mapIdx_cons]
  refine congrArg₂ _ (by simp [titlesWidth]) ?_
  apply List.ext_getElem?
  intro j
  simp only [List.getElem?_mapIdx, List.take_succ_cons, titlesWidth_length t _ ht]
  cases rs[j]? with
  | none => rfl
  | some t' =>
    simp only [Option.map_some, Option.some.injEq, TitlePlace.mk.injEq, and_true]
    omega

theorem forwardPlaces_empty (first : Nat) (ts : List Title) : ∀ p ∈ forwardPlaces u first 0 ts, p.columns = 0 := by
  intro p hp
  unfold forwardPlaces at hp
  obtain ⟨j, hj, rfl⟩ := List.mem_mapIdx.1 hp
  simp

theorem backwardPlaces_empty (ts : List Title) : ∀ p ∈ backwardPlaces u 0 ts, p.columns = 0 := by
  intro p hp
  unfold backwardPlaces at hp
  obtain ⟨j, hj, rfl⟩ := List.mem_mapIdx.1 hp
  simp

/-- A group drawn forwards. -/
theorem leftLoop_repaints (hu : u.Lawful) (hs : u.Suffix) (b : Block) (window : Rect) (x y : Int) :
    ∀ (ts : List Title), (∀ t ∈ ts, t.line.NarrowText u) → ∀ (first room : Nat),
      (∀ p ∈ forwardPlaces u first room ts, p.columns ≠ 0 → window.In ⟨x + p.start, y, p.columns, 1⟩) →
      Repaints window (placesCell u b.titlesStyle x y (forwardPlaces u first room ts))
        (Block.leftLoop u b ts ⟨x + first, y, room, 1⟩)
  | [], _, first, room, _ => Repaints.same (fun _ => rfl) fun q c => by unfold placesCell; split_ifs <;> rfl
  | t :: ts, hn, first, room, hin => by
    have ht := hn t List.mem_cons_self
    by_cases hz : room = 0
    · subst hz
      refine Repaints.same (fun buf => ?_) (placesCell_empty u _ x y _ (forwardPlaces_empty _ _))
      unfold Block.leftLoop
      rw [if_pos (by simp [Rect.isEmpty])]
    have hwid := (line_clusters_length ht).1
    rw [forwardPlaces_cons _ _ _ _ ht] at hin ⊢
    have h1 := drawTitle_repaints hu hs b t ht window (x + first) y (min (t.line.clusters u).length room)
      (hin _ List.mem_cons_self)
    have h2 := leftLoop_repaints hu hs b window x y ts (fun t' h => hn t' (List.mem_cons_of_mem _ h))
      (first + (t.line.clusters u).length + 1) (room - ((t.line.clusters u).length + 1))
      (fun p hp => hin p (List.mem_cons_of_mem _ hp))
    have hfun : Block.leftLoop u b (t :: ts) ⟨x + first, y, room, 1⟩ = fun buf =>
        (b.drawTitle u t ⟨x + first, y, (min (t.line.clusters u).length room : Nat), 1⟩ buf).bind
          (Block.leftLoop u b ts ⟨x + ((first + (t.line.clusters u).length + 1 : Nat) : Int), y,
            ((room - ((t.line.clusters u).length + 1) : Nat) : Int), 1⟩) := by
      funext buf
      conv_lhs => unfold Block.leftLoop
      rw [if_neg (by simp [Rect.isEmpty]; omega)]
      simp only [Option.bind_eq_bind, hwid]
      congr 3 <;> push_cast
      all_goals first | rfl | omega | skip
      funext buf
      congr 2 <;> omega
    rw [hfun]
    refine (h1.bind h2).congr fun q _ c => ?_
    rw [placesCell_cons]

/-- A group drawn backwards. -/
theorem rightLoop_repaints (hu : u.Lawful) (hs : u.Suffix) (b : Block) (window : Rect) (x y : Int) (hx : 0 ≤ x) :
    ∀ (rs : List Title), (∀ t ∈ rs, t.line.NarrowText u) → ∀ (room : Nat),
      (room ≠ 0 → window.In ⟨x, y, room, 1⟩) →
      Repaints window (placesCell u b.titlesStyle x y (backwardPlaces u room rs.reverse))
        (Block.rightLoop u b rs ⟨x, y, room, 1⟩)
  | [], _, room, _ => Repaints.same (fun _ => rfl) fun q c => by unfold placesCell; split_ifs <;> rfl
  | t :: ts, hn, room, hin => by
    have ht := hn t List.mem_cons_self
    by_cases hz : room = 0
    · subst hz
      refine Repaints.same (fun buf => ?_) (placesCell_empty u _ x y _ (backwardPlaces_empty _))
      unfold Block.rightLoop
      rw [if_pos (by simp [Rect.isEmpty])]
    have hin := hin hz
    have hwid := (line_clusters_length ht).1
    rw [backwardPlaces_snoc _ _ _ ht]
    obtain ⟨i1, i2, i3, i4, i5, i6⟩ := id hin
    simp only at i1 i2 i3 i4
    have h1 := drawTitle_repaints hu hs b t ht window (x + ((room - (t.line.clusters u).length : Nat) : Int)) y
      (min (t.line.clusters u).length room)
      (fun _ => ⟨by simp only; omega, by simp only; omega, i3, i4, by simp only; omega, by simp only; omega⟩)
    have h2 := rightLoop_repaints hu hs b window x y hx ts (fun t' h => hn t' (List.mem_cons_of_mem _ h))
      (room - ((t.line.clusters u).length + 1))
      (fun h => ⟨by simp only; omega, by simp only; omega, i3, i4, by simp only; omega, by simp only; omega⟩)
    have hfun : Block.rightLoop u b (t :: ts) ⟨x, y, room, 1⟩ = fun buf =>
        (b.drawTitle u t ⟨x + ((room - (t.line.clusters u).length : Nat) : Int), y,
          (min (t.line.clusters u).length room : Nat), 1⟩ buf).bind
          (Block.rightLoop u b ts ⟨x, y, ((room - ((t.line.clusters u).length + 1) : Nat) : Int), 1⟩) := by
      funext buf
      conv_lhs => unfold Block.rightLoop
      rw [if_neg (by simp [Rect.isEmpty]; omega)]
      simp only [Option.bind_eq_bind, hwid, Rect.left, Rect.right]
      congr 3 <;> push_cast
      all_goals first | rfl | omega | skip
      funext buf
      congr 2 <;> omega
    rw [hfun]
    refine (h1.bind h2).congr fun q _ c => ?_
    rw [placesCell_cons]

/-- The titles of one row. -/
theorem renderTitlePosition_repaints (hu : u.Lawful) (hs : u.Suffix) (b : Block) (hn : ∀ t ∈ b.titles, t.line.NarrowText u)
    (p : TitlePosition) (window area : Rect) {x : Int} {room : Nat} (hx : 0 ≤ x)
    (hta : b.titlesArea area p = ⟨x, p.row area, room, 1⟩) (hin : room ≠ 0 → window.In ⟨x, p.row area, room, 1⟩) :
    Repaints window (placesCell u b.titlesStyle x (p.row area) (titlePlaces u b room p))
      (b.renderTitlePosition u p area) := by
  have hgroup : ∀ a, b.filterTitles p a = titlesOf b.titlesPosition b.titlesAlignment b.titles p a := by
    intro a
    unfold Block.filterTitles titlesOf
    apply List.filter_congr
    intro t _
    unfold Block.positionOf
    by_cases h : t.alignment = .none <;> simp [h]
  have hmem : ∀ a, ∀ t ∈ titlesOf b.titlesPosition b.titlesAlignment b.titles p a, t.line.NarrowText u :=
    fun a t ht => hn t (List.mem_of_mem_filter ht)
  generalize p.row area = y at *
  have hR := rightLoop_repaints hu hs b window x y hx (titlesOf b.titlesPosition b.titlesAlignment b.titles p .right).reverse
    (fun t ht => hmem .right t (by simpa using ht)) room hin
  rw [List.reverse_reverse] at hR
  have hL := leftLoop_repaints hu hs b window x y (titlesOf b.titlesPosition b.titlesAlignment b.titles p .left)
    (hmem .left) 0 room (by
      intro p hp hc
      unfold forwardPlaces at hp
      obtain ⟨j, hj, rfl⟩ := List.mem_mapIdx.1 hp
      simp only at hc ⊢
      obtain ⟨i1, i2, i3, i4, i5, i6⟩ := hin (by omega)
      simp only at i1 i2 i3 i4
      exact ⟨by simp only; omega, by simp only; omega, i3, i4, by simp only; omega, by simp only; omega⟩)
  have hw : ∀ ts : List Title, Block.totalWidth u ts = ((titlesWidth u ts - 1 : Nat) : Int) := by
    intro ts
    have : (ts.map fun t => (t.line.width u : Int) + 1).sum = (titlesWidth u ts : Int) := by
      induction ts with
      | nil => rfl
      | cons t ts ih =>
        rw [titlesWidth_cons, List.map_cons, List.sum_cons, ih, line_columns u t.line]
        push_cast; rfl
    unfold Block.totalWidth
    rw [this]
    omega
  have hC := leftLoop_repaints hu hs b window x y (titlesOf b.titlesPosition b.titlesAlignment b.titles p .center)
    (hmem .center) (titlesStart u .center room (titlesOf b.titlesPosition b.titlesAlignment b.titles p .center)) room (by
      intro p' hp hc
      unfold forwardPlaces at hp
      obtain ⟨j, hj, rfl⟩ := List.mem_mapIdx.1 hp
      simp only at hc ⊢
      obtain ⟨i1, i2, i3, i4, i5, i6⟩ := hin (by omega)
      simp only at i1 i2 i3 i4
      have hlt := titlesWidth_lt u (List.getElem?_eq_getElem hj)
      rw [columns_of_narrow (hmem .center _ (List.getElem_mem hj))] at hlt
      have hst : titlesStart u .center room (titlesOf b.titlesPosition b.titlesAlignment b.titles p .center)
        = (room - (titlesWidth u (titlesOf b.titlesPosition b.titlesAlignment b.titles p .center) - 1)) / 2 := rfl
      exact ⟨by simp only; omega, by simp only; omega, i3, i4, by simp only; omega, by simp only; omega⟩)
  have hst : Int.tdiv (max 0 ((room : Int) - ((titlesWidth u (titlesOf b.titlesPosition b.titlesAlignment b.titles p .center) - 1 : Nat) : Int))) 2
      = ((titlesStart u .center room (titlesOf b.titlesPosition b.titlesAlignment b.titles p .center) : Nat) : Int) := by
    have : titlesStart u .center room (titlesOf b.titlesPosition b.titlesAlignment b.titles p .center)
        = (room - (titlesWidth u (titlesOf b.titlesPosition b.titlesAlignment b.titles p .center) - 1)) / 2 := rfl
    rw [this, Int.tdiv_eq_ediv_of_nonneg (by omega)]
    omega
  have hfun : b.renderTitlePosition u p area = fun buf => ((Block.rightLoop u b
      (titlesOf b.titlesPosition b.titlesAlignment b.titles p .right).reverse ⟨x, y, room, 1⟩ buf).bind
      (Block.leftLoop u b (titlesOf b.titlesPosition b.titlesAlignment b.titles p .center)
        ⟨x + (titlesStart u .center room (titlesOf b.titlesPosition b.titlesAlignment b.titles p .center) : Nat), y, room, 1⟩)).bind
      (Block.leftLoop u b (titlesOf b.titlesPosition b.titlesAlignment b.titles p .left) ⟨x + (0 : Nat), y, room, 1⟩) := by
    funext buf
    unfold Block.renderTitlePosition Block.renderRightTitles Block.renderCenterTitles Block.renderLeftTitles
    simp only [hgroup, hta, hw, hst, Rect.left, Option.bind_eq_bind, Option.bind_assoc, Nat.cast_zero, Int.add_zero]
  rw [hfun]
  refine ((hR.bind hC).bind hL).congr fun q _ c => ?_
  unfold titlePlaces
  simp only [placesCell_append]

/-- No title goes beyond the columns between the borders. -/
theorem titlePlaces_room (b : Block) (hn : ∀ t ∈ b.titles, t.line.NarrowText u) (room : Nat) (p : TitlePosition) :
    ∀ t ∈ titlePlaces u b room p, t.columns ≠ 0 → t.start + t.columns ≤ room := by
  intro t ht hc
  unfold titlePlaces at ht
  simp only [List.mem_append] at ht
  rcases ht with (ht | ht) | ht
  · unfold backwardPlaces at ht
    obtain ⟨j, hj, rfl⟩ := List.mem_mapIdx.1 ht
    simp only at hc ⊢
    omega
  · unfold forwardPlaces at ht
    obtain ⟨j, hj, rfl⟩ := List.mem_mapIdx.1 ht
    have hlt := titlesWidth_lt u (List.getElem?_eq_getElem hj)
    rw [columns_of_narrow (hn _ (List.mem_of_mem_filter (List.getElem_mem hj)))] at hlt
    have hst : titlesStart u .center room (titlesOf b.titlesPosition b.titlesAlignment b.titles p .center)
      = (room - (titlesWidth u (titlesOf b.titlesPosition b.titlesAlignment b.titles p .center) - 1)) / 2 := rfl
    simp only at hc ⊢
    omega
  · unfold forwardPlaces at ht
    obtain ⟨j, hj, rfl⟩ := List.mem_mapIdx.1 ht
    simp only at hc ⊢
    omega

theorem placesCell_outside (style : Style) (x y : Int) : ∀ (ps : List TitlePlace) (q : Position) (c : Cell),
    (∀ p ∈ ps, ¬ (q.y = y ∧ x + p.start ≤ q.x ∧ q.x < x + p.start + p.columns)) → placesCell u style x y ps q c = c
  | [], q, c, _ => by unfold placesCell; split_ifs <;> rfl
  | p :: ps, q, c, h => by
    rw [placesCell_cons, if_neg (h p List.mem_cons_self)]
    exact placesCell_outside style x y ps q c (fun p' h' => h p' (List.mem_cons_of_mem _ h'))

/-- A block. -/
theorem Repaints.block (hu : u.Lawful) (hs : u.Suffix) (b : Block) (hn : ∀ t ∈ b.titles, t.line.NarrowText u)
    (window area : Rect) (hin : window.In area) (hx : 0 ≤ area.x)
    (hw : 2 ≤ area.width ∨ area.width = 0 ∨ area.width = 1 ∧ b.borderSet.verticalLeft = b.borderSet.verticalRight)
    (hh : 2 ≤ area.height ∨ area.height = 0 ∨ area.height = 1 ∧ b.borderSet.horizontalTop = b.borderSet.horizontalBottom) :
    Repaints window (b.cellIn u area) (b.render u area) := by
  obtain ⟨i1, i2, i3, i4, i5, i6⟩ := id hin
  have hself : area.intersection area = area := by
    unfold Rect.intersection Rect.right Rect.bottom
    ext <;> simp only <;> omega
  by_cases he : area.isEmpty = true
  · refine Repaints.same (fun buf => ?_) (fun q c => ?_)
    · unfold Block.render
      simp only [hself]
      rw [if_pos he]
    · unfold Block.cellIn
      rw [if_neg]
      rw [Rect.contains_iff]; unfold Rect.Mem
      simp [Rect.isEmpty] at he
      omega
  have hw0 : area.width ≠ 0 ∧ area.height ≠ 0 := by simpa [Rect.isEmpty] using he
  have hB := Repaints.borders b window area hin
    (by rcases hw with h | h | h; exacts [.inl h, absurd h hw0.1, .inr h])
    (by rcases hh with h | h | h; exacts [.inl h, absurd h hw0.2, .inr h])
  have h8 := Block.has_left b
  have h2 := Block.has_right b
  have h1 := Block.has_top b
  have h4 := Block.has_bottom b
  unfold Block.Has at h8 h2 h1 h4
  have hL : Block.hasSides b.borders Block.sideLeft = decide (b.borders &&& 8 ≠ 0) := by
    rw [Bool.eq_iff_iff, h8, decide_eq_true_iff]
  have hR : Block.hasSides b.borders Block.sideRight = decide (b.borders &&& 2 ≠ 0) := by
    rw [Bool.eq_iff_iff, h2, decide_eq_true_iff]
  have hT : Block.hasSides b.borders Block.sideTop = decide (b.borders &&& 1 ≠ 0) := by
    rw [Bool.eq_iff_iff, h1, decide_eq_true_iff]
  have hBo : Block.hasSides b.borders Block.sideBottom = decide (b.borders &&& 4 ≠ 0) := by
    rw [Bool.eq_iff_iff, h4, decide_eq_true_iff]
  generalize hl : decide (b.borders &&& 8 ≠ 0) = left at *
  generalize hr : decide (b.borders &&& 2 ≠ 0) = right at *
  have hta : ∀ p : TitlePosition, b.titlesArea area p = ⟨area.x + (if left then 1 else 0), p.row area,
      ((area.width - (if left then 1 else 0) - (if right then 1 else 0)).toNat : Nat), 1⟩ := by
    intro p
    unfold Block.titlesArea
    rw [hL, hR]
    simp only [Rect.left, Rect.mk.injEq, true_and, and_true]
    refine ⟨by cases p <;> rfl, by omega⟩
  have hrow : ∀ p : TitlePosition, (area.width - (if left then 1 else 0) - (if right then 1 else 0)).toNat ≠ 0 →
      window.In ⟨area.x + (if left then 1 else 0), p.row area,
      ((area.width - (if left then 1 else 0) - (if right then 1 else 0)).toNat : Nat), 1⟩ := by
    intro p hz
    have hb : ∀ x : Bool, (if x = true then (1 : Int) else 0) = 0 ∨ (if x = true then (1 : Int) else 0) = 1 := by
      intro x; cases x <;> simp
    rcases hb left with k1 | k1 <;> rcases hb right with k2 | k2 <;> rw [k1, k2] at * <;>
      cases p <;> refine ⟨?_, ?_, ?_, ?_, ?_, ?_⟩ <;> simp only [TitlePosition.row] <;> omega
  have hx0 : 0 ≤ area.x + (if left = true then (1 : Int) else 0) := by split_ifs <;> omega
  have htop := renderTitlePosition_repaints hu hs b hn .top window area hx0 (hta .top) (hrow .top)
  have hbot := renderTitlePosition_repaints hu hs b hn .bottom window area hx0 (hta .bottom) (hrow .bottom)
  have hfun : b.render u area = fun buf => ((((buf.setStyle area b.style).bind (b.renderBorders area)).bind
      (b.renderTitlePosition u .top area)).bind (b.renderTitlePosition u .bottom area)) := by
    funext buf
    unfold Block.render
    simp only [hself]
    rw [if_neg he]
    simp only [Block.renderTitles, Option.bind_eq_bind, Option.bind_assoc]
  rw [hfun]
  refine ((hB.bind htop).bind hbot).congr fun q _ c => ?_
  unfold Block.cellIn
  by_cases hq : area.contains q = true
  · rw [if_pos hq, if_pos hq]
    have e8 : Block.hasSides b.borders 8 = left := hL
    have e2 : Block.hasSides b.borders 2 = right := hR
    have e1 : Block.hasSides b.borders 1 = decide (b.borders &&& 1 ≠ 0) := hT
    have e4 : Block.hasSides b.borders 4 = decide (b.borders &&& 4 ≠ 0) := hBo
    simp only [e8, e2, e1, e4, hl, hr]
    rfl
  · rw [if_neg hq, if_neg hq]
    have hzero : ∀ p c, placesCell u b.titlesStyle (area.x + (if left = true then (1 : Int) else 0)) (p.row area)
        (titlePlaces u b (area.width - (if left = true then (1 : Int) else 0) - (if right = true then (1 : Int) else 0)).toNat p) q c = c := by
      intro p c
      refine placesCell_outside _ _ _ _ q c fun t ht h => hq ?_
      have := titlePlaces_room b hn _ p t ht (by omega)
      rw [Rect.contains_iff]
      unfold Rect.Mem
      have hb : ∀ x : Bool, (if x = true then (1 : Int) else 0) = 0 ∨ (if x = true then (1 : Int) else 0) = 1 := by
        intro x; cases x <;> simp
      have hy : p.row area = area.y ∨ p.row area = area.y + area.height - 1 := by cases p <;> simp [TitlePosition.row]
      rcases hb left with k1 | k1 <;> rcases hb right with k2 | k2 <;> rw [k1, k2] at this <;> rw [k1] at h <;> omega
    rw [hzero, hzero]

end Bento
