import Verif.Model.Builders
import Verif.Props.ListWidget
import Verif.Props.Style

/-!
# C111: widgets as they are made
-/

namespace Bento

open ListWidget

/-- A new block is invisible, and all of its area is inside. -/
theorem C111_block (u : Uniseg) (area : Rect) (buf : Buffer) (wf : buf.WF) (hin : Inside buf area) (hx : 0 ≤ area.x) :
    Block.new.inner area = area ∧
    ∃ b', Block.new.render u area buf = some b' ∧ b'.area = buf.area ∧ ∀ q, b'.cellAt q = buf.cellAt q := by
  constructor
  · obtain ⟨h1, h2, h3, h4, h5, h6⟩ := hin
    obtain ⟨x, y, w, h⟩ := area
    simp only at *
    unfold Block.inner
    simp [Block.new, Block.intersects, Block.sideNone, Block.hasTitleAt]
    omega
  · obtain ⟨b', e, a, w, o, i⟩ := C43_frame_only_partial u Block.new area buf wf hin hx
    refine ⟨b', e, a, fun q => ?_⟩
    by_cases hq : area.contains q = true
    · rw [i q hq (by simp [Block.OnFrame, Block.Has, Block.Takes, Block.new, Block.sideNone])]
      cases buf.cellAt q with
      | none => rfl
      | some c =>
        simp only [Option.map_some, Option.some.injEq]
        exact (C05_new_unit Style.new c).2.2
    · exact o q (by simpa using hq)

/-- A new list, drawn without a state of its own: the first items, from the top row of the area on, each with the rows of
its lines; nothing is highlighted and there is no column for a symbol. -/
theorem C111_list {u : Uniseg} (hu : u.Lawful) (hs : u.Suffix) (hsp : Blanks u) (items : List Text)
    (hne : items ≠ [])
    (hn : ∀ t ∈ items, ∀ line ∈ t.lines, line.VisibleText u) (area : Rect) (hx : 0 ≤ area.x)
    (hw : 0 < area.width) (hh : 0 < area.height)
    (hfirst : ∀ t ∈ items.head?, (t.lines.length : Int) ≤ area.height) (b : Buffer) (wf : b.WF) (hin : Inside b area) :
    ∃ (n : Nat) (b' : Buffer), (ListWidget.new items).renderFresh u area b = some b' ∧ 0 < n ∧
      (n = items.length ∨ area.height < (((items.take (n + 1)).map fun t => t.lines.length).sum : Nat)) ∧
      (∀ q, area.contains q = false → b'.cellAt q = b.cellAt q) ∧
      ∀ (k : Nat) (t : Text), k < n → items[k]? = some t → ∀ (j i : Nat), j < t.lines.length → (i : Int) < area.width →
        let q : Position := ⟨area.x + i, area.y + (((items.take k).map fun t => t.lines.length).sum : Nat) + j⟩
        area.contains q = true ∧
        b'.symbolAt q = ((t.lines[j]?).bind fun line =>
          u.aligned (if line.alignment = .none then t.alignment else line.alignment) area.width.toNat
            (line.clusters u) i).or (b.symbolAt q) := by
  have hsym : u.graphemes "" = [] := by simpa using hsp 0
  obtain ⟨f, n, b', sel, hsel, hbounds, hr, -, -, hout, -, hrows⟩ := C72_list_partial hu hs hsp (ListWidget.new items)
    (by simp [ListWidget.new, hsym]) hne hn (Int.le_refl 0) area hx (by simp [ListWidget.new]) hw hh b wf hin State.new
    ⟨Int.le_refl 0, by simp [State.new]⟩
  have hlen : 0 < items.length := List.length_pos_of_ne_nil hne
  obtain ⟨o, l0, idx, f', l', ho', h1, h2, h3, h4, h5, h6, e, h7, h8, h9, ca, cb, cc⟩ :=
    bounds_spec (items.map fun t => t.lines.length) (by simpa using hlen) 0 area.height 0 none (Int.le_refl 0) (by omega)
      (Int.le_refl 0) (by simp)
  simp only [State.new, Option.map_none] at hsel
  subst hsel
  have ho : o = 0 := by
    simp only [List.length_map] at ho'
    omega
  subst ho
  have hidx : idx = 0 := by simp only [indexOf] at h6; omega
  subst hidx
  have hsum : ∀ k, heightOf (items.map fun t => t.lines.length) 0 k =
      (((items.take k).map fun t => t.lines.length).sum : Nat) := by
    intro k
    unfold heightOf
    rw [List.drop_zero, ← List.map_take]
  have hpos : 0 < l0 := by
    by_contra hle
    have hz : l0 = 0 := by omega
    subst hz
    rcases h4 with h4 | h4
    · simp only [List.length_map] at h4; omega
    · rw [hsum] at h4
      cases items with
      | nil => exact hne rfl
      | cons t ts =>
        have := hfirst t rfl
        simp at h4
        omega
  obtain ⟨d1, d2⟩ := cc (Nat.le_refl _) hpos
  subst d1 d2
  have hb : (f : Int) = 0 ∧ ((f + n : Nat) : Int) = l' := by
    change getItemsBounds (items.map fun t => t.lines.length) 0 none 0 area.height = _ at hbounds
    rw [e] at hbounds
    simp only [Option.some.injEq, Prod.mk.injEq] at hbounds
    omega
  have hf : f = 0 := by omega
  have hnl : n = l' := by omega
  subst hf hnl
  refine ⟨n, b', ?_, hpos, ?_, hout, ?_⟩
  · unfold renderFresh
    rw [hr]
    rfl
  · rcases h4 with h4 | h4
    · left; simpa using h4
    · right; rw [hsum] at h4; exact h4
  · intro k t hk ht j i hj hi
    have htake : ((items.drop 0).take n)[k]? = some t := by
      rw [List.drop_zero, List.getElem?_take_of_lt hk]
      exact ht
    have hq := hrows k t htake ⟨area.x + i, area.y + (((items.take k).map fun t => t.lines.length).sum : Nat) + j⟩ (by
      rw [Rect.contains_iff]
      unfold Rect.Mem rowsOf
      simp only [List.drop_zero, List.take_take, Nat.min_eq_left (Nat.le_of_lt hk), ListWidget.new, content,
        Option.map_none, Option.getD_none]
      omega)
    refine ⟨hq.1, ?_⟩
    have hy : (area.y + ((((items.take k).map fun t => t.lines.length).sum : Nat) : Int) + j -
        (rowsOf (ListWidget.new items) (content (ListWidget.new items) area) ((items.drop 0).take n) k t).y).toNat = j := by
      unfold rowsOf
      simp only [List.drop_zero, List.take_take, Nat.min_eq_left (Nat.le_of_lt hk), ListWidget.new, content,
        Option.map_none, Option.getD_none]
      omega
    have hxx : (area.x + (i : Int) - (content (ListWidget.new items) area).x).toNat = i := by
      simp only [ListWidget.new, content, Option.map_none, Option.getD_none]
      omega
    have := hq.2.1
    rw [show (ListWidget.new items).items = items from rfl] at this
    rw [hy, hxx] at this
    rw [this]
    simp only [ListWidget.new, content, Option.map_none, Option.getD_none, HighlightSpacing.shouldAdd, State.new,
      Option.isSome_none, shownSymbol, Bool.false_eq_true, if_false, Nat.not_lt_zero, Nat.sub_zero]
    cases t.lines[j]? <;> rfl

/-- Three items, the first of two lines, in three rows: the first two are shown. -/
example : ((Buffer.newEmpty ⟨0, 0, 2, 3⟩).bind fun b =>
    ((ListWidget.new [Text.new [Line.new [Span.new "a"], Line.new [Span.new "b"]], Text.new [Line.new [Span.new "c"]],
      Text.new [Line.new [Span.new "d"]]]).renderFresh Uniseg.simple ⟨0, 0, 2, 3⟩ b).map fun b =>
        b.content.map Cell.symbol) = some ["a", " ", "b", " ", "c", " "] := by
  decide +kernel

end Bento
