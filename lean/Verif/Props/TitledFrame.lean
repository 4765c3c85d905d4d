import Verif.Lemmas.TitleRow
import Verif.Props.Block

/-!
# C67 — the frame of a block with titles
-/

namespace Bento

/-- **C67** for blocks with titles: apart from the cells between the side borders of a row with a title, the frame is
drawn as if there were no titles. -/
theorem C67_beside_titles (u : Uniseg) (b : Block) (area : Rect) (buf : Buffer)
    (wf : buf.WF) (hin : Inside buf area) (hx : 0 ≤ area.x)
    (hw : 2 ≤ area.width ∨ area.width = 1 ∧ b.borderSet.verticalLeft = b.borderSet.verticalRight)
    (hh : 2 ≤ area.height ∨ area.height = 1 ∧ b.borderSet.horizontalTop = b.borderSet.horizontalBottom) :
    ∃ b', b.render u area buf = some b' ∧
      ∀ q, area.contains q = true →
        (∀ t ∈ b.titles, q.y = (t.position.getD b.titlesPosition).row area →
          (b.Has 8 ∧ q.x = area.x) ∨ (b.Has 2 ∧ q.x = area.x + area.width - 1)) →
        b'.cellAt q = (buf.cellAt q).map fun c => (c.setStyle b.style).bordered b.borderStyle
          (b.borderSet.symbol
            (Block.hasSides b.borders 8 && decide (q.x = area.x))
            (Block.hasSides b.borders 1 && decide (q.y = area.y))
            (Block.hasSides b.borders 2 && decide (q.x = area.x + area.width - 1))
            (Block.hasSides b.borders 4 && decide (q.y = area.y + area.height - 1))) := by
  obtain ⟨h1, h2, h3, h4, h5, h6⟩ := id hin
  have hself : area.intersection area = area := by
    unfold Rect.intersection Rect.right Rect.bottom
    ext <;> simp only <;> omega
  obtain ⟨c', e, hc⟩ := C67_border_cells u { b with titles := [] } rfl area buf wf hin hw hh
  have hne : area.isEmpty = false := by
    simp [Rect.isEmpty]; omega
  have htitles : ∀ buf, ({ b with titles := [] } : Block).renderTitles u area buf = some buf := fun buf => rfl
  obtain ⟨d, ed, ad, wfd, _⟩ := Confined.setStyle wf area b.style
  have hrb : ∀ x, ({ b with titles := [] } : Block).renderBorders area x = b.renderBorders area x := fun _ => rfl
  unfold Block.render at e ⊢
  simp only [hself, hne, Bool.false_eq_true, if_false] at e ⊢
  rw [ed] at e ⊢
  simp only [Option.bind_eq_bind, Option.bind_some, hrb] at e ⊢
  cases hb : b.renderBorders area d with
  | none => rw [hb] at e; cases e
  | some c =>
    rw [hb] at e
    simp only [Option.bind_some, htitles] at e ⊢
    cases e
    have wfc : c'.WF := by
      obtain ⟨c2, e2, _, w2, _⟩ := Block.renderBorders_confined wfd b area (by unfold Inside at *; rw [ad]; exact hin) (by omega) (by omega)
      rw [hb] at e2
      cases e2
      exact w2
    have hstrip : ∀ q, area.contains q = true →
        (∀ t ∈ b.titles, q.y = (t.position.getD b.titlesPosition).row area →
          (b.Has 8 ∧ q.x = area.x) ∨ (b.Has 2 ∧ q.x = area.x + area.width - 1)) → ∀ p,
        ¬ (b.hasTitleAt p = true ∧ Block.Strip (b.titlesArea area p).x
          ((b.titlesArea area p).x + (b.titlesArea area p).width) (b.titlesArea area p).y q) := by
      rintro q hq hno p ⟨k1, k2⟩
      obtain ⟨t, ht, hp⟩ := (Block.hasTitleAt_iff b p).1 k1
      unfold Block.Strip at k2
      rw [Rect.contains_iff] at hq
      unfold Rect.Mem at hq
      have hy : (b.titlesArea area p).y = p.row area := by cases p <;> rfl
      rw [hy] at k2
      have hcase := hno t ht (by rw [hp]; exact k2.1)
      unfold Block.titlesArea Rect.left at k2
      simp only at k2
      rcases hcase with ⟨k, kx⟩ | ⟨k, kx⟩
      · rw [if_pos ((Block.has_left b).2 k)] at k2
        omega
      · rw [if_pos ((Block.has_right b).2 k)] at k2
        split_ifs at k2 <;> omega
    unfold Block.renderTitles
    obtain ⟨b1, e1, a1, w1, k1⟩ := Block.renderTitlePosition_strip u b .top area wfc hx
    obtain ⟨b2, e2, a2, w2, k2⟩ := Block.renderTitlePosition_strip u b .bottom area w1 hx
    rw [e1]
    simp only [Option.bind_eq_bind, Option.bind_some]
    refine ⟨b2, e2, fun q hq hno => ?_⟩
    rw [k2 q (fun h => hstrip q hq hno _ h.1), k1 q (fun h => hstrip q hq hno _ h.1)]
    exact hc q hq

/-- A frame with a title at the top: the corners and the other three sides. -/
example : ∃ b', (Block.new.bordered.withTitle (Title.mk .left none (Line.new [Span.new "ab"]))).render Uniseg.simple
      ⟨0, 0, 5, 3⟩ ⟨⟨0, 0, 5, 3⟩, List.replicate 15 Cell.empty⟩ = some b' ∧
    b'.symbolAt ⟨0, 0⟩ = some "┌" ∧ b'.symbolAt ⟨4, 0⟩ = some "┐" ∧ b'.symbolAt ⟨2, 2⟩ = some "─" := by
  obtain ⟨b', e, h⟩ := C67_beside_titles Uniseg.simple
    (Block.new.bordered.withTitle (Title.mk .left none (Line.new [Span.new "ab"]))) ⟨0, 0, 5, 3⟩
    ⟨⟨0, 0, 5, 3⟩, List.replicate 15 Cell.empty⟩ ⟨by decide, by decide, by decide⟩ (by unfold Inside; decide)
    (by decide) (.inl (by decide)) (.inl (by decide))
  refine ⟨b', e, ?_, ?_, ?_⟩
  · unfold Buffer.symbolAt
    rw [h _ (by decide) (fun t _ _ => .inl ⟨by unfold Block.Has; decide, rfl⟩)]
    decide +kernel
  · unfold Buffer.symbolAt
    rw [h _ (by decide) (fun t _ _ => .inr ⟨by unfold Block.Has; decide, rfl⟩)]
    decide +kernel
  · unfold Buffer.symbolAt
    have hrow : ∀ t ∈ (Block.new.bordered.withTitle (Title.mk .left none (Line.new [Span.new "ab"]))).titles,
        (t.position.getD .top).row ⟨0, 0, 5, 3⟩ = 0 := by decide +kernel
    rw [h _ (by decide) (fun t ht hy => absurd (hy.trans (hrow t ht)) (by decide))]
    decide +kernel

end Bento
