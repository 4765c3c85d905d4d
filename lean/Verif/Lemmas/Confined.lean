import Verif.Spec.Widget

/-!
# Confined drawing operations compose
-/

namespace Bento

open Buffer

theorem Confined.pure {b : Buffer} (wf : b.WF) (S : Position → Prop) : Confined b (some b) S :=
  ⟨b, rfl, rfl, wf, fun _ _ => rfl⟩

theorem Confined.mono {b : Buffer} {op : Option Buffer} {S T : Position → Prop} (h : Confined b op S)
    (hST : ∀ q, S q → T q) : Confined b op T := by
  obtain ⟨b', h1, h2, h3, h4⟩ := h
  exact ⟨b', h1, h2, h3, fun q hq => h4 q (fun hs => hq (hST q hs))⟩

theorem Confined.bind {b : Buffer} {op : Option Buffer} {f : Buffer → Option Buffer}
    {S : Position → Prop} (h : Confined b op S)
    (hf : ∀ b', b'.area = b.area → b'.WF → Confined b' (f b') S) : Confined b (op.bind f) S := by
  obtain ⟨b', h1, h2, h3, h4⟩ := h
  obtain ⟨b'', i1, i2, i3, i4⟩ := hf b' h2 h3
  exact ⟨b'', by rw [h1]; exact i1, i2.trans h2, i3, fun q hq => (i4 q hq).trans (h4 q hq)⟩

theorem Confined.modifyCell {b : Buffer} (wf : b.WF) {p : Position} (f : Cell → Cell)
    {S : Position → Prop} (h : b.area.contains p = true) (hS : S p) : Confined b (b.modifyCell p f) S := by
  obtain ⟨b', h1, h2, h3, h4⟩ := wf.modifyCell_some f h
  refine ⟨b', h1, h2, h3, fun q hq => ?_⟩
  rw [h4, if_neg]
  rintro rfl; exact hq hS

theorem contains_intersection (r s : Rect) (p : Position) :
    (r.intersection s).contains p = true ↔ r.contains p = true ∧ s.contains p = true := by
  exact C01_intersection_is_set_intersection r s p

theorem Confined.setStyle {b : Buffer} (wf : b.WF) (area : Rect) (style : Style) :
    Confined b (b.setStyle area style) (Clipped b area) := by
  unfold Buffer.setStyle
  obtain ⟨b', h1, h2, h3, h4⟩ := wf.foldlM_modify (Cell.setStyle style)
    (Buffer.positionsOf (b.area.intersection area)) (nodup_positionsOf _)
    (fun p hp => ((contains_intersection _ _ _).1 (mem_positionsOf.1 hp)).1)
  refine ⟨b', h1, h2, h3, fun q hq => ?_⟩
  rw [h4, if_neg]
  intro hm
  have := (contains_intersection _ _ _).1 (mem_positionsOf.1 hm)
  exact hq ⟨this.2, this.1⟩

end Bento
