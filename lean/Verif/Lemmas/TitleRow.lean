import Verif.Lemmas.Block

/-!
# Titles are drawn in their rows, between the side borders
-/

namespace Bento.Block

/-- Drawing the titles of one position changes only cells of their row between the side borders, and none if there
are no titles at this position. -/
theorem renderTitlePosition_strip (u : Uniseg) (b : Block) (p : TitlePosition) (area : Rect)
    {buf : Buffer} (wf : buf.WF) (hx : 0 ≤ area.x) :
    Confined buf (b.renderTitlePosition u p area buf)
      (fun q => (b.hasTitleAt p = true ∧ Strip (b.titlesArea area p).x
        ((b.titlesArea area p).x + (b.titlesArea area p).width) (b.titlesArea area p).y q) ∧
        buf.area.contains q = true) := by
  by_cases ht : b.hasTitleAt p = true
  swap
  · have hno : ∀ a, b.filterTitles p a = [] := by
      intro a
      unfold filterTitles
      rw [List.filter_eq_nil_iff]
      intro t htm
      have : b.positionOf t ≠ p := by
        intro h
        exact ht (by unfold hasTitleAt; rw [List.any_eq_true]; exact ⟨t, htm, by simp [h]⟩)
      simp [this]
    have : b.renderTitlePosition u p area buf = some buf := by
      unfold renderTitlePosition renderRightTitles renderCenterTitles renderLeftTitles
      rw [hno, hno, hno]
      rfl
    rw [this]
    exact Confined.pure wf _
  generalize hta : b.titlesArea area p = ta
  have hta' : area.x ≤ ta.x ∧ 0 ≤ ta.width ∧ ta.height = 1 := by
    rw [← hta]
    unfold titlesArea Rect.left
    simp only
    refine ⟨?_, ?_, trivial⟩
    · split_ifs <;> omega
    · split_ifs <;> omega
  obtain ⟨t1, t2, t4⟩ := hta'
  unfold renderTitlePosition renderRightTitles renderCenterTitles renderLeftTitles
  rw [hta]
  by_cases hz : ta.width = 0
  · have he : ∀ t : Rect, t.width = 0 → ∀ ts buf, rightLoop u b ts t buf = some buf := by
      intro t h ts buf
      cases ts with
      | nil => rfl
      | cons => unfold rightLoop; rw [if_pos (by simp [Rect.isEmpty, h])]
    have he' : ∀ t : Rect, t.width = 0 → ∀ ts buf, leftLoop u b ts t buf = some buf := by
      intro t h ts buf
      cases ts with
      | nil => rfl
      | cons => unfold leftLoop; rw [if_pos (by simp [Rect.isEmpty, h])]
    rw [he _ hz]
    simp only [Option.bind_eq_bind, Option.bind_some]
    rw [he' _ (by exact hz)]
    simp only [Option.bind_some]
    rw [he' _ hz]
    exact Confined.pure wf _
  refine Confined.bind ((rightLoop_confined u b ta.x _ ta.y (by omega) _ ta buf wf rfl t4 rfl t2
    (Int.le_refl _)).mono ?_) ?_
  · intro q hq; exact ⟨⟨ht, hq.1⟩, hq.2⟩
  intro b1 a1 wf1
  refine Confined.bind ((leftLoop_confined u b ta.x (ta.x + ta.width) ta.y _
    { ta with
      x := ta.left + Int.tdiv (max 0 (ta.width - totalWidth u (b.filterTitles p .center))) 2 }
    b1 wf1 rfl t4 ?_ t2 ?_).mono ?_) ?_
  · have := (tdiv_half (max 0 (ta.width - totalWidth u (b.filterTitles p .center))) (by omega)).1
    simp only [Rect.left]; omega
  · have h2 := tdiv_half (max 0 (ta.width - totalWidth u (b.filterTitles p .center))) (by omega)
    simp only [Rect.left]
    generalize Int.tdiv (max 0 (ta.width - totalWidth u (b.filterTitles p .center))) 2 = d at *
    unfold totalWidth at h2
    omega
  · intro q hq; exact ⟨⟨ht, hq.1⟩, by rw [← a1]; exact hq.2⟩
  intro b2 a2 wf2
  refine (leftLoop_confined u b ta.x (ta.x + ta.width) ta.y _ ta b2 wf2 rfl t4 (Int.le_refl _) t2
    (Or.inl (Int.le_refl _))).mono ?_
  intro q hq; exact ⟨⟨ht, hq.1⟩, by rw [← a1, ← a2]; exact hq.2⟩

end Bento.Block
