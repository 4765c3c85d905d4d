import Verif.Model.Text
import Verif.Lemmas.Confined
import Mathlib.Data.List.Basic

/-!
# Facts about drawing spans, lines and texts
-/

namespace Bento

open Buffer

/-! ### Confinement -/

theorem contains_of {r : Rect} {p : Position} (h1 : r.x ≤ p.x) (h2 : p.x < r.right) (h3 : r.y ≤ p.y)
    (h4 : p.y < r.bottom) : r.contains p = true := by
  rw [Rect.contains_iff]; exact ⟨h1, h2, h3, h4⟩

theorem hideLoop_confined {S : Position → Prop} (y : Int) : ∀ (n : Nat) (x : Int) (b : Buffer), b.WF →
    (∀ i : Nat, i < n → b.area.contains ⟨x + i, y⟩ = true ∧ S ⟨x + i, y⟩) →
    Confined b (Span.hideLoop y n x b) S := by
  intro n
  induction n with
  | zero => intro x b wf _; exact Confined.pure wf S
  | succ n ih =>
    intro x b wf h
    have h0 := h 0 (by omega)
    simp only [Int.ofNat_zero, Int.natCast_zero, Int.add_zero] at h0
    refine Confined.bind (Confined.modifyCell wf _ h0.1 h0.2) ?_
    intro b' ha wf'
    refine ih (x + 1) b' wf' ?_
    intro i hi
    have := h (i + 1) (by omega)
    rw [show x + 1 + (i : Int) = x + ((i + 1 : Nat) : Int) by push_cast; omega, ha]
    exact this

theorem renderLoop_confined (area : Rect) (y : Int) (hy : area.y ≤ y) (hy' : y < area.bottom) :
    ∀ (gs : List StyledGrapheme) (first : Bool) (x : Int) (b : Buffer), b.WF →
      (∀ q, area.contains q = true → b.area.contains q = true) →
      area.x ≤ x → area.x < area.right → (first = true → x = area.x) →
      Confined b (Span.renderLoop area y gs first x b) (fun q => area.contains q = true) := by
  intro gs
  induction gs with
  | nil => intro first x b wf _ _ _ _; exact Confined.pure wf _
  | cons gr rest ih =>
    intro first x b wf hsub hx hne hf
    unfold Span.renderLoop
    simp only
    split_ifs with hn
    · exact Confined.pure wf _
    · refine Confined.bind (S := fun q => area.contains q = true) ?_ ?_
      · unfold Span.putGrapheme
        split_ifs with h1 h2 h3
        · have hc : area.contains ⟨x, y⟩ = true :=
            contains_of hx (by have := hf h1; simp only; omega) hy hy'
          exact Confined.modifyCell wf _ (hsub _ hc) hc
        · have hc : area.contains ⟨x, y⟩ = true :=
            contains_of hx (by simp only; omega) hy hy'
          exact Confined.modifyCell wf _ (hsub _ hc) hc
        · have hc : area.contains ⟨x - 1, y⟩ = true :=
            contains_of (by simp only; omega) (by simp only; omega) hy hy'
          exact Confined.modifyCell wf _ (hsub _ hc) hc
        · have hc : area.contains ⟨x, y⟩ = true :=
            contains_of hx (by simp only; omega) hy hy'
          exact Confined.modifyCell wf _ (hsub _ hc) hc
      · intro b1 ha1 wf1
        refine Confined.bind (S := fun q => area.contains q = true) ?_ ?_
        · refine hideLoop_confined y _ _ b1 wf1 ?_
          intro i hi
          have hc : area.contains ⟨x + 1 + i, y⟩ = true :=
            contains_of (by simp only; omega) (by simp only; omega) hy hy'
          exact ⟨by rw [ha1]; exact hsub _ hc, hc⟩
        · intro b2 ha2 wf2
          refine ih false _ b2 wf2 ?_ (by omega) hne (by simp)
          intro q hq
          rw [ha2, ha1]; exact hsub q hq

theorem not_isEmpty {r : Rect} (h : r.isEmpty = false) : r.width ≠ 0 ∧ r.height ≠ 0 := by
  simpa [Rect.isEmpty] using h

theorem span_render_confined (u : Uniseg) (s : Span) (area : Rect) (b : Buffer) (wf : b.WF) :
    Confined b (s.render u area b) (Clipped b area) := by
  unfold Span.render
  simp only
  split_ifs with he
  · exact Confined.pure wf _
  · have he := not_isEmpty (by simpa using he)
    have hn := C01_intersection_nonneg area b.area
    refine (renderLoop_confined (area.intersection b.area) _ (Int.le_refl _) ?_ _ true _ b wf ?_ (Int.le_refl _) ?_
      (fun _ => rfl)).mono ?_
    · show _ < (area.intersection b.area).y + (area.intersection b.area).height
      omega
    · intro q hq; exact ((contains_intersection _ _ _).1 hq).2
    · show _ < (area.intersection b.area).x + (area.intersection b.area).width
      omega
    · intro q hq; exact (contains_intersection _ _ _).1 hq

theorem contains_indentX {r : Rect} {d : Int} (hd : 0 ≤ d) {q : Position}
    (h : (r.indentX d).contains q = true) : r.contains q = true := by
  rw [Rect.contains_iff] at h ⊢
  unfold Rect.Mem Rect.indentX at *
  simp only at h
  omega

theorem afterWidth_nonneg (u : Uniseg) : ∀ (spans : List Span) (skip : Int),
    ∀ a ∈ Span.afterWidth u spans skip, 0 ≤ a.width ∧ 0 ≤ a.offset := by
  intro spans
  induction spans with
  | nil => intro skip a h; simp [Span.afterWidth] at h
  | cons s rest ih =>
    intro skip a h
    unfold Span.afterWidth at h
    simp only at h
    split_ifs at h
    · exact ih _ a h
    · rcases List.mem_cons.1 h with rfl | h
      · simp only; omega
      · exact ih _ a h
    · rcases List.mem_cons.1 h with rfl | h
      · simp only; omega
      · exact ih _ a h

theorem renderAll_confined (u : Uniseg) : ∀ (as : List Span.After) (area : Rect) (b : Buffer), b.WF →
    (∀ a ∈ as, 0 ≤ a.width ∧ 0 ≤ a.offset) →
    Confined b (Span.renderAll u as area b) (Clipped b area) := by
  intro as
  induction as with
  | nil => intro area b wf _; exact Confined.pure wf _
  | cons a as ih =>
    intro area b wf h
    obtain ⟨h1, h2⟩ := h a List.mem_cons_self
    unfold Span.renderAll
    simp only
    split_ifs
    · exact Confined.pure wf _
    · refine Confined.bind (S := Clipped b area) ?_ ?_
      · refine (span_render_confined u a.span (area.indentX a.offset) b wf).mono ?_
        intro q hq
        exact ⟨contains_indentX h2 hq.1, hq.2⟩
      · intro b1 ha1 wf1
        refine (ih ((area.indentX a.offset).indentX a.width) b1 wf1
          (fun a' ha' => h a' (List.mem_cons_of_mem _ ha'))).mono ?_
        intro q hq
        exact ⟨contains_indentX h2 (contains_indentX h1 hq.1), by rw [← ha1]; exact hq.2⟩

theorem share_nonneg (a : Alignment) (d : Int) : 0 ≤ Line.share a d := by
  unfold Line.share
  cases a <;> simp only <;> try omega
  exact Int.tdiv_nonneg (by omega) (by omega)

theorem line_render_confined (u : Uniseg) (l : Line) (area : Rect) (parent : Alignment) (b : Buffer)
    (wf : b.WF) : Confined b (l.renderAligned u area parent b) (Clipped b area) := by
  unfold Line.renderAligned
  simp only
  by_cases h1 : (area.intersection b.area).isEmpty = true
  · rw [if_pos h1]; exact Confined.pure wf _
  · rw [if_neg h1]
    by_cases h2 : (l.width u : Int) = 0
    · rw [if_pos h2]; exact Confined.pure wf _
    rw [if_neg h2]
    have he := not_isEmpty (by simpa using h1)
    have hn := C01_intersection_nonneg area b.area
    -- the first row of the clipped area is inside it
    have hrow : ∀ q, ({ area.intersection b.area with height := 1 } : Rect).contains q = true →
        area.contains q = true ∧ b.area.contains q = true := by
      intro q hq
      rw [← contains_intersection]
      rw [Rect.contains_iff] at hq ⊢
      unfold Rect.Mem at *
      simp only at hq
      omega
    refine Confined.bind (S := Clipped b area) ?_ ?_
    · refine (Confined.setStyle wf _ _).mono ?_
      intro q hq
      refine hrow q ?_
      have := hq.1
      rw [Rect.contains_iff] at this ⊢
      unfold Rect.Mem at *
      simp only at this ⊢
      omega
    · intro b1 ha1 wf1
      split_ifs
      · refine (renderAll_confined u _ _ b1 wf1 (afterWidth_nonneg u _ _)).mono ?_
        intro q hq
        exact hrow q (contains_indentX (share_nonneg _ _) hq.1)
      · refine (renderAll_confined u _ _ b1 wf1 (afterWidth_nonneg u _ _)).mono ?_
        intro q hq
        exact hrow q hq.1

theorem renderLines_confined (u : Uniseg) (parent : Alignment) (S : Position → Prop) :
    ∀ (ls : List Line) (rs : List Rect) (b : Buffer), b.WF →
      (∀ r ∈ rs, ∀ q, r.contains q = true → b.area.contains q = true → S q) →
      Confined b (Text.renderLines u parent ls rs b) S := by
  intro ls
  induction ls with
  | nil => intro rs b wf _; cases rs <;> exact Confined.pure wf _
  | cons l ls ih =>
    intro rs b wf h
    cases rs with
    | nil => exact Confined.pure wf _
    | cons r rs =>
      refine Confined.bind ((line_render_confined u l r parent b wf).mono ?_) ?_
      · intro q hq; exact h r List.mem_cons_self q hq.1 hq.2
      · intro b1 ha1 wf1
        refine ih rs b1 wf1 ?_
        intro r' hr' q hq hq'
        exact h r' (List.mem_cons_of_mem _ hr') q hq (ha1 ▸ hq')

theorem rows_sub {r row : Rect} (h : row ∈ r.rows) {q : Position} (hq : row.contains q = true) :
    r.contains q = true := by
  cases hc : r.contains q with
  | true => rfl
  | false => have := (C02_rows_partition r q).2 hc row h; rw [this] at hq; exact absurd hq (by decide)

theorem text_render_confined (u : Uniseg) (t : Text) (area : Rect) (b : Buffer) (wf : b.WF) :
    Confined b (t.render u area b) (Clipped b area) := by
  unfold Text.render
  refine Confined.bind ((Confined.setStyle wf _ _).mono ?_) ?_
  · intro q hq
    exact (contains_intersection _ _ _).1 hq.1
  · intro b1 ha1 wf1
    refine renderLines_confined u _ _ _ _ b1 wf1 ?_
    intro r hr q hq _
    exact (contains_intersection _ _ _).1 (rows_sub hr hq)

end Bento
