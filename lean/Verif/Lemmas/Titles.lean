import Verif.Props.Block

/-!
# Several titles
-/

namespace Bento

/-- The titles are shown in row `y` one after the other, the first one in column `x`. -/
def TitlesShown (u : Uniseg) (ts : List Title) (x y : Int) (buf : Buffer) : Prop :=
  ∀ (j : Nat) t, ts[j]? = some t → u.Spelled (t.line.clusters u) (x + (titlesWidth u (ts.take j) : Nat)) y buf

/-- Drawing elsewhere does not hide a text. -/
theorem Uniseg.Spelled.kept {u : Uniseg} {cs : List String} {x y : Int} {b b' : Buffer} (h : u.Spelled cs x y b)
    (hk : ∀ q : Position, q.y = y → x ≤ q.x → q.x < x + u.columns cs → b'.cellAt q = b.cellAt q) :
    u.Spelled cs x y b' := by
  intro j c hj i hi
  have hg := columns_get (u := u) hj
  have := h j c hj i hi
  unfold Buffer.symbolAt at this ⊢
  rw [hk _ rfl (by simp only; omega) (by simp only; omega)]
  exact this

theorem titlesWidth_cons (u : Uniseg) (t : Title) (ts : List Title) :
    titlesWidth u (t :: ts) = u.columns (t.line.clusters u) + 1 + titlesWidth u ts := by
  simp [titlesWidth]

theorem titlesWidth_append (u : Uniseg) (ts ts' : List Title) :
    titlesWidth u (ts ++ ts') = titlesWidth u ts + titlesWidth u ts' := by
  simp [titlesWidth]

theorem titlesWidth_pos (u : Uniseg) {ts : List Title} (h : ts ≠ []) : 0 < titlesWidth u ts := by
  cases ts with
  | nil => exact absurd rfl h
  | cons t ts => rw [titlesWidth_cons]; omega

/-- A shown title ends before the last column of its group. -/
theorem titlesWidth_lt (u : Uniseg) {ts : List Title} {j : Nat} {t : Title} (h : ts[j]? = some t) :
    titlesWidth u (ts.take j) + u.columns (t.line.clusters u) ≤ titlesWidth u ts - 1 := by
  obtain ⟨hj, ht⟩ := List.getElem?_eq_some_iff.1 h
  have := titlesWidth_append u (ts.take j) (ts.drop j)
  rw [List.take_append_drop, List.drop_eq_getElem_cons hj, titlesWidth_cons, ht] at this
  omega

theorem symbolAt_congr {b b' : Buffer} {q : Position} (h : b'.cellAt q = b.cellAt q) :
    b'.symbolAt q = b.symbolAt q := by unfold Buffer.symbolAt; rw [h]

/-- Drawing elsewhere does not hide the titles. -/
theorem TitlesShown.kept {u : Uniseg} {ts : List Title} {x y : Int} {b b' : Buffer}
    (h : TitlesShown u ts x y b)
    (hk : ∀ q : Position, q.y = y → x ≤ q.x → q.x < x + ((titlesWidth u ts - 1 : Nat) : Int) →
      b'.cellAt q = b.cellAt q) : TitlesShown u ts x y b' := by
  intro j t ht
  have hlt := titlesWidth_lt u ht
  exact (h j t ht).kept fun q hy h1 h2 => hk q hy (by omega) (by omega)

/-- One title, with what it leaves alone. -/
theorem drawTitle_step {u : Uniseg} (hu : u.Lawful) (hs : u.Suffix) (b : Block) (t : Title)
    (ht : t.line.VisibleText u) (x y : Int) {buf : Buffer} (wf : buf.WF)
    (hin : Inside buf ⟨x, y, u.columns (t.line.clusters u), 1⟩) :
    ∃ b', b.drawTitle u t ⟨x, y, u.columns (t.line.clusters u), 1⟩ buf = some b' ∧
      b'.area = buf.area ∧ b'.WF ∧
      u.Spelled (t.line.clusters u) x y b' ∧
      ∀ q, ¬ Block.Strip x (x + u.columns (t.line.clusters u)) y q → b'.cellAt q = buf.cellAt q := by
  obtain ⟨b', e, h⟩ := drawTitle_shown hu hs b t ht x y wf hin
  obtain ⟨b'', e', ha, hwf, hk⟩ := Block.drawTitle_confined u b t ⟨x, y, u.columns (t.line.clusters u), 1⟩ wf
  rw [e] at e'
  cases e'
  refine ⟨b', e, ha, hwf, h, fun q hq => hk q fun hc => hq ?_⟩
  exact Block.strip_of_contains rfl rfl (Int.le_refl _) (Int.le_refl _) hc.1

theorem leftLoop_shown {u : Uniseg} (hu : u.Lawful) (hs : u.Suffix) (b : Block) (y : Int) :
    ∀ (ts : List Title), (∀ t ∈ ts, t.line.VisibleText u) → ∀ (x w : Int) (buf : Buffer), buf.WF →
      ((titlesWidth u ts - 1 : Nat) : Int) ≤ w →
      Inside buf ⟨x, y, (titlesWidth u ts - 1 : Nat), 1⟩ →
      ∃ b', Block.leftLoop u b ts ⟨x, y, w, 1⟩ buf = some b' ∧ b'.area = buf.area ∧ b'.WF ∧
        TitlesShown u ts x y b' ∧
        ∀ q, ¬ Block.Strip x (x + (titlesWidth u ts - 1 : Nat)) y q → b'.cellAt q = buf.cellAt q := by
  intro ts
  induction ts with
  | nil =>
    intro _ x w buf wf _ _
    exact ⟨buf, rfl, rfl, wf, fun j t h => by simp at h, fun _ _ => rfl⟩
  | cons t ts ih =>
    intro hn x w buf wf hw hin
    have htw := line_columns u t.line
    rw [titlesWidth_cons] at hw hin
    unfold Block.leftLoop
    by_cases hwz : w = 0
    · subst hwz
      rw [if_pos (by simp [Rect.isEmpty])]
      refine ⟨buf, rfl, rfl, wf, ?_, fun _ _ => rfl⟩
      have hts : ts = [] := by
        by_contra h
        have := titlesWidth_pos u h
        omega
      subst hts
      intro j t' ht' k s hk i hi
      have hlt := titlesWidth_lt u ht'
      have hg := columns_get (u := u) hk
      rw [titlesWidth_cons] at hlt
      have h0 : titlesWidth u ([] : List Title) = 0 := rfl
      omega
    · rw [if_neg (by simp [Rect.isEmpty]; omega)]
      obtain ⟨i1, i2, i3, i4, i5, i6⟩ := hin
      simp only at i1 i2 i3 i4
      have hsub : (titlesWidth u ts - 1 : Nat) ≤ titlesWidth u ts := Nat.sub_le _ _
      obtain ⟨b1, e1, a1, wf1, s1, k1⟩ := drawTitle_step hu hs b t (hn t (List.mem_cons_self ..)) x y wf
        ⟨i1, by simp only; omega, i3, i4, by simp only; omega, by simp only; omega⟩
      simp only [Option.bind_eq_bind]
      rw [htw, show min (u.columns (t.line.clusters u) : Int) w = u.columns (t.line.clusters u) by omega, e1]
      simp only [Option.bind_some]
      by_cases hts : ts = []
      · subst hts
        refine ⟨b1, rfl, a1, wf1, ?_, ?_⟩
        · intro j t' ht'
          have : j = 0 := by
            have := (List.getElem?_eq_some_iff.1 ht').1
            simp at this; exact this
          subst this
          cases ht'
          simpa [titlesWidth] using s1
        · intro q hq
          apply k1
          intro hc; apply hq
          have h0 : titlesWidth u ([] : List Title) = 0 := rfl
          unfold Block.Strip at *
          rw [titlesWidth_cons]
          omega
      have hp := titlesWidth_pos u hts
      obtain ⟨b2, e2, a2, wf2, s2, k2⟩ := ih (fun t' h => hn t' (List.mem_cons_of_mem _ h))
        (x + u.columns (t.line.clusters u) + 1) (max 0 (w - u.columns (t.line.clusters u) - 1)) b1 wf1 (by omega)
        ⟨by rw [a1]; simp only; omega, by rw [a1]; simp only; omega, by rw [a1]; exact i3,
          by rw [a1]; exact i4, by simp only; omega, by simp only; omega⟩
      refine ⟨b2, e2, a2.trans a1, wf2, ?_, ?_⟩
      · intro j t' ht'
        cases j with
        | zero =>
          cases ht'
          have h0 : titlesWidth u ((t :: ts).take 0) = 0 := rfl
          rw [h0, show x + ((0 : Nat) : Int) = x by omega]
          exact s1.kept fun q hy h1 h2 => k2 q (by unfold Block.Strip; omega)
        | succ j =>
          have := s2 j t' ht'
          rw [List.take_succ_cons, titlesWidth_cons]
          rw [show x + ((u.columns (t.line.clusters u) + 1 + titlesWidth u (ts.take j) : Nat) : Int)
            = x + u.columns (t.line.clusters u) + 1 + (titlesWidth u (ts.take j) : Nat) by push_cast; omega]
          exact this
      · intro q hq
        rw [k2 q ?_, k1 q ?_]
        · intro hc; apply hq
          unfold Block.Strip at *
          rw [titlesWidth_cons]
          omega
        · intro hc; apply hq
          unfold Block.Strip at *
          rw [titlesWidth_cons]
          omega

theorem rightLoop_shown {u : Uniseg} (hu : u.Lawful) (hs : u.Suffix) (b : Block) (x y : Int) (hx : 0 ≤ x) :
    ∀ (rs : List Title), (∀ t ∈ rs, t.line.VisibleText u) → ∀ (w : Int) (buf : Buffer), buf.WF →
      ((titlesWidth u rs.reverse - 1 : Nat) : Int) ≤ w →
      Inside buf ⟨x, y, w, 1⟩ →
      ∃ b', Block.rightLoop u b rs ⟨x, y, w, 1⟩ buf = some b' ∧ b'.area = buf.area ∧ b'.WF ∧
        TitlesShown u rs.reverse (x + w - (titlesWidth u rs.reverse - 1 : Nat)) y b' ∧
        ∀ q, ¬ Block.Strip (x + w - (titlesWidth u rs.reverse - 1 : Nat)) (x + w) y q →
          b'.cellAt q = buf.cellAt q := by
  intro rs
  induction rs with
  | nil =>
    intro _ w buf wf _ _
    exact ⟨buf, rfl, rfl, wf, fun j t h => by simp at h, fun _ _ => rfl⟩
  | cons t rs ih =>
    intro hn w buf wf hw hin
    have htw := line_columns u t.line
    have hone : titlesWidth u [t] = u.columns (t.line.clusters u) + 1 := by simp [titlesWidth]
    have htot : titlesWidth u (t :: rs).reverse
        = titlesWidth u rs.reverse + (u.columns (t.line.clusters u) + 1) := by
      rw [List.reverse_cons, titlesWidth_append, hone]
    have h0 : titlesWidth u ([] : List Title) = 0 := rfl
    unfold Block.rightLoop
    by_cases hwz : w = 0
    · subst hwz
      rw [if_pos (by simp [Rect.isEmpty])]
      refine ⟨buf, rfl, rfl, wf, ?_, fun _ _ => rfl⟩
      intro j t' ht' k s hk i hi
      have hlt := titlesWidth_lt u ht'
      have hg := columns_get (u := u) hk
      omega
    · rw [if_neg (by simp [Rect.isEmpty]; omega)]
      obtain ⟨i1, i2, i3, i4, i5, i6⟩ := hin
      simp only at i1 i2 i3 i4 i5
      rw [htot] at hw ⊢
      obtain ⟨b1, e1, a1, wf1, s1, k1⟩ := drawTitle_step hu hs b t (hn t (List.mem_cons_self ..))
        (x + w - u.columns (t.line.clusters u)) y wf
        ⟨by simp only; omega, by simp only; omega, i3, i4, by simp only; omega, by simp only; omega⟩
      simp only [Option.bind_eq_bind, Rect.left, Rect.right]
      rw [htw, show min w (u.columns (t.line.clusters u) : Int) = u.columns (t.line.clusters u) by omega,
        show max 0 (max x (x + w - (u.columns (t.line.clusters u) : Int)))
          = x + w - (u.columns (t.line.clusters u) : Int) by omega, e1]
      simp only [Option.bind_some]
      by_cases hts : rs = []
      · subst hts
        refine ⟨b1, rfl, a1, wf1, ?_, ?_⟩
        · intro j t' ht'
          have : j = 0 := by
            have := (List.getElem?_eq_some_iff.1 ht').1
            simp at this; exact this
          subst this
          cases ht'
          simpa [titlesWidth] using s1
        · intro q hq
          apply k1
          intro hc; apply hq
          unfold Block.Strip at *
          simp only [List.reverse_nil, h0] at *
          omega
      have hp := titlesWidth_pos u (ts := rs.reverse) (by simpa using hts)
      obtain ⟨b2, e2, a2, wf2, s2, k2⟩ := ih (fun t' h => hn t' (List.mem_cons_of_mem _ h))
        (max 0 (w - u.columns (t.line.clusters u) - 1)) b1 wf1 (by omega)
        ⟨by rw [a1]; exact i1, by rw [a1]; simp only; omega, by rw [a1]; exact i3,
          by rw [a1]; exact i4, by simp only; omega, by simp only; omega⟩
      have hst : x + max 0 (w - (u.columns (t.line.clusters u) : Int) - 1) - ((titlesWidth u rs.reverse - 1 : Nat) : Int)
          = x + w - ((titlesWidth u rs.reverse + (u.columns (t.line.clusters u) + 1) - 1 : Nat) : Int) := by omega
      rw [hst] at s2 k2
      refine ⟨b2, e2, a2.trans a1, wf2, ?_, ?_⟩
      · intro j t' ht'
        rw [List.reverse_cons] at ht' ⊢
        by_cases hj : j < rs.reverse.length
        · rw [List.getElem?_append_left hj] at ht'
          rw [List.take_append_of_le_length (by omega)]
          exact s2 j t' ht'
        · have hj' : j = rs.reverse.length := by
            have := (List.getElem?_eq_some_iff.1 ht').1
            simp only [List.length_append, List.length_cons, List.length_nil] at this
            omega
          subst hj'
          rw [List.getElem?_append_right (Nat.le_refl _)] at ht'
          simp only [Nat.sub_self, List.getElem?_cons_zero, Option.some.injEq] at ht'
          subst ht'
          rw [List.take_left']
          · rw [show x + w - ((titlesWidth u rs.reverse + (u.columns (t.line.clusters u) + 1) - 1 : Nat) : Int)
                + (titlesWidth u rs.reverse : Nat) = x + w - u.columns (t.line.clusters u) by omega]
            exact s1.kept fun q hy h1 h2 => k2 q (by unfold Block.Strip; omega)
          · rfl
      · intro q hq
        rw [k2 q ?_, k1 q ?_]
        · intro hc; apply hq
          unfold Block.Strip at *
          omega
        · intro hc; apply hq
          unfold Block.Strip at *
          omega

end Bento
