import Verif.Spec.Block
import Verif.Lemmas.TextRow
import Mathlib.Data.List.Nodup

/-!
# Facts about blocks
-/

namespace Bento

open Buffer

namespace Block

theorem and_two_pow_cases (a i : Nat) :
    (a &&& 2 ^ i) = if a.testBit i then 2 ^ i else 0 := by
  apply Nat.eq_of_testBit_eq
  intro j
  rw [Nat.testBit_and, Nat.testBit_two_pow]
  by_cases h : i = j
  · subst h
    cases a.testBit i <;> simp [Nat.testBit_two_pow]
  · cases a.testBit i <;> simp [Nat.testBit_two_pow, h]

theorem hasSides_iff (a : Nat) (i : Nat) : hasSides a (2 ^ i) = true ↔ a &&& 2 ^ i ≠ 0 := by
  unfold hasSides
  rw [and_two_pow_cases]
  have : 2 ^ i ≠ 0 := Nat.pos_iff_ne_zero.1 (Nat.two_pow_pos i)
  cases a.testBit i
  · simp [Ne.symm this]
  · simp

theorem and_or_self (s t : Nat) : (s ||| t) &&& s = s := by
  apply Nat.eq_of_testBit_eq
  intro j
  rw [Nat.testBit_and, Nat.testBit_or]
  cases s.testBit j <;> simp

theorem hasSides_or (a s t : Nat) : hasSides a (s ||| t) = (hasSides a s && hasSides a t) := by
  unfold hasSides
  rw [Bool.eq_iff_iff]
  simp only [beq_iff_eq, Bool.and_eq_true]
  constructor
  · intro h
    constructor
    · have := congrArg (· &&& s) h
      simp only [Nat.and_assoc] at this
      rwa [and_or_self] at this
    · have := congrArg (· &&& t) h
      simp only [Nat.and_assoc] at this
      rw [Nat.or_comm] at this
      rwa [and_or_self] at this
  · rintro ⟨h1, h2⟩
    rw [Nat.and_or_distrib_left, h1, h2]

theorem has_left (b : Block) : hasSides b.borders sideLeft = true ↔ b.Has 8 := hasSides_iff b.borders 3
theorem has_bottom (b : Block) : hasSides b.borders sideBottom = true ↔ b.Has 4 := hasSides_iff b.borders 2
theorem has_right (b : Block) : hasSides b.borders sideRight = true ↔ b.Has 2 := hasSides_iff b.borders 1
theorem has_top (b : Block) : hasSides b.borders sideTop = true ↔ b.Has 1 := hasSides_iff b.borders 0

theorem intersects_iff (b : Block) (s : Nat) : intersects b.borders s = true ↔ b.Has s := by
  unfold intersects Has; simp

theorem hasTitleAt_iff (b : Block) (p : TitlePosition) :
    b.hasTitleAt p = true ↔ ∃ t ∈ b.titles, (t.position.getD b.titlesPosition) = p := by
  unfold hasTitleAt positionOf; simp

theorem takes_iff (b : Block) (s : Nat) (p : TitlePosition) :
    (intersects b.borders s || b.hasTitleAt p) = true ↔ b.Takes s p := by
  rw [Bool.or_eq_true, intersects_iff, hasTitleAt_iff]; rfl

theorem mem_columnOf {area : Rect} {x : Int} {q : Position} :
    q ∈ columnOf area x ↔ q.x = x ∧ area.y ≤ q.y ∧ q.y < area.y + area.height := by
  unfold columnOf Rect.bottom Rect.top
  simp only [List.mem_map, List.mem_range]
  constructor
  · rintro ⟨i, hi, rfl⟩
    refine ⟨?_, ?_, ?_⟩ <;> simp only <;> omega
  · rintro ⟨h1, h2, h3⟩
    refine ⟨(q.y - area.y).toNat, by omega, ?_⟩
    ext <;> simp only <;> omega

theorem mem_rowOf {area : Rect} {y : Int} {q : Position} :
    q ∈ rowOf area y ↔ q.y = y ∧ area.x ≤ q.x ∧ q.x < area.x + area.width := by
  unfold rowOf Rect.right Rect.left
  simp only [List.mem_map, List.mem_range]
  constructor
  · rintro ⟨i, hi, rfl⟩
    refine ⟨?_, ?_, ?_⟩ <;> simp only <;> omega
  · rintro ⟨h1, h2, h3⟩
    refine ⟨(q.x - area.x).toNat, by omega, ?_⟩
    ext <;> simp only <;> omega

theorem nodup_columnOf (area : Rect) (x : Int) : (columnOf area x).Nodup := by
  unfold columnOf
  refine List.Nodup.map ?_ List.nodup_range
  intro i j h
  simp only [Position.mk.injEq, true_and] at h
  omega

theorem nodup_rowOf (area : Rect) (y : Int) : (rowOf area y).Nodup := by
  unfold rowOf
  refine List.Nodup.map ?_ List.nodup_range
  intro i j h
  simp only [Position.mk.injEq, and_true] at h
  omega

/-- What one of the drawing functions does to the cells. -/
theorem drawIf_cells {buf : Buffer} (wf : buf.WF) (b : Block) (sides : Nat) (symbol : String)
    {ps : List Position} (hn : ps.Nodup) (hin : hasSides b.borders sides = true →
      ∀ p ∈ ps, buf.area.contains p = true) :
    ∃ b', b.drawIf sides symbol ps buf = some b' ∧ b'.area = buf.area ∧ b'.WF ∧
      ∀ q, b'.cellAt q = if hasSides b.borders sides = true ∧ q ∈ ps then
        (buf.cellAt q).map (Cell.put symbol b.borderStyle) else buf.cellAt q := by
  unfold drawIf drawAt
  by_cases h : hasSides b.borders sides = true
  · rw [if_pos h]
    obtain ⟨b', e, a, w, c⟩ := wf.foldlM_modify (Cell.put symbol b.borderStyle) ps hn (hin h)
    refine ⟨b', e, a, w, fun q => ?_⟩
    rw [c q]
    simp only [h, true_and]
  · rw [if_neg h]
    exact ⟨buf, rfl, rfl, wf, fun q => by rw [if_neg (fun h' => h h'.1)]⟩

theorem drawIf_confined {buf : Buffer} (wf : buf.WF) (b : Block) (sides : Nat) (symbol : String)
    {ps : List Position} (hn : ps.Nodup) {S : Position → Prop}
    (hin : hasSides b.borders sides = true → ∀ p ∈ ps, buf.area.contains p = true ∧ S p) :
    Confined buf (b.drawIf sides symbol ps buf) S := by
  obtain ⟨b', e, a, w, c⟩ := drawIf_cells wf b sides symbol hn (fun h p hp => (hin h p hp).1)
  refine ⟨b', e, a, w, fun q hq => ?_⟩
  rw [c q, if_neg]
  rintro ⟨h1, h2⟩
  exact hq (hin h1 q h2).2

/-- Drawing the borders of a non-empty area inside the buffer changes only the frame. -/
theorem renderBorders_confined {buf : Buffer} (wf : buf.WF) (b : Block) (area : Rect)
    (hin : Inside buf area) (hw : 0 < area.width) (hh : 0 < area.height) :
    Confined buf (b.renderBorders area buf) (fun q => area.contains q = true ∧ b.OnFrame area q) := by
  obtain ⟨h1, h2, h3, h4, _, _⟩ := hin
  have key : ∀ buf' : Buffer, buf'.area = buf.area → ∀ p : Position,
      area.x ≤ p.x → p.x < area.x + area.width → area.y ≤ p.y → p.y < area.y + area.height →
      buf'.area.contains p = true ∧ area.contains p = true := by
    intro buf' ha p i1 i2 i3 i4
    rw [ha, Rect.contains_iff, Rect.contains_iff]
    unfold Rect.Mem
    exact ⟨⟨by omega, by omega, by omega, by omega⟩, i1, i2, i3, i4⟩
  unfold renderBorders
  refine Confined.bind (drawIf_confined wf b _ _ (nodup_columnOf _ _) ?_) ?_
  · intro h p hp
    obtain ⟨i1, i2, i3⟩ := mem_columnOf.1 hp
    obtain ⟨k1, k2⟩ := key buf rfl p (by unfold Rect.left at i1; omega) (by unfold Rect.left at i1; omega) i2 i3
    exact ⟨k1, k2, Or.inl ⟨(has_left b).1 h, i1⟩⟩
  intro b1 a1 wf1
  refine Confined.bind (drawIf_confined wf1 b _ _ (nodup_rowOf _ _) ?_) ?_
  · intro h p hp
    obtain ⟨i1, i2, i3⟩ := mem_rowOf.1 hp
    unfold Rect.top at i1
    obtain ⟨k1, k2⟩ := key b1 a1 p i2 i3 (by omega) (by omega)
    exact ⟨k1, k2, Or.inr (Or.inr (Or.inl ⟨Or.inl ((has_top b).1 h), i1⟩))⟩
  intro b2 a2 wf2
  have a2 := a2.trans a1
  refine Confined.bind (drawIf_confined wf2 b _ _ (nodup_columnOf _ _) ?_) ?_
  · intro h p hp
    obtain ⟨i1, i2, i3⟩ := mem_columnOf.1 hp
    unfold Rect.right at i1
    obtain ⟨k1, k2⟩ := key b2 a2 p (by omega) (by omega) i2 i3
    exact ⟨k1, k2, Or.inr (Or.inl ⟨(has_right b).1 h, i1⟩)⟩
  intro b3 a3 wf3
  have a3 := a3.trans a2
  refine Confined.bind (drawIf_confined wf3 b _ _ (nodup_rowOf _ _) ?_) ?_
  · intro h p hp
    obtain ⟨i1, i2, i3⟩ := mem_rowOf.1 hp
    unfold Rect.bottom at i1
    obtain ⟨k1, k2⟩ := key b3 a3 p i2 i3 (by omega) (by omega)
    exact ⟨k1, k2, Or.inr (Or.inr (Or.inr ⟨Or.inl ((has_bottom b).1 h), i1⟩))⟩
  intro b4 a4 wf4
  have a4 := a4.trans a3
  have corner : ∀ (buf' : Buffer), buf'.area = buf.area → ∀ (s t : Nat) (x y : Int),
      (hasSides b.borders s = true → b.OnFrame area ⟨x, y⟩) →
      area.x ≤ x → x < area.x + area.width → area.y ≤ y → y < area.y + area.height →
      hasSides b.borders (s ||| t) = true → ∀ p ∈ [(⟨x, y⟩ : Position)],
      buf'.area.contains p = true ∧ area.contains p = true ∧ b.OnFrame area p := by
    intro buf' ha s t x y hf i1 i2 i3 i4 h p hp
    simp only [List.mem_cons, List.not_mem_nil, or_false] at hp
    subst hp
    rw [hasSides_or, Bool.and_eq_true] at h
    obtain ⟨k1, k2⟩ := key buf' ha ⟨x, y⟩ i1 i2 i3 i4
    exact ⟨k1, k2, hf h.1⟩
  have hright : ∀ y, hasSides b.borders sideRight = true → b.OnFrame area ⟨area.right - 1, y⟩ :=
    fun y h => Or.inr (Or.inl ⟨(has_right b).1 h, rfl⟩)
  have hleft : ∀ y, hasSides b.borders sideLeft = true → b.OnFrame area ⟨area.left, y⟩ :=
    fun y h => Or.inl ⟨(has_left b).1 h, rfl⟩
  have hr1 : area.x ≤ area.right - 1 := by unfold Rect.right; omega
  have hr2 : area.right - 1 < area.x + area.width := by unfold Rect.right; omega
  have hb1 : area.y ≤ area.bottom - 1 := by unfold Rect.bottom; omega
  have hb2 : area.bottom - 1 < area.y + area.height := by unfold Rect.bottom; omega
  have hl1 : area.x ≤ area.left := Int.le_refl _
  have hl2 : area.left < area.x + area.width := by unfold Rect.left; omega
  have ht1 : area.y ≤ area.top := Int.le_refl _
  have ht2 : area.top < area.y + area.height := by unfold Rect.top; omega
  refine Confined.bind (drawIf_confined wf4 b _ _ (List.nodup_singleton _)
    (corner b4 a4 _ _ _ _ (hright _) hr1 hr2 hb1 hb2)) ?_
  intro b5 a5 wf5
  have a5 := a5.trans a4
  refine Confined.bind (drawIf_confined wf5 b _ _ (List.nodup_singleton _)
    (corner b5 a5 _ _ _ _ (hright _) hr1 hr2 ht1 ht2)) ?_
  intro b6 a6 wf6
  have a6 := a6.trans a5
  refine Confined.bind (drawIf_confined wf6 b _ _ (List.nodup_singleton _)
    (corner b6 a6 _ _ _ _ (hleft _) hl1 hl2 hb1 hb2)) ?_
  intro b7 a7 wf7
  have a7 := a7.trans a6
  exact drawIf_confined wf7 b _ _ (List.nodup_singleton _)
    (corner b7 a7 _ _ _ _ (hleft _) hl1 hl2 ht1 ht2)

/-! ### Titles -/

theorem drawTitle_confined (u : Uniseg) (b : Block) (t : Title) (ta : Rect) {buf : Buffer}
    (wf : buf.WF) : Confined buf (b.drawTitle u t ta buf) (Clipped buf ta) := by
  unfold drawTitle
  refine Confined.bind (Confined.setStyle wf _ _) ?_
  intro b1 a1 wf1
  refine (line_render_confined u t.line ta _ b1 wf1).mono ?_
  intro q hq
  exact ⟨hq.1, by rw [← a1]; exact hq.2⟩

/-- The cells of row `y` in the columns from `x` up to `r`. -/
def Strip (x r y : Int) (q : Position) : Prop := q.y = y ∧ x ≤ q.x ∧ q.x < r

theorem strip_of_contains {ta : Rect} {x r y : Int} (hy : ta.y = y) (hh : ta.height = 1) (hx : x ≤ ta.x)
    (hr : ta.x + ta.width ≤ r) {q : Position} (h : ta.contains q = true) : Strip x r y q := by
  rw [Rect.contains_iff] at h
  unfold Rect.Mem at h
  unfold Strip
  omega

theorem rightLoop_confined (u : Uniseg) (b : Block) (x r y : Int) (hx0 : 0 ≤ x) :
    ∀ (ts : List Title) (ta : Rect) (buf : Buffer), buf.WF → ta.y = y → ta.height = 1 → x = ta.x →
      0 ≤ ta.width → ta.x + ta.width ≤ r →
      Confined buf (rightLoop u b ts ta buf) (fun q => Strip x r y q ∧ buf.area.contains q = true) := by
  intro ts
  induction ts with
  | nil => intro ta buf wf _ _ _ _ _; exact Confined.pure wf _
  | cons t ts ih =>
    intro ta buf wf hy hh hx hw hr
    unfold rightLoop
    split_ifs with he
    · exact Confined.pure wf _
    · simp only
      refine Confined.bind ((drawTitle_confined u b t _ wf).mono ?_) ?_
      · intro q hq
        refine ⟨strip_of_contains (x := x) (r := r) (y := y) ?_ ?_ ?_ ?_ hq.1, hq.2⟩
        · exact hy
        · exact hh
        · simp only [Rect.left, Rect.right]; omega
        · simp only [Rect.left, Rect.right]; omega
      · intro b1 a1 wf1
        refine (ih { ta with width := max 0 (ta.width - (t.line.width u : Int) - 1) } b1 wf1 hy hh hx
          (by simp only; omega) (by simp only; omega)).mono ?_
        intro q hq
        exact ⟨hq.1, by rw [← a1]; exact hq.2⟩

theorem leftLoop_confined (u : Uniseg) (b : Block) (x r y : Int) :
    ∀ (ts : List Title) (ta : Rect) (buf : Buffer), buf.WF → ta.y = y → ta.height = 1 → x ≤ ta.x →
      0 ≤ ta.width →
      (ta.x + ta.width ≤ r ∨ ta.x + ((ts.map fun t => (t.line.width u : Int) + 1).sum - 1) ≤ r ∨
        ta.width = 0) →
      Confined buf (leftLoop u b ts ta buf) (fun q => Strip x r y q ∧ buf.area.contains q = true) := by
  intro ts
  induction ts with
  | nil => intro ta buf wf _ _ _ _ _; exact Confined.pure wf _
  | cons t ts ih =>
    intro ta buf wf hy hh hx hw hr
    have hsum : 0 ≤ (ts.map fun t => (t.line.width u : Int) + 1).sum := by
      clear ih hr
      induction ts with
      | nil => simp
      | cons a as ih => simp only [List.map_cons, List.sum_cons]; omega
    unfold leftLoop
    split_ifs with he
    · exact Confined.pure wf _
    · have hne : ta.width ≠ 0 := (not_isEmpty (by simpa using he)).1
      simp only [List.map_cons, List.sum_cons] at hr
      simp only
      refine Confined.bind ((drawTitle_confined u b t _ wf).mono ?_) ?_
      · intro q hq
        refine ⟨strip_of_contains (x := x) (r := r) (y := y) ?_ ?_ ?_ ?_ hq.1, hq.2⟩
        · exact hy
        · exact hh
        · exact hx
        · simp only; omega
      · intro b1 a1 wf1
        refine (ih { ta with
            x := ta.x + (t.line.width u : Int) + 1
            width := max 0 (ta.width - (t.line.width u : Int) - 1) } b1 wf1 hy hh
          (by simp only; omega) (by simp only; omega) ?_).mono ?_
        · simp only
          omega
        · intro q hq
          exact ⟨hq.1, by rw [← a1]; exact hq.2⟩

theorem tdiv_half (a : Int) (h : 0 ≤ a) : 0 ≤ Int.tdiv a 2 ∧ Int.tdiv a 2 * 2 ≤ a := by
  rw [Int.tdiv_eq_ediv_of_nonneg h]; omega

/-- Drawing the titles of a non-empty area changes only its title rows. -/
theorem renderTitlePosition_confined (u : Uniseg) (b : Block) (p : TitlePosition) (area : Rect)
    {buf : Buffer} (wf : buf.WF) (hx : 0 ≤ area.x) (hw : 0 < area.width) (hh : 0 < area.height) :
    Confined buf (b.renderTitlePosition u p area buf)
      (fun q => (area.contains q = true ∧ b.OnFrame area q) ∧ buf.area.contains q = true) := by
  -- without titles nothing is drawn
  by_cases ht : b.hasTitleAt p = true
  swap
  · have hno : ∀ a, b.filterTitles p a = [] := by
      intro a
      unfold filterTitles
      rw [List.filter_eq_nil_iff]
      intro t htm
      have : b.positionOf t ≠ p := by
        intro h
        exact ht (by unfold hasTitleAt; rw [List.any_eq_true]; exact ⟨t, htm, by simp [h]⟩)
      simp [this]
    have : b.renderTitlePosition u p area buf = some buf := by
      unfold renderTitlePosition renderRightTitles renderCenterTitles renderLeftTitles
      rw [hno, hno, hno]
      rfl
    rw [this]
    exact Confined.pure wf _
  have htitle := (hasTitleAt_iff b p).1 ht
  generalize hta : b.titlesArea area p = ta
  have hta' : area.x ≤ ta.x ∧ 0 ≤ ta.width ∧ (ta.x + ta.width ≤ area.x + area.width ∨ ta.width = 0) ∧
      ta.height = 1 ∧ (p = .top → ta.y = area.y) ∧ (p = .bottom → ta.y = area.y + area.height - 1) := by
    rw [← hta]
    unfold titlesArea Rect.left Rect.top Rect.bottom
    simp only
    refine ⟨?_, ?_, ?_, trivial, ?_, ?_⟩
    · split_ifs <;> omega
    · split_ifs <;> omega
    · split_ifs <;> omega
    · rintro rfl; rfl
    · rintro rfl; rfl
  obtain ⟨t1, t2, t3, t4, t5, t6⟩ := hta'
  have hstrip : ∀ r, r ≤ area.x + area.width → ∀ q, Strip ta.x r ta.y q →
      area.contains q = true ∧ b.OnFrame area q := by
    intro r hr q hq
    unfold Strip at hq
    rw [Rect.contains_iff]
    unfold Rect.Mem OnFrame Takes
    cases p with
    | top =>
      simp only [forall_const, reduceCtorEq, false_implies] at t5 t6
      refine ⟨⟨by omega, by omega, by omega, by omega⟩, ?_⟩
      exact Or.inr (Or.inr (Or.inl ⟨Or.inr htitle, by omega⟩))
    | bottom =>
      simp only [forall_const, reduceCtorEq, false_implies] at t5 t6
      refine ⟨⟨by omega, by omega, by omega, by omega⟩, ?_⟩
      exact Or.inr (Or.inr (Or.inr ⟨Or.inr htitle, by omega⟩))
  have hr : (if ta.width = 0 then ta.x else ta.x + ta.width) = ta.x + ta.width := by
    split_ifs with h <;> omega
  unfold renderTitlePosition renderRightTitles renderCenterTitles renderLeftTitles
  rw [hta]
  -- an empty title area draws nothing
  by_cases hz : ta.width = 0
  · have he : ∀ t : Rect, t.width = 0 → ∀ ts buf, rightLoop u b ts t buf = some buf := by
      intro t h ts buf
      cases ts with
      | nil => rfl
      | cons => unfold rightLoop; rw [if_pos (by simp [Rect.isEmpty, h])]
    have he' : ∀ t : Rect, t.width = 0 → ∀ ts buf, leftLoop u b ts t buf = some buf := by
      intro t h ts buf
      cases ts with
      | nil => rfl
      | cons => unfold leftLoop; rw [if_pos (by simp [Rect.isEmpty, h])]
    rw [he _ hz]
    simp only [Option.bind_eq_bind, Option.bind_some]
    rw [he' _ (by exact hz)]
    simp only [Option.bind_some]
    rw [he' _ hz]
    exact Confined.pure wf _
  have t3 : ta.x + ta.width ≤ area.x + area.width := by omega
  refine Confined.bind ((rightLoop_confined u b ta.x _ ta.y (by omega) _ ta buf wf rfl t4 rfl t2
    (Int.le_refl _)).mono ?_) ?_
  · intro q hq; exact ⟨hstrip _ t3 q hq.1, hq.2⟩
  intro b1 a1 wf1
  refine Confined.bind ((leftLoop_confined u b ta.x (ta.x + ta.width) ta.y _
    { ta with
      x := ta.left + Int.tdiv (max 0 (ta.width - totalWidth u (b.filterTitles p .center))) 2 }
    b1 wf1 rfl t4 ?_ t2 ?_).mono ?_) ?_
  · have := (tdiv_half (max 0 (ta.width - totalWidth u (b.filterTitles p .center))) (by omega)).1
    simp only [Rect.left]; omega
  · have h2 := tdiv_half (max 0 (ta.width - totalWidth u (b.filterTitles p .center))) (by omega)
    simp only [Rect.left]
    generalize Int.tdiv (max 0 (ta.width - totalWidth u (b.filterTitles p .center))) 2 = d at *
    unfold totalWidth at h2
    omega
  · intro q hq; exact ⟨hstrip _ t3 q hq.1, by rw [← a1]; exact hq.2⟩
  intro b2 a2 wf2
  refine (leftLoop_confined u b ta.x (ta.x + ta.width) ta.y _ ta b2 wf2 rfl t4 (Int.le_refl _) t2
    (Or.inl (Int.le_refl _))).mono ?_
  intro q hq; exact ⟨hstrip _ t3 q hq.1, by rw [← a1, ← a2]; exact hq.2⟩

theorem renderTitles_confined (u : Uniseg) (b : Block) (area : Rect) {buf : Buffer} (wf : buf.WF)
    (hx : 0 ≤ area.x) (hw : 0 < area.width) (hh : 0 < area.height) :
    Confined buf (b.renderTitles u area buf)
      (fun q => (area.contains q = true ∧ b.OnFrame area q) ∧ buf.area.contains q = true) := by
  unfold renderTitles
  refine Confined.bind (renderTitlePosition_confined u b _ area wf hx hw hh) ?_
  intro b1 a1 wf1
  refine (renderTitlePosition_confined u b _ area wf1 hx hw hh).mono ?_
  intro q hq
  exact ⟨hq.1, by rw [← a1]; exact hq.2⟩

/-- A titles-only block draws without panic anywhere. -/
theorem renderBorders_none (b : Block) (h : ¬ b.Has 8 ∧ ¬ b.Has 4 ∧ ¬ b.Has 2 ∧ ¬ b.Has 1) (area : Rect)
    (buf : Buffer) : b.renderBorders area buf = some buf := by
  obtain ⟨h8, h4, h2, h1⟩ := h
  have e8 : hasSides b.borders sideLeft = false := by
    rw [← Bool.not_eq_true, has_left]; exact h8
  have e4 : hasSides b.borders sideBottom = false := by
    rw [← Bool.not_eq_true, has_bottom]; exact h4
  have e2 : hasSides b.borders sideRight = false := by
    rw [← Bool.not_eq_true, has_right]; exact h2
  have e1 : hasSides b.borders sideTop = false := by
    rw [← Bool.not_eq_true, has_top]; exact h1
  unfold renderBorders drawIf
  simp [hasSides_or, e8, e4, e2, e1]

end Block

end Bento
