import Verif.Lemmas.Titles

/-!
# Property C92: titles stand in the order given, side by side
-/

namespace Bento

/-- The titles of one row fit: each group by itself, and the groups beside each other. -/
structure TitlesFit (u : Uniseg) (columns : Nat) (left center right : List Title) : Prop where
  left_ : titlesWidth u left - 1 ≤ columns
  center_ : titlesWidth u center - 1 ≤ columns
  right_ : titlesWidth u right - 1 ≤ columns
  leftCenter : left ≠ [] → center ≠ [] → titlesWidth u left - 1 ≤ titlesStart u .center columns center
  leftRight : left ≠ [] → right ≠ [] → titlesWidth u left - 1 ≤ titlesStart u .right columns right
  centerRight : center ≠ [] → right ≠ [] →
    titlesStart u .center columns center + (titlesWidth u center - 1) ≤ titlesStart u .right columns right

/-- What `WithTitle` does to the line of a title. -/
def Title.aligned (t : Title) : Title :=
  if t.alignment ≠ .none then { t with line := { t.line with alignment := t.alignment } } else t

theorem Title.aligned_alignment (t : Title) : t.aligned.alignment = t.alignment := by
  unfold Title.aligned; split_ifs <;> rfl

theorem Title.aligned_position (t : Title) : t.aligned.position = t.position := by
  unfold Title.aligned; split_ifs <;> rfl

theorem Title.aligned_spans (t : Title) : t.aligned.line.spans = t.line.spans := by
  unfold Title.aligned; split_ifs <;> rfl

theorem Title.aligned_clusters (u : Uniseg) (t : Title) : t.aligned.line.clusters u = t.line.clusters u := by
  unfold Line.clusters; rw [Title.aligned_spans]

theorem foldl_withTitle : ∀ (ts : List Title) (b : Block),
    ts.foldl Block.withTitle b = { b with titles := b.titles ++ ts.map Title.aligned } := by
  intro ts
  induction ts with
  | nil => intro b; simp
  | cons t ts ih =>
    intro b
    rw [List.foldl_cons, ih]
    unfold Block.withTitle Title.aligned
    simp

theorem titlesOf_aligned (p0 : TitlePosition) (a0 : Alignment) (ts : List Title) (p : TitlePosition)
    (a : Alignment) : titlesOf p0 a0 (ts.map Title.aligned) p a = (titlesOf p0 a0 ts p a).map Title.aligned := by
  unfold titlesOf
  rw [List.filter_map]
  congr 1
  apply List.filter_congr
  intro t _
  simp only [Function.comp, Title.aligned_position, Title.aligned_alignment]

theorem titlesWidth_aligned (u : Uniseg) (ts : List Title) :
    titlesWidth u (ts.map Title.aligned) = titlesWidth u ts := by
  unfold titlesWidth
  rw [List.map_map]
  congr 1
  apply List.map_congr_left
  intro t _
  simp only [Function.comp, Title.aligned_clusters]

/-- One row of titles. -/
theorem renderTitlePosition_shown {u : Uniseg} (hu : u.Lawful) (hs : u.Suffix) (b : Block) (p : TitlePosition)
    (area : Rect) {X W : Nat} {L C R : List Title}
    (hta : b.titlesArea area p = ⟨X, p.row area, W, 1⟩)
    (hL : b.filterTitles p .left = L) (hC : b.filterTitles p .center = C) (hR : b.filterTitles p .right = R)
    (hn : ∀ t ∈ b.titles, t.line.VisibleText u) (hfit : TitlesFit u W L C R) {buf : Buffer} (wf : buf.WF)
    (hin : Inside buf ⟨X, p.row area, W, 1⟩) :
    ∃ b', b.renderTitlePosition u p area buf = some b' ∧ b'.area = buf.area ∧ b'.WF ∧
      TitlesShown u L X (p.row area) b' ∧
      TitlesShown u C (X + titlesStart u .center W C) (p.row area) b' ∧
      TitlesShown u R (X + titlesStart u .right W R) (p.row area) b' ∧
      ∀ q : Position, q.y ≠ p.row area → b'.cellAt q = buf.cellAt q := by
  have hmem : ∀ a, ∀ t ∈ b.filterTitles p a, t.line.VisibleText u := by
    intro a t ht
    exact hn t (List.mem_of_mem_filter ht)
  have hw : ∀ ts : List Title, (∀ t ∈ ts, t.line.VisibleText u) →
      Block.totalWidth u ts = ((titlesWidth u ts - 1 : Nat) : Int) := by
    intro ts hts
    have : (ts.map fun t => (t.line.width u : Int) + 1).sum = (titlesWidth u ts : Int) := by
      induction ts with
      | nil => rfl
      | cons t ts ih =>
        rw [titlesWidth_cons, List.map_cons, List.sum_cons, ih (fun t h => hts t (List.mem_cons_of_mem _ h)),
          line_columns u t.line]
        push_cast; rfl
    unfold Block.totalWidth
    rw [this]
    omega
  generalize p.row area = Y at *
  obtain ⟨i1, i2, i3, i4, _, _⟩ := hin
  simp only at i1 i2 i3 i4
  obtain ⟨fL, fC, fR, fLC, fLR, fCR⟩ := hfit
  have sC : titlesStart u .center W C = (W - (titlesWidth u C - 1)) / 2 := rfl
  have sR : titlesStart u .right W R = W - (titlesWidth u R - 1) := rfl
  -- the right titles
  obtain ⟨b1, e1, a1, wf1, s1, k1⟩ := rightLoop_shown hu hs b X Y (by omega) R.reverse
    (fun t ht => hmem .right t (by rw [hR]; simpa using ht)) W buf wf
    (by rw [List.reverse_reverse]; omega)
    ⟨i1, i2, i3, i4, by simp only; omega, by simp only; omega⟩
  rw [List.reverse_reverse] at s1 k1
  have hRX : (X : Int) + W - ((titlesWidth u R - 1 : Nat) : Int) = X + (titlesStart u .right W R : Nat) := by
    rw [sR]; omega
  rw [hRX] at s1 k1
  -- the centred titles
  obtain ⟨b2, e2, a2, wf2, s2, k2⟩ := leftLoop_shown hu hs b Y C
    (fun t ht => hmem .center t (by rw [hC]; exact ht)) (X + (titlesStart u .center W C : Nat)) W b1 wf1
    (by omega)
    ⟨by rw [a1]; simp only; omega, by rw [a1]; simp only; omega, by rw [a1]; exact i3, by rw [a1]; exact i4,
      by simp only; omega, by simp only; omega⟩
  -- the left titles
  have a2' := a2.trans a1
  obtain ⟨b3, e3, a3, wf3, s3, k3⟩ := leftLoop_shown hu hs b Y L
    (fun t ht => hmem .left t (by rw [hL]; exact ht)) X W b2 wf2 (by omega)
    ⟨by rw [a2']; exact i1, by rw [a2']; simp only; omega, by rw [a2']; exact i3, by rw [a2']; exact i4,
      by simp only; omega, by simp only; omega⟩
  have nilw : ∀ {ts : List Title}, ts = [] → titlesWidth u ts = 0 := by rintro _ rfl; rfl
  refine ⟨b3, ?_, a3.trans a2', wf3, s3, ?_, ?_, ?_⟩
  · unfold Block.renderTitlePosition Block.renderRightTitles Block.renderCenterTitles Block.renderLeftTitles
    rw [hR, hta, e1]
    simp only [Option.bind_eq_bind, Option.bind_some]
    rw [hC, hw C (fun t ht => hmem .center t (by rw [hC]; exact ht))]
    have : Int.tdiv (max 0 ((W : Int) - ((titlesWidth u C - 1 : Nat) : Int))) 2
        = ((titlesStart u .center W C : Nat) : Int) := by
      rw [sC, Int.tdiv_eq_ediv_of_nonneg (by omega)]; omega
    simp only [Rect.left]
    rw [this, e2]
    simp only [Option.bind_some]
    rw [hL]
    exact e3
  · refine s2.kept fun q hy h1 h2 => k3 q ?_
    intro hc
    unfold Block.Strip at hc
    by_cases hl : L = []
    · have := nilw hl; omega
    · by_cases hcn : C = []
      · have := nilw hcn; omega
      · have := fLC hl hcn; omega
  · refine (s1.kept fun q hy h1 h2 => k2 q ?_).kept fun q hy h1 h2 => k3 q ?_
    · intro hc
      unfold Block.Strip at hc
      by_cases hl : C = []
      · have := nilw hl; omega
      · by_cases hcn : R = []
        · have := nilw hcn; omega
        · have := fCR hl hcn; omega
    · intro hc
      unfold Block.Strip at hc
      by_cases hl : L = []
      · have := nilw hl; omega
      · by_cases hcn : R = []
        · have := nilw hcn; omega
        · have := fLR hl hcn; omega
  · intro q hq
    rw [k3 q (fun hc => hq hc.1), k2 q (fun hc => hq hc.1), k1 q (fun hc => hq hc.1)]

/-- **C92.** Titles given one after the other with `WithTitle` stand in their row (top or bottom) in the
order given, each with a free column behind it: those aligned to the left from the left border, those
aligned to the right up to the right border, those in the middle in the middle of the columns between
the borders. If the groups do not meet, all of them are shown completely. -/
theorem C92_titles_in_order {u : Uniseg} (hu : u.Lawful) (hs : u.Suffix) (b : Block) (hb : b.titles = [])
    (ts : List Title) (hn : ∀ t ∈ ts, t.line.VisibleText u) (area : Rect) (buf : Buffer) (wf : buf.WF)
    (hin : Inside buf area) (hx : 0 ≤ area.x) (hh : 2 ≤ area.height)
    (hw : oneIf (b.Has 8) + oneIf (b.Has 2) ≤ area.width) (hpos : 0 < area.width)
    (hfit : ∀ p, TitlesFit u (area.width - oneIf (b.Has 8) - oneIf (b.Has 2)).toNat
      (titlesOf b.titlesPosition b.titlesAlignment ts p .left)
      (titlesOf b.titlesPosition b.titlesAlignment ts p .center)
      (titlesOf b.titlesPosition b.titlesAlignment ts p .right)) :
    ∃ b', (ts.foldl Block.withTitle b).render u area buf = some b' ∧
      ∀ p a, a ≠ .none →
        ∀ (j : Nat) t, (titlesOf b.titlesPosition b.titlesAlignment ts p a)[j]? = some t →
          u.Spelled (t.line.clusters u) (area.x + oneIf (b.Has 8)
              + (titlesStart u a (area.width - oneIf (b.Has 8) - oneIf (b.Has 2)).toNat
                (titlesOf b.titlesPosition b.titlesAlignment ts p a) : Nat)
              + (titlesWidth u ((titlesOf b.titlesPosition b.titlesAlignment ts p a).take j) : Nat))
            (p.row area) b' := by
  have hin' := hin
  obtain ⟨h1, h2, h3, h4, h5, h6⟩ := hin'
  rw [foldl_withTitle, hb, List.nil_append]
  generalize hB : ({ b with titles := ts.map Title.aligned } : Block) = B
  have hH : ∀ side, B.Has side = b.Has side := by intro side; rw [← hB]; rfl
  have hself : area.intersection area = area := by
    unfold Rect.intersection Rect.right Rect.bottom
    ext <;> simp only <;> omega
  have o8 := oneIf_cases (b.Has 8)
  have o2 := oneIf_cases (b.Has 2)
  unfold Block.render
  simp only [hself]
  rw [if_neg (by simp [Rect.isEmpty]; omega)]
  obtain ⟨b0, e0, a0, wf0, _⟩ := setStyle_cells wf area B.style
  obtain ⟨b1, e1, a1, wf1, _⟩ := Block.renderBorders_confined wf0 B area
    (by unfold Inside at *; rw [a0]; exact hin) (by omega) (by omega)
  rw [e0]
  simp only [Option.bind_eq_bind, Option.bind_some]
  rw [e1]
  simp only [Option.bind_some]
  have a1 := a1.trans a0
  have hfilter : ∀ p a, B.filterTitles p a
      = (titlesOf b.titlesPosition b.titlesAlignment ts p a).map Title.aligned := by
    intro p a
    rw [← titlesOf_aligned, ← hB]
    unfold Block.filterTitles titlesOf
    apply List.filter_congr
    intro t _
    unfold Block.positionOf
    by_cases h : t.alignment = .none <;> simp [h]
  obtain ⟨X, hX⟩ : ∃ X : Nat, area.x + oneIf (b.Has 8) = X := ⟨(area.x + oneIf (b.Has 8)).toNat, by omega⟩
  obtain ⟨W, hW⟩ : ∃ W : Nat, area.width - oneIf (b.Has 8) - oneIf (b.Has 2) = W :=
    ⟨(area.width - oneIf (b.Has 8) - oneIf (b.Has 2)).toNat, by omega⟩
  have hta : ∀ p', B.titlesArea area p' = ⟨X, p'.row area, W, 1⟩ := by
    intro p'
    have hL := oneIf_bool (Block.has_left B)
    have hR := oneIf_bool (Block.has_right B)
    rw [hH] at hL hR
    rw [← hX, ← hW]
    unfold Block.titlesArea
    rcases hL with ⟨l1, l2⟩ | ⟨l1, l2⟩ <;> rcases hR with ⟨r1, r2⟩ | ⟨r1, r2⟩ <;>
      simp only [l1, r1, l2, r2, if_true, Bool.false_eq_true, if_false, Rect.mk.injEq, Rect.left] <;>
      refine ⟨trivial, ?_, by omega, trivial⟩ <;> cases p' <;> rfl
  rw [hW, Int.toNat_natCast] at hfit
  have hn' : ∀ t ∈ B.titles, t.line.VisibleText u := by
    rw [← hB]
    intro t ht
    obtain ⟨t', ht', rfl⟩ := List.mem_map.1 ht
    unfold Line.VisibleText
    rw [Title.aligned_spans]
    exact hn t' ht'
  have hfit' : ∀ p, TitlesFit u W (B.filterTitles p .left) (B.filterTitles p .center)
      (B.filterTitles p .right) := by
    intro p
    have h := hfit p
    simp only [hfilter]
    constructor <;>
      simp only [titlesStart, titlesWidth_aligned, ne_eq, List.map_eq_nil_iff]
    exacts [h.left_, h.center_, h.right_, h.leftCenter, h.leftRight, h.centerRight]
  have hrow : ∀ p : TitlePosition, ∀ bb : Buffer, bb.area = buf.area →
      Inside bb ⟨X, p.row area, W, 1⟩ := by
    intro p bb hbb
    unfold Inside
    rw [hbb]
    cases p <;> simp only [TitlePosition.row] <;> omega
  obtain ⟨b2, e2, a2, wf2, sL, sC, sR, _⟩ := renderTitlePosition_shown hu hs B .top area (hta .top)
    rfl rfl rfl hn' (hfit' .top) wf1 (hrow _ _ a1)
  have a2 := a2.trans a1
  obtain ⟨b3, e3, a3, wf3, tL, tC, tR, hkeep⟩ := renderTitlePosition_shown hu hs B .bottom area (hta .bottom)
    rfl rfl rfl hn' (hfit' .bottom) wf2 (hrow _ _ a2)
  refine ⟨b3, ?_, ?_⟩
  · unfold Block.renderTitles
    rw [e2]
    simp only [Option.bind_eq_bind, Option.bind_some]
    exact e3
  have hdiff : ∀ q : Position, q.y = TitlePosition.row area .top → b3.cellAt q = b2.cellAt q := by
    intro q hq
    apply hkeep
    rw [hq]
    simp only [TitlePosition.row]
    omega
  have hrows : ∀ p a, a ≠ Alignment.none →
      TitlesShown u (B.filterTitles p a) (X + (titlesStart u a W (B.filterTitles p a) : Nat)) (p.row area) b3 := by
    intro p a ha
    have h0 : ∀ ts : List Title, titlesStart u .left W ts = 0 := fun _ => rfl
    cases p with
    | top =>
      cases a with
      | none => exact absurd rfl ha
      | left => rw [h0]; exact (by simpa using sL : TitlesShown _ _ _ _ _).kept fun q hy _ _ => hdiff q hy
      | center => exact sC.kept fun q hy _ _ => hdiff q hy
      | right => exact sR.kept fun q hy _ _ => hdiff q hy
    | bottom =>
      cases a with
      | none => exact absurd rfl ha
      | left => rw [h0]; simpa using tL
      | center => exact tC
      | right => exact tR
  intro p a ha j t hj
  have := hrows p a ha j t.aligned (by rw [hfilter, List.getElem?_map, hj]; rfl)
  rw [Title.aligned_clusters, hfilter, ← List.map_take, titlesWidth_aligned] at this
  rw [hX, hW, Int.toNat_natCast]
  unfold titlesStart at this ⊢
  rw [titlesWidth_aligned] at this
  exact this

/-- Five titles of a bordered block: a name and a mode on the left, a number in the middle and two keys on
the right of the bottom row. -/
def fiveTitles : List Title :=
  [⟨.left, none, Line.new [Span.new "name"]⟩, ⟨.right, some .bottom, Line.new [Span.new "q"]⟩,
    ⟨.left, none, Line.new [Span.new "rw"]⟩, ⟨.center, none, Line.new [Span.new "42"]⟩,
    ⟨.right, some .bottom, Line.new [Span.new "?"]⟩]

/-- They fit into twenty columns … -/
example : ∀ p, TitlesFit Uniseg.simple 20
    (titlesOf .top .left fiveTitles p .left) (titlesOf .top .left fiveTitles p .center)
    (titlesOf .top .left fiveTitles p .right) := by
  intro p
  cases p <;> constructor <;> decide +kernel

/-- … where the centred one starts at column 9, behind "name rw", and the keys at column 17 of the bottom
row, in the order given. -/
example : titlesWidth Uniseg.simple (titlesOf .top .left fiveTitles .top .left) - 1 = 7 ∧
    titlesStart Uniseg.simple .center 20 (titlesOf .top .left fiveTitles .top .center) = 9 ∧
    titlesStart Uniseg.simple .right 20 (titlesOf .top .left fiveTitles .bottom .right) = 17 ∧
    (titlesOf .top .left fiveTitles .bottom .right).map (fun t => t.line.clusters Uniseg.simple)
      = [["q"], ["?"]] := by
  decide +kernel

example : ∀ t ∈ fiveTitles, t.line.VisibleText Uniseg.simple := by
  unfold Line.VisibleText Uniseg.Visible Harmless Control
  decide +kernel

end Bento
