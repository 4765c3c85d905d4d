import Verif.Lemmas.FloatLayout
import Verif.Lemmas.Whole
import Verif.Lemmas.Shares
import Verif.Spec.Float

/-!
# Rounding has no effect on splits
-/

namespace Bento.Casso.Fl
open Solver Layout

section
variable {rnd : ℚ → ℚ} {B K D W M R i f g : ℤ} {S S1 : Solver} {H : List Entry} {E : List IEqn}
  {w : Sym → ℤ} {c : Constr} {row : Row} {tag : Tag} {e0 : IEqn} {n : ℤ}

/-- All constraints of a layout: two fixed variables and plain constraints. -/
theorem layout_near {L : Var} {m : Nat} {a b : ℤ} {N F : ℤ} (hR : Exact rnd B) (hM : Room B K D W)
    (hK : 2 + F ≤ K) (hF0 : 0 ≤ F) (hD : N * (3 * M) ≤ D) (hW : N * (2 * R) * K ≤ W) (hRB : R ≤ B)
    (hR0 : 1001001000 ≤ R) (h4K : 4 * K ≤ B) (hB : M + 4 * D ≤ B) (ha : |a| ≤ M) (hb : |b| ≤ M)
    (ha' : (100 : ℤ) ∣ a) (hb' : (100 : ℤ) ∣ b) (hL : L ≠ 0) (hLm : L < m) (ω : Nat → Nat) (fuel : Nat)
    (cs : List Constr) (hP : ∀ c ∈ cs, Plain L M R c)
    (hv : ∀ c ∈ cs, ∀ v k, (v, k) ∈ c.expr.terms → v < m)
    (hN : 2 + cs.length ≤ N) (hF : (cs.map usesArea).sum ≤ F)
    (hn : pot m Solver.new + symbolsFor [] (anchor 0 a :: anchor L b :: cs) ≤ 256) :
    Near (addConstraints rnd ω fuel Solver.new (anchor 0 a :: anchor L b :: cs))
      (Solver.new.addConstraints ω fuel (anchor 0 a :: anchor L b :: cs)) ∧
    ∀ S', Solver.new.addConstraints ω fuel (anchor 0 a :: anchor L b :: cs) = .ok S' →
      S'.idTick ≤ 256 ∧ ∃ H' E' w' i' f', i' ≤ N ∧ f' ≤ F ∧ Run (3 * M) R i' f' S' H' E' w' := by
  have hl0 : (0 : ℤ) ≤ cs.length := Int.natCast_nonneg _
  rw [symbolsFor_cons, symbolsFor_cons] at hn
  have hvars : (anchor 0 a).vars = [0] := rfl
  rw [hvars] at hn
  have h1 := anchor_near (v := 0) (m := m) (seen := []) (a := a) (N := N) (F := F) hR hM hK hF0 hD hW hRB hR0
    h4K hB ha ha' (run_new (3 * M) R) (by linarith) (fun _ _ => rfl) (by simp)
    (lt_of_le_of_lt (Nat.zero_le _) hLm) (by omega) ω fuel Solver.new.objective.constant
  obtain ⟨hnear1, hok1⟩ := h1
  have hset : setCost Solver.new Solver.new.objective.constant = Solver.new := rfl
  rw [hset] at hnear1
  rw [addConstraints, Solver.addConstraints]
  cases hq : Solver.new.addConstraint ω fuel (anchor 0 a) with
  | error e =>
    rw [hq] at hnear1
    generalize addConstraint rnd ω fuel Solver.new (anchor 0 a) = p at hnear1 ⊢
    cases p with
    | ok _ => exact absurd hnear1 (by simp [Near])
    | error e' =>
      refine ⟨by simpa [Near] using hnear1, ?_⟩
      intro S' h; cases h
  | ok S2 =>
    rw [hq] at hnear1
    generalize addConstraint rnd ω fuel Solver.new (anchor 0 a) = p at hnear1 ⊢
    cases p with
    | error _ => exact absurd hnear1 (by simp [Near])
    | ok F2 =>
      obtain ⟨k2, hk2⟩ := hnear1
      subst hk2
      obtain ⟨H2, e2, w2, d0, hrun2, hA0, -, -, hpot2⟩ := hok1 S2 hq
      have hs2 : ∀ v ∉ ([0] : List Var), S2.varSym v = none := by
        have := addConstraint_seen (seen := []) (fun _ _ => rfl) hq
        simpa [hvars] using this
      have h2 := anchor_near (v := L) (m := m) (seen := [0]) (a := b) (N := N) (F := F) hR hM hK hF0 hD hW hRB
        hR0 h4K hB hb hb' hrun2 (by linarith) hs2 (by simpa using hL)
        hLm (by simp only [List.nil_append] at hn; omega) ω fuel k2
      obtain ⟨hnear2, hok2⟩ := h2
      simp only
      rw [addConstraints, Solver.addConstraints]
      cases hq2 : S2.addConstraint ω fuel (anchor L b) with
      | error e =>
        rw [hq2] at hnear2
        generalize addConstraint rnd ω fuel (setCost S2 k2) (anchor L b) = p at hnear2 ⊢
        cases p with
        | ok _ => exact absurd hnear2 (by simp [Near])
        | error e' =>
          refine ⟨by simpa [Near] using hnear2, ?_⟩
          intro S' h; cases h
      | ok S3 =>
        rw [hq2] at hnear2
        generalize addConstraint rnd ω fuel (setCost S2 k2) (anchor L b) = p at hnear2 ⊢
        cases p with
        | error _ => exact absurd hnear2 (by simp [Near])
        | ok F3 =>
          obtain ⟨k3, hk3⟩ := hnear2
          subst hk3
          obtain ⟨H3, e3, w3, dL, hrun3, hAL, hvs3, htick3, hpot3⟩ := hok2 S3 hq2
          exact run_near (m := m) (N := N) (F := F) hR hM hK hD hW hRB (by linarith) h4K hB ha hb ha' hb' ω fuel cs S3 H3
            _ w3 _ 0 k3 ([0] ++ (anchor L b).vars) hrun3 (by norm_num) le_rfl (hA0.next hvs3 htick3) hAL hP hv
            (by linarith) (by linarith) (addConstraint_seen hs2 hq2)
            (by simp only [List.nil_append] at hn; omega)

/-- The values are multiples of a hundred. -/
theorem run_values (hRun : Run M R i f S H E w) (v : Var) :
    ∃ z : ℤ, S.getValue v = 100 * z ∧ |z| ≤ i * M := by
  have hG := hRun.kept.inv.good
  have hΦ : ∀ σ, Sol S σ ↔ ∀ e ∈ E, e.eval σ = 0 := fun σ => (hG.sol σ).trans (hRun.kept.sol σ)
  have hSys : Sys E (2 + f) (i * M) :=
    ⟨hRun.posExt, hRun.negExt, hRun.coefExt, hRun.own, fun s => by have := hRun.dum s; linarith, hRun.const⟩
  have hB := basis_of hG.tab hΦ hRun.kept.noDum
  have h0 := hSys.nonneg
  cases hv : S.varSym v with
  | none => exact ⟨0, by simp [getValue, hv], by simpa using h0⟩
  | some s =>
    rw [getValue_eq hv]
    have hZ := intSol_basic hG.tab hΦ
    have hZ' : IntSol E (fun s => S.rows s ≠ none) (fun e => e.const / 100) (fun _ => 0)
        (fun s => basicSol S s / 100) := by
      refine ⟨?_, ?_, fun _ _ => rfl⟩
      · intro e he
        have h1 := hZ.eqn e he
        obtain ⟨q, hq⟩ := hRun.hundred e he
        have h2 : e.const / 100 = q := by omega
        have hat : ∀ o, at0 (fun s => basicSol S s / 100) o = at0 (basicSol S) o / 100 := by
          intro o; cases o <;> simp [at0]
        rw [h2]
        rw [hq] at h1
        unfold IEqn.lin at h1 ⊢
        have hsum : ∑ s, (e.coef s : ℚ) * (basicSol S s / 100) = (∑ s, (e.coef s : ℚ) * basicSol S s) / 100 := by
          rw [Finset.sum_div]
          apply Finset.sum_congr rfl
          intro s _; ring
        rw [hat, hat, hsum]
        push_cast at h1
        linarith
      · intro s hs
        have := hZ.nonbasic s hs
        simp [this]
    obtain ⟨z, hz⟩ := hZ'.ints hSys.shape hB s
    obtain ⟨y, hy, hyD⟩ := basicSol_le hG.tab hΦ hRun.kept.noDum hSys s
    have h1 : basicSol S s = 100 * (z : ℚ) := by linarith
    refine ⟨z, h1, ?_⟩
    have h2 : y = 100 * z := by rw [hy] at h1; exact_mod_cast h1
    have h3 : |y| = 100 * |z| := by rw [h2, abs_mul]; rfl
    have := abs_nonneg z
    omega

theorem toCell_eq (hR : Exact rnd B) {q : ℚ} {z : ℤ} (hq : q = 100 * z) (hz : |z| ≤ B) :
    toCell rnd q = Layout.toCell q := by
  unfold toCell Layout.toCell
  have h1 : roundHalfAway q = 100 * z := by
    rw [hq]
    have := roundHalfAway_int (100 * z)
    push_cast at this
    exact this
  rw [h1]
  have h2 : ((100 * z : ℤ) : ℚ) / multiplier = z := by
    unfold multiplier; push_cast; field_simp
  rw [h2, hR z hz]

theorem elementRect_eq (hR : Exact rnd B) {x : Var → ℚ} (hx : ∀ v, ∃ z : ℤ, x v = 100 * z ∧ |z| ≤ B)
    (area : Rect) (d : Direction) (e : Element) :
    elementRect rnd x area d e = Layout.elementRect x area d e := by
  obtain ⟨z1, h1, h1'⟩ := hx e.start
  obtain ⟨z2, h2, h2'⟩ := hx e.stop
  unfold elementRect Layout.elementRect
  rw [toCell_eq hR h1 h1', toCell_eq hR h2 h2']
  cases d <;> rfl

theorem roundConstr_eq (hR : Exact rnd B) (hB : 1 ≤ B) (unit : ∀ t ∈ c.expr.terms, t.2 = 1 ∨ t.2 = -1)
    (hc : IntLe B c.expr.constant) (hs : IntLe B c.strength) : roundConstr rnd c = c := by
  unfold roundConstr
  rw [hR.of hc, hR.of hs]
  have : c.expr.terms.map (fun t => (t.1, rnd t.2)) = c.expr.terms := by
    conv_rhs => rw [← List.map_id c.expr.terms]
    apply List.map_congr_left
    rintro ⟨v, k⟩ ht
    simp only [id, Prod.mk.injEq, true_and]
    exact hR.of ((unit_le (unit _ ht)).mono hB)
  rw [this]

theorem fetch_setCost (S : Solver) (k : ℚ) : (setCost S k).fetchChanges.2 = S.fetchChanges.2 := by
  have hcol : ∀ (T : Solver) (vs : List Var), (setCost T k).collectChanges vs = T.collectChanges vs := by
    intro T vs
    induction vs with
    | nil => rfl
    | cons v vs ih =>
      simp only [collectChanges, ih]
      rfl
  unfold fetchChanges
  simp only
  have h1 : (setCost S k).shouldClearChanges = S.shouldClearChanges := rfl
  rw [h1]
  cases S.shouldClearChanges
  · have := hcol { S with shouldClearChanges := true } S.changed
    exact congrArg (S.publicChanges.map (fun _ => ((0 : Var), (0 : ℚ))) ++ ·) this
  · rfl

end

/-! ## The constraints of a layout -/

/-- A hundred times the largest number of cells. -/
def bigM : ℤ := 100 * 2 ^ 31

theorem plain_diff {L : Var} (u v : Var) {x : ℚ} {z : ℤ} (hx : x = 100 * z) (hz : |z| ≤ 2 ^ 31) (op : RelOp) {s : ℚ} {n : ℤ}
    (hs : s = n) (hn : |n| ≤ 1001001000) (hop : op = .eq → n < 1001001000) :
    Plain L bigM 1001001000 ⟨⟨[(u, 1), (v, -1)], x⟩, op, s⟩ := by
  refine ⟨Or.inl ⟨u, v, rfl⟩, ?_, ⟨z, by push_cast; exact hx, ?_⟩, ⟨n, hs, hn⟩⟩
  · intro h hr
    have h1 : (n : ℚ) < 1001001000 := by exact_mod_cast hop h
    simp only [Constr.IsRequired, required] at hr
    linarith
  · rw [abs_mul]
    unfold bigM
    have : |(100 : ℤ)| = 100 := rfl
    rw [this]; linarith

theorem plain_area {L : Var} (u v : Var) {x : ℚ} (hx : x = 0) {s : ℚ} {n : ℤ}
    (hs : s = n) (hn : |n| ≤ 1001001000) (hop : n < 1001001000) :
    Plain L bigM 1001001000 ⟨⟨[(u, 1), (v, -1), (L, -1), (0, 1)], x⟩, .eq, s⟩ := by
  refine ⟨Or.inr ⟨u, v, rfl⟩, ?_, ⟨0, by push_cast; rw [hx], ?_⟩, ⟨n, hs, hn⟩⟩
  · intro h hr
    have h1 : (n : ℚ) < 1001001000 := by exact_mod_cast hop
    simp only [Constr.IsRequired, required] at hr
    linarith
  · unfold bigM; norm_num

theorem abs_zero_le : |(0 : ℤ)| ≤ 2 ^ 31 := by norm_num

theorem plain_isEmpty (L : Var) (e : Element) : Plain L bigM 1001001000 e.isEmpty :=
  plain_diff (z := 0) (n := 1001000999) e.stop e.start (by simp [Element.size, Expr.varSub]) abs_zero_le .eq
    (by norm_num [required]) (by norm_num) (by norm_num)

theorem plain_fixed (L : Var) (e : Element) {g : ℤ} (hg : |g| ≤ 2 ^ 31) :
    Plain L bigM 1001001000 (e.hasSize (Expr.ofConstant ((g : ℚ) * multiplier)) spacerSizeEq) :=
  plain_diff (z := -g) (n := 100100100) e.stop e.start
    (by simp [Expr.negate, Expr.ofConstant, multiplier, Element.size, Expr.varSub]; ring) (by rwa [abs_neg]) .eq
    (by norm_num [required, spacerSizeEq]) (by norm_num) (by norm_num)

theorem plain_hasArea (n : Nat) (e : Element) {s : ℚ} {k : ℤ} (hs : s = k) (hk : |k| ≤ 1001001000)
    (hk' : k < 1001001000) :
    Plain (2 * n + 1) bigM 1001001000 (e.hasSize (areaElement n).size s) :=
  plain_area (x := 0 + -0) e.stop e.start (by simp) hs hk hk'

theorem plain_int (L : Var) (e : Element) (op : RelOp) {g : ℤ} (hg : |g| ≤ 2 ^ 31) {s : ℚ} {k : ℤ} (hs : s = k)
    (hk : |k| ≤ 1001001000) (hk' : k < 1001001000) :
    Plain L bigM 1001001000 (Constr.constantRHS op s e.size ((g : ℚ) * multiplier)) :=
  plain_diff (z := -g) e.stop e.start
    (by simp [multiplier, Element.size, Expr.varSub]; ring) (by rwa [abs_neg]) op hs hk (fun _ => hk')

theorem plain_var (L : Var) (u v : Var) (op : RelOp) (h : op ≠ .eq) :
    Plain L bigM 1001001000 (Constr.variableRHS op required (Expr.ofVar u) v) :=
  plain_diff (z := 0) (n := 1001001000) u v (by simp [Expr.ofVar]) abs_zero_le op
    (by norm_num [required]) (by norm_num) (fun h' => absurd h' h)

theorem plain_constraint (n : Nat) (e : Element) (flex : Flex) {k : Constraint} (hk : asksShare k = false)
    (hc : |cellsOf k| ≤ 2 ^ 31) :
    ∀ c ∈ constraintFor (areaElement n) e flex k, Plain (2 * n + 1) bigM 1001001000 c := by
  intro c h
  cases k <;> simp only [asksShare, cellsOf] at hk hc <;>
    simp only [constraintFor, List.mem_cons, List.not_mem_nil, or_false] at h
  · rcases h with rfl | rfl
    · exact plain_int _ e .ge hc (k := 100000000) (by norm_num [minSizeGTE, strong]) (by norm_num) (by norm_num)
    · split_ifs
      · exact plain_int _ e .eq hc (k := 10000) (by norm_num [minSizeEq, medium]) (by norm_num) (by norm_num)
      · exact plain_hasArea n e (k := 1000) (by norm_num [fillGrow, medium]) (by norm_num) (by norm_num)
  · rcases h with rfl | rfl
    · exact plain_int _ e .le hc (k := 100000000) (by norm_num [maxSizeLTE, strong]) (by norm_num) (by norm_num)
    · exact plain_int _ e .eq hc (k := 10000) (by norm_num [maxSizeEq, medium]) (by norm_num) (by norm_num)
  · subst h
    exact plain_int _ e .eq hc (k := 10000000) (by norm_num [lengthSizeEq, strong]) (by norm_num) (by norm_num)
  · cases hk
  · cases hk
  · subst h
    exact plain_hasArea n e (k := 1000) (by norm_num [fillGrow, medium]) (by norm_num) (by norm_num)

theorem interior_one : interior (spacerElements 1) = [] := rfl
theorem interior_zero : interior (spacerElements 0) = [] := rfl

theorem fillPairs_nil {l : Layout} (hl : TwoAtATime l) :
    fillPairs (segmentElements l.constraints.length) l.constraints l.flex = [] := by
  unfold fillPairs
  refine if_pos ?_
  rcases hl.mode with ⟨h1, h2⟩ | ⟨h1, -⟩
  · have hw : ∀ c ∈ l.constraints, wantsAll c = isFill c := by
      intro c hc
      have := hl.noShare c hc
      cases c <;> simp_all [wantsAll, isFill, asksShare]
    rw [validFill_length l h1, List.filter_congr hw]
    omega
  · unfold validFill
    have := List.length_filterMap_le (fun p : Constraint × Element => (scalingFactor l.flex p.1).map fun k => (p.2, k))
      (l.constraints.zip (segmentElements l.constraints.length))
    rw [List.length_zip] at this
    omega

theorem neighbour_nil {l : Layout} (hl : TwoAtATime l) :
    neighbourConstraints (segmentElements l.constraints.length) l.flex = [] := by
  unfold neighbourConstraints
  simp only
  rcases hl.mode with ⟨h1, -⟩ | ⟨h1, -⟩
  · simp [h1]
  · split_ifs
    · have : (segmentElements l.constraints.length).tail = [] := by
        interval_cases hlen : l.constraints.length <;> rfl
      rw [this]; simp
    · rfl

theorem plain_flexList {l : Layout} (hl : TwoAtATime l) (hgap : |gapOf l.spacing| ≤ 2 ^ 31) :
    ∀ c ∈ flexList (areaElement l.constraints.length) (spacerElements l.constraints.length) l.flex
      (Spacing.value l.spacing), Plain (2 * l.constraints.length + 1) bigM 1001001000 c := by
  rw [← gapOf_eq]
  intro c hc
  rcases hl.mode with ⟨h1, -⟩ | ⟨h1, h2⟩
  · rw [h1] at hc
    simp only [flexList, fixedSpacing, List.mem_append, List.mem_map] at hc
    rcases hc with ⟨e, -, rfl⟩ | hc
    · exact plain_fixed _ e hgap
    · obtain ⟨e, -, e', -, hc⟩ := mem_endsOf hc
      simp only [List.mem_cons, List.not_mem_nil, or_false] at hc
      rcases hc with rfl | rfl <;> exact plain_isEmpty _ _
  · have hi : interior (spacerElements l.constraints.length) = [] := by
      interval_cases hlen : l.constraints.length <;> rfl
    have hg : ∀ e : Element, Plain (2 * l.constraints.length + 1) bigM 1001001000
        (e.hasSize (areaElement l.constraints.length).size grow) := fun e =>
      plain_hasArea _ e (k := 100) (by norm_num [grow]) (by norm_num) (by norm_num)
    have hp : interiorPairs (spacerElements l.constraints.length) = [] := by
      unfold interiorPairs; rw [hi]; rfl
    cases hf : l.flex <;> rw [hf] at hc h2 <;>
      simp only [flexList, fixedSpacing, hi, hp, List.map_nil, List.flatMap_nil, List.nil_append,
        List.append_nil, List.not_mem_nil] at hc
    · obtain ⟨e, -, e', -, hc⟩ := mem_endsOf hc
      simp only [List.mem_cons, List.not_mem_nil, or_false] at hc
      rcases hc with rfl | rfl <;> exact plain_isEmpty _ _
    · obtain ⟨e, -, e', -, hc⟩ := mem_endsOf hc
      simp only [List.mem_cons, List.not_mem_nil, or_false] at hc
      rcases hc with rfl | rfl
      · exact plain_isEmpty _ _
      · exact hg _
    · obtain ⟨e, -, e', -, hc⟩ := mem_endsOf hc
      simp only [List.mem_cons, List.not_mem_nil, or_false] at hc
      rcases hc with rfl | rfl
      · exact plain_isEmpty _ _
      · exact hg _
    · exact absurd rfl h2
    · obtain ⟨e, -, e', -, hc⟩ := mem_endsOf hc
      simp only [List.mem_cons, List.not_mem_nil, or_false] at hc
      rcases hc with rfl | rfl <;> exact plain_isEmpty _ _

theorem softList_two {l : Layout} (hl : TwoAtATime l) : softList l =
    flexList (areaElement l.constraints.length) (spacerElements l.constraints.length) l.flex
      (Spacing.value l.spacing) ++
    sizeConstraints (areaElement l.constraints.length) (segmentElements l.constraints.length) l.constraints
      l.flex := by
  unfold softList
  simp only
  rw [fillPairs_nil hl, neighbour_nil hl]
  simp

theorem plain_softList {l : Layout} (hl : TwoAtATime l) (hgap : |gapOf l.spacing| ≤ 2 ^ 31)
    (hs : ∀ c ∈ l.constraints, |cellsOf c| ≤ 2 ^ 31) :
    ∀ c ∈ softList l, Plain (2 * l.constraints.length + 1) bigM 1001001000 c := by
  rw [softList_two hl]
  intro c hc
  rcases List.mem_append.1 hc with hc | hc
  · exact plain_flexList hl hgap c hc
  · unfold sizeConstraints at hc
    obtain ⟨⟨k, e⟩, hp, hc⟩ := List.mem_flatMap.1 hc
    have hk := (List.of_mem_zip hp).1
    exact plain_constraint _ e l.flex (hl.noShare k hk) (hs k hk) c hc

/-- How often the size of the area is used. -/
def areaUses (cs : List Constr) : ℤ := (cs.map usesArea).sum

theorem areaUses_append (cs ds : List Constr) : areaUses (cs ++ ds) = areaUses cs + areaUses ds := by
  simp [areaUses]

theorem areaUses_zero {cs : List Constr} (h : ∀ c ∈ cs, usesArea c = 0) : areaUses cs = 0 := by
  unfold areaUses
  apply List.sum_eq_zero
  intro x hx
  obtain ⟨c, hc, rfl⟩ := List.mem_map.1 hx
  exact h c hc

theorem areaUses_short {cs : List Constr} (h : ∀ c ∈ cs, c.expr.terms.length ≤ 2) : areaUses cs = 0 := by
  apply areaUses_zero
  intro c hc
  have := h c hc
  unfold usesArea
  rw [if_neg (by omega)]

theorem le_one_of {x : ℤ} (h : x = 0 ∨ x = 1) : x ≤ 1 := by omega

theorem areaUses_constraint_legacy (a e : Element) (k : Constraint) (hk : asksShare k = false) :
    areaUses (constraintFor a e .legacy k) = if isFill k then 1 else 0 := by
  cases k <;> first | rfl | cases hk

theorem areaUses_constraint_le (a e : Element) (flex : Flex) (k : Constraint) (hk : asksShare k = false) :
    areaUses (constraintFor a e flex k) ≤ 1 := by
  cases k
  case min n => cases flex <;> first | exact le_one_of (Or.inl rfl) | exact le_one_of (Or.inr rfl)
  case max n => exact le_one_of (Or.inl rfl)
  case len n => exact le_one_of (Or.inl rfl)
  case percentage n => cases hk
  case ratio n m => cases hk
  case fill n => exact le_of_eq rfl

theorem areaUses_sizes (a : Element) (cs : List Constraint) (h : ∀ c ∈ cs, asksShare c = false) :
    ∀ es : List Element, areaUses (sizeConstraints a es cs .legacy) ≤ (cs.filter isFill).length := by
  induction cs with
  | nil => intro es; simp [sizeConstraints, areaUses]
  | cons c cs ih =>
    intro es
    cases es with
    | nil => simp [sizeConstraints, areaUses]
    | cons e es =>
      have h1 := ih (fun c hc => h c (List.mem_cons_of_mem _ hc)) es
      have h2 := areaUses_constraint_legacy a e c (h c List.mem_cons_self)
      have h3 : sizeConstraints a (e :: es) (c :: cs) .legacy
        = constraintFor a e .legacy c ++ sizeConstraints a es cs .legacy := by simp [sizeConstraints]
      rw [h3, areaUses_append, h2]
      by_cases hc : isFill c
      · rw [if_pos hc, List.filter_cons_of_pos hc, List.length_cons]; push_cast; linarith
      · rw [if_neg hc, List.filter_cons_of_neg hc]; linarith

theorem areaUses_soft {l : Layout} (hl : TwoAtATime l) : areaUses (softList l) ≤ 2 := by
  rw [softList_two hl, areaUses_append]
  rcases hl.mode with ⟨h1, h2⟩ | ⟨h1, h2⟩
  · have hs := areaUses_sizes (areaElement l.constraints.length) l.constraints hl.noShare
      (segmentElements l.constraints.length)
    rw [h1]
    have hf : areaUses (flexList (areaElement l.constraints.length) (spacerElements l.constraints.length)
        .legacy (Spacing.value l.spacing)) = 0 := by
      apply areaUses_short
      intro c hc
      simp only [flexList, fixedSpacing, List.mem_append, List.mem_map] at hc
      rcases hc with ⟨e, -, rfl⟩ | hc
      · exact le_of_eq rfl
      · obtain ⟨e, -, e', -, hc⟩ := mem_endsOf hc
        simp only [List.mem_cons, List.not_mem_nil, or_false] at hc
        rcases hc with rfl | rfl <;> exact le_of_eq rfl
    rw [hf]
    have : ((l.constraints.filter isFill).length : ℤ) ≤ 1 := by exact_mod_cast h2
    linarith
  · have hone : ∀ g : ℤ, areaUses (flexList (areaElement 1) (spacerElements 1) l.flex g) ≤ 1 := by
      intro g
      cases hf : l.flex <;> rw [hf] at h2
      all_goals first | (exact absurd rfl h2) | (first | exact le_one_of (Or.inl rfl) | exact le_one_of (Or.inr rfl))
    have hzero : ∀ g : ℤ, areaUses (flexList (areaElement 0) (spacerElements 0) l.flex g) ≤ 1 := by
      intro g
      cases l.flex
      all_goals exact le_one_of (Or.inl rfl)
    match hc : l.constraints with
    | [] =>
      have := hzero (Spacing.value l.spacing)
      simp only [List.length_nil] at this ⊢
      have h3 : areaUses (sizeConstraints (areaElement 0) (segmentElements 0) [] l.flex) = 0 := rfl
      linarith
    | [k] =>
      have := hone (Spacing.value l.spacing)
      simp only [List.length_cons, List.length_nil, Nat.zero_add] at this ⊢
      have h3 := areaUses_constraint_le (areaElement 1) ⟨1, 2⟩ l.flex k (hl.noShare k (by rw [hc]; simp))
      have h4 : sizeConstraints (areaElement 1) (segmentElements 1) [k] l.flex
          = constraintFor (areaElement 1) ⟨1, 2⟩ l.flex k := by
        simp [sizeConstraints, segmentElements, layoutVars, newElements, List.range, List.range.loop]
      rw [h4]
      linarith
    | a :: b :: t =>
      rw [hc] at h1
      simp only [List.length_cons] at h1
      omega

/-- The required constraints but the first two. -/
def hardRest (n : Nat) : List Constr :=
  variableInAreaConstraints (layoutVars n) (areaElement n) ++ variableConstraints (layoutVars n)

theorem hardList_anchors (l : Layout) (inner : Rect) : hardList l inner =
    anchor 0 (100 * (l.areaBounds inner).1) ::
    anchor (2 * l.constraints.length + 1) (100 * (l.areaBounds inner).2) :: hardRest l.constraints.length := by
  have h : ∀ (v : Var) (x : ℤ), Constr.constantRHS .eq required (Expr.ofVar v) ((x : ℚ) * multiplier)
      = anchor v (100 * x) := by
    intro v x
    unfold Constr.constantRHS anchor Expr.ofVar Expr.subConstant multiplier
    simp only [Constr.mk.injEq, Expr.mk.injEq, true_and, and_true]
    push_cast
    ring
  unfold hardList hardRest
  simp only [areaConstraints, h, areaElement, List.cons_append, List.nil_append]

theorem plain_hardRest (n : Nat) : ∀ c ∈ hardRest n, Plain (2 * n + 1) bigM 1001001000 c ∧
    c.expr.terms.length ≤ 2 := by
  intro c hc
  simp only [hardRest, List.mem_append, variableInAreaConstraints, variableConstraints,
    List.mem_flatMap, List.mem_map, List.mem_cons, List.not_mem_nil, or_false] at hc
  rcases hc with ⟨v, -, rfl | rfl⟩ | ⟨e, -, rfl⟩
  · exact ⟨plain_var _ _ _ _ (by simp), le_of_eq rfl⟩
  · exact ⟨plain_var _ _ _ _ (by simp), le_of_eq rfl⟩
  · exact ⟨plain_var _ _ _ _ (by simp), le_of_eq rfl⟩

theorem plain_round {rnd : ℚ → ℚ} (hR : Exact rnd (2 ^ 53)) {L : Var} {c : Constr}
    (h : Plain L bigM 1001001000 c) : roundConstr rnd c = c := by
  refine roundConstr_eq hR (by norm_num) ?_ ?_ ?_
  · rcases h.shape with ⟨u, v, h⟩ | ⟨u, v, h⟩ <;> rw [h] <;> simp
  · obtain ⟨z, h1, h2⟩ := h.const
    exact ⟨100 * z, h1, le_trans h2 (by norm_num [bigM])⟩
  · obtain ⟨n, h1, h2⟩ := h.strength
    exact ⟨n, h1, le_trans h2 (by norm_num)⟩

theorem anchor_round {rnd : ℚ → ℚ} (hR : Exact rnd (2 ^ 53)) (v : Var) {a : ℤ} (ha : |a| ≤ bigM) :
    roundConstr rnd (anchor v a) = anchor v a := by
  refine roundConstr_eq hR (by norm_num) (by simp [anchor]) ?_ ?_
  · exact ⟨-a, by simp [anchor], by rw [abs_neg]; exact le_trans ha (by norm_num [bigM])⟩
  · exact ⟨1001001000, by norm_num [anchor, required], by norm_num⟩

/-- **Rounding has no effect on a split.** -/
theorem split_round {rnd : ℚ → ℚ} (hR : KeepsIntegers rnd (2 ^ 53)) (ω : Nat → Nat) (fuel : Nat) {l : Layout}
    {area : Rect} (hfew : Few l) (hl : TwoAtATime l) (hf : Fits32 l area) :
    splitWithSpacers rnd ω fuel l area = Layout.splitWithSpacers ω fuel l area := by
  have hR' : Exact rnd (2 ^ 53) := hR
  unfold splitWithSpacers Layout.splitWithSpacers
  simp only [solverConstraints_eq]
  have hstart := hf.start
  have hstop := hf.stop
  have hbounds := areaBounds_eq l (area.inner l.padding)
  generalize area.inner l.padding = inner at *
  have hbud := budget_few hfew inner
  rw [hardList_anchors] at *
  rw [hbounds] at *
  simp only at *
  generalize hrest : hardRest l.constraints.length ++ softList l = rest
  have hPlain : ∀ c ∈ rest, Plain (2 * l.constraints.length + 1) bigM 1001001000 c := by
    intro c hc
    rw [← hrest] at hc
    rcases List.mem_append.1 hc with hc | hc
    · exact (plain_hardRest _ c hc).1
    · exact plain_softList hl hf.gap hf.sizes c hc
  have hvars : ∀ c ∈ rest, ∀ v k, (v, k) ∈ c.expr.terms → v < 2 * l.constraints.length + 2 := by
    intro c hc
    rw [← hrest] at hc
    rcases List.mem_append.1 hc with hc | hc
    · refine hard_below l inner c ?_
      rw [hardList_anchors]
      exact List.mem_cons_of_mem _ (List.mem_cons_of_mem _ hc)
    · exact (soft_softList l c hc).below
  have hlen : 2 + (rest.length : ℤ) ≤ 128 := by
    have h1 := hardList_length l inner
    rw [hardList_anchors] at h1
    have h2 := softList_length_le l
    unfold Few at hfew
    rw [← hrest, List.length_append]
    simp only [List.length_cons] at h1
    push_cast
    omega
  have huses : (rest.map usesArea).sum ≤ 2 := by
    have h1 := areaUses_soft hl
    have h2 := areaUses_short fun c hc => (plain_hardRest l.constraints.length c hc).2
    have h3 := areaUses_append (hardRest l.constraints.length) (softList l)
    rw [hrest, h2, zero_add] at h3
    have h4 : areaUses rest = (rest.map usesArea).sum := rfl
    linarith
  have ha : |100 * lo l.direction inner| ≤ bigM := by
    rw [abs_mul]; unfold bigM
    have : |(100 : ℤ)| = 100 := rfl
    rw [this]; linarith
  have hb : |100 * (lo l.direction inner + extent l.direction inner)| ≤ bigM := by
    rw [abs_mul]; unfold bigM
    have : |(100 : ℤ)| = 100 := rfl
    rw [this]; linarith
  have hcs : anchor 0 (100 * lo l.direction inner) ::
      anchor (2 * l.constraints.length + 1) (100 * (lo l.direction inner + extent l.direction inner)) ::
      hardRest l.constraints.length ++ softList l
    = anchor 0 (100 * lo l.direction inner) ::
      anchor (2 * l.constraints.length + 1) (100 * (lo l.direction inner + extent l.direction inner)) :: rest := by
    rw [← hrest]; rfl
  rw [hcs] at hbud ⊢
  have hround : (anchor 0 (100 * lo l.direction inner) ::
      anchor (2 * l.constraints.length + 1) (100 * (lo l.direction inner + extent l.direction inner)) ::
        rest).map (roundConstr rnd) = anchor 0 (100 * lo l.direction inner) ::
      anchor (2 * l.constraints.length + 1) (100 * (lo l.direction inner + extent l.direction inner)) :: rest := by
    rw [List.map_cons, List.map_cons, anchor_round hR' _ ha, anchor_round hR' _ hb]
    congr 2
    conv_rhs => rw [← List.map_id rest]
    exact List.map_congr_left fun c hc => plain_round hR' (hPlain c hc)
  rw [hround]
  obtain ⟨hnear, hok⟩ := layout_near (B := 2 ^ 53) (K := 4) (D := 128 * (3 * bigM)) (W := 128 * (2 * 1001001000) * 4)
    (M := bigM) (R := 1001001000) (N := 128) (F := 2) (m := 2 * l.constraints.length + 2)
    (L := 2 * l.constraints.length + 1) hR' (by constructor <;> norm_num [bigM]) (by norm_num) (by norm_num)
    le_rfl le_rfl (by norm_num) le_rfl (by norm_num) (by norm_num [bigM]) ha hb (dvd_mul_right _ _)
    (dvd_mul_right _ _) (Nat.succ_ne_zero _) (Nat.lt_succ_self _) ω fuel rest hPlain hvars hlen huses
    (by rw [pot_new]; exact hbud)
  cases hq : Solver.new.addConstraints ω fuel (anchor 0 (100 * lo l.direction inner) ::
      anchor (2 * l.constraints.length + 1) (100 * (lo l.direction inner + extent l.direction inner)) :: rest) with
  | error e =>
    rw [hq] at hnear
    generalize addConstraints rnd ω fuel Solver.new _ = p at hnear ⊢
    cases p with
    | ok _ => exact absurd hnear (by simp [Near])
    | error e' =>
      simp only [Near] at hnear
      rw [hnear]
      cases e <;> rfl
  | ok S =>
    obtain ⟨hS, H, E, w, i, f, hi, -, hRun⟩ := hok S hq
    rw [hq] at hnear
    generalize addConstraints rnd ω fuel Solver.new _ = p at hnear ⊢
    cases p with
    | error _ => exact absurd hnear (by simp [Near])
    | ok T =>
      obtain ⟨k, rfl⟩ := hnear
      simp only [fetch_setCost]
      have hfetch := C20_fetch_reports_values hq hS
      have hc := changesMap_eq hfetch.1 hfetch.2
      rw [hc]
      have hvals : ∀ v, ∃ z : ℤ, S.getValue v = 100 * z ∧ |z| ≤ 2 ^ 53 := by
        intro v
        obtain ⟨z, h1, h2⟩ := run_values hRun v
        refine ⟨z, h1, ?_⟩
        have h3 : i * (3 * bigM) ≤ 128 * (3 * bigM) := mul_le_mul_of_nonneg_right hi (by norm_num [bigM])
        exact le_trans (le_trans h2 h3) (by norm_num [bigM])
      have he : elementRect rnd S.getValue inner l.direction
          = Layout.elementRect S.getValue inner l.direction :=
        funext fun e => elementRect_eq hR' hvals inner l.direction e
      rw [he]
      rfl

end Bento.Casso.Fl
