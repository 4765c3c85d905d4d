import Verif.Lemmas.QuickOk
import Verif.Lemmas.FastLoop

/-!
# Runs in which the symbol counter wraps around

The solver's counter of symbols is a `uint8`.  Once all variables of a layout have their symbols, the
bookkeeping of changed variables stays right even when later symbols collide; so the rectangles of a
layout can be computed from the values of the solver also for layouts that use more than 255 symbols.
-/

namespace Bento.Casso
open Solver

/-- Nothing happened to the variables on the way from `A` to `S`. -/
structure Book (A S : Solver) : Prop where
  sym : S.varSym = A.varSym
  back : S.varForSymbol = A.varForSymbol
  last : S.varLast = A.varLast
  pub : S.publicChanges = A.publicChanges
  tick : A.idTick ≤ S.idTick
  chg : Chg S

namespace Book

variable {A S : Solver}

theorem vars (h : Book A S) (hV : Vars A) : Vars S where
  type := by rw [h.sym]; exact hV.type
  back := by rw [h.sym, h.back]; exact hV.back
  lt := by
    rw [h.sym]
    intro v s hv
    exact lt_of_lt_of_le (hV.lt v s hv) h.tick

theorem pivotIn (h : Book A S) (hV : Vars A) (s : Sym) (row : Row) : Book A (S.pivotIn s row) where
  sym := by rw [pivotIn_varSym]; exact h.sym
  back := by rw [pivotIn_varForSymbol]; exact h.back
  last := by rw [pivotIn_varLast]; exact h.last
  pub := by rw [pivotIn_publicChanges]; exact h.pub
  tick := by rw [pivotIn_idTick]; exact h.tick
  chg := chg_pivotIn (h.vars hV) h.chg

theorem optimize {ω : Nat → Nat} {sel : Solver → Row} (hV : Vars A) : ∀ (fuel : Nat) {S T : Solver},
    Book A S → Solver.optimize ω sel fuel S = .ok T → Book A T := by
  intro fuel
  induction fuel with
  | zero => intro S T _ h; cases h
  | succ fuel ih =>
    intro S T hS h
    simp only [Solver.optimize] at h
    split at h
    · cases h; exact hS
    · split at h
      · cases h
      · split at h
        · cases h
        · rename_i e _ l _ _ row hrow
          refine ih (Book.pivotIn ?_ hV _ _) h
          exact ⟨hS.sym, hS.back, hS.last, hS.pub, hS.tick, chg_dropRow hS.chg l (S.clock + 2)⟩

/-- Rows of variables keep their constants when another row comes or goes. -/
theorem of_rows {T : Solver} (h : Book A S) (hV : Vars A) (h1 : T.varSym = S.varSym) (h2 : T.varForSymbol = S.varForSymbol)
    (h3 : T.varLast = S.varLast) (h4 : T.publicChanges = S.publicChanges) (h5 : S.idTick ≤ T.idTick)
    (h6 : T.shouldClearChanges = S.shouldClearChanges) (h7 : T.changed = S.changed)
    (hr : ∀ s r, s.type = .external → T.rows s = some r → ∃ r', S.rows s = some r' ∧ r'.constant = r.constant) :
    Book A T where
  sym := h1.trans h.sym
  back := h2.trans h.back
  last := h3.trans h.last
  pub := h4.trans h.pub
  tick := le_trans h.tick h5
  chg := by
    refine ⟨h6.trans h.chg.noClear, ?_⟩
    intro v s r hv hs h0
    rw [h1] at hv
    obtain ⟨r', e1, e2⟩ := hr s r ((h.vars hV).type v s hv) hs
    rw [h7]
    exact h.chg.mem v s r' hv e1 (by rwa [e2])

theorem removeSymbol (h : Book A S) (hV : Vars A) (a : Sym) : Book A (S.removeSymbol a) := by
  refine h.of_rows hV rfl rfl rfl rfl le_rfl rfl rfl ?_
  intro s r _ hs
  simp only [Solver.removeSymbol, Option.map_eq_some_iff] at hs
  obtain ⟨r', e1, rfl⟩ := hs
  exact ⟨r', e1, rfl⟩

theorem finishArtificial (h : Book A S) (hV : Vars A) (ω : Nat → Nat) (a : Sym) (ha : a.type ≠ .external) :
    Book A (Solver.finishArtificial ω a S).1 := by
  have h1 : Book A { S with artificial := none } :=
    h.of_rows hV rfl rfl rfl rfl le_rfl rfl rfl fun s r _ hs => ⟨r, hs, rfl⟩
  unfold Solver.finishArtificial
  simp only
  split
  · have h2 : Book A { S with artificial := none, rows := fun b => if b = a then none else S.rows b } := by
      refine h.of_rows hV rfl rfl rfl rfl le_rfl rfl rfl fun s r ht hs => ?_
      have : s ≠ a := by rintro rfl; exact ha ht
      exact ⟨r, by simpa [this] using hs, rfl⟩
    split
    · exact h2
    · split
      · exact h2
      · refine Book.removeSymbol (Book.pivotIn ?_ hV _ _) hV _
        exact h2.of_rows hV rfl rfl rfl rfl le_rfl rfl rfl fun s r _ hs => ⟨r, hs, rfl⟩
  · exact h1.removeSymbol hV a

theorem addTerms (ts : List (Var × ℚ)) : ∀ (S : Solver) (row : Row),
    (∀ v k, (v, k) ∈ ts → (S.varSym v).isSome) → (S.addTerms row ts).1 = S := by
  induction ts with
  | nil => intro S row _; rfl
  | cons t ts ih =>
    obtain ⟨v, k⟩ := t
    intro S row h
    have ht : ∀ u q, (u, q) ∈ ts → (S.varSym u).isSome := fun u q hq => h u q (List.mem_cons_of_mem _ hq)
    simp only [Solver.addTerms]
    split
    · exact ih _ _ ht
    · obtain ⟨s, hs⟩ := Option.isSome_iff_exists.1 (h v k List.mem_cons_self)
      have : S.getVarSymbol v = (S, s) := by simp [getVarSymbol, hs]
      rw [this]
      simp only
      split <;> exact ih _ _ ht

theorem addMarkers (h : Book A S) (hV : Vars A) (row : Row) (c : Constr) : Book A (S.addMarkers row c).1 := by
  unfold Solver.addMarkers
  simp only
  split
  · split
    · exact h.of_rows hV rfl rfl rfl rfl (Nat.le_add_right _ _) rfl rfl fun s r _ hs => ⟨r, hs, rfl⟩
    · exact h.of_rows hV rfl rfl rfl rfl (Nat.le_add_right _ _) rfl rfl fun s r _ hs => ⟨r, hs, rfl⟩
  · split
    · exact h.of_rows hV rfl rfl rfl rfl (Nat.le_add_right _ _) rfl rfl fun s r _ hs => ⟨r, hs, rfl⟩
    · exact h.of_rows hV rfl rfl rfl rfl (Nat.le_add_right _ _) rfl rfl fun s r _ hs => ⟨r, hs, rfl⟩
  · split
    · exact h.of_rows hV rfl rfl rfl rfl (Nat.le_add_right _ _) rfl rfl fun s r _ hs => ⟨r, hs, rfl⟩
    · exact h.of_rows hV rfl rfl rfl rfl (Nat.le_add_right _ _) rfl rfl fun s r _ hs => ⟨r, hs, rfl⟩

theorem createRow (h : Book A S) (hV : Vars A) (c : Constr)
    (hc : ∀ v k, (v, k) ∈ c.expr.terms → (A.varSym v).isSome) : Book A (S.createRow c).1 := by
  have e := addTerms c.expr.terms S (Row.new c.expr.constant) (by rw [h.sym]; exact hc)
  unfold Solver.createRow
  have : Book A (S.addTerms (Row.new c.expr.constant) c.expr.terms).1 := by rw [e]; exact h
  exact this.addMarkers hV _ c

theorem symbolAt_type (n : Nat) (t : SymType) : (symbolAt n t).type = t := rfl

theorem insertConstraint {ω : Nat → Nat} {fuel : Nat} {T : Solver} (h : Book A S) (hV : Vars A) (c : Constr)
    (hc : ∀ v k, (v, k) ∈ c.expr.terms → (A.varSym v).isSome) (hT : S.insertConstraint ω fuel c = .ok T) :
    Book A T := by
  have h0 := h.createRow hV c hc
  have h1 : Book A { (S.createRow c).1 with clock := (S.createRow c).1.clock + 1 } :=
    h0.of_rows hV rfl rfl rfl rfl le_rfl rfl rfl fun s r _ hs => ⟨r, hs, rfl⟩
  unfold Solver.insertConstraint at hT
  simp only at hT
  split at hT
  · cases hT; exact h1.pivotIn hV _ _
  · split at hT
    · split at hT
      · cases hT
      · cases hT; exact h1.pivotIn hV _ _
    · split at hT
      · cases hT
      · rename_i S3 hS3
        cases hT
        unfold addWithArtificialVariable at hS3
        simp only at hS3
        split at hS3
        · cases hS3
        · rename_i S4 hS4
          have ha : (symbolAt (S.createRow c).1.idTick .slack).type ≠ .external := by
            rw [symbolAt_type]; decide
          have h4 := Book.optimize hV fuel ?_ hS4
          rotate_left
          · refine h1.of_rows hV rfl rfl rfl rfl (Nat.le_add_right _ 1) rfl rfl ?_
            intro s r ht hs
            have : s ≠ symbolAt (S.createRow c).1.idTick .slack := by rintro rfl; exact ha ht
            exact ⟨r, by simpa [this] using hs, rfl⟩
          have h5 := h4.finishArtificial hV ω _ ha
          rw [Except.ok.injEq] at hS3
          rw [hS3] at h5
          exact h5
      · cases hT

theorem addConstraints {ω : Nat → Nat} {fuel : Nat} (hV : Vars A) (cs : List Constr) : ∀ {S T : Solver}, Book A S →
    (∀ c ∈ cs, ∀ v k, (v, k) ∈ c.expr.terms → (A.varSym v).isSome) →
      S.addConstraints ω fuel cs = .ok T → Book A T := by
  induction cs with
  | nil => intro S T h _ hT; cases hT; exact h
  | cons c cs ih =>
    intro S T h hc hT
    simp only [Solver.addConstraints] at hT
    split at hT
    · cases hT
    · rename_i S1 hS1
      refine ih ?_ (fun d hd => hc d (List.mem_cons_of_mem _ hd)) hT
      unfold addConstraint at hS1
      split at hS1
      · cases hS1
      · rename_i S2 hS2
        exact Book.optimize hV fuel (h.insertConstraint hV c (hc c List.mem_cons_self) hS2) hS1

end Book

theorem addConstraints_append_ok {ω : Nat → Nat} {fuel : Nat} {T : Solver} (as bs : List Constr) : ∀ {S R : Solver},
    S.addConstraints ω fuel as = .ok R → R.addConstraints ω fuel bs = .ok T →
      S.addConstraints ω fuel (as ++ bs) = .ok T := by
  induction as with
  | nil => intro S R h1 h2; cases h1; exact h2
  | cons c cs ih =>
    intro S R h1 h2
    simp only [Solver.addConstraints, List.cons_append] at h1 ⊢
    split at h1
    · cases h1
    · exact ih h1 h2

/-- Values are reported as long as the bookkeeping is right. -/
theorem fetch_values {S : Solver} (hC : Chg S) (hl : S.varLast = Solver.new.varLast)
    (hp : S.publicChanges = Solver.new.publicChanges) :
    (∀ v q, (v, q) ∈ S.fetchChanges.2 → q = S.getValue v) ∧
    (∀ v, (∀ q, (v, q) ∉ S.fetchChanges.2) → S.getValue v = 0) := by
  have hval : ∀ (vs : List Var) (S : Solver) v q, (v, q) ∈ S.collectChanges vs → q = S.getValue v := by
    intro vs
    induction vs with
    | nil => intro S v q h; simp [collectChanges] at h
    | cons u us ih =>
      intro S v q h
      unfold collectChanges at h
      split_ifs at h
      · rcases List.mem_cons.1 h with h | h
        · cases h; rfl
        · exact ih _ _ _ h
      · exact ih _ _ _ h
  have hmem : ∀ (vs : List Var) (S : Solver) v, v ∈ vs → S.varSym v ≠ none → S.varLast v = none →
      (v, S.getValue v) ∈ S.collectChanges vs := by
    intro vs
    induction vs with
    | nil => intro S v h; simp at h
    | cons u us ih =>
      intro S v h h1 h2
      unfold collectChanges
      rcases List.mem_cons.1 h with rfl | h
      · rw [if_pos ⟨h1, by simp [h2]⟩]; exact List.mem_cons_self
      · split_ifs
        · exact List.mem_cons_of_mem _ (ih _ _ h h1 h2)
        · exact ih _ _ h h1 h2
  simp only [fetchChanges, hC.noClear, hp, Solver.new]
  simp only [Bool.false_eq_true, if_false, List.map_nil, List.nil_append]
  refine ⟨fun v q h => by have := hval _ _ v q h; exact this, ?_⟩
  intro v hv
  by_contra h0
  unfold getValue at h0
  cases hs : S.varSym v with
  | none => simp [hs] at h0
  | some s =>
    cases hr : S.rows s with
    | none => simp [hs, hr] at h0
    | some r =>
      simp only [hs, hr] at h0
      exact hv _ (hmem _ { S with shouldClearChanges := true, publicChanges := [] } v (hC.mem v s r hs hr h0)
        (by simp [hs]) (by simp only [hl]; rfl))

end Bento.Casso

namespace Bento.Layout
open Casso

/-- Run a layout on the solver for the kernel.  After the first `m` constraints the counter must not
have wrapped around, and all variables must have their symbols. -/
noncomputable def quickTest (ω : Nat → Nat) (fuel : Nat) (l : Layout) (area : Rect) (m : Nat) (k : Quick.QS → Bool) :
    Bool :=
  Quick.addConstraints ω fuel ((hardList l (area.inner l.padding) ++ softList l).take m) Quick.new 0 fun F i =>
    cond (Nat.ble F.tick 256)
      (cond ((List.range (2 * l.constraints.length + 2)).all fun v => (Quick.find v F.vars).isSome)
        (Quick.addConstraints ω fuel ((hardList l (area.inner l.padding) ++ softList l).drop m) F i fun F _ => k F)
        false) false

theorem split_quick {ω : Nat → Nat} {fuel : Nat} {l : Layout} {area : Rect} {m : Nat} {k : Quick.QS → Bool}
    (h : quickTest ω fuel l area m k = true) :
    ∃ F : Quick.QS, k F = true ∧ splitWithSpacers ω fuel l area =
      .ok (changesToRects (fun v => (Quick.getValue F v).toQ) (segmentElements l.constraints.length)
            (area.inner l.padding) l.direction)
          (changesToRects (fun v => (Quick.getValue F v).toQ) (spacerElements l.constraints.length)
            (area.inner l.padding) l.direction) := by
  unfold quickTest at h
  set cs := hardList l (area.inner l.padding) ++ softList l with hcs
  obtain ⟨F1, i1, w1, a1, k1⟩ := Quick.gives_addConstraints ω fuel _ _ 0 Quick.ws_new _ h
  rw [Quick.abs_new] at a1
  cases ht : Nat.ble F1.tick 256 with
  | false => rw [ht] at k1; simp at k1
  | true =>
    rw [ht] at k1
    have ht' : F1.tick ≤ 256 := Nat.le_of_ble_eq_true ht
    simp only [cond_true] at k1
    generalize hv : (List.range (2 * l.constraints.length + 2)).all (fun v => (Quick.find v F1.vars).isSome) = b at k1
    cases b with
    | false => simp at k1
    | true =>
      simp only [cond_true] at k1
      obtain ⟨F2, i2, w2, a2, k2⟩ := Quick.gives_addConstraints ω fuel _ _ i1 w1 _ k1
      refine ⟨F2, k2, ?_⟩
      have r1 := Fast.Rel.addConstraints ω fuel (cs.take m) _ _ _ Fast.Rel.new
      rw [a1] at r1
      cases hS1 : Solver.new.addConstraints ω fuel (cs.take m) with
      | error e => rw [hS1] at r1; exact r1.elim
      | ok S1 =>
        rw [hS1] at r1
        have R1 : Fast.Rel (Quick.absF F1) i1 S1 := r1
        have r2 := Fast.Rel.addConstraints ω fuel (cs.drop m) _ _ _ R1
        rw [a2] at r2
        cases hS2 : S1.addConstraints ω fuel (cs.drop m) with
        | error e => rw [hS2] at r2; exact r2.elim
        | ok S2 =>
          rw [hS2] at r2
          have R2 : Fast.Rel (Quick.absF F2) i2 S2 := r2
          have hn : S1.idTick ≤ 256 := by rw [R1.tick]; exact ht'
          obtain ⟨H, hI, _, hl, hp⟩ := addConstraints_inv _ inv_new hS1 hn
          have hsome : ∀ v : Nat, v < 2 * l.constraints.length + 2 → (S1.varSym v).isSome := by
            intro v hlt
            have h1 := List.all_eq_true.1 hv v (List.mem_range.2 hlt)
            rw [Quick.find_eq] at h1
            have h2 := R1.vars v
            have h3 : (Fast.find (Quick.absF F1).vars v).isSome := h1
            rw [← h2] at h3
            simpa using h3
          have hV : Vars S1 := hI.good.vars
          have hB : Book S1 S2 := Book.addConstraints hV (cs.drop m)
            ⟨rfl, rfl, rfl, rfl, le_rfl, hI.good.chg⟩
            (fun c hc v k hk => hsome v (by
              rcases List.mem_append.1 (List.mem_of_mem_drop hc) with hc | hc
              · exact hard_below l _ c hc v k hk
              · exact (soft_softList l c hc).below v k hk)) hS2
          have hfetch := fetch_values hB.chg (hB.last.trans hl) (hB.pub.trans hp)
          have hc := changesMap_eq hfetch.1 hfetch.2
          unfold splitWithSpacers
          simp only [solverConstraints_eq]
          have happ : Solver.new.addConstraints ω fuel cs = .ok S2 := by
            rw [← List.take_append_drop m cs]
            exact addConstraints_append_ok _ _ hS1 hS2
          rw [happ]
          simp only [hc]
          have : S2.getValue = fun v => (Quick.getValue F2 v).toQ := by
            funext v
            rw [R2.getValue v, Quick.abs_getValue]
          rw [this]

/-- The values of all variables of a layout are the given whole numbers. -/
noncomputable def valuesAre (vals : List Int) (n : Nat) (F : Quick.QS) : Bool :=
  (List.range (2 * n + 2)).all fun v =>
    decide ((Quick.getValue F v).num = vals.getD v 0) && decide ((Quick.getValue F v).den = 0)

theorem split_values_quick {ω : Nat → Nat} {fuel : Nat} {l : Layout} {area : Rect} {m : Nat} {vals : List Int}
    (h : quickTest ω fuel l area m (valuesAre vals l.constraints.length) = true) :
    splitWithSpacers ω fuel l area =
      .ok (changesToRects (fun v => ((vals.getD v 0 : Int) : ℚ)) (segmentElements l.constraints.length)
            (area.inner l.padding) l.direction)
          (changesToRects (fun v => ((vals.getD v 0 : Int) : ℚ)) (spacerElements l.constraints.length)
            (area.inner l.padding) l.direction) := by
  obtain ⟨F, hF, he⟩ := split_quick h
  rw [he]
  have hv : ∀ v : Nat, v < 2 * l.constraints.length + 2 →
      (Quick.getValue F v).toQ = ((vals.getD v 0 : Int) : ℚ) := by
    intro v hlt
    have := List.all_eq_true.1 hF v (List.mem_range.2 hlt)
    simp only [Bool.and_eq_true, decide_eq_true_eq] at this
    unfold Quick.Frac.toQ
    rw [this.1, this.2]
    simp
  have hr : ∀ (a b : Nat), a < 2 * l.constraints.length + 2 → b < 2 * l.constraints.length + 2 →
      elementRect (fun v => (Quick.getValue F v).toQ) (area.inner l.padding) l.direction ⟨a, b⟩ =
      elementRect (fun v => ((vals.getD v 0 : Int) : ℚ)) (area.inner l.padding) l.direction ⟨a, b⟩ := by
    intro a b ha hb
    unfold elementRect
    simp only [hv a ha, hv b hb]
  congr 1
  · unfold changesToRects
    rw [segmentElements_eq, List.map_map, List.map_map]
    apply List.map_congr_left
    intro i hi
    have := List.mem_range.1 hi
    exact hr _ _ (by omega) (by omega)
  · unfold changesToRects
    rw [spacerElements_eq, List.map_map, List.map_map]
    apply List.map_congr_left
    intro i hi
    have := List.mem_range.1 hi
    exact hr _ _ (by omega) (by omega)

end Bento.Layout
