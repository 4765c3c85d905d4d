import Verif.Lemmas.FloatFast
import Verif.Lemmas.Wrapped

/-!
# The list-based solver with rounding computes what the rounded model computes
-/

namespace Bento.Casso.FlFast

open Fast (Cells LRow FS get code code_inj code_lt code_surj mem_allSyms sorted sorted_pairwise mem_sorted
  find Rel RelE msel sel_den)

/-! ### Rows -/

theorem get_tab_aux (f : Nat → ℚ) : ∀ (l : List Nat), l.Pairwise (· < ·) → ∀ n,
    get (l.filterMap fun n => if f n = 0 then none else some (n, f n)) n = if n ∈ l then f n else 0 := by
  intro l
  induction l with
  | nil => intro _ n; rfl
  | cons a l ih =>
    intro h n
    obtain ⟨h1, h2⟩ := List.pairwise_cons.1 h
    have ih := ih h2 n
    by_cases hz : f a = 0
    · rw [List.filterMap_cons_none (by simp [hz]), ih]
      by_cases hn : n = a
      · subst hn
        have : n ∉ l := fun hm => lt_irrefl _ (h1 n hm)
        simp [this, hz]
      · simp [hn]
    · rw [List.filterMap_cons_some (b := (a, f a)) (by simp [hz]), Fast.get_cons, ih]
      by_cases hn : n = a
      · subst hn
        have : n ∉ l := fun hm => lt_irrefl _ (h1 n hm)
        simp [this]
      · have : a ≠ n := fun h => hn h.symm
        simp [hn, this]

theorem get_tab (ks : List Nat) (f : Nat → ℚ) (n : Nat) :
    get (tab ks f) n = if n ∈ ks then f n else 0 := by
  have := get_tab_aux f (sorted ks) (sorted_pairwise ks) n
  simp only [mem_sorted] at this
  exact this

/-- A list that covers all numbers where the function does not vanish. -/
theorem get_tab_of {ks : List Nat} {f : Nat → ℚ} {n : Nat} (h : f n ≠ 0 → n ∈ ks) :
    get (tab ks f) n = f n := by
  rw [get_tab]
  split
  · rfl
  · rename_i hn
    by_contra h0
    exact hn (h (fun e => h0 e.symm))

theorem mem_keys {r : LRow} {n : Nat} (h : get r.cells n ≠ 0) : n ∈ keys r := Fast.mem_of_get_ne h

variable {rnd : ℚ → ℚ}

theorem insertSymbol_den (r : LRow) (s : Sym) (k : ℚ) :
    (insertSymbol rnd r (code s) k).den = Fl.insertSymbol rnd r.den s k := by
  apply Row.ext
  · funext t
    simp only [LRow.den, insertSymbol, Fl.insertSymbol]
    rw [get_tab_of]
    · simp only [code_inj, put]
      by_cases h : t = s
      · subst h; rfl
      · simp only [h, if_false]
    · intro h
      by_cases hn : code t = code s
      · rw [hn]; exact List.mem_cons_self
      · simp only [hn, if_false] at h
        exact List.mem_cons_of_mem _ (mem_keys h)
  · rfl

theorem insertRow_den (r o : LRow) (k : ℚ) :
    (insertRow rnd r o k).den = (Fl.insertRow rnd r.den o.den k).1 := by
  apply Row.ext
  · funext t
    simp only [LRow.den, insertRow, Fl.insertRow, Fl.insertSymbol]
    rw [get_tab_of]
    · simp only [put, if_true]
      rfl
    · intro h
      by_cases hn : get o.cells (code t) ≠ 0
      · exact List.mem_append_right _ (mem_keys hn)
      · rw [if_neg hn] at h
        exact List.mem_append_left _ (mem_keys h)
  · rfl

theorem solveForSymbol_den (r : LRow) (s : Sym) :
    (solveForSymbol rnd r (code s)).den = Fl.solveForSymbol rnd r.den s := by
  apply Row.ext
  · funext t
    simp only [LRow.den, solveForSymbol, Fl.solveForSymbol]
    rw [get_tab_of]
    · simp only [code_inj]
      rfl
    · intro h
      apply mem_keys
      intro h0
      simp only [h0, ne_eq, not_true_eq_false, if_false, ite_self] at h
  · rfl

theorem solveForSymbols_den (r : LRow) (l e : Sym) :
    (solveForSymbols rnd r (code l) (code e)).den = Fl.solveForSymbols rnd r.den l e := by
  unfold solveForSymbols Fl.solveForSymbols
  rw [solveForSymbol_den, insertSymbol_den]

theorem substituteRow_den (r : LRow) (s : Sym) (row : LRow) :
    (substituteRow rnd r (code s) row).den = (Fl.substituteRow rnd r.den s row.den).1 := by
  unfold substituteRow Fl.substituteRow
  by_cases h : get r.cells (code s) = 0
  · simp [LRow.den, h]
  · have h' : r.den.cells s ≠ 0 := h
    simp only [h, if_false, h', ne_eq, not_false_eq_true, if_true]
    rw [insertRow_den, Fast.den_remove]
    rfl

/-! ### Pivots -/

theorem pivotIn_alike (S : Solver) (s : Sym) (row : Row) :
    Fast.Alike (Fl.pivotIn rnd S s row)
      { S with
        rows := fun b => if b = s then some row else (S.rows b).map fun r => (Fl.substituteRow rnd r s row).1
        objective := (Fl.substituteRow rnd S.objective s row).1
        artificial := S.artificial.map fun r => (Fl.substituteRow rnd r s row).1 } := by
  have h1 : Fast.Alike (Fl.substitute rnd S s row)
      { S with
        rows := fun b => (S.rows b).map fun r => (Fl.substituteRow rnd r s row).1
        objective := (Fl.substituteRow rnd S.objective s row).1
        artificial := S.artificial.map fun r => (Fl.substituteRow rnd r s row).1 } := Fast.fold_alike _ _
  have h2 : Fast.Alike (if s.type = .external ∧ row.constant ≠ 0 then
        (Fl.substitute rnd S s row).varChanged ((Fl.substitute rnd S s row).varOf s) else Fl.substitute rnd S s row)
      (Fl.substitute rnd S s row) := by
    split
    · exact Fast.varChanged_alike _ _
    · exact Fast.Alike.rfl'
  have h := h2.trans h1
  unfold Fl.pivotIn
  refine ⟨?_, h.obj, h.art, h.tick, h.clock, h.vars⟩
  funext b
  have := congrFun h.rows b
  simp only at this ⊢
  rw [this]

theorem rel_pivotIn {F : FS} {k : Nat} {S : Solver} (h : Rel F k S) (s : Sym) (row : LRow) :
    Rel (pivotIn rnd F (code s) row) k (Fl.pivotIn rnd S s row.den) := by
  refine Rel.of_alike ?_ (pivotIn_alike S s row.den)
  refine ⟨?_, ?_, ?_, h.tick, h.clock, h.vars⟩
  · intro b
    simp only [pivotIn]
    rw [Fast.find_set, Fast.find_map (fun r : LRow => substituteRow rnd r (code s) row), h.rows b]
    simp only [code_inj]
    by_cases hb : b = s
    · simp [hb]
    · simp only [hb, if_false, Option.map_map]
      congr 1
      funext r
      exact (substituteRow_den r s row).symm
  · simp only [pivotIn]
    rw [h.obj, substituteRow_den]
  · simp only [pivotIn]
    rw [h.art, Option.map_map, Option.map_map]
    congr 1
    funext r
    exact (substituteRow_den r s row).symm

theorem ratio_code {F : FS} {k : Nat} {S : Solver} (h : Rel F k S) (e t : Sym) :
    Fl.leavingRatio rnd S e t = ratio rnd F (code e) (code t) := by
  unfold Fl.leavingRatio ratio
  rw [h.rows t]
  simp only [code_lt t, true_and, ne_eq, Fast.code_external]
  cases hf : find F.rows (code t) with
  | none => simp
  | some r =>
    simp only [Option.map_some]
    by_cases ht : t.type = .external
    · simp [ht]
    · simp only [ht, not_false_eq_true, true_and, if_true]
      rfl

theorem mem_ratios (F : FS) (e : Nat) (n : Nat) (q : ℚ) :
    (n, q) ∈ ratios rnd F e ↔ ratio rnd F e n = some q := by
  unfold ratios
  rw [List.mem_filterMap]
  constructor
  · rintro ⟨p, _, hp⟩
    cases hr : ratio rnd F e p.1 with
    | none => rw [hr] at hp; simp at hp
    | some q' =>
      rw [hr] at hp
      simp only [Option.map_some, Option.some.injEq, Prod.mk.injEq] at hp
      rw [← hp.1, hr, hp.2]
  · intro h
    have hn : ∃ r, find F.rows n = some r := by
      unfold ratio at h
      split at h
      · cases hf : find F.rows n with
        | none => rw [hf] at h; simp at h
        | some r => exact ⟨r, rfl⟩
      · simp at h
    obtain ⟨r, hr⟩ := hn
    obtain ⟨p, hp, hpn⟩ := List.mem_map.1 (Fast.mem_of_find hr)
    exact ⟨p, hp, by rw [hpn, h]; simp⟩

theorem ratio_lt {F : FS} {e n : Nat} {q : ℚ} (h : ratio rnd F e n = some q) : n < 1024 := by
  unfold ratio at h
  split at h
  · rename_i h'; exact h'.1
  · simp at h

theorem leaving_code {F : FS} {S : Solver} {k' : Nat} (h : Rel F k' S) (ω : Nat → Nat) (k : Nat) (e : Sym) :
    (Fl.getLeavingRow rnd ω k S e).map code = leaving rnd (ω k) F (code e) := by
  unfold Fl.getLeavingRow leaving
  cases hl : Fast.lowest (ratios rnd F (code e)) with
  | none =>
    have hnil := Fast.lowest_none hl
    have hnone : ∀ t, Fl.leavingRatio rnd S e t = none := by
      intro t
      rw [ratio_code h]
      cases hr : ratio rnd F (code e) (code t) with
      | none => rfl
      | some q =>
        have := (mem_ratios (rnd := rnd) F (code e) (code t) q).2 hr
        rw [hnil] at this
        exact absurd this List.not_mem_nil
    have : ∀ p : Sym → Bool, (∀ s, p s = false) → allSyms.filter p = [] := by
      intro p hp
      rw [List.filter_eq_nil_iff]
      intro s _
      simp [hp s]
    simp only [hl]
    rw [this]
    · rfl
    · intro s
      simp [hnone s]
  | some m =>
    obtain ⟨⟨n0, hn0⟩, hmin⟩ := Fast.lowest_some hl
    simp only [hl]
    apply Fast.pick_code
    · intro s
      rw [ratio_code h]
      constructor
      · intro hs
        cases hr : ratio rnd F (code e) (code s) with
        | none => rw [hr] at hs; simp at hs
        | some q =>
          rw [hr] at hs
          simp only [List.all_eq_true] at hs
          refine List.mem_map.2 ⟨(code s, q), List.mem_filter.2 ⟨(mem_ratios ..).2 hr, ?_⟩, rfl⟩
          simp only [decide_eq_true_eq]
          have hr0 := (mem_ratios ..).1 hn0
          obtain ⟨u, hu⟩ := code_surj (ratio_lt hr0)
          have := hs u (mem_allSyms u)
          rw [ratio_code h, hu, hr0] at this
          simpa using this
      · intro hs
        obtain ⟨⟨n, q⟩, hp, hpn⟩ := List.mem_map.1 hs
        obtain ⟨hp1, hp2⟩ := List.mem_filter.1 hp
        simp only [decide_eq_true_eq] at hp2
        simp only at hpn
        subst hpn
        rw [(mem_ratios ..).1 hp1]
        simp only [List.all_eq_true]
        intro u _
        rw [ratio_code h]
        cases hr : ratio rnd F (code e) (code u) with
        | none => rfl
        | some q' =>
          simp only [decide_eq_true_eq]
          exact le_trans hp2 (hmin _ ((mem_ratios ..).2 hr))
    · intro n hn
      obtain ⟨⟨n', q⟩, hp, hpn⟩ := List.mem_map.1 hn
      simp only at hpn
      subst hpn
      exact ratio_lt ((mem_ratios ..).1 (List.mem_filter.1 hp).1)

theorem rel_optimize (ω : Nat → Nat) (a : Bool) : ∀ (fuel : Nat) (F : FS) (k : Nat) (S : Solver), Rel F k S →
    RelE (optimize rnd ω a fuel k F) (Fl.optimize rnd ω (msel a) fuel S) := by
  intro fuel
  induction fuel with
  | zero => intro F k S _; rfl
  | succ fuel ih =>
    intro F k S h
    have he := Fast.entering_code ω S.clock (Fast.sel a F)
    rw [h.clock] at he
    simp only [FlFast.optimize, Fl.optimize, step]
    rw [sel_den h a, h.clock, ← he]
    cases hE : Solver.getEnteringSymbol ω k (Fast.sel a F).den with
    | none => exact h
    | some e =>
      have hl := leaving_code (rnd := rnd) h ω (k + 1) e
      simp only [Option.map_some]
      rw [← hl]
      cases hL : Fl.getLeavingRow rnd ω (k + 1) S e with
      | none => exact rfl
      | some l =>
        simp only [Option.map_some]
        have hr := h.rows l
        cases hf : find F.rows (code l) with
        | none =>
          rw [hf] at hr
          rw [show S.rows l = none from hr]
          exact rfl
        | some row =>
          rw [hf] at hr
          rw [show S.rows l = some row.den from hr]
          simp only
          apply ih
          have h1 : Rel { F with rows := Fast.dropRow (code l) F.rows } (k + 2)
              { S with rows := fun b => if b = l then none else S.rows b, clock := k + 2 } := by
            have := h.dropRow l
            exact ⟨this.rows, this.obj, this.art, this.tick, rfl, this.vars⟩
          have h2 := rel_pivotIn (rnd := rnd) h1 e (solveForSymbols rnd row (code l) (code e))
          rw [solveForSymbols_den] at h2
          exact h2

theorem rel_addTerms (ts : List (Var × ℚ)) : ∀ (F : FS) (k : Nat) (S : Solver) (row : LRow), Rel F k S →
    Rel (addTerms rnd F row ts).1 k (Fl.addTerms rnd S row.den ts).1 ∧
      (addTerms rnd F row ts).2.den = (Fl.addTerms rnd S row.den ts).2 := by
  induction ts with
  | nil => intro F k S row h; exact ⟨h, rfl⟩
  | cons t ts ih =>
    intro F k S row h
    obtain ⟨v, c⟩ := t
    simp only [FlFast.addTerms, Fl.addTerms]
    split
    · exact ih F k S row h
    · obtain ⟨h1, h2⟩ := h.varSymbol v
      have hr := h1.rows (S.getVarSymbol v).2
      rw [h2]
      cases hf : find (Fast.varSymbol F v).1.rows (code (S.getVarSymbol v).2) with
      | none =>
        rw [hf] at hr
        rw [show (S.getVarSymbol v).1.rows (S.getVarSymbol v).2 = none from hr]
        simp only
        rw [← insertSymbol_den]
        exact ih _ _ _ _ h1
      | some o =>
        rw [hf] at hr
        rw [show (S.getVarSymbol v).1.rows (S.getVarSymbol v).2 = some o.den from hr]
        simp only
        rw [← insertRow_den]
        exact ih _ _ _ _ h1

theorem rel_addMarkers {F : FS} {k : Nat} {S : Solver} (h : Rel F k S) (row : LRow) (c : Constr) :
    Rel (addMarkers rnd F row c).1 k (Fl.addMarkers rnd S row.den c).1 ∧
      (addMarkers rnd F row c).2.1.den = (Fl.addMarkers rnd S row.den c).2.1 ∧
      (addMarkers rnd F row c).2.2.1 = code (Fl.addMarkers rnd S row.den c).2.2.marker ∧
      (addMarkers rnd F row c).2.2.2 = (Fl.addMarkers rnd S row.den c).2.2.other.map code := by
  have e1 : Fast.symAt F.tick 1 = code (symbolAt S.idTick .slack) := by rw [Fast.code_symbolAt, h.tick]
  have e2 : Fast.symAt F.tick 2 = code (symbolAt S.idTick .error) := by rw [Fast.code_symbolAt, h.tick]
  have e3 : Fast.symAt (F.tick + 1) 2 = code (symbolAt (S.idTick + 1) .error) := by rw [Fast.code_symbolAt, h.tick]
  have e4 : Fast.symAt F.tick 3 = code (symbolAt S.idTick .dummy) := by rw [Fast.code_symbolAt, h.tick]
  unfold FlFast.addMarkers Fl.addMarkers
  simp only [e1, e2, e3, e4]
  by_cases hs : c.strength < required
  all_goals
    simp only [hs, if_true, if_false]
    cases c.op
    all_goals
      refine ⟨⟨h.rows, ?_, h.art, ?_, h.clock, h.vars⟩, ?_, rfl, rfl⟩
      · simp only [insertSymbol_den, h.obj]
      · simp only [h.tick]
      · simp only [insertSymbol_den]

theorem rel_createRow {F : FS} {k : Nat} {S : Solver} (h : Rel F k S) (c : Constr) :
    Rel (createRow rnd F c).1 k (Fl.createRow rnd S c).1 ∧
      (createRow rnd F c).2.1.den = (Fl.createRow rnd S c).2.1 ∧
      (createRow rnd F c).2.2.1 = code (Fl.createRow rnd S c).2.2.marker ∧
      (createRow rnd F c).2.2.2 = (Fl.createRow rnd S c).2.2.other.map code := by
  have h0 : (⟨[], c.expr.constant⟩ : LRow).den = Row.new c.expr.constant := by apply Row.ext <;> rfl
  obtain ⟨h1, h2⟩ := rel_addTerms (rnd := rnd) c.expr.terms F k S ⟨[], c.expr.constant⟩ h
  rw [h0] at h1 h2
  obtain ⟨g1, g2, g3, g4⟩ := rel_addMarkers (rnd := rnd) h1 (FlFast.addTerms rnd F ⟨[], c.expr.constant⟩ c.expr.terms).2 c
  rw [h2] at g1 g2 g3 g4
  unfold FlFast.createRow Fl.createRow
  refine ⟨g1, ?_, g3, g4⟩
  simp only
  rw [← g2]
  generalize (FlFast.addMarkers rnd _ _ c).2.1 = r
  by_cases hlt : r.const < 0
  · have hlt' : r.den.constant < 0 := hlt
    rw [if_pos hlt, if_pos hlt', Fast.den_negate]
  · have hlt' : ¬ r.den.constant < 0 := hlt
    rw [if_neg hlt, if_neg hlt']

theorem rel_finishArtificial {F : FS} {k : Nat} {S : Solver} (h : Rel F k S) (ω : Nat → Nat) (art : Sym) :
    Rel (finishArtificial rnd ω (code art) F k).1.1 (finishArtificial rnd ω (code art) F k).1.2
        (Fl.finishArtificial rnd ω art S).1 ∧
      (finishArtificial rnd ω (code art) F k).2 = (Fl.finishArtificial rnd ω art S).2 := by
  have hsel : S.artificialRow = (Fast.sel true F).den := sel_den h true
  have h1 : Rel { F with artificial := none } k { S with artificial := none } :=
    ⟨h.rows, h.obj, rfl, h.tick, h.clock, h.vars⟩
  have hc : Fl.nearZero S.artificialRow.constant = Fl.nearZero (Fast.sel true F).const := by
    rw [hsel]; rfl
  unfold FlFast.finishArtificial Fl.finishArtificial
  simp only [hc]
  have hr := h.rows art
  cases hf : find F.rows (code art) with
  | none =>
    rw [hf] at hr
    rw [show S.rows art = none from hr]
    exact ⟨h1.removeSymbol art, rfl⟩
  | some row =>
    rw [hf] at hr
    rw [show S.rows art = some row.den from hr]
    simp only
    rw [Fast.noCells_den]
    have h2 := h1.dropRow art
    cases hn : row.noCells with
    | true => exact ⟨h2, rfl⟩
    | false =>
      simp only [Bool.false_eq_true, if_false]
      have ha := Fast.anyPivotable_code ω S.clock row
      rw [h.clock] at ha ⊢
      rw [← ha]
      cases Solver.anyPivotableSymbol ω k row.den with
      | none => exact ⟨⟨h2.rows, h2.obj, h2.art, h2.tick, rfl, h2.vars⟩, rfl⟩
      | some e =>
        simp only [Option.map_some]
        refine ⟨?_, trivial⟩
        apply Rel.removeSymbol
        rw [← solveForSymbols_den]
        apply rel_pivotIn
        exact ⟨h2.rows, h2.obj, h2.art, h2.tick, rfl, h2.vars⟩

theorem rel_addWithArtificial {F : FS} {k : Nat} {S : Solver} (h : Rel F k S) (ω : Nat → Nat) (fuel : Nat)
    (row : LRow) :
    (∃ e, addWithArtificial rnd ω fuel F k row = .error e ∧
      Fl.addWithArtificialVariable rnd ω fuel S row.den = .error e) ∨
    (∃ F' k' S' b, addWithArtificial rnd ω fuel F k row = .ok ((F', k'), b) ∧
      Fl.addWithArtificialVariable rnd ω fuel S row.den = .ok (S', b) ∧ Rel F' k' S') := by
  have ea : Fast.symAt F.tick 1 = code (symbolAt S.idTick .slack) := by rw [Fast.code_symbolAt, h.tick]
  have ho := rel_optimize (rnd := rnd) ω true fuel
    { F with
      tick := F.tick + 1
      rows := Fast.insertRow (code (symbolAt S.idTick .slack)) row
        (Fast.dropRow (code (symbolAt S.idTick .slack)) F.rows)
      artificial := some row }
    k
    { S with
      idTick := S.idTick + 1
      rows := fun b => if b = symbolAt S.idTick .slack then some row.den else S.rows b
      artificial := some row.den }
    ⟨by
      intro b
      simp only [Fast.find_set, code_inj, h.rows b]
      split <;> rfl, h.obj, rfl, by simp only [h.tick], h.clock, h.vars⟩
  unfold FlFast.addWithArtificial Fl.addWithArtificialVariable
  simp only [ea]
  revert ho
  simp only [msel]
  generalize FlFast.optimize rnd ω true fuel k _ = x
  generalize Fl.optimize rnd ω Solver.artificialRow fuel _ = y
  intro ho
  cases x with
  | error e =>
    cases y with
    | error e' => exact Or.inl ⟨e, rfl, by rw [show e = e' from ho]⟩
    | ok S' => exact ho.elim
  | ok p =>
    cases y with
    | error e' => exact ho.elim
    | ok S' =>
      right
      have hR : Rel p.1 p.2 S' := ho
      obtain ⟨g1, g2⟩ := rel_finishArtificial hR ω (symbolAt S.idTick .slack)
      refine ⟨(FlFast.finishArtificial rnd ω (code (symbolAt S.idTick .slack)) p.1 p.2).1.1,
        (FlFast.finishArtificial rnd ω (code (symbolAt S.idTick .slack)) p.1 p.2).1.2, _,
        (FlFast.finishArtificial rnd ω (code (symbolAt S.idTick .slack)) p.1 p.2).2, rfl, ?_, g1⟩
      rw [g2]

theorem rel_insertConstraint {F : FS} {k : Nat} {S : Solver} (h : Rel F k S) (ω : Nat → Nat) (fuel : Nat)
    (c : Constr) : RelE (insertConstraint rnd ω fuel F k c) (Fl.insertConstraint rnd ω fuel S c) := by
  obtain ⟨h1, h2, h3, h4⟩ := rel_createRow (rnd := rnd) h c
  have hs := Fast.chooseSubject_code ω k (FlFast.createRow rnd F c).2.1 (Fl.createRow rnd S c).2.2
  have hk : Rel (FlFast.createRow rnd F c).1 (k + 1)
      { (Fl.createRow rnd S c).1 with clock := (Fl.createRow rnd S c).1.clock + 1 } :=
    ⟨h1.rows, h1.obj, h1.art, h1.tick, by simp only [h1.clock], h1.vars⟩
  unfold FlFast.insertConstraint Fl.insertConstraint
  simp only [h3, h4]
  rw [← hs, ← h2, h1.clock]
  rw [h1.clock] at hk
  cases Solver.chooseSubject ω k (FlFast.createRow rnd F c).2.1.den (Fl.createRow rnd S c).2.2 with
  | some s =>
    simp only [Option.map_some]
    have := rel_pivotIn (rnd := rnd) hk s (solveForSymbol rnd (FlFast.createRow rnd F c).2.1 (code s))
    rw [solveForSymbol_den] at this
    exact this
  | none =>
    simp only [Option.map_none]
    rw [Fast.allDummies_den]
    cases hd : Fast.allDummies (FlFast.createRow rnd F c).2.1 with
    | true =>
      simp only [if_true]
      by_cases hz : Fl.nearZero (FlFast.createRow rnd F c).2.1.const = true
      · rw [if_neg (by simpa using hz), if_neg (by simpa [LRow.den] using hz)]
        have := rel_pivotIn (rnd := rnd) hk (Fl.createRow rnd S c).2.2.marker
          (solveForSymbol rnd (FlFast.createRow rnd F c).2.1 (code (Fl.createRow rnd S c).2.2.marker))
        rw [solveForSymbol_den] at this
        exact this
      · rw [if_pos (by simpa using hz), if_pos (by simpa [LRow.den] using hz)]
        exact rfl
    | false =>
      simp only [Bool.false_eq_true, if_false]
      rcases rel_addWithArtificial (rnd := rnd) hk ω fuel (FlFast.createRow rnd F c).2.1 with ⟨e, g1, g2⟩ | ⟨F', k', S', b, g1, g2, g3⟩
      · rw [g1, g2]
        exact rfl
      · rw [g1, g2]
        cases b
        · exact rfl
        · exact g3

theorem rel_addConstraint {F : FS} {k : Nat} {S : Solver} (h : Rel F k S) (ω : Nat → Nat) (fuel : Nat)
    (c : Constr) : RelE (addConstraint rnd ω fuel F k c) (Fl.addConstraint rnd ω fuel S c) := by
  have hi := rel_insertConstraint (rnd := rnd) h ω fuel c
  unfold FlFast.addConstraint Fl.addConstraint
  revert hi
  generalize FlFast.insertConstraint rnd ω fuel F k c = x
  generalize Fl.insertConstraint rnd ω fuel S c = y
  intro hi
  cases x with
  | error e =>
    cases y with
    | error e' => exact hi
    | ok S' => exact hi.elim
  | ok p =>
    cases y with
    | error e' => exact hi.elim
    | ok S' => exact rel_optimize (rnd := rnd) ω false fuel p.1 p.2 S' hi

theorem rel_addConstraints (ω : Nat → Nat) (fuel : Nat) (cs : List Constr) :
    ∀ (F : FS) (k : Nat) (S : Solver), Rel F k S →
      RelE (addConstraints rnd ω fuel F k cs) (Fl.addConstraints rnd ω fuel S cs) := by
  induction cs with
  | nil => intro F k S h; exact h
  | cons c cs ih =>
    intro F k S h
    have hi := rel_addConstraint (rnd := rnd) h ω fuel c
    simp only [FlFast.addConstraints, Fl.addConstraints]
    revert hi
    generalize FlFast.addConstraint rnd ω fuel F k c = x
    generalize Fl.addConstraint rnd ω fuel S c = y
    intro hi
    cases x with
    | error e =>
      cases y with
      | error e' => exact hi
      | ok S' => exact hi.elim
    | ok p =>
      cases y with
      | error e' => exact hi.elim
      | ok S' => exact ih p.1 p.2 S' hi


end Bento.Casso.FlFast
