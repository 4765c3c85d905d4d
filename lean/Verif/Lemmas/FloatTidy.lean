import Verif.Lemmas.FloatFastOk

/-!
# The rounded solver reports its values

The counterpart of `C20_fetch_reports_values` for `Model/Float`: as long as the symbol counter has not
wrapped around, `FetchChanges` reports the value of every variable, whatever the rounding.
-/

namespace Bento.Casso.Fl
open Solver

variable {rnd : ℚ → ℚ}

/-- All external symbols of a row belong to variables. -/
def Known (S : Solver) (r : Row) : Prop :=
  ∀ t : Sym, t.type = .external → r.cells t ≠ 0 → ∃ v, S.varSym v = some t

/-- The bookkeeping of the solver is right. -/
structure Tidy (S : Solver) : Prop where
  vars : Vars S
  chg : Chg S
  last : S.varLast = Solver.new.varLast
  pub : S.publicChanges = Solver.new.publicChanges
  basic : ∀ b r, S.rows b = some r → b.type = .external → ∃ v, S.varSym v = some b
  rows : ∀ b r, S.rows b = some r → Known S r
  obj : Known S S.objective
  art : ∀ a, S.artificial = some a → Known S a

theorem Tidy.new : Tidy Solver.new where
  vars := ⟨fun _ s h => (Option.some_ne_none s h.symm).elim, fun _ s h => (Option.some_ne_none s h.symm).elim,
    fun _ s h => (Option.some_ne_none s h.symm).elim⟩
  chg := ⟨rfl, fun _ s _ h => (Option.some_ne_none s h.symm).elim⟩
  last := rfl
  pub := rfl
  basic := fun _ r h => (Option.some_ne_none r h.symm).elim
  rows := fun _ r h => (Option.some_ne_none r h.symm).elim
  obj := fun _ _ h => absurd rfl h
  art := fun a h => (Option.some_ne_none a h.symm).elim

theorem Known.insertSymbol {S : Solver} {r : Row} (h : Known S r) {s : Sym} (k : ℚ)
    (hs : s.type = .external → ∃ v, S.varSym v = some s) : Known S (insertSymbol rnd r s k) := by
  intro t ht h0
  by_cases e : t = s
  · subst e; exact hs ht
  · refine h t ht ?_
    simpa only [Fl.insertSymbol, e, if_false] using h0

theorem Known.insertRow {S : Solver} {r o : Row} (h : Known S r) (ho : Known S o) (k : ℚ) :
    Known S (insertRow rnd r o k).1 := by
  intro t ht h0
  by_cases e : o.cells t = 0
  · refine h t ht ?_
    simpa only [Fl.insertRow, e, ne_eq, not_true_eq_false, if_false] using h0
  · exact ho t ht e

theorem Known.solveForSymbol {S : Solver} {r : Row} (h : Known S r) (s : Sym) :
    Known S (solveForSymbol rnd r s) := by
  intro t ht h0
  refine h t ht ?_
  intro e
  simp only [Fl.solveForSymbol, e, ne_eq, not_true_eq_false, if_false, ite_self] at h0

theorem Known.solveForSymbols {S : Solver} {r : Row} (h : Known S r) {l : Sym} (hl : l.type ≠ .external)
    (s : Sym) : Known S (solveForSymbols rnd r l s) :=
  Known.solveForSymbol (h.insertSymbol _ (fun e => absurd e hl)) s

theorem Known.remove {S : Solver} {r : Row} (h : Known S r) (s : Sym) : Known S (r.remove s) := by
  intro t ht h0
  refine h t ht ?_
  intro e
  simp only [Row.remove, e, ite_self] at h0
  exact h0 rfl

theorem Known.substituteRow {S : Solver} {r row : Row} (h : Known S r) (hr : Known S row) (s : Sym) :
    Known S (substituteRow rnd r s row).1 := by
  unfold Fl.substituteRow
  split
  · exact (h.remove s).insertRow hr _
  · exact h

theorem Known.reverseSign {S : Solver} {r : Row} (h : Known S r) : Known S r.reverseSign := by
  intro t ht h0
  refine h t ht ?_
  intro e
  simp only [Row.reverseSign, e, neg_zero] at h0
  exact h0 rfl

theorem Known.of_varSym {S T : Solver} {r : Row} (h : Known S r)
    (hv : ∀ v s, S.varSym v = some s → ∃ u, T.varSym u = some s) : Known T r := by
  intro t ht h0
  obtain ⟨v, e⟩ := h t ht h0
  exact hv v t e

/-! ### Pivots -/

theorem pivotIn_fields (S : Solver) (s : Sym) (row : Row) :
    (pivotIn rnd S s row).varForSymbol = S.varForSymbol ∧ (pivotIn rnd S s row).varLast = S.varLast ∧
      (pivotIn rnd S s row).publicChanges = S.publicChanges := by
  unfold pivotIn substitute
  simp only
  split_ifs <;> simp

theorem pivotIn_clear (S : Solver) (s : Sym) (row : Row) (h : S.shouldClearChanges = false) :
    (pivotIn rnd S s row).shouldClearChanges = false := by
  unfold pivotIn substitute
  simp only
  split_ifs
  · apply varChanged_clear; apply fold_clear; exact h
  · apply fold_clear; exact h

theorem pivotIn_sub (S : Solver) (s : Sym) (row : Row) (h : S.shouldClearChanges = false) {u}
    (hu : u ∈ S.changed ∨ u ∈ substChanged rnd S s row) : u ∈ (pivotIn rnd S s row).changed := by
  have key : u ∈ (substitute rnd S s row).changed := by
    unfold substitute
    rcases hu with hu | hu
    · apply fold_sub
      · exact h
      · exact hu
    · apply fold_mem
      · exact h
      · exact hu
  have hc : (substitute rnd S s row).shouldClearChanges = false := by
    unfold substitute
    apply fold_clear; exact h
  unfold pivotIn
  simp only
  split_ifs
  · exact varChanged_sub _ _ hc key
  · exact key

theorem pivotIn_mem_sym (S : Solver) (s : Sym) (row : Row) (hs : s.type = .external)
    (hr : row.constant ≠ 0) : S.varOf s ∈ (pivotIn rnd S s row).changed := by
  unfold pivotIn
  simp only
  rw [if_pos ⟨hs, hr⟩]
  have : (substitute rnd S s row).varOf s = S.varOf s := by
    unfold substitute varOf; simp
  rw [this]
  exact varChanged_mem _ _

theorem pivotIn_rows_cases {S : Solver} {s row b r} (h : (pivotIn rnd S s row).rows b = some r) :
    (b = s ∧ r = row) ∨ (b ≠ s ∧ ∃ r₀, S.rows b = some r₀ ∧ r = (substituteRow rnd r₀ s row).1) := by
  rw [(FlFast.pivotIn_alike S s row).rows] at h
  by_cases hb : b = s
  · left
    simp only [hb, if_true, Option.some.injEq] at h
    exact ⟨hb, h.symm⟩
  · right
    simp only [hb, if_false, Option.map_eq_some_iff] at h
    obtain ⟨r₀, h₀, h₁⟩ := h
    exact ⟨hb, r₀, h₀, h₁.symm⟩

theorem Tidy.pivotIn (h0 : rnd 0 = 0) {S : Solver} (h : Tidy S) {s : Sym} {row : Row} (hrow : Known S row)
    (hs : s.type = .external → ∃ v, S.varSym v = some s) : Tidy (pivotIn rnd S s row) := by
  have hA := FlFast.pivotIn_alike (rnd := rnd) S s row
  obtain ⟨f1, f2, f3⟩ := pivotIn_fields (rnd := rnd) S s row
  have hv : (Fl.pivotIn rnd S s row).varSym = S.varSym := hA.vars
  have ht : (Fl.pivotIn rnd S s row).idTick = S.idTick := hA.tick
  have hk : ∀ r, Known S r → Known (Fl.pivotIn rnd S s row) r := fun r hr =>
    hr.of_varSym fun v t e => ⟨v, by rw [hv]; exact e⟩
  refine ⟨⟨?_, ?_, ?_⟩, ⟨pivotIn_clear _ _ _ h.chg.noClear, ?_⟩, f2.trans h.last, f3.trans h.pub, ?_, ?_, ?_, ?_⟩
  · rw [hv]; exact h.vars.type
  · rw [hv, f1]; exact h.vars.back
  · rw [hv, ht]; exact h.vars.lt
  · intro v t r hvt hr hc
    rw [hv] at hvt
    rcases pivotIn_rows_cases hr with ⟨rfl, rfl⟩ | ⟨hne, r₁, h₁, rfl⟩
    · have := pivotIn_mem_sym (rnd := rnd) S t r (h.vars.type _ _ hvt) hc
      rwa [varOf, h.vars.back _ _ hvt] at this
    · apply pivotIn_sub _ _ _ h.chg.noClear
      by_cases hz : r₁.constant = 0
      · right
        unfold substChanged
        rw [List.mem_filterMap]
        refine ⟨t, mem_allSyms t, ?_⟩
        simp only [h₁]
        have hch : (substituteRow rnd r₁ s row).2 = true := by
          unfold substituteRow at hc ⊢
          by_cases hcell : r₁.cells s ≠ 0
          · rw [if_pos hcell] at hc ⊢
            simp only [insertRow, Row.remove, hz, zero_add] at hc ⊢
            apply decide_eq_true
            intro he
            rw [he, h0] at hc
            exact hc rfl
          · rw [if_neg hcell] at hc
            exact absurd hz hc
        rw [if_pos ⟨h.vars.type _ _ hvt, hch⟩]
        simp [varOf, h.vars.back _ _ hvt]
      · left
        exact h.chg.mem v t r₁ hvt h₁ hz
  · intro b r hb he
    rw [hv]
    rcases pivotIn_rows_cases hb with ⟨rfl, rfl⟩ | ⟨hne, r₁, h₁, rfl⟩
    · exact hs he
    · exact h.basic b r₁ h₁ he
  · intro b r hb
    rcases pivotIn_rows_cases hb with ⟨rfl, rfl⟩ | ⟨hne, r₁, h₁, rfl⟩
    · exact hk _ hrow
    · exact hk _ ((h.rows b r₁ h₁).substituteRow hrow s)
  · rw [hA.obj]
    exact hk _ (h.obj.substituteRow hrow s)
  · intro a ha
    rw [hA.art] at ha
    simp only [Option.map_eq_some_iff] at ha
    obtain ⟨a₀, e, rfl⟩ := ha
    exact hk _ ((h.art a₀ e).substituteRow hrow s)

/-- Rows may come and go as long as their symbols are known. -/
theorem Tidy.of_rows {S T : Solver} (h : Tidy S) (h1 : T.varSym = S.varSym) (h2 : T.varForSymbol = S.varForSymbol)
    (h3 : T.varLast = S.varLast) (h4 : T.publicChanges = S.publicChanges) (h5 : S.idTick ≤ T.idTick)
    (h6 : T.shouldClearChanges = S.shouldClearChanges) (h7 : T.changed = S.changed)
    (hr : ∀ s r, s.type = .external → T.rows s = some r → ∃ r', S.rows s = some r' ∧ r'.constant = r.constant)
    (hk : ∀ b r, T.rows b = some r → Known S r) (ho : Known S T.objective)
    (ha : ∀ a, T.artificial = some a → Known S a) : Tidy T := by
  have kn : ∀ r, Known S r → Known T r := fun r hr => hr.of_varSym fun v t e => ⟨v, by rw [h1]; exact e⟩
  refine ⟨⟨?_, ?_, ?_⟩, ⟨h6.trans h.chg.noClear, ?_⟩, h3.trans h.last, h4.trans h.pub, ?_,
    fun b r e => kn _ (hk b r e), kn _ ho, fun a e => kn _ (ha a e)⟩
  · rw [h1]; exact h.vars.type
  · rw [h1, h2]; exact h.vars.back
  · rw [h1]
    intro v s hv
    exact lt_of_lt_of_le (h.vars.lt v s hv) h5
  · intro v s r hv hs hc
    rw [h1] at hv
    obtain ⟨r', e1, e2⟩ := hr s r (h.vars.type v s hv) hs
    rw [h7]
    exact h.chg.mem v s r' hv e1 (by rwa [e2])
  · intro b r hb he
    obtain ⟨r', e1, _⟩ := hr b r he hb
    rw [h1]
    exact h.basic b r' e1 he

theorem Tidy.dropRow {S : Solver} (h : Tidy S) (l : Sym) (c : Nat) :
    Tidy { S with rows := fun b => if b = l then none else S.rows b, clock := c } := by
  have hsome : ∀ b r, (if b = l then none else S.rows b) = some r → S.rows b = some r := by
    intro b r e
    split at e
    · exact absurd e.symm (Option.some_ne_none r)
    · exact e
  refine h.of_rows rfl rfl rfl rfl le_rfl rfl rfl ?_ ?_ h.obj h.art
  · intro s r _ e
    exact ⟨r, hsome s r e, rfl⟩
  · intro b r e
    exact h.rows b r (hsome b r e)

theorem Tidy.removeSymbol {S : Solver} (h : Tidy S) (a : Sym) : Tidy (S.removeSymbol a) := by
  refine h.of_rows rfl rfl rfl rfl le_rfl rfl rfl ?_ ?_ (h.obj.remove a) h.art
  · intro s r _ hs
    simp only [Solver.removeSymbol, Option.map_eq_some_iff] at hs
    obtain ⟨r', e1, rfl⟩ := hs
    exact ⟨r', e1, rfl⟩
  · intro b r hs
    simp only [Solver.removeSymbol, Option.map_eq_some_iff] at hs
    obtain ⟨r', e1, rfl⟩ := hs
    exact (h.rows b r' e1).remove a

theorem entering_known {ω : Nat → Nat} {k : Nat} {S : Solver} {r : Row} {e : Sym} (hr : Known S r)
    (h : Solver.getEnteringSymbol ω k r = some e) : e.type = .external → ∃ v, S.varSym v = some e := by
  intro he
  have := pick_some h
  simp only [List.mem_filter, Bool.and_eq_true, decide_eq_true_eq] at this
  exact hr e he (ne_of_lt this.2.2)

theorem leaving_type {ω : Nat → Nat} {k : Nat} {S : Solver} {e l : Sym}
    (h : getLeavingRow rnd ω k S e = some l) : l.type ≠ .external := by
  have := (List.mem_filter.1 (pick_some h)).2
  intro hl
  have hn : leavingRatio rnd S e l = none := by
    unfold leavingRatio
    cases S.rows l with
    | none => rfl
    | some r => simp [hl]
  rw [hn] at this
  simp at this

theorem optimize_tidy (h0 : rnd 0 = 0) {ω : Nat → Nat} {sel : Solver → Row}
    (hsel : ∀ S, Tidy S → Known S (sel S)) : ∀ (fuel : Nat) {S T : Solver}, Tidy S →
    optimize rnd ω sel fuel S = .ok T → Tidy T ∧ T.idTick = S.idTick := by
  intro fuel
  induction fuel with
  | zero => intro S T _ h; cases h
  | succ fuel ih =>
    intro S T hS h
    simp only [optimize] at h
    split at h
    · cases h; exact ⟨hS, rfl⟩
    · split at h
      · cases h
      · split at h
        · cases h
        · rename_i _ e he _ l hl _ row hrow
          have hP := (hS.dropRow l (S.clock + 2)).pivotIn h0 (s := e)
            (row := solveForSymbols rnd row l e)
            ((hS.rows l row hrow).solveForSymbols (leaving_type hl) e)
            (entering_known (hsel S hS) he)
          obtain ⟨g1, g2⟩ := ih hP h
          refine ⟨g1, g2.trans ?_⟩
          rw [(FlFast.pivotIn_alike _ _ _).tick]

theorem known_artificialRow {S : Solver} (h : Tidy S) : Known S S.artificialRow := by
  unfold artificialRow
  cases ha : S.artificial with
  | none => intro t _ h0; exact absurd rfl h0
  | some a => exact h.art a ha

/-! ### Adding a constraint -/

theorem getVarSymbol_tidy {S : Solver} (h : Tidy S) (v : Var) :
    S.idTick ≤ (S.getVarSymbol v).1.idTick ∧ ((S.getVarSymbol v).1.idTick ≤ 256 →
      Tidy (S.getVarSymbol v).1 ∧ (S.getVarSymbol v).1.varSym v = some (S.getVarSymbol v).2 ∧
        ∀ r, Known S r → Known (S.getVarSymbol v).1 r) := by
  unfold getVarSymbol
  cases hv : S.varSym v with
  | some s => exact ⟨le_rfl, fun _ => ⟨h, hv, fun r hr => hr⟩⟩
  | none =>
    refine ⟨Nat.le_succ _, ?_⟩
    intro hn
    simp only at hn ⊢
    have hval := symbolAt_val (show S.idTick ≤ 255 by omega) .external
    have kn : ∀ u s, S.varSym u = some s →
        ∃ u', (fun u => if u = v then some (symbolAt S.idTick .external) else S.varSym u) u' = some s := by
      intro u s hu
      refine ⟨u, ?_⟩
      have : u ≠ v := by rintro rfl; rw [hv] at hu; exact absurd hu.symm (Option.some_ne_none s)
      simp only [this, if_false, hu]
    have kr : ∀ r, Known S r → Known { S with
        varSym := fun u => if u = v then some (symbolAt S.idTick .external) else S.varSym u
        varForSymbol := fun t => if t = symbolAt S.idTick .external then some v else S.varForSymbol t
        idTick := S.idTick + 1 } r := fun r hr => hr.of_varSym kn
    refine ⟨⟨⟨?_, ?_, ?_⟩, ⟨h.chg.noClear, ?_⟩, h.last, h.pub, ?_, ?_, kr _ h.obj, ?_⟩, by simp, kr⟩
    · intro u s hu
      simp only at hu
      split_ifs at hu with h'
      · cases hu; rfl
      · exact h.vars.type u s hu
    · intro u s hu
      simp only at hu ⊢
      split_ifs at hu with h'
      · cases hu; simp [h']
      · have : s ≠ symbolAt S.idTick .external := by
          rintro rfl
          have := h.vars.lt u _ hu
          omega
        rw [if_neg this]
        exact h.vars.back u s hu
    · intro u s hu
      simp only at hu ⊢
      split_ifs at hu with h'
      · cases hu; omega
      · have := h.vars.lt u s hu; omega
    · intro u s r hu hr hc
      simp only at hu hr ⊢
      split_ifs at hu with h'
      · cases hu
        obtain ⟨w, hw⟩ := h.basic _ r hr rfl
        have := h.vars.lt w _ hw
        omega
      · exact h.chg.mem u s r hu hr hc
    · intro b r hb he
      obtain ⟨u, hu⟩ := h.basic b r hb he
      exact kn u b hu
    · intro b r hb
      exact kr r (h.rows b r hb)
    · intro a ha
      exact kr a (h.art a ha)

theorem addTerms_tick (ts : List (Var × ℚ)) : ∀ (S : Solver) (row : Row),
    S.idTick ≤ (addTerms rnd S row ts).1.idTick := by
  induction ts with
  | nil => intro S row; exact le_rfl
  | cons t ts ih =>
    intro S row
    obtain ⟨v, k⟩ := t
    have hg : S.idTick ≤ (S.getVarSymbol v).1.idTick := by
      unfold getVarSymbol
      cases S.varSym v with
      | some s => exact le_rfl
      | none => exact Nat.le_succ _
    simp only [addTerms]
    split
    · exact ih S row
    · split
      · exact le_trans hg (ih _ _)
      · exact le_trans hg (ih _ _)

theorem addTerms_tidy (ts : List (Var × ℚ)) : ∀ (S : Solver) (row : Row), Tidy S → Known S row →
    (addTerms rnd S row ts).1.idTick ≤ 256 →
    Tidy (addTerms rnd S row ts).1 ∧ Known (addTerms rnd S row ts).1 (addTerms rnd S row ts).2 := by
  induction ts with
  | nil => intro S row h hr _; exact ⟨h, hr⟩
  | cons t ts ih =>
    intro S row h hr hn
    obtain ⟨v, k⟩ := t
    obtain ⟨h1, h2⟩ := getVarSymbol_tidy h v
    by_cases hz : nearZero k = true
    · simp only [addTerms, hz, if_true] at hn ⊢
      exact ih S row h hr hn
    · simp only [addTerms, hz] at hn ⊢
      cases hf : (S.getVarSymbol v).1.rows (S.getVarSymbol v).2 with
      | none =>
        simp only [hf] at hn ⊢
        obtain ⟨g1, g2, g3⟩ := h2 (le_trans (addTerms_tick ts _ _) hn)
        exact ih _ _ g1 ((g3 _ hr).insertSymbol _ (fun _ => ⟨v, g2⟩)) hn
      | some o =>
        simp only [hf] at hn ⊢
        obtain ⟨g1, g2, g3⟩ := h2 (le_trans (addTerms_tick ts _ _) hn)
        exact ih _ _ g1 ((g3 _ hr).insertRow (g1.rows _ o hf) _) hn

theorem addMarkers_tidy {S : Solver} (h : Tidy S) {row : Row} (hr : Known S row) (c : Constr) :
    Tidy (addMarkers rnd S row c).1 ∧ Known (addMarkers rnd S row c).1 (addMarkers rnd S row c).2.1 ∧
      (addMarkers rnd S row c).2.2.marker.type ≠ .external := by
  have slack : ∀ n, (symbolAt n .slack).type ≠ .external := fun n => by simp [symbolAt]
  have error : ∀ n, (symbolAt n .error).type ≠ .external := fun n => by simp [symbolAt]
  have dummy : ∀ n, (symbolAt n .dummy).type ≠ .external := fun n => by simp [symbolAt]
  have basic : ∀ (o : Row) (n : Nat), Known S o → S.idTick ≤ n →
      Tidy { S with idTick := n, objective := o } := fun o n ho hn =>
    h.of_rows rfl rfl rfl rfl hn rfl rfl (fun s r _ e => ⟨r, e, rfl⟩) (fun b r e => h.rows b r e) ho
      (fun a e => h.art a e)
  unfold addMarkers
  by_cases hs : c.strength < required
  · simp only [hs, if_true]
    cases c.op with
    | eq =>
      refine ⟨basic _ _ ((h.obj.insertSymbol _ (fun e => absurd e (error _))).insertSymbol _
        (fun e => absurd e (error _))) (by omega), ?_, error _⟩
      exact (hr.insertSymbol _ (fun e => absurd e (error _))).insertSymbol _ (fun e => absurd e (error _))
    | ge =>
      refine ⟨basic _ _ ((h.obj.insertSymbol _ (fun e => absurd e (error _)))) (by omega), ?_, slack _⟩
      exact (hr.insertSymbol _ (fun e => absurd e (slack _))).insertSymbol _ (fun e => absurd e (error _))
    | le =>
      refine ⟨basic _ _ ((h.obj.insertSymbol _ (fun e => absurd e (error _)))) (by omega), ?_, slack _⟩
      exact (hr.insertSymbol _ (fun e => absurd e (slack _))).insertSymbol _ (fun e => absurd e (error _))
  · simp only [hs, if_false]
    cases c.op with
    | eq =>
      exact ⟨basic _ _ h.obj (by omega), hr.insertSymbol _ (fun e => absurd e (dummy _)), dummy _⟩
    | ge =>
      exact ⟨basic _ _ h.obj (by omega), hr.insertSymbol _ (fun e => absurd e (slack _)), slack _⟩
    | le =>
      exact ⟨basic _ _ h.obj (by omega), hr.insertSymbol _ (fun e => absurd e (slack _)), slack _⟩

theorem addMarkers_tick (S : Solver) (row : Row) (c : Constr) :
    S.idTick ≤ (addMarkers rnd S row c).1.idTick := by
  unfold addMarkers
  by_cases hs : c.strength < required
  all_goals
    simp only [hs, if_true, if_false]
    cases c.op <;> simp only <;> omega

theorem createRow_tidy {S : Solver} (h : Tidy S) (c : Constr) : S.idTick ≤ (createRow rnd S c).1.idTick ∧
    ((createRow rnd S c).1.idTick ≤ 256 →
      Tidy (createRow rnd S c).1 ∧ Known (createRow rnd S c).1 (createRow rnd S c).2.1 ∧
        (createRow rnd S c).2.2.marker.type ≠ .external) := by
  unfold createRow
  simp only
  refine ⟨le_trans (addTerms_tick c.expr.terms S _) (addMarkers_tick _ _ c), ?_⟩
  intro hn
  obtain ⟨h1, h2⟩ := addTerms_tidy (rnd := rnd) c.expr.terms S (Row.new c.expr.constant) h
    (fun t _ h0 => absurd rfl h0) (le_trans (addMarkers_tick _ _ c) hn)
  obtain ⟨g1, g2, g3⟩ := addMarkers_tidy (rnd := rnd) h1 h2 c
  refine ⟨g1, ?_, g3⟩
  split
  · exact g2.reverseSign
  · exact g2

theorem subject_known {ω : Nat → Nat} {k : Nat} {S : Solver} {row : Row} {tag : Tag} {s : Sym}
    (hr : Known S row) (h : Solver.chooseSubject ω k row tag = some s) :
    s.type = .external → ∃ v, S.varSym v = some s := by
  intro he
  unfold Solver.chooseSubject at h
  split at h
  · rename_i s' hp
    cases h
    have := (List.mem_filter.1 (pick_some hp)).2
    simp only [Bool.and_eq_true, decide_eq_true_eq] at this
    exact hr s he this.2
  · have := List.find?_some h
    simp [he] at this

theorem optimize_tick {ω : Nat → Nat} {sel : Solver → Row} : ∀ (fuel : Nat) {S T : Solver},
    optimize rnd ω sel fuel S = .ok T → T.idTick = S.idTick := by
  intro fuel
  induction fuel with
  | zero => intro S T h; cases h
  | succ fuel ih =>
    intro S T h
    simp only [optimize] at h
    split at h
    · cases h; rfl
    · split at h
      · cases h
      · split at h
        · cases h
        · rw [ih h, (FlFast.pivotIn_alike _ _ _).tick]

theorem artificial_tick {ω : Nat → Nat} {fuel : Nat} {S T : Solver} {b : Bool} {row : Row}
    (hT : addWithArtificialVariable rnd ω fuel S row = .ok (T, b)) : S.idTick ≤ T.idTick := by
  unfold addWithArtificialVariable at hT
  simp only at hT
  split at hT
  · cases hT
  · rename_i S1 hS1
    have g3 : S.idTick ≤ S1.idTick := by rw [optimize_tick fuel hS1]; exact Nat.le_succ _
    unfold finishArtificial at hT
    simp only at hT
    split at hT
    · split at hT
      · cases hT; exact g3
      · split at hT
        · cases hT; exact g3
        · cases hT
          show S.idTick ≤ (pivotIn rnd _ _ _).idTick
          rw [(FlFast.pivotIn_alike _ _ _).tick]
          exact g3
    · cases hT
      exact g3

theorem artificial_tidy (h0 : rnd 0 = 0) {ω : Nat → Nat} {fuel : Nat} {S T : Solver} {b : Bool} {row : Row}
    (h : Tidy S) (hr : Known S row) (hT : addWithArtificialVariable rnd ω fuel S row = .ok (T, b)) :
    Tidy T := by
  have hslack : (symbolAt S.idTick .slack).type ≠ .external := by simp [symbolAt]
  have h1 : Tidy { S with
      idTick := S.idTick + 1
      rows := fun b => if b = symbolAt S.idTick .slack then some row else S.rows b
      artificial := some row } := by
    refine h.of_rows rfl rfl rfl rfl (Nat.le_succ _) rfl rfl ?_ ?_ h.obj ?_
    · intro s r he e
      have : s ≠ symbolAt S.idTick .slack := by rintro rfl; exact hslack he
      simp only [this, if_false] at e
      exact ⟨r, e, rfl⟩
    · intro b r e
      simp only at e
      split at e
      · cases e; exact hr
      · exact h.rows b r e
    · intro a e
      cases e; exact hr
  unfold addWithArtificialVariable at hT
  simp only at hT
  split at hT
  · cases hT
  · rename_i S1 hS1
    obtain ⟨g1, g2⟩ := optimize_tidy h0 (fun S hS => known_artificialRow hS) fuel h1 hS1
    have hno : Tidy { S1 with artificial := none } :=
      g1.of_rows rfl rfl rfl rfl le_rfl rfl rfl (fun s r _ e => ⟨r, e, rfl⟩) (fun b r e => g1.rows b r e) g1.obj
        (fun a e => (Option.some_ne_none a e.symm).elim)
    unfold finishArtificial at hT
    simp only at hT
    split at hT
    · rename_i row' hrow'
      have hd := hno.dropRow (symbolAt S.idTick .slack) S1.clock
      split at hT
      · cases hT; exact hd
      · split at hT
        · cases hT; exact hd
        · rename_i e he
          cases hT
          have hd' := hno.dropRow (symbolAt S.idTick .slack) (S1.clock + 1)
          have hk : Known S1 row' := g1.rows _ row' hrow'
          have hne : e.type ≠ .external := by
            have := (List.mem_filter.1 (pick_some he)).2
            simp only [Bool.and_eq_true, Bool.or_eq_true, decide_eq_true_eq] at this
            rcases this.1 with e1 | e1 <;> rw [e1] <;> simp
          have hP := hd'.pivotIn h0 (s := e) (row := solveForSymbols rnd row' (symbolAt S.idTick .slack) e)
            (Known.solveForSymbols (S := S1) hk hslack e) (fun e1 => absurd e1 hne)
          exact hP.removeSymbol _
    · cases hT
      exact hno.removeSymbol _

theorem insertConstraint_tidy (h0 : rnd 0 = 0) {ω : Nat → Nat} {fuel : Nat} {S T : Solver} {c : Constr}
    (h : Tidy S) (hT : insertConstraint rnd ω fuel S c = .ok T) (hn : T.idTick ≤ 256) :
    Tidy T := by
  obtain ⟨c1, c2⟩ := createRow_tidy (rnd := rnd) h c
  unfold insertConstraint at hT
  generalize hcr : createRow rnd S c = p at *
  obtain ⟨S1, row, tag⟩ := p
  simp only at hT c1 c2
  have clock : Tidy S1 → Tidy { S1 with clock := S1.clock + 1 } := fun t =>
    t.of_rows rfl rfl rfl rfl le_rfl rfl rfl (fun s r _ e => ⟨r, e, rfl⟩) (fun b r e => t.rows b r e) t.obj
      (fun a e => t.art a e)
  split at hT
  · rename_i s hs
    cases hT
    rw [(FlFast.pivotIn_alike _ _ _).tick] at hn
    obtain ⟨g1, g2, g3⟩ := c2 hn
    exact (clock g1).pivotIn h0 (Known.solveForSymbol (S := S1) g2 s) (subject_known g2 hs)
  · split at hT
    · split at hT
      · cases hT
      · cases hT
        rw [(FlFast.pivotIn_alike _ _ _).tick] at hn
        obtain ⟨g1, g2, g3⟩ := c2 hn
        exact (clock g1).pivotIn h0 (Known.solveForSymbol (S := S1) g2 _) (fun e => absurd e g3)
    · split at hT
      · cases hT
      · rename_i S3 hS3
        cases hT
        have hle := artificial_tick hS3
        obtain ⟨g1, g2, g3⟩ := c2 (le_trans hle hn)
        exact artificial_tidy h0 (S := { S1 with clock := S1.clock + 1 }) (clock g1) g2 hS3
      · cases hT

theorem addConstraint_tidy (h0 : rnd 0 = 0) {ω : Nat → Nat} {fuel : Nat} {S T : Solver} {c : Constr}
    (h : Tidy S) (hT : addConstraint rnd ω fuel S c = .ok T) (hn : T.idTick ≤ 256) : Tidy T := by
  unfold addConstraint at hT
  split at hT
  · cases hT
  · rename_i S1 hS1
    have ht := optimize_tick fuel hT
    have h1 := insertConstraint_tidy h0 h hS1 (by omega)
    exact (optimize_tidy h0 (fun S hS => hS.obj) fuel h1 hT).1

theorem createRow_tick (S : Solver) (c : Constr) : S.idTick ≤ (createRow rnd S c).1.idTick := by
  unfold createRow
  simp only
  exact le_trans (addTerms_tick c.expr.terms S _) (addMarkers_tick _ _ c)

theorem addConstraint_tick {ω : Nat → Nat} {fuel : Nat} {S T : Solver} {c : Constr}
    (hT : addConstraint rnd ω fuel S c = .ok T) : S.idTick ≤ T.idTick := by
  unfold addConstraint at hT
  split at hT
  · cases hT
  · rename_i S1 hS1
    rw [optimize_tick fuel hT]
    have hc := createRow_tick (rnd := rnd) S c
    unfold insertConstraint at hS1
    generalize hcr : createRow rnd S c = p at *
    obtain ⟨S2, row, tag⟩ := p
    simp only at hS1 hc
    split at hS1
    · cases hS1
      rw [(FlFast.pivotIn_alike _ _ _).tick]
      exact hc
    · split at hS1
      · split at hS1
        · cases hS1
        · cases hS1
          rw [(FlFast.pivotIn_alike _ _ _).tick]
          exact hc
      · split at hS1
        · cases hS1
        · rename_i S3 hS3
          cases hS1
          have hle := artificial_tick hS3
          exact le_trans hc hle
        · cases hS1

theorem addConstraints_tick {ω : Nat → Nat} {fuel : Nat} (cs : List Constr) : ∀ {S T : Solver},
    addConstraints rnd ω fuel S cs = .ok T → S.idTick ≤ T.idTick := by
  induction cs with
  | nil => intro S T h; cases h; exact le_rfl
  | cons c cs ih =>
    intro S T h
    simp only [addConstraints] at h
    split at h
    · cases h
    · rename_i S1 hS1
      exact le_trans (addConstraint_tick hS1) (ih h)

theorem addConstraints_tidy (h0 : rnd 0 = 0) {ω : Nat → Nat} {fuel : Nat} (cs : List Constr) : ∀ {S T : Solver},
    Tidy S → addConstraints rnd ω fuel S cs = .ok T → T.idTick ≤ 256 → Tidy T := by
  induction cs with
  | nil => intro S T h hT _; cases hT; exact h
  | cons c cs ih =>
    intro S T h hT hn
    simp only [addConstraints] at hT
    split at hT
    · cases hT
    · rename_i S1 hS1
      exact ih (addConstraint_tidy h0 h hS1 (le_trans (addConstraints_tick cs hT) hn)) hT hn

end Bento.Casso.Fl

namespace Bento.Layout
open Casso

/-- `SplitWithSpacers` with rounding, on lists; `none` if the symbol counter wraps around. -/
def roundedSplit (rnd : ℚ → ℚ) (ω : Nat → Nat) (fuel : Nat) (l : Layout) (area : Rect) : Option Outcome :=
  let inner := area.inner l.padding
  match l.solverConstraints inner with
  | none => some .panics
  | some cs =>
    match FlFast.addConstraints rnd ω fuel Fast.new 0 (cs.map (Fl.roundConstr rnd)) with
    | .error .fuel => some .running
    | .error _ => some .panics
    | .ok (F, _) =>
      if F.tick ≤ 256 then
        some (.ok ((segmentElements l.constraints.length).map
              (Fl.elementRect rnd (Fast.getValue F) inner l.direction))
            ((spacerElements l.constraints.length).map
              (Fl.elementRect rnd (Fast.getValue F) inner l.direction)))
      else none

/-- `SplitWithSpacers` with rounding can be evaluated with the list-based solver. -/
theorem split_of_rounded {rnd : ℚ → ℚ} (h0 : rnd 0 = 0) {ω : Nat → Nat} {fuel : Nat} {l : Layout} {area : Rect}
    {o : Outcome} (h : roundedSplit rnd ω fuel l area = some o) :
    Fl.splitWithSpacers rnd ω fuel l area = o := by
  unfold roundedSplit at h
  unfold Fl.splitWithSpacers
  simp only at h ⊢
  cases hcs : l.solverConstraints (area.inner l.padding) with
  | none =>
    simp only [hcs, Option.some.injEq] at h ⊢
    exact h
  | some cs =>
    simp only [hcs] at h ⊢
    have hrel := FlFast.rel_addConstraints (rnd := rnd) ω fuel (cs.map (Fl.roundConstr rnd)) _ _ _ Fast.Rel.new
    cases hF : FlFast.addConstraints rnd ω fuel Fast.new 0 (cs.map (Fl.roundConstr rnd)) with
    | error e =>
      rw [hF] at h hrel
      cases hS : Fl.addConstraints rnd ω fuel Solver.new (cs.map (Fl.roundConstr rnd)) with
      | ok S => rw [hS] at hrel; exact hrel.elim
      | error e' =>
        rw [hS] at hrel
        have : e = e' := hrel
        subst this
        cases e <;> simp only [Option.some.injEq] at h ⊢ <;> exact h
    | ok p =>
      rw [hF] at h hrel
      cases hS : Fl.addConstraints rnd ω fuel Solver.new (cs.map (Fl.roundConstr rnd)) with
      | error e' => rw [hS] at hrel; exact hrel.elim
      | ok S =>
        rw [hS] at hrel
        have hR : Fast.Rel p.1 p.2 S := hrel
        simp only at h ⊢
        split at h
        · rename_i ht
          have hT := Fl.addConstraints_tidy h0 _ Fl.Tidy.new hS (by rw [hR.tick]; exact ht)
          have hfetch := fetch_values hT.chg hT.last hT.pub
          rw [changesMap_eq hfetch.1 hfetch.2, show S.getValue = Fast.getValue p.1 from funext hR.getValue]
          simp only [Option.some.injEq] at h
          exact h
        · exact absurd h.symm (Option.some_ne_none o)

end Bento.Layout
