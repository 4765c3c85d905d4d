import Verif.Model.Variables
import Mathlib.Data.List.Nodup

/-!
# The solver does not look at the numbers of its variables

If the constraints are renamed by an injective function, the run of the solver is the same up to that
renaming. The proof carries along that every external symbol in use stands for a variable, since the
lookup of a missing symbol would read as the variable 0.
-/

namespace Bento.Casso

/-- An expression with renamed variables. -/
def Expr.rename (ρ : Var → Var) (e : Expr) : Expr := ⟨e.terms.map fun t => (ρ t.1, t.2), e.constant⟩

/-- A constraint with renamed variables. -/
def Constr.rename (ρ : Var → Var) (c : Constr) : Constr := ⟨c.expr.rename ρ, c.op, c.strength⟩

namespace Solver

/-- The row mentions no external symbol that does not stand for a variable. -/
def KnownRow (S : Solver) (r : Row) : Prop :=
  ∀ s : Sym, s.type = .external → S.varForSymbol s = none → r.cells s = 0

/-- Two solvers that differ in the names of the variables only. -/
structure Renamed (ρ : Var → Var) (S S' : Solver) : Prop where
  sym : ∀ v, S'.varSym (ρ v) = S.varSym v
  last : ∀ v, S'.varLast (ρ v) = S.varLast v
  back : ∀ s, S'.varForSymbol s = (S.varForSymbol s).map ρ
  changed : S'.changed = S.changed.map ρ
  clear : S'.shouldClearChanges = S.shouldClearChanges
  empty : S.publicChanges = []
  empty' : S'.publicChanges = []
  rows : S'.rows = S.rows
  objective : S'.objective = S.objective
  artificial : S'.artificial = S.artificial
  idTick : S'.idTick = S.idTick
  clock : S'.clock = S.clock
  knownBasic : ∀ s : Sym, s.type = .external → S.varForSymbol s = none → S.rows s = none
  knownRows : ∀ b r, S.rows b = some r → S.KnownRow r
  knownObjective : S.KnownRow S.objective
  knownArtificial : ∀ r, S.artificial = some r → S.KnownRow r
  knownSym : ∀ v s, S.varSym v = some s → S.varForSymbol s ≠ none

variable {ρ : Var → Var} (hρ : Function.Injective ρ)

theorem varChanged_fields (S : Solver) (v : Var) :
    (S.varChanged v).varSym = S.varSym ∧ (S.varChanged v).varLast = S.varLast ∧
    (S.varChanged v).varForSymbol = S.varForSymbol ∧
    (S.varChanged v).publicChanges = S.publicChanges ∧
    (S.varChanged v).rows = S.rows ∧ (S.varChanged v).objective = S.objective ∧
    (S.varChanged v).artificial = S.artificial ∧ (S.varChanged v).idTick = S.idTick ∧
    (S.varChanged v).clock = S.clock := by
  unfold varChanged
  split
  · exact ⟨rfl, rfl, rfl, rfl, rfl, rfl, rfl, rfl, rfl⟩
  · split <;> exact ⟨rfl, rfl, rfl, rfl, rfl, rfl, rfl, rfl, rfl⟩

include hρ in
theorem Renamed.varChanged {S S' : Solver} (h : Renamed ρ S S') (v : Var) :
    Renamed ρ (S.varChanged v) (S'.varChanged (ρ v)) := by
  obtain ⟨a1, a2, a3, a4, a5, a6, a7, a8, a9⟩ := varChanged_fields S v
  obtain ⟨b1, b2, b3, b4, b5, b6, b7, b8, b9⟩ := varChanged_fields S' (ρ v)
  have hc : (S'.varChanged (ρ v)).changed = (S.varChanged v).changed.map ρ ∧
      (S'.varChanged (ρ v)).shouldClearChanges = (S.varChanged v).shouldClearChanges := by
    unfold Solver.varChanged
    rw [h.clear]
    by_cases hb : S.shouldClearChanges = true
    · rw [if_pos hb, if_pos hb]; exact ⟨rfl, rfl⟩
    · rw [if_neg hb, if_neg hb, h.changed]
      have hm : ρ v ∈ S.changed.map ρ ↔ v ∈ S.changed := by
        rw [List.mem_map]
        constructor
        · rintro ⟨w, hw, e⟩
          rwa [← hρ e]
        · exact fun hw => ⟨v, hw, rfl⟩
      by_cases hv : v ∈ S.changed
      · rw [if_pos hv, if_pos (hm.2 hv)]; exact ⟨h.changed, h.clear⟩
      · rw [if_neg hv, if_neg (fun x => hv (hm.1 x))]; exact ⟨rfl, rfl⟩
  constructor
  · rw [a1, b1]; exact h.sym
  · rw [a2, b2]; exact h.last
  · rw [a3, b3]; exact h.back
  · exact hc.1
  · exact hc.2
  · rw [a4]; exact h.empty
  · rw [b4]; exact h.empty'
  · rw [a5, b5]; exact h.rows
  · rw [a6, b6]; exact h.objective
  · rw [a7, b7]; exact h.artificial
  · rw [a8, b8]; exact h.idTick
  · rw [a9, b9]; exact h.clock
  · rw [a3, a5]; exact h.knownBasic
  · unfold KnownRow; rw [a3, a5]; exact h.knownRows
  · unfold KnownRow; rw [a3, a6]; exact h.knownObjective
  · unfold KnownRow; rw [a3, a7]; exact h.knownArtificial
  · rw [a1, a3]; exact h.knownSym

include hρ in
theorem Renamed.foldChanged (vs : List Var) : ∀ {S S' : Solver}, Renamed ρ S S' →
    Renamed ρ (vs.foldl Solver.varChanged S) ((vs.map ρ).foldl Solver.varChanged S') := by
  induction vs with
  | nil => intro S S' h; exact h
  | cons v vs ih => intro S S' h; exact ih (h.varChanged hρ v)

theorem foldChanged_fields (vs : List Var) : ∀ (S : Solver),
    (vs.foldl Solver.varChanged S).varForSymbol = S.varForSymbol ∧
    (vs.foldl Solver.varChanged S).rows = S.rows := by
  induction vs with
  | nil => intro S; exact ⟨rfl, rfl⟩
  | cons v vs ih =>
    intro S
    obtain ⟨_, _, a3, _, a5, _⟩ := varChanged_fields S v
    obtain ⟨h1, h2⟩ := ih (S.varChanged v)
    exact ⟨h1.trans a3, h2.trans a5⟩

theorem substitute_keeps (S : Solver) (s : Sym) (row : Row) :
    (S.substitute s row).varForSymbol = S.varForSymbol := (foldChanged_fields _ _).1

theorem Renamed.varOf {S S' : Solver} (h : Renamed ρ S S') {s : Sym}
    (hs : S.varForSymbol s ≠ none) : S'.varOf s = ρ (S.varOf s) := by
  unfold Solver.varOf
  rw [h.back]
  cases hv : S.varForSymbol s with
  | none => exact absurd hv hs
  | some v => rfl

theorem Renamed.substChanged {S S' : Solver} (h : Renamed ρ S S') (s : Sym) (row : Row) :
    S'.substChanged s row = (S.substChanged s row).map ρ := by
  unfold Solver.substChanged
  rw [h.rows, List.map_filterMap]
  apply List.filterMap_congr
  intro b _
  cases hb : S.rows b with
  | none => rfl
  | some r =>
    simp only
    by_cases hc : b.type = .external ∧ (r.substitute s row).2 = true
    · rw [if_pos hc, if_pos hc]
      have : S.varForSymbol b ≠ none := by
        intro hn
        have := h.knownBasic b hc.1 hn
        rw [hb] at this
        cases this
      rw [h.varOf this]; rfl
    · rw [if_neg hc, if_neg hc]; rfl

theorem KnownRow.substitute {S : Solver} {r row : Row} (hr : S.KnownRow r) (hrow : S.KnownRow row)
    (s : Sym) : S.KnownRow (r.substitute s row).1 := by
  unfold Row.substitute
  split
  · intro t ht hn
    simp only [Row.insertRow, Row.remove]
    rw [hrow t ht hn]
    split
    · simp
    · rw [hr t ht hn]; simp
  · exact hr

include hρ in
theorem Renamed.substitute {S S' : Solver} (h : Renamed ρ S S') (s : Sym) {row : Row}
    (hrow : S.KnownRow row) : Renamed ρ (S.substitute s row) (S'.substitute s row) := by
  unfold Solver.substitute
  rw [h.substChanged]
  apply Renamed.foldChanged hρ
  refine ⟨h.sym, h.last, h.back, h.changed, h.clear, h.empty, h.empty', ?_, ?_, ?_, h.idTick, h.clock,
    ?_, ?_, ?_, ?_, h.knownSym⟩
  · simp only [h.rows]
  · simp only [h.objective]
  · simp only [h.artificial]
  · intro t ht hn
    simp only
    rw [h.knownBasic t ht hn]; rfl
  · intro b r hb
    simp only at hb
    cases hb' : S.rows b with
    | none => rw [hb'] at hb; cases hb
    | some r' =>
      rw [hb'] at hb
      cases hb
      exact (h.knownRows b r' hb').substitute hrow s
  · exact h.knownObjective.substitute hrow s
  · intro r hr
    simp only at hr
    cases ha : S.artificial with
    | none => rw [ha] at hr; cases hr
    | some r' =>
      rw [ha] at hr
      cases hr
      exact (h.knownArtificial r' ha).substitute hrow s

include hρ in
theorem Renamed.pivotIn {S S' : Solver} (h : Renamed ρ S S') {s : Sym} {row : Row}
    (hs : s.type = .external → S.varForSymbol s ≠ none) (hrow : S.KnownRow row) :
    Renamed ρ (S.pivotIn s row) (S'.pivotIn s row) := by
  have h1 := h.substitute hρ s hrow
  have hk := substitute_keeps S s row
  have h2 : Renamed ρ
      (if s.type = .external ∧ row.constant ≠ 0 then
        (S.substitute s row).varChanged ((S.substitute s row).varOf s) else S.substitute s row)
      (if s.type = .external ∧ row.constant ≠ 0 then
        (S'.substitute s row).varChanged ((S'.substitute s row).varOf s) else S'.substitute s row) ∧
      (if s.type = .external ∧ row.constant ≠ 0 then
        (S.substitute s row).varChanged ((S.substitute s row).varOf s)
        else S.substitute s row).varForSymbol = S.varForSymbol := by
    by_cases hc : s.type = .external ∧ row.constant ≠ 0
    · rw [if_pos hc, if_pos hc]
      rw [h1.varOf (by rw [hk]; exact hs hc.1)]
      exact ⟨h1.varChanged hρ _, (varChanged_fields _ _).2.2.1.trans hk⟩
    · rw [if_neg hc, if_neg hc]
      exact ⟨h1, hk⟩
  obtain ⟨h2, hf⟩ := h2
  unfold Solver.pivotIn
  simp only
  generalize hT : (if s.type = .external ∧ row.constant ≠ 0 then
        (S.substitute s row).varChanged ((S.substitute s row).varOf s) else S.substitute s row) = T
    at h2 hf ⊢
  generalize hT' : (if s.type = .external ∧ row.constant ≠ 0 then
        (S'.substitute s row).varChanged ((S'.substitute s row).varOf s)
        else S'.substitute s row) = T' at h2 ⊢
  refine ⟨h2.sym, h2.last, h2.back, h2.changed, h2.clear, h2.empty, h2.empty', ?_, h2.objective,
    h2.artificial, h2.idTick, h2.clock, ?_, ?_, h2.knownObjective, h2.knownArtificial,
    h2.knownSym⟩
  · simp only [h2.rows]
  · intro t ht hn
    simp only at hn ⊢
    rw [if_neg]
    · exact h2.knownBasic t ht hn
    · intro e
      subst e
      rw [hf] at hn
      exact hs ht hn
  · intro b r hb
    simp only at hb
    intro t ht hn
    simp only at hn
    split at hb
    · cases hb
      rw [hf] at hn
      exact hrow t ht hn
    · exact h2.knownRows b r hb t ht hn

theorem KnownRow.solveForSymbol {S : Solver} {r : Row} (hr : S.KnownRow r) (s : Sym) :
    S.KnownRow (r.solveForSymbol s) := by
  intro t ht hn
  simp only [Row.solveForSymbol]
  split
  · rfl
  · rw [hr t ht hn]; simp

theorem KnownRow.insertSymbol {S : Solver} {r : Row} (hr : S.KnownRow r) {s : Sym}
    (hs : s.type = .external → S.varForSymbol s ≠ none) (k : ℚ) :
    S.KnownRow (r.insertSymbol s k) := by
  intro t ht hn
  simp only [Row.insertSymbol]
  split
  · rename_i e
    subst e
    exact absurd hn (hs ht)
  · exact hr t ht hn

theorem KnownRow.insertRow {S : Solver} {r other : Row} (hr : S.KnownRow r)
    (ho : S.KnownRow other) (k : ℚ) : S.KnownRow (r.insertRow other k).1 := by
  intro t ht hn
  simp only [Row.insertRow]
  rw [hr t ht hn, ho t ht hn]; simp

theorem KnownRow.reverseSign {S : Solver} {r : Row} (hr : S.KnownRow r) :
    S.KnownRow r.reverseSign := by
  intro t ht hn
  simp only [Row.reverseSign]
  rw [hr t ht hn]; simp

theorem KnownRow.remove {S : Solver} {r : Row} (hr : S.KnownRow r) (s : Sym) :
    S.KnownRow (r.remove s) := by
  intro t ht hn
  simp only [Row.remove]
  split
  · rfl
  · exact hr t ht hn

theorem pick_mem {ω : Nat → Nat} {k : Nat} {l : List Sym} {s : Sym} (h : pick ω k l = some s) :
    s ∈ l := List.mem_of_getElem? h

/-- Two outcomes that differ in the names of the variables only. -/
def RenamedResult (ρ : Var → Var) : Except SolverErr Solver → Except SolverErr Solver → Prop
  | .ok S, .ok S' => Renamed ρ S S'
  | .error e, .error e' => e = e'
  | _, _ => False

include hρ in
theorem Renamed.optimize (ω : Nat → Nat) (sel : Solver → Row)
    (hsel : ∀ S S', Renamed ρ S S' → sel S' = sel S ∧ S.KnownRow (sel S)) (fuel : Nat) :
    ∀ {S S' : Solver}, Renamed ρ S S' →
      RenamedResult ρ (Solver.optimize ω sel fuel S) (Solver.optimize ω sel fuel S') := by
  induction fuel with
  | zero => intro S S' h; exact rfl
  | succ fuel ih =>
    intro S S' h
    have hl : ∀ k e, getLeavingRow ω k S' e = getLeavingRow ω k S e := by
      intro k e
      unfold getLeavingRow leavingRatio
      rw [h.rows]
    unfold Solver.optimize
    rw [(hsel S S' h).1, h.clock]
    cases he : getEnteringSymbol ω S.clock (sel S) with
    | none => exact h
    | some entering =>
      simp only [hl]
      cases hlv : getLeavingRow ω (S.clock + 1) S entering with
      | none => exact rfl
      | some leaving =>
        simp only [h.rows]
        cases hr : S.rows leaving with
        | none => exact rfl
        | some row =>
          simp only
          have hent : entering.type = .external → S.varForSymbol entering ≠ none := by
            intro ht hn
            have hm := pick_mem he
            rw [List.mem_filter, Bool.and_eq_true, decide_eq_true_eq, decide_eq_true_eq] at hm
            have := (hsel S S' h).2 entering ht hn
            rw [this] at hm
            exact absurd hm.2.2 (lt_irrefl _)
          have hleav : leaving.type = .external → S.varForSymbol leaving ≠ none := by
            intro ht hn
            have := h.knownBasic leaving ht hn
            rw [hr] at this
            cases this
          apply ih
          apply Renamed.pivotIn hρ
          · refine ⟨h.sym, h.last, h.back, h.changed, h.clear, h.empty, h.empty', by simp only [],
              h.objective, h.artificial, h.idTick, by simp only [], ?_, ?_, h.knownObjective,
              h.knownArtificial, h.knownSym⟩
            · intro t ht hn
              simp only at hn ⊢
              rw [h.knownBasic t ht hn]
              split <;> rfl
            · intro b r hb
              simp only at hb
              split at hb
              · cases hb
              · exact h.knownRows b r hb
          · exact hent
          · exact ((h.knownRows leaving row hr).insertSymbol hleav (-1)).solveForSymbol entering

include hρ in
theorem Renamed.getVarSymbol {S S' : Solver} (h : Renamed ρ S S') (v : Var) :
    Renamed ρ (S.getVarSymbol v).1 (S'.getVarSymbol (ρ v)).1 ∧
      (S'.getVarSymbol (ρ v)).2 = (S.getVarSymbol v).2 ∧
      ((S.getVarSymbol v).2.type = .external →
        (S.getVarSymbol v).1.varForSymbol (S.getVarSymbol v).2 ≠ none) ∧
      (∀ r, S.KnownRow r → (S.getVarSymbol v).1.KnownRow r) := by
  unfold Solver.getVarSymbol
  rw [h.sym]
  cases hv : S.varSym v with
  | some s => exact ⟨h, rfl, fun _ => h.knownSym v s hv, fun r hr => hr⟩
  | none =>
    simp only [h.idTick]
    have weaken : ∀ (t : Sym), (if t = symbolAt S.idTick .external then some v
        else S.varForSymbol t) = none → S.varForSymbol t = none := by
      intro t ht
      split at ht
      · cases ht
      · exact ht
    refine ⟨⟨?_, h.last, ?_, h.changed, h.clear, h.empty, h.empty', h.rows, h.objective,
      h.artificial, by simp only [], h.clock, ?_, ?_, ?_, ?_, ?_⟩, trivial, ?_, ?_⟩
    · intro w
      simp only
      by_cases hw : w = v
      · subst hw; simp
      · rw [if_neg hw, if_neg (fun e => hw (hρ e))]; exact h.sym w
    · intro s
      simp only
      split
      · rfl
      · exact h.back s
    · intro t ht hn
      exact h.knownBasic t ht (weaken t hn)
    · intro b r hb t ht hn
      exact h.knownRows b r hb t ht (weaken t hn)
    · intro t ht hn
      exact h.knownObjective t ht (weaken t hn)
    · intro r hr t ht hn
      exact h.knownArtificial r hr t ht (weaken t hn)
    · intro w s hw hn
      simp only at hw hn
      split at hw
      · cases hw
        simp at hn
      · exact h.knownSym w s hw (weaken s hn)
    · intro _
      simp
    · intro r hr t ht hn
      exact hr t ht (weaken t hn)

include hρ in
theorem Renamed.addTerms (ts : List (Var × ℚ)) : ∀ {S S' : Solver} {row : Row}, Renamed ρ S S' →
    S.KnownRow row →
    Renamed ρ (S.addTerms row ts).1 (S'.addTerms row (ts.map fun t => (ρ t.1, t.2))).1 ∧
      (S'.addTerms row (ts.map fun t => (ρ t.1, t.2))).2 = (S.addTerms row ts).2 ∧
      (S.addTerms row ts).1.KnownRow (S.addTerms row ts).2 := by
  induction ts with
  | nil => intro S S' row h hr; exact ⟨h, rfl, hr⟩
  | cons t ts ih =>
    obtain ⟨v, k⟩ := t
    intro S S' row h hr
    rw [List.map_cons]
    unfold Solver.addTerms
    simp only
    by_cases hk : k = 0
    · rw [if_pos hk, if_pos hk]
      exact ih h hr
    · rw [if_neg hk, if_neg hk]
      obtain ⟨h1, h2, h3, h4⟩ := h.getVarSymbol hρ v
      rw [h2, h1.rows]
      cases ho : (S.getVarSymbol v).1.rows (S.getVarSymbol v).2 with
      | some other => exact ih h1 ((h4 row hr).insertRow (h1.knownRows _ _ ho) k)
      | none => exact ih h1 ((h4 row hr).insertSymbol h3 k)

theorem symbolAt_type (n : Nat) (t : SymType) : (symbolAt n t).type = t := rfl

theorem not_external {S : Solver} {n : Nat} {t : SymType} (ht : t ≠ .external) :
    (symbolAt n t).type = .external → S.varForSymbol (symbolAt n t) ≠ none :=
  fun h => absurd h ht

theorem Renamed.bump {S S' : Solver} (h : Renamed ρ S S') (n : Nat) (obj : Row)
    (ho : S.KnownRow obj) :
    Renamed ρ { S with idTick := n, objective := obj } { S' with idTick := n, objective := obj } :=
  ⟨h.sym, h.last, h.back, h.changed, h.clear, h.empty, h.empty', h.rows, rfl, h.artificial, rfl,
    h.clock, h.knownBasic, h.knownRows, ho, h.knownArtificial, h.knownSym⟩

theorem Renamed.addMarkers {S S' : Solver} (h : Renamed ρ S S') {row : Row} (hr : S.KnownRow row)
    (c : Constr) :
    Renamed ρ (S.addMarkers row c).1 (S'.addMarkers row (c.rename ρ)).1 ∧
      (S'.addMarkers row (c.rename ρ)).2 = (S.addMarkers row c).2 ∧
      (S.addMarkers row c).1.KnownRow (S.addMarkers row c).2.1 ∧
      (S.addMarkers row c).2.2.marker.type ≠ .external := by
  have hS : SymType.slack ≠ .external := by decide
  have hE : SymType.error ≠ .external := by decide
  have hD : SymType.dummy ≠ .external := by decide
  unfold Solver.addMarkers
  simp only [Constr.rename, h.idTick, h.objective]
  cases c.op <;> simp only
  all_goals
    by_cases hs : c.strength < required
    · rw [if_pos hs, if_pos hs]
      refine ⟨h.bump _ _ ?_, rfl, ?_, by simp [symbolAt_type]⟩
      · first
        | exact h.knownObjective.insertSymbol (not_external hE) _
        | exact (h.knownObjective.insertSymbol (not_external hE) _).insertSymbol (not_external hE) _
      · first
        | exact (hr.insertSymbol (not_external hS) _).insertSymbol (not_external hE) _
        | exact (hr.insertSymbol (not_external hE) _).insertSymbol (not_external hE) _
    · rw [if_neg hs, if_neg hs]
      refine ⟨h.bump _ _ h.knownObjective, rfl, ?_, by simp [symbolAt_type]⟩
      · first
        | exact hr.insertSymbol (not_external hS) _
        | exact hr.insertSymbol (not_external hD) _

include hρ in
theorem Renamed.createRow {S S' : Solver} (h : Renamed ρ S S') (c : Constr) :
    Renamed ρ (S.createRow c).1 (S'.createRow (c.rename ρ)).1 ∧
      (S'.createRow (c.rename ρ)).2 = (S.createRow c).2 ∧
      (S.createRow c).1.KnownRow (S.createRow c).2.1 ∧
      (S.createRow c).2.2.marker.type ≠ .external := by
  have h0 : S.KnownRow (Row.new c.expr.constant) := fun _ _ _ => rfl
  obtain ⟨h1, h2, h3⟩ := h.addTerms hρ c.expr.terms h0
  obtain ⟨h4, h5, h6, h7⟩ := h1.addMarkers h3 c
  unfold Solver.createRow
  have e1 : (c.rename ρ).expr.terms = c.expr.terms.map fun t => (ρ t.1, t.2) := rfl
  have e2 : (c.rename ρ).expr.constant = c.expr.constant := rfl
  rw [e1, e2]
  simp only
  rw [h2]
  revert h4 h5 h6 h7
  generalize (S'.addTerms (Row.new c.expr.constant)
    (c.expr.terms.map fun t => (ρ t.1, t.2))).1.addMarkers
      (S.addTerms (Row.new c.expr.constant) c.expr.terms).2 (c.rename ρ) = A'
  generalize (S.addTerms (Row.new c.expr.constant) c.expr.terms).1.addMarkers
      (S.addTerms (Row.new c.expr.constant) c.expr.terms).2 c = A
  obtain ⟨S2, row2, tag2⟩ := A
  obtain ⟨S2', row2', tag2'⟩ := A'
  intro h4 h5 h6 h7
  simp only [Prod.mk.injEq] at h4 h5 h6 h7
  obtain ⟨e1, e2⟩ := h5
  subst e1 e2
  refine ⟨h4, rfl, ?_, h7⟩
  simp only
  split
  · exact h6.reverseSign
  · exact h6

theorem Renamed.clocked {S S' : Solver} (h : Renamed ρ S S') (n : Nat) :
    Renamed ρ { S with clock := n } { S' with clock := n } :=
  ⟨h.sym, h.last, h.back, h.changed, h.clear, h.empty, h.empty', h.rows, h.objective, h.artificial,
    h.idTick, rfl, h.knownBasic, h.knownRows, h.knownObjective, h.knownArtificial, h.knownSym⟩

theorem Renamed.removeSymbol {S S' : Solver} (h : Renamed ρ S S') (art : Sym) :
    Renamed ρ (S.removeSymbol art) (S'.removeSymbol art) := by
  unfold Solver.removeSymbol
  refine ⟨h.sym, h.last, h.back, h.changed, h.clear, h.empty, h.empty', by simp only [h.rows],
    by simp only [h.objective], h.artificial, h.idTick, h.clock, ?_, ?_,
    h.knownObjective.remove art, h.knownArtificial, h.knownSym⟩
  · intro t ht hn
    simp only
    rw [h.knownBasic t ht hn]; rfl
  · intro b r hb
    simp only at hb
    cases hb' : S.rows b with
    | none => rw [hb'] at hb; cases hb
    | some r' =>
      rw [hb'] at hb
      cases hb
      exact (h.knownRows b r' hb').remove art

theorem Renamed.noArtificial {S S' : Solver} (h : Renamed ρ S S') :
    Renamed ρ { S with artificial := none } { S' with artificial := none } :=
  ⟨h.sym, h.last, h.back, h.changed, h.clear, h.empty, h.empty', h.rows, h.objective, rfl,
    h.idTick, h.clock, h.knownBasic, h.knownRows, h.knownObjective, (fun _ hr => nomatch hr),
    h.knownSym⟩

theorem Renamed.dropRow {S S' : Solver} (h : Renamed ρ S S') (art : Sym) :
    Renamed ρ { S with rows := fun b => if b = art then none else S.rows b }
      { S' with rows := fun b => if b = art then none else S'.rows b } := by
  refine ⟨h.sym, h.last, h.back, h.changed, h.clear, h.empty, h.empty', by simp only [h.rows],
    h.objective, h.artificial, h.idTick, h.clock, ?_, ?_, h.knownObjective, h.knownArtificial,
    h.knownSym⟩
  · intro t ht hn
    simp only at hn ⊢
    rw [h.knownBasic t ht hn]
    split <;> rfl
  · intro b r hb
    simp only at hb
    split at hb
    · cases hb
    · exact h.knownRows b r hb

include hρ in
theorem Renamed.finishArtificial (ω : Nat → Nat) {art : Sym} (hart : art.type ≠ .external)
    {S S' : Solver} (h : Renamed ρ S S') :
    Renamed ρ (finishArtificial ω art S).1 (Solver.finishArtificial ω art S').1 ∧
      (Solver.finishArtificial ω art S').2 = (Solver.finishArtificial ω art S).2 := by
  obtain ⟨s1, s2, s3, s4, s5, s6, rows', s8, art', s10, clock'⟩ := S'
  obtain rfl : rows' = S.rows := h.rows
  obtain rfl : art' = S.artificial := h.artificial
  obtain rfl : clock' = S.clock := h.clock
  unfold Solver.finishArtificial
  simp only [Solver.artificialRow]
  cases hr : S.rows art with
  | none => exact ⟨h.noArtificial.removeSymbol art, rfl⟩
  | some row =>
    simp only
    have hd := h.noArtificial.dropRow art
    simp only at hd
    by_cases hn : row.noCells = true
    · rw [if_pos hn, if_pos hn]
      exact ⟨hd, rfl⟩
    · rw [if_neg hn, if_neg hn]
      cases he : anyPivotableSymbol ω S.clock row with
      | none => exact ⟨hd, rfl⟩
      | some entering =>
        simp only
        refine ⟨Renamed.removeSymbol (Renamed.pivotIn hρ (hd.clocked _) ?_ ?_) art, rfl⟩
        · intro ht
          have hm := pick_mem he
          rw [List.mem_filter, Bool.and_eq_true, Bool.or_eq_true, decide_eq_true_eq,
            decide_eq_true_eq] at hm
          rw [ht] at hm
          rcases hm.2.1 with e | e <;> cases e
        · exact ((h.knownRows art row hr).insertSymbol (fun e => absurd e hart) (-1)).solveForSymbol _

theorem objective_ok (S S' : Solver) (h : Renamed ρ S S') :
    Solver.objective S' = Solver.objective S ∧ S.KnownRow (Solver.objective S) :=
  ⟨h.objective, h.knownObjective⟩

theorem artificial_ok (S S' : Solver) (h : Renamed ρ S S') :
    artificialRow S' = artificialRow S ∧ S.KnownRow (artificialRow S) := by
  unfold artificialRow
  rw [h.artificial]
  refine ⟨rfl, ?_⟩
  cases ha : S.artificial with
  | none => exact fun _ _ _ => rfl
  | some r => exact h.knownArtificial r ha

include hρ in
theorem Renamed.addConstraint (ω : Nat → Nat) (fuel : Nat) {S S' : Solver} (h : Renamed ρ S S')
    (c : Constr) :
    RenamedResult ρ (S.addConstraint ω fuel c) (S'.addConstraint ω fuel (c.rename ρ)) := by
  obtain ⟨h1, h2, h3, h4⟩ := h.createRow hρ c
  have key : RenamedResult ρ (S.insertConstraint ω fuel c)
      (S'.insertConstraint ω fuel (c.rename ρ)) := by
    unfold Solver.insertConstraint
    simp only
    revert h1 h2 h3 h4
    generalize S'.createRow (c.rename ρ) = A'
    generalize S.createRow c = A
    obtain ⟨S1, row, tag⟩ := A
    obtain ⟨⟨s1, s2, s3, s4, s5, s6, s7, s8, s9, tick', clock'⟩, row', tag'⟩ := A'
    intro h1 h2 h3 h4
    simp only [Prod.mk.injEq] at h1 h2 h3 h4
    obtain ⟨e1, e2⟩ := h2
    obtain rfl := e1.symm
    obtain rfl := e2.symm
    obtain rfl : tick' = S1.idTick := h1.idTick
    obtain rfl : clock' = S1.clock := h1.clock
    simp only
    have hc := h1.clocked (S1.clock + 1)
    cases hsub : chooseSubject ω S1.clock row tag with
    | some subject =>
      refine Renamed.pivotIn hρ hc ?_ (h3.solveForSymbol subject)
      intro ht hn
      unfold chooseSubject at hsub
      split at hsub
      · rename_i s hs
        cases hsub
        have hm := pick_mem hs
        rw [List.mem_filter, Bool.and_eq_true, decide_eq_true_eq, decide_eq_true_eq] at hm
        exact hm.2.2 (h3 _ ht hn)
      · have := List.find?_some hsub
        rw [Bool.and_eq_true, Bool.or_eq_true, decide_eq_true_eq, decide_eq_true_eq, ht] at this
        rcases this.1 with e | e <;> cases e
    | none =>
      simp only
      by_cases hd : allDummies row = true
      · rw [if_pos hd, if_pos hd]
        by_cases hz : row.constant ≠ 0
        · rw [if_pos hz, if_pos hz]; exact rfl
        · rw [if_neg hz, if_neg hz]
          exact Renamed.pivotIn hρ hc (fun e => absurd e h4) (h3.solveForSymbol _)
      · rw [if_neg hd, if_neg hd]
        have hart : RenamedResult ρ
            (Solver.optimize ω artificialRow fuel
              { S1 with
                clock := S1.clock + 1
                idTick := S1.idTick + 1
                rows := fun b => if b = symbolAt S1.idTick .slack then some row else S1.rows b
                artificial := some row })
            (Solver.optimize ω artificialRow fuel
              ⟨s1, s2, s3, s4, s5, s6,
                fun b => if b = symbolAt S1.idTick .slack then some row else s7 b, s8, some row,
                S1.idTick + 1, S1.clock + 1⟩) := by
          apply Renamed.optimize hρ ω _ artificial_ok
          refine ⟨h1.sym, h1.last, h1.back, h1.changed, h1.clear, h1.empty, h1.empty',
            by
              obtain rfl : s7 = S1.rows := h1.rows
              rfl,
            h1.objective, rfl, rfl, rfl, ?_, ?_, h1.knownObjective, ?_,
            h1.knownSym⟩
          · intro t ht hn
            simp only at hn ⊢
            rw [if_neg]
            · exact h1.knownBasic t ht hn
            · intro e
              subst e
              cases ht
          · intro b r hb
            simp only at hb
            split at hb
            · cases hb
              exact h3
            · exact h1.knownRows b r hb
          · intro r hr
            simp only at hr
            cases hr
            exact h3
        unfold Solver.addWithArtificialVariable
        simp only
        revert hart
        generalize Solver.optimize ω artificialRow fuel
              { S1 with
                clock := S1.clock + 1
                idTick := S1.idTick + 1
                rows := fun b => if b = symbolAt S1.idTick .slack then some row else S1.rows b
                artificial := some row } = A
        generalize Solver.optimize ω artificialRow fuel
              ⟨s1, s2, s3, s4, s5, s6,
                fun b => if b = symbolAt S1.idTick .slack then some row else s7 b, s8, some row,
                S1.idTick + 1, S1.clock + 1⟩ = A'
        intro hart
        match A, A', hart with
        | .error e, .error e', (hh : e = e') =>
          subst hh; exact rfl
        | .ok T, .ok T', (hT : Renamed ρ T T') =>
          simp only
          obtain ⟨f1, f2⟩ := hT.finishArtificial hρ ω
            (art := symbolAt S1.idTick .slack) (by rw [symbolAt_type]; decide)
          revert f1 f2
          generalize Solver.finishArtificial ω (symbolAt S1.idTick .slack) T = p
          generalize Solver.finishArtificial ω (symbolAt S1.idTick .slack) T' = p'
          obtain ⟨U, b⟩ := p
          obtain ⟨U', b'⟩ := p'
          simp only
          intro f1 f2
          subst f2
          cases b'
          · exact rfl
          · exact f1
  unfold Solver.addConstraint
  revert key
  generalize S.insertConstraint ω fuel c = A
  generalize S'.insertConstraint ω fuel (c.rename ρ) = A'
  intro key
  match A, A', key with
  | .error e, .error e', (hh : e = e') => subst hh; exact rfl
  | .ok T, .ok T', (hT : Renamed ρ T T') => exact Renamed.optimize hρ ω _ objective_ok fuel hT

include hρ in
theorem Renamed.addConstraints (ω : Nat → Nat) (fuel : Nat) (cs : List Constr) :
    ∀ {S S' : Solver}, Renamed ρ S S' →
      RenamedResult ρ (S.addConstraints ω fuel cs)
        (S'.addConstraints ω fuel (cs.map (Constr.rename ρ))) := by
  induction cs with
  | nil => intro S S' h; exact h
  | cons c cs ih =>
    intro S S' h
    have key := h.addConstraint hρ ω fuel c
    rw [List.map_cons]
    unfold Solver.addConstraints
    revert key
    generalize S.addConstraint ω fuel c = A
    generalize S'.addConstraint ω fuel (c.rename ρ) = A'
    intro key
    match A, A', key with
    | .error e, .error e', (hh : e = e') => subst hh; exact rfl
    | .ok T, .ok T', (hT : Renamed ρ T T') => exact ih hT

theorem Renamed.new : Renamed ρ Solver.new Solver.new := by
  refine ⟨fun _ => rfl, fun _ => rfl, fun _ => rfl, rfl, rfl, rfl, rfl, rfl, rfl, rfl, rfl, rfl,
    fun _ _ _ => rfl, ?_, fun _ _ _ => rfl, ?_, ?_⟩
  · intro b r hb; cases hb
  · intro r hr; cases hr
  · intro v s hv; cases hv

/-- The values fetched first are the same up to the renaming. -/
theorem Renamed.fetch {S S' : Solver} (h : Renamed ρ S S') :
    S'.fetchChanges.2 = S.fetchChanges.2.map fun c => (ρ c.1, c.2) := by
  have hv : ∀ v, S'.getValue (ρ v) = S.getValue v := by
    intro v
    unfold getValue
    rw [h.sym, h.rows]
  have hc : ∀ (T T' : Solver), T.varSym = S.varSym → T.varLast = S.varLast → T.rows = S.rows →
      T'.varSym = S'.varSym → T'.varLast = S'.varLast → T'.rows = S'.rows → ∀ vs : List Var,
      T'.collectChanges (vs.map ρ) = (T.collectChanges vs).map fun c => (ρ c.1, c.2) := by
    intro T T' a1 a2 a3 b1 b2 b3 vs
    have g1 : ∀ v, T.getValue v = S.getValue v := fun v => by unfold getValue; rw [a1, a3]
    have g2 : ∀ v, T'.getValue v = S'.getValue v := fun v => by unfold getValue; rw [b1, b3]
    induction vs with
    | nil => rfl
    | cons v vs ih =>
      rw [List.map_cons]
      unfold collectChanges
      rw [g1, g2, hv, a1, b1, a2, b2, h.sym, h.last]
      split
      · rw [List.map_cons, ih]
      · exact ih
  unfold fetchChanges
  simp only
  rw [h.clear]
  by_cases hb : S.shouldClearChanges = true
  · rw [if_pos hb, if_pos hb]
    simp only [h.empty, h.empty', List.map_nil, List.nil_append]
    exact hc _ _ rfl rfl rfl rfl rfl rfl []
  · rw [if_neg hb, if_neg hb]
    simp only [h.empty, h.empty', List.map_nil, List.nil_append, h.changed]
    refine hc ?_ ?_ ?_ ?_ ?_ ?_ ?_ ?_ S.changed <;> rfl

end Solver

end Bento.Casso

namespace Bento.Layout

open Casso

/-- An element with renamed variables. -/
def Element.rename (ρ : Var → Var) (e : Element) : Element := ⟨ρ e.start, ρ e.stop⟩

variable (ρ : Var → Var)

theorem size_rename (e : Element) : (e.rename ρ).size = e.size.rename ρ := rfl

theorem constantRHS_rename (op : RelOp) (k : ℚ) (e : Expr) (v : ℚ) :
    Constr.constantRHS op k (e.rename ρ) v = (Constr.constantRHS op k e v).rename ρ := rfl

theorem expressionRHS_rename (op : RelOp) (k : ℚ) (e f : Expr) :
    Constr.expressionRHS op k (e.rename ρ) (f.rename ρ) = (Constr.expressionRHS op k e f).rename ρ := by
  simp [Constr.expressionRHS, Constr.rename, Expr.rename, Expr.sub, Expr.negate, Function.comp_def]

theorem mulConstant_rename (e : Expr) (k : ℚ) :
    (e.rename ρ).mulConstant k = (e.mulConstant k).rename ρ := by
  simp [Expr.rename, Expr.mulConstant, Function.comp_def]

theorem divConstant_rename (e : Expr) (k : ℚ) :
    (e.rename ρ).divConstant k = (e.divConstant k).rename ρ := by
  simp [Expr.rename, Expr.divConstant, Function.comp_def]

theorem ofConstant_rename (v : ℚ) : Expr.ofConstant v = (Expr.ofConstant v).rename ρ := rfl

theorem hasSize_rename (e : Element) (x : Expr) (k : ℚ) :
    (e.rename ρ).hasSize (x.rename ρ) k = (e.hasSize x k).rename ρ := by
  unfold Element.hasSize
  rw [size_rename, expressionRHS_rename]

theorem isEmpty_rename (e : Element) : (e.rename ρ).isEmpty = e.isEmpty.rename ρ := rfl

theorem hasMinSize_rename (e : Element) (n : Int) (k : ℚ) :
    (e.rename ρ).hasMinSize n k = (e.hasMinSize n k).rename ρ := rfl

theorem hasMaxSize_rename (e : Element) (n : Int) (k : ℚ) :
    (e.rename ρ).hasMaxSize n k = (e.hasMaxSize n k).rename ρ := rfl

theorem hasIntSize_rename (e : Element) (n : Int) (k : ℚ) :
    (e.rename ρ).hasIntSize n k = (e.hasIntSize n k).rename ρ := rfl

theorem newElements_rename : ∀ vars : List Var,
    newElements (vars.map ρ) = (newElements vars).map (Element.rename ρ)
  | [] => rfl
  | [_] => rfl
  | a :: b :: t => by
    simp only [List.map_cons, newElements, newElements_rename t]
    rfl

theorem pairAt_map {α β : Type} (f : α → β) (xs : List α) (is : List Int) :
    pairAt (xs.map f) is = (pairAt xs is).map (Prod.map f f) := by
  match is with
  | [] => rfl
  | [_] => rfl
  | i :: j :: _ =>
    simp only [pairAt, List.getElem?_map]
    cases xs[i.toNat]? <;> cases xs[j.toNat]? <;> simp only [Option.map_none, Option.map_some]
    by_cases h : i < 0 ∨ j < 0
    · rw [if_pos h, if_pos h]; rfl
    · rw [if_neg h, if_neg h]; rfl

theorem mapM_map {α β γ : Type} (g : γ → Option α) (f : α → β) : ∀ l : List γ,
    (l.mapM fun c => (g c).map f) = (l.mapM g).map (List.map f)
  | [] => rfl
  | c :: l => by
    simp only [List.mapM_cons, mapM_map g f l]
    cases g c with
    | none => rfl
    | some a =>
      cases l.mapM g with
      | none => rfl
      | some as => rfl

theorem pairsOf_map {α β : Type} (f : α → β) (xs : List α) :
    pairsOf (xs.map f) = (pairsOf xs).map (List.map (Prod.map f f)) := by
  unfold pairsOf
  rw [List.length_map]
  cases combinations (xs.length : Int) 2 with
  | none => rfl
  | some l =>
    simp only [Option.bind_some]
    rw [← mapM_map]
    congr 1
    funext c
    exact pairAt_map f xs c

theorem interior_map (es : List Element) :
    interior (es.map (Element.rename ρ)) = (interior es).map (Element.rename ρ) := by
  unfold interior
  rw [List.length_map]
  split
  · rw [← List.map_tail, List.map_dropLast]
  · rfl

theorem fixedSpacing_rename (es : List Element) (n : Int) :
    fixedSpacing (es.map (Element.rename ρ)) n = (fixedSpacing es n).map (Constr.rename ρ) := by
  unfold fixedSpacing
  rw [interior_map, List.map_map, List.map_map]
  apply List.map_congr_left
  intro e _
  exact hasSize_rename ρ e (Expr.ofConstant _) _

theorem growingSpacing_rename (a : Element) (es : List Element) (n : Int) :
    growingSpacing (a.rename ρ) (es.map (Element.rename ρ)) n =
      (growingSpacing a es n).map (List.map (Constr.rename ρ)) := by
  unfold growingSpacing
  simp only [interior_map, List.length_map, pairsOf_map]
  have h2 : ∀ pairs : List (Element × Element),
      (pairs.map (Prod.map (Element.rename ρ) (Element.rename ρ))).map
          (fun p => p.1.hasSize p.2.size spacerSizeEq) ++
        ((interior es).map (Element.rename ρ)).flatMap
          (fun s => [s.hasMinSize n spacerSizeEq, s.hasSize (a.rename ρ).size spaceGrow]) =
      (pairs.map (fun p => p.1.hasSize p.2.size spacerSizeEq) ++
        (interior es).flatMap
          (fun s => [s.hasMinSize n spacerSizeEq, s.hasSize a.size spaceGrow])).map
        (Constr.rename ρ) := by
    intro pairs
    rw [List.map_append, List.map_map, List.map_map, List.flatMap_map, List.map_flatMap]
    refine congrArg₂ _ (List.map_congr_left ?_) (congrFun (congrArg _ (funext ?_)) _)
    · intro p _
      simp only [Function.comp, Prod.map]
      rw [size_rename, hasSize_rename]
    · intro s
      rw [size_rename, hasSize_rename]
      rfl
  split
  · cases pairsOf (interior es) with
    | none => rfl
    | some pairs => simp only [Option.map_some, h2]
  · have := h2 []
    simp only [List.map_nil, List.nil_append] at this
    simp only [Option.map_some, List.map_nil, List.nil_append, this]

theorem ends_rename (es : List Element) (f f' : Element → Element → List Constr)
    (hf : ∀ a b, f' (a.rename ρ) (b.rename ρ) = (f a b).map (Constr.rename ρ)) :
    (match (es.map (Element.rename ρ)).head?, (es.map (Element.rename ρ)).getLast? with
      | some first, some last =>
        if (es.map (Element.rename ρ)).length ≥ 2 then f' first last else []
      | _, _ => []) =
    (match es.head?, es.getLast? with
      | some first, some last => if es.length ≥ 2 then f first last else []
      | _, _ => []).map (Constr.rename ρ) := by
  rw [List.head?_map, List.getLast?_map, List.length_map]
  cases es.head? <;> cases es.getLast? <;> simp only [Option.map_none, Option.map_some] <;> try rfl
  split
  · exact hf _ _
  · rfl

theorem flexConstraints_rename (a : Element) (es : List Element) (flex : Flex) (n : Int) :
    flexConstraints (a.rename ρ) (es.map (Element.rename ρ)) flex n =
      (flexConstraints a es flex n).map (List.map (Constr.rename ρ)) := by
  unfold flexConstraints
  cases flex <;> simp only [fixedSpacing_rename, growingSpacing_rename, Option.map_some,
    List.map_append]
  · congr 2
    exact ends_rename ρ es _ _ fun x y => rfl
  · congr 2
    refine ends_rename ρ es _ _ fun x y => ?_
    rw [size_rename, hasSize_rename]; rfl
  · congr 2
    refine ends_rename ρ es _ _ fun x y => ?_
    rw [size_rename, hasSize_rename]; rfl
  · congr 2
    refine ends_rename ρ es _ _ fun x y => ?_
    rw [size_rename, hasSize_rename, hasSize_rename, size_rename, hasSize_rename]; rfl
  · cases growingSpacing a es n with
    | none => rfl
    | some cs =>
      simp only [Option.map_some, List.map_append]
      congr 2
      exact ends_rename ρ es _ _ fun x y => rfl

theorem constraintFor_rename (a s : Element) (flex : Flex) (c : Constraint) :
    constraintFor (a.rename ρ) (s.rename ρ) flex c =
      (constraintFor a s flex c).map (Constr.rename ρ) := by
  cases c <;> simp only [constraintFor, List.map_cons, List.map_nil]
  · congr 2
    split
    · rfl
    · rw [size_rename, hasSize_rename]
  · rfl
  · rfl
  · rw [size_rename, mulConstant_rename, divConstant_rename, hasSize_rename]
  · rw [size_rename, mulConstant_rename, divConstant_rename, hasSize_rename]
  · rw [size_rename, hasSize_rename]

theorem sizeConstraints_rename (a : Element) (es : List Element) (cs : List Constraint) (flex : Flex) :
    sizeConstraints (a.rename ρ) (es.map (Element.rename ρ)) cs flex =
      (sizeConstraints a es cs flex).map (Constr.rename ρ) := by
  unfold sizeConstraints
  rw [List.zip_map_right, List.flatMap_map, List.map_flatMap]
  congr 1
  funext p
  exact constraintFor_rename ρ a p.2 flex p.1

theorem validFill_rename (es : List Element) (cs : List Constraint) (flex : Flex) :
    validFill (es.map (Element.rename ρ)) cs flex =
      (validFill es cs flex).map (Prod.map (Element.rename ρ) id) := by
  unfold validFill
  rw [List.zip_map_right, List.filterMap_map, List.map_filterMap]
  apply List.filterMap_congr
  intro p _
  simp only [Function.comp, Prod.map, id]
  cases scalingFactor flex p.1 <;> rfl

theorem fillConstraints_rename (es : List Element) (cs : List Constraint) (flex : Flex) :
    fillConstraints (es.map (Element.rename ρ)) cs flex =
      (fillConstraints es cs flex).map (List.map (Constr.rename ρ)) := by
  unfold fillConstraints
  simp only [validFill_rename, List.length_map, pairsOf_map]
  split
  · rfl
  · rw [Option.map_map, Option.map_map]
    congr 1
    funext pairs
    simp only [Function.comp, List.map_map]
    apply List.map_congr_left
    intro p _
    simp only [Function.comp, Prod.map, fillPair, size_rename, mulConstant_rename,
      expressionRHS_rename, id]

theorem neighbourConstraints_rename (es : List Element) (flex : Flex) :
    neighbourConstraints (es.map (Element.rename ρ)) flex =
      (neighbourConstraints es flex).map (Constr.rename ρ) := by
  simp only [neighbourConstraints]
  by_cases h : flex ≠ .legacy
  · rw [if_pos h, if_pos h, ← List.map_tail, List.zip_map, List.map_map, List.map_map]
    apply List.map_congr_left
    intro p _
    simp only [Function.comp, Prod.map]
    rw [size_rename, hasSize_rename]
  · rw [if_neg h, if_neg h]; rfl

theorem solverConstraintsOf_rename (vars : List Var) (hne : vars ≠ []) (l : Layout) (inner : Rect) :
    l.solverConstraintsOf (vars.map ρ) inner =
      (l.solverConstraintsOf vars inner).map (List.map (Constr.rename ρ)) := by
  have ha : areaElementOf (vars.map ρ) = (areaElementOf vars).rename ρ := by
    obtain ⟨v, vs, rfl⟩ := List.exists_cons_of_ne_nil hne
    simp only [areaElementOf, Element.rename, List.map_cons, List.headD_cons]
    congr 1
    rw [List.getLastD_cons, List.getLastD_cons]
    simp [List.getLastD_eq_getLast?, List.getLast?_map]
  unfold solverConstraintsOf
  simp only [ha, ← List.map_tail, newElements_rename, flexConstraints_rename, fillConstraints_rename,
    sizeConstraints_rename, neighbourConstraints_rename]
  cases flexConstraints (areaElementOf vars) (newElements vars) l.flex (Spacing.value l.spacing) with
  | none => rfl
  | some flex =>
    cases fillConstraints (newElements vars.tail) l.constraints l.flex with
    | none => rfl
    | some fill =>
      simp only [Option.map_some, Option.bind_some, List.map_append]
      congr 1
      have h1 : variableInAreaConstraints (vars.map ρ) ((areaElementOf vars).rename ρ) =
          (variableInAreaConstraints vars (areaElementOf vars)).map (Constr.rename ρ) := by
        unfold variableInAreaConstraints
        rw [List.flatMap_map, List.map_flatMap]
        rfl
      have h2 : variableConstraints (vars.map ρ) =
          (variableConstraints vars).map (Constr.rename ρ) := by
        unfold variableConstraints
        rw [← List.map_tail, newElements_rename, List.map_map, List.map_map]
        rfl
      rw [h1, h2]
      rfl

/-- The values of renamed variables. -/
theorem changesMap_rename (hρ : Function.Injective ρ) (fetched : List (Var × ℚ)) (v : Var) :
    changesMap (fetched.map fun c => (ρ c.1, c.2)) (ρ v) = changesMap fetched v := by
  unfold changesMap
  have : ∀ (m m' : Var → ℚ), (∀ v, m' (ρ v) = m v) → ∀ v,
      (fetched.map fun c => (ρ c.1, c.2)).foldl (fun m c => fun v => if v = c.1 then c.2 else m v) m'
        (ρ v) =
      fetched.foldl (fun m c => fun v => if v = c.1 then c.2 else m v) m v := by
    induction fetched with
    | nil => intro m m' h v; exact h v
    | cons c cs ih =>
      intro m m' h v
      rw [List.map_cons, List.foldl_cons, List.foldl_cons]
      apply ih
      intro w
      by_cases hw : w = c.1
      · rw [if_pos hw, if_pos (by rw [hw])]
      · rw [if_neg hw, if_neg (fun e => hw (hρ e))]; exact h w
  exact this _ _ (fun _ => rfl) v

theorem changesToRects_rename (changes changes' : Var → ℚ) (h : ∀ v, changes' (ρ v) = changes v)
    (es : List Element) (area : Rect) (d : Direction) :
    changesToRects changes' (es.map (Element.rename ρ)) area d = changesToRects changes es area d := by
  unfold changesToRects
  rw [List.map_map]
  apply List.map_congr_left
  intro e _
  simp only [Function.comp, elementRect, Element.rename, h]

theorem splitOf_rename (hρ : Function.Injective ρ) (vars : List Var) (hne : vars ≠ []) (ω : Nat → Nat)
    (fuel : Nat) (l : Layout) (area : Rect) :
    l.splitOf (vars.map ρ) ω fuel area = l.splitOf vars ω fuel area := by
  unfold splitOf
  simp only [solverConstraintsOf_rename ρ vars hne]
  cases l.solverConstraintsOf vars (area.inner l.padding) with
  | none => rfl
  | some cs =>
    simp only [Option.map_some]
    have key := (Solver.Renamed.new (ρ := ρ)).addConstraints hρ ω fuel cs
    revert key
    generalize Solver.new.addConstraints ω fuel cs = A
    generalize Solver.new.addConstraints ω fuel (cs.map (Constr.rename ρ)) = A'
    intro key
    match A, A', key with
    | .error e, .error e', (hh : e = e') => subst hh; cases e <;> rfl
    | .ok S, .ok S', (hS : Solver.Renamed ρ S S') =>
      simp only [hS.fetch, ← List.map_tail, newElements_rename]
      rw [changesToRects_rename ρ _ _ (changesMap_rename ρ hρ S.fetchChanges.2),
        changesToRects_rename ρ _ _ (changesMap_rename ρ hρ S.fetchChanges.2)]

/-- Numbering the variables from 0 is one of the ways to number them. -/
theorem splitOf_standard (ω : Nat → Nat) (fuel : Nat) (l : Layout) (area : Rect) :
    l.splitOf (layoutVars l.constraints.length) ω fuel area = l.splitWithSpacers ω fuel area := by
  have ha : areaElementOf (layoutVars l.constraints.length) = areaElement l.constraints.length := by
    unfold areaElementOf areaElement layoutVars
    rw [List.range_succ]
    simp
    cases l.constraints.length <;> simp [List.range_succ_eq_map]
  unfold splitOf splitWithSpacers solverConstraintsOf solverConstraints
  rw [ha]
  rfl

/-- Any different numbers are a renaming of the first ones. -/
theorem exists_renaming (vars : List Nat) (hn : vars.Nodup) :
    ∃ ρ : Nat → Nat, Function.Injective ρ ∧ vars = (List.range vars.length).map ρ := by
  refine ⟨fun i => if h : i < vars.length then vars[i] else vars.foldr max 0 + 1 + i, ?_, ?_⟩
  · have hmax : ∀ v ∈ vars, v ≤ vars.foldr max 0 := by
      intro v hv
      clear hn
      induction vars with
      | nil => exact absurd hv List.not_mem_nil
      | cons w ws ih =>
        rw [List.foldr_cons]
        rcases List.mem_cons.1 hv with rfl | hv
        · exact le_max_left _ _
        · exact le_trans (ih hv) (le_max_right _ _)
    intro i j hij
    simp only at hij
    generalize vars.foldr max 0 = M at hij hmax
    split at hij <;> split at hij
    · exact (List.Nodup.getElem_inj_iff hn).1 hij
    · rename_i hi hj
      have := hmax _ (List.getElem_mem hi)
      omega
    · rename_i hi hj
      have := hmax _ (List.getElem_mem hj)
      omega
    · omega
  · apply List.ext_getElem
    · simp
    · intro i h1 h2
      simp [h1]

/-- The split does not depend on the numbers of the variables, as long as they are different. -/
theorem splitOf_nodup (vars : List Var) (hn : vars.Nodup) (ω : Nat → Nat) (fuel : Nat) (l : Layout)
    (hl : vars.length = 2 * l.constraints.length + 2) (area : Rect) :
    l.splitOf vars ω fuel area = l.splitWithSpacers ω fuel area := by
  obtain ⟨ρ, hρ, hv⟩ := exists_renaming vars hn
  rw [hv, hl, splitOf_rename ρ hρ _ (by simp), ← splitOf_standard]
  rfl

end Bento.Layout
