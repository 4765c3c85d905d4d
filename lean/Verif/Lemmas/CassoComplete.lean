import Verif.Lemmas.CassoVal
import Mathlib.Data.Finset.Card

/-!
# How many symbols are used, and when `AddConstraint` fails
-/

namespace Bento.Casso
open Solver

/-- The counter plus the number of variables below `m` that have no symbol yet. -/
def pot (m : Nat) (S : Solver) : Nat :=
  S.idTick + ((Finset.range m).filter fun v => S.varSym v = none).card

theorem idTick_le_pot (m : Nat) (S : Solver) : S.idTick ≤ pot m S := Nat.le_add_right _ _

theorem pot_congr {m} {S S' : Solver} (h : S'.varSym = S.varSym) {k} (ht : S'.idTick ≤ S.idTick + k) :
    pot m S' ≤ pot m S + k := by
  unfold pot; rw [h]; omega

theorem pot_getVarSymbol {m} {S : Solver} {v : Var} (hv : v < m) :
    pot m (S.getVarSymbol v).1 ≤ pot m S := by
  unfold getVarSymbol
  cases hs : S.varSym v with
  | some s => simp
  | none =>
    simp only [pot]
    have h1 : ((Finset.range m).filter fun u =>
        (if u = v then some (symbolAt S.idTick .external) else S.varSym u) = none)
        ⊆ ((Finset.range m).filter fun u => S.varSym u = none).erase v := by
      intro u hu
      simp only [Finset.mem_filter, Finset.mem_erase] at hu ⊢
      obtain ⟨hu1, hu2⟩ := hu
      split_ifs at hu2 with h
      exact ⟨h, hu1, hu2⟩
    have h2 := Finset.card_le_card h1
    have hmem : v ∈ (Finset.range m).filter fun u => S.varSym u = none := by simp [hv, hs]
    rw [Finset.card_erase_of_mem hmem] at h2
    have h3 := Finset.card_pos.2 ⟨v, hmem⟩
    omega

theorem pot_addTerms {m} (ts : List (Var × ℚ)) : ∀ (S : Solver) (row : Row),
    (∀ v k, (v, k) ∈ ts → v < m) → pot m (S.addTerms row ts).1 ≤ pot m S := by
  induction ts with
  | nil => intro S row _; simp [addTerms]
  | cons t ts ih =>
    intro S row h
    obtain ⟨v, k⟩ := t
    unfold addTerms
    have h' : ∀ v k, (v, k) ∈ ts → v < m := fun v k hv => h v k (List.mem_cons_of_mem _ hv)
    have h1 := pot_getVarSymbol (S := S) (h v k List.mem_cons_self)
    split_ifs
    · exact ih S row h'
    · simp only
      split
      · exact le_trans (ih _ _ h') h1
      · exact le_trans (ih _ _ h') h1

theorem pot_addMarkers {m} (S : Solver) (row : Row) (c : Constr) :
    pot m (S.addMarkers row c).1 ≤ pot m S + (if c.IsRequired then 1 else 2) := by
  unfold addMarkers
  by_cases h : c.strength < required
  · have h' : ¬ c.IsRequired := not_le.2 h
    cases c.op <;> simp only <;> rw [if_pos h, if_neg h'] <;> exact pot_congr (by rfl) (by simp)
  · have h' : c.IsRequired := not_lt.1 h
    cases c.op <;> simp only <;> rw [if_neg h, if_pos h'] <;> exact pot_congr (by rfl) (by simp)

theorem pot_createRow {m} (S : Solver) (c : Constr) (h : ∀ v k, (v, k) ∈ c.expr.terms → v < m) :
    pot m (S.createRow c).1 ≤ pot m S + (if c.IsRequired then 1 else 2) := by
  unfold createRow
  simp only
  have h1 := pot_addTerms c.expr.terms S (Row.new c.expr.constant) h
  have h2 := pot_addMarkers (m := m) (S.addTerms (Row.new c.expr.constant) c.expr.terms).1
    (S.addTerms (Row.new c.expr.constant) c.expr.terms).2 c
  omega

theorem optimize_varSym {ω sel} : ∀ (fuel : Nat) (S S' : Solver),
    optimize ω sel fuel S = .ok S' → S'.varSym = S.varSym := by
  intro fuel
  induction fuel with
  | zero => intro S S' h; simp [optimize] at h
  | succ n ih =>
    intro S S' h
    unfold optimize at h
    split at h
    · simp only [Except.ok.injEq] at h; rw [h]
    · split at h
      · cases h
      · split at h
        · cases h
        · have := ih _ _ h
          simpa using this

theorem finishArtificial_varSym {ω art} {S : Solver} :
    (finishArtificial ω art S).1.varSym = S.varSym := by
  unfold finishArtificial
  simp only
  split
  · split_ifs
    · rfl
    · split
      · rfl
      · simp [removeSymbol]
  · simp [removeSymbol]

/-- How many symbols, apart from those of its variables, one constraint may take. -/
def need (seen : List Var) (c : Constr) : Nat := if c.IsRequired ∧ c.Introduces seen then 1 else 2

theorem symbolsFor_cons (seen : List Var) (c : Constr) (cs : List Constr) :
    symbolsFor seen (c :: cs) = need seen c + symbolsFor (seen ++ c.vars) cs := rfl

theorem need_le (seen : List Var) (c : Constr) : need seen c ≤ 2 := by
  unfold need; split_ifs <;> omega

theorem need_ge (seen : List Var) (c : Constr) : (if c.IsRequired then 1 else 2) ≤ need seen c := by
  unfold need
  by_cases h : c.IsRequired
  · rw [if_pos h]; split_ifs <;> omega
  · rw [if_neg h, if_neg (fun h' => h h'.1)]

theorem symbolsFor_le (cs : List Constr) : ∀ seen, symbolsFor seen cs ≤ 2 * cs.length := by
  induction cs with
  | nil => intro seen; exact Nat.le_refl _
  | cons c cs ih =>
    intro seen
    have h1 := need_le seen c
    have h2 := ih (seen ++ c.vars)
    rw [symbolsFor_cons, List.length_cons]; omega

/-! ## A constraint that brings in a variable needs no artificial one -/

theorem getVarSymbol_other {S : Solver} {u v : Var} (h : u ≠ v) :
    (S.getVarSymbol v).1.varSym u = S.varSym u := by
  unfold getVarSymbol
  cases S.varSym v with
  | some s => rfl
  | none => simp [h]

theorem addTerms_other {u : Var} (ts : List (Var × ℚ)) : ∀ (S : Solver) (row : Row),
    u ∉ ts.map Prod.fst → (S.addTerms row ts).1.varSym u = S.varSym u := by
  induction ts with
  | nil => intro S row _; rfl
  | cons t ts ih =>
    intro S row h
    obtain ⟨v, k⟩ := t
    simp only [List.map_cons, List.mem_cons, not_or] at h
    unfold addTerms
    split_ifs
    · exact ih S row h.2
    · simp only
      split
      · rw [ih _ _ h.2, getVarSymbol_other h.1]
      · rw [ih _ _ h.2, getVarSymbol_other h.1]

theorem addTerms_append (ts us : List (Var × ℚ)) : ∀ (S : Solver) (row : Row),
    S.addTerms row (ts ++ us) = (S.addTerms row ts).1.addTerms (S.addTerms row ts).2 us := by
  induction ts with
  | nil => intro S row; rfl
  | cons t ts ih =>
    intro S row
    obtain ⟨v, k⟩ := t
    simp only [List.cons_append, addTerms]
    split_ifs
    · exact ih S row
    · split
      · exact ih _ _
      · exact ih _ _

/-- The factor of a symbol that no row contains changes only with the terms of its variable. -/
theorem addTerms_cell {Φ κ α} {u : Var} {s : Sym} (ts : List (Var × ℚ)) :
    ∀ (S : Solver) (row : Row), Good Φ κ α S → (S.addTerms row ts).1.idTick ≤ 256 →
      S.varSym u = some s → (∀ b r, S.rows b = some r → r.cells s = 0) → u ∉ ts.map Prod.fst →
      (S.addTerms row ts).2.cells s = row.cells s := by
  induction ts with
  | nil => intro S row _ _ _ _ _; rfl
  | cons t ts ih =>
    intro S row hG hn hs hz h
    obtain ⟨v, k⟩ := t
    simp only [List.map_cons, List.mem_cons, not_or] at h
    unfold addTerms at hn ⊢
    by_cases hk : k = 0
    · simp only [hk, if_true] at hn ⊢
      exact ih S row hG hn hs hz h.2
    · simp only [hk, if_false] at hn ⊢
      have hgv := getVarSymbol_ok hG v
      have ho := getVarSymbol_other (S := S) h.1
      generalize S.getVarSymbol v = p at hn hgv ho ⊢
      obtain ⟨S1, t⟩ := p
      simp only at hn hgv ho ⊢
      have main : ∀ row1 : Row, row1.cells s = row.cells s → (S1.addTerms row1 ts).1.idTick ≤ 256 →
          (S1.addTerms row1 ts).2.cells s = row.cells s := by
        intro row1 hr hn1
        have hle := addTerms_tick ts S1 row1
        obtain ⟨hG1, hE1, _⟩ := hgv (by omega)
        rw [ih S1 row1 hG1 hn1 (by rw [ho]; exact hs) (by rw [hE1.rows]; exact hz) h.2, hr]
      cases hrs : S1.rows t with
      | some other =>
        rw [hrs] at hn
        simp only at hn ⊢
        refine main _ ?_ hn
        have hle := addTerms_tick ts S1 (row.insertRow other k).1
        obtain ⟨_, hE1, _⟩ := hgv (by omega)
        rw [hE1.rows] at hrs
        simp [Row.insertRow, hz t other hrs]
      | none =>
        rw [hrs] at hn
        simp only at hn ⊢
        refine main _ ?_ hn
        have hle := addTerms_tick ts S1 (row.insertSymbol t k)
        obtain ⟨hG1, hE1, hv1⟩ := hgv (by omega)
        have hne : s ≠ t := by
          rintro rfl
          have h1 := hG1.vars.back v s hv1
          rw [hG1.vars.back u s (by rw [ho]; exact hs)] at h1
          cases h1; exact h.1 rfl
        simp [Row.insertSymbol, hne]

/-- The row of a constraint that brings in a variable contains the variable's symbol. -/
theorem createRow_introduces {Φ κ α} {S : Solver} (hG : Good Φ κ α S) {seen : List Var} {c : Constr}
    (hs : ∀ v ∉ seen, S.varSym v = none) (hi : c.Introduces seen)
    {S' row tag} (h : S.createRow c = (S', row, tag)) (hn : S'.idTick ≤ 256) :
    ∃ t : Sym, t.type = .external ∧ row.cells t ≠ 0 := by
  obtain ⟨⟨u, k⟩, hmem, hk, hu, hcount⟩ := hi
  simp only at hk hu hcount
  obtain ⟨pre, post, hsplit⟩ := List.append_of_mem hmem
  have hpre : u ∉ pre.map Prod.fst ∧ u ∉ post.map Prod.fst := by
    unfold Constr.vars at hcount
    rw [hsplit] at hcount
    simp only [List.map_append, List.map_cons, List.count_append, List.count_cons_self] at hcount
    constructor <;> refine List.count_eq_zero.1 (by omega)
  unfold createRow at h
  rw [hsplit] at h
  rw [addTerms_append] at h
  have hT := addTerms_ok (Φ := Φ) (κ := κ) (α := α) pre S (Row.new c.expr.constant) hG
  have hnone := addTerms_other pre S (Row.new c.expr.constant) hpre.1
  rw [hs u hu] at hnone
  generalize S.addTerms (Row.new c.expr.constant) pre = p at h hT hnone
  obtain ⟨S1, row1⟩ := p
  simp only at h hT hnone
  unfold addTerms at h
  rw [if_neg hk] at h
  have hgv := fun hn => getVarSymbol_ok (hT hn (by simp [Row.new]) (by simp [Row.new])).1 u
  have hgt := getVarSymbol_tick S1 u
  generalize S1.getVarSymbol u = p at h hgv hgt
  obtain ⟨S2, s⟩ := p
  simp only at h hgv hgt
  have main : ∀ row2 : Row, (S2.idTick ≤ 256 → row2.cells s = k) →
      ((S2.addTerms row2 post).1.addMarkers (S2.addTerms row2 post).2 c).1 = S' →
      (let r := ((S2.addTerms row2 post).1.addMarkers (S2.addTerms row2 post).2 c).2.1
        if r.constant < 0 then r.reverseSign else r) = row →
      ∃ t : Sym, t.type = .external ∧ row.cells t ≠ 0 := by
    intro row2 hr hS hrow
    have ht1 := createRow_tick_aux (S2.addTerms row2 post).1 (S2.addTerms row2 post).2 c
    rw [hS] at ht1
    have ht2 := addTerms_tick post S2 row2
    obtain ⟨hG2, hE2, hs2⟩ := hgv (by omega) (by omega)
    obtain ⟨hG1, _⟩ := hT (by omega) (by simp [Row.new]) (by simp [Row.new])
    have hty := hG2.vars.type u s hs2
    have hge : S1.idTick ≤ s.value.val := by
      rcases hE2.newer u s hs2 with h | h
      · rw [hnone] at h; cases h
      · exact h
    have hcell := addTerms_cell post S2 row2 hG2 (by omega) hs2
      (by rw [hE2.rows]; exact fun b r hb => hG1.fresh.cell s b r hge hb) hpre.2
    rw [hr (by omega)] at hcell
    refine ⟨s, hty, ?_⟩
    have hmark : ((S2.addTerms row2 post).1.addMarkers (S2.addTerms row2 post).2 c).2.1.cells s = k := by
      rw [← hcell]
      have hne : ∀ n ty, ty ≠ SymType.external → s ≠ symbolAt n ty := by
        rintro n ty hne rfl
        exact hne hty
      unfold addMarkers
      cases c.op <;> simp only <;> split_ifs <;> simp [Row.insertSymbol, hne]
    rw [← hrow]
    simp only
    split_ifs
    · simp only [Row.reverseSign, hmark]; exact neg_ne_zero.2 hk
    · rw [hmark]; exact hk
  have facts : S2.idTick ≤ 256 → S2.rows s = none ∧ row1.cells s = 0 := by
    intro hn2
    obtain ⟨hG2, hE2, hs2⟩ := hgv (by omega) hn2
    obtain ⟨hG1, _, _, _, _, hfr⟩ := hT (by omega) (by simp [Row.new]) (by simp [Row.new])
    have hge : S1.idTick ≤ s.value.val := by
      rcases hE2.newer u s hs2 with h | h
      · rw [hnone] at h; cases h
      · exact h
    exact ⟨by rw [hE2.rows]; exact hG1.fresh.basic s hge, hfr s hge⟩
  cases hrs : S2.rows s with
  | some other =>
    rw [hrs] at h
    simp only [Prod.mk.injEq] at h
    refine main _ (fun hn2 => ?_) h.1 h.2.1
    rw [(facts hn2).1] at hrs; cases hrs
  | none =>
    rw [hrs] at h
    simp only [Prod.mk.injEq] at h
    refine main _ (fun hn2 => ?_) h.1 h.2.1
    simp [Row.insertSymbol, (facts hn2).2]

/-- Enough symbols are left for the row of a constraint and the artificial variable it may need. -/
theorem createRow_room {m} {Φ κ α} {S : Solver} (hG : Good Φ κ α S) {seen : List Var} {c : Constr}
    (hs : ∀ v ∉ seen, S.varSym v = none) (hv : ∀ v k, (v, k) ∈ c.expr.terms → v < m)
    (hn : pot m S + need seen c ≤ 256) {S1 row tag} (hcr : S.createRow c = (S1, row, tag)) :
    S1.idTick ≤ 256 ∧
    (c.IsRequired → (∀ t : Sym, t.type = .external → row.cells t = 0) → S1.idTick + 1 ≤ 256) := by
  have hp := pot_createRow S c hv
  rw [hcr] at hp
  simp only at hp
  have hi1 := idTick_le_pot m S1
  have hg := need_ge seen c
  have h1 : S1.idTick ≤ 256 := by omega
  refine ⟨h1, fun hr hext => ?_⟩
  by_cases hi : c.Introduces seen
  · obtain ⟨t, ht, hne⟩ := createRow_introduces hG hs hi hcr h1
    exact absurd (hext t ht) hne
  · have : need seen c = 2 := by unfold need; rw [if_neg (fun h => hi h.2)]
    rw [if_pos hr] at hp
    omega

theorem insertConstraint_varSym {ω fuel} {S S' : Solver} {c : Constr}
    (hi : S.insertConstraint ω fuel c = .ok S') : S'.varSym = (S.createRow c).1.varSym := by
  unfold insertConstraint at hi
  generalize S.createRow c = p at hi
  obtain ⟨S2, row, tag⟩ := p
  simp only at hi
  split at hi
  · simp only [Except.ok.injEq] at hi; rw [← hi]; simp
  · split_ifs at hi
    · simp only [Except.ok.injEq] at hi; rw [← hi]; simp
    · unfold addWithArtificialVariable at hi
      simp only at hi
      split at hi
      · cases hi
      · rename_i S3 heq
        simp only [Except.ok.injEq] at hi
        subst hi
        split at heq
        · cases heq
        · rename_i S4 ho
          simp only [Except.ok.injEq] at heq
          have h1 := finishArtificial_varSym (ω := ω) (art := symbolAt S2.idTick .slack) (S := S4)
          rw [heq] at h1
          have h2 := optimize_varSym _ _ _ ho
          simp only at h1 h2
          exact h1.trans h2
      · cases hi

theorem createRow_other {S : Solver} {c : Constr} {v : Var} (h : v ∉ c.vars) :
    (S.createRow c).1.varSym v = S.varSym v := by
  have hm : ∀ (B : Solver) row, (B.addMarkers row c).1.varSym = B.varSym := by
    intro B row
    unfold addMarkers
    cases c.op <;> simp only <;> split_ifs <;> rfl
  unfold createRow
  simp only
  rw [hm]
  exact addTerms_other _ _ _ h

/-- The variables with a symbol are those of the constraints added. -/
theorem addConstraint_seen {ω fuel} {seen : List Var} {S S' : Solver} {c : Constr}
    (hs : ∀ v ∉ seen, S.varSym v = none) (h : S.addConstraint ω fuel c = .ok S') :
    ∀ v ∉ seen ++ c.vars, S'.varSym v = none := by
  intro v hv
  simp only [List.mem_append, not_or] at hv
  unfold addConstraint at h
  cases hi : S.insertConstraint ω fuel c with
  | error e => rw [hi] at h; cases h
  | ok S1 =>
    rw [hi] at h
    rw [optimize_varSym _ _ _ h, insertConstraint_varSym hi, createRow_other hv.2, hs v hv.1]

theorem insertConstraint_pot {m ω fuel} {Φ κ α} {S S' : Solver} {seen : List Var} {c : Constr}
    (hG : Good Φ κ α S) (hs : ∀ v ∉ seen, S.varSym v = none)
    (hv : ∀ v k, (v, k) ∈ c.expr.terms → v < m) (hn : pot m S + need seen c ≤ 256)
    (h : S.insertConstraint ω fuel c = .ok S') : pot m S' ≤ pot m S + need seen c := by
  have hp := pot_createRow S c hv
  unfold insertConstraint at h
  generalize hcr : S.createRow c = p at h hp
  obtain ⟨S1, row, tag⟩ := p
  simp only at h hp
  have hg := need_ge seen c
  have hp2 : pot m S1 ≤ pot m S + need seen c := by omega
  have hn1 : S1.idTick ≤ 256 := by have := idTick_le_pot m S1; omega
  have hC := createRow_ok hG hcr hn1
  cases hcs : chooseSubject ω S1.clock row tag with
  | some s =>
    simp only [hcs, Except.ok.injEq] at h
    subst h
    refine le_trans (pot_congr (S := S1) (k := 0) (by simp) (by simp)) hp2
  | none =>
    simp only [hcs] at h
    have hreq := subject_of_weak hC hcs
    rw [if_pos hreq] at hp
    have h2 : need seen c = 2 := by
      unfold need
      refine if_neg fun hi => ?_
      obtain ⟨t, ht, hne⟩ := createRow_introduces hG hs hi.2 hcr hn1
      exact hne ((chooseSubject_none hcs).1 t ht)
    split_ifs at h
    · simp only [Except.ok.injEq] at h
      subst h
      exact le_trans (pot_congr (S := S1) (k := 0) (by simp) (by simp)) hp2
    · unfold addWithArtificialVariable at h
      simp only at h
      split at h
      · cases h
      · rename_i S3 heq
        simp only [Except.ok.injEq] at h
        subst h
        split at heq
        · cases heq
        · rename_i S4 ho
          simp only [Except.ok.injEq] at heq
          have h1 := finishArtificial_tick (ω := ω) (art := symbolAt S1.idTick .slack) (S := S4)
          have h1' := finishArtificial_varSym (ω := ω) (art := symbolAt S1.idTick .slack) (S := S4)
          rw [heq] at h1 h1'
          have h2 := optimize_tick _ _ _ ho
          have h2' := optimize_varSym _ _ _ ho
          simp only at h1 h1' h2 h2'
          refine le_trans (pot_congr (S := S1) (k := 1) (h1'.trans h2') (by omega)) (by omega)
      · cases h

/-- One more satisfiable constraint is added without failure. -/
theorem addConstraint_complete {m ω fuel} {S : Solver} {seen : List Var} {c : Constr}
    {H : List Entry} (hI : Inv S H) (hs : ∀ v ∉ seen, S.varSym v = none)
    (hv : ∀ v k, (v, k) ∈ c.expr.terms → v < m) (hn : pot m S + need seen c ≤ 256)
    (hw : ∀ e ∈ H, 0 ≤ e.c.strength) (hwc : 0 ≤ c.strength) {x : Var → ℚ}
    (hx : ∀ e ∈ H, e.c.IsRequired → e.c.Holds x) (hxc : c.IsRequired → c.Holds x) :
    S.addConstraint ω fuel c = .error .fuel ∨
    ∃ S', S.addConstraint ω fuel c = .ok S' ∧ pot m S' ≤ pot m S + need seen c := by
  generalize hcr : S.createRow c = p
  obtain ⟨S1, row, tag⟩ := p
  obtain ⟨hn1, hn2⟩ := createRow_room hI.good hs hv hn hcr
  have hC := createRow_ok hI.good hcr hn1
  cases hi : S.insertConstraint ω fuel c with
  | error e =>
    left
    obtain ⟨σ, h1, h2, h3, _⟩ := exists_extension hC.good.vars x (⟨c, tag⟩ :: H) S1.idTick
      ⟨S.idTick, S1.idTick, le_rfl, hC.tagOK, hI.hist⟩
      (by
        intro e he v k hv hk
        rcases List.mem_cons.1 he with rfl | he
        · exact hC.terms v k hv hk
        · obtain ⟨s, hs⟩ := Option.isSome_iff_exists.1 (hI.vars e he v k hv hk)
          simp [hC.varSym v s hs])
      (by
        intro e he hr
        rcases List.mem_cons.1 he with rfl | he
        · exact hxc hr
        · exact hx e he hr)
    have := insertConstraint_err hI.good hcr hn1 hn2 (σ := σ)
      (by
        intro e he
        have h4 := h3 e (List.mem_cons_of_mem _ he)
        simp only [eqnEval] at h4 ⊢
        rw [termsEval_ext (S := S) _ _ (hI.vars e he) hC.varSym] at h4
        exact h4)
      (h3 _ List.mem_cons_self) h2 hi
    unfold addConstraint
    rw [hi, this]
  | ok S2 =>
    have hp2 := insertConstraint_pot hI.good hs hv hn hi
    have hi2 := idTick_le_pot m S2
    obtain ⟨tag', hA⟩ := insertConstraint_ok hI.good hI.artificial hi (by omega)
    cases ho : optimize ω Solver.objective fuel S2 with
    | error e =>
      left
      have : e = .fuel := by
        refine optimize_bounded (b := false) (fun S hG _ => selFacts_objective hG) ?_ fuel S2 e
          hA.good (by simp [hA.artificial]) ho
        intro σ _ hσ
        have key : ∀ (c : Constr) (tag : Tag) (a b : Nat), TagOK c tag a b → 0 ≤ c.strength →
            0 ≤ tagCost c.op c.strength tag σ := by
          intro c tag a b hT hw
          have hm := hσ.1 tag.marker hT.notExt
          unfold tagCost
          cases ho : tag.other with
          | none => cases c.op <;> simp
          | some o =>
            have ho' := hσ.1 o (by rw [hT.otherType o ho]; simp)
            cases c.op
            · exact mul_nonneg hw ho'
            · exact add_nonneg (mul_nonneg hw hm) (mul_nonneg hw ho')
            · exact mul_nonneg hw ho'
        have hH : ∀ (H : List Entry) n, HistOK H n → (∀ e ∈ H, 0 ≤ e.c.strength) → 0 ≤ histCost H σ := by
          intro H
          induction H with
          | nil => intro n _ _; simp [histCost]
          | cons e H ih =>
            intro n hH hw
            obtain ⟨a, b, _, hT, hH'⟩ := hH
            have := ih a hH' (fun e he => hw e (List.mem_cons_of_mem _ he))
            simp only [histCost, List.map_cons, List.sum_cons] at this ⊢
            exact add_nonneg (key _ _ _ _ hT (hw e List.mem_cons_self)) this
        exact add_nonneg (hH H _ hI.hist hw) (key _ _ _ _ hA.tagOK hwc)
      unfold addConstraint
      rw [hi, ← this]
      exact ho
    | ok S3 =>
      right
      refine ⟨S3, ?_, ?_⟩
      · unfold addConstraint; rw [hi]; exact ho
      · exact le_trans (pot_congr (k := 0) (optimize_varSym _ _ _ ho)
          (optimize_tick _ _ _ ho).le) hp2

/-- Satisfiable constraints are added without failure. -/
theorem addConstraints_complete {m ω fuel} {x : Var → ℚ} (cs : List Constr) :
    ∀ {seen : List Var} {S : Solver} {H : List Entry}, Inv S H → (∀ v ∉ seen, S.varSym v = none) →
    (∀ c ∈ cs, ∀ v k, (v, k) ∈ c.expr.terms → v < m) → pot m S + symbolsFor seen cs ≤ 256 →
    (∀ e ∈ H, 0 ≤ e.c.strength) → (∀ c ∈ cs, 0 ≤ c.strength) →
    (∀ e ∈ H, e.c.IsRequired → e.c.Holds x) → Feasible cs x →
    S.addConstraints ω fuel cs = .error .fuel ∨
    ∃ S', S.addConstraints ω fuel cs = .ok S' ∧ pot m S' ≤ pot m S + symbolsFor seen cs := by
  induction cs with
  | nil => intro seen S H _ _ _ _ _ _ _ _; right; exact ⟨S, rfl, by simp⟩
  | cons c cs ih =>
    intro seen S H hI hs hv hn hw hwc hx hxc
    rw [symbolsFor_cons] at hn ⊢
    rcases addConstraint_complete (ω := ω) (fuel := fuel) hI hs (hv c List.mem_cons_self) (by omega) hw
        (hwc c List.mem_cons_self) hx (hxc c List.mem_cons_self) with h | ⟨S1, h, hp⟩
    · left; unfold addConstraints; rw [h]
    · have hi1 := idTick_le_pot m S1
      obtain ⟨tag, hI1, _⟩ := addConstraint_inv hI h (by omega)
      rcases ih hI1 (addConstraint_seen hs h) (fun c hc => hv c (List.mem_cons_of_mem _ hc)) (by omega)
        (by
          intro e he
          rcases List.mem_cons.1 he with rfl | he
          · exact hwc _ List.mem_cons_self
          · exact hw e he)
        (fun c hc => hwc c (List.mem_cons_of_mem _ hc))
        (by
          intro e he
          rcases List.mem_cons.1 he with rfl | he
          · exact hxc _ List.mem_cons_self
          · exact hx e he)
        (fun c hc => hxc c (List.mem_cons_of_mem _ hc)) with h' | ⟨S', h', hp'⟩
      · left; unfold addConstraints; rw [h]; exact h'
      · right; refine ⟨S', ?_, by omega⟩; unfold addConstraints; rw [h]; exact h'

theorem pot_new (m : Nat) : pot m Solver.new = 1 + m := by
  simp [pot, Solver.new]

end Bento.Casso
