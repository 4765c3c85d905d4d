import Verif.Lemmas.CassoOpt

/-!
# Building the row of a new constraint
-/

namespace Bento.Casso
open Solver

/-- The symbol of a variable (any external symbol when it has none). -/
def vsym (S : Solver) (v : Var) : Sym := (S.varSym v).getD ⟨0, .external⟩

/-- The value of a list of terms under a valuation of the symbols. -/
def termsEval (S : Solver) (σ : Sym → ℚ) (ts : List (Var × ℚ)) : ℚ :=
  (ts.map fun t => t.2 * σ (vsym S t.1)).sum

/-- What a constraint's slack, error and dummy symbols add to its expression. -/
def tagEval (op : RelOp) (tag : Tag) (σ : Sym → ℚ) : ℚ :=
  match op, tag.other with
  | .le, none => σ tag.marker
  | .le, some o => σ tag.marker - σ o
  | .ge, none => -σ tag.marker
  | .ge, some o => -σ tag.marker + σ o
  | .eq, none => σ tag.marker
  | .eq, some o => -σ tag.marker + σ o

/-- What a constraint adds to the objective. -/
def tagCost (op : RelOp) (w : ℚ) (tag : Tag) (σ : Sym → ℚ) : ℚ :=
  match op, tag.other with
  | _, none => 0
  | .eq, some o => w * σ tag.marker + w * σ o
  | _, some o => w * σ o

theorem symbolAt_val {n : Nat} (h : n ≤ 255) (t : SymType) : (symbolAt n t).value.val = n := by
  simp [symbolAt]; omega

@[simp] theorem symbolAt_type (n : Nat) (t : SymType) : (symbolAt n t).type = t := rfl

theorem Fresh.mono {S : Solver} {n m} (h : Fresh S n) (hnm : n ≤ m) : Fresh S m :=
  ⟨fun s hs => h.basic s (le_trans hnm hs), fun s b r hs => h.cell s b r (le_trans hnm hs),
   fun s hs => h.obj s (le_trans hnm hs), fun s a hs => h.art s a (le_trans hnm hs)⟩

/-- `S'` has the same tableau as `S` and at least its variables. -/
structure VarExt (S S' : Solver) : Prop where
  rows : S'.rows = S.rows
  objective : S'.objective = S.objective
  artificial : S'.artificial = S.artificial
  varSym : ∀ v s, S.varSym v = some s → S'.varSym v = some s
  tick : S.idTick ≤ S'.idTick
  last : S'.varLast = S.varLast
  pub : S'.publicChanges = S.publicChanges
  /-- new symbols are numbered from the old counter on -/
  newer : ∀ v s, S'.varSym v = some s → S.varSym v = some s ∨ S.idTick ≤ s.value.val

theorem VarExt.refl (S : Solver) : VarExt S S :=
  ⟨rfl, rfl, rfl, fun _ _ h => h, le_refl _, rfl, rfl, fun _ _ h => Or.inl h⟩

theorem VarExt.trans {A B C : Solver} (h : VarExt A B) (h' : VarExt B C) : VarExt A C := by
  refine ⟨h'.rows.trans h.rows, h'.objective.trans h.objective, h'.artificial.trans h.artificial,
    fun v s hv => h'.varSym v s (h.varSym v s hv), le_trans h.tick h'.tick, h'.last.trans h.last,
    h'.pub.trans h.pub, ?_⟩
  intro v s hv
  rcases h'.newer v s hv with h1 | h1
  · exact h.newer v s h1
  · exact Or.inr (le_trans h.tick h1)

theorem getVarSymbol_ok {Φ κ α} {S : Solver} (hG : Good Φ κ α S) (v : Var)
    (hn : (S.getVarSymbol v).1.idTick ≤ 256) :
    Good Φ κ α (S.getVarSymbol v).1 ∧ VarExt S (S.getVarSymbol v).1 ∧
      (S.getVarSymbol v).1.varSym v = some (S.getVarSymbol v).2 := by
  unfold getVarSymbol at hn ⊢
  cases hv : S.varSym v with
  | some s => exact ⟨hG, VarExt.refl S, hv⟩
  | none =>
    simp only [hv] at hn ⊢
    have hval := symbolAt_val (show S.idTick ≤ 255 by omega) .external
    refine ⟨⟨⟨hG.tab.nb, hG.tab.nbObj, hG.tab.nbArt, hG.tab.ext, hG.tab.extObj, hG.tab.extArt,
        hG.tab.feas, hG.tab.dumC, hG.tab.dum⟩, ?_, ?_, ?_, hG.sol, hG.obj, hG.art⟩, ?_, by simp⟩
    · have := hG.fresh.mono (Nat.le_succ S.idTick)
      exact ⟨this.basic, this.cell, this.obj, this.art⟩
    · refine ⟨?_, ?_, ?_⟩
      · intro u s hu
        simp only at hu
        split_ifs at hu with h
        · cases hu; rfl
        · exact hG.vars.type u s hu
      · intro u s hu
        simp only at hu ⊢
        split_ifs at hu with h
        · cases hu; simp [h]
        · have : s ≠ symbolAt S.idTick .external := by
            rintro rfl
            have := hG.vars.lt u _ hu
            omega
          rw [if_neg this]
          exact hG.vars.back u s hu
      · intro u s hu
        simp only at hu ⊢
        split_ifs at hu with h
        · cases hu; omega
        · have := hG.vars.lt u s hu; omega
    · refine ⟨hG.chg.noClear, ?_⟩
      intro u s r hu hr hc
      simp only at hu hr ⊢
      split_ifs at hu with h
      · cases hu
        have := hG.fresh.basic (symbolAt S.idTick .external) (by omega)
        rw [this] at hr; cases hr
      · exact hG.chg.mem u s r hu hr hc
    · refine ⟨rfl, rfl, rfl, ?_, Nat.le_succ _, rfl, rfl, ?_⟩
      · intro u s hu
        have : u ≠ v := by rintro rfl; simp [hv] at hu
        simp [this, hu]
      · intro u s hu
        simp only at hu
        split_ifs at hu with h
        · cases hu; right; omega
        · left; exact hu

theorem getVarSymbol_tick (S : Solver) (v : Var) : S.idTick ≤ (S.getVarSymbol v).1.idTick := by
  unfold getVarSymbol
  cases S.varSym v <;> simp

theorem addTerms_tick (ts : List (Var × ℚ)) :
    ∀ (S : Solver) (row : Row), S.idTick ≤ (S.addTerms row ts).1.idTick := by
  induction ts with
  | nil => intro S row; simp [addTerms]
  | cons t ts ih =>
    intro S row
    obtain ⟨v, k⟩ := t
    unfold addTerms
    split_ifs
    · exact ih S row
    · simp only
      have h1 := getVarSymbol_tick S v
      split
      · exact le_trans h1 (ih _ _)
      · exact le_trans h1 (ih _ _)

theorem addTerms_ok {Φ κ α} (ts : List (Var × ℚ)) :
    ∀ (S : Solver) (row : Row), Good Φ κ α S → (S.addTerms row ts).1.idTick ≤ 256 →
      (∀ b r, S.rows b = some r → row.cells b = 0) →
      (∀ t : Sym, S.idTick ≤ t.value.val → row.cells t = 0) →
      Good Φ κ α (S.addTerms row ts).1 ∧ VarExt S (S.addTerms row ts).1 ∧
      (∀ v k, (v, k) ∈ ts → k ≠ 0 → ((S.addTerms row ts).1.varSym v).isSome) ∧
      (∀ σ, Sol S σ → (S.addTerms row ts).2.eval σ
        = row.eval σ + termsEval (S.addTerms row ts).1 σ ts) ∧
      (∀ b r, S.rows b = some r → (S.addTerms row ts).2.cells b = 0) ∧
      (∀ t : Sym, (S.addTerms row ts).1.idTick ≤ t.value.val →
        (S.addTerms row ts).2.cells t = 0) := by
  induction ts with
  | nil =>
    intro S row hG _ hnb hfr
    simp only [addTerms, termsEval]
    exact ⟨hG, VarExt.refl S, by simp, by simp, hnb, hfr⟩
  | cons t ts ih =>
    intro S row hG hn hnb hfr
    obtain ⟨v, k⟩ := t
    unfold addTerms at hn ⊢
    by_cases hk : k = 0
    · simp only [hk, if_true] at hn ⊢
      obtain ⟨h1, h2, h3, h4, h5, h6⟩ := ih S row hG hn hnb hfr
      refine ⟨h1, h2, ?_, ?_, h5, h6⟩
      · intro u q hu hq
        rcases List.mem_cons.1 hu with h | h
        · cases h; exact absurd rfl hq
        · exact h3 u q h hq
      · intro σ hσ
        rw [h4 σ hσ]; simp [termsEval]
    · simp only [hk, if_false] at hn ⊢
      -- the symbol of the variable
      have hgv := getVarSymbol_ok hG v
      generalize hgs : S.getVarSymbol v = p at hn hgv ⊢
      obtain ⟨S1, s⟩ := p
      simp only at hn hgv ⊢
      -- the row after this term
      have main : ∀ row1 : Row, (∀ σ, Sol S1 σ → row1.eval σ = row.eval σ + k * σ s) →
          (∀ b r, S1.rows b = some r → row1.cells b = 0) →
          (S1.idTick ≤ 256 → Good Φ κ α S1 → VarExt S S1 → S1.varSym v = some s →
            ∀ t : Sym, S1.idTick ≤ t.value.val → row1.cells t = 0) →
          (S1.addTerms row1 ts).1.idTick ≤ 256 →
          Good Φ κ α (S1.addTerms row1 ts).1 ∧ VarExt S (S1.addTerms row1 ts).1 ∧
          (∀ u q, (u, q) ∈ (v, k) :: ts → q ≠ 0 → ((S1.addTerms row1 ts).1.varSym u).isSome) ∧
          (∀ σ, Sol S σ → (S1.addTerms row1 ts).2.eval σ
            = row.eval σ + termsEval (S1.addTerms row1 ts).1 σ ((v, k) :: ts)) ∧
          (∀ b r, S.rows b = some r → (S1.addTerms row1 ts).2.cells b = 0) ∧
          (∀ t : Sym, (S1.addTerms row1 ts).1.idTick ≤ t.value.val →
            (S1.addTerms row1 ts).2.cells t = 0) := by
        intro row1 he hb hf hn1
        have hle := addTerms_tick ts S1 row1
        obtain ⟨hG1, hE1, hs1⟩ := hgv (by omega)
        obtain ⟨h1, h2, h3, h4, h5, h6⟩ := ih S1 row1 hG1 hn1 hb (hf (by omega) hG1 hE1 hs1)
        have hs2 := h2.varSym v s hs1
        refine ⟨h1, hE1.trans h2, ?_, ?_, ?_, h6⟩
        · intro u q hu hq
          rcases List.mem_cons.1 hu with h | h
          · cases h; simp [hs2]
          · exact h3 u q h hq
        · intro σ hσ
          have hσ1 : Sol S1 σ := by intro b r hbr; rw [hE1.rows] at hbr; exact hσ b r hbr
          rw [h4 σ hσ1, he σ hσ1]
          have : vsym (S1.addTerms row1 ts).1 v = s := by simp [vsym, hs2]
          simp only [termsEval, List.map_cons, List.sum_cons, this]
          ring
        · intro b r hbr
          rw [← hE1.rows] at hbr
          exact h5 b r hbr
      have hrowsEq : S1.rows = S.rows := by
        have : (S.getVarSymbol v).1.rows = S.rows := by
          unfold getVarSymbol; cases S.varSym v <;> rfl
        rw [hgs] at this; exact this
      cases hrs : S1.rows s with
      | some other =>
        rw [hrs] at hn
        simp only at hn ⊢
        refine main _ ?_ ?_ ?_ hn
        · intro σ hσ
          rw [Row.eval_insertRow, ← hσ s other hrs]; ring
        · intro b r hb
          have h1 : row.cells b = 0 := hnb b r (by rw [← hrowsEq]; exact hb)
          have h2 : other.cells b = 0 := by
            rw [hrowsEq] at hb hrs
            exact hG.tab.nb _ _ _ _ hrs hb
          simp [Row.insertRow, h1, h2]
        · intro _ hG1 hE1 _ t ht
          have h1 : row.cells t = 0 := hfr t (le_trans hE1.tick ht)
          have h2 : other.cells t = 0 := hG1.fresh.cell t s other ht hrs
          simp [Row.insertRow, h1, h2]
      | none =>
        rw [hrs] at hn
        simp only at hn ⊢
        refine main _ ?_ ?_ ?_ hn
        · intro σ _
          rw [Row.eval_insertSymbol]
        · intro b r hb
          have h1 : row.cells b = 0 := hnb b r (by rw [← hrowsEq]; exact hb)
          have h2 : b ≠ s := by rintro rfl; simp [hrs] at hb
          simp [Row.insertSymbol, h1, h2]
        · intro _ hG1 hE1 hs1 t ht
          have h1 : row.cells t = 0 := hfr t (le_trans hE1.tick ht)
          have h2 : t ≠ s := by
            rintro rfl
            have := hG1.vars.lt v _ hs1
            omega
          simp [Row.insertSymbol, h1, h2]

/-- What `AddConstraint` keeps about a constraint it has added. -/
structure TagOK (c : Constr) (tag : Tag) (n n' : Nat) : Prop where
  markerGe : n ≤ tag.marker.value.val
  markerLt : tag.marker.value.val < n'
  otherGe : ∀ o, tag.other = some o → n ≤ o.value.val
  otherLt : ∀ o, tag.other = some o → o.value.val < n'
  ne : ∀ o, tag.other = some o → tag.marker ≠ o
  otherIff : tag.other.isSome ↔ ¬ c.IsRequired
  otherType : ∀ o, tag.other = some o → o.type = .error
  markerType : tag.marker.type =
    match c.op, tag.other with
    | .eq, none => .dummy
    | .eq, some _ => .error
    | _, _ => .slack

theorem TagOK.notExt {c tag n n'} (h : TagOK c tag n n') : tag.marker.type ≠ .external := by
  rw [h.markerType]
  cases c.op <;> cases tag.other <;> simp

theorem good_tick {Φ κ α} {S : Solver} (hG : Good Φ κ α S) {n : Nat} (hn : S.idTick ≤ n) :
    Good Φ κ α { S with idTick := n } := by
  have := hG.fresh.mono hn
  refine ⟨⟨hG.tab.nb, hG.tab.nbObj, hG.tab.nbArt, hG.tab.ext, hG.tab.extObj, hG.tab.extArt,
        hG.tab.feas, hG.tab.dumC, hG.tab.dum⟩, ⟨this.basic, this.cell, this.obj, this.art⟩,
        ⟨hG.vars.type, hG.vars.back, ?_⟩, ⟨hG.chg.noClear, hG.chg.mem⟩, hG.sol, hG.obj, hG.art⟩
  intro v s hv
  exact lt_of_lt_of_le (hG.vars.lt v s hv) hn

theorem good_insertObj {Φ κ α} {S : Solver} (hG : Good Φ κ α S) (s : Sym) (w : ℚ)
    (hs : S.rows s = none) (ht : s.type ≠ .external) (hlt : s.value.val < S.idTick) :
    Good Φ (fun σ => κ σ + w * σ s) α { S with objective := S.objective.insertSymbol s w } := by
  refine ⟨⟨hG.tab.nb, ?_, hG.tab.nbArt, hG.tab.ext, ?_, hG.tab.extArt,
        hG.tab.feas, hG.tab.dumC, hG.tab.dum⟩,
        ⟨hG.fresh.basic, hG.fresh.cell, ?_, hG.fresh.art⟩,
        ⟨hG.vars.type, hG.vars.back, hG.vars.lt⟩, ⟨hG.chg.noClear, hG.chg.mem⟩, hG.sol, ?_, hG.art⟩
  · intro b r hb
    have h1 := hG.tab.nbObj b r hb
    have h2 : b ≠ s := by rintro rfl; simp [hs] at hb
    simp [Row.insertSymbol, h1, h2]
  · intro t h
    have h1 := hG.tab.extObj t h
    have h2 : t ≠ s := by rintro rfl; exact ht h
    simp [Row.insertSymbol, h1, h2]
  · intro t h
    simp only at h
    have h1 := hG.fresh.obj t h
    have h2 : t ≠ s := by rintro rfl; omega
    simp [Row.insertSymbol, h1, h2]
  · intro σ hσ
    simp only
    rw [Row.eval_insertSymbol, hG.obj σ hσ]

theorem Good.congr {Φ Φ' : (Sym → ℚ) → Prop} {κ κ' α} {S : Solver} (hG : Good Φ κ α S)
    (hΦ : ∀ σ, Φ σ ↔ Φ' σ) (hκ : ∀ σ, Φ σ → κ σ = κ' σ) : Good Φ' κ' α S :=
  ⟨hG.tab, hG.fresh, hG.vars, hG.chg, fun σ => (hG.sol σ).trans (hΦ σ),
   fun σ hσ => (hG.obj σ hσ).trans (hκ σ ((hG.sol σ).1 hσ)), hG.art⟩

/-- The state after the markers are added. -/
structure MarkersOK (Φ : (Sym → ℚ) → Prop) (κ α : (Sym → ℚ) → ℚ) (S : Solver) (row : Row)
    (c : Constr) (S' : Solver) (row' : Row) (tag : Tag) : Prop where
  good : Good Φ (fun σ => κ σ + tagCost c.op c.strength tag σ) α S'
  rows : S'.rows = S.rows
  artificial : S'.artificial = S.artificial
  varSym : S'.varSym = S.varSym
  last : S'.varLast = S.varLast
  pub : S'.publicChanges = S.publicChanges
  tick : S.idTick ≤ S'.idTick
  tickLe : S'.idTick ≤ S.idTick + 2
  eval : ∀ σ, row'.eval σ = row.eval σ + tagEval c.op tag σ
  tagOK : TagOK c tag S.idTick S'.idTick
  nb : ∀ b r, S.rows b = some r → row'.cells b = 0
  fresh : ∀ t : Sym, S'.idTick ≤ t.value.val → row'.cells t = 0
  marker : row'.cells tag.marker ≠ 0
  other : ∀ o, tag.other = some o → row'.cells o = -row'.cells tag.marker

theorem addMarkers_ok {Φ κ α} {S : Solver} (hG : Good Φ κ α S) {row : Row} {c : Constr}
    (hnb : ∀ b r, S.rows b = some r → row.cells b = 0)
    (hfr : ∀ t : Sym, S.idTick ≤ t.value.val → row.cells t = 0)
    {S' row' tag} (h : S.addMarkers row c = (S', row', tag)) (hn : S'.idTick ≤ 256) :
    MarkersOK Φ κ α S row c S' row' tag := by
  have two : ∀ (ty₁ ty₂ : SymType) (k₁ k₂ : ℚ),
      S.idTick + 2 ≤ 256 →
      ∀ t : Sym, ((row.insertSymbol (symbolAt S.idTick ty₁) k₁).insertSymbol
          (symbolAt (S.idTick + 1) ty₂) k₂).cells t
        = if t = symbolAt (S.idTick + 1) ty₂ then k₂
          else if t = symbolAt S.idTick ty₁ then k₁ else row.cells t := by
    intro ty₁ ty₂ k₁ k₂ hn t
    have hv1 := symbolAt_val (show S.idTick ≤ 255 by omega) ty₁
    have hv2 := symbolAt_val (show S.idTick + 1 ≤ 255 by omega) ty₂
    have h1 := hfr (symbolAt S.idTick ty₁) (by omega)
    have h2 := hfr (symbolAt (S.idTick + 1) ty₂) (by omega)
    have hne : symbolAt (S.idTick + 1) ty₂ ≠ symbolAt S.idTick ty₁ := by
      intro h; rw [h] at hv2; omega
    unfold Row.insertSymbol
    by_cases ht2 : t = symbolAt (S.idTick + 1) ty₂
    · simp [ht2, hne, h2]
    · by_cases ht1 : t = symbolAt S.idTick ty₁ <;> simp [ht1, ht2, h1, hne.symm]
  have one : ∀ (ty₁ : SymType) (k₁ : ℚ), S.idTick + 1 ≤ 256 →
      ∀ t : Sym, (row.insertSymbol (symbolAt S.idTick ty₁) k₁).cells t
        = if t = symbolAt S.idTick ty₁ then k₁ else row.cells t := by
    intro ty₁ k₁ hn t
    have hv1 := symbolAt_val (show S.idTick ≤ 255 by omega) ty₁
    have h1 := hfr (symbolAt S.idTick ty₁) (by omega)
    unfold Row.insertSymbol
    by_cases ht1 : t = symbolAt S.idTick ty₁ <;> simp [ht1, h1]
  have basicNe : ∀ (m : Nat) (ty : SymType) b r, S.idTick ≤ m → m ≤ 255 → S.rows b = some r →
      b ≠ symbolAt m ty := by
    intro m ty b r h1 h2 hb heq
    have hv := symbolAt_val h2 ty
    have := hG.fresh.basic b (by rw [heq, hv]; exact h1)
    rw [this] at hb; cases hb
  have notBasic : ∀ (m : Nat) (ty : SymType), S.idTick ≤ m → m ≤ 255 →
      S.rows (symbolAt m ty) = none := by
    intro m ty h1 h2
    exact hG.fresh.basic _ (by rw [symbolAt_val h2]; exact h1)
  have freshNe : ∀ (m : Nat) (ty : SymType) (t : Sym), m < t.value.val → m ≤ 255 →
      t ≠ symbolAt m ty := by
    intro m ty t h1 h2 heq
    have hv := symbolAt_val h2 ty
    rw [heq, hv] at h1; omega
  -- required: one symbol
  have req : ∀ (ty : SymType) (k : ℚ), ty ≠ .external → k ≠ 0 → c.IsRequired →
      (ty = match c.op with | .eq => .dummy | _ => .slack) →
      (∀ σ : Sym → ℚ, tagEval c.op ⟨symbolAt S.idTick ty, none⟩ σ = k * σ (symbolAt S.idTick ty)) →
      S.idTick + 1 ≤ 256 →
      MarkersOK Φ κ α S row c { S with idTick := S.idTick + 1 }
        (row.insertSymbol (symbolAt S.idTick ty) k) ⟨symbolAt S.idTick ty, none⟩ := by
    intro ty k hty hk hreq htype htag hn
    have hv1 := symbolAt_val (show S.idTick ≤ 255 by omega) ty
    refine ⟨?_, rfl, rfl, rfl, rfl, rfl, Nat.le_succ _, Nat.le_succ _, ?_, ?_, ?_, ?_, ?_, by simp⟩
    · refine (good_tick hG (Nat.le_succ _)).congr (fun _ => Iff.rfl) ?_
      intro σ _
      cases c.op <;> simp [tagCost]
    · intro σ; rw [Row.eval_insertSymbol, htag]
    · refine ⟨?_, ?_, by simp, by simp, by simp, by simp [hreq], by simp, ?_⟩
      · simp only; omega
      · simp only; omega
      · simp only [symbolAt_type]; rw [htype]; cases c.op <;> rfl
    · intro b r hb
      rw [one ty k hn]
      simp [basicNe _ ty b r (le_refl _) (by omega) hb, hnb b r hb]
    · intro t ht
      simp only at ht
      rw [one ty k hn]
      simp [freshNe _ ty t (show S.idTick < t.value.val by omega) (by omega), hfr t (by omega)]
    · rw [one ty k hn]; simpa using hk
  -- not required: two symbols
  have wk : ∀ (ty : SymType) (k k₂ : ℚ) (S₁ : Solver), k₂ = -k → ty ≠ .external → k ≠ 0 → c.strength < required →
      (ty = match c.op with | .eq => .error | _ => .slack) →
      (∀ σ : Sym → ℚ, tagEval c.op ⟨symbolAt S.idTick ty, some (symbolAt (S.idTick + 1) .error)⟩ σ
        = k * σ (symbolAt S.idTick ty) + -k * σ (symbolAt (S.idTick + 1) .error)) →
      S.idTick + 2 ≤ 256 →
      S₁.rows = S.rows → S₁.artificial = S.artificial → S₁.varSym = S.varSym →
      S₁.varLast = S.varLast → S₁.publicChanges = S.publicChanges → S₁.idTick = S.idTick + 2 →
      Good Φ (fun σ => κ σ + tagCost c.op c.strength
        ⟨symbolAt S.idTick ty, some (symbolAt (S.idTick + 1) .error)⟩ σ) α S₁ →
      MarkersOK Φ κ α S row c S₁
        ((row.insertSymbol (symbolAt S.idTick ty) k).insertSymbol (symbolAt (S.idTick + 1) .error) k₂)
        ⟨symbolAt S.idTick ty, some (symbolAt (S.idTick + 1) .error)⟩ := by
    rintro ty k _ S₁ rfl hty hk hreq htype htag hn e1 e2 e3 e4 e5 e6 hG1
    have hv1 := symbolAt_val (show S.idTick ≤ 255 by omega) ty
    have hv2 := symbolAt_val (show S.idTick + 1 ≤ 255 by omega) .error
    have hne : symbolAt S.idTick ty ≠ symbolAt (S.idTick + 1) .error := by
      intro h; rw [← h] at hv2; omega
    refine ⟨hG1, e1, e2, e3, e4, e5, by omega, by omega, ?_, ?_, ?_, ?_, ?_, ?_⟩
    · intro σ; rw [Row.eval_insertSymbol, Row.eval_insertSymbol, htag]; ring
    · refine ⟨?_, ?_, ?_, ?_, ?_, ?_, ?_, ?_⟩
      · simp only; omega
      · simp only; omega
      · intro o ho; cases ho; omega
      · intro o ho; cases ho; omega
      · intro o ho; cases ho; exact hne
      · simpa [Constr.IsRequired] using hreq
      · intro o ho; cases ho; rfl
      · simp only [symbolAt_type]; rw [htype]; cases c.op <;> rfl
    · intro b r hb
      rw [two ty .error k (-k) hn]
      simp [basicNe _ ty b r (le_refl _) (by omega) hb,
        basicNe _ .error b r (Nat.le_succ _) (by omega) hb, hnb b r hb]
    · intro t ht
      rw [two ty .error k (-k) hn]
      simp [freshNe _ ty t (show S.idTick < t.value.val by omega) (by omega),
        freshNe _ .error t (show S.idTick + 1 < t.value.val by omega) (by omega), hfr t (by omega)]
    · rw [two ty .error k (-k) hn]
      simpa [hne] using hk
    · intro o ho
      cases ho
      rw [two ty .error k (-k) hn, two ty .error k (-k) hn]
      simp [hne]
  unfold addMarkers at h
  cases hop : c.op with
  | ge =>
    simp only [hop] at h
    by_cases hw : c.strength < required
    · rw [if_pos hw] at h
      simp only [Prod.mk.injEq] at h
      obtain ⟨rfl, rfl, rfl⟩ := h
      simp only at hn
      have hv2 := symbolAt_val (show S.idTick + 1 ≤ 255 by omega) .error
      refine wk .slack (-1) (- -1) _ rfl (by simp) (by norm_num) hw (by rw [hop])
        (by intro σ; rw [hop]; simp [tagEval]) (by omega) rfl rfl rfl rfl rfl rfl
        ((good_insertObj (good_tick hG (show S.idTick ≤ S.idTick + 2 by omega))
          (symbolAt (S.idTick + 1) .error) c.strength
          (notBasic _ .error (by omega) (by omega)) (by simp) (by simp only; omega)).congr
          (fun _ => Iff.rfl) (by intro σ _; rw [hop]; simp [tagCost]))
    · rw [if_neg hw] at h
      simp only [Prod.mk.injEq] at h
      obtain ⟨rfl, rfl, rfl⟩ := h
      exact req .slack (-1) (by simp) (by norm_num) (not_lt.1 hw) (by rw [hop])
        (by intro σ; rw [hop]; simp [tagEval]) hn
  | le =>
    simp only [hop] at h
    by_cases hw : c.strength < required
    · rw [if_pos hw] at h
      simp only [Prod.mk.injEq] at h
      obtain ⟨rfl, rfl, rfl⟩ := h
      simp only at hn
      have hv2 := symbolAt_val (show S.idTick + 1 ≤ 255 by omega) .error
      refine wk .slack (1) (-1) _ rfl (by simp) (by norm_num) hw (by rw [hop])
        (by intro σ; rw [hop]; simp [tagEval]; ring) (by omega) rfl rfl rfl rfl rfl rfl
        ((good_insertObj (good_tick hG (show S.idTick ≤ S.idTick + 2 by omega))
          (symbolAt (S.idTick + 1) .error) c.strength
          (notBasic _ .error (by omega) (by omega)) (by simp) (by simp only; omega)).congr
          (fun _ => Iff.rfl) (by intro σ _; rw [hop]; simp [tagCost]))
    · rw [if_neg hw] at h
      simp only [Prod.mk.injEq] at h
      obtain ⟨rfl, rfl, rfl⟩ := h
      exact req .slack 1 (by simp) (by norm_num) (not_lt.1 hw) (by rw [hop])
        (by intro σ; rw [hop]; simp [tagEval]) hn
  | eq =>
    simp only [hop] at h
    by_cases hw : c.strength < required
    · rw [if_pos hw] at h
      simp only [Prod.mk.injEq] at h
      obtain ⟨rfl, rfl, rfl⟩ := h
      simp only at hn
      have hv1 := symbolAt_val (show S.idTick ≤ 255 by omega) .error
      have hv2 := symbolAt_val (show S.idTick + 1 ≤ 255 by omega) .error
      refine wk .error (-1) 1 _ (by norm_num) (by simp) (by norm_num) hw (by rw [hop])
        (by intro σ; rw [hop]; simp [tagEval]) (by omega) rfl rfl rfl rfl rfl rfl
        ((good_insertObj (good_insertObj (good_tick hG (show S.idTick ≤ S.idTick + 2 by omega))
          (symbolAt S.idTick .error) c.strength
          (notBasic _ .error (by omega) (by omega)) (by simp) (by simp only; omega))
          (symbolAt (S.idTick + 1) .error) c.strength
          (notBasic _ .error (by omega) (by omega)) (by simp) (by simp only; omega)).congr
          (fun _ => Iff.rfl) (by intro σ _; rw [hop]; simp [tagCost]; ring))
    · rw [if_neg hw] at h
      simp only [Prod.mk.injEq] at h
      obtain ⟨rfl, rfl, rfl⟩ := h
      exact req .dummy 1 (by simp) (by norm_num) (not_lt.1 hw) (by rw [hop])
        (by intro σ; rw [hop]; simp [tagEval]) hn

/-- The left-hand side of a constraint with its markers, under a valuation of the symbols. -/
def eqnEval (S : Solver) (c : Constr) (tag : Tag) (σ : Sym → ℚ) : ℚ :=
  c.expr.constant + termsEval S σ c.expr.terms + tagEval c.op tag σ

/-- The state after `createRow`. -/
structure CreateOK (Φ : (Sym → ℚ) → Prop) (κ α : (Sym → ℚ) → ℚ) (S : Solver)
    (c : Constr) (S' : Solver) (row : Row) (tag : Tag) : Prop where
  good : Good Φ (fun σ => κ σ + tagCost c.op c.strength tag σ) α S'
  rows : S'.rows = S.rows
  artificial : S'.artificial = S.artificial
  varSym : ∀ v s, S.varSym v = some s → S'.varSym v = some s
  last : S'.varLast = S.varLast
  pub : S'.publicChanges = S.publicChanges
  tick : S.idTick ≤ S'.idTick
  newer : ∀ v s, S'.varSym v = some s → S.varSym v = some s ∨ S.idTick ≤ s.value.val
  terms : ∀ v k, (v, k) ∈ c.expr.terms → k ≠ 0 → (S'.varSym v).isSome
  evalIff : ∀ σ, Sol S' σ → (row.eval σ = 0 ↔ eqnEval S' c tag σ = 0)
  tagOK : TagOK c tag S.idTick S'.idTick
  nonneg : 0 ≤ row.constant
  nb : ∀ b r, S'.rows b = some r → row.cells b = 0
  fresh : ∀ t : Sym, S'.idTick ≤ t.value.val → row.cells t = 0
  marker : row.cells tag.marker ≠ 0
  other : ∀ o, tag.other = some o → row.cells o = -row.cells tag.marker
  markerRow : ∀ b r, S'.rows b = some r → r.cells tag.marker = 0
  otherRow : ∀ o b r, tag.other = some o → S'.rows b = some r → r.cells o = 0

theorem createRow_tick_aux (S : Solver) (row : Row) (c : Constr) :
    S.idTick ≤ (S.addMarkers row c).1.idTick := by
  unfold addMarkers
  cases c.op <;> simp only <;> split_ifs <;> simp

theorem createRow_ok {Φ κ α} {S : Solver} (hG : Good Φ κ α S) {c : Constr}
    {S' row tag} (h : S.createRow c = (S', row, tag)) (hn : S'.idTick ≤ 256) :
    CreateOK Φ κ α S c S' row tag := by
  unfold createRow at h
  have hT := addTerms_ok (Φ := Φ) (κ := κ) (α := α) c.expr.terms S (Row.new c.expr.constant) hG
  generalize hp : S.addTerms (Row.new c.expr.constant) c.expr.terms = p at h hT
  obtain ⟨S1, row1⟩ := p
  simp only at h hT
  generalize hq : S1.addMarkers row1 c = q at h
  obtain ⟨S2, row2, tag2⟩ := q
  simp only [Prod.mk.injEq] at h
  obtain ⟨rfl, hrow, rfl⟩ := h
  have ht := createRow_tick_aux S1 row1 c
  rw [hq] at ht
  simp only at ht
  obtain ⟨hG1, hE, hterms, heval, hnb, hfr⟩ := hT (by omega) (by simp [Row.new]) (by simp [Row.new])
  have hM := addMarkers_ok hG1 (by rw [hE.rows]; exact hnb) hfr hq hn
  have hvs : ∀ v, vsym S2 v = vsym S1 v := by intro v; simp [vsym, hM.varSym]
  have hte : ∀ σ, termsEval S2 σ c.expr.terms = termsEval S1 σ c.expr.terms := by
    intro σ; simp [termsEval, hvs]
  have hsgn : (row = row2 ∧ 0 ≤ row2.constant) ∨ (row = row2.reverseSign ∧ row2.constant < 0) := by
    by_cases hc : row2.constant < 0
    · right; rw [if_pos hc] at hrow; exact ⟨hrow.symm, hc⟩
    · left; rw [if_neg hc] at hrow; exact ⟨hrow.symm, not_lt.1 hc⟩
  have hcell : ∀ t, row2.cells t = 0 → row.cells t = 0 := by
    intro t h0
    rcases hsgn with ⟨rfl, _⟩ | ⟨rfl, _⟩
    · exact h0
    · simp [Row.reverseSign, h0]
  refine ⟨hM.good, hM.rows.trans hE.rows, hM.artificial.trans hE.artificial, ?_,
    hM.last.trans hE.last, hM.pub.trans hE.pub, le_trans hE.tick hM.tick, ?_, ?_, ?_, ?_, ?_, ?_, ?_,
    ?_, ?_, ?_, ?_⟩
  · intro v s hv; rw [hM.varSym]; exact hE.varSym v s hv
  · intro v s hv; rw [hM.varSym] at hv; exact hE.newer v s hv
  · intro v k hv hk; rw [hM.varSym]; exact hterms v k hv hk
  · intro σ hσ
    have hσ0 : Sol S σ := by
      intro b r hb; exact hσ b r (by rw [hM.rows, hE.rows]; exact hb)
    have h2 : row2.eval σ = eqnEval S2 c tag2 σ := by
      rw [hM.eval, heval σ hσ0, Row.eval_new, eqnEval, hte]
    rcases hsgn with ⟨rfl, _⟩ | ⟨rfl, _⟩
    · rw [h2]
    · rw [Row.eval_reverseSign, h2, neg_eq_zero]
  · have := hM.tagOK
    refine ⟨le_trans hE.tick this.markerGe, this.markerLt,
      fun o ho => le_trans hE.tick (this.otherGe o ho), this.otherLt, this.ne, this.otherIff,
      this.otherType, this.markerType⟩
  · rcases hsgn with ⟨rfl, h⟩ | ⟨rfl, h⟩
    · exact h
    · simp only [Row.reverseSign]; linarith
  · intro b r hb
    exact hcell b (hM.nb b r (by rw [← hM.rows]; exact hb))
  · intro t ht; exact hcell t (hM.fresh t ht)
  · rcases hsgn with ⟨rfl, _⟩ | ⟨rfl, _⟩
    · exact hM.marker
    · simpa [Row.reverseSign] using hM.marker
  · intro o ho
    have := hM.other o ho
    rcases hsgn with ⟨rfl, _⟩ | ⟨rfl, _⟩
    · exact this
    · simp [Row.reverseSign, this]
  · intro b r hb
    rw [hM.rows] at hb
    exact hG1.fresh.cell _ b r hM.tagOK.markerGe hb
  · intro o b r ho hb
    rw [hM.rows] at hb
    exact hG1.fresh.cell _ b r (hM.tagOK.otherGe o ho) hb

end Bento.Casso
