import Verif.Lemmas.Fast
import Mathlib.Data.List.Sort
import Mathlib.Data.List.Nodup
import Mathlib.Tactic.Ring

/-!
# The list-based solver computes what the model computes
-/

namespace Bento.Casso.Fast

/-! ### Symbols and numbers -/

theorem code_lt (s : Sym) : code s < 1024 := by
  obtain ⟨v, t⟩ := s
  have := v.isLt
  cases t <;> simp only [code] <;> omega

theorem code_inj {s t : Sym} : code s = code t ↔ s = t := by
  constructor
  · intro h
    obtain ⟨v, a⟩ := s
    obtain ⟨w, b⟩ := t
    have key : v.val = w.val ∧ a = b := by
      cases a <;> cases b <;> simp only [code] at h <;> first
        | exact ⟨by omega, rfl⟩
        | (exfalso; omega)
    obtain ⟨h1, h2⟩ := key
    have : v = w := Fin.ext h1
    subst this h2
    rfl
  · rintro rfl; rfl

theorem code_external (s : Sym) : code s % 4 = 0 ↔ s.type = .external := by
  obtain ⟨v, t⟩ := s
  cases t <;> simp only [code] <;> first | (simp; done) | (simp; omega)

theorem code_slack (s : Sym) : code s % 4 = 1 ↔ s.type = .slack := by
  obtain ⟨v, t⟩ := s
  cases t <;> simp only [code] <;> first | (simp; done) | (simp; omega)

theorem code_error (s : Sym) : code s % 4 = 2 ↔ s.type = .error := by
  obtain ⟨v, t⟩ := s
  cases t <;> simp only [code] <;> first | (simp; done) | (simp; omega)

theorem code_dummy (s : Sym) : code s % 4 = 3 ↔ s.type = .dummy := by
  obtain ⟨v, t⟩ := s
  cases t <;> simp only [code] <;> first | (simp; done) | (simp; omega)

theorem code_symbolAt (n : Nat) (t : SymType) :
    code (symbolAt n t) =
      symAt n (match t with | .external => 0 | .slack => 1 | .error => 2 | .dummy => 3) := by
  cases t <;> rfl

theorem code_surj {n : Nat} (h : n < 1024) : ∃ s, code s = n := by
  have h4 : n / 4 < 256 := by omega
  have : n % 4 = 0 ∨ n % 4 = 1 ∨ n % 4 = 2 ∨ n % 4 = 3 := by omega
  rcases this with h | h | h | h
  · exact ⟨⟨⟨n / 4, h4⟩, .external⟩, by simp only [code]; omega⟩
  · exact ⟨⟨⟨n / 4, h4⟩, .slack⟩, by simp only [code]; omega⟩
  · exact ⟨⟨⟨n / 4, h4⟩, .error⟩, by simp only [code]; omega⟩
  · exact ⟨⟨⟨n / 4, h4⟩, .dummy⟩, by simp only [code]; omega⟩

theorem allSyms_code : allSyms.map code = List.range 1024 := by decide +kernel

theorem mem_allSyms (s : Sym) : s ∈ allSyms := by
  have : code s ∈ allSyms.map code := by rw [allSyms_code]; exact List.mem_range.2 (code_lt s)
  obtain ⟨t, ht, h⟩ := List.mem_map.1 this
  rwa [← code_inj.1 h]

/-! ### Sorted candidates -/

theorem mem_insertSorted {n m : Nat} {l : List Nat} : m ∈ insertSorted n l ↔ m = n ∨ m ∈ l := by
  induction l with
  | nil => simp [insertSorted]
  | cons a l ih =>
    simp only [insertSorted]
    split
    · simp
    · split
      · simp only [List.mem_cons, ih]; tauto
      · have : n = a := by omega
        subst this
        simp

theorem insertSorted_pairwise {n : Nat} {l : List Nat} (h : l.Pairwise (· < ·)) :
    (insertSorted n l).Pairwise (· < ·) := by
  induction l with
  | nil => simp [insertSorted]
  | cons a l ih =>
    obtain ⟨h1, h2⟩ := List.pairwise_cons.1 h
    simp only [insertSorted]
    split
    · rename_i hna
      refine List.pairwise_cons.2 ⟨?_, h⟩
      intro b hb
      rcases List.mem_cons.1 hb with rfl | hb
      · exact hna
      · exact lt_trans hna (h1 b hb)
    · split
      · rename_i han
        refine List.pairwise_cons.2 ⟨?_, ih h2⟩
        intro b hb
        rcases mem_insertSorted.1 hb with rfl | hb
        · exact han
        · exact h1 b hb
      · exact h

theorem mem_sorted {m : Nat} {l : List Nat} : m ∈ sorted l ↔ m ∈ l := by
  induction l with
  | nil => simp [sorted]
  | cons a l ih =>
    have : sorted (a :: l) = insertSorted a (sorted l) := rfl
    rw [this, mem_insertSorted, ih, List.mem_cons]

theorem sorted_pairwise (l : List Nat) : (sorted l).Pairwise (· < ·) := by
  induction l with
  | nil => exact List.Pairwise.nil
  | cons a l ih => exact insertSorted_pairwise ih

theorem eq_of_sorted {a b : List Nat} (ha : a.Pairwise (· < ·)) (hb : b.Pairwise (· < ·))
    (h : ∀ n, n ∈ a ↔ n ∈ b) : a = b := by
  have na : a.Nodup := ha.imp (fun h => Nat.ne_of_lt h)
  have nb : b.Nodup := hb.imp (fun h => Nat.ne_of_lt h)
  have hp : a.Perm b := (List.perm_ext_iff_of_nodup na nb).2 h
  exact hp.eq_of_pairwise (fun x y _ _ h1 h2 => absurd h1 (Nat.lt_asymm h2)) ha hb

theorem filter_code (p : Sym → Bool) (cands : List Nat) (h : ∀ s, p s = true ↔ code s ∈ cands)
    (hlt : ∀ n ∈ cands, n < 1024) : (allSyms.filter p).map code = sorted cands := by
  apply eq_of_sorted
  · have hs : (allSyms.filter p).map code |>.Sublist (List.range 1024) := by
      rw [← allSyms_code]
      exact List.Sublist.map _ List.filter_sublist
    exact (List.pairwise_lt_range).sublist hs
  · exact sorted_pairwise _
  · intro n
    rw [mem_sorted]
    constructor
    · intro hn
      obtain ⟨s, hs, rfl⟩ := List.mem_map.1 hn
      exact (h s).1 (List.mem_filter.1 hs).2
    · intro hn
      obtain ⟨s, rfl⟩ := code_surj (hlt n hn)
      exact List.mem_map.2 ⟨s, List.mem_filter.2 ⟨mem_allSyms s, (h s).2 hn⟩, rfl⟩

theorem pick_code (ω : Nat → Nat) (k : Nat) (p : Sym → Bool) (cands : List Nat)
    (h : ∀ s, p s = true ↔ code s ∈ cands) (hlt : ∀ n ∈ cands, n < 1024) :
    (Casso.pick ω k (allSyms.filter p)).map code = pick (ω k) cands := by
  have := filter_code p cands h hlt
  unfold Casso.pick pick
  rw [← this, ← List.getElem?_map, List.length_map]

/-! ### Coefficients -/

@[simp] theorem get_nil (n : Nat) : get [] n = 0 := rfl

theorem get_cons (k : Nat) (v : ℚ) (l : Cells) (n : Nat) :
    get ((k, v) :: l) n = (if k = n then v else 0) + get l n := by
  simp only [get]
  split <;> simp

theorem get_consNZ (k : Nat) (v : ℚ) (l : Cells) (n : Nat) :
    get (consNZ k v l) n = (if k = n then v else 0) + get l n := by
  unfold consNZ
  split
  · rename_i h
    simp [h]
  · exact get_cons k v l n

theorem get_mergeOne (k : Nat) (v : ℚ) (rest : Cells → Cells) (a : Nat → ℚ)
    (hr : ∀ ys n, get (rest ys) n = a n + get ys n) :
    ∀ ys n, get (mergeOne k v rest ys) n = (if k = n then v else 0) + a n + get ys n := by
  intro ys
  induction ys with
  | nil => intro n; simp only [mergeOne]; rw [get_cons, hr]; simp
  | cons y ys ih =>
    intro n
    obtain ⟨k', w⟩ := y
    simp only [mergeOne]
    split
    · rw [get_cons, hr]; ring
    · split
      · rw [get_cons, ih, get_cons]; ring
      · have hk : k' = k := by omega
        subst hk
        rw [get_consNZ, hr, get_cons]
        split <;> ring

theorem get_merge (xs ys : Cells) (n : Nat) : get (merge xs ys) n = get xs n + get ys n := by
  induction xs generalizing ys n with
  | nil => simp [merge]
  | cons x xs ih =>
    obtain ⟨k, v⟩ := x
    simp only [merge]
    rw [get_mergeOne k v (merge xs) (get xs) ih, get_cons]

theorem get_scale (c : ℚ) (l : Cells) (n : Nat) : get (scale c l) n = get l n * c := by
  induction l with
  | nil => simp [scale]
  | cons x l ih =>
    obtain ⟨k, v⟩ := x
    have : scale c ((k, v) :: l) = (k, v * c) :: scale c l := rfl
    rw [this, get_cons, get_cons, ih]
    split <;> ring

theorem get_drop (m : Nat) (l : Cells) (n : Nat) : get (drop m l) n = if n = m then 0 else get l n := by
  induction l with
  | nil => simp [drop]
  | cons x l ih =>
    obtain ⟨k, v⟩ := x
    by_cases hk : k = m
    · have : drop m ((k, v) :: l) = drop m l := by simp [drop, hk]
      rw [this, ih, get_cons]
      by_cases hn : n = m
      · simp [hn]
      · have : k ≠ n := by omega
        simp [hn, this]
    · have : drop m ((k, v) :: l) = (k, v) :: drop m l := by simp [drop, hk]
      rw [this, get_cons, get_cons, ih]
      by_cases hn : n = m
      · have : k ≠ n := by omega
        simp [hn]
        intro h
        exact absurd h hk
      · simp [hn]

theorem mem_of_get_ne {l : Cells} {n : Nat} (h : get l n ≠ 0) : n ∈ l.map Prod.fst := by
  induction l with
  | nil => exact absurd rfl h
  | cons x l ih =>
    obtain ⟨k, v⟩ := x
    rw [get_cons] at h
    by_cases hk : k = n
    · simp [hk]
    · simp only [hk, if_false, zero_add] at h
      exact List.mem_cons_of_mem _ (ih h)

/-! ### Rows -/

/-- The row of the model a list row stands for. -/
def LRow.den (r : LRow) : Row := ⟨fun s => get r.cells (code s), r.const⟩

theorem den_insertSymbol (r : LRow) (s : Sym) (k : ℚ) :
    (r.insertSymbol (code s) k).den = r.den.insertSymbol s k := by
  apply Row.ext
  · funext t
    simp only [LRow.den, LRow.insertSymbol, Row.insertSymbol, get_merge, get_cons, get_nil, add_zero, code_inj]
    by_cases h : t = s
    · simp [h]
    · have : s ≠ t := fun h' => h h'.symm
      simp [h, this]
  · rfl

theorem den_insertRow (r o : LRow) (k : ℚ) :
    (r.insertRow o k).den = (r.den.insertRow o.den k).1 := by
  apply Row.ext
  · funext t
    simp only [LRow.den, LRow.insertRow, Row.insertRow, get_merge, get_scale]
  · rfl

theorem den_solveForSymbol (r : LRow) (s : Sym) :
    (r.solveForSymbol (code s)).den = r.den.solveForSymbol s := by
  apply Row.ext
  · funext t
    simp only [LRow.den, LRow.solveForSymbol, Row.solveForSymbol, get_scale, get_drop, code_inj]
    split <;> simp
  · rfl

theorem den_solveForSymbols (r : LRow) (l e : Sym) :
    (r.solveForSymbols (code l) (code e)).den = r.den.solveForSymbols l e := by
  unfold LRow.solveForSymbols Row.solveForSymbols
  rw [den_solveForSymbol, den_insertSymbol]

theorem den_remove (r : LRow) (s : Sym) : (⟨drop (code s) r.cells, r.const⟩ : LRow).den = r.den.remove s := by
  apply Row.ext
  · funext t
    simp only [LRow.den, Row.remove, get_drop, code_inj]
  · rfl

theorem den_substitute (r : LRow) (s : Sym) (row : LRow) :
    (r.substitute (code s) row).den = (r.den.substitute s row.den).1 := by
  unfold LRow.substitute Row.substitute
  by_cases h : get r.cells (code s) = 0
  · simp [LRow.den, h]
  · have h' : r.den.cells s ≠ 0 := h
    simp only [h, if_false, h', ne_eq, not_false_eq_true, if_true]
    rw [den_insertRow, den_remove]
    rfl

theorem den_negate (r : LRow) : r.negate.den = r.den.reverseSign := by
  apply Row.ext
  · funext t
    simp only [LRow.den, LRow.negate, Row.reverseSign, get_scale]
    ring
  · rfl

theorem all_den (r : LRow) (p : Sym → Prop) (q : Nat → Prop) (hpq : ∀ s, p s ↔ q (code s)) :
    (∀ s, p s ∨ r.den.cells s = 0) ↔ ∀ x ∈ r.cells, 1024 ≤ x.1 ∨ q x.1 ∨ get r.cells x.1 = 0 := by
  constructor
  · intro h x hx
    by_cases hlt : x.1 < 1024
    · obtain ⟨s, hs⟩ := code_surj hlt
      rcases h s with h1 | h1
      · right; left; rw [← hs]; exact (hpq s).1 h1
      · right; right; rw [← hs]; exact h1
    · left; omega
  · intro h s
    by_cases h0 : r.den.cells s = 0
    · exact Or.inr h0
    · obtain ⟨x, hx, hxs⟩ := List.mem_map.1 (mem_of_get_ne (l := r.cells) (n := code s) h0)
      have hlt := code_lt s
      rcases h x hx with h1 | h1 | h1
      · omega
      · left; rw [hpq, ← hxs]; exact h1
      · right; rw [hxs] at h1; exact h1

theorem noCells_den (r : LRow) : r.den.noCells = r.noCells := by
  rw [Bool.eq_iff_iff]
  unfold Row.noCells LRow.noCells
  have := all_den r (fun _ => False) (fun _ => False) (fun _ => Iff.rfl)
  simp only [false_or] at this
  simp only [List.all_eq_true, Bool.or_eq_true, decide_eq_true_eq]
  rw [← this]
  exact ⟨fun h s => h s (mem_allSyms s), fun h s _ => h s⟩

theorem allDummies_den (r : LRow) : Solver.allDummies r.den = allDummies r := by
  rw [Bool.eq_iff_iff]
  unfold Solver.allDummies allDummies
  have := all_den r (fun s => s.type = .dummy) (fun n => n % 4 = 3) (fun s => (code_dummy s).symm)
  simp only [List.all_eq_true, Bool.or_eq_true, decide_eq_true_eq, or_assoc]
  rw [← this]
  exact ⟨fun h s => (h s (mem_allSyms s)).symm, fun h s _ => (h s).symm⟩

/-! ### Association lists -/

theorem find_map {α β : Type} (f : α → β) (l : List (Nat × α)) (n : Nat) :
    find (l.map fun p => (p.1, f p.2)) n = (find l n).map f := by
  induction l with
  | nil => rfl
  | cons x l ih =>
    obtain ⟨k, v⟩ := x
    simp only [List.map_cons, find]
    split
    · rfl
    · exact ih

theorem find_dropRow (m : Nat) (l : Rows) (n : Nat) :
    find (dropRow m l) n = if n = m then none else find l n := by
  induction l with
  | nil => simp [dropRow, find]
  | cons x l ih =>
    obtain ⟨k, v⟩ := x
    by_cases hk : k = m
    · have : dropRow m ((k, v) :: l) = dropRow m l := by simp [dropRow, hk]
      rw [this, ih]
      by_cases hn : n = m
      · simp [hn]
      · have : k ≠ n := by omega
        simp [hn, find, this]
    · have : dropRow m ((k, v) :: l) = (k, v) :: dropRow m l := by simp [dropRow, hk]
      rw [this]
      simp only [find, ih]
      by_cases hn : n = m
      · have : k ≠ n := by omega
        simp [hn, hk]
      · simp [hn]

theorem find_insertRow (m : Nat) (r : LRow) (l : Rows) (h : find l m = none) (n : Nat) :
    find (insertRow m r l) n = if n = m then some r else find l n := by
  induction l with
  | nil =>
    simp only [insertRow, find]
    by_cases hn : n = m
    · simp [hn]
    · have : m ≠ n := fun h => hn h.symm
      simp [hn, this]
  | cons x l ih =>
    obtain ⟨k, v⟩ := x
    simp only [find] at h
    split at h
    · exact absurd h (by simp)
    · rename_i hk
      simp only [insertRow]
      split
      · simp only [find]
        by_cases hn : n = m
        · simp [hn]
        · have : m ≠ n := fun h => hn h.symm
          simp [hn, this]
      · simp only [find]
        by_cases hn : n = m
        · simp [hn, hk]
          simpa [hn] using ih h
        · simp only [hn, if_false]
          split
          · rfl
          · simpa [hn] using ih h

theorem find_set (m : Nat) (r : LRow) (l : Rows) (n : Nat) :
    find (insertRow m r (dropRow m l)) n = if n = m then some r else find l n := by
  rw [find_insertRow _ _ _ (by rw [find_dropRow]; simp), find_dropRow]
  split <;> rfl

theorem mem_of_find {α : Type} {l : List (Nat × α)} {n : Nat} {v : α} (h : find l n = some v) :
    n ∈ l.map Prod.fst := by
  induction l with
  | nil => exact absurd h (by simp [find])
  | cons x l ih =>
    obtain ⟨k, w⟩ := x
    simp only [find] at h
    split at h
    · rename_i hk; simp [hk]
    · exact List.mem_cons_of_mem _ (ih h)

/-! ### Solvers -/

/-- The list solver `F`, at position `k` in the stream of picks, stands for the solver `S`. -/
structure Rel (F : FS) (k : Nat) (S : Solver) : Prop where
  rows : ∀ s, S.rows s = (find F.rows (code s)).map LRow.den
  obj : S.objective = F.objective.den
  art : S.artificial = F.artificial.map LRow.den
  tick : S.idTick = F.tick
  clock : S.clock = k
  vars : ∀ v, (S.varSym v).map code = find F.vars v

theorem Rel.new : Rel new 0 Solver.new where
  rows := fun _ => rfl
  obj := by apply Row.ext <;> rfl
  art := rfl
  tick := rfl
  clock := rfl
  vars := fun _ => rfl

/-- Fields that `varChanged` does not touch. -/
structure Alike (S T : Solver) : Prop where
  rows : S.rows = T.rows
  obj : S.objective = T.objective
  art : S.artificial = T.artificial
  tick : S.idTick = T.idTick
  clock : S.clock = T.clock
  vars : S.varSym = T.varSym

theorem Alike.rfl' {S : Solver} : Alike S S := ⟨rfl, rfl, rfl, rfl, rfl, rfl⟩

theorem Alike.trans {S T U : Solver} (h : Alike S T) (g : Alike T U) : Alike S U :=
  ⟨h.rows.trans g.rows, h.obj.trans g.obj, h.art.trans g.art, h.tick.trans g.tick,
    h.clock.trans g.clock, h.vars.trans g.vars⟩

theorem varChanged_alike (S : Solver) (v : Var) : Alike (S.varChanged v) S := by
  unfold Solver.varChanged
  split
  · exact ⟨rfl, rfl, rfl, rfl, rfl, rfl⟩
  · split <;> exact ⟨rfl, rfl, rfl, rfl, rfl, rfl⟩

theorem fold_alike (vs : List Var) : ∀ S : Solver, Alike (vs.foldl Solver.varChanged S) S := by
  induction vs with
  | nil => intro S; exact Alike.rfl'
  | cons v vs ih => intro S; exact (ih _).trans (varChanged_alike S v)

theorem Rel.of_alike {F : FS} {k : Nat} {S T : Solver} (h : Rel F k S) (a : Alike T S) : Rel F k T where
  rows := fun s => by rw [a.rows]; exact h.rows s
  obj := a.obj.trans h.obj
  art := a.art.trans h.art
  tick := a.tick.trans h.tick
  clock := a.clock.trans h.clock
  vars := fun v => by rw [a.vars]; exact h.vars v

theorem pivotIn_alike (S : Solver) (s : Sym) (row : Row) :
    Alike (S.pivotIn s row)
      { S with
        rows := fun b => if b = s then some row else (S.rows b).map fun r => (r.substitute s row).1
        objective := (S.objective.substitute s row).1
        artificial := S.artificial.map fun r => (r.substitute s row).1 } := by
  have h1 : Alike (S.substitute s row)
      { S with
        rows := fun b => (S.rows b).map fun r => (r.substitute s row).1
        objective := (S.objective.substitute s row).1
        artificial := S.artificial.map fun r => (r.substitute s row).1 } := fold_alike _ _
  have h2 : Alike (if s.type = .external ∧ row.constant ≠ 0 then
        (S.substitute s row).varChanged ((S.substitute s row).varOf s) else S.substitute s row)
      (S.substitute s row) := by
    split
    · exact varChanged_alike _ _
    · exact Alike.rfl'
  have h := h2.trans h1
  unfold Solver.pivotIn
  refine ⟨?_, h.obj, h.art, h.tick, h.clock, h.vars⟩
  funext b
  have := congrFun h.rows b
  simp only at this ⊢
  rw [this]

theorem Rel.pivotIn {F : FS} {k : Nat} {S : Solver} (h : Rel F k S) (s : Sym) (row : LRow) :
    Rel (pivotIn F (code s) row) k (S.pivotIn s row.den) := by
  refine Rel.of_alike ?_ (pivotIn_alike S s row.den)
  refine ⟨?_, ?_, ?_, h.tick, h.clock, h.vars⟩
  · intro b
    simp only [Fast.pivotIn]
    rw [find_set, find_map (fun r : LRow => r.substitute (code s) row), h.rows b]
    simp only [code_inj]
    by_cases hb : b = s
    · simp [hb]
    · simp only [hb, if_false, Option.map_map]
      congr 1
      funext r
      exact (den_substitute r s row).symm
  · simp only [Fast.pivotIn]
    rw [h.obj, den_substitute]
  · simp only [Fast.pivotIn]
    rw [h.art, Option.map_map, Option.map_map]
    congr 1
    funext r
    exact (den_substitute r s row).symm

theorem Rel.dropRow {F : FS} {k : Nat} {S : Solver} (h : Rel F k S) (s : Sym) :
    Rel { F with rows := dropRow (code s) F.rows } k
      { S with rows := fun b => if b = s then none else S.rows b } := by
  refine ⟨?_, h.obj, h.art, h.tick, h.clock, h.vars⟩
  intro b
  simp only [find_dropRow, code_inj, h.rows b]
  split <;> rfl

/-! ### One pivot -/

theorem entering_code (ω : Nat → Nat) (k : Nat) (obj : LRow) :
    (Solver.getEnteringSymbol ω k obj.den).map code = entering (ω k) obj := by
  unfold Solver.getEnteringSymbol entering
  apply pick_code
  · intro s
    simp only [List.mem_filter, Bool.and_eq_true, decide_eq_true_eq, ne_eq, code_dummy]
    constructor
    · rintro ⟨h1, h2⟩
      exact ⟨mem_of_get_ne (ne_of_lt h2), ⟨code_lt s, h1⟩, h2⟩
    · rintro ⟨_, ⟨_, h1⟩, h2⟩
      exact ⟨h1, h2⟩
  · intro n hn
    have := (List.mem_filter.1 hn).2
    simp only [Bool.and_eq_true, decide_eq_true_eq] at this
    exact this.1.1

theorem ratio_code {F : FS} {k : Nat} {S : Solver} (h : Rel F k S) (e t : Sym) :
    S.leavingRatio e t = ratio F (code e) (code t) := by
  unfold Solver.leavingRatio ratio
  rw [h.rows t]
  simp only [code_lt t, true_and, ne_eq, code_external]
  cases hf : find F.rows (code t) with
  | none => simp
  | some r =>
    simp only [Option.map_some]
    by_cases ht : t.type = .external
    · simp [ht]
    · simp only [ht, not_false_eq_true, true_and, if_true]
      rfl

theorem mem_ratios (F : FS) (e : Nat) (n : Nat) (q : ℚ) :
    (n, q) ∈ ratios F e ↔ ratio F e n = some q := by
  unfold ratios
  rw [List.mem_filterMap]
  constructor
  · rintro ⟨p, _, hp⟩
    cases hr : ratio F e p.1 with
    | none => rw [hr] at hp; simp at hp
    | some q' =>
      rw [hr] at hp
      simp only [Option.map_some, Option.some.injEq, Prod.mk.injEq] at hp
      rw [← hp.1, hr, hp.2]
  · intro h
    have hn : ∃ r, find F.rows n = some r := by
      unfold ratio at h
      split at h
      · cases hf : find F.rows n with
        | none => rw [hf] at h; simp at h
        | some r => exact ⟨r, rfl⟩
      · simp at h
    obtain ⟨r, hr⟩ := hn
    obtain ⟨p, hp, hpn⟩ := List.mem_map.1 (mem_of_find hr)
    exact ⟨p, hp, by rw [hpn, h]; simp⟩

theorem lowest_none {l : List (Nat × ℚ)} (h : lowest l = none) : l = [] := by
  cases l with
  | nil => rfl
  | cons x l =>
    obtain ⟨n, q⟩ := x
    simp only [lowest] at h
    split at h
    · simp at h
    · split at h <;> simp at h

theorem lowest_some {l : List (Nat × ℚ)} {m : ℚ} (h : lowest l = some m) :
    (∃ n, (n, m) ∈ l) ∧ ∀ p ∈ l, m ≤ p.2 := by
  induction l generalizing m with
  | nil => simp [lowest] at h
  | cons x l ih =>
    obtain ⟨n, q⟩ := x
    simp only [lowest] at h
    split at h
    · rename_i h0
      rw [lowest_none h0]
      simp only [Option.some.injEq] at h
      subst h
      exact ⟨⟨n, by simp⟩, by simp⟩
    · rename_i q' h0
      obtain ⟨⟨n', hn'⟩, hall⟩ := ih h0
      split at h
      · rename_i hle
        simp only [Option.some.injEq] at h
        subst h
        refine ⟨⟨n, by simp⟩, ?_⟩
        intro p hp
        rcases List.mem_cons.1 hp with rfl | hp
        · exact le_refl _
        · exact le_trans hle (hall p hp)
      · rename_i hle
        simp only [Option.some.injEq] at h
        subst h
        refine ⟨⟨n', List.mem_cons_of_mem _ hn'⟩, ?_⟩
        intro p hp
        rcases List.mem_cons.1 hp with rfl | hp
        · exact le_of_lt (not_le.1 hle)
        · exact hall p hp

theorem ratio_lt {F : FS} {e n : Nat} {q : ℚ} (h : ratio F e n = some q) : n < 1024 := by
  unfold ratio at h
  split at h
  · rename_i h'; exact h'.1
  · simp at h

theorem leaving_code {F : FS} {S : Solver} {k' : Nat} (h : Rel F k' S) (ω : Nat → Nat) (k : Nat) (e : Sym) :
    (Solver.getLeavingRow ω k S e).map code = leaving (ω k) F (code e) := by
  unfold Solver.getLeavingRow leaving
  cases hl : lowest (ratios F (code e)) with
  | none =>
    have hnil := lowest_none hl
    have hnone : ∀ t, S.leavingRatio e t = none := by
      intro t
      rw [ratio_code h]
      cases hr : ratio F (code e) (code t) with
      | none => rfl
      | some q =>
        have := (mem_ratios F (code e) (code t) q).2 hr
        rw [hnil] at this
        exact absurd this List.not_mem_nil
    have : ∀ p : Sym → Bool, (∀ s, p s = false) → allSyms.filter p = [] := by
      intro p hp
      rw [List.filter_eq_nil_iff]
      intro s _
      simp [hp s]
    simp only [hl]
    rw [this]
    · rfl
    · intro s
      simp [hnone s]
  | some m =>
    obtain ⟨⟨n0, hn0⟩, hmin⟩ := lowest_some hl
    simp only [hl]
    apply pick_code
    · intro s
      rw [ratio_code h]
      constructor
      · intro hs
        cases hr : ratio F (code e) (code s) with
        | none => rw [hr] at hs; simp at hs
        | some q =>
          rw [hr] at hs
          simp only [List.all_eq_true] at hs
          refine List.mem_map.2 ⟨(code s, q), List.mem_filter.2 ⟨(mem_ratios ..).2 hr, ?_⟩, rfl⟩
          simp only [decide_eq_true_eq]
          have hr0 := (mem_ratios ..).1 hn0
          obtain ⟨u, hu⟩ := code_surj (ratio_lt hr0)
          have := hs u (mem_allSyms u)
          rw [ratio_code h, hu, hr0] at this
          simpa using this
      · intro hs
        obtain ⟨⟨n, q⟩, hp, hpn⟩ := List.mem_map.1 hs
        obtain ⟨hp1, hp2⟩ := List.mem_filter.1 hp
        simp only [decide_eq_true_eq] at hp2
        simp only at hpn
        subst hpn
        rw [(mem_ratios ..).1 hp1]
        simp only [List.all_eq_true]
        intro u _
        rw [ratio_code h]
        cases hr : ratio F (code e) (code u) with
        | none => rfl
        | some q' =>
          simp only [decide_eq_true_eq]
          exact le_trans hp2 (hmin _ ((mem_ratios ..).2 hr))
    · intro n hn
      obtain ⟨⟨n', q⟩, hp, hpn⟩ := List.mem_map.1 hn
      simp only at hpn
      subst hpn
      exact ratio_lt ((mem_ratios ..).1 (List.mem_filter.1 hp).1)

/-! ### The loop -/

/-- Results that stand for each other. -/
def RelE : Except SolverErr (FS × Nat) → Except SolverErr Solver → Prop
  | .error e, .error e' => e = e'
  | .ok p, .ok S => Rel p.1 p.2 S
  | _, _ => False

/-- The model's objective pointer. -/
def msel : Bool → Solver → Row
  | false => Solver.objective
  | true => Solver.artificialRow

theorem sel_den {F : FS} {k : Nat} {S : Solver} (h : Rel F k S) (a : Bool) : msel a S = (sel a F).den := by
  cases a
  · exact h.obj
  · simp only [msel, Solver.artificialRow, sel, h.art]
    cases F.artificial with
    | none => apply Row.ext <;> rfl
    | some r => rfl

theorem Rel.optimize (ω : Nat → Nat) (a : Bool) : ∀ (fuel : Nat) (F : FS) (k : Nat) (S : Solver), Rel F k S →
    RelE (optimize ω a fuel k F) (Solver.optimize ω (msel a) fuel S) := by
  intro fuel
  induction fuel with
  | zero => intro F k S _; rfl
  | succ fuel ih =>
    intro F k S h
    have he := entering_code ω S.clock (sel a F)
    rw [h.clock] at he
    simp only [Fast.optimize, Solver.optimize, step]
    rw [sel_den h a, h.clock, ← he]
    cases hE : Solver.getEnteringSymbol ω k (sel a F).den with
    | none => exact h
    | some e =>
      have hl := leaving_code h ω (k + 1) e
      simp only [Option.map_some]
      rw [← hl]
      cases hL : Solver.getLeavingRow ω (k + 1) S e with
      | none => exact rfl
      | some l =>
        simp only [Option.map_some]
        have hr := h.rows l
        cases hf : find F.rows (code l) with
        | none =>
          rw [hf] at hr
          rw [show S.rows l = none from hr]
          exact rfl
        | some row =>
          rw [hf] at hr
          rw [show S.rows l = some row.den from hr]
          simp only
          apply ih
          have h1 : Rel { F with rows := Fast.dropRow (code l) F.rows } (k + 2)
              { S with rows := fun b => if b = l then none else S.rows b, clock := k + 2 } := by
            have := h.dropRow l
            exact ⟨this.rows, this.obj, this.art, this.tick, rfl, this.vars⟩
          have h2 := h1.pivotIn e (row.solveForSymbols (code l) (code e))
          rw [den_solveForSymbols] at h2
          exact h2

/-! ### Adding a constraint -/

theorem Rel.varSymbol {F : FS} {k : Nat} {S : Solver} (h : Rel F k S) (v : Var) :
    Rel (varSymbol F v).1 k (S.getVarSymbol v).1 ∧ (varSymbol F v).2 = code (S.getVarSymbol v).2 := by
  unfold Fast.varSymbol Solver.getVarSymbol
  have hv := h.vars v
  cases hs : S.varSym v with
  | some s =>
    rw [hs] at hv
    rw [← show some (code s) = find F.vars v from hv]
    exact ⟨h, rfl⟩
  | none =>
    rw [hs] at hv
    rw [← show none = find F.vars v from hv]
    refine ⟨⟨h.rows, h.obj, h.art, by simp only [h.tick], h.clock, ?_⟩, ?_⟩
    · intro u
      simp only [find]
      by_cases hu : u = v
      · simp only [hu, if_true, Option.map_some, h.tick]
        rfl
      · have : v ≠ u := fun h => hu h.symm
        simp only [hu, this, if_false]
        exact h.vars u
    · simp only [h.tick]
      rfl

theorem Rel.addTerms (ts : List (Var × ℚ)) : ∀ (F : FS) (k : Nat) (S : Solver) (row : LRow), Rel F k S →
    Rel (addTerms F row ts).1 k (S.addTerms row.den ts).1 ∧
      (addTerms F row ts).2.den = (S.addTerms row.den ts).2 := by
  induction ts with
  | nil => intro F k S row h; exact ⟨h, rfl⟩
  | cons t ts ih =>
    intro F k S row h
    obtain ⟨v, c⟩ := t
    simp only [Fast.addTerms, Solver.addTerms]
    split
    · exact ih F k S row h
    · obtain ⟨h1, h2⟩ := h.varSymbol v
      have hr := h1.rows (S.getVarSymbol v).2
      rw [h2]
      cases hf : find (Fast.varSymbol F v).1.rows (code (S.getVarSymbol v).2) with
      | none =>
        rw [hf] at hr
        rw [show (S.getVarSymbol v).1.rows (S.getVarSymbol v).2 = none from hr]
        simp only
        rw [← den_insertSymbol]
        exact ih _ _ _ _ h1
      | some o =>
        rw [hf] at hr
        rw [show (S.getVarSymbol v).1.rows (S.getVarSymbol v).2 = some o.den from hr]
        simp only
        rw [← den_insertRow]
        exact ih _ _ _ _ h1

theorem Rel.addMarkers {F : FS} {k : Nat} {S : Solver} (h : Rel F k S) (row : LRow) (c : Constr) :
    Rel (addMarkers F row c).1 k (S.addMarkers row.den c).1 ∧
      (addMarkers F row c).2.1.den = (S.addMarkers row.den c).2.1 ∧
      (addMarkers F row c).2.2.1 = code (S.addMarkers row.den c).2.2.marker ∧
      (addMarkers F row c).2.2.2 = (S.addMarkers row.den c).2.2.other.map code := by
  have e1 : symAt F.tick 1 = code (symbolAt S.idTick .slack) := by rw [code_symbolAt, h.tick]
  have e2 : symAt F.tick 2 = code (symbolAt S.idTick .error) := by rw [code_symbolAt, h.tick]
  have e3 : symAt (F.tick + 1) 2 = code (symbolAt (S.idTick + 1) .error) := by rw [code_symbolAt, h.tick]
  have e4 : symAt F.tick 3 = code (symbolAt S.idTick .dummy) := by rw [code_symbolAt, h.tick]
  unfold Fast.addMarkers Solver.addMarkers
  simp only [e1, e2, e3, e4]
  by_cases hs : c.strength < required
  all_goals
    simp only [hs, if_true, if_false]
    cases c.op
    all_goals
      refine ⟨⟨h.rows, ?_, h.art, ?_, h.clock, h.vars⟩, ?_, rfl, rfl⟩
      · simp only [den_insertSymbol, h.obj]
      · simp only [h.tick]
      · simp only [den_insertSymbol]

theorem Rel.createRow {F : FS} {k : Nat} {S : Solver} (h : Rel F k S) (c : Constr) :
    Rel (createRow F c).1 k (S.createRow c).1 ∧
      (createRow F c).2.1.den = (S.createRow c).2.1 ∧
      (createRow F c).2.2.1 = code (S.createRow c).2.2.marker ∧
      (createRow F c).2.2.2 = (S.createRow c).2.2.other.map code := by
  have h0 : (⟨[], c.expr.constant⟩ : LRow).den = Row.new c.expr.constant := by apply Row.ext <;> rfl
  obtain ⟨h1, h2⟩ := Rel.addTerms c.expr.terms F k S ⟨[], c.expr.constant⟩ h
  rw [h0] at h1 h2
  obtain ⟨g1, g2, g3, g4⟩ := h1.addMarkers (Fast.addTerms F ⟨[], c.expr.constant⟩ c.expr.terms).2 c
  rw [h2] at g1 g2 g3 g4
  unfold Fast.createRow Solver.createRow
  refine ⟨g1, ?_, g3, g4⟩
  simp only
  rw [← g2]
  generalize (Fast.addMarkers _ _ c).2.1 = r
  by_cases hlt : r.const < 0
  · have hlt' : r.den.constant < 0 := hlt
    rw [if_pos hlt, if_pos hlt', den_negate]
  · have hlt' : ¬ r.den.constant < 0 := hlt
    rw [if_neg hlt, if_neg hlt']

theorem pivotable_code (row : LRow) (s : Sym) :
    ((decide (s.type = .slack) || decide (s.type = .error)) && decide (row.den.cells s < 0)) =
      pivotable row (code s) := by
  unfold pivotable
  rw [Bool.eq_iff_iff]
  simp only [Bool.and_eq_true, Bool.or_eq_true, decide_eq_true_eq, code_slack, code_error]
  rfl

theorem chooseSubject_code (ω : Nat → Nat) (k : Nat) (row : LRow) (tag : Tag) :
    (Solver.chooseSubject ω k row.den tag).map code =
      chooseSubject (ω k) row (code tag.marker) (tag.other.map code) := by
  unfold Solver.chooseSubject chooseSubject
  have h1 := pick_code ω k
    (fun t => decide (t.type = .external) && decide (row.den.cells t ≠ 0))
    ((row.cells.map Prod.fst).filter fun n =>
      decide (n < 1024) && decide (n % 4 = 0) && decide (get row.cells n ≠ 0))
    (by
      intro s
      simp only [List.mem_filter, Bool.and_eq_true, decide_eq_true_eq, ne_eq, code_external]
      constructor
      · rintro ⟨h1, h2⟩
        exact ⟨mem_of_get_ne h2, ⟨code_lt s, h1⟩, h2⟩
      · rintro ⟨_, ⟨_, h1⟩, h2⟩
        exact ⟨h1, h2⟩)
    (by
      intro n hn
      have := (List.mem_filter.1 hn).2
      simp only [Bool.and_eq_true, decide_eq_true_eq] at this
      exact this.1.1)
  rw [← h1]
  cases Casso.pick ω k (allSyms.filter fun t => decide (t.type = .external) && decide (row.den.cells t ≠ 0)) with
  | some s => rfl
  | none =>
    simp only [Option.map_none, List.find?_cons, pivotable_code]
    cases pivotable row (code tag.marker) with
    | true => rfl
    | false =>
      cases tag.other with
      | none => rfl
      | some o =>
        simp only [Option.toList_some, List.find?_cons, List.find?_nil, Option.map_some, pivotable_code]
        cases pivotable row (code o) <;> rfl

theorem anyPivotable_code (ω : Nat → Nat) (k : Nat) (row : LRow) :
    (Solver.anyPivotableSymbol ω k row.den).map code = anyPivotable (ω k) row := by
  unfold Solver.anyPivotableSymbol anyPivotable
  apply pick_code
  · intro s
    simp only [List.mem_filter, Bool.and_eq_true, Bool.or_eq_true, decide_eq_true_eq, ne_eq,
      code_slack, code_error]
    constructor
    · rintro ⟨h1, h2⟩
      exact ⟨mem_of_get_ne h2, ⟨code_lt s, h1⟩, h2⟩
    · rintro ⟨_, ⟨_, h1⟩, h2⟩
      exact ⟨h1, h2⟩
  · intro n hn
    have := (List.mem_filter.1 hn).2
    simp only [Bool.and_eq_true, decide_eq_true_eq] at this
    exact this.1.1

theorem Rel.removeSymbol {F : FS} {k : Nat} {S : Solver} (h : Rel F k S) (s : Sym) :
    Rel (removeSymbol F (code s)) k (S.removeSymbol s) := by
  unfold Fast.removeSymbol Solver.removeSymbol
  refine ⟨?_, ?_, h.art, h.tick, h.clock, h.vars⟩
  · intro b
    simp only
    rw [find_map (fun r : LRow => (⟨Fast.drop (code s) r.cells, r.const⟩ : LRow)), h.rows b, Option.map_map, Option.map_map]
    congr 1
    funext r
    exact (den_remove r s).symm
  · simp only [h.obj]
    exact (den_remove _ s).symm

theorem Rel.finishArtificial {F : FS} {k : Nat} {S : Solver} (h : Rel F k S) (ω : Nat → Nat) (art : Sym) :
    Rel (finishArtificial ω (code art) F k).1.1 (finishArtificial ω (code art) F k).1.2
        (Solver.finishArtificial ω art S).1 ∧
      (finishArtificial ω (code art) F k).2 = (Solver.finishArtificial ω art S).2 := by
  have hsel : S.artificialRow = (sel true F).den := sel_den h true
  have h1 : Rel { F with artificial := none } k { S with artificial := none } :=
    ⟨h.rows, h.obj, rfl, h.tick, h.clock, h.vars⟩
  have hc : decide (S.artificialRow.constant = 0) = decide ((sel true F).const = 0) := by
    rw [hsel]; rfl
  unfold Fast.finishArtificial Solver.finishArtificial
  simp only [hc]
  have hr := h.rows art
  cases hf : find F.rows (code art) with
  | none =>
    rw [hf] at hr
    rw [show S.rows art = none from hr]
    exact ⟨h1.removeSymbol art, rfl⟩
  | some row =>
    rw [hf] at hr
    rw [show S.rows art = some row.den from hr]
    simp only
    rw [noCells_den]
    have h2 := h1.dropRow art
    cases hn : row.noCells with
    | true => exact ⟨h2, rfl⟩
    | false =>
      simp only [Bool.false_eq_true, if_false]
      have ha := anyPivotable_code ω S.clock row
      rw [h.clock] at ha ⊢
      rw [← ha]
      cases Solver.anyPivotableSymbol ω k row.den with
      | none => exact ⟨⟨h2.rows, h2.obj, h2.art, h2.tick, rfl, h2.vars⟩, rfl⟩
      | some e =>
        simp only [Option.map_some]
        refine ⟨?_, trivial⟩
        apply Rel.removeSymbol
        rw [← den_solveForSymbols]
        apply Rel.pivotIn
        exact ⟨h2.rows, h2.obj, h2.art, h2.tick, rfl, h2.vars⟩

theorem Rel.addWithArtificial {F : FS} {k : Nat} {S : Solver} (h : Rel F k S) (ω : Nat → Nat) (fuel : Nat)
    (row : LRow) :
    (∃ e, addWithArtificial ω fuel F k row = .error e ∧
      S.addWithArtificialVariable ω fuel row.den = .error e) ∨
    (∃ F' k' S' b, addWithArtificial ω fuel F k row = .ok ((F', k'), b) ∧
      S.addWithArtificialVariable ω fuel row.den = .ok (S', b) ∧ Rel F' k' S') := by
  have ea : symAt F.tick 1 = code (symbolAt S.idTick .slack) := by rw [code_symbolAt, h.tick]
  have ho := Rel.optimize ω true fuel
    { F with
      tick := F.tick + 1
      rows := insertRow (code (symbolAt S.idTick .slack)) row
        (Fast.dropRow (code (symbolAt S.idTick .slack)) F.rows)
      artificial := some row }
    k
    { S with
      idTick := S.idTick + 1
      rows := fun b => if b = symbolAt S.idTick .slack then some row.den else S.rows b
      artificial := some row.den }
    ⟨by
      intro b
      simp only [find_set, code_inj, h.rows b]
      split <;> rfl, h.obj, rfl, by simp only [h.tick], h.clock, h.vars⟩
  unfold Fast.addWithArtificial Solver.addWithArtificialVariable
  simp only [ea]
  revert ho
  simp only [msel]
  generalize Fast.optimize ω true fuel k _ = x
  generalize Solver.optimize ω Solver.artificialRow fuel _ = y
  intro ho
  cases x with
  | error e =>
    cases y with
    | error e' => exact Or.inl ⟨e, rfl, by rw [show e = e' from ho]⟩
    | ok S' => exact ho.elim
  | ok p =>
    cases y with
    | error e' => exact ho.elim
    | ok S' =>
      right
      have hR : Rel p.1 p.2 S' := ho
      obtain ⟨g1, g2⟩ := hR.finishArtificial ω (symbolAt S.idTick .slack)
      refine ⟨(Fast.finishArtificial ω (code (symbolAt S.idTick .slack)) p.1 p.2).1.1,
        (Fast.finishArtificial ω (code (symbolAt S.idTick .slack)) p.1 p.2).1.2, _,
        (Fast.finishArtificial ω (code (symbolAt S.idTick .slack)) p.1 p.2).2, rfl, ?_, g1⟩
      rw [g2]

theorem Rel.insertConstraint {F : FS} {k : Nat} {S : Solver} (h : Rel F k S) (ω : Nat → Nat) (fuel : Nat)
    (c : Constr) : RelE (insertConstraint ω fuel F k c) (S.insertConstraint ω fuel c) := by
  obtain ⟨h1, h2, h3, h4⟩ := h.createRow c
  have hs := chooseSubject_code ω k (Fast.createRow F c).2.1 (S.createRow c).2.2
  have hk : Rel (Fast.createRow F c).1 (k + 1)
      { (S.createRow c).1 with clock := (S.createRow c).1.clock + 1 } :=
    ⟨h1.rows, h1.obj, h1.art, h1.tick, by simp only [h1.clock], h1.vars⟩
  unfold Fast.insertConstraint Solver.insertConstraint
  simp only [h3, h4]
  rw [← hs, ← h2, h1.clock]
  rw [h1.clock] at hk
  cases Solver.chooseSubject ω k (Fast.createRow F c).2.1.den (S.createRow c).2.2 with
  | some s =>
    simp only [Option.map_some]
    have := hk.pivotIn s ((Fast.createRow F c).2.1.solveForSymbol (code s))
    rw [den_solveForSymbol] at this
    exact this
  | none =>
    simp only [Option.map_none]
    rw [allDummies_den]
    cases hd : allDummies (Fast.createRow F c).2.1 with
    | true =>
      simp only [if_true]
      by_cases hz : (Fast.createRow F c).2.1.const = 0
      · rw [if_neg (by simpa using hz), if_neg (by simpa [LRow.den] using hz)]
        have := hk.pivotIn (S.createRow c).2.2.marker
          ((Fast.createRow F c).2.1.solveForSymbol (code (S.createRow c).2.2.marker))
        rw [den_solveForSymbol] at this
        exact this
      · rw [if_pos (by simpa using hz), if_pos (by simpa [LRow.den] using hz)]
        exact rfl
    | false =>
      simp only [Bool.false_eq_true, if_false]
      rcases hk.addWithArtificial ω fuel (Fast.createRow F c).2.1 with ⟨e, g1, g2⟩ | ⟨F', k', S', b, g1, g2, g3⟩
      · rw [g1, g2]
        exact rfl
      · rw [g1, g2]
        cases b
        · exact rfl
        · exact g3

theorem Rel.addConstraint {F : FS} {k : Nat} {S : Solver} (h : Rel F k S) (ω : Nat → Nat) (fuel : Nat)
    (c : Constr) : RelE (addConstraint ω fuel F k c) (S.addConstraint ω fuel c) := by
  have hi := h.insertConstraint ω fuel c
  unfold Fast.addConstraint Solver.addConstraint
  revert hi
  generalize Fast.insertConstraint ω fuel F k c = x
  generalize S.insertConstraint ω fuel c = y
  intro hi
  cases x with
  | error e =>
    cases y with
    | error e' => exact hi
    | ok S' => exact hi.elim
  | ok p =>
    cases y with
    | error e' => exact hi.elim
    | ok S' => exact Rel.optimize ω false fuel p.1 p.2 S' hi

theorem Rel.addConstraints (ω : Nat → Nat) (fuel : Nat) (cs : List Constr) :
    ∀ (F : FS) (k : Nat) (S : Solver), Rel F k S →
      RelE (addConstraints ω fuel F k cs) (S.addConstraints ω fuel cs) := by
  induction cs with
  | nil => intro F k S h; exact h
  | cons c cs ih =>
    intro F k S h
    have hi := h.addConstraint ω fuel c
    simp only [Fast.addConstraints, Solver.addConstraints]
    revert hi
    generalize Fast.addConstraint ω fuel F k c = x
    generalize S.addConstraint ω fuel c = y
    intro hi
    cases x with
    | error e =>
      cases y with
      | error e' => exact hi
      | ok S' => exact hi.elim
    | ok p =>
      cases y with
      | error e' => exact hi.elim
      | ok S' => exact ih p.1 p.2 S' hi

theorem Rel.getValue {F : FS} {k : Nat} {S : Solver} (h : Rel F k S) (v : Var) :
    S.getValue v = Fast.getValue F v := by
  unfold Solver.getValue Fast.getValue
  have hv := h.vars v
  cases hs : S.varSym v with
  | none =>
    rw [hs] at hv
    rw [← show none = find F.vars v from hv]
  | some s =>
    rw [hs] at hv
    rw [← show some (code s) = find F.vars v from hv]
    simp only
    rw [h.rows s]
    cases find F.rows (code s) <;> rfl

end Bento.Casso.Fast
