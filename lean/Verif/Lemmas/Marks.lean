import Verif.Spec.Marks
import Verif.Lemmas.Text
import Verif.Lemmas.Control
import Verif.Lemmas.Ansi

/-!
# Drawing a span with clusters of any width
-/

namespace Bento

open Buffer

theorem join_append (l m : List String) : String.join (l ++ m) = String.join l ++ String.join m := by
  induction l with
  | nil => simp [String.join]
  | cons a l ih =>
    have e : ∀ k : List String, String.join (a :: k) = a ++ String.join k := by
      intro k
      simp only [String.join, List.foldl_cons]
      rw [join_foldl]; simp
    rw [List.cons_append, e, e, ih, String.append_assoc]

theorem join_cons (a : String) (k : List String) : String.join (a :: k) = a ++ String.join k := by
  have := join_append [a] k
  simpa [String.join] using this

theorem join_modifyHead (s : String) {l : List String} (hl : l ≠ []) :
    String.join (l.modifyHead (s ++ ·)) = s ++ String.join l := by
  cases l with
  | nil => exact absurd rfl hl
  | cons a l => rw [List.modifyHead_cons, join_cons, join_cons, String.append_assoc]

namespace Marks

/-- Row `y` shows `D` from column `x` on; everything else is as in `b`. -/
structure Row (b b' : Buffer) (x y : Int) (D : List String) : Prop where
  area : b'.area = b.area
  wf : b'.WF
  cells : ∀ q, b'.symbolAt q =
    if q.y = y ∧ x ≤ q.x ∧ q.x < x + D.length then D[(q.x - x).toNat]? else b.symbolAt q

theorem Row.start {b : Buffer} (wf : b.WF) (x y : Int) : Row b b x y [] :=
  ⟨rfl, wf, fun q => by rw [if_neg]; simp only [List.length_nil]; omega⟩

/-- The next cell is set. -/
theorem Row.put {b b' : Buffer} {x y : Int} {D : List String} (h : Row b b' x y D) {f : Cell → Cell} {s : String}
    (hf : ∀ c, (f c).symbol = s) (hc : b.area.contains ⟨x + D.length, y⟩ = true) :
    ∃ b'', b'.modifyCell ⟨x + D.length, y⟩ f = some b'' ∧ Row b b'' x y (D ++ [s]) := by
  have hc' : b'.area.contains ⟨x + D.length, y⟩ = true := by rw [h.area]; exact hc
  obtain ⟨b'', e1, e2, e3, e4⟩ := h.wf.modifyCell_some f hc'
  refine ⟨b'', e1, e2.trans h.area, e3, fun q => ?_⟩
  simp only [Buffer.symbolAt, e4, List.length_append, List.length_singleton]
  by_cases hq : q = ⟨x + D.length, y⟩
  · subst hq
    rw [if_pos rfl, if_pos ⟨rfl, by simp only; omega, by simp only; omega⟩]
    have hs : (b'.cellAt ⟨x + D.length, y⟩).isSome := by
      rw [cellAt_eq hc', List.getElem?_eq_getElem (h.wf.idx_lt_length hc')]
      rfl
    obtain ⟨c, hc⟩ := Option.isSome_iff_exists.1 hs
    rw [hc]
    simp only [Option.map_some, hf]
    rw [show (x + (D.length : Int) - x).toNat = D.length by omega]
    simp
  · rw [if_neg hq]
    have := h.cells q
    simp only [Buffer.symbolAt] at this
    rw [this]
    by_cases hin : q.y = y ∧ x ≤ q.x ∧ q.x < x + D.length
    · rw [if_pos hin, if_pos ⟨hin.1, hin.2.1, by push_cast; omega⟩, List.getElem?_append_left (by omega)]
    · rw [if_neg hin, if_neg]
      rintro ⟨h1, h2, h3⟩
      apply hq
      obtain ⟨qx, qy⟩ := q
      simp only at h1 h2 h3 hin ⊢
      subst h1
      congr 1
      push_cast at h3
      omega

/-- Something is added to the last cell. -/
theorem Row.append {b b' : Buffer} {x y : Int} {D : List String} {s t : String} (h : Row b b' x y (D ++ [s]))
    {f : Cell → Cell} (hf : ∀ c, (f c).symbol = c.symbol ++ t) (hc : b.area.contains ⟨x + D.length, y⟩ = true) :
    ∃ b'', b'.modifyCell ⟨x + D.length, y⟩ f = some b'' ∧ Row b b'' x y (D ++ [s ++ t]) := by
  have hc' : b'.area.contains ⟨x + D.length, y⟩ = true := by rw [h.area]; exact hc
  obtain ⟨b'', e1, e2, e3, e4⟩ := h.wf.modifyCell_some f hc'
  refine ⟨b'', e1, e2.trans h.area, e3, fun q => ?_⟩
  have hcell := h.cells q
  simp only [Buffer.symbolAt, List.length_append, List.length_singleton] at hcell ⊢
  rw [e4]
  by_cases hq : q = ⟨x + D.length, y⟩
  · subst hq
    have hin : (⟨x + D.length, y⟩ : Position).y = y ∧ x ≤ (⟨x + D.length, y⟩ : Position).x ∧
        (⟨x + D.length, y⟩ : Position).x < x + ((D.length + 1 : Nat) : Int) :=
      ⟨rfl, by simp only; omega, by simp only; omega⟩
    rw [if_pos hin] at hcell
    rw [if_pos rfl, if_pos hin]
    simp only at hcell ⊢
    rw [show (x + (D.length : Int) - x).toNat = D.length by omega] at hcell ⊢
    simp only [List.getElem?_append_right (Nat.le_refl _), Nat.sub_self, List.getElem?_cons_zero] at hcell ⊢
    obtain ⟨c, hc, e⟩ := Option.map_eq_some_iff.1 hcell
    rw [hc]
    simp only [Option.map_some, hf, e]
  · rw [if_neg hq, hcell]
    by_cases hin : q.y = y ∧ x ≤ q.x ∧ q.x < x + ((D.length + 1 : Nat) : Int)
    · rw [if_pos hin, if_pos hin]
      have hlt : (q.x - x).toNat < D.length := by
        rcases Nat.lt_or_ge (q.x - x).toNat D.length with h | h
        · exact h
        · exfalso
          apply hq
          obtain ⟨qx, qy⟩ := q
          obtain ⟨h1, h2, h3⟩ := hin
          simp only at h h1 h2 h3 ⊢
          subst h1
          congr 1
          push_cast at h3
          omega
      rw [List.getElem?_append_left hlt, List.getElem?_append_left hlt]
    · rw [if_neg hin, if_neg hin]

/-- The cells hidden by a wide symbol. -/
theorem Row.hide {b : Buffer} {x y : Int} (n : Nat) {b' : Buffer} {D : List String} (h : Row b b' x y D)
    (hc : ∀ k, D.length ≤ k → k < D.length + n → b.area.contains ⟨x + k, y⟩ = true) :
    ∃ b'', Span.hideLoop y n (x + D.length) b' = some b'' ∧ Row b b'' x y (D ++ List.replicate n " ") := by
  induction n generalizing b' D with
  | zero => exact ⟨b', rfl, by simpa using h⟩
  | succ n ih =>
    obtain ⟨b1, e1, h1⟩ := h.put (f := Cell.reset) (s := " ") (fun _ => rfl) (hc D.length (by omega) (by omega))
    obtain ⟨b2, e2, h2⟩ := ih h1 (by
      intro k hk hk'
      simp only [List.length_append, List.length_singleton] at hk hk'
      exact hc k (by omega) (by omega))
    refine ⟨b2, ?_, ?_⟩
    · simp only [Span.hideLoop, e1, Option.bind_eq_bind, Option.bind_some]
      rw [← e2]
      simp only [List.length_append, List.length_singleton]
      congr 1
      push_cast
      omega
    · rw [List.append_assoc] at h2
      exact h2

/-- The graphemes of a list of clusters, in one style. -/
def graphemesOf (u : Uniseg) (st : Style) (cs : List String) : List StyledGrapheme :=
  cs.map fun c => ⟨⟨c, u.width c⟩, st⟩

variable {u : Uniseg} {st : Style} {area : Rect} {y : Int} {b : Buffer}

/-- Clusters without width go to the last cell. -/
theorem marks_step (marks : List String) (hm : ∀ c ∈ marks, u.width c = 0) (rest : List StyledGrapheme)
    {b' : Buffer} {D : List String} {s : String} (h : Row b b' area.x y (D ++ [s]))
    (hw : area.x + D.length + 1 ≤ area.right)
    (hc : b.area.contains ⟨area.x + D.length, y⟩ = true) :
    ∃ b'', Span.renderLoop area y (graphemesOf u st marks ++ rest) false (area.x + D.length + 1) b' =
      Span.renderLoop area y rest false (area.x + D.length + 1) b'' ∧
      Row b b'' area.x y (D ++ [s ++ String.join marks]) := by
  induction marks generalizing b' s with
  | nil =>
    refine ⟨b', rfl, ?_⟩
    simpa [String.join] using h
  | cons c marks ih =>
    have h0 : u.width c = 0 := hm c (List.mem_cons_self ..)
    obtain ⟨b1, e1, h1⟩ := h.append (f := fun cell => (cell.appendSymbol c).setStyle st) (t := c)
      (fun _ => rfl) hc
    obtain ⟨b2, e2, h2⟩ := ih (fun a ha => hm a (List.mem_cons_of_mem _ ha)) h1
    refine ⟨b2, ?_, ?_⟩
    · rw [← e2]
      simp only [graphemesOf, List.map_cons, List.cons_append, Span.renderLoop, h0]
      rw [if_neg (by push_cast; omega)]
      simp only [Span.putGrapheme, if_true, Bool.false_eq_true, if_false]
      rw [if_neg (by omega), show area.x + (D.length : Int) + 1 - 1 = area.x + D.length by omega, e1]
      simp only [Option.bind_eq_bind, Option.bind_some, Nat.zero_sub, Span.hideLoop]
      simp
    · have e : String.join (c :: marks) = c ++ String.join marks := by
        simp only [String.join, List.foldl_cons]
        rw [join_foldl]
        simp
      rw [e, ← String.append_assoc]
      exact h2

/-- What the columns of a symbol hold. -/
def cellsFrom (t : String) (w : Nat) (marks : String) : List String :=
  (List.range w).map fun k => (if k = 0 then t else " ") ++ (if k + 1 = w then marks else "")

theorem cellsFrom_one (t marks : String) : cellsFrom t 1 marks = [t ++ marks] := by
  simp [cellsFrom, List.range_succ]

theorem cellsFrom_wide (t marks : String) (n : Nat) :
    cellsFrom t (n + 2) marks = t :: List.replicate n " " ++ [" " ++ marks] := by
  apply List.ext_getElem?
  intro i
  simp only [cellsFrom, List.getElem?_map, List.cons_append]
  rcases i with _ | i
  · rw [List.getElem?_range (by omega)]
    simp
  · rw [List.getElem?_cons_succ]
    rcases Nat.lt_trichotomy i n with h | h | h
    · rw [List.getElem?_range (by omega), List.getElem?_append_left (by simpa using h)]
      simp only [Option.map_some, List.getElem?_replicate, if_pos h]
      rw [if_neg (by omega), if_neg (by omega)]
      simp
    · subst h
      rw [List.getElem?_range (by omega), List.getElem?_append_right (by simp)]
      simp
    · rw [List.getElem?_eq_none (by simp; omega), List.getElem?_eq_none (by simp; omega)]
      rfl

theorem cellsFrom_length (t marks : String) (w : Nat) : (cellsFrom t w marks).length = w := by
  simp [cellsFrom]

theorem cellsFrom_head (l t marks : String) (w : Nat) (hw : 1 ≤ w) :
    cellsFrom (l ++ t) w marks = (cellsFrom t w marks).modifyHead (l ++ ·) := by
  obtain ⟨n, rfl⟩ : ∃ n, w = n + 1 := ⟨w - 1, by omega⟩
  rcases n with _ | n
  · rw [cellsFrom_one, cellsFrom_one]
    simp [String.append_assoc]
  · rw [cellsFrom_wide, cellsFrom_wide]
    rfl

/-- After the first cell of a symbol: the hidden cells and the clusters without width. -/
theorem base_step {w : Nat} (hw : 1 ≤ w) (marks : List String) (hm : ∀ c ∈ marks, u.width c = 0)
    (rest : List StyledGrapheme) {b' : Buffer} {D : List String} {t : String} (h : Row b b' area.x y (D ++ [t]))
    (hr : area.x + D.length + w ≤ area.right)
    (hc : ∀ k : Nat, area.x + k < area.right → b.area.contains ⟨area.x + k, y⟩ = true) :
    ∃ b1 b2, Span.hideLoop y (w - 1) (area.x + D.length + 1) b' = some b1 ∧
      Span.renderLoop area y (graphemesOf u st marks ++ rest) false (area.x + D.length + w) b1 =
        Span.renderLoop area y rest false (area.x + D.length + w) b2 ∧
      Row b b2 area.x y (D ++ cellsFrom t w (String.join marks)) := by
  obtain ⟨n, rfl⟩ : ∃ n, w = n + 1 := ⟨w - 1, by omega⟩
  rcases n with _ | n
  · obtain ⟨b2, e2, h2⟩ := marks_step (st := st) marks hm rest h (by push_cast at hr; omega)
      (hc D.length (by push_cast at hr; omega))
    refine ⟨b', b2, rfl, ?_, ?_⟩
    · push_cast
      simpa using e2
    · rw [cellsFrom_one]; exact h2
  · obtain ⟨b1, e1, h1⟩ := h.hide (n + 1) (by
      intro k _ hk
      simp only [List.length_append, List.length_singleton] at hk
      exact hc k (by push_cast at hr; omega))
    have h1' : Row b b1 area.x y ((D ++ t :: List.replicate n " ") ++ [" "]) := by
      have e : D ++ [t] ++ List.replicate (n + 1) " " = (D ++ t :: List.replicate n " ") ++ [" "] := by
        rw [List.replicate_succ']
        simp
      rw [← e]; exact h1
    have hlen : ((D ++ t :: List.replicate n " ").length : Int) = D.length + n + 1 := by
      simp only [List.length_append, List.length_cons, List.length_replicate]
      push_cast
      omega
    obtain ⟨b2, e2, h2⟩ := marks_step (st := st) marks hm rest h1' (by rw [hlen]; push_cast at hr; omega)
      (hc _ (by rw [hlen]; push_cast at hr; omega))
    refine ⟨b1, b2, ?_, ?_, ?_⟩
    · simp only [List.length_append, List.length_singleton] at e1
      push_cast at e1
      simpa [Int.add_assoc] using e1
    · rw [hlen] at e2
      rw [show area.x + (D.length : Int) + ((n + 1 + 1 : Nat) : Int) = area.x + (D.length + n + 1) + 1 by
        push_cast; omega]
      exact e2
    · rw [cellsFrom_wide]
      simpa [List.append_assoc] using h2

/-- A symbol after the first one. -/
theorem symbol_step {m : Marked} (hm : m.Ok u) (rest : List StyledGrapheme) {b' : Buffer} {D : List String}
    (hD : D ≠ []) (h : Row b b' area.x y D) (hr : area.x + D.length + u.width m.base ≤ area.right)
    (hc : ∀ k : Nat, area.x + k < area.right → b.area.contains ⟨area.x + k, y⟩ = true) :
    ∃ b2, Span.renderLoop area y (graphemesOf u st m.clusters ++ rest) false (area.x + D.length) b' =
        Span.renderLoop area y rest false (area.x + D.length + u.width m.base) b2 ∧
      Row b b2 area.x y (D ++ m.cells u) := by
  have hw := hm.1
  have hDl : 1 ≤ D.length := by
    cases D with
    | nil => exact absurd rfl hD
    | cons a D => simp
  obtain ⟨b1, e1, h1⟩ := h.put (f := fun cell => (cell.setSymbol m.base).setStyle st) (s := m.base) (fun _ => rfl)
    (hc D.length (by omega))
  obtain ⟨b2, b3, e2, e3, h3⟩ := base_step (st := st) hw m.marks hm.2 rest h1 hr hc
  refine ⟨b3, ?_, h3⟩
  rw [← e3]
  simp only [Marked.clusters, graphemesOf, List.map_cons, List.cons_append, Span.renderLoop]
  rw [if_neg (by omega)]
  simp only [Span.putGrapheme, Bool.false_eq_true, if_false]
  rw [if_neg (by omega), if_neg (by omega), e1]
  simp only [Option.bind_eq_bind, Option.bind_some, e2]

theorem columnsOf_cons (m : Marked) (ms : List Marked) :
    markedColumns u (m :: ms) = u.width m.base + markedColumns u ms := by simp [markedColumns]

theorem cells_length (m : Marked) : (m.cells u).length = u.width m.base := cellsFrom_length _ _ _

/-- All the symbols after the first one. -/
theorem symbols_step {ms : List Marked} (hm : ∀ m ∈ ms, m.Ok u) (rest : List StyledGrapheme) {b' : Buffer}
    {D : List String} (hD : D ≠ []) (h : Row b b' area.x y D)
    (hr : area.x + D.length + markedColumns u ms ≤ area.right)
    (hc : ∀ k : Nat, area.x + k < area.right → b.area.contains ⟨area.x + k, y⟩ = true) :
    ∃ b2, Span.renderLoop area y (graphemesOf u st (ms.flatMap Marked.clusters) ++ rest) false (area.x + D.length) b' =
        Span.renderLoop area y rest false (area.x + D.length + markedColumns u ms) b2 ∧
      Row b b2 area.x y (D ++ ms.flatMap (Marked.cells u)) := by
  induction ms generalizing b' D with
  | nil => exact ⟨b', by simp [markedColumns, graphemesOf], by simpa using h⟩
  | cons m ms ih =>
    rw [columnsOf_cons] at hr
    push_cast at hr
    obtain ⟨b1, e1, h1⟩ := symbol_step (st := st) (hm m (List.mem_cons_self ..))
      (graphemesOf u st (ms.flatMap Marked.clusters) ++ rest) hD h (by omega) hc
    have hlen : ((D ++ m.cells u).length : Int) = D.length + u.width m.base := by
      rw [List.length_append, cells_length]; push_cast; rfl
    obtain ⟨b2, e2, h2⟩ := ih (fun a ha => hm a (List.mem_cons_of_mem _ ha)) (by simp [hD]) h1
      (by rw [hlen]; omega)
    refine ⟨b2, ?_, ?_⟩
    · rw [hlen, ← Int.add_assoc] at e2
      simp only [List.flatMap_cons, graphemesOf, List.map_append, List.append_assoc] at e1 e2 ⊢
      rw [e1, e2, columnsOf_cons]
      push_cast
      rw [Int.add_assoc]
    · simpa [List.flatMap_cons, List.append_assoc] using h2

/-- Clusters without width before the first symbol. -/
theorem lead_step (lead : List String) (hl : ∀ c ∈ lead, u.width c = 0) (rest : List StyledGrapheme)
    {b' : Buffer} {s : String} (h : Row b b' area.x y [s]) (hw : area.x < area.right)
    (hc : b.area.contains ⟨area.x, y⟩ = true) :
    ∃ b'', Span.renderLoop area y (graphemesOf u st lead ++ rest) false area.x b' =
      Span.renderLoop area y rest false area.x b'' ∧ Row b b'' area.x y [s ++ String.join lead] := by
  induction lead generalizing b' s with
  | nil => exact ⟨b', rfl, by simpa [String.join] using h⟩
  | cons c lead ih =>
    have h0 : u.width c = 0 := hl c (List.mem_cons_self ..)
    obtain ⟨b1, e1, h1⟩ := Row.append (D := []) (s := s) h (f := fun cell => (cell.appendSymbol c).setStyle st) (t := c)
      (fun _ => rfl) (by simpa using hc)
    obtain ⟨b2, e2, h2⟩ := ih (fun a ha => hl a (List.mem_cons_of_mem _ ha)) h1
    refine ⟨b2, ?_, ?_⟩
    · rw [← e2]
      simp only [graphemesOf, List.map_cons, List.cons_append, Span.renderLoop, h0]
      rw [if_neg (by push_cast; omega)]
      simp only [Span.putGrapheme, if_true, Bool.false_eq_true, if_false]
      simp only [List.length_nil, Int.natCast_zero, Int.ofNat_zero, Int.add_zero] at e1
      rw [e1]
      simp only [Option.bind_eq_bind, Option.bind_some, Nat.zero_sub, Span.hideLoop]
      simp
    · have e : String.join (c :: lead) = c ++ String.join lead := by
        simp only [String.join, List.foldl_cons]
        rw [join_foldl]
        simp
      rw [e, ← String.append_assoc]
      exact h2

/-- The first symbol, with what comes before it. -/
theorem first_step {lead : List String} (hl : ∀ c ∈ lead, u.width c = 0) {m : Marked} (hm : m.Ok u)
    (rest : List StyledGrapheme) (wf : b.WF) (hr : area.x + u.width m.base ≤ area.right)
    (hc : ∀ k : Nat, area.x + k < area.right → b.area.contains ⟨area.x + k, y⟩ = true) :
    ∃ b2, Span.renderLoop area y (graphemesOf u st (lead ++ m.clusters) ++ rest) true area.x b =
        Span.renderLoop area y rest false (area.x + u.width m.base) b2 ∧
      Row b b2 area.x y ((m.cells u).modifyHead (String.join lead ++ ·)) := by
  have hw := hm.1
  have hc0 : b.area.contains ⟨area.x, y⟩ = true := by simpa using hc 0 (by omega)
  have e0 := Row.start wf area.x y
  cases lead with
  | nil =>
    obtain ⟨b1, e1, h1⟩ := e0.put (f := fun cell => (cell.setSymbol m.base).setStyle st) (s := m.base) (fun _ => rfl)
      (by simpa using hc0)
    obtain ⟨b2, b3, e2, e3, h3⟩ := base_step (st := st) hw m.marks hm.2 rest h1 (by simpa using hr) hc
    refine ⟨b3, ?_, ?_⟩
    · simp only [List.length_nil, Int.natCast_zero, Int.ofNat_zero, Int.add_zero] at e1 e2 e3
      rw [← e3]
      simp only [List.nil_append, Marked.clusters, graphemesOf, List.map_cons, List.cons_append, Span.renderLoop]
      rw [if_neg (by omega)]
      simp only [Span.putGrapheme, if_true, e1, Option.bind_eq_bind, Option.bind_some, e2]
    · rw [show m.cells u = cellsFrom m.base (u.width m.base) (String.join m.marks) from rfl,
        ← cellsFrom_head _ _ _ _ hw]
      simpa [String.join] using h3
  | cons c lead =>
    have h0 : u.width c = 0 := hl c (List.mem_cons_self ..)
    obtain ⟨b1, e1, h1⟩ := e0.put (f := fun cell => (cell.setSymbol c).setStyle st) (s := c) (fun _ => rfl)
      (by simpa using hc0)
    obtain ⟨b2, e2, h2⟩ := lead_step (st := st) lead (fun a ha => hl a (List.mem_cons_of_mem _ ha))
      (graphemesOf u st m.clusters ++ rest) h1 (by omega) hc0
    obtain ⟨b3, e3, h3⟩ := Row.append (D := []) (s := c ++ String.join lead) h2
      (f := fun cell => (cell.appendSymbol m.base).setStyle st) (t := m.base) (fun _ => rfl) (by simpa using hc0)
    obtain ⟨b4, b5, e4, e5, h5⟩ := base_step (st := st) hw m.marks hm.2 rest h3 (by simpa using hr) hc
    refine ⟨b5, ?_, ?_⟩
    · simp only [List.length_nil, Int.natCast_zero, Int.ofNat_zero, Int.add_zero] at e1 e3 e4 e5
      rw [← e5]
      have : Span.renderLoop area y (graphemesOf u st (c :: lead ++ m.clusters) ++ rest) true area.x b =
          Span.renderLoop area y (graphemesOf u st lead ++ (graphemesOf u st m.clusters ++ rest)) false area.x b1 := by
        simp only [graphemesOf, List.cons_append, List.map_cons, List.map_append, Span.renderLoop, h0]
        rw [if_neg (by push_cast; omega)]
        simp only [Span.putGrapheme, if_true, e1, Option.bind_eq_bind, Option.bind_some, Nat.zero_sub, Span.hideLoop]
        simp
      rw [this, e2]
      simp only [Marked.clusters, graphemesOf, List.map_cons, List.cons_append, Span.renderLoop]
      rw [if_neg (by omega)]
      simp only [Span.putGrapheme, Bool.false_eq_true, if_false, if_true, e3, Option.bind_eq_bind, Option.bind_some, e4]
    · rw [show m.cells u = cellsFrom m.base (u.width m.base) (String.join m.marks) from rfl,
        ← cellsFrom_head _ _ _ _ hw]
      have e : String.join (c :: lead) = c ++ String.join lead := by
        simp only [String.join, List.foldl_cons]
        rw [join_foldl]
        simp
      rw [e]
      exact h5

theorem modifyHead_append {l m : List String} {f : String → String} (hl : l ≠ []) :
    (l ++ m).modifyHead f = l.modifyHead f ++ m := by
  cases l with
  | nil => exact absurd rfl hl
  | cons a l => rfl

/-- A whole span, up to the place where it is cut. -/
theorem span_step {lead : List String} (hl : ∀ c ∈ lead, u.width c = 0) {ms : List Marked} (hne : ms ≠ [])
    (hm : ∀ m ∈ ms, m.Ok u) {rest : List String} (wf : b.WF) (hcut : CutBehind u area.width ms rest)
    (hc : ∀ k : Nat, area.x + k < area.right → b.area.contains ⟨area.x + k, y⟩ = true) :
    ∃ b2, Span.renderLoop area y (graphemesOf u st (lead ++ ms.flatMap Marked.clusters ++ rest)) true area.x b = some b2 ∧
      Row b b2 area.x y ((ms.flatMap (Marked.cells u)).modifyHead (String.join lead ++ ·)) := by
  cases ms with
  | nil => exact absurd rfl hne
  | cons m ms =>
    have hcol := hcut.1
    rw [columnsOf_cons] at hcol
    push_cast at hcol
    have hright : area.right = area.x + area.width := rfl
    obtain ⟨b1, e1, h1⟩ := first_step (st := st) hl (hm m (List.mem_cons_self ..))
      (graphemesOf u st (ms.flatMap Marked.clusters) ++ graphemesOf u st rest) wf (by omega) hc
    have hcne : (m.cells u).length ≠ 0 := by
      rw [cells_length]; have := (hm m (List.mem_cons_self ..)).1; omega
    have hne' : m.cells u ≠ [] := fun e => hcne (by rw [e]; rfl)
    have hlen : (((m.cells u).modifyHead (String.join lead ++ ·)).length : Int) = u.width m.base := by
      rw [List.length_modifyHead, cells_length]
    obtain ⟨b2, e2, h2⟩ := symbols_step (st := st) (fun a ha => hm a (List.mem_cons_of_mem _ ha)) (graphemesOf u st rest)
      (by intro e; rw [e] at hlen; simp only [List.length_nil] at hlen; rw [cells_length] at hcne; omega) h1
      (by rw [hlen]; omega) hc
    refine ⟨b2, ?_, ?_⟩
    · rw [hlen] at e2
      have e3 : Span.renderLoop area y (graphemesOf u st rest) false
          (area.x + u.width m.base + markedColumns u ms) b2 = some b2 := by
        cases rest with
        | nil => rfl
        | cons c rest =>
          have := hcut.2 c rfl
          rw [columnsOf_cons] at this
          push_cast at this
          simp only [graphemesOf, List.map_cons, Span.renderLoop]
          rw [if_pos (by omega)]
      rw [← e3, ← e2]
      rw [← e1]
      simp only [graphemesOf, List.flatMap_cons, List.map_append, List.append_assoc]
    · rw [List.flatMap_cons, modifyHead_append hne']
      exact h2

end Marks

end Bento
