import Verif.Props.Buffer

/-!
# Drawing strings, exactly
-/


namespace Bento

open Buffer

theorem resetLoop_outside (y : Int) (n : Nat) : ∀ (x : Int) (b : Buffer), b.WF → 0 < n → b.area.right < x + n →
    resetLoop y n x b = none := by
  induction n with
  | zero => intro x b _ h; omega
  | succ n ih =>
    intro x b wf _ hout
    simp only [resetLoop, Option.bind_eq_bind]
    by_cases hc : b.area.contains ⟨x, y⟩ = true
    · obtain ⟨b1, e1, ha, wf1, _⟩ := wf.modifyCell_some Cell.reset hc
      rw [e1, Option.bind_some]
      have hx : x < b.area.right := by
        rw [Rect.contains_iff] at hc
        exact hc.2.1
      exact ih (x + 1) b1 wf1 (by omega) (by rw [ha]; omega)
    · rw [modifyCell_none (by simpa using hc)]
      rfl

/-- The graphemes of a text with the cells `SetStringN` gives them: a grapheme without width gets one, too. -/
def inCells (gs : List (String × Nat)) : List (String × Nat) := gs.map fun g => (g.1, max 1 g.2)

theorem setStringLoop_exact (y : Int) (style : Style) (shown : List (String × Nat)) :
    ∀ (rest : List (String × Nat)) (x R : Int) (b : Buffer), b.WF →
      (∀ pre g post, shown = pre ++ g :: post → totalWidth pre < R) → (rest = [] ∨ R ≤ totalWidth shown) →
      b.area.x ≤ x → b.area.y ≤ y → y < b.area.bottom →
      (x + totalWidth (inCells shown) ≤ b.area.right ∨ shown = [] →
        ∃ b', setStringLoop y style (shown ++ rest) x R b = some (b', x + totalWidth (inCells shown)) ∧
        b'.area = b.area ∧ b'.WF ∧
        ∀ q, b'.cellAt q = if q.y = y ∧ x ≤ q.x ∧ q.x < x + totalWidth (inCells shown) then
            (b.cellAt q).map (layoutCell style (inCells shown) (q.x - x)) else b.cellAt q) ∧
      (b.area.right < x + totalWidth (inCells shown) → shown ≠ [] → setStringLoop y style (shown ++ rest) x R b = none) := by
  induction shown with
  | nil =>
    intro rest x R b wf _ hrest _ _ _
    refine ⟨fun _ => ⟨b, ?_, rfl, wf, fun q => ?_⟩, fun _ h => absurd rfl h⟩
    · cases rest with
      | nil => simp [setStringLoop, inCells, totalWidth]
      | cons g rest =>
        obtain ⟨s, w⟩ := g
        have hR : R ≤ 0 := by simpa [totalWidth] using hrest
        simp only [List.nil_append, setStringLoop]
        rw [if_neg (by omega)]
        simp [inCells, totalWidth]
    · rw [if_neg]
      simp only [inCells, totalWidth, List.map_nil, List.sum_nil]
      omega
  | cons g shown ih =>
    obtain ⟨s, w⟩ := g
    intro rest x R b wf hshown hrest h1 h3 h4
    have hpos : R > 0 := by simpa [totalWidth] using hshown [] (s, w) shown rfl
    have htail : ∀ pre g post, shown = pre ++ g :: post → totalWidth pre < R - w := by
      intro pre g post he
      have := hshown ((s, w) :: pre) g post (by rw [he]; rfl)
      rw [totalWidth_cons] at this
      simp only at this
      omega
    have hrest' : rest = [] ∨ R - w ≤ totalWidth shown := by
      rw [totalWidth_cons] at hrest
      exact hrest.imp id fun h => by simp only at h; omega
    have hcols : totalWidth (inCells ((s, w) :: shown)) = (max 1 w : Nat) + totalWidth (inCells shown) := by
      simp only [inCells, List.map_cons, totalWidth_cons]
    have hn := totalWidth_nonneg (inCells shown)
    rw [hcols]
    simp only [List.cons_append, setStringLoop]
    rw [if_pos hpos]
    simp only [Option.bind_eq_bind, reduceCtorEq, or_false, ne_eq, not_false_eq_true, forall_const]
    by_cases hc : b.area.contains ⟨x, y⟩ = true
    · have hx : x < b.area.right := by
        rw [Rect.contains_iff] at hc
        exact hc.2.1
      obtain ⟨b1, e1, ha1, wf1, c1⟩ := wf.modifyCell_some
        (fun c => (c.setSymbol s).setStyle style) hc
      rw [e1]
      simp only [Option.bind_some]
      by_cases hfit : x + (max 1 w : Nat) ≤ b.area.right
      · obtain ⟨b2, e2, ha2, wf2, c2⟩ := resetLoop_spec y (w - 1) (x + 1) b1 wf1 (by rw [ha1]; omega)
          (by rw [ha1]; omega) (by rw [ha1]; omega) (by rw [ha1]; omega)
        rw [e2]
        simp only [Option.bind_some]
        have ha : b2.area = b.area := ha2.trans ha1
        have hxe : x + max 1 (w : Int) = x + (max 1 w : Nat) := by omega
        rw [hxe]
        obtain ⟨i1, i2⟩ := ih rest (x + (max 1 w : Nat)) (R - w) b2 wf2 htail hrest' (by rw [ha]; omega)
          (by rw [ha]; omega) (by rw [ha]; omega)
        refine ⟨fun hall => ?_, fun hout => ?_⟩
        · obtain ⟨b', e3, ha3, wf3, c3⟩ := i1 (.inl (by rw [ha]; omega))
          refine ⟨b', ?_, ha3.trans ha, wf3, fun q => ?_⟩
          · rw [e3]
            congr 2
            omega
          · rw [c3, c2, c1]
            have hl : ∀ (d : Int) (c : Cell), layoutCell style (inCells ((s, w) :: shown)) d c =
                if d = 0 then (c.setSymbol s).setStyle style else if d < (max 1 w : Nat) then c.reset
                else layoutCell style (inCells shown) (d - (max 1 w : Nat)) c := fun d c => by
              simp only [inCells, List.map_cons, layoutCell]
            by_cases hq : q = ⟨x, y⟩
            · subst hq
              dsimp only
              rw [if_neg (by omega), if_neg (by omega), if_pos rfl, if_pos (by omega)]
              congr 1
              funext c
              rw [hl, if_pos (by omega)]
            · rw [if_neg hq]
              have hne : ¬ (q.x = x ∧ q.y = y) := fun h => hq (by ext <;> simp [h.1, h.2])
              by_cases hin : q.y = y ∧ x ≤ q.x ∧ q.x < x + ((max 1 w : Nat) + totalWidth (inCells shown))
              · rw [if_pos hin]
                by_cases hlt : q.x - x < (max 1 w : Nat)
                · rw [if_neg (by omega), if_pos (by omega)]
                  congr 1
                  funext c
                  rw [hl, if_neg (by omega), if_pos hlt]
                · rw [if_pos (by omega), if_neg (by omega)]
                  congr 1
                  funext c
                  rw [hl, if_neg (by omega), if_neg hlt]
                  congr 1
                  omega
              · rw [if_neg hin, if_neg (by omega), if_neg (by omega)]
        · refine i2 (by rw [ha]; omega) ?_
          rintro rfl
          simp only [inCells, totalWidth, List.map_nil, List.sum_nil] at hout
          omega
      · refine ⟨fun hall => by omega, fun hout => ?_⟩
        rw [resetLoop_outside y (w - 1) (x + 1) b1 wf1 (by omega) (by rw [ha1]; omega)]
        rfl
    · have hx : b.area.right ≤ x := by
        refine Int.not_lt.1 fun hlt => hc ?_
        rw [Rect.contains_iff]
        exact ⟨h1, hlt, h3, h4⟩
      refine ⟨fun hall => by omega, fun _ => ?_⟩
      rw [modifyCell_none (by simpa using hc)]
      rfl

/-- The part of a text that is written on `R` columns: as long as there are columns left, the next grapheme. -/
theorem shown_part : ∀ (gs : List (String × Nat)) (R : Int), ∃ shown rest, gs = shown ++ rest ∧
    (∀ pre g post, shown = pre ++ g :: post → totalWidth pre < R) ∧ (rest = [] ∨ R ≤ totalWidth shown)
  | [], R => ⟨[], [], rfl, fun pre g post h => by simp at h, .inl rfl⟩
  | g :: gs, R => by
    by_cases hR : 0 < R
    · obtain ⟨shown, rest, h1, h2, h3⟩ := shown_part gs (R - g.2)
      refine ⟨g :: shown, rest, by rw [h1]; rfl, ?_, ?_⟩
      · intro pre g' post he
        match pre, he with
        | [], _ => simpa [totalWidth] using hR
        | p :: pre, he =>
          simp only [List.cons_append, List.cons.injEq] at he
          have := h2 pre g' post he.2
          rw [totalWidth_cons, ← he.1]
          omega
      · rw [totalWidth_cons]
        exact h3.imp id fun h => by omega
    · exact ⟨[], g :: gs, rfl, fun pre g post h => by simp at h, .inr (by simp [totalWidth]; omega)⟩

/-- **C09 (partial), exactly, for every text.** `SetStringN` started inside the buffer writes graphemes as long as the
widths of those before are below the budget; each gets as many cells as it has columns, and one cell if it has none.
If these cells are in the buffer, the text stands in them and nothing else changes; if not, it panics.
Missing for the full property: the code does not keep to the budget for a wide grapheme across its end, and gives cells
to graphemes without width. -/
theorem C09_exact_partial (u : Uniseg) (b : Buffer) (wf : b.WF) (x y : Int) (v : String) (maxWidth : Int) (style : Style)
    (hin : b.area.contains ⟨x, y⟩ = true) :
    ∃ shown rest, u.measured v = shown ++ rest ∧
      (∀ pre g post, shown = pre ++ g :: post → totalWidth pre < budget b x maxWidth) ∧
      (rest = [] ∨ budget b x maxWidth ≤ totalWidth shown) ∧
      (x + totalWidth (inCells shown) ≤ b.area.right →
        ∃ b', b.setStringN u x y v maxWidth style = some (b', x + totalWidth (inCells shown)) ∧
        b'.area = b.area ∧ b'.WF ∧
        ∀ q, b'.cellAt q = if q.y = y ∧ x ≤ q.x ∧ q.x < x + totalWidth (inCells shown) then
            (b.cellAt q).map (layoutCell style (inCells shown) (q.x - x)) else b.cellAt q) ∧
      (b.area.right < x + totalWidth (inCells shown) → b.setStringN u x y v maxWidth style = none) := by
  rw [Rect.contains_iff] at hin
  obtain ⟨h1, h2, h3, h4⟩ := hin
  obtain ⟨shown, rest, he, hs, hr⟩ := shown_part (u.measured v) (budget b x maxWidth)
  obtain ⟨i1, i2⟩ := setStringLoop_exact y style shown rest x (budget b x maxWidth) b wf hs hr h1 h3 h4
  have hset : b.setStringN u x y v maxWidth style =
      setStringLoop y style (shown ++ rest) x (budget b x maxWidth) b := by
    rw [← he]
    rfl
  rw [hset]
  refine ⟨shown, rest, he, hs, hr, fun h => i1 (.inl h), fun h => i2 h ?_⟩
  rintro rfl
  simp only [inCells, totalWidth, List.map_nil, List.sum_nil, Rect.right] at h
  simp only at h2
  omega

/-- A mark without width at the beginning takes a cell, and the wide symbol behind it does not keep to the three columns
it may use: the theorem says which cells change. -/
example : ∃ b', (Buffer.mk ⟨0, 0, 5, 1⟩ (List.replicate 5 (Cell.new "x"))).setStringN Uniseg.simple 0 0
    (String.ofList [Char.ofNat 1, 'a', '世']) 2 Style.new = some (b', 4) ∧ b'.cellAt ⟨3, 0⟩ = some Cell.empty ∧
    b'.cellAt ⟨4, 0⟩ = some (Cell.new "x") := by
  obtain ⟨shown, rest, he, hs, hr, h1, _⟩ := C09_exact_partial Uniseg.simple
    ⟨⟨0, 0, 5, 1⟩, List.replicate 5 (Cell.new "x")⟩ ⟨by decide, by decide, by decide⟩ 0 0
    (String.ofList [Char.ofNat 1, 'a', '世']) 2 Style.new (by decide)
  have hm : Uniseg.simple.measured (String.ofList [Char.ofNat 1, 'a', '世']) =
    [(String.ofList [Char.ofNat 1], 0), ("a", 1), ("世", 2)] := by decide
  have hb : budget ⟨⟨0, 0, 5, 1⟩, List.replicate 5 (Cell.new "x")⟩ 0 2 = 2 := by decide
  rw [hb] at hs hr
  rw [hm] at he
  have hshown : shown = [(String.ofList [Char.ofNat 1], 0), ("a", 1), ("世", 2)] := by
    match shown, he with
    | [], he => subst he; simp [totalWidth] at hr
    | [_], he =>
      simp only [List.cons_append, List.nil_append, List.cons.injEq] at he
      obtain ⟨rfl, rfl⟩ := he
      simp [totalWidth] at hr
    | [_, _], he =>
      simp only [List.cons_append, List.nil_append, List.cons.injEq] at he
      obtain ⟨rfl, rfl, rfl⟩ := he
      simp [totalWidth] at hr
    | [_, _, _], he =>
      simp only [List.cons_append, List.nil_append, List.cons.injEq] at he
      obtain ⟨rfl, rfl, rfl, _⟩ := he
      rfl
    | _ :: _ :: _ :: _ :: _, he => simp at he
  subst hshown
  obtain ⟨b', e, _, _, hq⟩ := h1 (by decide)
  exact ⟨b', e, (hq _).trans (by decide), (hq _).trans (by decide)⟩

end Bento
