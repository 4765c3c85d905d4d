import Verif.Spec.Throbber
import Verif.Props.Block

/-!
# Clearing and filling
-/

namespace Bento

/-! ### C49: clear and fill -/

theorem mem_columnPositions {r : Rect} {p : Position} : p ∈ columnPositions r ↔ r.contains p = true := by
  rw [Rect.contains_iff]
  simp only [columnPositions, List.mem_flatMap, List.mem_map, mem_intRange, Rect.top, Rect.bottom,
    Rect.left, Rect.right, Rect.Mem]
  constructor
  · rintro ⟨y, hy, x, hx, rfl⟩; simp only; omega
  · intro h; exact ⟨p.x, by omega, p.y, by omega, rfl⟩

theorem nodup_columnPositions (r : Rect) : (columnPositions r).Nodup := by
  unfold columnPositions
  rw [List.Nodup, List.pairwise_flatMap]
  refine ⟨?_, ?_⟩
  · intro y _
    refine List.Pairwise.map _ ?_ (nodup_intRange _ _)
    intro a b hab h
    injection h with h1 h2; exact hab h2
  · refine List.Pairwise.imp ?_ (nodup_intRange _ _)
    intro a b hab p hp q hq hpq
    simp only [List.mem_map] at hp hq
    obtain ⟨x, _, rfl⟩ := hp
    obtain ⟨x', _, rfl⟩ := hq
    injection hpq with h1 h2; exact hab h1

theorem columnPositions_modify (f : Cell → Cell) (area : Rect) (b : Buffer) (wf : b.WF)
    (hin : ∀ q, area.contains q = true → b.area.contains q = true) :
    ∃ b', (columnPositions area).foldlM (fun b p => b.modifyCell p f) b = some b' ∧ b'.area = b.area ∧ b'.WF ∧
      ∀ q, b'.cellAt q = if area.contains q = true then (b.cellAt q).map f else b.cellAt q := by
  obtain ⟨b', h1, h2, h3, h4⟩ := wf.foldlM_modify f (columnPositions area) (nodup_columnPositions area)
    (fun p hp => hin p (mem_columnPositions.1 hp))
  refine ⟨b', h1, h2, h3, fun q => ?_⟩
  rw [h4]
  by_cases hq : area.contains q = true
  · rw [if_pos hq, if_pos (mem_columnPositions.2 hq)]
  · rw [if_neg hq, if_neg (fun h => hq (mem_columnPositions.1 h))]

theorem columnPositions_panics (f : Cell → Cell) (area : Rect) (b : Buffer) (wf : b.WF) (q : Position)
    (hq : area.contains q = true) (hout : b.area.contains q = false) :
    (columnPositions area).foldlM (fun b p => b.modifyCell p f) b = none := by
  have key : ∀ (ps : List Position) (b : Buffer), b.WF → b.area.contains q = false → q ∈ ps →
      ps.foldlM (fun b p => b.modifyCell p f) b = none := by
    intro ps
    induction ps with
    | nil => intro b _ _ h; cases h
    | cons p ps ih =>
      intro b wf ho hm
      rw [List.foldlM_cons]
      by_cases hp : b.area.contains p = true
      · obtain ⟨b1, e, a, wf1, _⟩ := wf.modifyCell_some f hp
        rw [e, Option.bind_eq_bind, Option.bind_some]
        refine ih b1 wf1 (by rw [a]; exact ho) ?_
        rcases List.mem_cons.1 hm with rfl | hm
        · rw [ho] at hp; cases hp
        · exact hm
      · have : b.modifyCell p f = none := by
          unfold Buffer.modifyCell Buffer.indexOf
          rw [Bool.not_eq_true] at hp
          simp [hp]
        rw [this]
        rfl
  exact key _ b wf hout (mem_columnPositions.2 hq)

/-- **C49 (partial).** In an area inside the buffer, `Clear` empties exactly the cells of the area. Missing:
areas that reach outside the buffer, for which it panics. -/
theorem C49_clear_partial (area : Rect) (b : Buffer) (wf : b.WF)
    (hin : ∀ q, area.contains q = true → b.area.contains q = true) :
    ∃ b', clear area b = some b' ∧ b'.area = b.area ∧ b'.WF ∧
      ∀ q, b'.cellAt q = if area.contains q = true then some ⟨" ", .reset, .reset, 0, false⟩ else b.cellAt q := by
  obtain ⟨b', h1, h2, h3, h4⟩ := columnPositions_modify Cell.reset area b wf hin
  refine ⟨b', h1, h2, h3, fun q => ?_⟩
  rw [h4]
  by_cases hq : area.contains q = true
  · rw [if_pos hq, if_pos hq]
    obtain ⟨c, hc⟩ := Buffer.WF.cellAt_isSome wf (p := q) (hin q hq)
    rw [hc]
    rfl
  · rw [if_neg hq, if_neg hq]

example : ∃ b', clear ⟨1, 0, 1, 2⟩ ⟨⟨0, 0, 3, 2⟩, List.replicate 6 (Cell.new "x")⟩ = some b' ∧
    b'.cellAt ⟨1, 1⟩ = some Cell.empty ∧ b'.cellAt ⟨2, 1⟩ = some (Cell.new "x") := by
  obtain ⟨b', h, _, _, hq⟩ := C49_clear_partial ⟨1, 0, 1, 2⟩ ⟨⟨0, 0, 3, 2⟩, List.replicate 6 (Cell.new "x")⟩
    ⟨by decide, by decide, by decide⟩ fun q => by
      rw [Rect.contains_iff, Rect.contains_iff]
      unfold Rect.Mem
      simp only
      omega
  exact ⟨b', h, (hq _).trans (by decide), (hq _).trans (by decide)⟩

/-- **C49 (partial).** `Fill` gives exactly the cells of the area its symbol and, over the default colours, its
style. Missing: as for `Clear`. -/
theorem C49_fill_partial (f : Fill) (area : Rect) (b : Buffer) (wf : b.WF)
    (hin : ∀ q, area.contains q = true → b.area.contains q = true) :
    ∃ b', f.render area b = some b' ∧ b'.area = b.area ∧ b'.WF ∧
      ∀ q, b'.cellAt q = if area.contains q = true then
        some (Cell.setStyle f.style ⟨f.symbol, .reset, .reset, 0, false⟩) else b.cellAt q := by
  obtain ⟨b', h1, h2, h3, h4⟩ := columnPositions_modify
    (fun c => (c.reset.setStyle f.style).setSymbol f.symbol) area b wf hin
  refine ⟨b', h1, h2, h3, fun q => ?_⟩
  rw [h4]
  by_cases hq : area.contains q = true
  · rw [if_pos hq, if_pos hq]
    obtain ⟨c, hc⟩ := Buffer.WF.cellAt_isSome wf (p := q) (hin q hq)
    rw [hc]
    rfl
  · rw [if_neg hq, if_neg hq]

/-- **C49 (negation).** Both panic whenever a cell of the area is outside the buffer. -/
theorem C49_outside_false (f : Fill) (area : Rect) (b : Buffer) (wf : b.WF) (q : Position)
    (hq : area.contains q = true) (hout : b.area.contains q = false) :
    clear area b = none ∧ f.render area b = none :=
  ⟨columnPositions_panics _ area b wf q hq hout, columnPositions_panics _ area b wf q hq hout⟩

example : ∀ q : Position, (⟨1, 1, 2, 1⟩ : Rect).contains q = true → (⟨0, 0, 4, 3⟩ : Rect).contains q = true := by
  intro q
  rw [Rect.contains_iff, Rect.contains_iff]
  unfold Rect.Mem
  simp only
  omega

end Bento
