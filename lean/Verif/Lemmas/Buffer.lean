import Verif.Model.Buffer
import Verif.Props.Geometry

/-! # Helper lemmas about buffers -/

namespace Bento

/-- Buffers whose content has the size of their area. -/
structure Buffer.WF (b : Buffer) : Prop where
  len : (b.content.length : Int) = b.area.area
  width_nonneg : 0 ≤ b.area.width
  height_nonneg : 0 ≤ b.area.height

theorem idx_lt {r c w h : Int} (hr : r < h) (hc0 : 0 ≤ c) (hc : c < w) : r * w + c < w * h := by
  have h1 : (r + 1) * w ≤ h * w := Int.mul_le_mul_of_nonneg_right (by omega) (by omega)
  rw [Int.add_mul] at h1
  rw [Int.mul_comm w h]
  omega

theorem idx_inj {r c r' c' w : Int} (hc0 : 0 ≤ c) (hc : c < w) (hc0' : 0 ≤ c') (hc' : c' < w)
    (h : r * w + c = r' * w + c') : r = r' ∧ c = c' := by
  have hw : 0 < w := by omega
  have h1 : (r * w + c) / w = r := by
    rw [Int.add_comm, Int.add_mul_ediv_right _ _ (by omega), Int.ediv_eq_zero_of_lt hc0 hc]; omega
  have h2 : (r' * w + c') / w = r' := by
    rw [Int.add_comm, Int.add_mul_ediv_right _ _ (by omega), Int.ediv_eq_zero_of_lt hc0' hc']; omega
  have : r = r' := by rw [← h1, ← h2, h]
  subst this
  exact ⟨rfl, by omega⟩

/-- Row-major index of a contained position. -/
def Rect.idx (r : Rect) (p : Position) : Int := (p.y - r.y) * r.width + (p.x - r.x)

theorem Rect.idx_nonneg {r : Rect} {p : Position} (h : r.contains p = true) : 0 ≤ r.idx p := by
  rw [Rect.contains_iff] at h
  unfold Rect.Mem at h
  unfold Rect.idx
  have : 0 ≤ (p.y - r.y) * r.width := Int.mul_nonneg (by omega) (by omega)
  omega

theorem Rect.idx_lt_area {r : Rect} {p : Position} (h : r.contains p = true) : r.idx p < r.area := by
  rw [Rect.contains_iff] at h
  unfold Rect.Mem at h
  unfold Rect.idx Rect.area
  exact idx_lt (by omega) (by omega) (by omega)

theorem Rect.idx_injective {r : Rect} {p q : Position} (hp : r.contains p = true)
    (hq : r.contains q = true) (h : r.idx p = r.idx q) : p = q := by
  rw [Rect.contains_iff] at hp hq
  unfold Rect.Mem at hp hq
  unfold Rect.idx at h
  have := idx_inj (by omega) (by omega) (by omega) (by omega) h
  ext <;> omega

namespace Buffer

theorem indexOf_eq {b : Buffer} {p : Position} (h : b.area.contains p = true) :
    b.indexOf p = some (b.area.idx p) := by
  have h' := h
  rw [Rect.contains_iff] at h'
  unfold Rect.Mem at h'
  simp only [indexOf, h, if_true, Rect.idx]
  rw [Int.max_eq_right (by omega), Int.max_eq_right (by omega)]

theorem indexOf_none {b : Buffer} {p : Position} (h : b.area.contains p = false) :
    b.indexOf p = none := by
  simp [indexOf, h]

theorem cellAt_none {b : Buffer} {p : Position} (h : b.area.contains p = false) :
    b.cellAt p = none := by
  simp [cellAt, indexOf_none h]

theorem cellAt_eq {b : Buffer} {p : Position} (h : b.area.contains p = true) :
    b.cellAt p = b.content[(b.area.idx p).toNat]? := by
  have := Rect.idx_nonneg h
  simp only [cellAt, indexOf_eq h, Option.bind_eq_bind, Option.bind_some]
  rw [if_neg (by omega)]

theorem WF.idx_lt_length {b : Buffer} (wf : b.WF) {p : Position} (h : b.area.contains p = true) :
    (b.area.idx p).toNat < b.content.length := by
  have h1 := Rect.idx_nonneg h
  have h2 := Rect.idx_lt_area h
  have := wf.len
  omega

theorem WF.cellAt_isSome {b : Buffer} (wf : b.WF) {p : Position} (h : b.area.contains p = true) :
    ∃ c, b.cellAt p = some c := by
  rw [cellAt_eq h]
  exact ⟨_, List.getElem?_eq_getElem (wf.idx_lt_length h)⟩

theorem cellAt_some_contains {b : Buffer} {p : Position} {c : Cell} (h : b.cellAt p = some c) :
    b.area.contains p = true := by
  by_cases hc : b.area.contains p = true
  · exact hc
  · rw [Bool.not_eq_true] at hc
    rw [cellAt_none hc] at h; cases h

theorem modifyCell_none {b : Buffer} {p : Position} {f : Cell → Cell}
    (h : b.area.contains p = false) : b.modifyCell p f = none := by
  simp [modifyCell, indexOf_none h]

theorem WF.modifyCell_some {b : Buffer} (wf : b.WF) {p : Position} (f : Cell → Cell)
    (h : b.area.contains p = true) :
    ∃ b', b.modifyCell p f = some b' ∧ b'.area = b.area ∧ b'.WF ∧
      ∀ q, b'.cellAt q = if q = p then (b.cellAt q).map f else b.cellAt q := by
  have h1 := Rect.idx_nonneg h
  have h2 := wf.idx_lt_length h
  refine ⟨{ b with content := b.content.modify (b.area.idx p).toNat f }, ?_, rfl, ?_, ?_⟩
  · simp only [modifyCell, indexOf_eq h, Option.bind_eq_bind, Option.bind_some]
    rw [if_pos ⟨h1, h2⟩]
  · exact ⟨by simpa using wf.len, wf.width_nonneg, wf.height_nonneg⟩
  · intro q
    by_cases hq : b.area.contains q = true
    · have hq' := Rect.idx_nonneg hq
      rw [cellAt_eq (b := ⟨b.area, b.content.modify (b.area.idx p).toNat f⟩) hq, cellAt_eq hq]
      simp only [List.getElem?_modify]
      by_cases hqp : q = p
      · subst hqp; simp
      · have : (b.area.idx p).toNat ≠ (b.area.idx q).toNat := by
          intro he
          apply hqp
          exact Rect.idx_injective hq h (by omega)
        simp [this, hqp]
    · rw [Bool.not_eq_true] at hq
      rw [cellAt_none (b := ⟨b.area, b.content.modify (b.area.idx p).toNat f⟩) hq, cellAt_none hq]
      by_cases hqp : q = p
      · subst hqp; rw [h] at hq; cases hq
      · simp [hqp]

theorem modifyCell_some_contains {b b' : Buffer} {p : Position} {f : Cell → Cell}
    (h : b.modifyCell p f = some b') : b.area.contains p = true := by
  by_cases hc : b.area.contains p = true
  · exact hc
  · rw [Bool.not_eq_true] at hc
    rw [modifyCell_none hc] at h; cases h

/-- Consequences of a successful write. -/
theorem WF.modifyCell_spec {b b' : Buffer} (wf : b.WF) {p : Position} {f : Cell → Cell}
    (h : b.modifyCell p f = some b') :
    b'.area = b.area ∧ b'.WF ∧
      ∀ q, b'.cellAt q = if q = p then (b.cellAt q).map f else b.cellAt q := by
  obtain ⟨b'', h1, h2⟩ := wf.modifyCell_some f (modifyCell_some_contains h)
  rw [h1] at h
  injection h with h
  subst h
  exact h2

/-- Two well-formed buffers of the same area with the same cells are equal. -/
theorem WF.ext {b b' : Buffer} (wf : b.WF) (wf' : b'.WF) (ha : b.area = b'.area)
    (h : ∀ p, b.area.contains p = true → b.cellAt p = b'.cellAt p) : b = b' := by
  have hlen : b.content.length = b'.content.length := by
    have h1 := wf.len
    have h2 := wf'.len
    rw [ha] at h1
    omega
  apply Buffer.ext ha
  apply List.ext_getElem? 
  intro i
  by_cases hi : i < b.content.length
  · have hl := wf.len
    have hw := wf.width_nonneg
    have hh := wf.height_nonneg
    simp only [Rect.area] at hl
    have hwpos : 0 < b.area.width := by
      rcases Int.lt_or_eq_of_le hw with h | h
      · exact h
      · rw [← h, Int.zero_mul] at hl; omega
    let p : Position := ⟨(i : Int) % b.area.width + b.area.x, (i : Int) / b.area.width + b.area.y⟩
    have hmod0 := Int.emod_nonneg (i : Int) (b := b.area.width) (by omega)
    have hmod1 := Int.emod_lt_of_pos (i : Int) hwpos
    have hdiv0 : 0 ≤ (i : Int) / b.area.width := Int.ediv_nonneg (by omega) hw
    have hdiv1 : (i : Int) / b.area.width < b.area.height := by
      apply Int.ediv_lt_of_lt_mul hwpos
      rw [Int.mul_comm]; omega
    have hp : b.area.contains p = true := by
      rw [Rect.contains_iff]
      refine ⟨?_, ?_, ?_, ?_⟩ <;> simp only [p] <;> omega
    have hidx : b.area.idx p = i := by
      simp only [Rect.idx, p]
      have := Int.mul_ediv_add_emod (i : Int) b.area.width
      rw [Int.mul_comm] at this
      have e1 : (i : Int) / b.area.width + b.area.y - b.area.y = (i : Int) / b.area.width := by omega
      have e2 : (i : Int) % b.area.width + b.area.x - b.area.x = (i : Int) % b.area.width := by omega
      rw [e1, e2, this]
    have := h p hp
    rw [cellAt_eq hp, cellAt_eq (ha ▸ hp), ← ha, hidx] at this
    simpa using this
  · rw [List.getElem?_eq_none (by omega), List.getElem?_eq_none (by omega)]

/-- `b'` differs from `b` at most on the positions satisfying `S`; shape is preserved. -/
structure Writes (b b' : Buffer) (S : Position → Prop) : Prop where
  area : b'.area = b.area
  wf : b'.WF
  frame : ∀ q, ¬ S q → b'.cellAt q = b.cellAt q

theorem Writes.refl {b : Buffer} (wf : b.WF) (S : Position → Prop) : Writes b b S :=
  ⟨rfl, wf, fun _ _ => rfl⟩

theorem Writes.trans {b b' b'' : Buffer} {S : Position → Prop} (h : Writes b b' S)
    (h' : Writes b' b'' S) : Writes b b'' S :=
  ⟨h'.area.trans h.area, h'.wf, fun q hq => (h'.frame q hq).trans (h.frame q hq)⟩

theorem Writes.mono {b b' : Buffer} {S T : Position → Prop} (h : Writes b b' S)
    (hST : ∀ q, S q → T q) : Writes b b' T :=
  ⟨h.area, h.wf, fun q hq => h.frame q (fun hs => hq (hST q hs))⟩

theorem WF.modifyCell_writes {b : Buffer} (wf : b.WF) {p : Position} (f : Cell → Cell)
    (h : b.area.contains p = true) :
    ∃ b', b.modifyCell p f = some b' ∧ Writes b b' (fun q => q = p) := by
  obtain ⟨b', h1, h2, h3, h4⟩ := wf.modifyCell_some f h
  exact ⟨b', h1, h2, h3, fun q hq => by rw [h4, if_neg hq]⟩

/-- Writing a list of distinct, contained positions. -/
theorem WF.foldlM_modify {b : Buffer} (wf : b.WF) (f : Cell → Cell) (ps : List Position)
    (hnd : ps.Nodup) (hin : ∀ p ∈ ps, b.area.contains p = true) :
    ∃ b', ps.foldlM (fun b p => b.modifyCell p f) b = some b' ∧ b'.area = b.area ∧ b'.WF ∧
      ∀ q, b'.cellAt q = if q ∈ ps then (b.cellAt q).map f else b.cellAt q := by
  induction ps generalizing b with
  | nil => exact ⟨b, rfl, rfl, wf, by simp⟩
  | cons p ps ih =>
    obtain ⟨b1, h1, h2, h3, h4⟩ := wf.modifyCell_some f (hin p (by simp))
    rw [List.nodup_cons] at hnd
    obtain ⟨b', g1, g2, g3, g4⟩ := ih h3 hnd.2 (fun q hq => by rw [h2]; exact hin q (by simp [hq]))
    refine ⟨b', ?_, g2.trans h2, g3, ?_⟩
    · simp only [List.foldlM_cons, h1, Option.bind_eq_bind, Option.bind_some, g1]
    · intro q
      rw [g4, h4]
      by_cases hqp : q = p
      · subst hqp; simp [hnd.1]
      · simp [hqp]

end Buffer

theorem mem_intRange {lo hi x : Int} : x ∈ intRange lo hi ↔ lo ≤ x ∧ x < hi := by
  simp only [intRange, List.mem_map, List.mem_range]
  constructor
  · rintro ⟨i, hi, rfl⟩; omega
  · rintro ⟨h1, h2⟩; exact ⟨(x - lo).toNat, by omega, by omega⟩

theorem nodup_intRange (lo hi : Int) : (intRange lo hi).Nodup := by
  unfold intRange
  refine List.Pairwise.map _ ?_ (List.nodup_range (n := (hi - lo).toNat))
  intro a b hab; omega

theorem mem_positionsOf {r : Rect} {p : Position} :
    p ∈ Buffer.positionsOf r ↔ r.contains p = true := by
  rw [Rect.contains_iff]
  simp only [Buffer.positionsOf, List.mem_flatMap, List.mem_map, mem_intRange, Rect.top, Rect.bottom,
    Rect.left, Rect.right, Rect.Mem]
  constructor
  · rintro ⟨y, hy, x, hx, rfl⟩; simp only; omega
  · intro h; exact ⟨p.y, by omega, p.x, by omega, rfl⟩

theorem nodup_positionsOf (r : Rect) : (Buffer.positionsOf r).Nodup := by
  unfold Buffer.positionsOf
  rw [List.Nodup, List.pairwise_flatMap]
  refine ⟨?_, ?_⟩
  · intro y _
    refine List.Pairwise.map _ ?_ (nodup_intRange _ _)
    intro a b hab h
    injection h with h1 h2; exact hab h1
  · refine List.Pairwise.imp ?_ (nodup_intRange _ _)
    intro a b hab p hp q hq hpq
    simp only [List.mem_map] at hp hq
    obtain ⟨x, _, rfl⟩ := hp
    obtain ⟨x', _, rfl⟩ := hq
    injection hpq with h1 h2; exact hab h2

theorem Buffer.newFilled_some {area : Rect} {c : Cell} (hw : 0 ≤ area.width) (hh : 0 ≤ area.height) :
    ∃ b, Buffer.newFilled area c = some b ∧ b.area = area ∧ b.WF ∧
      ∀ p, area.contains p = true → b.cellAt p = some c := by
  have ha : 0 ≤ area.area := Int.mul_nonneg hw hh
  refine ⟨⟨area, List.replicate area.area.toNat c⟩, ?_, rfl, ?_, ?_⟩
  · simp only [Buffer.newFilled]; rw [if_neg (by omega)]
  · exact ⟨by simp; omega, hw, hh⟩
  · intro p hp
    rw [Buffer.cellAt_eq (b := ⟨area, _⟩) hp]
    have h1 := Rect.idx_nonneg hp
    have h2 := Rect.idx_lt_area hp
    simp only [List.getElem?_replicate]
    rw [if_pos (by omega)]

end Bento
