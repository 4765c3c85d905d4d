import Verif.Lemmas.DiffGrid
import Verif.Lemmas.Ansi

/-! # Executable checks used by the non-vacuity examples -/

namespace Bento
open Buffer Diff

/-- Executable version of `Drawable`. -/
def Buffer.drawableB (u : Uniseg) (b : Buffer) : Bool :=
  (positionsOf b.area).all fun p =>
    match b.cellAt p with
    | none => true
    | some c => u.graphemes c.symbol == [c.symbol] &&
        (u.width c.symbol == 1 || u.width c.symbol == 2) && !c.skip &&
        (u.width c.symbol != 2 || match b.cellAt ⟨p.x + 1, p.y⟩ with
          | none => false
          | some c' => u.width c'.symbol == 1)

theorem Buffer.drawable_of_B {u : Uniseg} {b : Buffer} (h : b.drawableB u = true) :
    b.Drawable u := by
  have key : ∀ p c, b.cellAt p = some c → _ := fun p c hc => by
    have := List.all_eq_true.1 h p (mem_positionsOf.2 (cellAt_some_contains hc))
    rw [hc] at this
    exact this
  simp only [Bool.and_eq_true, Bool.or_eq_true, beq_iff_eq, Bool.not_eq_true', bne_iff_ne] at key
  refine ⟨fun p c hc => (key p c hc).1.1.1, fun p c hc => (key p c hc).1.1.2,
    fun p c hc => (key p c hc).1.2, fun p c hc hw => ?_⟩
  rcases (key p c hc).2 with h | h
  · exact absurd hw h
  · cases hc' : b.cellAt ⟨p.x + 1, p.y⟩ with
    | none => rw [hc'] at h; cases h
    | some c' => rw [hc'] at h; exact ⟨c', rfl, by simpa using h⟩

theorem simple_join (l : List Char) (acc : String) :
    (l.map (fun c => String.ofList [c])).foldl (· ++ ·) acc = acc ++ String.ofList l := by
  induction l generalizing acc with
  | nil => simp
  | cons c l ih =>
    simp only [List.map_cons, List.foldl_cons, ih]
    rw [String.append_assoc, ← String.ofList_append]; rfl

theorem Uniseg.simple_lawful : Uniseg.simple.Lawful where
  join s := by
    simp only [Uniseg.simple, String.join]
    rw [simple_join]; simp
  nonempty s c hc := by
    simp only [Uniseg.simple, List.mem_map] at hc
    obtain ⟨a, _, rfl⟩ := hc
    intro h
    have := congrArg String.toList h
    simp at this
  idem s c hc := by
    simp only [Uniseg.simple, List.mem_map] at hc ⊢
    obtain ⟨a, _, rfl⟩ := hc
    simp
  space := by decide

theorem simple_separable (S : String → Prop) : Separable Uniseg.simple S := by
  intro l hl
  clear hl
  show (String.join l).toList.map _ = _
  induction l with
  | nil => rfl
  | cons s l ih =>
    have e : String.join (s :: l) = s ++ String.join l := by
      simp only [String.join, List.foldl_cons]
      rw [join_foldl]; simp
    rw [e, String.toList_append, List.map_append, ih]; rfl
end Bento
