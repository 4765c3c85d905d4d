import Verif.Model.Style

/-!
# Properties C05, C06: styles

Specification: a style is a function on cells; a modifier set is a predicate on bit positions.
-/

namespace Bento

/-- Bitwise extensionality for the four mask combinators. -/
theorem Modifier.ext_bits {a b : Modifier} (h : ∀ i : Nat, a.getLsbD i = b.getLsbD i) : a = b :=
  BitVec.eq_of_getLsbD_eq (fun i _ => h i)

@[simp] theorem Modifier.difference_bit (a b : Modifier) (i : Nat) :
    (Modifier.difference a b).getLsbD i = (a.getLsbD i && !b.getLsbD i) := by
  by_cases hi : i < 16
  · simp [Modifier.difference, hi]
  · have ha : a.getLsbD i = false := BitVec.getLsbD_of_ge a i (by omega)
    simp [Modifier.difference, ha]

@[simp] theorem Modifier.union_bit (a b : Modifier) (i : Nat) :
    (Modifier.union a b).getLsbD i = (a.getLsbD i || b.getLsbD i) := by
  simp [Modifier.union]

/-! ## C05 -/

/-- **C05.** Applying `s` and then `t` is applying `s.Patched(t)`. -/
theorem C05_setStyle_patched (c : Cell) (s t : Style) :
    (c.setStyle s).setStyle t = c.setStyle (s.patched t) := by
  apply Cell.ext
  · rfl
  · simp only [Cell.setStyle, Style.patched]
    cases t.fg <;> simp
  · simp only [Cell.setStyle, Style.patched]
    cases t.bg <;> simp
  · simp only [Cell.setStyle, Style.patched]
    apply Modifier.ext_bits; intro i
    simp only [Modifier.difference_bit, Modifier.union_bit]
    cases c.modifier.getLsbD i <;> cases s.addModifier.getLsbD i <;> cases s.subModifier.getLsbD i <;>
      cases t.addModifier.getLsbD i <;> cases t.subModifier.getLsbD i <;> rfl
  · rfl

/-- **C05.** `Patched` is associative. -/
theorem C05_patched_assoc (s t u : Style) :
    (s.patched t).patched u = s.patched (t.patched u) := by
  apply Style.ext
  · cases hu : u.fg <;> cases ht : t.fg <;> simp [Style.patched, hu, ht]
  · cases hu : u.bg <;> cases ht : t.bg <;> simp [Style.patched, hu, ht]
  · simp only [Style.patched]
    apply Modifier.ext_bits; intro i
    simp only [Modifier.difference_bit, Modifier.union_bit]
    cases s.addModifier.getLsbD i <;> cases t.addModifier.getLsbD i <;>
      cases t.subModifier.getLsbD i <;> cases u.addModifier.getLsbD i <;>
      cases u.subModifier.getLsbD i <;> rfl
  · simp only [Style.patched]
    apply Modifier.ext_bits; intro i
    simp only [Modifier.difference_bit, Modifier.union_bit]
    cases s.subModifier.getLsbD i <;> cases t.addModifier.getLsbD i <;>
      cases t.subModifier.getLsbD i <;> cases u.addModifier.getLsbD i <;>
      cases u.subModifier.getLsbD i <;> rfl

example :
    let s : Style := ⟨some (.ansi 1), none, Modifier.bold, Modifier.dim⟩
    let t : Style := ⟨none, some .reset, Modifier.dim, Modifier.bold⟩
    let u : Style := ⟨some .reset, none, Modifier.italic, 0⟩
    (s.patched t).patched u = s.patched (t.patched u) ∧ s.patched u ≠ u.patched s := by decide

theorem Modifier.none_bit (i : Nat) : Modifier.none.getLsbD i = false := by
  simp [Modifier.none]

/-- **C05.** `NewStyle()` is a left and right unit of `Patched` and acts as the identity. -/
theorem C05_new_unit (s : Style) (c : Cell) :
    Style.new.patched s = s ∧ s.patched Style.new = s ∧ c.setStyle Style.new = c := by
  refine ⟨?_, ?_, ?_⟩
  · apply Style.ext <;> simp only [Style.patched, Style.new]
    · cases s.fg <;> rfl
    · cases s.bg <;> rfl
    · apply Modifier.ext_bits; intro i; simp [Modifier.none_bit]
    · apply Modifier.ext_bits; intro i; simp [Modifier.none_bit]
  · apply Style.ext <;> simp only [Style.patched, Style.new]
    · rfl
    · rfl
    · apply Modifier.ext_bits; intro i; simp [Modifier.none_bit]
    · apply Modifier.ext_bits; intro i; simp [Modifier.none_bit]
  · apply Cell.ext <;> simp only [Cell.setStyle, Style.new]
    apply Modifier.ext_bits; intro i; simp [Modifier.none_bit]

/-- **C05.** `SetStyle` never changes the symbol nor the skip flag. -/
theorem C05_setStyle_symbol (c : Cell) (s : Style) :
    (c.setStyle s).symbol = c.symbol ∧ (c.setStyle s).skip = c.skip := ⟨rfl, rfl⟩

/-- **C05.** A set colour of the style wins; an unset one keeps the cell's colour. -/
theorem C05_setStyle_colors (c : Cell) (s : Style) :
    (∀ f, s.fg = some f → (c.setStyle s).fg = f) ∧ (s.fg = none → (c.setStyle s).fg = c.fg) ∧
    (∀ b, s.bg = some b → (c.setStyle s).bg = b) ∧ (s.bg = none → (c.setStyle s).bg = c.bg) := by
  refine ⟨?_, ?_, ?_, ?_⟩ <;> intros <;> simp_all [Cell.setStyle]

example : ((Cell.new "x").setStyle ⟨some (.ansi 1), none, 0, 0⟩).fg = .ansi 1 ∧
    ((Cell.new "x").setStyle ⟨some (.ansi 1), none, 0, 0⟩).bg = (Cell.new "x").bg :=
  ⟨(C05_setStyle_colors _ _).1 _ rfl, (C05_setStyle_colors _ _).2.2.2 rfl⟩

/-- **C05.** A modifier the style removes is off, one it adds and does not remove is on, any other is
as before. -/
theorem C05_setStyle_modifiers (c : Cell) (s : Style) (i : Nat) :
    (s.subModifier.getLsbD i = true → (c.setStyle s).modifier.getLsbD i = false) ∧
    (s.addModifier.getLsbD i = true → s.subModifier.getLsbD i = false →
      (c.setStyle s).modifier.getLsbD i = true) ∧
    (s.addModifier.getLsbD i = false → s.subModifier.getLsbD i = false →
      (c.setStyle s).modifier.getLsbD i = c.modifier.getLsbD i) := by
  simp only [Cell.setStyle, Modifier.difference_bit, Modifier.union_bit]
  cases c.modifier.getLsbD i <;> cases s.addModifier.getLsbD i <;> cases s.subModifier.getLsbD i <;> simp

/-- A case in which the order matters and an add/remove conflict occurs, so the law is not trivial. -/
example :
    let s : Style := ⟨some (.ansi 1), none, Modifier.bold, Modifier.dim⟩
    let t : Style := ⟨none, some .reset, Modifier.dim, Modifier.bold⟩
    ((Cell.new "x").setStyle s).setStyle t = (Cell.new "x").setStyle (s.patched t) ∧
    s.patched t ≠ t.patched s ∧ (s.patched t) ≠ s := by decide

/-! ## C06 -/

/-- A program of style-builder calls. -/
inductive StyleOp where
  | add (m : Modifier)
  | remove (m : Modifier)
  | fg (c : Color)
  | bg (c : Color)

/-- Run a chain of builder calls. -/
def StyleOp.run (s : Style) : StyleOp → Style
  | .add m => s.withModifier m
  | .remove m => s.withoutModifier m
  | .fg c => s.withForeground c
  | .bg c => s.withBackground c

/-- Specification of the last mention of bit `i` in a chain, most recent last:
`some true` = added last, `some false` = removed last, `none` = never mentioned. -/
def lastMention (i : Nat) : List StyleOp → Option Bool
  | [] => none
  | op :: rest =>
    match lastMention i rest with
    | some b => some b
    | none =>
      match op with
      | .add m => if m.getLsbD i then some true else none
      | .remove m => if m.getLsbD i then some false else none
      | _ => none

/-- No modifier is both added and removed. -/
def Style.Consistent (s : Style) : Prop :=
  ∀ i, ¬ (s.addModifier.getLsbD i = true ∧ s.subModifier.getLsbD i = true)

theorem StyleOp.run_consistent (s : Style) (op : StyleOp) (h : s.Consistent) :
    (op.run s).Consistent := by
  intro i
  have := h i
  cases op with
  | add m =>
    simp only [StyleOp.run, Style.withModifier, Modifier.difference_bit, Modifier.union_bit]
    revert this
    cases s.addModifier.getLsbD i <;> cases s.subModifier.getLsbD i <;> cases m.getLsbD i <;> simp
  | remove m =>
    simp only [StyleOp.run, Style.withoutModifier, Modifier.difference_bit, Modifier.union_bit]
    revert this
    cases s.addModifier.getLsbD i <;> cases s.subModifier.getLsbD i <;> cases m.getLsbD i <;> simp
  | fg c => simpa [StyleOp.run, Style.withForeground] using this
  | bg c => simpa [StyleOp.run, Style.withBackground] using this

/-- **C06.** Chains of builder calls never make a style contradict itself. -/
theorem C06_chain_consistent (ops : List StyleOp) :
    (ops.foldl StyleOp.run Style.new).Consistent := by
  suffices ∀ s : Style, s.Consistent → (ops.foldl StyleOp.run s).Consistent by
    apply this; intro i; simp [Style.new, Modifier.none_bit]
  induction ops with
  | nil => intro s h; exact h
  | cons op rest ih => intro s h; exact ih _ (StyleOp.run_consistent s op h)

example : ([StyleOp.add Modifier.bold, .remove Modifier.bold, .add Modifier.dim].foldl StyleOp.run Style.new).Consistent ∧
    [StyleOp.add Modifier.bold, .remove Modifier.bold, .add Modifier.dim].foldl StyleOp.run Style.new ≠ Style.new :=
  ⟨C06_chain_consistent _, by decide⟩

/-- **C06.** Patching consistent styles gives a consistent style. -/
theorem C06_patched_consistent (s t : Style) (hs : s.Consistent) (ht : t.Consistent) :
    (s.patched t).Consistent := by
  intro i
  have h1 := hs i
  have h2 := ht i
  simp only [Style.patched, Modifier.difference_bit, Modifier.union_bit]
  revert h1 h2
  cases s.addModifier.getLsbD i <;> cases s.subModifier.getLsbD i <;>
    cases t.addModifier.getLsbD i <;> cases t.subModifier.getLsbD i <;> simp

example : (Style.patched ⟨none, none, Modifier.bold, Modifier.dim⟩ ⟨none, none, Modifier.dim, Modifier.bold⟩).Consistent :=
  C06_patched_consistent _ _ (C06_chain_consistent [.add Modifier.bold, .remove Modifier.dim])
    (C06_chain_consistent [.add Modifier.dim, .remove Modifier.bold])

theorem lastMention_state (i : Nat) (ops : List StyleOp) :
    ∀ s : Style, s.Consistent →
      let r := ops.foldl StyleOp.run s
      (match lastMention i ops with
        | some true => r.addModifier.getLsbD i = true ∧ r.subModifier.getLsbD i = false
        | some false => r.addModifier.getLsbD i = false ∧ r.subModifier.getLsbD i = true
        | none => r.addModifier.getLsbD i = s.addModifier.getLsbD i ∧
            r.subModifier.getLsbD i = s.subModifier.getLsbD i) := by
  induction ops with
  | nil => intro s _; simp [lastMention]
  | cons op rest ih =>
    intro s h
    have hc := StyleOp.run_consistent s op h
    have ih := ih (op.run s) hc
    simp only [List.foldl_cons, lastMention]
    cases hl : lastMention i rest with
    | some b => rw [hl] at ih; cases b <;> simpa using ih
    | none =>
      rw [hl] at ih
      simp only at ih
      cases op with
      | add m =>
        simp only [StyleOp.run, Style.withModifier, Modifier.difference_bit, Modifier.union_bit] at ih ⊢
        cases hm : m.getLsbD i <;> simp [hm] at ih ⊢ <;> exact ih
      | remove m =>
        simp only [StyleOp.run, Style.withoutModifier, Modifier.difference_bit, Modifier.union_bit]
          at ih ⊢
        cases hm : m.getLsbD i <;> simp [hm] at ih ⊢ <;> exact ih
      | fg c => simpa [StyleOp.run, Style.withForeground] using ih
      | bg c => simpa [StyleOp.run, Style.withBackground] using ih

/-- **C06.** The last mention of a modifier wins when the style is applied; unmentioned modifiers
of the cell are kept. -/
theorem C06_last_mention_wins (ops : List StyleOp) (c : Cell) (i : Nat) :
    (c.setStyle (ops.foldl StyleOp.run Style.new)).modifier.getLsbD i =
      (match lastMention i ops with
        | some b => b
        | none => c.modifier.getLsbD i) := by
  have h := lastMention_state i ops Style.new (by intro i; simp [Style.new, Modifier.none_bit])
  simp only [Cell.setStyle, Modifier.difference_bit, Modifier.union_bit]
  cases hl : lastMention i ops with
  | some b => cases b <;> rw [hl] at h <;> simp at h <;> simp [h]
  | none =>
    rw [hl] at h
    simp only [Style.new, Modifier.none_bit] at h
    simp only [Style.new]
    simp [h]

/-- The nine modifiers, by bit number. -/
def modifierBits : List (Modifier × Nat) :=
  [(Modifier.bold, 0), (Modifier.dim, 1), (Modifier.italic, 2), (Modifier.underlined, 3),
   (Modifier.slowBlink, 4), (Modifier.rapidBlink, 5), (Modifier.reversed, 6),
   (Modifier.hidden, 7), (Modifier.crossedOut, 8)]

/-- **C06.** The nine modifiers are nine different single bits, so adding or removing one never
affects another, and `ModifierAll` is exactly their union. -/
theorem C06_modifiers_distinct :
    (∀ p ∈ modifierBits, ∀ i < 16, p.1.getLsbD i = decide (i = p.2)) ∧
    (modifierBits.map Prod.snd).Nodup ∧
    (modifierBits.map Prod.fst).foldl (· ||| ·) 0#16 = Modifier.all := by
  refine ⟨?_, by decide, by rfl⟩
  intro p hp i hi
  simp only [modifierBits, List.mem_cons, List.not_mem_nil, or_false] at hp
  rcases hp with rfl | rfl | rfl | rfl | rfl | rfl | rfl | rfl | rfl <;>
    (revert i; decide)

/-- Bold added, then removed, italic kept from the cell. -/
example :
    let c : Cell := { Cell.new "x" with modifier := Modifier.italic }
    let s := [StyleOp.add Modifier.bold, .remove Modifier.bold].foldl StyleOp.run Style.new
    (c.setStyle s).modifier = Modifier.italic ∧ lastMention 0 [StyleOp.add Modifier.bold,
      .remove Modifier.bold] = some false := by decide

end Bento
