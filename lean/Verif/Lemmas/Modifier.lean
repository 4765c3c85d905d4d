import Verif.Model.Backend
import Verif.Spec.Commands

/-! # The attribute commands of `_StyleModifierDiff` -/

namespace Bento

theorem contains_twoPow (x : Modifier) (k : Nat) (h : BitVec.twoPow 16 k ≠ 0#16) :
    Modifier.contains x (BitVec.twoPow 16 k) = x.getLsbD k := by
  unfold Modifier.contains
  rw [BitVec.and_twoPow]
  cases x.getLsbD k
  · simp only [Bool.false_eq_true, if_false]
    rw [beq_eq_false_iff_ne]; exact fun h' => h h'.symm
  · simp

theorem contains_bold (x : Modifier) : x.contains Modifier.bold = x.getLsbD 0 :=
  contains_twoPow x 0 (by decide)
theorem contains_dim (x : Modifier) : x.contains Modifier.dim = x.getLsbD 1 :=
  contains_twoPow x 1 (by decide)
theorem contains_italic (x : Modifier) : x.contains Modifier.italic = x.getLsbD 2 :=
  contains_twoPow x 2 (by decide)
theorem contains_underlined (x : Modifier) : x.contains Modifier.underlined = x.getLsbD 3 :=
  contains_twoPow x 3 (by decide)
theorem contains_slowBlink (x : Modifier) : x.contains Modifier.slowBlink = x.getLsbD 4 :=
  contains_twoPow x 4 (by decide)
theorem contains_rapidBlink (x : Modifier) : x.contains Modifier.rapidBlink = x.getLsbD 5 :=
  contains_twoPow x 5 (by decide)
theorem contains_reversed (x : Modifier) : x.contains Modifier.reversed = x.getLsbD 6 :=
  contains_twoPow x 6 (by decide)
theorem contains_crossedOut (x : Modifier) : x.contains Modifier.crossedOut = x.getLsbD 8 :=
  contains_twoPow x 8 (by decide)

/-- Change of the attribute bits by a command. -/
def attrStep (x : BitVec 16) : Command → BitVec 16
  | .setAttribute a => ((a.meaning.getD id) ⟨.default, .default, x⟩).attrs
  | _ => x

/-- Attribute commands other than the full reset. -/
def Command.IsAttr : Command → Prop
  | .setAttribute a => a ≠ .reset
  | _ => False

theorem effect_attr (j : Junk) (u : Uniseg) (T : Termenv) (sc : Screen) (c : Command)
    (h : c.IsAttr) : c.effect j u T sc =
      { sc with pen := { sc.pen with attrs := attrStep sc.pen.attrs c } } := by
  cases c with
  | setAttribute a =>
    simp only [Command.IsAttr] at h
    cases a <;> first | rfl | (exact absurd rfl h)
  | _ => exact absurd h (by simp [Command.IsAttr])

theorem effects_attr (j : Junk) (u : Uniseg) (T : Termenv) (cmds : List Command)
    (h : ∀ c ∈ cmds, c.IsAttr) (sc : Screen) : cmds.foldl (Command.effect j u T) sc =
      { sc with pen := { sc.pen with attrs := cmds.foldl attrStep sc.pen.attrs } } := by
  induction cmds generalizing sc with
  | nil => rfl
  | cons c cs ih =>
    rw [List.foldl_cons, effect_attr j u T sc c (h c (by simp)), ih (fun c hc => h c (by simp [hc]))]
    rfl

theorem modifierDiff_isAttr (fr to : Modifier) : ∀ c ∈ modifierDiff fr to,
    c.IsAttr ∧ ∀ T, c.Ok T := by
  have hw : ∀ (b : Bool) (a : Attr), a ≠ .reset → a.meaning.isSome = true →
      ∀ c ∈ (if b then [Command.setAttribute a] else []), c.IsAttr ∧ ∀ T, c.Ok T := by
    intro b a h1 h2 c hc
    cases b
    · simp at hc
    · simp at hc; subst hc; exact ⟨h1, fun T => h2⟩
  intro c hc
  simp only [modifierDiff, List.mem_append] at hc
  rcases hc with (((((((((((((h | h) | h) | h) | h) | h) | h) | h) | h) | h) | h) | h) | h) | h)
  case inl.inl.inl.inl.inl.inl.inl.inl.inl.inl.inl.inl.inr =>
    split at h
    · simp only [List.mem_append, List.mem_singleton] at h
      rcases h with (h | h) | h
      · subst h; exact ⟨by simp [Command.IsAttr], fun T => rfl⟩
      · exact hw _ _ (by simp) rfl c h
      · exact hw _ _ (by simp) rfl c h
    · simp at h
  all_goals exact hw _ _ (by simp) rfl c h

theorem foldl_when (b : Bool) (a : Attr) (x : BitVec 16) :
    (if b then [Command.setAttribute a] else []).foldl attrStep x =
      if b then attrStep x (.setAttribute a) else x := by
  cases b <;> rfl

/-- The bits of the nine modifiers. -/
theorem bit_masks (i : Nat) (hi : i < 16) :
    Modifier.bold.getLsbD i = decide (i = 0) ∧ Modifier.dim.getLsbD i = decide (i = 1) ∧
    Modifier.italic.getLsbD i = decide (i = 2) ∧ Modifier.underlined.getLsbD i = decide (i = 3) ∧
    Modifier.slowBlink.getLsbD i = decide (i = 4) ∧
    Modifier.rapidBlink.getLsbD i = decide (i = 5) ∧
    Modifier.reversed.getLsbD i = decide (i = 6) ∧ Modifier.hidden.getLsbD i = decide (i = 7) ∧
    Modifier.crossedOut.getLsbD i = decide (i = 8) := by
  revert i; decide

/-- The resulting attribute bits. -/
theorem modifierDiff_bits (fr to : Modifier)
    (hb : ¬ (fr.getLsbD 4 = true ∧ to.getLsbD 4 = false ∧ fr.getLsbD 5 = true ∧ to.getLsbD 5 = true))
    (hb' : ¬ (fr.getLsbD 5 = true ∧ to.getLsbD 5 = false ∧ fr.getLsbD 4 = true ∧ to.getLsbD 4 = true))
    (i : Nat) (hi : i < 9) (h7 : i ≠ 7) :
    ((modifierDiff fr to).foldl attrStep fr).getLsbD i = to.getLsbD i := by
  simp only [modifierDiff, List.foldl_append, foldl_when, contains_bold, contains_dim,
    contains_italic, contains_underlined, contains_slowBlink, contains_rapidBlink,
    contains_reversed, contains_crossedOut, Modifier.difference, BitVec.getLsbD_and,
    BitVec.getLsbD_not]
  have e : ∀ (b : Bool) (x : BitVec 16) (l : List Command),
      (if b then l else []).foldl attrStep x = if b then l.foldl attrStep x else x := by
    intro b x l; cases b <;> rfl
  rw [e]
  simp only [List.foldl_append, foldl_when, List.foldl_cons, List.foldl_nil, attrStep, Attr.meaning,
    Option.getD_some, Pen.on, Pen.off]
  have hm := bit_masks
  revert hb hb'
  have hcases : i = 0 ∨ i = 1 ∨ i = 2 ∨ i = 3 ∨ i = 4 ∨ i = 5 ∨ i = 6 ∨ i = 8 := by omega
  simp only [apply_ite (fun x : BitVec 16 => x.getLsbD i), BitVec.getLsbD_or, BitVec.getLsbD_and,
    BitVec.getLsbD_not]
  obtain ⟨m0, m1, m2, m3, m4, m5, m6, m7, m8⟩ := hm i (by omega)
  simp only [m0, m1, m2, m3, m4, m5, m6, m8]
  rcases hcases with rfl | rfl | rfl | rfl | rfl | rfl | rfl | rfl
  case inl | inr.inl =>
    simp only [Nat.reduceLT, Nat.reduceEqDiff, decide_true, decide_false, Bool.true_and,
      Bool.or_false, Bool.or_true, Bool.and_true, Bool.not_true, Bool.not_false, Bool.and_false,
      Bool.or_self, ite_self]
    intro _ _
    cases fr.getLsbD 0 <;> cases to.getLsbD 0 <;> cases fr.getLsbD 1 <;> cases to.getLsbD 1 <;> rfl
  case inr.inr.inr.inr.inl | inr.inr.inr.inr.inr.inl =>
    simp only [Nat.reduceLT, Nat.reduceEqDiff, decide_true, decide_false, Bool.true_and,
      Bool.or_false, Bool.or_true, Bool.and_true, Bool.not_true, Bool.not_false, Bool.and_false,
      Bool.or_self, ite_self]
    cases fr.getLsbD 4 <;> cases to.getLsbD 4 <;> cases fr.getLsbD 5 <;> cases to.getLsbD 5 <;> simp
  all_goals
    simp only [Nat.reduceLT, Nat.reduceEqDiff, decide_true, decide_false, Bool.true_and,
      Bool.or_false, Bool.or_true, Bool.and_true, Bool.not_true, Bool.not_false, Bool.and_false,
      Bool.or_self, ite_self]
    intro _ _
    generalize fr.getLsbD _ = f
    generalize to.getLsbD _ = t
    cases f <;> cases t <;> rfl

/-- The remaining bits are never touched. -/
theorem modifierDiff_other (fr to : Modifier) (i : Nat) (hi : i < 16) (h : i = 7 ∨ 9 ≤ i) :
    ((modifierDiff fr to).foldl attrStep fr).getLsbD i = fr.getLsbD i := by
  have e : ∀ (b : Bool) (x : BitVec 16) (l : List Command),
      (if b then l else []).foldl attrStep x = if b then l.foldl attrStep x else x := by
    intro b x l; cases b <;> rfl
  simp only [modifierDiff, List.foldl_append, foldl_when]
  rw [e]
  simp only [List.foldl_append, foldl_when, List.foldl_cons, List.foldl_nil, attrStep, Attr.meaning,
    Option.getD_some, Pen.on, Pen.off]
  simp only [apply_ite (fun x : BitVec 16 => x.getLsbD i), BitVec.getLsbD_or, BitVec.getLsbD_and,
    BitVec.getLsbD_not]
  obtain ⟨m0, m1, m2, m3, m4, m5, m6, m7, m8⟩ := bit_masks i hi
  have n : i ≠ 0 ∧ i ≠ 1 ∧ i ≠ 2 ∧ i ≠ 3 ∧ i ≠ 4 ∧ i ≠ 5 ∧ i ≠ 6 ∧ i ≠ 8 := by omega
  simp only [m0, m1, m2, m3, m4, m5, m6, m8, n, decide_false, Bool.or_false, Bool.not_false,
    Bool.and_true, hi, decide_true, ite_self]

/-- The whole transition. -/
theorem modifierDiff_attrs (fr to : Modifier)
    (hb : ¬ (fr.getLsbD 4 = true ∧ to.getLsbD 4 = false ∧ fr.getLsbD 5 = true ∧ to.getLsbD 5 = true))
    (hb' : ¬ (fr.getLsbD 5 = true ∧ to.getLsbD 5 = false ∧ fr.getLsbD 4 = true ∧ to.getLsbD 4 = true))
    (ho : ∀ i, i = 7 ∨ 9 ≤ i → fr.getLsbD i = to.getLsbD i) :
    (modifierDiff fr to).foldl attrStep fr = to := by
  apply BitVec.eq_of_getLsbD_eq
  intro i hi
  by_cases h : i = 7 ∨ 9 ≤ i
  · rw [modifierDiff_other fr to i hi h, ho i h]
  · exact modifierDiff_bits fr to hb hb' i (by omega) (by omega)

end Bento
