import Verif.Lemmas.Modifier
import Verif.Props.Ansi

/-!
# Property C14: modifier transitions

Specification: the emulator; the attribute bits of its pen are the modifiers in effect.
-/

namespace Bento

/-- Full claim of C14: on a terminal whose attributes are `from`, the bytes of the modifier diff
leave exactly the attributes `to`. -/
def TransitionCorrect (j : Junk) (u : Uniseg) (T : Termenv) (fr to : Modifier) : Prop :=
  ∀ sc : Screen, sc.pen.attrs = fr → ∃ out, writeAll T (modifierDiff fr to) = some out ∧
    sc.feed j u out = { sc with pen := { sc.pen with attrs := to } }

theorem modifierDiff_feed (j : Junk) (u : Uniseg) (h0 : u.graphemes "" = []) (T : Termenv)
    (fr to : Modifier) (sc : Screen) :
    ∃ out, writeAll T (modifierDiff fr to) = some out ∧ sc.feed j u out =
      { sc with pen := { sc.pen with attrs := (modifierDiff fr to).foldl attrStep sc.pen.attrs } } := by
  have hA := modifierDiff_isAttr fr to
  have hno : ∀ s, ¬ Command.print s ∈ modifierDiff fr to := by
    intro s hs; exact (hA _ hs).1
  obtain ⟨out, h1, h2⟩ := C16_commands_decode_partial j u T (modifierDiff fr to)
    (fun c hc => (hA c hc).2 T) (by
      intro l hl
      cases l with
      | nil => exact h0
      | cons s l => exact absurd (hl s (by simp)) (hno s)) sc
  exact ⟨out, h1, by rw [h2, effects_attr j u T _ (fun c hc => (hA c hc).1)]⟩

/-- **C14** (partial).  The transition is correct, and nothing else on the screen changes, for all
pairs of modifier sets such that: `hidden` is in both or in neither; it does not happen that one of
the two blink modifiers is dropped while the other one stays; bits that are no modifier agree.
Missing: the excluded pairs, for which the claim is false (below). -/
theorem C14_transition_partial (j : Junk) (u : Uniseg) (h0 : u.graphemes "" = []) (T : Termenv)
    (fr to : Modifier)
    (hhid : ∀ i, i = 7 ∨ 9 ≤ i → fr.getLsbD i = to.getLsbD i)
    (hslow : ¬ (fr.getLsbD 4 = true ∧ to.getLsbD 4 = false ∧ fr.getLsbD 5 = true ∧
      to.getLsbD 5 = true))
    (hrapid : ¬ (fr.getLsbD 5 = true ∧ to.getLsbD 5 = false ∧ fr.getLsbD 4 = true ∧
      to.getLsbD 4 = true)) :
    TransitionCorrect j u T fr to := by
  intro sc hsc
  obtain ⟨out, h1, h2⟩ := modifierDiff_feed j u h0 T fr to sc
  exact ⟨out, h1, by rw [h2, hsc, modifierDiff_attrs fr to hslow hrapid hhid]⟩

/-- The hypotheses are met by real transitions: dropping bold while keeping dim, and slow → rapid
blink. -/
example :
    let fr := Modifier.bold ||| Modifier.dim ||| Modifier.slowBlink
    let to := Modifier.dim ||| Modifier.rapidBlink ||| Modifier.crossedOut
    (∀ i < 16, i = 7 ∨ 9 ≤ i → fr.getLsbD i = to.getLsbD i) ∧
    ¬ (fr.getLsbD 4 = true ∧ to.getLsbD 4 = false ∧ fr.getLsbD 5 = true ∧ to.getLsbD 5 = true) ∧
    (modifierDiff fr to).foldl attrStep fr = to := by
  refine ⟨by decide, by decide, by decide⟩

/-- Any screen with the given attributes. -/
def screenWith (attrs : Modifier) : Screen :=
  ⟨80, 24, Grid.blank, 0, 0, ⟨.default, .default, attrs⟩, true, false, Grid.blank, false⟩

/-- The claim is false for every transition that adds or drops `hidden`: no command is emitted for
it, the attribute stays as it was. -/
theorem C14_hidden_false (j : Junk) (u : Uniseg) (h0 : u.graphemes "" = []) (T : Termenv)
    (fr to : Modifier) (h : fr.getLsbD 7 ≠ to.getLsbD 7) : ¬ TransitionCorrect j u T fr to := by
  intro hc
  obtain ⟨out, h1, h2⟩ := hc (screenWith fr) rfl
  obtain ⟨out', h1', h2'⟩ := modifierDiff_feed j u h0 T fr to (screenWith fr)
  rw [h1] at h1'
  injection h1' with e
  subst e
  rw [h2] at h2'
  have := congrArg (fun s : Screen => s.pen.attrs.getLsbD 7) h2'
  simp only [screenWith] at this
  rw [modifierDiff_other fr to 7 (by omega) (Or.inl rfl)] at this
  exact h this.symm

/-- The claim is false when one blink modifier is dropped and the other kept: "not blinking" switches
both off and the kept one is not switched on again. -/
theorem C14_blink_false (j : Junk) (u : Uniseg) (h0 : u.graphemes "" = []) (T : Termenv) :
    ¬ TransitionCorrect j u T (Modifier.slowBlink ||| Modifier.rapidBlink) Modifier.slowBlink := by
  intro hc
  obtain ⟨out, h1, h2⟩ := hc (screenWith _) rfl
  obtain ⟨out', h1', h2'⟩ := modifierDiff_feed j u h0 T _ Modifier.slowBlink
    (screenWith (Modifier.slowBlink ||| Modifier.rapidBlink))
  rw [h1] at h1'
  injection h1' with e
  subst e
  rw [h2] at h2'
  have := congrArg (fun s : Screen => s.pen.attrs) h2'
  simp only [screenWith] at this
  revert this
  decide

end Bento
