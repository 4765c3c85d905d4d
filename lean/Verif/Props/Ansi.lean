import Verif.Lemmas.Ansi
import Verif.Lemmas.Drawable

/-!
# Property C16: terminal commands are decoded by the terminal as intended

Specification: the parser and emulator of `Spec/Screen`, the intended effects of `Spec/Commands`.
-/

namespace Bento

/-- **C16.** Any sequence of (meaningful) commands is written without a panic, and feeding the output
to the terminal has exactly the intended effects of the commands, one after another: 1-based
coordinates, SGR codes, mode switches and parameters are right, no sequence swallows part of its
neighbours, and text passes through. -/
theorem C16_commands_decode_partial (j : Junk) (u : Uniseg) (T : Termenv) (cmds : List Command)
    (hok : ∀ c ∈ cmds, c.Ok T) (hsep : Separable u (fun s => .print s ∈ cmds)) (sc : Screen) :
    ∃ out, writeAll T cmds = some out ∧
      sc.feed j u out = cmds.foldl (Command.effect j u T) sc := by
  obtain ⟨out, h1, h2⟩ := parse_writeAll T cmds hok
  refine ⟨out, h1, ?_⟩
  have := toksOf_effect j u T _ hsep cmds hok (fun s hs => hs) [] (by simp) sc
  simp only [Screen.feed, h2]
  simpa [String.join] using this

/-- **C16.** Numbers: the decimal encoding is read back as the same number. -/
theorem C16_number_round_trip (n : Nat) (rest : List Char) :
    parse (.csi false [] 0 false) (natDigits n ++ 'H' :: rest) =
      .csi false [n] 'H' :: parse (.ground []) rest := by
  rw [parse_natDigits0, parse_final _ _ _ _ _ (by decide) (by decide) (by decide) (by decide)]
  rfl

/-- **C16.** The exceptions are real: a colour that does not convert (nil) makes the write panic, and
a colour without a sequence (`NoColor`, or an RGB colour that is not a hex string) resets the whole
rendition, attributes included, instead of the colour only. -/
theorem C16_nil_and_no_colour_false (T : Termenv) :
    (Command.setColors none (some .reset)).write T = none ∧
    (Command.setColors (some .reset) none).write T = none ∧
    (∀ (j : Junk) (u : Uniseg) (sc : Screen), ∃ out,
      (Command.setColors (some .noColor) (some .noColor)).write T = some out ∧
      (sc.feed j u out).pen = Pen.neutral) := by
  refine ⟨rfl, rfl, fun j u sc => ⟨_, rfl, rfl⟩⟩

/-- Everything together on a concrete 80x24 screen. -/
example : ∀ T : Termenv,
    let cmds := [Command.moveTo 11 2, .setAttribute .bold, .setColors (some (.ansi 9)) (some .reset),
      .print "a", .print "b", .hideCursor]
    (∀ c ∈ cmds, c.Ok T) ∧ Separable Uniseg.simple (fun s => .print s ∈ cmds) := by
  intro T
  refine ⟨?_, ?_⟩
  · intro c hc
    simp only [List.mem_cons, List.not_mem_nil, or_false] at hc
    rcases hc with rfl | rfl | rfl | rfl | rfl | rfl
    · exact ⟨by decide, by decide⟩
    · exact rfl
    · exact ⟨rfl, rfl⟩
    · intro c hc; simp at hc; subst hc; decide
    · intro c hc; simp at hc; subst hc; decide
    · trivial
  · exact simple_separable _

end Bento
