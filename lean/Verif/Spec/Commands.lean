import Verif.Spec.Screen
import Verif.Model.Ansi

/-!
# Specification: what each command is meant to do to the screen
-/

namespace Bento

/-- The colour a terminal is asked to show. `none`: the colour has no representation. -/
def Color.shown (T : Termenv) : Color → Option TColor
  | .reset => some .default
  | .noColor => none
  | .ansi n => if n < 16 then some (.idx n) else none
  | .ansi256 n => if n < 256 then some (.idx n) else none
  | .rgb h => (T.hex h).map (fun (r, g, b) => .rgb r g b)

/-- The attributes with a defined meaning, and their meaning. -/
def Attr.meaning : Attr → Option (Pen → Pen)
  | .reset => some (fun _ => Pen.neutral)
  | .bold => some (·.on Modifier.bold)
  | .dim => some (·.on Modifier.dim)
  | .italic => some (·.on Modifier.italic)
  | .underlined => some (·.on Modifier.underlined)
  | .slowBlink => some (·.on Modifier.slowBlink)
  | .rapidBlink => some (·.on Modifier.rapidBlink)
  | .reverse => some (·.on Modifier.reversed)
  | .hidden => some (·.on Modifier.hidden)
  | .crossedOut => some (·.on Modifier.crossedOut)
  | .normalIntensity => some (·.off (Modifier.bold ||| Modifier.dim))
  | .noItalic => some (·.off Modifier.italic)
  | .noUnderline => some (·.off Modifier.underlined)
  | .noBlink => some (·.off (Modifier.slowBlink ||| Modifier.rapidBlink))
  | .noReverse => some (·.off Modifier.reversed)
  | .noHidden => some (·.off Modifier.hidden)
  | .notCrossedOut => some (·.off Modifier.crossedOut)
  | _ => none

/-- No control characters. -/
def Printable (s : String) : Prop := ∀ c ∈ s.toList, 32 ≤ c.toNat ∧ c.toNat ≠ 127

/-- Commands with a defined meaning: coordinates are not negative, colours can be shown, text has no
control characters. -/
def Command.Ok (T : Termenv) : Command → Prop
  | .moveTo c r => 0 ≤ c ∧ 0 ≤ r
  | .setAttribute a => a.meaning.isSome
  | .setColors (some f) (some b) => (f.shown T).isSome ∧ (b.shown T).isSome
  | .setColors none none => True
  | .setColors _ _ => False
  | .print s => Printable s
  | _ => True

/-- The intended effect of a command; coordinates are 0-based. -/
def Command.effect (j : Junk) (u : Uniseg) (T : Termenv) (sc : Screen) : Command → Screen
  | .moveTo c r =>
    { sc with cx := clampInt 0 (sc.cols - 1) c, cy := clampInt 0 (sc.rows - 1) r }
  | .setAttribute a => { sc with pen := (a.meaning.getD id) sc.pen }
  | .setColors (some f) (some b) =>
    { sc with pen := { sc.pen with
        fg := (f.shown T).getD sc.pen.fg, bg := (b.shown T).getD sc.pen.bg } }
  | .setColors _ _ => sc
  | .print s => sc.putText j u s
  | .showCursor => { sc with visible := true }
  | .hideCursor => { sc with visible := false }
  | .clearAll => sc.eraseWhere j (fun _ => true)
  | .clearAfterCursor =>
    sc.eraseWhere j (fun q => q.y > sc.cy || (q.y == sc.cy && q.x ≥ min sc.cx (sc.cols - 1)))
  | .clearBeforeCursor =>
    sc.eraseWhere j (fun q => q.y < sc.cy || (q.y == sc.cy && q.x ≤ min sc.cx (sc.cols - 1)))
  | .clearCurrentLine => sc.eraseWhere j (fun q => q.y == sc.cy)
  | .clearUntilNewLine =>
    sc.eraseWhere j (fun q => q.y == sc.cy && q.x ≥ min sc.cx (sc.cols - 1))
  | .enterAlternateScreen =>
    if sc.alt then sc else { sc with alt := true, other := sc.grid, grid := Grid.blank }
  | .leaveAlternateScreen => if sc.alt then { sc with alt := false, grid := sc.other } else sc
  | .enableBracketedPaste => { sc with paste := true }
  | .disableBracketedPaste => { sc with paste := false }

/-- Texts drawn from `S` do not join into new clusters when they are written next to each other. -/
def Separable (u : Uniseg) (S : String → Prop) : Prop :=
  ∀ l : List String, (∀ s ∈ l, S s) →
    u.graphemes (String.join l) = l.flatMap u.graphemes

end Bento
