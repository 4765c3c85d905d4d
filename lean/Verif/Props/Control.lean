import Verif.Lemmas.Control
import Verif.Lemmas.Drawable
import Verif.Props.Terminal

/-!
# Property C97: shown text cannot carry control characters to the terminal

A program shows text it has not written itself: file names, messages, what the user pastes.  If a control
character of that text reached the terminal, the text could move the cursor, change the title of the
window or worse.
-/

namespace Bento

/-- **C97** for spans, lines and texts: whatever they hold and wherever they are drawn. -/
theorem C97_text (u : Uniseg) (area : Rect) :
    (∀ s : Span, DrawsHarmless (s.render u area)) ∧ (∀ l : Line, DrawsHarmless (l.render u area)) ∧
    ∀ t : Text, DrawsHarmless (t.render u area) :=
  ⟨fun s => span_harmless u s area, fun l => line_harmless u l area .none, fun t => text_harmless u t area⟩

/-- **C97** for blocks: nothing is asked of the titles. -/
theorem C97_block (u : Uniseg) {b : Block} (hb : b.HarmlessBorders) (area : Rect) : DrawsHarmless (b.render u area) :=
  block_harmless u hb area

/-- **C97** for paragraphs, wrapped or not, scrolled or not. -/
theorem C97_paragraph {u : Uniseg} (hu : u.Lawful) (p : Paragraph) (hb : ∀ x, p.block = some x → x.HarmlessBorders)
    (area : Rect) : DrawsHarmless (p.render u area) :=
  paragraph_harmless hu p hb area

/-- **C97** for lists: nothing is asked of the items. -/
theorem C97_list {u : Uniseg} (hu : u.Lawful) {l : ListWidget} (hl : Harmless l.highlightSymbol)
    (hb : ∀ x, l.block = some x → x.HarmlessBorders) (area : Rect) (s : ListWidget.State) :
    DrawsHarmless fun b => (l.render u area b s).map Prod.fst := by
  intro b b' h e
  obtain ⟨r, e1, rfl⟩ := Option.map_eq_some_iff.1 e
  exact list_harmless hu hl hb h e1

/-- **C97** for input fields: nothing is asked of the text, the prompt and the placeholder. -/
theorem C97_input (u : Uniseg) {i : InputField.Widget} (hb : ∀ x, i.block = some x → x.HarmlessBorders)
    (ω : Nat → Nat) (fuel : Nat) (area : Rect) (s : InputField.State) :
    DrawsHarmless fun b => (i.render ω fuel u area b s).map Prod.fst := by
  intro b b' h e
  obtain ⟨r, e1, rfl⟩ := Option.map_eq_some_iff.1 e
  exact input_harmless hb h e1

/-- **C97** for popups. -/
theorem C97_popup (u : Uniseg) {p : Popup} (hb : ∀ x, p.block = some x → x.HarmlessBorders) (ω ω' : Nat → Nat)
    (fuel : Nat) (area : Rect) {b b' : Buffer} (h : b.Harmless) (e : p.render ω ω' fuel u area b = .ok b') :
    b'.Harmless := by
  unfold Popup.render at e
  split at e
  · cases e
  · cases e
  · split at e
    · rename_i hd
      cases e
      exact popup_harmless hb _ b _ h hd
    · cases e

/-- **C97** for throbbers, with any set of frames. -/
theorem C97_throbber (u : Uniseg) (t : Throbber) (ω ω' : Nat → Nat) (fuel : Nat) (area : Rect) (s : Throbber.State)
    {b b' : Buffer} (h : b.Harmless) (e : t.render ω ω' fuel u area b s = .ok b') : b'.Harmless :=
  throbber_harmless h e

/-- **C97**, the output. In a session of draws and resizes all the text that a `Draw` writes is free of
control characters: what reaches the terminal is the beginning of a sequence of the library's own
commands, and the commands that print, print harmless text. This holds for failing writes too. -/
theorem C97_output {u : Uniseg} {T : Termenv} {t t' : Terminal} (h : Terminal.Session u T t) {w : Widget}
    (hw : ∀ r, DrawsHarmless fun b => (w r b).map Prod.fst) {faults : Nat → Option Nat} {out : List Char} {ok : Bool}
    (e : t.draw u T w faults = some (t', out, ok)) :
    ∃ cmds all, writeAll T cmds = some all ∧ out <+: all ∧ ∀ s, Command.print s ∈ cmds → Harmless s :=
  (draw_harmless (session_harmless h) hw e).2

/-- **C97** for what goes through `SetStringN`: tabs and the label of a gauge. Here the text must be free of
control characters to begin with; `C97_tabs_false` and `C97_gauge_false` show that it has to be. -/
theorem C97_printed_partial {u : Uniseg} (hu : u.Lawful) (area : Rect) :
    (∀ t : Tabs, t.HarmlessText → (∀ x, t.block = some x → x.HarmlessBorders) → DrawsHarmless (t.render u area)) ∧
    (∀ (rnd : ℚ → ℚ) (g : Gauge), Harmless (g.shownLabel rnd).content → DrawsHarmless (g.render rnd u area)) ∧
    (∀ (l : Line) (x y w : Int), (∀ s ∈ l.spans, Harmless s.content) →
      DrawsHarmless fun b => (l.print u x y w b).map Prod.fst) := by
  refine ⟨fun t ht hb => tabs_harmless hu ht hb area, fun rnd g hg => gauge_harmless hu hg area, ?_⟩
  intro l x y w hl b b' h e
  obtain ⟨r, e1, rfl⟩ := Option.map_eq_some_iff.1 e
  exact print_harmless hu hl h e1

/-- **C97** is false for tabs: a title with an escape sequence is sent to the terminal as it is. Here the
title clears the screen. -/
theorem C97_tabs_false :
    let t : Terminal := ⟨.fullscreen, ⟨0, 0, 6, 1⟩, ⟨⟨0, 0, 6, 1⟩, List.replicate 6 Cell.empty⟩,
      ⟨⟨0, 0, 6, 1⟩, List.replicate 6 Cell.empty⟩, ⟨0, 0, 6, 1⟩, ⟨0, 0⟩, false, 0⟩
    let w : Widget := fun r b => ((Tabs.new [newLineStr ['\x1b', '[', '2', 'J']]).render Uniseg.simple r b).map
      fun b => (b, none)
    Terminal.new .fullscreen 6 1 = some t ∧
    (t.draw Uniseg.simple simpleEnv w fun _ => none).map (fun r => (r.2.1.take 10).drop 6) =
      some ['\x1b', '[', '2', 'J'] := by
  decide +kernel

/-- **C97** is false for the label of a gauge: it too is drawn with its control characters. -/
theorem C97_gauge_false :
    let b : Buffer := ⟨⟨0, 0, 6, 1⟩, List.replicate 6 Cell.empty⟩
    b.Harmless ∧
    ∃ b', ((Gauge.new.withLabelStr "\x1bc").render id Uniseg.simple ⟨0, 0, 6, 1⟩ b = some b' ∧ ¬ b'.Harmless) := by
  refine ⟨by decide, ?_⟩
  have h : ((Gauge.new.withLabelStr "\x1bc").render id Uniseg.simple ⟨0, 0, 6, 1⟩
      ⟨⟨0, 0, 6, 1⟩, List.replicate 6 Cell.empty⟩).any (fun b => ¬ b.Harmless) = true := by decide +kernel
  obtain ⟨b', e, hb⟩ := Option.any_eq_true .. |>.1 h
  exact ⟨b', e, by simpa using hb⟩

/-- The same text in a line of text: the escape character is left out, the rest is shown. -/
example : let b : Buffer := ⟨⟨0, 0, 4, 1⟩, List.replicate 4 Cell.empty⟩
    ((newLineStr ['\x1b', '[', '2', 'J']).render Uniseg.simple ⟨0, 0, 4, 1⟩ b).map (fun b => b.content.map Cell.symbol) =
      some ["[", "2", "J", " "] := by
  decide +kernel

/-- The hypotheses are met by the default border set, by a usual highlight symbol and by tabs with ordinary titles. -/
example : Block.new.HarmlessBorders ∧ Harmless ">> " ∧ ¬ Harmless "\x1b[2J" ∧ ¬ Harmless "\x7f" ∧ ¬ Harmless "\u009b2J" ∧
    Harmless "a世́" := by
  decide

example : (Tabs.new [newLineStr ['o', 'n', 'e'], newLineStr ['t', 'w', 'o']]).HarmlessText := by
  refine ⟨?_, ?_, ?_, ?_⟩ <;> decide +kernel

/-- A session: a new terminal and a frame with a line of text. -/
example (l : Line) : ∃ t, Terminal.new .fullscreen 6 1 = some t ∧ Terminal.Session Uniseg.simple simpleEnv t ∧
    ∀ r, DrawsHarmless fun b => ((fun r b => (l.render Uniseg.simple r b).map fun b => (b, none)) r b :
      Option (Buffer × Option Position)).map Prod.fst := by
  refine ⟨_, rfl, .new (viewport := .fullscreen) (w := 6) (h := 1) rfl, fun r b b' h e => ?_⟩
  simp only [Option.map_map] at e
  obtain ⟨b1, e1, rfl⟩ := Option.map_eq_some_iff.1 e
  exact (C97_text Uniseg.simple r).2.1 l b b1 h e1

end Bento
