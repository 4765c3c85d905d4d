import Verif.Lemmas.Terminal

/-!
# Properties C12, C13, C15, C17: drawing frames to the terminal

Specification: the emulator (`Spec/Screen`), `Shows` (`Spec/Frame`), histories (`Spec/Terminal`).
-/

namespace Bento

open Buffer Diff

/-! ## C12 -/

/-- **C12.** After any history of draws with arbitrary (good) widgets, resizes, clears and external
disturbances of the screen — a disturbance being followed by a `Resize` or `Clear` at some later
point — `Draw` does not panic or fail, and the screen that received all the bytes shows exactly the
frame that the widget draws into a blank buffer of the size of the viewport: every symbol, colour and
modifier.  Nothing outside the viewport changes. -/
theorem C12_screen_shows_frame {j : Junk} {u : Uniseg} {T : Termenv} {S : String → Prop}
    (env : Env u T S) {t : Terminal} {sc : Screen} (h : History j u T S t sc true) (w : Widget)
    (hw : w.Good u T S) :
    ∃ blank frame cur t' out, blank.Blank t.viewportArea ∧
      w t.viewportArea blank = some (frame, cur) ∧
      t.draw u T w noFault = some (t', out, true) ∧
      Shows u (penOf T) (sc.feed j u out).grid frame ∧
      ((∀ y, sc.grid ⟨t.viewportArea.x + t.viewportArea.width, y⟩ ≠ .cont) →
        ∀ q, t.viewportArea.contains q = false → (sc.feed j u out).grid q = sc.grid q) := by
  obtain ⟨ht, hpen, hs⟩ := history_inv env h
  obtain ⟨hfit, hsh⟩ := hs rfl
  obtain ⟨b, cur, hwb, hb, hcur⟩ := hw t.viewportArea t.cur ht.x ht.y ht.cur
  obtain ⟨t', ups, out, e1, e2, e3, e4, e5, _⟩ := draw_spec env ht.toPInv hwb hb hcur
  obtain ⟨o, ho, hf⟩ := feed_commands j env _ e4 sc
  rw [e5] at ho
  injection ho with ho
  subst ho
  obtain ⟨cx, cy, g, he, hsh', hout⟩ := draw_shows j env ht.toPInv hb e2 e3 sc hfit hpen hsh
  refine ⟨t.cur, b, cur, t', out, ht.cur, hwb, e1, ?_, ?_⟩
  · rw [hf, List.foldl_append, cursor_effect, he]
    cases cur <;> exact hsh'
  · rw [hf, List.foldl_append, cursor_effect, he]
    cases cur <;> exact hout

/-- **C12.** `Resize` (to any area on the screen) and `Clear` never panic or fail by themselves. -/
theorem C12_resize_clear_total {j : Junk} {u : Uniseg} {T : Termenv} {S : String → Prop}
    (env : Env u T S) {t : Terminal} {sc : Screen} {s : Bool} (h : History j u T S t sc s) :
    (∀ area, sc.Fits area → ∃ t' out, t.resize T area none = some (t', out, true) ∧
      t'.viewportArea = area) ∧
    (∃ t' out, t.clear T none = some (t', out, true)) := by
  obtain ⟨ht, _, _⟩ := history_inv env h
  constructor
  · intro area hfit
    obtain ⟨t1, h1, h2, h3, h4, h5, h6⟩ := setViewport_spec ht hfit.width hfit.height
    obtain ⟨out, ho⟩ := clear_some j (S := S) env (t := t1) (by rw [h6]; exact ht.vp)
      (by rw [h5]; exact hfit.y)
    refine ⟨{ t1 with prev := t1.prev.reset, lastKnownArea := area }, out, ?_, h5⟩
    cases hv : t.viewport with
    | inline n => exact absurd hv (ht.vp n)
    | _ => simp [Terminal.resize, hv, h1, ho]
  · obtain ⟨out, ho⟩ := clear_some j (S := S) env ht.vp ht.y
    exact ⟨_, out, ho⟩

/-- The colour profile of terminals without colours (`termenv.Ascii`, also chosen for `NO_COLOR`)
converts every colour, the default one included, to `NoColor`. -/
def asciiEnv : Termenv := ⟨fun _ => some .noColor, fun _ => none⟩

/-- On the colourless profile the claim is false: a bold coloured cell is shown without bold, because
the empty colour sequence `CSI ; m` resets all attributes. -/
theorem C12_ascii_profile_false (j : Junk) :
    let cell : Cell := { symbol := "a", fg := .ansi 1, bg := .reset, modifier := Modifier.bold, skip := false }
    let sc : Screen := ⟨1, 1, Grid.blank, 0, 0, Pen.neutral, true, false, Grid.blank, false⟩
    ∃ out, writeAll asciiEnv (drawCommands asciiEnv [⟨cell, ⟨0, 0⟩⟩]) = some out ∧
      (sc.feed j Uniseg.simple out).grid ⟨0, 0⟩ = .glyph "a" false Pen.neutral := by
  intro cell sc
  have e : drawCommands asciiEnv [⟨cell, ⟨0, 0⟩⟩] =
      [.moveTo 0 0, .setAttribute .bold, .setColors (some .noColor) (some .noColor), .print "a",
        .setColors (some .reset) (some .reset), .setAttribute .reset] := by decide
  refine ⟨"\x1b[1;1H\x1b[1m\x1b[;ma\x1b[39;49m\x1b[0m".toList, ?_, ?_⟩
  · rw [e]
    have d0 : natDigits 0 = ['0'] := by rw [natDigits]; rfl
    have d1 : natDigits 1 = ['1'] := by rw [natDigits]; rfl
    have d3 : natDigits 3 = ['3'] := by rw [natDigits]; rfl
    have d4 : natDigits 4 = ['4'] := by rw [natDigits]; rfl
    have d39 : natDigits 39 = ['3', '9'] := by rw [natDigits, if_neg (by decide), d3]; rfl
    have d49 : natDigits 49 = ['4', '9'] := by rw [natDigits, if_neg (by decide), d4]; rfl
    simp [writeAll, Command.write, csi, itoa, Attr.sgr, Attr.index, sgrTable,
      Color.sequence, d0, d1, d39, d49]
  · rfl

/-- The environment assumptions are satisfiable, and so is `History` with a disturbance; the drawn
frame is a real one. -/
def simpleEnv : Termenv := ⟨fun c => match c with | .rgb _ => none | c => some c, fun _ => none⟩

theorem simple_env : Env Uniseg.simple simpleEnv (fun _ => True) :=
  ⟨Uniseg.simple_lawful, rfl, trivial, simple_separable _⟩

/-- A widget filling its whole area with bold red `a`s. -/
def fillA : Widget := fun _ b =>
  some (⟨b.area, List.replicate b.content.length
    { symbol := "a", fg := .ansi 1, bg := .reset, modifier := Modifier.bold, skip := false }⟩,
    some ⟨0, 0⟩)

theorem fillA_good : fillA.Good Uniseg.simple simpleEnv (fun _ => True) := by
  intro area b _ _ hb
  refine ⟨_, _, rfl, ?_, by intro p hp; injection hp with hp; subst hp; exact ⟨by decide, by decide⟩⟩
  have hcell : ∀ p c, Buffer.cellAt ⟨b.area, List.replicate b.content.length
      ({ symbol := "a", fg := .ansi 1, bg := .reset, modifier := Modifier.bold, skip := false } : Cell)⟩
      p = some c →
      c = { symbol := "a", fg := .ansi 1, bg := .reset, modifier := Modifier.bold, skip := false } := by
    intro p c hc
    have hin := cellAt_some_contains hc
    rw [cellAt_eq hin] at hc
    simp only [List.getElem?_replicate] at hc
    split at hc
    · injection hc with hc; exact hc.symm
    · cases hc
  refine ⟨hb.area_eq, ⟨by simpa using hb.wf.len, hb.wf.width_nonneg, hb.wf.height_nonneg⟩,
    ⟨?_, ?_, ?_, ?_⟩, ?_⟩
  · intro p c hc; rw [hcell p c hc]; decide
  · intro p c hc; rw [hcell p c hc]; left; decide
  · intro p c hc; rw [hcell p c hc]
  · intro p c hc h2; rw [hcell p c hc] at h2; exact absurd h2 (by decide)
  · intro p c hc
    rw [hcell p c hc]
    refine ⟨rfl, rfl, trivial, ?_, ⟨by decide, ?_, by decide⟩⟩
    · intro c hc; simp at hc; subst hc; decide
    · intro i hi
      by_cases h : i < 16
      · have : i = 9 ∨ i = 10 ∨ i = 11 ∨ i = 12 ∨ i = 13 ∨ i = 14 ∨ i = 15 := by omega
        rcases this with rfl | rfl | rfl | rfl | rfl | rfl | rfl <;> decide
      · exact BitVec.getLsbD_of_ge _ _ (by omega)

/-- The hypotheses of C12 are met: start on a 2x1 screen, draw, have the screen resized and garbled
from outside, resize, draw again; the final screen shows a bold red `a` at (2,1). -/
example (j : Junk) : ∃ t sc, History j Uniseg.simple simpleEnv (fun _ => True) t sc true ∧
    t.viewportArea = ⟨0, 0, 3, 2⟩ ∧
    sc.grid ⟨2, 1⟩ = .glyph "a" false ⟨.idx 1, .default, Modifier.bold⟩ := by
  let sc0 : Screen := ⟨2, 1, Grid.blank, 0, 0, Pen.neutral, true, false, Grid.blank, false⟩
  have h0 : History j Uniseg.simple simpleEnv (fun _ => True)
      ⟨.fullscreen, ⟨0, 0, 2, 1⟩, ⟨⟨0, 0, 2, 1⟩, [Cell.empty, Cell.empty]⟩,
        ⟨⟨0, 0, 2, 1⟩, [Cell.empty, Cell.empty]⟩, ⟨0, 0, 2, 1⟩, ⟨0, 0⟩, false, 0⟩ sc0 true :=
    .start .fullscreen sc0 _ (by decide)
      ⟨by decide, by decide, by decide, by decide, by decide, by decide⟩ rfl rfl
  obtain ⟨_, _, _, t1, out1, _, _, hd1, _, _⟩ := C12_screen_shows_frame simple_env h0 fillA fillA_good
  have h1 := History.draw h0 fillA fillA_good t1 out1 hd1
  have h2 := History.disturb h1 3 2 (fun _ => .cont) 1 1
  obtain ⟨t3, out3, hd3, ha3⟩ := (C12_resize_clear_total simple_env h2).1 ⟨0, 0, 3, 2⟩
    ⟨by simp, by simp, by simp, by simp, by simp, by simp⟩
  have h3 := History.resize h2 ⟨0, 0, 3, 2⟩
    ⟨by simp, by simp, by simp, by simp, by simp, by simp⟩ t3 out3 hd3
  obtain ⟨bl, fr, cur, t4, out4, hbl, hfr, hd4, hs4, _⟩ :=
    C12_screen_shows_frame simple_env h3 fillA fillA_good
  have h4 := History.draw h3 fillA fillA_good t4 out4 hd4
  have hv : t4.viewportArea = ⟨0, 0, 3, 2⟩ := by
    obtain ⟨ht, _, _⟩ := history_inv simple_env h3
    obtain ⟨b, c, hwb, hb, hc⟩ := fillA_good t3.viewportArea t3.cur ht.x ht.y ht.cur
    obtain ⟨t', ups, out, e1, _, _, _, _, _, _, e8, _⟩ := draw_spec simple_env ht.toPInv hwb hb hc
    rw [e1] at hd4
    injection hd4 with hd4
    injection hd4 with hd4 _
    rw [← hd4, e8, ha3]
  refine ⟨t4, _, h4, hv, ?_⟩
  have hlen : bl.content.length = 6 := by
    have h1 := hbl.wf.len
    rw [hbl.area_eq, ha3] at h1
    simp only [Rect.area] at h1
    omega
  have hba : bl.area = ⟨0, 0, 3, 2⟩ := by rw [hbl.area_eq, ha3]
  simp only [fillA, Option.some.injEq, Prod.mk.injEq] at hfr
  obtain ⟨rfl, rfl⟩ := hfr
  rw [hba, hlen] at hs4
  have := hs4 ⟨2, 1⟩ _ (by decide : _ = some
    ({ symbol := "a", fg := .ansi 1, bg := .reset, modifier := Modifier.bold, skip := false } : Cell))
  rw [this]
  decide

/-! ## C13 -/

/-- Widgets that keep the buffer's shape; otherwise arbitrary. -/
def Widget.KeepsShape (w : Widget) : Prop :=
  ∀ area b b' cur, b.WF → w area b = some (b', cur) → b'.WF ∧ b'.area = b.area

/-- Everything a program can do to a terminal as long as no `Draw` fails; `Resize` and `Clear` may
fail at any point. -/
inductive Reachable (u : Uniseg) (T : Termenv) : Terminal → Prop
  | new (vp : Viewport) (w h : Int) (t : Terminal) (hnew : Terminal.new vp w h = some t)
      (hw : 0 ≤ t.viewportArea.width) (hh : 0 ≤ t.viewportArea.height) : Reachable u T t
  | draw {t} (h : Reachable u T t) (w : Widget) (hw : w.KeepsShape) (faults : Nat → Option Nat)
      (t' : Terminal) (out : List Char) (hd : t.draw u T w faults = some (t', out, true)) :
      Reachable u T t'
  | resize {t} (h : Reachable u T t) (area : Rect) (hw : 0 ≤ area.width) (hh : 0 ≤ area.height)
      (fault : Option Nat) (t' : Terminal) (out : List Char) (ok : Bool)
      (hd : t.resize T area fault = some (t', out, ok)) : Reachable u T t'
  | clear {t} (h : Reachable u T t) (fault : Option Nat) (t' : Terminal) (out : List Char)
      (ok : Bool) (hd : t.clear T fault = some (t', out, ok)) : Reachable u T t'

theorem draw_ok_state {u T} {t : Terminal} {w : Widget} {faults : Nat → Option Nat} {t' : Terminal}
    {out : List Char} (h : t.draw u T w faults = some (t', out, true)) :
    ∃ b cur, w t.viewportArea t.cur = some (b, cur) ∧ t'.prev = b ∧ t'.cur = t.prev.reset ∧
      t'.viewportArea = t.viewportArea := by
  simp only [Terminal.draw, Option.bind_eq_bind, Option.bind_eq_some_iff] at h
  obtain ⟨⟨b, cur⟩, hw, ⟨t1, ups⟩, h1, out1, h2, h3⟩ := h
  refine ⟨b, cur, hw, ?_⟩
  have f1 : t1.cur = b ∧ t1.prev = t.prev ∧ t1.viewportArea = t.viewportArea := by
    simp only [Terminal.flush, Option.bind_eq_bind, Option.bind_eq_some_iff] at h1
    obtain ⟨ups', _, h1⟩ := h1
    injection h1 with h1
    injection h1 with h1 _
    subst h1
    cases ups'.getLast? <;> exact ⟨rfl, rfl, rfl⟩
  cases hf0 : faults 0 with
  | some n => simp [hf0] at h3
  | none =>
    simp only [hf0] at h3
    cases cur with
    | none =>
      simp only [Option.bind_eq_some_iff] at h3
      obtain ⟨o1, _, h3⟩ := h3
      cases hf1 : faults 1 with
      | some n => simp [hf1] at h3
      | none =>
        simp only [hf1] at h3
        cases hf2 : faults 2 with
        | some n => simp [hf2] at h3
        | none =>
          simp only [hf2, Option.some.injEq, Prod.mk.injEq, and_true] at h3
          obtain ⟨rfl, _⟩ := h3
          exact ⟨f1.1, congrArg Buffer.reset f1.2.1, f1.2.2⟩
    | some p =>
      simp only [Option.bind_eq_some_iff] at h3
      obtain ⟨o1, _, h3⟩ := h3
      cases hf1 : faults 1 with
      | some n => simp [hf1] at h3
      | none =>
        simp only [hf1, Option.bind_eq_some_iff] at h3
        obtain ⟨o2, _, h3⟩ := h3
        cases hf2 : faults 2 with
        | some n => simp [hf2] at h3
        | none =>
          simp only [hf2] at h3
          cases hf3 : faults 3 with
          | some n => simp [hf3] at h3
          | none =>
            simp only [hf3, Option.some.injEq, Prod.mk.injEq, and_true] at h3
            obtain ⟨rfl, _⟩ := h3
            exact ⟨f1.1, congrArg Buffer.reset f1.2.1, f1.2.2⟩

theorem clear_state {T} {t t' : Terminal} {fault : Option Nat} {out ok}
    (h : t.clear T fault = some (t', out, ok)) : t' = t ∨ t' = { t with prev := t.prev.reset } := by
  simp only [Terminal.clear, Option.bind_eq_bind, Option.bind_eq_some_iff] at h
  obtain ⟨cmds, _, o, _, h⟩ := h
  cases fault with
  | some n => simp at h; exact Or.inl h.1.symm
  | none => simp at h; exact Or.inr h.1.symm

/-- **C13.** Whatever was drawn, resized or cleared before (with arbitrary widgets), the buffer the
widget gets at the next `Draw` has the size of the viewport and only empty cells. -/
theorem C13_frame_starts_blank {u : Uniseg} {T : Termenv} {t : Terminal} (h : Reachable u T t) :
    t.cur.Blank t.viewportArea := by
  suffices H : t.cur.Blank t.viewportArea ∧ t.prev.WF ∧ t.prev.area = t.viewportArea from H.1
  induction h with
  | new vp w h t hnew hw hh =>
    have key : ∀ a b, Buffer.newEmpty a = some b → 0 ≤ a.width → 0 ≤ a.height →
        b.Blank a ∧ b.WF ∧ b.area = a := by
      intro a b hb h1 h2
      obtain ⟨b', e1, e2, e3, e4⟩ := newFilled_some (area := a) (c := Cell.empty) h1 h2
      rw [Buffer.newEmpty, e1] at hb
      injection hb with hb
      subst hb
      exact ⟨⟨e2, e3, e4⟩, e3, e2⟩
    cases vp with
    | inline n => simp [Terminal.new] at hnew
    | fullscreen =>
      simp only [Terminal.new, Option.bind_eq_bind, Option.bind_eq_some_iff] at hnew
      obtain ⟨b, hb, ht⟩ := hnew
      injection ht with ht
      subst ht
      exact key _ _ hb hw hh
    | fixed r =>
      simp only [Terminal.new, Option.bind_eq_bind, Option.bind_eq_some_iff] at hnew
      obtain ⟨b, hb, ht⟩ := hnew
      injection ht with ht
      subst ht
      exact key _ _ hb hw hh
  | @draw t _ w hw faults t' out hd ih =>
    obtain ⟨b, cur, hwb, h1, h2, h3⟩ := draw_ok_state hd
    obtain ⟨hwf, har⟩ := hw _ _ _ _ ih.1.wf hwb
    refine ⟨?_, ?_, ?_⟩
    · rw [h2, h3, ← ih.2.2]; exact blank_reset ih.2.1
    · rw [h1]; exact hwf
    · rw [h1, h3, har, ih.1.area_eq]
  | @resize t _ area hw hh fault t' out ok hd ih =>
    have hd' : t.viewport = t.viewport := rfl
    obtain ⟨c, hc1, hc2⟩ := blank_resize ih.1 hw hh
    obtain ⟨p, hp1, hp2, hp3⟩ := resize_wf (b := t.prev) hw hh
    have key : t.resize T area fault = none ∨ t.resize T area fault = (do
        let (t, out, ok) ← ({ t with cur := c, prev := p, viewportArea := area } : Terminal).clear T fault
        if ok then some ({ t with lastKnownArea := area }, out, true)
        else some (t, out, false)) := by
      cases hv : t.viewport with
      | inline n => left; simp [Terminal.resize, hv]
      | _ => right; simp [Terminal.resize, hv, Terminal.setViewportArea, hc1, hp1]
    rcases key with key | key
    · rw [key] at hd; cases hd
    · rw [key] at hd
      simp only [Option.bind_eq_bind, Option.bind_eq_some_iff] at hd
      obtain ⟨⟨t2, o, k⟩, h2, h3⟩ := hd
      have hr := blank_reset hp3
      have : t'.cur = t2.cur ∧ t'.prev = t2.prev ∧ t'.viewportArea = t2.viewportArea := by
        cases k <;> simp at h3 <;> obtain ⟨rfl, _⟩ := h3 <;> exact ⟨rfl, rfl, rfl⟩
      rw [this.1, this.2.1, this.2.2]
      rcases clear_state h2 with rfl | rfl
      · exact ⟨hc2, hp3, hp2⟩
      · exact ⟨hc2, hr.wf, hp2⟩
  | @clear t _ fault t' out ok hd ih =>
    rcases clear_state hd with rfl | rfl
    · exact ih
    · exact ⟨ih.1, (blank_reset ih.2.1).wf, ih.2.2⟩

/-- **C13.** So the frame depends only on the widget and the size of the viewport: two terminals with
different pasts but the same viewport pass the very same buffer to the widget. -/
theorem C13_frame_independent_of_history {u u' : Uniseg} {T T' : Termenv} {t t' : Terminal}
    (h : Reachable u T t) (h' : Reachable u' T' t') (ha : t.viewportArea = t'.viewportArea) :
    t.cur = t'.cur := by
  have b1 := C13_frame_starts_blank h
  have b2 := C13_frame_starts_blank h'
  refine WF.ext b1.wf b2.wf (by rw [b1.area_eq, b2.area_eq, ha]) ?_
  intro p _
  by_cases hp : t.viewportArea.contains p = true
  · rw [b1.cells p hp, b2.cells p (by rw [← ha]; exact hp)]
  · rw [Bool.not_eq_true] at hp
    rw [cellAt_none (by rw [b1.area_eq]; exact hp), cellAt_none (by rw [b2.area_eq, ← ha]; exact hp)]

/-- Reachable states with a drawn frame exist. -/
example : ∃ t, Reachable Uniseg.simple simpleEnv t ∧ t.prev.cellAt ⟨0, 0⟩ ≠ some Cell.empty := by
  have h0 : Reachable Uniseg.simple simpleEnv
      ⟨.fullscreen, ⟨0, 0, 2, 1⟩, ⟨⟨0, 0, 2, 1⟩, [Cell.empty, Cell.empty]⟩,
        ⟨⟨0, 0, 2, 1⟩, [Cell.empty, Cell.empty]⟩, ⟨0, 0, 2, 1⟩, ⟨0, 0⟩, false, 0⟩ :=
    .new .fullscreen 2 1 _ (by decide) (by decide) (by decide)
  have ht : TInv Uniseg.simple simpleEnv (fun _ => True) ⟨.fullscreen, ⟨0, 0, 2, 1⟩, ⟨⟨0, 0, 2, 1⟩, [Cell.empty, Cell.empty]⟩,
        ⟨⟨0, 0, 2, 1⟩, [Cell.empty, Cell.empty]⟩, ⟨0, 0, 2, 1⟩, ⟨0, 0⟩, false, 0⟩ :=
    (new_tinv simple_env (vp := .fullscreen) (w := 2) (h := 1) (by decide) (by decide) (by decide)
      (by decide) (by decide)).1
  obtain ⟨b, cur, hwb, hb, hcur⟩ := fillA_good _ _ ht.x ht.y ht.cur
  obtain ⟨t', ups, out, e1, _, _, _, _, e6, _⟩ := draw_spec simple_env ht.toPInv hwb hb hcur
  refine ⟨t', .draw h0 fillA ?_ _ t' out e1, ?_⟩
  · intro area b b' cur wf h
    simp only [fillA, Option.some.injEq, Prod.mk.injEq] at h
    obtain ⟨rfl, _⟩ := h
    exact ⟨⟨by simpa using wf.len, wf.width_nonneg, wf.height_nonneg⟩, rfl⟩
  · rw [e6]
    simp only [fillA, Option.some.injEq, Prod.mk.injEq] at hwb
    obtain ⟨rfl, _⟩ := hwb
    decide

/-! ## C15 -/

/-- **C15.** Whatever state the screen is in (any contents, any colours and attributes), after `Draw`
the rendition is the default one; the cursor is hidden if the frame does not ask for it, otherwise it
is visible, at the requested position (if that is on the screen). -/
theorem C15_pen_and_cursor {j : Junk} {u : Uniseg} {T : Termenv} {S : String → Prop}
    (env : Env u T S) {t : Terminal} {sc0 : Screen} {s : Bool} (h : History j u T S t sc0 s)
    (w : Widget) (hw : w.Good u T S) (sc : Screen) :
    ∃ frame cur t' out, w t.viewportArea t.cur = some (frame, cur) ∧
      t.draw u T w noFault = some (t', out, true) ∧
      (sc.feed j u out).pen = Pen.neutral ∧
      (sc.feed j u out).visible = cur.isSome ∧
      t'.hiddenCursor = cur.isNone ∧
      (∀ p, cur = some p → p.x < (sc.feed j u out).cols → p.y < (sc.feed j u out).rows →
        (sc.feed j u out).cx = p.x ∧ (sc.feed j u out).cy = p.y) := by
  obtain ⟨ht, _, _⟩ := history_inv env h
  obtain ⟨b, cur, hwb, hb, hcur⟩ := hw t.viewportArea t.cur ht.x ht.y ht.cur
  obtain ⟨t', ups, out, e1, e2, e3, e4, e5, _, _, _, _, e10, _⟩ := draw_spec env ht.toPInv hwb hb hcur
  obtain ⟨o, ho, hf⟩ := feed_commands j env _ e4 sc
  rw [e5] at ho
  injection ho with ho
  subst ho
  refine ⟨b, cur, t', out, hwb, e1, ?_⟩
  rw [hf, List.foldl_append, cursor_effect]
  cases cur with
  | none => exact ⟨drawCommands_pen j u T ups sc, rfl, e10, by intro p hp; cases hp⟩
  | some p =>
    refine ⟨drawCommands_pen j u T ups sc, rfl, e10, ?_⟩
    intro q hq hx hy
    injection hq with hq
    subst hq
    obtain ⟨h1, h2⟩ := hcur p rfl
    simp only at hx hy ⊢
    exact ⟨clampInt_id h1 (by omega), clampInt_id h2 (by omega)⟩

/-! ## C17 -/

/-- Opaque widgets: what they draw does not depend on what was in the buffer. -/
def Widget.Opaque (w : Widget) : Prop :=
  ∀ area b b', b.WF → b'.WF → b.area = area → b'.area = area → w area b = w area b'

/-- Full claim of C17 for a widget `w2` drawn after the failed `Draw` of `w1`: the widget starts from
a blank buffer. -/
def RetryStartsBlank (u : Uniseg) (T : Termenv) (t : Terminal) (w1 : Widget) : Prop :=
  ∀ faults t' out, t.draw u T w1 faults = some (t', out, false) → t'.cur.Blank t'.viewportArea

/-- **C17** (partial).  A failed `Draw` whose output was lost entirely (`n = 0`), failing before the
last backend call, can be retried with any *opaque* widget: the screen then shows exactly its frame.
Missing: widgets that do not overwrite every cell (the claim is false, below), output lost only in
part, and failures of the last backend call. -/
theorem C17_retry_opaque_partial {j : Junk} {u : Uniseg} {T : Termenv} {S : String → Prop}
    (env : Env u T S) {t : Terminal} {sc : Screen} (h : History j u T S t sc true) (w1 w2 : Widget)
    (hw1 : w1.Good u T S) (hw2 : w2.Good u T S) (ho : w2.Opaque) (faults : Nat → Option Nat)
    (hlost : ∀ k n, faults k = some n → n = 0) (h3 : faults 2 = none) (h4 : faults 3 = none)
    (t1 : Terminal) (out1 : List Char) (hd : t.draw u T w1 faults = some (t1, out1, false)) :
    out1 = [] ∧ ∃ frame cur t2 out2, w2 t.viewportArea t.cur = some (frame, cur) ∧
      t1.draw u T w2 noFault = some (t2, out2, true) ∧
      Shows u (penOf T) ((sc.feed j u out1).feed j u out2).grid frame := by
  obtain ⟨ht, hpen, hs⟩ := history_inv env h
  obtain ⟨hfit, hsh⟩ := hs rfl
  obtain ⟨b, cur, hwb, hb, hcur⟩ := hw1 t.viewportArea t.cur ht.x ht.y ht.cur
  have hst : out1 = [] ∧ t1.cur = b ∧ t1.prev = t.prev ∧ t1.viewportArea = t.viewportArea ∧
      t1.viewport = t.viewport := by
    have hf := draw_failed hwb hd
    refine ⟨?_, ?_⟩
    · simp only [Terminal.draw, hwb, Option.bind_eq_bind, Option.bind_some,
        Option.bind_eq_some_iff] at hd
      obtain ⟨⟨t0, ups⟩, _, o, _, h5⟩ := hd
      cases hf0 : faults 0 with
      | some n =>
        have := hlost 0 n hf0
        subst this
        simp [hf0] at h5
        exact h5.2
      | none =>
        simp only [hf0] at h5
        cases cur with
        | none =>
          simp only [Option.bind_eq_some_iff] at h5
          obtain ⟨o1, _, h5⟩ := h5
          cases hf1 : faults 1 with
          | some n =>
            have := hlost 1 n hf1
            subst this
            simp [hf1] at h5
            exact h5.2
          | none => simp [hf1, h3] at h5
        | some p =>
          simp only [Option.bind_eq_some_iff] at h5
          obtain ⟨o1, _, h5⟩ := h5
          cases hf1 : faults 1 with
          | some n =>
            have := hlost 1 n hf1
            subst this
            simp [hf1] at h5
            exact h5.2
          | none => simp [hf1, h3, h4, Option.bind_eq_some_iff] at h5
    · -- before the swap
      simp only [Terminal.draw, hwb, Option.bind_eq_bind, Option.bind_some,
        Option.bind_eq_some_iff] at hd
      obtain ⟨⟨t0, ups⟩, h1, o, _, h5⟩ := hd
      have f1 : t0.cur = b ∧ t0.prev = t.prev ∧ t0.viewportArea = t.viewportArea ∧
          t0.viewport = t.viewport := by
        simp only [Terminal.flush, Option.bind_eq_bind, Option.bind_eq_some_iff] at h1
        obtain ⟨ups', _, h1⟩ := h1
        injection h1 with h1
        injection h1 with h1 _
        subst h1
        cases ups'.getLast? <;> exact ⟨rfl, rfl, rfl, rfl⟩
      cases hf0 : faults 0 with
      | some n => simp [hf0] at h5; rw [← h5.1]; exact f1
      | none =>
        simp only [hf0] at h5
        cases cur with
        | none =>
          simp only [Option.bind_eq_some_iff] at h5
          obtain ⟨o1, _, h5⟩ := h5
          cases hf1 : faults 1 with
          | some n => simp [hf1] at h5; rw [← h5.1]; exact f1
          | none => simp [hf1, h3] at h5
        | some p =>
          simp only [Option.bind_eq_some_iff] at h5
          obtain ⟨o1, _, h5⟩ := h5
          cases hf1 : faults 1 with
          | some n => simp [hf1] at h5; rw [← h5.1]; exact f1
          | none => simp [hf1, h3, h4, Option.bind_eq_some_iff] at h5
  obtain ⟨rfl, s1, s2, s3, s4⟩ := hst
  refine ⟨rfl, ?_⟩
  obtain ⟨b2, cur2, hwb2, hb2, hcur2⟩ := hw2 t.viewportArea t.cur ht.x ht.y ht.cur
  have hP : PInv u T S t1 := ⟨by rw [s2, s3]; exact ht.prev, by rw [s3]; exact ht.x,
    by rw [s3]; exact ht.y, by rw [s4]; exact ht.vp⟩
  have hwb1 : w2 t1.viewportArea t1.cur = some (b2, cur2) := by
    rw [s3, s1, ho _ b t.cur hb.wf ht.cur.wf hb.area_eq ht.cur.area_eq]; exact hwb2
  have hfeed : sc.feed j u [] = sc := by simp [Screen.feed, parse, flushText]
  obtain ⟨t2, ups, out2, e1, e2, e3, e4, e5, _⟩ := draw_spec env hP hwb1 (by rw [s3]; exact hb2) hcur2
  obtain ⟨o, ho', hf⟩ := feed_commands j env _ e4 sc
  rw [e5] at ho'
  injection ho' with ho'
  subst ho'
  obtain ⟨cx, cy, g, he, hsh', _⟩ := draw_shows j env hP (by rw [s3]; exact hb2) e2 e3 sc
    (by rw [s3]; exact hfit) hpen (by rw [s2]; exact hsh)
  refine ⟨b2, cur2, t2, out2, hwb2, e1, ?_⟩
  rw [hfeed, hf, List.foldl_append, cursor_effect, he]
  cases cur2 <;> exact hsh'

/-- **C17** (partial).  After a `Draw` that failed at any point whatsoever, on a screen in any
condition (except for a rendition left non-default), a `Resize` followed by a `Draw` of an opaque widget
makes the screen show exactly its frame.  Missing: as above, and the rendition left behind when the
output stopped in the middle of a frame. -/
theorem C17_resize_retry_partial {j : Junk} {u : Uniseg} {T : Termenv} {S : String → Prop}
    (env : Env u T S) {t : Terminal} {sc0 : Screen} {s : Bool} (h : History j u T S t sc0 s)
    (w1 w2 : Widget) (hw1 : w1.Good u T S) (hw2 : w2.Good u T S) (ho : w2.Opaque)
    (faults : Nat → Option Nat) (t1 : Terminal) (out1 : List Char)
    (hd : t.draw u T w1 faults = some (t1, out1, false)) (sc : Screen)
    (hpen : sc.pen = Pen.neutral) (area : Rect) (hfit : sc.Fits area) :
    ∃ t2 out2 frame cur t3 out3 blank, blank.Blank area ∧
      t1.resize T area none = some (t2, out2, true) ∧
      w2 area blank = some (frame, cur) ∧
      t2.draw u T w2 noFault = some (t3, out3, true) ∧
      Shows u (penOf T) ((sc.feed j u out2).feed j u out3).grid frame := by
  obtain ⟨ht, _, _⟩ := history_inv env h
  obtain ⟨b, cur, hwb, hb, hcur⟩ := hw1 t.viewportArea t.cur ht.x ht.y ht.cur
  obtain ⟨_, s3, s4, _⟩ := draw_failed hwb hd
  have hvp : ∀ n, t1.viewport ≠ .inline n := by rw [s4]; exact ht.vp
  obtain ⟨c, hc1, hc2, hc3⟩ := resize_wf (b := t1.cur) hfit.width hfit.height
  obtain ⟨p, hp1, hp2, hp3⟩ := resize_wf (b := t1.prev) hfit.width hfit.height
  obtain ⟨out2, ho2⟩ := clear_some j (S := S) env
    (t := { t1 with cur := c, prev := p, viewportArea := area }) hvp hfit.y
  have hbk : p.reset.Blank area := by have := blank_reset hp3; rwa [hp2] at this
  obtain ⟨t2, ht2⟩ : ∃ t2 : Terminal, t2 =
    { t1 with cur := c, prev := p.reset, viewportArea := area, lastKnownArea := area } := ⟨_, rfl⟩
  have hr : t1.resize T area none = some (t2, out2, true) := by
    subst ht2
    cases hv : t1.viewport with
    | inline n => exact absurd hv (hvp n)
    | _ => simp [Terminal.resize, hv, Terminal.setViewportArea, hc1, hp1] at ho2 ⊢ ; simp [ho2]
  obtain ⟨b2, cur2, hwb2, hb2, hcur2⟩ := hw2 area p.reset hfit.x hfit.y hbk
  have hP : PInv u T S t2 := by
    subst ht2
    exact ⟨blank_good env hbk, hfit.x, hfit.y, hvp⟩
  have hwb1 : w2 t2.viewportArea t2.cur = some (b2, cur2) := by
    subst ht2
    simp only
    rw [ho _ c p.reset hc3 hbk.wf hc2 hbk.area_eq]; exact hwb2
  obtain ⟨_, _, cmds, hcm, how⟩ := clear_spec T ho2 rfl
  obtain ⟨o, ho', hf⟩ := feed_commands j env cmds (clear_ok T S
    (t := { t1 with cur := c, prev := p, viewportArea := area }) hvp hfit.y hcm) sc
  rw [how] at ho'
  injection ho' with ho'
  subst ho'
  obtain ⟨g, cx, cy, he, hbl⟩ := clear_effect j u T
    (t := { t1 with cur := c, prev := p, viewportArea := area }) hvp hcm sc hpen
  rw [he] at hf
  have hb2' : b2.Good u T S t2.viewportArea := by subst ht2; exact hb2
  obtain ⟨t3, ups, out3, e1, e2, e3, e4, e5, _⟩ := draw_spec env hP hwb1 hb2' hcur2
  obtain ⟨o, ho', hf'⟩ := feed_commands j env _ e4 (sc.feed j u out2)
  rw [e5] at ho'
  injection ho' with ho'
  subst ho'
  have hfit' : (sc.feed j u out2).Fits t2.viewportArea := by
    subst ht2
    rw [hf]; exact ⟨hfit.x, hfit.y, hfit.width, hfit.height, hfit.right, hfit.bottom⟩
  have hsh0 : Shows u (penOf T) (sc.feed j u out2).grid t2.prev := by
    subst ht2
    rw [hf]
    exact shows_blank env hbk (fun q hq => hbl hfit q hq)
  obtain ⟨cx, cy, g, he, hsh', _⟩ := draw_shows j env hP hb2' e2 e3 (sc.feed j u out2) hfit'
    (by rw [hf]; exact hpen) hsh0
  refine ⟨t2, out2, b2, cur2, t3, out3, p.reset, hbk, hr, hwb2, e1, ?_⟩
  rw [hf', List.foldl_append, cursor_effect, he]
  cases cur2 <;> exact hsh'

theorem fillA_opaque : fillA.Opaque := by
  intro area b b' wf wf' h h'
  have h1 := wf.len
  have h2 := wf'.len
  rw [h] at h1
  rw [h'] at h2
  have : b.content.length = b'.content.length := by omega
  simp only [fillA, h, h', this]

/-- The hypotheses of the C17 theorems are met: on a fresh 2x1 terminal the cursor command fails. -/
example (j : Junk) : ∃ t sc t1 out1, History j Uniseg.simple simpleEnv (fun _ => True) t sc true ∧
    t.draw Uniseg.simple simpleEnv fillA (fun k => if k = 1 then some 0 else none) =
      some (t1, out1, false) ∧ ¬ t1.cur.Blank t1.viewportArea := by
  let sc0 : Screen := ⟨2, 1, Grid.blank, 0, 0, Pen.neutral, true, false, Grid.blank, false⟩
  let t0 : Terminal := ⟨.fullscreen, ⟨0, 0, 2, 1⟩, ⟨⟨0, 0, 2, 1⟩, [Cell.empty, Cell.empty]⟩,
    ⟨⟨0, 0, 2, 1⟩, [Cell.empty, Cell.empty]⟩, ⟨0, 0, 2, 1⟩, ⟨0, 0⟩, false, 0⟩
  have h0 : History j Uniseg.simple simpleEnv (fun _ => True) t0 sc0 true :=
    .start .fullscreen sc0 _ (by decide)
      ⟨by decide, by decide, by decide, by decide, by decide, by decide⟩ rfl rfl
  let c : Cell := { symbol := "a", fg := .ansi 1, bg := .reset, modifier := Modifier.bold, skip := false }
  have hok : ∀ pc ∈ [(⟨c, ⟨0, 0⟩⟩ : PositionedCell), ⟨c, ⟨1, 0⟩⟩],
      pc.cell.Displayable simpleEnv (fun _ => True) ∧ 0 ≤ pc.pos.x ∧ 0 ≤ pc.pos.y := by
    have hc : c.Displayable simpleEnv (fun _ => True) := by
      obtain ⟨b, cur, hwb, hb, _⟩ := fillA_good ⟨0, 0, 2, 1⟩ t0.cur (by decide) (by decide) (history_inv simple_env h0).1.cur
      refine hb.cells ⟨0, 0⟩ c ?_
      simp only [fillA, Option.some.injEq, Prod.mk.injEq] at hwb
      rw [← hwb.1]
      decide
    intro pc hpc
    simp only [List.mem_cons, List.not_mem_nil, or_false] at hpc
    rcases hpc with rfl | rfl
    · exact ⟨hc, by decide, by decide⟩
    · exact ⟨hc, by decide, by decide⟩
  obtain ⟨o, ho, _⟩ := feed_commands j simple_env _ (drawCommands_ok simpleEnv _ _ hok) sc0
  have hd : ∃ t1 out1, t0.draw Uniseg.simple simpleEnv fillA (fun k => if k = 1 then some 0 else none) =
      some (t1, out1, false) ∧ t1.cur = ⟨⟨0, 0, 2, 1⟩, [c, c]⟩ := by
    have hw : fillA t0.viewportArea t0.cur = some (⟨⟨0, 0, 2, 1⟩, [c, c]⟩, some ⟨0, 0⟩) := rfl
    have hdf : t0.prev.diff Uniseg.simple ⟨⟨0, 0, 2, 1⟩, [c, c]⟩ =
        some [⟨c, ⟨0, 0⟩⟩, ⟨c, ⟨1, 0⟩⟩] := by decide
    simp only [Terminal.draw, hw, Option.bind_eq_bind, Option.bind_some, Terminal.flush, hdf, ho]
    exact ⟨_, _, rfl, rfl⟩
  obtain ⟨t1, out1, hd, hc⟩ := hd
  refine ⟨t0, sc0, t1, out1, h0, hd, ?_⟩
  intro hb
  rw [hc] at hb
  have := hb.cells ⟨0, 0⟩ (by rw [← hb.area_eq]; decide)
  exact absurd this (by decide)

/-- The full claim of C17 is false of the code: if `Draw` fails before the buffers are swapped (for
instance because the cursor cannot be hidden), the next widget does not start from a blank buffer but
from the frame of the failed attempt, whatever it was. -/
theorem C17_dirty_after_failure_false {j : Junk} {u : Uniseg} {T : Termenv} {S : String → Prop}
    (env : Env u T S) {t : Terminal} {sc : Screen} {s : Bool} (h : History j u T S t sc s)
    (w : Widget) (hw : w.Good u T S)
    (hne : ∀ b cur, w t.viewportArea t.cur = some (b, cur) → ¬ b.Blank t.viewportArea) :
    ¬ RetryStartsBlank u T t w := by
  intro hc
  obtain ⟨ht, _, _⟩ := history_inv env h
  obtain ⟨b, cur, hwb, hb, hcur⟩ := hw t.viewportArea t.cur ht.x ht.y ht.cur
  obtain ⟨ups, hups⟩ := diff_some (u := u) ht.prev.wf hb.wf (by rw [ht.prev.area_eq, hb.area_eq])
  obtain ⟨t', ups', out, e1, e2, e3, e4, e5, _⟩ := draw_spec env ht.toPInv hwb hb hcur
  rw [hups] at e2
  injection e2 with e2
  subst e2
  obtain ⟨o, ho, _⟩ := feed_commands j env (drawCommands T ups)
    (fun c hc => e4 c (List.mem_append_left _ hc)) sc
  have hfail : ∃ t1 out1, t.draw u T w (fun _ => some 0) = some (t1, out1, false) := by
    simp only [Terminal.draw, hwb, Option.bind_eq_bind, Option.bind_some, Terminal.flush, hups, ho]
    exact ⟨_, _, rfl⟩
  obtain ⟨t1, out1, hd⟩ := hfail
  have hbl := hc _ _ _ hd
  obtain ⟨hst, s3, _⟩ := draw_failed hwb hd
  have hcur' : t1.cur = b := by
    simp only [Terminal.draw, hwb, Option.bind_eq_bind, Option.bind_some, Terminal.flush, hups, ho,
      Option.some.injEq, Prod.mk.injEq] at hd
    rw [← hd.1]
    cases ups.getLast? <;> rfl
  rw [s3, hcur'] at hbl
  exact hne b cur hwb hbl

end Bento
