import Verif.Props.Live

/-!
# Only the models that messages lead to matter

C105 once more, for programs that can draw the models that messages lead to, but not every value of the type of their
models.
-/

namespace Bento

namespace App

section

variable {σ μ : Type} {p : Program σ μ} {d : Display σ}

theorem drawing_reached {cs : List (Choice μ)} {s : State σ μ} (h : run p cs = some s) {m : σ}
    (hm : p.drawing s.main = some m) : ∃ t, model p p.start t = some m := by
  have hf := run_follows h
  cases hmain : s.main with
  | draw0 =>
    rw [hmain] at hm
    cases hm
    exact ⟨[], rfl⟩
  | draw m' =>
    rw [hmain] at hm hf
    cases hm
    obtain ⟨t₀, x, md, c, _, h2, h3, h4, _⟩ := hf
    refine ⟨t₀ ++ [some x], ?_⟩
    rw [model_append p [some x] t₀ p.start md h3, model_one p md x h2, h4]
  | lastDraw m' =>
    rw [hmain] at hm hf
    cases hm
    obtain ⟨t₀, _, h2, _⟩ := hf
    exact ⟨t₀, h2⟩
  | _ => rw [hmain] at hm; cases hm

/-- Views that agree on these models have the same runs. -/
theorem live_view {view : σ → Widget} (hv : ∀ t m, model p p.start t = some m → view m = d.view m)
    {s : State σ μ} {y : Tty} {g : Grid} (h : Live p d s y g) : Live p { d with view := view } s y g := by
  induction h with
  | start sc t hnew hc hr hp ha => exact .start sc t hnew hc hr hp ha
  | window _ cols rows cx cy grid other ih => exact .window ih cols rows cx cy grid other
  | @step s y g h c s' hs y' hy ih =>
    refine .step ih c s' hs y' ?_
    match c with
    | .main (.drawn (.ok hidden)) =>
      obtain ⟨m, t, out, h1, h2, h3⟩ := hy
      obtain ⟨cs, hrun⟩ := live_run h
      obtain ⟨ms, hms⟩ := drawing_reached hrun h1
      refine ⟨m, t, out, h1, ?_, h3⟩
      show y.term.draw d.uniseg d.termenv (view m) noFault = _
      rw [hv ms m hms]
      exact h2
    | .main (.drawn .panics) => exact hy
    | .main (.drawn .error) => exact hy
    | .main (.op ok) => exact hy
    | .message i j ok => exact hy
    | .thread i (.op ok) => exact hy
    | .thread i (.go k) => exact hy
    | .thread i (.member j k) => exact hy
    | .thread i .giveUp => exact hy
    | .thread i (.memberGiveUp j) => exact hy
    | .thread i (.input m) => exact hy
    | .thread i .eof => exact hy
    | .thread i .inputError => exact hy
    | .thread i (.sized w v) => exact hy
    | .thread i .unsized => exact hy
    | .cancel => exact hy
    | .error i => exact hy
    | .fromMain j => exact hy
    | .fromInit i j => exact hy

end

end App

open App in
/-- **C105.** As `C105_waiting`, but only the models that messages lead to have to be drawn without a panic. -/
theorem C105_waiting_reached {σ μ : Type} (p : Program σ μ) (d : Display σ) (S : String → Prop)
    (env : Env d.uniseg d.termenv S)
    (hv : ∀ t m, model p p.start t = some m → (d.view m).Good d.uniseg d.termenv S) (s : App.State σ μ) (y : Tty)
    (g : Grid) (h : Live p d s y g) (hk : y.known = true) (hd : s.done = false ∨ ∀ c k, p.call c k ≠ .panics)
    (m : σ) (hm : s.main = .select m) :
    model p p.start (taken s.trace) = some m ∧
    ∃ (blank frame : Buffer) (cur : Option Position), blank.Blank ⟨0, 0, y.screen.cols, y.screen.rows⟩ ∧
      d.view m ⟨0, 0, y.screen.cols, y.screen.rows⟩ blank = some (frame, cur) ∧
      Shows d.uniseg (penOf d.termenv) y.screen.grid frame ∧
      y.screen.visible = cur.isSome ∧
      (∀ q, cur = some q → q.x < y.screen.cols → q.y < y.screen.rows → y.screen.cx = q.x ∧ y.screen.cy = q.y) ∧
      y.screen.alt = true ∧ y.screen.other = g := by
  classical
  let view : σ → Widget := fun m => if (d.view m).Good d.uniseg d.termenv S then d.view m else fun _ b => some (b, none)
  have he : ∀ t m, model p p.start t = some m → view m = d.view m := fun t m ht => if_pos (hv t m ht)
  have hg : ∀ m, (view m).Good d.uniseg d.termenv S := by
    intro m
    by_cases hg : (d.view m).Good d.uniseg d.termenv S
    · rw [show view m = d.view m from if_pos hg]
      exact hg
    · rw [show view m = fun _ b => some (b, none) from if_neg hg]
      exact fun area b _ _ hb => ⟨b, none, rfl, blank_good env hb, fun q hq => (by cases hq)⟩
  obtain ⟨h1, h2⟩ := C105_waiting p { d with view := view } S env hg s y g (live_view he h) hk hd m hm
  refine ⟨h1, ?_⟩
  dsimp only at h2
  rw [he _ m h1] at h2
  exact h2

end Bento
