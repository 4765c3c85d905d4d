import Verif.Props.AppExit

/-!
# C88: `Run` without an error
-/

namespace Bento

namespace App

variable {σ μ : Type}

/-- The model that `Run` returns if it returns no error; the inner `none` is Go's nil. -/
def Result.withoutError : Result σ → Option (Option σ)
  | .ok m => some (some m)
  | .recovered m => some m
  | .killed _ | .error _ | .unrestored _ => none

/-- The code of the app does not panic: neither `Init` nor `Update` … -/
def Program.Calm (p : Program σ μ) : Prop := p.init ≠ none ∧ ∀ md m, p.update md m ≠ none

/-- … nor, in this execution, the drawing. -/
def CalmDraws (cs : List (Choice μ)) : Prop := .main (.drawn .panics) ∉ cs

/-- `Run` is not on its way out of a panic. -/
def NotRecovering : Main σ → Prop
  | .closing (.recovered _) _ | .returned (.recovered _) => False
  | _ => True

theorem update_calm {p : Program σ μ} (hp : p.Calm) (s : State σ μ) (md : σ) (m : Msg μ) :
    NotRecovering (update p s md m).main := by
  unfold update
  split
  · rename_i h
    exact absurd h (hp.2 md m)
  · trivial

theorem drawn_calm (s : State σ μ) (m : σ) {d : Drawn} (hd : d ≠ .panics) {next : Main σ}
    (hn : NotRecovering next) (r : Option σ) : NotRecovering (drawn s m d next r).main := by
  unfold drawn
  split
  · exact hn
  · trivial
  · exact absurd rfl hd

theorem mainStep_calm {p : Program σ μ} (hp : p.Calm) {s s' : State σ μ} {a : MainChoice}
    (ha : a ≠ .drawn .panics) (h : NotRecovering s.main) (hs : mainStep p s a = some s') :
    NotRecovering s'.main := by
  have hd : ∀ d, a = .drawn d → d ≠ .panics := fun d e e' => ha (e' ▸ e)
  unfold mainStep at hs
  split at hs
  case h_7 =>
    split at hs
    · rename_i hi
      exact absurd hi hp.1
    · cases hs; trivial
    · cases hs; trivial
  case h_17 =>
    rename_i r stage ok hm
    rw [hm] at h
    split at hs
    · cases hs
    · cases hs
      cases r <;> trivial
    · cases hs
      cases r <;> trivial
    · split at hs
      · cases hs; trivial
      · cases hs
        cases r <;> trivial
  all_goals first
    | (cases hs; done)
    | (cases hs; trivial; done)
    | (split at hs <;> first | (cases hs; trivial; done) | (cases hs; done))
    | (cases hs; exact drawn_calm _ _ (hd _ rfl) (by exact True.intro) _)

theorem step_calm {p : Program σ μ} (hp : p.Calm) {s s' : State σ μ} {c : Choice μ}
    (hc : c ≠ .main (.drawn .panics)) (h : NotRecovering s.main) (hs : step p s c = some s') :
    NotRecovering s'.main := by
  unfold step at hs
  split at hs
  · cases hs
  cases c with
  | cancel => cases hs; exact h
  | main a => exact mainStep_calm hp (fun e => hc (e ▸ rfl)) h hs
  | thread i a =>
    simp only at hs
    split at hs
    · cases hs
    · rw [(threadStep_quiet hs).1]; exact h
  | message i j ok =>
    simp only at hs
    split at hs
    · rename_i md t h1 h2
      split at hs
      · cases hs
      · rename_i m member t' heq
        cases hs
        unfold receive
        split
        · exact h
        · trivial
        · split
          · exact update_calm hp ..
          · trivial
        · exact update_calm hp ..
        · exact update_calm hp ..
    · cases hs
  | error i =>
    simp only at hs
    split at hs
    · cases hs; trivial
    · cases hs
  | fromMain j =>
    simp only at hs
    split at hs
    · cases hs; trivial
    · cases hs
  | fromInit i j =>
    simp only at hs
    split at hs
    · cases hs
      exact h
    · cases hs

theorem runFrom_calm {p : Program σ μ} (hp : p.Calm) : ∀ (cs : List (Choice μ)) (s s' : State σ μ),
    CalmDraws cs → NotRecovering s.main → runFrom p s cs = some s' → NotRecovering s'.main := by
  intro cs
  induction cs with
  | nil =>
    intro s s' _ h hs
    cases hs
    exact h
  | cons c cs ih =>
    intro s s' hd h hs
    simp only [runFrom] at hs
    split at hs
    · cases hs
    · rename_i s1 h1
      refine ih s1 s' (fun hm => hd (List.mem_cons_of_mem _ hm)) (step_calm hp ?_ h h1) hs
      intro e
      exact hd (e ▸ List.mem_cons_self)

end App

open App in
/-- **C88.** If `Run` returns a model and no error, the quit message was the last one taken, and the model is what
`Update` had made of the messages before it. -/
theorem C88_quit {σ μ : Type} (p : Program σ μ) (cs : List (Choice μ)) (s : App.State σ μ) (r : Result σ) (m : σ)
    (h : run p cs = some s) (hr : s.main = .returned r) (he : r.withoutError = some (some m)) :
    ∃ t, taken s.trace = t ++ [some .quit] ∧ model p p.start t = some m := by
  have := run_follows h
  rw [hr] at this
  obtain ⟨_, this⟩ := this
  match r with
  | .ok m' => cases he; exact this.1
  | .recovered (some m') => cases he; exact this.1
  | .recovered none => cases he
  | .unrestored m' => cases he
  | .killed m' => cases he
  | .error m' => cases he

open App in
example : ((run (demo none) quits).map fun s => s.main) = some (.returned (.ok 1)) ∧
    (Result.ok 1).withoutError = some (some 1) := by decide +kernel

open App in
/-- **C88 (partial).** If neither `Init` nor `Update` nor the drawing panics, `Run` without an error returns a
model, after the quit message. Missing: panics (`C88_panic_false`). -/
theorem C88_calm_partial {σ μ : Type} (p : Program σ μ) (hp : p.Calm) (cs : List (Choice μ)) (hcs : CalmDraws cs)
    (s : App.State σ μ) (r : Result σ) (v : Option σ)
    (h : run p cs = some s) (hr : s.main = .returned r) (he : r.withoutError = some v) :
    ∃ m, v = some m ∧ r = .ok m ∧ ∃ t, taken s.trace = t ++ [some .quit] ∧ model p p.start t = some m := by
  have hn := runFrom_calm hp cs (.start σ μ) s hcs (by exact True.intro) h
  rw [hr] at hn
  match r with
  | .ok m => cases he; exact ⟨m, rfl, rfl, C88_quit p cs s _ m h hr rfl⟩
  | .recovered _ => exact hn.elim
  | .unrestored m' => cases he
  | .killed m' => cases he
  | .error m' => cases he

namespace App

/-- A program whose `Update` panics. -/
def panicking : Program Nat Nat := { demo none with update := fun _ _ => none }

/-- It starts, takes one message, panics, and `Run` returns. -/
def panics : List (Choice Nat) := startup ++ [.thread 0 (.input 1), .message 0 0 true, .main (.op true),
  .thread 2 .giveUp, .thread 3 .giveUp, .main (.op true), .main (.op true), .main (.op true), .main (.op true),
  .main (.op true)]

end App

open App in
/-- **C88 (negation).** When `Update` panics, `Run` returns a nil model and no error, although the app did not
quit. -/
theorem C88_panic_false : ((run panicking panics).map fun s => (s.main, taken s.trace)) =
      some (.returned (.recovered none), [some (.user 1)]) ∧
    (Result.recovered (none : Option Nat)).withoutError = some none := by
  decide +kernel

open App in
/-- **C88 (negation).** When the last frame panics, `Run` returns the model and no error. -/
theorem C88_last_draw_false : ((run (demo none) (startup ++ [.thread 0 (.input 4), .message 0 0 true, .fromMain 3,
      .main (.drawn (.ok true)), .thread 4 (.go 0), .message 4 0 true, .main (.op true), .main (.drawn .panics),
      .main (.op true), .thread 2 .giveUp, .thread 3 .giveUp, .main (.op true), .main (.op true), .main (.op true),
      .main (.op true), .main (.op true)])).map fun s => s.main) = some (.returned (.recovered (some 1))) ∧
    (Result.recovered (some 1)).withoutError = some (some 1) := by
  decide +kernel

open App in
/-- The program of the examples does not panic in `Init` and `Update`; the run below does not panic while drawing,
and `Run` returns without an error. -/
example : (demo none).Calm ∧ CalmDraws (startup ++ [.thread 0 (.input 4), .message 0 0 true, .fromMain 3,
      .main (.drawn (.ok true)), .thread 4 (.go 0), .message 4 0 true, .main (.op true), .main (.drawn (.ok true)),
      .main (.op true), .thread 2 .giveUp, .thread 3 .giveUp, .main (.op true), .main (.op true), .main (.op true),
      .main (.op true), .main (.op true)]) ∧
    ((run (demo none) (startup ++ [.thread 0 (.input 4), .message 0 0 true, .fromMain 3,
      .main (.drawn (.ok true)), .thread 4 (.go 0), .message 4 0 true, .main (.op true), .main (.drawn (.ok true)),
      .main (.op true), .thread 2 .giveUp, .thread 3 .giveUp, .main (.op true), .main (.op true), .main (.op true),
      .main (.op true), .main (.op true)])).map fun s => s.main) = some (.returned (.ok 1)) := by
  refine ⟨⟨by decide, fun _ _ => by simp [demo]⟩, ?_, by decide +kernel⟩
  unfold CalmDraws
  simp [startup]

end Bento
