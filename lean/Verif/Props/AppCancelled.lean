import Verif.Props.AppPanic
import Verif.Props.Live

/-!
# C135: an app whose context is done does not report success; the same app cannot be run twice
-/

namespace Bento

namespace App

variable {σ μ : Type}

/-- The results that an app whose context is done may still have: an error or, after a panic, nothing at all. -/
def Result.Failed : Result σ → Prop
  | .killed _ | .error _ | .recovered none => True
  | .ok _ | .unrestored _ | .recovered (some _) => False

/-- `Run` has not yet found the context in order after the quit message (`/repo/app.go:217-228`). -/
def Unquit : Main σ → Prop
  | .lastDraw _ => False
  | .closing r _ | .returned r => r.Failed
  | _ => True

theorem update_unquit (p : Program σ μ) (s : State σ μ) (md : σ) (m : Msg μ) : Unquit (update p s md m).main := by
  unfold update
  split <;> trivial

theorem drawn_unquit (s : State σ μ) (m : σ) (d : Drawn) {next : Main σ} (hn : Unquit next) :
    Unquit (drawn s m d next none).main := by
  unfold drawn
  split
  · exact hn
  · trivial
  · trivial

theorem mainStep_unquit {p : Program σ μ} {s s' : State σ μ} {a : MainChoice} (hd : s.done = true)
    (h : Unquit s.main) (hs : mainStep p s a = some s') : Unquit s'.main := by
  unfold mainStep at hs
  split at hs
  case h_7 => split at hs <;> cases hs <;> trivial
  case h_15 =>
    rw [if_pos hd] at hs
    cases hs; trivial
  case h_16 hm => rw [hm] at h; exact h.elim
  case h_17 =>
    rename_i r stage ok hm
    rw [hm] at h
    split at hs
    · cases hs
    · cases hs; exact h
    · cases hs; exact h
    · split at hs
      · exact h.elim
      · cases hs; exact h
  all_goals first
    | (cases hs; done)
    | (cases hs; trivial; done)
    | (split at hs <;> first | (cases hs; trivial; done) | (cases hs; done))
    | (cases hs; exact drawn_unquit _ _ _ True.intro)

theorem step_unquit {p : Program σ μ} {s s' : State σ μ} {c : Choice μ} (hd : s.done = true)
    (h : Unquit s.main) (hs : step p s c = some s') : Unquit s'.main := by
  unfold step at hs
  split at hs
  · cases hs
  cases c with
  | cancel => cases hs; exact h
  | main a => exact mainStep_unquit hd h hs
  | thread i a =>
    simp only at hs
    split at hs
    · cases hs
    · rw [(threadStep_quiet hs).1]; exact h
  | message i j ok =>
    simp only at hs
    split at hs
    · split at hs
      · cases hs
      · cases hs
        unfold receive
        split
        · exact h
        · trivial
        · split
          · exact update_unquit ..
          · trivial
        · exact update_unquit ..
        · exact update_unquit ..
    · cases hs
  | error i =>
    simp only at hs
    split at hs
    · cases hs; trivial
    · cases hs
  | fromMain j =>
    simp only at hs
    split at hs
    · cases hs; trivial
    · cases hs
  | fromInit i j =>
    simp only at hs
    split at hs
    · rename_i c _ _
      cases hs
      exact h
    · cases hs

theorem runFrom_unquit {p : Program σ μ} : ∀ (cs : List (Choice μ)) (s s' : State σ μ),
    s.done = true → Unquit s.main → runFrom p s cs = some s' → Unquit s'.main := by
  intro cs
  induction cs with
  | nil =>
    intro s s' _ h hs
    cases hs
    exact h
  | cons c cs ih =>
    intro s s' hd h hs
    simp only [runFrom] at hs
    split at hs
    · cases hs
    · rename_i s1 h1
      exact ih s1 s' (step_done h1 hd) (step_unquit hd h h1) hs

/-- `Run` has cancelled the context by the time it is past the first stage of `shutdown`; it returns a model without
`ErrKilled` or another error only that way. -/
def Cancelled (s : State σ μ) : Prop :=
  match s.main with
  | .closing _ .cancel => True
  | .closing _ _ => s.done = true
  | .returned (.ok _) | .returned (.unrestored _) | .returned (.recovered _) => s.done = true
  | _ => True

theorem shutdown_cancels {s s' : State σ μ} {stage : Stage} {ok : Bool} {c : Closed}
    (h : shutdown s stage ok = some (s', c)) (hd : stage = .cancel ∨ s.done = true) :
    s'.done = true ∧ c ≠ .more .cancel := by
  cases stage <;> simp only [shutdown] at h
  case cancel => cases h; exact ⟨rfl, by simp⟩
  all_goals
    have hd : s.done = true := by simpa using hd
    split at h <;> cases h <;> exact ⟨hd, by simp⟩

theorem update_cancelled (p : Program σ μ) (s : State σ μ) (md : σ) (m : Msg μ) : Cancelled (update p s md m) := by
  unfold update
  split <;> trivial

theorem drawn_cancelled (s : State σ μ) (m : σ) (d : Drawn) {next : Main σ} (r : Option σ)
    (hn : ∀ t : State σ μ, t.main = next → Cancelled t) : Cancelled (drawn s m d next r) := by
  unfold drawn
  split
  · exact hn _ rfl
  · trivial
  · trivial

theorem mainStep_cancelled {p : Program σ μ} {s s' : State σ μ} {a : MainChoice}
    (h : Cancelled s) (hs : mainStep p s a = some s') : Cancelled s' := by
  unfold mainStep at hs
  split at hs
  case h_7 => split at hs <;> cases hs <;> trivial
  case h_17 =>
    rename_i r stage ok hm
    unfold Cancelled at h
    rw [hm] at h
    have hd : stage = .cancel ∨ s.done = true := by
      cases stage <;> first | exact .inl rfl | exact .inr h
    split at hs
    · cases hs
    · rename_i s1 st he
      have := shutdown_cancels he hd
      cases hs
      cases st <;> first | exact this.1 | exact absurd rfl this.2
    · rename_i s1 he
      have := shutdown_cancels he hd
      cases hs
      cases r <;> first | exact this.1 | trivial
    · rename_i s1 he
      have := shutdown_cancels he hd
      split at hs
      · cases hs; exact this.1
      · cases hs
        cases r <;> first | exact this.1 | trivial
  all_goals first
    | (cases hs; done)
    | (cases hs; trivial; done)
    | (split at hs <;> first | (cases hs; trivial; done) | (cases hs; done))
    | (cases hs; exact drawn_cancelled _ _ _ _ (fun t ht => by simp [Cancelled, ht]))

theorem cancelled_of {s s' : State σ μ} (h : Cancelled s) (hm : s'.main = s.main)
    (hd : s.done = true → s'.done = true) : Cancelled s' := by
  unfold Cancelled at h ⊢
  rw [hm]
  split <;> first | trivial | (simp_all; done)

theorem step_cancelled {p : Program σ μ} {s s' : State σ μ} {c : Choice μ}
    (h : Cancelled s) (hs : step p s c = some s') : Cancelled s' := by
  have hd : s.done = true → s'.done = true := step_done hs
  unfold step at hs
  split at hs
  · cases hs
  cases c with
  | cancel => cases hs; exact cancelled_of h rfl hd
  | main a => exact mainStep_cancelled h hs
  | thread i a =>
    simp only at hs
    split at hs
    · cases hs
    · exact cancelled_of h (threadStep_quiet hs).1 hd
  | message i j ok =>
    simp only at hs
    split at hs
    · split at hs
      · cases hs
      · cases hs
        revert hd
        unfold receive
        split
        · exact fun hd => cancelled_of h rfl hd
        · exact fun _ => trivial
        · split
          · exact fun _ => update_cancelled ..
          · exact fun _ => trivial
        · exact fun _ => update_cancelled ..
        · exact fun _ => update_cancelled ..
    · cases hs
  | error i =>
    simp only at hs
    split at hs
    · cases hs; trivial
    · cases hs
  | fromMain j =>
    simp only at hs
    split at hs
    · cases hs; trivial
    · cases hs
  | fromInit i j =>
    simp only at hs
    split at hs
    · cases hs
      exact cancelled_of h rfl hd
    · cases hs

theorem runFrom_cancelled {p : Program σ μ} : ∀ (cs : List (Choice μ)) (s s' : State σ μ),
    Cancelled s → runFrom p s cs = some s' → Cancelled s' := by
  intro cs
  induction cs with
  | nil =>
    intro s s' h hs
    cases hs
    exact h
  | cons c cs ih =>
    intro s s' h hs
    simp only [runFrom] at hs
    split at hs
    · cases hs
    · rename_i s1 h1
      exact ih s1 s' (step_cancelled h h1) hs

/-- `Run` has not yet looked at the context after a quit message, is not shutting down and has not returned. -/
def Working : Main σ → Prop
  | .lastDraw _ | .closing _ _ | .returned _ => False
  | _ => True

/-- What another `Run` of the same app begins with: everything is made anew in `App.Run` (`/repo/app.go:119-151`) but
the context. -/
def State.again (s : State σ μ) : State σ μ := { State.start σ μ with done := s.done }

end App

open App in
/-- **C135.** If the context is done while `Run` is at work, `Run` does not return a model without an error, whatever
comes afterwards, a quit message included. -/
theorem C135_cancelled {σ μ : Type} (p : Program σ μ) (cs ds : List (Choice μ)) (s s' : State σ μ) (r : Result σ)
    (_h : run p cs = some s) (hw : Working s.main) (hd : s.done = true) (h' : runFrom p s ds = some s')
    (hr : s'.main = .returned r) : (∃ m, r = .killed m) ∨ (∃ m, r = .error m) ∨ r = .recovered none := by
  have hu : Unquit s.main := by
    revert hw
    cases s.main <;> first | exact fun _ => True.intro | exact False.elim
  have := runFrom_unquit ds s s' hd hu h'
  rw [hr] at this
  match r with
  | .killed m => exact .inl ⟨m, rfl⟩
  | .error m => exact .inr (.inl ⟨m, rfl⟩)
  | .recovered none => exact .inr (.inr rfl)
  | .ok _ | .unrestored _ | .recovered (some _) => exact this.elim

open App in
/-- **C135.** … and if the code of the app does not panic, it returns an error: the caller always gets to know. -/
theorem C135_reported {σ μ : Type} (p : Program σ μ) (hp : p.Calm) (cs ds : List (Choice μ)) (s s' : State σ μ)
    (r : Result σ) (h : run p cs = some s) (hc : CalmDraws (cs ++ ds)) (hw : Working s.main) (hd : s.done = true)
    (h' : runFrom p s ds = some s') (hr : s'.main = .returned r) : r.withoutError = none := by
  have hn : NotRecovering s.main := by
    revert hw
    cases s.main <;> first | exact fun _ => True.intro | exact False.elim
  have hn' := runFrom_calm hp ds s s' (fun hm => hc (List.mem_append_right _ hm)) hn h'
  rcases C135_cancelled p cs ds s s' r h hw hd h' hr with ⟨m, rfl⟩ | ⟨m, rfl⟩ | rfl
  · rfl
  · rfl
  · rw [hr] at hn'
    exact hn'.elim

open App in
/-- **C135.** An app that has once returned a model without an error has spent its context … -/
theorem C135_spent {σ μ : Type} (p : Program σ μ) (cs : List (Choice μ)) (s : State σ μ) (r : Result σ)
    (m : Option σ) (h : run p cs = some s) (hr : s.main = .returned r) (hm : r.withoutError = some m) :
    s.done = true := by
  have := runFrom_cancelled cs (State.start σ μ) s (by exact True.intro) h
  unfold Cancelled at this
  rw [hr] at this
  match r with
  | .ok _ | .recovered _ => exact this
  | .killed _ | .error _ | .unrestored _ => cases hm

open App in
/-- **C135.** … so that the same app, run again, does not return a model without an error any more: of two runs one
after the other at most the first succeeds. -/
theorem C135_again {σ μ : Type} (p p' : Program σ μ) (cs ds : List (Choice μ)) (s s' : State σ μ) (r r' : Result σ)
    (m : Option σ) (h : run p cs = some s) (hr : s.main = .returned r) (hm : r.withoutError = some m)
    (h' : runFrom p' s.again ds = some s') (hr' : s'.main = .returned r') :
    (∃ m, r' = .killed m) ∨ (∃ m, r' = .error m) ∨ r' = .recovered none := by
  have hd := C135_spent p cs s r m h hr hm
  have := runFrom_unquit ds s.again s' (by simpa [State.again] using hd) (by exact True.intro) h'
  rw [hr'] at this
  match r' with
  | .killed m => exact .inl ⟨m, rfl⟩
  | .error m => exact .inr (.inl ⟨m, rfl⟩)
  | .recovered none => exact .inr (.inr rfl)
  | .ok _ | .unrestored _ | .recovered (some _) => exact this.elim

open App in
/-- The app of `quits` is cancelled while it draws; the quit message is still taken, and `ErrKilled` is returned. -/
example : ∃ s s', run (demo none) (startup ++ [.thread 0 (.input 4), .message 0 0 true, .fromMain 3, .cancel]) = some s ∧
    Working s.main ∧ s.done = true ∧
    runFrom (demo none) s [.main (.drawn (.ok true)), .thread 4 (.go 0), .message 4 0 true, .main (.op true)] = some s' ∧
    s'.main = .returned (.killed 1) := by
  refine ⟨_, _, rfl, ?_, rfl, rfl, rfl⟩
  exact True.intro

open App in
/-- Without the cancellation it succeeds; run again, it is killed before the first message. -/
example : ∃ s s', run (demo none) quits = some s ∧ s.main = .returned (.ok 1) ∧
    runFrom (demo none) s.again (startup ++ [.main (.op true)]) = some s' ∧ s'.main = .returned (.killed 0) := by
  refine ⟨_, _, rfl, rfl, rfl, rfl⟩

open App in
/-- The example program does not panic. -/
example : (demo none).Calm ∧ CalmDraws (quits ++ startup) := by
  refine ⟨⟨by simp [demo], fun md m => by simp [demo]⟩, ?_⟩
  unfold CalmDraws
  decide

end Bento
