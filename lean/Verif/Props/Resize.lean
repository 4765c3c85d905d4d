import Verif.Spec.Resize

/-!
# C134 — the app gets to know the last size of its window
-/

namespace Bento

namespace Resize

theorem run_append (as bs : List Step) : ∀ s, run s (as ++ bs) = (run s as).bind (run · bs) := by
  induction as with
  | nil => intro s; rfl
  | cons c as ih =>
    intro s
    simp only [List.cons_append, run]
    cases step s c with
    | none => rfl
    | some s => exact ih s

theorem run_invariant {P : State → Prop} {Q : Step → Prop} (h : ∀ s c s', P s → Q c → step s c = some s' → P s') :
    ∀ (cs : List Step) (s s' : State), (∀ c ∈ cs, Q c) → P s → run s cs = some s' → P s' := by
  intro cs
  induction cs with
  | nil => intro s s' _ hp hr; cases hr; exact hp
  | cons c cs ih =>
    intro s s' hq hp hr
    simp only [run] at hr
    cases hs : step s c with
    | none => rw [hs] at hr; cases hr
    | some s1 =>
      rw [hs] at hr
      exact ih s1 s' (fun c hc => hq c (List.mem_cons_of_mem _ hc)) (h s c s1 hp (hq c List.mem_cons_self) hs) hr

/-- How much the app still has to do. -/
def work (s : State) : Nat :=
  (match s.once with | .fresh => 2 | .sending _ => 1 | .finished => 0) +
  (match s.listener with | .fresh => 1 | .waiting => 0 | .checking => 2 | .sending _ => 1) + if s.signal then 3 else 0

theorem step_work {s s' : State} {c : Step} (hc : ∀ w, c ≠ .window w) (h : step s c = some s') : work s' < work s := by
  obtain ⟨window, signal, once, listener, app⟩ := s
  cases c with
  | window w => exact absurd rfl (hc w)
  | register =>
    simp only [step] at h
    split at h
    · rename_i hl; subst hl; cases h; simp [work]
    · cases h
  | take =>
    simp only [step] at h
    split at h
    · rename_i hl; obtain ⟨rfl, rfl⟩ := hl; cases h; simp [work]
    · cases h
  | onceAsks ok =>
    simp only [step] at h
    split at h
    · rename_i hl; subst hl; cases h; cases ok <;> simp [work] <;> omega
    · cases h
  | listenerAsks ok =>
    simp only [step] at h
    split at h
    · rename_i hl; subst hl; cases h; cases ok <;> simp [work] <;> omega
    · cases h
  | onceSends =>
    simp only [step] at h
    split at h
    · cases h; simp [work]
    · cases h
  | listenerSends =>
    simp only [step] at h
    split at h
    · cases h; simp [work]
    · cases h

/-- The app knows the size of the window, or is on the way to know it. -/
def Knowing (s : State) : Prop :=
  s.listener ≠ .fresh ∧ s.once = .finished ∧
  (s.signal = true ∨ s.listener = .checking ∨ s.listener = .sending s.window ∨
    s.listener = .waiting ∧ s.app = s.window)

theorem listening_stays {s s' : State} {c : Step} (hp : Listening s) (h : step s c = some s') : Listening s' := by
  obtain ⟨window, signal, once, listener, app⟩ := s
  obtain ⟨h1, h2⟩ := hp
  simp only at h1 h2
  subst h2
  cases c with
  | window w => cases h; exact ⟨h1, rfl⟩
  | register =>
    simp only [step] at h
    split at h
    · rename_i hl; exact absurd hl h1
    · cases h
  | take =>
    simp only [step] at h
    split at h
    · cases h; exact ⟨by simp, rfl⟩
    · cases h
  | onceAsks ok => simp [step] at h
  | listenerAsks ok =>
    simp only [step] at h
    split at h
    · cases h; exact ⟨by cases ok <;> simp, rfl⟩
    · cases h
  | onceSends => simp [step] at h
  | listenerSends =>
    simp only [step] at h
    split at h
    · cases h; exact ⟨by simp, rfl⟩
    · cases h

theorem knowing_stays (s : State) (c : Step) (s' : State) (hp : Knowing s) (hc : c ≠ .listenerAsks false)
    (h : step s c = some s') : Knowing s' := by
  obtain ⟨h1, h2, h3⟩ := hp
  obtain ⟨g1, g2⟩ := listening_stays ⟨h1, h2⟩ h
  refine ⟨g1, g2, ?_⟩
  obtain ⟨window, signal, once, listener, app⟩ := s
  simp only at h1 h2 h3
  cases c with
  | window w => cases h; left; simp [h1]
  | register =>
    simp only [step] at h
    split at h
    · rename_i hl; exact absurd hl h1
    · cases h
  | take =>
    simp only [step] at h
    split at h
    · cases h; exact .inr (.inl rfl)
    · cases h
  | onceAsks ok => subst h2; simp [step] at h
  | listenerAsks ok =>
    cases ok with
    | false => exact absurd rfl hc
    | true =>
      simp only [step] at h
      split at h
      · cases h; exact .inr (.inr (.inl rfl))
      · cases h
  | onceSends => subst h2; simp [step] at h
  | listenerSends =>
    simp only [step] at h
    split at h
    · cases h
      rcases h3 with h3 | h3 | h3 | ⟨h3, _⟩
      · exact .inl h3
      · cases h3
      · cases h3; exact .inr (.inr (.inr ⟨rfl, rfl⟩))
      · cases h3
    · cases h

/-- All sizes in the app are that of the window. -/
def Same (s : State) : Prop :=
  s.app = s.window ∧ (∀ w, s.once = .sending w → w = s.window) ∧ ∀ w, s.listener = .sending w → w = s.window

theorem same_stays (s : State) (c : Step) (s' : State) (hp : Same s) (hc : ∀ w, c ≠ .window w)
    (h : step s c = some s') : Same s' := by
  obtain ⟨window, signal, once, listener, app⟩ := s
  obtain ⟨h1, h2, h3⟩ := hp
  simp only at h1 h2 h3
  cases c with
  | window w => exact absurd rfl (hc w)
  | register =>
    simp only [step] at h
    split at h
    · cases h; exact ⟨h1, h2, by simp⟩
    · cases h
  | take =>
    simp only [step] at h
    split at h
    · cases h; exact ⟨h1, h2, by simp⟩
    · cases h
  | onceAsks ok =>
    simp only [step] at h
    split at h
    · cases h
      refine ⟨h1, fun w hw => ?_, h3⟩
      cases ok
      · cases hw
      · cases hw; rfl
    · cases h
  | listenerAsks ok =>
    simp only [step] at h
    split at h
    · cases h
      refine ⟨h1, h2, fun w hw => ?_⟩
      cases ok
      · cases hw
      · cases hw; rfl
    · cases h
  | onceSends =>
    simp only [step] at h
    split at h
    · rename_i w; cases h; exact ⟨h2 w rfl, by simp, h3⟩
    · cases h
  | listenerSends =>
    simp only [step] at h
    split at h
    · rename_i w; cases h; exact ⟨h3 w rfl, h2, by simp⟩
    · cases h

end Resize

open Resize

/-- While the window does not change, the app takes a bounded number of steps and then is settled, whatever happened
before: it can always get there, and cannot go on for longer. -/
theorem C134_settles (s : Resize.State) :
    (∃ cs s', Still cs ∧ Answered cs ∧ run s cs = some s' ∧ Settled s') ∧
      ∀ cs s', Still cs → run s cs = some s' → cs.length ≤ 7 := by
  constructor
  · generalize hn : work s = n
    induction n using Nat.strongRecOn generalizing s with
    | _ n ih =>
      by_cases hs : Settled s
      · exact ⟨[], s, by simp [Still], by simp [Answered], rfl, hs⟩
      · have : ∃ c s', (∀ w, c ≠ .window w) ∧ c ≠ .onceAsks false ∧ c ≠ .listenerAsks false ∧ step s c = some s' := by
          refine Classical.byContradiction fun hno => hs fun c hc => ?_
          have key : ∀ c : Step, (∀ w, c ≠ .window w) → c ≠ .onceAsks false → c ≠ .listenerAsks false →
              step s c = none := by
            intro c h1 h2 h3
            cases h : step s c with
            | none => rfl
            | some s' => exact absurd ⟨c, s', h1, h2, h3, h⟩ hno
          by_cases h2 : c = .onceAsks false
          · have := key (.onceAsks true) (by simp) (by simp) (by simp)
            subst h2
            simp only [step] at this ⊢
            split at this
            · cases this
            · rename_i h; rw [if_neg h]
          · by_cases h3 : c = .listenerAsks false
            · have := key (.listenerAsks true) (by simp) (by simp) (by simp)
              subst h3
              simp only [step] at this ⊢
              split at this
              · cases this
              · rename_i h; rw [if_neg h]
            · exact key c hc h2 h3
        obtain ⟨c, s1, h1, h2, h3, h4⟩ := this
        obtain ⟨cs, s', k1, k2, k3, k4⟩ := ih (work s1) (by rw [← hn]; exact step_work h1 h4) s1 rfl
        refine ⟨c :: cs, s', ?_, ⟨?_, ?_⟩, ?_, k4⟩
        · intro w hw
          rcases List.mem_cons.1 hw with h | h
          · exact h1 w h.symm
          · exact k1 w h
        · intro hw
          rcases List.mem_cons.1 hw with h | h
          · exact h2 h.symm
          · exact k2.1 h
        · intro hw
          rcases List.mem_cons.1 hw with h | h
          · exact h3 h.symm
          · exact k2.2 h
        · simp only [run, h4]
          exact k3
  · intro cs s' hst hr
    have key : ∀ (cs : List Step) (s s' : Resize.State), Still cs → run s cs = some s' → cs.length + work s' ≤ work s := by
      intro cs
      induction cs with
      | nil => intro s s' _ h; cases h; simp
      | cons c cs ih =>
        intro s s' hst hr
        simp only [run] at hr
        cases hs : step s c with
        | none => rw [hs] at hr; cases hr
        | some s1 =>
          rw [hs] at hr
          have h1 := step_work (fun w h => hst w (by rw [h]; exact List.mem_cons_self)) hs
          have h2 := ih s1 s' (fun w h => hst w (List.mem_cons_of_mem _ h)) hr
          simp only [List.length_cons]
          omega
    have h1 := key cs s s' hst hr
    have h2 : work s ≤ 7 := by
      unfold work
      cases s.once <;> cases s.listener <;> cases s.signal <;> simp
    omega

/-- **C134.** Once the app listens, it gets to know the size: when the window has changed, and the app has settled
after that, the app has the size of the window. Missing: changes while the app starts. -/
theorem C134_last_size_partial (s : Resize.State) (hl : Listening s) (before after : List Step) (w : Resize.Size)
    (s' : Resize.State) (hr : run s (before ++ .window w :: after) = some s') (ha : Answered after) (hs : Settled s') :
    s'.app = s'.window := by
  rw [run_append] at hr
  cases h1 : run s before with
  | none => rw [h1] at hr; cases hr
  | some s1 =>
    rw [h1] at hr
    simp only [Option.bind_some] at hr
    have hl1 : Listening s1 := run_invariant (P := Listening) (Q := fun _ => True)
      (fun s c s' h _ hs => listening_stays h hs) before s s1 (fun _ _ => trivial) hl h1
    simp only [run, step] at hr
    have hk : Knowing s' := run_invariant (P := Knowing) (Q := fun c => c ≠ .listenerAsks false)
      (fun s c s' h hc hs => knowing_stays s c s' h hc hs) after
      { s1 with window := w, signal := s1.signal || (s1.listener != .fresh) } s' (fun c hc h => ha.2 (h ▸ hc))
      ⟨hl1.1, hl1.2, .inl (by simp [hl1.1])⟩ hr
    obtain ⟨h2, h3, h4⟩ := hk
    have q1 := hs .take (by simp)
    have q2 := hs (.listenerAsks true) (by simp)
    have q3 := hs .listenerSends (by simp)
    simp only [step] at q1 q2 q3
    rcases h4 with h4 | h4 | h4 | ⟨_, h4⟩
    · cases hlis : s'.listener with
      | fresh => exact absurd hlis h2
      | waiting => rw [if_pos ⟨hlis, h4⟩] at q1; cases q1
      | checking => rw [if_pos hlis] at q2; cases q2
      | sending w => rw [hlis] at q3; cases q3
    · rw [if_pos h4] at q2; cases q2
    · rw [h4] at q3; cases q3
    · exact h4

/-- A window that does not change while the app starts: the app has its size at all times. -/
theorem C134_unchanged (w : Resize.Size) (cs : List Step) (s : Resize.State) (hc : Still cs)
    (hr : run (.start w) cs = some s) : s.app = s.window :=
  (run_invariant (P := Same) (Q := fun c => ∀ w, c ≠ .window w) same_stays cs _ s
    (fun c h w e => hc w (e ▸ h)) ⟨rfl, by simp [State.start], by simp [State.start]⟩ hr).1

/-- As stated, **C134** is false while the app starts: the goroutine that asks for the initial size can be overtaken
by the signal, and then its old size is the last one that the app hears of. -/
theorem C134_overtaken_false : ∃ (cs : List Step) (s : Resize.State), run (.start (80, 24)) cs = some s ∧ Answered cs ∧
    Settled s ∧ s.window = (100, 30) ∧ s.app = (80, 24) := by
  refine ⟨[.onceAsks true, .register, .window (100, 30), .take, .listenerAsks true, .listenerSends, .onceSends], _, rfl,
    by simp [Answered], ?_, rfl, rfl⟩
  intro c hc
  cases c with
  | window w => exact absurd rfl (hc w)
  | _ => rfl

/-- And a change after the initial size was found, but before the app has registered for the signal, is never heard
of. -/
theorem C134_unregistered_false : ∃ (cs : List Step) (s : Resize.State), run (.start (80, 24)) cs = some s ∧ Answered cs ∧
    Settled s ∧ s.window = (100, 30) ∧ s.app = (80, 24) := by
  refine ⟨[.onceAsks true, .onceSends, .window (100, 30), .register], _, rfl, by simp [Answered], ?_, rfl, rfl⟩
  intro c hc
  cases c with
  | window w => exact absurd rfl (hc w)
  | _ => rfl

/-- Non-vacuity: two changes, the second one while the first is being told. The signal that comes in between is kept. -/
example : ∃ s s', run (.start (80, 24)) [.onceAsks true, .onceSends, .register] = some s ∧ Listening s ∧
    run s ([.window (90, 24), .take, .listenerAsks true] ++ .window (100, 30) ::
      [.listenerSends, .take, .listenerAsks true, .listenerSends]) = some s' ∧
    Answered [.listenerSends, .take, .listenerAsks true, .listenerSends] ∧ Settled s' ∧ s'.app = (100, 30) := by
  refine ⟨_, _, rfl, ⟨by decide, by decide⟩, rfl, by simp [Answered], ?_, rfl⟩
  intro c hc
  cases c with
  | window w => exact absurd rfl (hc w)
  | _ => rfl

/-- Non-vacuity: seven steps are possible. -/
example : run ⟨(100, 30), true, .fresh, .checking, (80, 24)⟩ [.onceAsks true, .onceSends, .listenerAsks true,
    .listenerSends, .take, .listenerAsks true, .listenerSends] =
    some ⟨(100, 30), false, .finished, .waiting, (100, 30)⟩ := by decide

/-- Non-vacuity: a start in a window that does not change. -/
example : Still [.onceAsks true, .register, .onceSends] ∧
    run (.start (80, 24)) [.onceAsks true, .register, .onceSends] =
      some ⟨(80, 24), false, .finished, .waiting, (80, 24)⟩ := by
  refine ⟨?_, by decide⟩
  intro w h
  simp at h

end Bento
