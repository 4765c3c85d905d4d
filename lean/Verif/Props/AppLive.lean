import Verif.Spec.AppLive
import Verif.Props.AppOrigins
import Verif.Props.Live

/-!
# C128 — in an app that keeps running nothing waits for ever
-/

namespace Bento

namespace App

section

variable {σ μ : Type}

/-- The step may change goroutine `i`. -/
def touches (i : Nat) : Choice μ → Prop
  | .thread j _ => j = i
  | .message j _ _ => j = i
  | .error j => j = i
  | .fromInit j _ => j = i
  | _ => False

/-- What one step adds to the goroutines and to the record. -/
theorem receive_threads (p : Program σ μ) (s : State σ μ) (md : σ) (m : Option (Msg μ)) (ok : Bool) :
    ∃ new, (receive p s md m ok).threads = s.threads ++ new := by
  obtain ⟨_, es₁, es₂, _, h, _⟩ := receive_trace p s md m ok
  rcases h with ⟨_, _, h⟩ | ⟨cs, _, _, h⟩
  · exact ⟨[], by simp [h]⟩
  · exact ⟨_, h⟩

theorem accept_threads (s : State σ μ) (c : Option Cmd) : ∃ new, (accept s c).threads = s.threads ++ new := by
  cases c with
  | none => exact ⟨[], (List.append_nil _).symm⟩
  | some c => exact ⟨_, rfl⟩

/-- A goroutine stays where it is while others go on. -/
theorem step_other {p : Program σ μ} {s s' : State σ μ} {c : Choice μ} {i : Nat} {t : Thread μ}
    (hs : step p s c = some s') (hi : s.threads[i]? = some t) (hc : ¬ touches i c) : s'.threads[i]? = some t := by
  have hlt := (List.getElem?_eq_some_iff.1 hi).1
  unfold App.step at hs
  split at hs
  · cases hs
  cases c with
  | cancel => cases hs; exact hi
  | main a =>
    obtain ⟨new, _, h1, _⟩ := mainStep_effect hs
    rw [h1, List.getElem?_append_left hlt]
    exact hi
  | thread j a =>
    simp only at hs
    split at hs
    · cases hs
    · rcases threadStep_threads hs with e | ⟨t', e, _⟩
      · rw [e]; exact hi
      · rw [e, List.getElem?_set_ne hc]; exact hi
  | message j k ok =>
    simp only at hs
    split at hs
    · split at hs
      · cases hs
      · rename_i m member t' heq
        cases hs
        obtain ⟨new, e⟩ := receive_threads p ((s.log [.delivered j member m]).put j t') _ m ok
        rw [e]
        have : (s.threads.set j t')[i]? = some t := by rw [List.getElem?_set_ne hc]; exact hi
        show (s.threads.set j t' ++ new)[i]? = some t
        rw [List.getElem?_append_left (by simpa using hlt)]
        exact this
    · cases hs
  | error j =>
    simp only at hs
    split at hs
    · cases hs
      show (s.threads.set j _)[i]? = some t
      rw [List.getElem?_set_ne hc]; exact hi
    · cases hs
  | fromMain j =>
    simp only at hs
    split at hs
    · cases hs
      rename_i md c _ _
      obtain ⟨new, e⟩ := accept_threads s c
      show (accept s c).threads[i]? = some t
      rw [e, List.getElem?_append_left hlt]
      exact hi
    · cases hs
  | fromInit j k =>
    simp only at hs
    split at hs
    · cases hs
      rename_i c _ _
      show (s.threads.set j .finished ++ _)[i]? = some t
      rw [List.getElem?_append_left (by simpa using hlt), List.getElem?_set_ne hc]
      exact hi
    · cases hs

/-- When the goroutine of `Run` goes on. -/
theorem step_main {p : Program σ μ} {s s' : State σ μ} {c : Choice μ} (hs : step p s c = some s') :
    s'.main = s.main ∨ (∃ a, c = .main a) ∨ (∃ md, s.main = .select md) ∨
      ∃ md c' j, s.main = .command md c' ∧ c = .fromMain j := by
  unfold App.step at hs
  split at hs
  · cases hs
  cases c with
  | cancel => cases hs; exact .inl rfl
  | main a => exact .inr (.inl ⟨a, rfl⟩)
  | thread j a =>
    simp only at hs
    split at hs
    · cases hs
    · exact .inl (threadStep_quiet hs).1
  | message j k ok =>
    simp only at hs
    split at hs
    · rename_i md t h1 h2
      exact .inr (.inr (.inl ⟨md, h1⟩))
    · cases hs
  | error j =>
    simp only at hs
    split at hs
    · rename_i md h1 h2
      exact .inr (.inr (.inl ⟨md, h1⟩))
    · cases hs
  | fromMain j =>
    simp only at hs
    split at hs
    · rename_i md c h1 h2
      exact .inr (.inr (.inr ⟨md, c, j, h1, rfl⟩))
    · cases hs
  | fromInit j k =>
    simp only at hs
    split at hs
    · cases hs; exact .inl rfl
    · cases hs

/-- The record grows. -/
theorem step_trace {p : Program σ μ} {s s' : State σ μ} {c : Choice μ} (hs : step p s c = some s') :
    ∃ es, s'.trace = s.trace ++ es := by
  unfold App.step at hs
  split at hs
  · cases hs
  cases c with
  | cancel => cases hs; exact ⟨_, rfl⟩
  | main a =>
    obtain ⟨_, es, _, h, _⟩ := mainStep_effect hs
    exact ⟨es, h⟩
  | thread j a =>
    simp only at hs
    split at hs
    · cases hs
    · obtain ⟨es, h, _⟩ := threadStep_drops hs
      exact ⟨es, h⟩
  | message j k ok =>
    simp only at hs
    split at hs
    · split at hs
      · cases hs
      · rename_i m member t' heq
        cases hs
        obtain ⟨_, es₁, es₂, h, _⟩ := receive_trace p ((s.log [.delivered j member m]).put j t') _ m ok
        exact ⟨[.delivered j member m] ++ (es₁ ++ es₂), by rw [h]; simp [State.put, State.log]⟩
    · cases hs
  | error j =>
    simp only at hs
    split at hs
    · cases hs; exact ⟨[], (List.append_nil _).symm⟩
    · cases hs
  | fromMain j =>
    simp only at hs
    split at hs
    · cases hs
      rename_i md c _ _
      obtain ⟨_, es, h, _⟩ := accept_trace s c
      exact ⟨es, h⟩
    · cases hs
  | fromInit j k =>
    simp only at hs
    split at hs
    · cases hs; exact ⟨_, rfl⟩
    · cases hs

/-- Induction from some number on. -/
theorem from_on {P : Nat → Prop} {n : Nat} (h0 : P n) (h : ∀ m, n ≤ m → P m → P (m + 1)) :
    ∀ m, n ≤ m → P m := by
  intro m hm
  obtain ⟨d, rfl⟩ := Nat.exists_eq_add_of_le hm
  induction d with
  | zero => exact h0
  | succ d ih => exact h (n + d) (by omega) (ih (by omega))

/-- How a goroutine goes on. -/
theorem touch_step {p : Program σ μ} {s s' : State σ μ} {c : Choice μ} {i : Nat} {t : Thread μ}
    (hs : step p s c = some s') (hc : touches i c) (hi : s.threads[i]? = some t) :
    (∃ a, c = .thread i a ∧ threadStep p s i t a = some s') ∨
    (∃ j ok md m member t', c = .message i j ok ∧ s.main = .select md ∧ offer t j = some (m, member, t') ∧
      s' = receive p ((s.log [.delivered i member m]).put i t') md m ok) ∨
    (t = .readErr ∧ ∃ md, s'.main = .returned (.error md)) ∨
    ∃ c', t = .initCmd c' ∧ s' = accept (s.put i .finished) (some c') := by
  unfold App.step at hs
  split at hs
  · cases hs
  cases c with
  | thread j a =>
    obtain rfl : j = i := hc
    simp only [hi] at hs
    exact .inl ⟨a, rfl, hs⟩
  | message j k ok =>
    obtain rfl : j = i := hc
    simp only [hi] at hs
    split at hs
    · rename_i md t₁ h1 h2
      cases h2
      split at hs
      · cases hs
      · rename_i m member t' heq
        simp only [Option.some.injEq] at hs
        exact .inr (.inl ⟨k, ok, md, m, member, t', rfl, h1, heq, hs.symm⟩)
    · cases hs
  | error j =>
    obtain rfl : j = i := hc
    simp only [hi] at hs
    split at hs
    · rename_i md h1 h2
      cases h2
      simp only [Option.some.injEq] at hs
      exact .inr (.inr (.inl ⟨rfl, md, by rw [← hs]; rfl⟩))
    · cases hs
  | fromInit j k =>
    obtain rfl : j = i := hc
    simp only [hi] at hs
    split at hs
    · rename_i c' h1 h2
      cases h1
      simp only [Option.some.injEq] at hs
      exact .inr (.inr (.inr ⟨c', rfl, hs.symm⟩))
    · cases hs
  | _ => exact hc.elim

/-- Where a command that was not in the record before starts. -/
theorem step_starts {p : Program σ μ} {s s' : State σ μ} {ch : Choice μ} (hs : step p s ch = some s') {i : Nat}
    {c : Cmd} (h : .started i none (some c) ∈ s'.trace) : .started i none (some c) ∈ s.trace ∨
      s'.threads[i]? = some (.call c) ∨ ∃ rest, s.threads[i]? = some (.seq rest) := by
  have hacc : ∀ (s : State σ μ) (c' : Option Cmd), .started i none (some c) ∈ (accept s c').trace →
      .started i none (some c) ∈ s.trace ∨ (accept s c').threads[i]? = some (.call c) := by
    intro s c' h
    cases c' with
    | none => exact .inl h
    | some c' =>
      have h : Event.started i none (some c) ∈ s.trace ++ [.started s.threads.length none (some c')] := h
      rw [List.mem_append] at h
      rcases h with h | h
      · exact .inl h
      · simp only [List.mem_singleton, Event.started.injEq, Option.some.injEq, true_and] at h
        obtain ⟨rfl, rfl⟩ := h
        right
        show (s.threads ++ [Thread.call c])[s.threads.length]? = some (.call c)
        simp
  unfold App.step at hs
  split at hs
  · cases hs
  cases ch with
  | cancel =>
    cases hs
    have h : Event.started i none (some c) ∈ s.trace ++ [.cancelled] := h
    simp only [List.mem_append, List.mem_singleton, reduceCtorEq, or_false] at h
    exact .inl h
  | main a =>
    obtain ⟨_, es, _, e, _, h4⟩ := mainStep_effect hs
    rw [e, List.mem_append] at h
    rcases h with h | h
    · exact .inl h
    · rcases h4 _ h with ⟨m, h⟩ | h | ⟨st, h⟩ <;> cases h
  | thread j a =>
    simp only at hs
    split at hs
    · cases hs
    · rename_i t ht
      obtain ⟨_, _, es, e, h4⟩ := threadStep_events hs
      rw [e, List.mem_append] at h
      rcases h with h | h
      · exact .inl h
      · rcases h4 _ h with ⟨c', rest, h, h'⟩ | ⟨_, _, _, _, _, _, h, _⟩ | ⟨_, _, h⟩ | h | ⟨_, h⟩
        · cases h
          exact .inr (.inr ⟨_, h' ▸ ht⟩)
        all_goals cases h
  | message j k ok =>
    simp only at hs
    split at hs
    · split at hs
      · cases hs
      · rename_i m member t' heq
        cases hs
        obtain ⟨_, es₁, es₂, e, h1, h2⟩ := receive_trace p ((s.log [.delivered j member m]).put j t') _ m ok
        rw [e] at h
        have h : Event.started i none (some c) ∈ (s.trace ++ [.delivered j member m]) ++ (es₁ ++ es₂) := h
        simp only [List.mem_append, List.mem_singleton, reduceCtorEq, or_false] at h
        rcases h with h | h | h
        · exact .inl h
        · rcases h1 with ⟨rfl, _⟩ | ⟨cs, _, rfl, _⟩ <;> simp at h
        · rcases h2 with ⟨rfl, _⟩ | ⟨_, _, _, _, _, rfl, _⟩ <;> simp at h
    · cases hs
  | error j =>
    simp only at hs
    split at hs
    · cases hs; exact .inl h
    · cases hs
  | fromMain j =>
    simp only at hs
    split at hs
    · cases hs
      rcases hacc _ _ h with h | h
      · exact .inl h
      · exact .inr (.inl h)
    · cases hs
  | fromInit j k =>
    simp only at hs
    split at hs
    · cases hs
      rcases hacc _ _ h with h | h
      · exact .inl h
      · exact .inr (.inl h)
    · cases hs

/-- When `Update` returns a command, the event loop is about to hand it over. -/
theorem step_returned {p : Program σ μ} {s s' : State σ μ} {ch : Choice μ} (hs : step p s ch = some s') (c : Cmd) :
    returned c s'.trace = returned c s.trace ∨ ∃ md, s'.main = .command md (some c) := by
  have hes : ∀ es : List (Event σ μ), s'.trace = s.trace ++ es → (∀ m c', .updated m c' ∉ es) →
      returned c s'.trace = returned c s.trace := by
    intro es h1 h2
    rw [h1, returned_append, returned_zero h2, Nat.add_zero]
  unfold App.step at hs
  split at hs
  · cases hs
  cases ch with
  | cancel => cases hs; exact .inl (hes [.cancelled] rfl (by simp))
  | main a =>
    obtain ⟨_, es, _, e, _, h4⟩ := mainStep_effect hs
    refine .inl (hes es e fun m c' h => ?_)
    rcases h4 _ h with ⟨m, h⟩ | h | ⟨st, h⟩ <;> cases h
  | thread j a =>
    simp only at hs
    split at hs
    · cases hs
    · obtain ⟨_, _, es, e, h4⟩ := threadStep_events hs
      refine .inl (hes es e fun m c' h => ?_)
      rcases h4 _ h with ⟨c', rest, h, h'⟩ | ⟨_, _, _, _, _, _, h, _⟩ | ⟨_, _, h⟩ | h | ⟨_, h⟩ <;> cases h
  | message j k ok =>
    simp only at hs
    split at hs
    · split at hs
      · cases hs
      · rename_i m member t' heq
        cases hs
        obtain ⟨_, es₁, es₂, e, h1, h2⟩ := receive_trace p ((s.log [.delivered j member m]).put j t') _ m ok
        have hz : returned c es₁ = 0 := by
          rcases h1 with ⟨rfl, _⟩ | ⟨cs, _, rfl, _⟩ <;> rfl
        have hz' : returned c [(.delivered j member m : Event σ μ)] = 0 := rfl
        rcases h2 with ⟨rfl, _⟩ | ⟨m', md', c', _, _, rfl, h⟩
        · left
          rw [e]
          show returned c ((s.trace ++ [.delivered j member m]) ++ (es₁ ++ [])) = _
          simp only [returned_append, hz, hz']
          rfl
        · by_cases hc : c' = some c
          · subst hc
            exact .inr ⟨md', h⟩
          · left
            rw [e]
            show returned c ((s.trace ++ [.delivered j member m]) ++ (es₁ ++ [.updated m' c'])) = _
            have hu : returned c [(.updated m' c' : Event σ μ)] = 0 := by
              simp [returned, hc]
            simp only [returned_append, hz, hz', hu]
            omega
    · cases hs
  | error j =>
    simp only at hs
    split at hs
    · cases hs; exact .inl rfl
    · cases hs
  | fromMain j =>
    simp only at hs
    split at hs
    · cases hs
      rename_i md c _ _
      obtain ⟨_, es, e, h⟩ := accept_trace s c
      refine .inl (hes es e fun m c' hm => ?_)
      rcases h with ⟨_, rfl⟩ | ⟨_, _, rfl⟩ <;> simp at hm
    · cases hs
  | fromInit j k =>
    simp only at hs
    split at hs
    · cases hs
      exact .inl (hes _ rfl (by simp))
    · cases hs

/-- Messages are given up only when the context is done. -/
theorem step_dropped {p : Program σ μ} {s s' : State σ μ} {ch : Choice μ} (hs : step p s ch = some s') {i : Nat}
    {j : Option Nat} {m : Option (Msg μ)} (h : .dropped i j m ∈ s'.trace) :
    .dropped i j m ∈ s.trace ∨ s.done = true := by
  unfold App.step at hs
  split at hs
  · cases hs
  cases ch with
  | cancel =>
    cases hs
    have h : Event.dropped i j m ∈ s.trace ++ [.cancelled] := h
    simp only [List.mem_append, List.mem_singleton, reduceCtorEq, or_false] at h
    exact .inl h
  | main a =>
    obtain ⟨_, es, _, e, _, h4⟩ := mainStep_effect hs
    rw [e, List.mem_append] at h
    rcases h with h | h
    · exact .inl h
    · rcases h4 _ h with ⟨m, h⟩ | h | ⟨st, h⟩ <;> cases h
  | thread k a =>
    simp only at hs
    split at hs
    · cases hs
    · obtain ⟨es, e, h4, _⟩ := threadStep_drops hs
      rw [e, List.mem_append] at h
      exact h.imp id (h4 i j m)
  | message k l ok =>
    simp only at hs
    split at hs
    · split at hs
      · cases hs
      · rename_i m' member t' heq
        cases hs
        obtain ⟨_, es₁, es₂, e, h1, h2⟩ := receive_trace p ((s.log [.delivered k member m']).put k t') _ m' ok
        rw [e] at h
        have h : Event.dropped i j m ∈ (s.trace ++ [.delivered k member m']) ++ (es₁ ++ es₂) := h
        simp only [List.mem_append, List.mem_singleton, reduceCtorEq, or_false] at h
        rcases h with h | h | h
        · exact .inl h
        · rcases h1 with ⟨rfl, _⟩ | ⟨cs, _, rfl, _⟩ <;> simp at h
        · rcases h2 with ⟨rfl, _⟩ | ⟨_, _, _, _, _, rfl, _⟩ <;> simp at h
    · cases hs
  | error j =>
    simp only at hs
    split at hs
    · cases hs; exact .inl h
    · cases hs
  | fromMain k =>
    simp only at hs
    split at hs
    · cases hs
      rename_i md c _ _
      obtain ⟨_, es, e, h'⟩ := accept_trace s c
      have h : Event.dropped i j m ∈ (accept s c).trace := h
      rw [e, List.mem_append] at h
      rcases h with h | h
      · exact .inl h
      · rcases h' with ⟨_, rfl⟩ | ⟨_, _, rfl⟩ <;> simp at h
    · cases hs
  | fromInit k l =>
    simp only at hs
    split at hs
    · cases hs
      have h : Event.dropped i j m ∈ s.trace ++ [.started _ none (some _)] := h
      simp only [List.mem_append, List.mem_singleton, reduceCtorEq, or_false] at h
      exact .inl h
    · cases hs

/-- Nothing changes while the app rests. -/
theorem move_none {p : Program σ μ} {s s' : State σ μ} (h : move p s none = some s') : s = s' := by
  simp only [move] at h
  split at h
  · cases h
  · cases h; rfl

/-- Whether a moment may change goroutine `i`. -/
def touched (i : Nat) : Option (Choice μ) → Prop
  | none => False
  | some c => touches i c

theorem move_other {p : Program σ μ} {s s' : State σ μ} {c : Option (Choice μ)} {i : Nat} {t : Thread μ}
    (hs : move p s c = some s') (hi : s.threads[i]? = some t) (hn : ¬ touched i c) : s'.threads[i]? = some t := by
  cases c with
  | none => rw [← move_none hs]; exact hi
  | some c => exact step_other hs hi hn

theorem move_trace {p : Program σ μ} {s s' : State σ μ} {c : Option (Choice μ)} (hs : move p s c = some s') :
    ∃ es, s'.trace = s.trace ++ es := by
  cases c with
  | none => rw [← move_none hs]; exact ⟨[], by simp⟩
  | some c => exact step_trace hs

theorem move_done {p : Program σ μ} {s s' : State σ μ} {c : Option (Choice μ)} (hs : move p s c = some s')
    (h : s.done = true) : s'.done = true := by
  cases c with
  | none => rw [← move_none hs]; exact h
  | some c => exact step_done hs h

theorem move_main {p : Program σ μ} {s s' : State σ μ} {c : Option (Choice μ)} (hs : move p s c = some s') :
    s'.main = s.main ∨ (∃ a, c = some (.main a)) ∨ (∃ md, s.main = .select md) ∨
      ∃ md c' j, s.main = .command md c' ∧ c = some (.fromMain j) := by
  cases c with
  | none => rw [← move_none hs]; exact .inl rfl
  | some c =>
    rcases step_main hs with h | ⟨a, h⟩ | h | ⟨md, c', j, h, h'⟩
    · exact .inl h
    · exact .inr (.inl ⟨a, by rw [h]⟩)
    · exact .inr (.inr (.inl h))
    · exact .inr (.inr (.inr ⟨md, c', j, h, by rw [h']⟩))

theorem touch_move {p : Program σ μ} {s s' : State σ μ} {c : Option (Choice μ)} {i : Nat} {t : Thread μ}
    (hs : move p s c = some s') (hc : touched i c) (hi : s.threads[i]? = some t) :
    (∃ a, c = some (.thread i a) ∧ threadStep p s i t a = some s') ∨
    (∃ j ok md m member t', c = some (.message i j ok) ∧ s.main = .select md ∧ offer t j = some (m, member, t') ∧
      s' = receive p ((s.log [.delivered i member m]).put i t') md m ok) ∨
    (t = .readErr ∧ ∃ md, s'.main = .returned (.error md)) ∨
    ∃ c', t = .initCmd c' ∧ s' = accept (s.put i .finished) (some c') := by
  cases c with
  | none => exact hc.elim
  | some c =>
    rcases touch_step hs hc hi with ⟨a, h, h'⟩ | ⟨j, ok, md, m, member, t', h, h'⟩ | h | h
    · exact .inl ⟨a, by rw [h], h'⟩
    · exact .inr (.inl ⟨j, ok, md, m, member, t', by rw [h], h'⟩)
    · exact .inr (.inr (.inl h))
    · exact .inr (.inr (.inr h))

theorem move_starts {p : Program σ μ} {s s' : State σ μ} {ch : Option (Choice μ)} (hs : move p s ch = some s')
    {i : Nat} {c : Cmd} (h : .started i none (some c) ∈ s'.trace) : .started i none (some c) ∈ s.trace ∨
      s'.threads[i]? = some (.call c) ∨ ∃ rest, s.threads[i]? = some (.seq rest) := by
  cases ch with
  | none => rw [← move_none hs] at h; exact .inl h
  | some ch => exact step_starts hs h

theorem move_returned {p : Program σ μ} {s s' : State σ μ} {ch : Option (Choice μ)} (hs : move p s ch = some s')
    (c : Cmd) : returned c s'.trace = returned c s.trace ∨ ∃ md, s'.main = .command md (some c) := by
  cases ch with
  | none => rw [← move_none hs]; exact .inl rfl
  | some ch => exact step_returned hs c

theorem move_dropped {p : Program σ μ} {s s' : State σ μ} {ch : Option (Choice μ)} (hs : move p s ch = some s')
    {i : Nat} {j : Option Nat} {m : Option (Msg μ)} (h : .dropped i j m ∈ s'.trace) :
    .dropped i j m ∈ s.trace ∨ s.done = true := by
  cases ch with
  | none => rw [← move_none hs] at h; exact .inl h
  | some ch => exact step_dropped hs h

namespace Execution

variable {p : Program σ μ}

theorem invariant (e : Execution p) {P : State σ μ → Prop} (h0 : P (.start σ μ))
    (h : ∀ s c s', P s → step p s c = some s' → P s') (n : Nat) : P (e.state n) := by
  induction n with
  | zero => rw [e.start]; exact h0
  | succ n ih =>
    have hn := e.next n
    cases hc : e.choice n with
    | none =>
      rw [hc] at hn
      rw [← move_none hn]
      exact ih
    | some c =>
      rw [hc] at hn
      exact h _ _ _ ih hn

theorem life (e : Execution p) (n : Nat) : Life p (e.state n).threads (e.state n).trace :=
  e.invariant (P := fun s => Life p s.threads s.trace)
    ⟨by simp [State.start], by simp [State.start], by simp [State.start], by simp [State.start],
      by simp [State.start], by simp [State.start]⟩ (fun _ _ _ h hs => step_life h hs) n

theorem housekeeping (e : Execution p) (n : Nat) : Housekeeping (e.state n) :=
  e.invariant (P := Housekeeping) trivial (fun _ _ _ h hs => step_housekeeping h hs) n

theorem trace_mono (e : Execution p) {n m : Nat} (h : n ≤ m) {ev : Event σ μ} (he : ev ∈ (e.state n).trace) :
    ev ∈ (e.state m).trace := by
  refine from_on (P := fun m => ev ∈ (e.state m).trace) he (fun m _ ih => ?_) m h
  obtain ⟨es, h⟩ := move_trace (e.next m)
  rw [h]
  exact List.mem_append_left _ ih

theorem not_crashed (e : Execution p) (n : Nat) : (e.state n).crashed = false := by
  have hn := e.next n
  cases hc : e.choice n with
  | none =>
    rw [hc] at hn
    simp only [move] at hn
    split at hn
    · cases hn
    · rename_i h; simpa using h
  | some c =>
    rw [hc] at hn
    simp only [move, App.step] at hn
    split at hn
    · cases hn
    · rename_i h; simpa using h

/-- The context of an app that keeps running was never done. -/
theorem KeepsRunning.live {e : Execution p} (h : e.KeepsRunning) (n : Nat) : (e.state n).done = false := by
  obtain ⟨n₀, h⟩ := h
  cases hd : (e.state n).done with
  | false => rfl
  | true =>
    have : ∀ m, n ≤ m → (e.state m).done = true :=
      from_on (P := fun m => (e.state m).done = true) hd fun m _ ih => move_done (e.next m) ih
    have h1 := this (max n n₀) (by omega)
    rw [(h (max n n₀) (by omega)).1] at h1
    cases h1

/-- The first moment at which something happens, and what holds until then. -/
theorem first_time {P : Nat → Prop} {Q : Nat → Prop} (n : Nat) (h0 : Q n)
    (hstep : ∀ m, n ≤ m → Q m → ¬ P m → Q (m + 1)) (hever : (∀ m, n ≤ m → Q m) → ∃ m, n ≤ m ∧ P m) :
    ∃ m, n ≤ m ∧ Q m ∧ P m := by
  refine Classical.byContradiction fun hno => ?_
  have hQ : ∀ m, n ≤ m → Q m := from_on h0 fun m hm ih => hstep m hm ih (fun hp => hno ⟨m, hm, ih, hp⟩)
  obtain ⟨m, hm, hp⟩ := hever hQ
  exact hno ⟨m, hm, hQ m hm, hp⟩

/-- A goroutine that can go on again and again does not stay where it is. -/
theorem Fair.leaves {e : Execution p} (hf : e.Fair) {n i : Nat} {t : Thread μ}
    (hi : (e.state n).threads[i]? = some t)
    (hcan : ∃ turn : Turn, (∀ c : Choice μ, turn.takes c → touches i c) ∧
      ∀ m, n ≤ m → ∃ m', m ≤ m' ∧ ((e.state m').threads[i]? = some t →
        ∃ c, turn.takes c ∧ (step p (e.state m') c).isSome = true)) :
    ∃ m, n ≤ m ∧ (e.state m).threads[i]? = some t ∧ touched i (e.choice m) := by
  refine first_time (Q := fun m => (e.state m).threads[i]? = some t) n hi
    (fun m _ hq hp => move_other (e.next m) hq hp) (fun hall => ?_)
  obtain ⟨turn, ht, hcan⟩ := hcan
  have := hf turn (fun k => by
    obtain ⟨m', h1, h2⟩ := hcan (max n k) (by omega)
    exact ⟨m', by omega, h2 (hall m' (by omega))⟩) n
  obtain ⟨m, hm, c, hc, hc'⟩ := this
  refine ⟨m, hm, ?_⟩
  rw [hc]
  exact ht _ hc'

/-- The command that `Update` returned is taken. -/
theorem command_taken {e : Execution p} (hf : e.Fair) (hlive : ∀ n, (e.state n).done = false) {k : Nat} {md : σ}
    {c : Option Cmd} (hm : (e.state k).main = .command md c) :
    ∃ m, k ≤ m ∧ (e.state m).main = .command md c ∧ ∃ j, e.choice m = some (.fromMain j) ∧
      e.state (m + 1) = (accept (e.state m) c).at (.draw md) := by
  obtain ⟨m, h1, h2, j, h3⟩ := first_time (P := fun m => ∃ j, e.choice m = some (.fromMain j))
    (Q := fun m => (e.state m).main = .command md c) k hm
    (fun m _ hq hp => by
      rcases move_main (e.next m) with h | ⟨a, h⟩ | ⟨md', h⟩ | ⟨md', c', j, h, h'⟩
      · rw [h]; exact hq
      · have hn := e.next m
        rw [h] at hn
        simp only [move] at hn
        unfold App.step at hn
        rw [if_neg (by rw [e.not_crashed]; simp)] at hn
        simp only [mainStep, hq] at hn
        cases hn
      · rw [hq] at h; cases h
      · exact absurd ⟨j, h'⟩ hp)
    (fun hall => by
      obtain ⟨m, h1, c', hc, h2⟩ := hf .command (fun l => by
        refine ⟨max k l, by omega, ?_⟩
        have hq := hall (max k l) (by omega)
        have hh := e.housekeeping (max k l)
        unfold Housekeeping at hh
        rw [hq] at hh
        simp only [hlive, Bool.false_eq_true, false_or] at hh
        obtain ⟨j, hj, hje⟩ := List.getElem_of_mem hh
        refine ⟨.fromMain j, trivial, ?_⟩
        unfold App.step
        rw [if_neg (by rw [e.not_crashed]; simp)]
        simp only [hq, List.getElem?_eq_getElem hj, hje]
        rfl) k
      refine ⟨m, h1, ?_⟩
      cases c' with
      | fromMain j => exact ⟨j, hc⟩
      | _ => exact h2.elim)
  have hn := e.next m
  rw [h3] at hn
  simp only [move] at hn
  unfold App.step at hn
  rw [if_neg (by rw [e.not_crashed]; simp)] at hn
  simp only [h2] at hn
  refine ⟨m, h1, h2, j, h3, ?_⟩
  split at hn
  · rename_i h _
    cases h
    simp only [Option.some.injEq] at hn
    exact hn.symm
  · cases hn

/-- The event loop waits for a message again and again. -/
theorem KeepsRunning.waits {e : Execution p} (hf : e.Fair) (hr : e.KeepsRunning) (n : Nat) :
    ∃ m, n ≤ m ∧ ∃ md, (e.state m).main = .select md := by
  have hlive := hr.live
  obtain ⟨n₀, hr⟩ := hr
  -- from a draw
  have hdraw : ∀ k md, n₀ ≤ k → (e.state k).main = .draw md →
      ∃ m, k ≤ m ∧ ∃ md, (e.state m).main = .select md := by
    intro k md hk hm
    obtain ⟨m, h1, h2, a, h3⟩ := first_time (P := fun m => ∃ a, e.choice m = some (.main a))
      (Q := fun m => (e.state m).main = .draw md) k hm
      (fun m _ hq hp => by
        rcases move_main (e.next m) with h | ⟨a, h⟩ | ⟨md', h⟩ | ⟨md', c', j, h, _⟩
        · rw [h]; exact hq
        · exact absurd ⟨a, h⟩ hp
        · rw [hq] at h; cases h
        · rw [hq] at h; cases h)
      (fun hall => by
        obtain ⟨m, h1, c', hc, h2⟩ := hf .run (fun l => ⟨max k l, by omega, .main (.drawn (.ok true)), trivial, by
          have hq := hall (max k l) (by omega)
          unfold App.step
          rw [if_neg (by rw [e.not_crashed]; simp)]
          simp only [mainStep, hq]
          rfl⟩) k
        refine ⟨m, h1, ?_⟩
        cases c' with
        | main a => exact ⟨a, hc⟩
        | _ => exact h2.elim)
    have hn := e.next m
    rw [h3] at hn
    simp only [move] at hn
    unfold App.step at hn
    rw [if_neg (by rw [e.not_crashed]; simp)] at hn
    simp only [mainStep, h2] at hn
    have hr' := (hr (m + 1) (by omega)).2
    refine ⟨m + 1, by omega, ?_⟩
    rcases a with ok | d
    · cases hn
    · simp only [Option.some.injEq] at hn
      rw [← hn] at hr' ⊢
      cases d with
      | ok hidden => exact ⟨md, rfl⟩
      | error => rcases hr' with ⟨_, h⟩ | ⟨_, _, h⟩ | ⟨_, h⟩ <;> cases h
      | panics => rcases hr' with ⟨_, h⟩ | ⟨_, _, h⟩ | ⟨_, h⟩ <;> cases h
  -- from a command
  have hcmd : ∀ k md c, n₀ ≤ k → (e.state k).main = .command md c →
      ∃ m, k ≤ m ∧ (e.state m).main = .draw md := by
    intro k md c hk hm
    obtain ⟨m, h1, h2, j, h3, h4⟩ := command_taken hf hlive hm
    exact ⟨m + 1, by omega, by rw [h4]; rfl⟩
  rcases (hr (max n n₀) (by omega)).2 with h | ⟨md, c, h⟩ | ⟨md, h⟩
  · exact ⟨_, by omega, h⟩
  · obtain ⟨k, hk, h⟩ := hcmd _ _ _ (by omega) h
    obtain ⟨m, hm, h⟩ := hdraw k md (by omega) h
    exact ⟨m, by omega, h⟩
  · obtain ⟨m, hm, h⟩ := hdraw _ md (by omega) h
    exact ⟨m, by omega, h⟩

/-- A message on offer is taken. -/
theorem offer_taken {e : Execution p} (hf : e.Fair) (hr : e.KeepsRunning) {n i : Nat} {t t' : Thread μ}
    {m : Option (Msg μ)} (hi : (e.state n).threads[i]? = some t) (ho : ∀ j, offer t j = some (m, none, t'))
    (hg : ∀ s s' a, threadStep p s i t a = some s' → s.done = true) (h1 : t ≠ .readErr) (h2 : ∀ c, t ≠ .initCmd c) :
    ∃ k, n ≤ k ∧ .delivered i none m ∈ (e.state k).trace ∧ (e.state k).threads[i]? = some t' := by
  obtain ⟨k, k1, k2, k3⟩ := hf.leaves hi ⟨.message i, fun c hc => by
      cases c <;> first | exact hc.1.symm | exact hc.symm | exact hc.elim, fun l _ => by
      obtain ⟨l', h1, md, h2⟩ := hr.waits hf l
      refine ⟨l', h1, fun ht => ⟨.message i 0 true, rfl, ?_⟩⟩
      unfold App.step
      rw [if_neg (by rw [e.not_crashed]; simp)]
      simp only [h2, ht, ho]
      rfl⟩
  rcases touch_move (e.next k) k3 k2 with ⟨a, _, h⟩ | ⟨j, ok, md, m', member, t'', _, hm, h, hs⟩ | ⟨h, _⟩ | ⟨c, h, _⟩
  · have := hg _ _ _ h
    rw [hr.live k] at this
    cases this
  · rw [ho] at h
    cases h
    refine ⟨k + 1, by omega, ?_⟩
    rw [hs]
    obtain ⟨_, es₁, es₂, h, _⟩ := receive_trace p (((e.state k).log [.delivered i none m]).put i t') md m ok
    obtain ⟨new, h'⟩ := receive_threads p (((e.state k).log [.delivered i none m]).put i t') md m ok
    have hlt := (List.getElem?_eq_some_iff.1 k2).1
    refine ⟨by rw [h]; simp [State.put, State.log], ?_⟩
    rw [h']
    show ((e.state k).threads.set i t' ++ new)[i]? = some t'
    rw [List.getElem?_append_left (by simpa using hlt)]
    simp [hlt]
  · exact absurd h h1
  · exact absurd h (h2 c)

theorem send_taken {e : Execution p} (hf : e.Fair) (hr : e.KeepsRunning) {n i : Nat} {m : Option (Msg μ)}
    (hi : (e.state n).threads[i]? = some (.send m)) : ∃ k, n ≤ k ∧ .delivered i none m ∈ (e.state k).trace := by
  obtain ⟨k, h1, h2, _⟩ := offer_taken hf hr hi (fun _ => rfl) (fun s s' a h => by
    cases a with
    | giveUp =>
      simp only [threadStep] at h
      split at h
      · assumption
      · cases h
    | _ => cases h) (by simp) (by simp)
  exact ⟨k, h1, h2⟩

/-- The message of a command that was called arrives. -/
theorem call_arrives {e : Execution p} (hf : e.Fair) (hr : e.KeepsRunning) {n i : Nat} {c : Cmd}
    (hi : (e.state n).threads[i]? = some (.call c)) : ∃ m, n ≤ m ∧ Arrived p i c (e.state m).trace := by
  obtain ⟨k, k1, k2, k3⟩ := hf.leaves hi ⟨.goroutine i, fun c hc => by
      cases c <;> first | exact hc.1.symm | exact hc.symm | exact hc.elim, fun l _ => by
      refine ⟨l, Nat.le_refl l, fun ht => ⟨.thread i (.go 0), ⟨rfl, trivial⟩, ?_⟩⟩
      unfold App.step
      rw [if_neg (by rw [e.not_crashed]; simp)]
      simp only [ht, threadStep]
      cases p.call c 0 <;> rfl⟩
  have hlt := (List.getElem?_eq_some_iff.1 k2).1
  rcases touch_move (e.next k) k3 k2 with ⟨a, _, h⟩ | ⟨j, ok, md, m', member, t'', _, hm, h, hs⟩ | ⟨h, _⟩ | ⟨c, h, _⟩
  · cases a with
    | go q =>
      simp only [threadStep] at h
      cases hc : p.call c q with
      | returns m =>
        rw [hc] at h
        simp only [Option.some.injEq] at h
        have ht : (e.state (k + 1)).threads[i]? = some (.send m) := by
          rw [← h]
          show ((e.state k).threads.set i _)[i]? = _
          simp [hlt]
        obtain ⟨l, l1, l2⟩ := send_taken hf hr ht
        exact ⟨l, by omega, q, m, hc, l2⟩
      | panics =>
        rw [hc] at h
        simp only [Option.some.injEq] at h
        have ht : (e.state (k + 1)).threads[i]? = some (.rescue .cancel) := by
          rw [← h]
          show ((e.state k).threads.set i _)[i]? = _
          simp [hlt]
        obtain ⟨l, l1, l2, l3⟩ := hf.leaves ht ⟨.goroutine i, fun c hc => by
            cases c <;> first | exact hc.1.symm | exact hc.symm | exact hc.elim, fun l _ => by
            refine ⟨l, Nat.le_refl l, fun ht => ⟨.thread i (.op true), ⟨rfl, trivial⟩, ?_⟩⟩
            unfold App.step
            rw [if_neg (by rw [e.not_crashed]; simp)]
            simp only [ht, threadStep, shutdown]
            rfl⟩
        rcases touch_move (e.next l) l3 l2 with ⟨a, _, h⟩ | ⟨j, ok, md, m', member, t'', _, hm, h, hs⟩ | ⟨h, _⟩ | ⟨c, h, _⟩
        · cases a with
          | op ok =>
            simp only [threadStep, shutdown, Option.some.injEq] at h
            have := hr.live (l + 1)
            rw [← h] at this
            cases this
          | _ => cases h
        · cases h
        · cases h
        · cases h
    | _ => cases h
  · cases h
  · cases h
  · cases h

/-- How much the goroutines of a batch have still to do. -/
def memberWeight : Member μ → Nat
  | .call _ => 2
  | .send _ => 1
  | .finished => 0

theorem weight_set (ms : List (Member μ)) : ∀ (j : Nat) (x y : Member μ), ms[j]? = some y →
    ((ms.set j x).map memberWeight).sum + memberWeight y = (ms.map memberWeight).sum + memberWeight x := by
  induction ms with
  | nil => intro j x y h; cases h
  | cons m t ih =>
    intro j x y h
    cases j with
    | zero =>
      simp only [List.getElem?_cons_zero, Option.some.injEq] at h
      subst h
      simp only [List.set_cons_zero, List.map_cons, List.sum_cons]
      omega
    | succ j =>
      simp only [List.getElem?_cons_succ] at h
      have := ih j x y h
      simp only [List.set_cons_succ, List.map_cons, List.sum_cons]
      omega

/-- The batch of a sequence ends. -/
theorem batch_ends {e : Execution p} (hf : e.Fair) (hr : e.KeepsRunning) (i : Nat) (rest : List (Option Cmd)) :
    ∀ (w n : Nat) (ms : List (Member μ)), (ms.map memberWeight).sum = w →
      (e.state n).threads[i]? = some (.seqWait ms rest) →
      ∃ m, n ≤ m ∧ (e.state m).threads[i]? = some (.seq rest) := by
  intro w
  induction w using Nat.strongRecOn with
  | ind w ih =>
  intro n ms hw hi
  have hcan : ∃ turn : Turn, (∀ c : Choice μ, turn.takes c → touches i c) ∧
      ∀ m, n ≤ m → ∃ m', m ≤ m' ∧ ((e.state m').threads[i]? = some (.seqWait ms rest) →
        ∃ c, turn.takes c ∧ (step p (e.state m') c).isSome = true) := by
    by_cases hall : ∀ (j : Nat) (x : Member μ), ms[j]? = some x → x = .finished
    · refine ⟨.goroutine i, fun c hc => by cases c <;> first | exact hc.1.symm | exact hc.symm | exact hc.elim,
        fun l _ => ⟨l, Nat.le_refl l, fun ht => ⟨.thread i (.go 0), ⟨rfl, trivial⟩, ?_⟩⟩⟩
      unfold App.step
      rw [if_neg (by rw [e.not_crashed]; simp)]
      simp only [ht, threadStep]
      rw [if_pos]
      · rfl
      · rw [List.all_eq_true]
        intro x hx
        obtain ⟨j, hj, rfl⟩ := List.getElem_of_mem hx
        rw [hall j _ (List.getElem?_eq_getElem hj)]
    · simp only [Classical.not_forall] at hall
      obtain ⟨j, x, hj, hx⟩ := hall
      cases x with
      | call c =>
        refine ⟨.goroutine i, fun c hc => by cases c <;> first | exact hc.1.symm | exact hc.symm | exact hc.elim,
          fun l _ => ⟨l, Nat.le_refl l, fun ht => ⟨.thread i (.member j 0), ⟨rfl, trivial⟩, ?_⟩⟩⟩
        unfold App.step
        rw [if_neg (by rw [e.not_crashed]; simp)]
        simp only [ht, threadStep, hj]
        cases c with
        | none => rfl
        | some c =>
          simp only
          cases p.call c 0 <;> rfl
      | send m =>
        refine ⟨.message i, fun c hc => by cases c <;> first | exact hc.1.symm | exact hc.symm | exact hc.elim, fun l _ => ?_⟩
        obtain ⟨l', h1, md, h2⟩ := hr.waits hf l
        refine ⟨l', h1, fun ht => ⟨.message i j true, rfl, ?_⟩⟩
        unfold App.step
        rw [if_neg (by rw [e.not_crashed]; simp)]
        simp only [h2, ht, offer, hj]
        rfl
      | finished => exact absurd rfl hx
  obtain ⟨k, k1, k2, k3⟩ := hf.leaves hi hcan
  have hlt := (List.getElem?_eq_some_iff.1 k2).1
  have hcr := e.not_crashed (k + 1)
  have hnext : ∀ (j : Nat) (x y : Member μ), ms[j]? = some y → memberWeight x < memberWeight y →
      (e.state (k + 1)).threads[i]? = some (.seqWait (ms.set j x) rest) →
      ∃ m, n ≤ m ∧ (e.state m).threads[i]? = some (.seq rest) := by
    intro j x y hj hlt ht
    have hsum := weight_set ms j x y hj
    obtain ⟨l, l1, l2⟩ := ih _ (by omega) (k + 1) (ms.set j x) rfl ht
    exact ⟨l, by omega, l2⟩
  rcases touch_move (e.next k) k3 k2 with ⟨a, _, h⟩ | ⟨j, ok, md, m', member, t'', _, hm, h, hs⟩ | ⟨h, _⟩ | ⟨c, h, _⟩
  · unfold threadStep at h
    cases a with
    | go q =>
      simp only at h
      split at h
      · simp only [Option.some.injEq] at h
        refine ⟨k + 1, by omega, ?_⟩
        rw [← h]
        show ((e.state k).threads.set i _)[i]? = _
        simp [hlt]
      · cases h
    | member j q =>
      simp only at h
      split at h
      · rename_i c hj
        split at h
        · rename_i m hc
          simp only [Option.some.injEq] at h
          refine hnext j (.send m) (.call (some c)) hj (by simp [memberWeight]) ?_
          rw [← h]
          show ((e.state k).threads.set i _)[i]? = _
          simp [hlt]
        · simp only [Option.some.injEq] at h
          rw [← h] at hcr
          cases hcr
      · simp only [Option.some.injEq] at h
        rw [← h] at hcr
        cases hcr
      · cases h
    | memberGiveUp j =>
      simp only [hr.live k] at h
      split at h <;> cases h
    | _ => cases h
  · unfold offer at h
    simp only at h
    split at h
    · rename_i m hj
      cases h
      refine hnext j .finished (.send _) hj (by simp [memberWeight]) ?_
      rw [hs]
      obtain ⟨new, h'⟩ := receive_threads p (((e.state k).log [.delivered i (some j) m']).put i
        (.seqWait (ms.set j .finished) rest)) md m' ok
      rw [h']
      show ((e.state k).threads.set i _ ++ new)[i]? = _
      rw [List.getElem?_append_left (by simpa using hlt)]
      simp [hlt]
    · cases h
  · cases h
  · cases h

/-- A sequence ends. -/
theorem seq_ends {e : Execution p} (hf : e.Fair) (hr : e.KeepsRunning) (i : Nat) (rest : List (Option Cmd)) :
    ∀ n, (e.state n).threads[i]? = some (.seq rest) → ∃ m, n ≤ m ∧ (e.state m).threads[i]? = some .finished := by
  induction rest with
  | nil =>
    intro n hi
    obtain ⟨k, k1, k2, k3⟩ := hf.leaves hi ⟨.goroutine i, fun c hc => by
        cases c <;> first | exact hc.1.symm | exact hc.symm | exact hc.elim, fun l _ => by
        refine ⟨l, Nat.le_refl l, fun ht => ⟨.thread i (.go 0), ⟨rfl, trivial⟩, ?_⟩⟩
        unfold App.step
        rw [if_neg (by rw [e.not_crashed]; simp)]
        simp only [ht, threadStep]
        rfl⟩
    have hlt := (List.getElem?_eq_some_iff.1 k2).1
    rcases touch_move (e.next k) k3 k2 with ⟨a, _, h⟩ | ⟨j, ok, md, m', member, t'', _, hm, h, hs⟩ | ⟨h, _⟩ | ⟨c, h, _⟩
    · cases a with
      | go q =>
        simp only [threadStep, Option.some.injEq] at h
        refine ⟨k + 1, by omega, ?_⟩
        rw [← h]
        show ((e.state k).threads.set i _)[i]? = _
        simp [hlt]
      | _ => cases h
    · cases h
    · cases h
    · cases h
  | cons c rest ih =>
    intro n hi
    have hgo : ∃ k, n ≤ k ∧ (e.state k).threads[i]? = some (c.elim (.seq rest) fun c => .seqCall c rest) := by
      obtain ⟨k, k1, k2, k3⟩ := hf.leaves hi ⟨.goroutine i, fun c hc => by
          cases c <;> first | exact hc.1.symm | exact hc.symm | exact hc.elim, fun l _ => by
          refine ⟨l, Nat.le_refl l, fun ht => ⟨.thread i (.go 0), ⟨rfl, trivial⟩, ?_⟩⟩
          unfold App.step
          rw [if_neg (by rw [e.not_crashed]; simp)]
          simp only [ht]
          cases c <;> rfl⟩
      have hlt := (List.getElem?_eq_some_iff.1 k2).1
      rcases touch_move (e.next k) k3 k2 with ⟨a, _, h⟩ | ⟨j, ok, md, m', member, t'', _, hm, h, hs⟩ | ⟨h, _⟩ | ⟨c, h, _⟩
      · refine ⟨k + 1, by omega, ?_⟩
        cases c with
        | none =>
          cases a with
          | go q =>
            simp only [threadStep, Option.some.injEq] at h
            rw [← h]
            show ((e.state k).threads.set i _)[i]? = _
            simp [hlt]
          | _ => cases h
        | some c =>
          cases a with
          | go q =>
            simp only [threadStep, Option.some.injEq] at h
            rw [← h]
            show ((e.state k).threads.set i _)[i]? = _
            simp [hlt]
          | _ => cases h
      · cases h
      · cases h
      · cases h
    have hrest : ∃ k, n ≤ k ∧ (e.state k).threads[i]? = some (.seq rest) := by
      obtain ⟨k, k1, hk⟩ := hgo
      cases c with
      | none => exact ⟨k, k1, hk⟩
      | some c =>
        simp only [Option.elim_some] at hk
        obtain ⟨l, l1, l2, l3⟩ := hf.leaves hk ⟨.goroutine i, fun c hc => by
            cases c <;> first | exact hc.1.symm | exact hc.symm | exact hc.elim, fun l _ => by
            refine ⟨l, Nat.le_refl l, fun ht => ⟨.thread i (.go 0), ⟨rfl, trivial⟩, ?_⟩⟩
            unfold App.step
            rw [if_neg (by rw [e.not_crashed]; simp)]
            simp only [ht, threadStep]
            split <;> rfl⟩
        have hlt := (List.getElem?_eq_some_iff.1 l2).1
        rcases touch_move (e.next l) l3 l2 with ⟨a, _, h⟩ | ⟨j, ok, md, m', member, t'', _, hm, h, hs⟩ | ⟨h, _⟩ | ⟨c, h, _⟩
        · cases a with
          | go q =>
            simp only [threadStep] at h
            split at h
            · rename_i cmds _
              simp only [Option.some.injEq] at h
              obtain ⟨r, r1, r2⟩ := batch_ends hf hr i rest _ (l + 1) (cmds.map .call) rfl (by
                rw [← h]
                show ((e.state l).threads.set i _)[i]? = _
                simp [hlt])
              exact ⟨r, by omega, r2⟩
            · rename_i m _ _
              simp only [Option.some.injEq] at h
              have ht : (e.state (l + 1)).threads[i]? = some (.seqSend m rest) := by
                rw [← h]
                show ((e.state l).threads.set i _)[i]? = _
                simp [hlt]
              obtain ⟨r, r1, _, r2⟩ := offer_taken hf hr ht (fun _ => rfl) (fun s s' a h => by
                cases a with
                | giveUp =>
                  simp only [threadStep] at h
                  split at h
                  · assumption
                  · cases h
                | _ => cases h) (by simp) (by simp)
              exact ⟨r, by omega, r2⟩
            · simp only [Option.some.injEq] at h
              have hcr := e.not_crashed (l + 1)
              rw [← h] at hcr
              cases hcr
          | _ => cases h
        · cases h
        · cases h
        · cases h
    obtain ⟨k, k1, hk⟩ := hrest
    obtain ⟨m, m1, hm⟩ := ih k hk
    exact ⟨m, by omega, hm⟩

/-- A command that started had a goroutine of its own, unless it belongs to a sequence. -/
theorem started_call (e : Execution p) {i : Nat} {c : Cmd} (n : Nat) (h : .started i none (some c) ∈ (e.state n).trace)
    (hs : ∀ cmds, .spawned i cmds ∉ (e.state n).trace) : ∃ m, m ≤ n ∧ (e.state m).threads[i]? = some (.call c) := by
  induction n with
  | zero => rw [e.start] at h; cases h
  | succ n ih =>
    have hs' : ∀ cmds, .spawned i cmds ∉ (e.state n).trace :=
      fun cmds h => hs cmds (e.trace_mono (Nat.le_succ n) h)
    rcases move_starts (e.next n) h with h | h | ⟨rest, h⟩
    · obtain ⟨m, hm, h⟩ := ih h hs'
      exact ⟨m, by omega, h⟩
    · exact ⟨n + 1, Nat.le_refl _, h⟩
    · obtain ⟨cs, h⟩ := (e.life n).ownSeq i _ h rfl
      exact absurd h (hs' cs)

/-- In an app that keeps running no message is given up. -/
theorem KeepsRunning.no_drops {e : Execution p} (hr : e.KeepsRunning) (i : Nat) (j : Option Nat) (m : Option (Msg μ))
    (n : Nat) : .dropped i j m ∉ (e.state n).trace := by
  induction n with
  | zero => rw [e.start]; intro h; cases h
  | succ n ih =>
    intro h
    rcases move_dropped (e.next n) h with h | h
    · exact ih h
    · rw [hr.live n] at h; cases h

/-- Where the command of `Init` is. -/
theorem first_command (e : Execution p) (hlive : ∀ n, (e.state n).done = false) {c : Cmd} (hc : p.init = some (some c))
    (n : Nat) :
    ((e.state n).main = .raw ∨ (e.state n).main = .cursor ∨ (e.state n).main = .alt ∨ (e.state n).main = .model) ∨
    (∃ r, (e.state n).main = .returned r) ∨ (∃ i : Nat, (e.state n).threads[i]? = some (.initCmd c)) ∨
    ∃ m i : Nat, m ≤ n ∧ (e.state m).threads[i]? = some (.call c) ∧ .started i none (some c) ∈ (e.state m).trace := by
  induction n with
  | zero => rw [e.start]; exact .inl (.inl rfl)
  | succ n ih =>
    have hcr : ¬ (e.state n).crashed = true := by rw [e.not_crashed]; simp
    rcases ih with h | ⟨r, h⟩ | ⟨i, h⟩ | ⟨m, i, hm, h⟩
    · rcases move_main (e.next n) with h' | ⟨a, h'⟩ | ⟨md, h'⟩ | ⟨md, c', j, h', _⟩
      · rw [h']; exact .inl h
      · have hn := e.next n
        rw [h'] at hn
        simp only [move] at hn
        unfold App.step at hn
        rw [if_neg hcr] at hn
        simp only at hn
        rcases h with h | h | h | h
        · simp only [mainStep, h] at hn
          rcases a with ok | d
          · cases ok
            · simp only [Option.some.injEq] at hn
              rw [← hn]; exact .inr (.inl ⟨_, rfl⟩)
            · simp only [Option.some.injEq] at hn
              rw [← hn]; exact .inl (.inr (.inl rfl))
          · cases hn
        · simp only [mainStep, h] at hn
          rcases a with ok | d
          · cases ok
            · simp only [Option.some.injEq] at hn
              rw [← hn]; exact .inr (.inl ⟨_, rfl⟩)
            · simp only [Option.some.injEq] at hn
              rw [← hn]; exact .inl (.inr (.inr (.inl rfl)))
          · cases hn
        · simp only [mainStep, h] at hn
          rcases a with ok | d
          · cases ok
            · simp only [Option.some.injEq] at hn
              rw [← hn]; exact .inr (.inl ⟨_, rfl⟩)
            · simp only [Option.some.injEq] at hn
              rw [← hn]; exact .inl (.inr (.inr (.inr rfl)))
          · cases hn
        · rcases a with ok | d
          · simp only [mainStep, h, hc, Option.some.injEq] at hn
            refine .inr (.inr (.inl ⟨(e.state n).threads.length, ?_⟩))
            rw [← hn]
            show ((e.state n).threads ++ [Thread.initCmd c])[(e.state n).threads.length]? = _
            simp
          · simp only [mainStep, h] at hn
            cases hn
      · rcases h with h | h | h | h <;> (rw [h] at h'; cases h')
      · rcases h with h | h | h | h <;> (rw [h] at h'; cases h')
    · rcases move_main (e.next n) with h' | ⟨a, h'⟩ | ⟨md, h'⟩ | ⟨md, c', j, h', _⟩
      · rw [h']; exact .inr (.inl ⟨r, h⟩)
      · have hn := e.next n
        rw [h'] at hn
        simp only [move] at hn
        unfold App.step at hn
        rw [if_neg hcr] at hn
        simp only [mainStep, h] at hn
        cases hn
      · rw [h] at h'; cases h'
      · rw [h] at h'; cases h'
    · by_cases ht : touched i (e.choice n)
      · rcases touch_move (e.next n) ht h with ⟨a, _, h⟩ | ⟨_, _, _, _, _, _, _, _, h, _⟩ | ⟨h, _⟩ | ⟨c', h, h'⟩
        · cases a with
          | giveUp =>
            simp only [threadStep, hlive n] at h
            cases h
          | _ => cases h
        · cases h
        · cases h
        · cases h
          refine .inr (.inr (.inr ⟨n + 1, ((e.state n).put i .finished).threads.length, Nat.le_refl _, ?_⟩))
          rw [h']
          refine ⟨?_, ?_⟩
          · show (((e.state n).put i .finished).threads ++ [Thread.call c])[_]? = _
            simp
          · exact List.mem_append_right _ (List.mem_singleton.2 rfl)
      · exact .inr (.inr (.inl ⟨i, move_other (e.next n) h ht⟩))
    · exact .inr (.inr (.inr ⟨m, i, by omega, h⟩))

end Execution

end

end App

open App in
/-- A command that started, other than in a sequence, returns, and its message is taken by the event loop. -/
theorem C128_started {σ μ : Type} {p : Program σ μ} (e : Execution p) (hf : e.Fair) (hr : e.KeepsRunning) (n i : Nat)
    (c : Cmd) (h : .started i none (some c) ∈ (e.state n).trace) (hs : ∀ cmds, .spawned i cmds ∉ (e.state n).trace) :
    ∃ m, n ≤ m ∧ Arrived p i c (e.state m).trace := by
  obtain ⟨k, hk, h⟩ := e.started_call n h hs
  obtain ⟨m, hm, q, x, h1, h2⟩ := Execution.call_arrives hf hr h
  exact ⟨max m n, by omega, q, x, h1, e.trace_mono (by omega) h2⟩

open App in
/-- A command that `Update` returns starts, and its message is taken by the event loop. -/
theorem C128_update {σ μ : Type} {p : Program σ μ} (e : Execution p) (hf : e.Fair) (hr : e.KeepsRunning) (n : Nat)
    (c : Cmd) (h : returned c (e.state n).trace < returned c (e.state (n + 1)).trace) :
    ∃ m i, n < m ∧ .started i none (some c) ∉ (e.state n).trace ∧ .started i none (some c) ∈ (e.state m).trace ∧
      Arrived p i c (e.state m).trace := by
  rcases move_returned (e.next n) c with h' | ⟨md, h'⟩
  · omega
  · obtain ⟨k, hk, _, j, _, hs⟩ := Execution.command_taken hf hr.live h'
    have hst : .started (e.state k).threads.length none (some c) ∈ (e.state (k + 1)).trace := by
      rw [hs]
      exact List.mem_append_right _ (List.mem_singleton.2 rfl)
    have hth : (e.state (k + 1)).threads[(e.state k).threads.length]? = some (.call c) := by
      rw [hs]
      show ((e.state k).threads ++ [Thread.call c])[(e.state k).threads.length]? = _
      simp
    obtain ⟨m, hm, q, x, h1, h2⟩ := Execution.call_arrives hf hr hth
    refine ⟨m, (e.state k).threads.length, by omega, fun hin => ?_, e.trace_mono (by omega) hst, q, x, h1, h2⟩
    have := (e.life k).fresh _ (e.trace_mono (by omega) hin) _ rfl
    omega

open App in
/-- The command that `Init` returns starts, and its message is taken by the event loop. -/
theorem C128_init {σ μ : Type} {p : Program σ μ} (e : Execution p) (hf : e.Fair) (hr : e.KeepsRunning)
    (c : Cmd) (hc : p.init = some (some c)) :
    ∃ m i, .started i none (some c) ∈ (e.state m).trace ∧ Arrived p i c (e.state m).trace := by
  have hend : ∀ k i : Nat, (e.state k).threads[i]? = some (.call c) → .started i none (some c) ∈ (e.state k).trace →
      ∃ m i, .started i none (some c) ∈ (e.state m).trace ∧ Arrived p i c (e.state m).trace := by
    intro k i h1 h2
    obtain ⟨m, hm, q, x, h3, h4⟩ := Execution.call_arrives hf hr h1
    exact ⟨m, i, e.trace_mono hm h2, q, x, h3, h4⟩
  obtain ⟨n, hn⟩ := id hr
  have hloop := (hn n (Nat.le_refl n)).2
  rcases e.first_command hr.live hc n with h | ⟨r, h⟩ | ⟨i, h⟩ | ⟨m, i, _, h1, h2⟩
  · rcases h with h | h | h | h <;> (rw [h] at hloop; rcases hloop with ⟨_, h⟩ | ⟨_, _, h⟩ | ⟨_, h⟩ <;> cases h)
  · rw [h] at hloop
    rcases hloop with ⟨_, h⟩ | ⟨_, _, h⟩ | ⟨_, h⟩ <;> cases h
  · obtain ⟨k, k1, k2, k3⟩ := hf.leaves h ⟨.first i, fun c hc => by
        cases c <;> first | exact hc.1.symm | exact hc.symm | exact hc.elim, fun l hl => by
        refine ⟨l, Nat.le_refl l, fun ht => ?_⟩
        have hh := e.housekeeping l
        have hm : Thread.commands ∈ (e.state l).threads := by
          unfold Housekeeping at hh
          rcases (hn l hl).2 with ⟨_, h⟩ | ⟨_, _, h⟩ | ⟨_, h⟩ <;>
            (rw [h] at hh; simpa only [hr.live, Bool.false_eq_true, false_or] using hh)
        obtain ⟨j, hj, hje⟩ := List.getElem_of_mem hm
        refine ⟨.fromInit i j, rfl, ?_⟩
        unfold App.step
        rw [if_neg (by rw [e.not_crashed]; simp)]
        simp only [ht, List.getElem?_eq_getElem hj, hje]
        rfl⟩
    rcases touch_move (e.next k) k3 k2 with ⟨a, _, h⟩ | ⟨_, _, _, _, _, _, _, _, h, _⟩ | ⟨h, _⟩ | ⟨c', h, h'⟩
    · cases a with
      | giveUp =>
        simp only [threadStep, hr.live k] at h
        cases h
      | _ => cases h
    · cases h
    · cases h
    · cases h
      refine hend (k + 1) ((e.state k).put i .finished).threads.length ?_ ?_
      · rw [h']
        show (((e.state k).put i .finished).threads ++ [Thread.call c])[_]? = _
        simp
      · rw [h']
        exact List.mem_append_right _ (List.mem_singleton.2 rfl)
  · exact hend m i h1 h2

open App in
/-- A sequence is run to its end: all its commands, batches included, ran one after the other, and their messages
were all taken by the event loop. -/
theorem C128_sequence {σ μ : Type} {p : Program σ μ} (e : Execution p) (hf : e.Fair) (hr : e.KeepsRunning) (n i : Nat)
    (cmds : List (Option Cmd)) (h : .spawned i cmds ∈ (e.state n).trace) :
    ∃ m, n ≤ m ∧ Past p i cmds (doings i (e.state m).trace) ∧ ∀ i j x, .dropped i j x ∉ (e.state m).trace := by
  have key : ∃ m, n ≤ m ∧ (e.state m).threads[i]? = some .finished := by
    obtain ⟨t, ht, hq⟩ := (e.life n).seqs i cmds h
    have hsend : ∀ m rest k, (e.state k).threads[i]? = some (.seqSend m rest) →
        ∃ l, k ≤ l ∧ (e.state l).threads[i]? = some .finished := by
      intro m rest k ht
      obtain ⟨r, r1, _, r2⟩ := Execution.offer_taken hf hr ht (fun _ => rfl) (fun s s' a h => by
        cases a with
        | giveUp =>
          simp only [threadStep] at h
          split at h
          · assumption
          · cases h
        | _ => cases h) (by simp) (by simp)
      obtain ⟨l, l1, l2⟩ := Execution.seq_ends hf hr i rest r r2
      exact ⟨l, by omega, l2⟩
    have hwait : ∀ ms rest k, (e.state k).threads[i]? = some (.seqWait ms rest) →
        ∃ l, k ≤ l ∧ (e.state l).threads[i]? = some .finished := by
      intro ms rest k ht
      obtain ⟨r, r1, r2⟩ := Execution.batch_ends hf hr i rest _ k ms rfl ht
      obtain ⟨l, l1, l2⟩ := Execution.seq_ends hf hr i rest r r2
      exact ⟨l, by omega, l2⟩
    cases t with
    | seq rest => exact Execution.seq_ends hf hr i rest n ht
    | seqSend m rest => exact hsend m rest n ht
    | seqWait ms rest => exact hwait ms rest n ht
    | finished => exact ⟨n, Nat.le_refl n, ht⟩
    | seqCall c rest =>
      obtain ⟨l, l1, l2, l3⟩ := hf.leaves ht ⟨.goroutine i, fun c hc => by
          cases c <;> first | exact hc.1.symm | exact hc.symm | exact hc.elim, fun l _ => by
          refine ⟨l, Nat.le_refl l, fun ht => ⟨.thread i (.go 0), ⟨rfl, trivial⟩, ?_⟩⟩
          unfold App.step
          rw [if_neg (by rw [e.not_crashed]; simp)]
          simp only [ht, threadStep]
          split <;> rfl⟩
      have hlt := (List.getElem?_eq_some_iff.1 l2).1
      rcases touch_move (e.next l) l3 l2 with ⟨a, _, h⟩ | ⟨j, ok, md, m', member, t'', _, hm, h, hs⟩ | ⟨h, _⟩ | ⟨c, h, _⟩
      · cases a with
        | go q =>
          simp only [threadStep] at h
          split at h
          · rename_i cmds _
            simp only [Option.some.injEq] at h
            obtain ⟨r, r1, r2⟩ := hwait (cmds.map .call) rest (l + 1) (by
              rw [← h]
              show ((e.state l).threads.set i _)[i]? = _
              simp [hlt])
            exact ⟨r, by omega, r2⟩
          · rename_i m _ _
            simp only [Option.some.injEq] at h
            obtain ⟨r, r1, r2⟩ := hsend m rest (l + 1) (by
              rw [← h]
              show ((e.state l).threads.set i _)[i]? = _
              simp [hlt])
            exact ⟨r, by omega, r2⟩
          · simp only [Option.some.injEq] at h
            have hcr := e.not_crashed (l + 1)
            rw [← h] at hcr
            cases hcr
        | _ => cases h
      · cases h
      · cases h
      · cases h
    | _ => exact hq.elim
  obtain ⟨m, hm, ht⟩ := key
  obtain ⟨t, ht', hq⟩ := (e.life m).seqs i cmds (e.trace_mono hm h)
  rw [ht] at ht'
  cases ht'
  exact ⟨m, hm, hq, fun i j x => hr.no_drops i j x m⟩

open App in
/-- Input that was read is taken by the event loop. -/
theorem C128_input {σ μ : Type} {p : Program σ μ} (e : Execution p) (hf : e.Fair) (hr : e.KeepsRunning) (n i : Nat)
    (x : μ) (h : e.choice n = some (.thread i (.input x))) :
    ∃ m, n < m ∧ .delivered i none (some (.user x)) ∈ (e.state m).trace := by
  have hn := e.next n
  rw [h] at hn
  simp only [move] at hn
  unfold App.step at hn
  rw [if_neg (by rw [e.not_crashed]; simp)] at hn
  simp only at hn
  split at hn
  · cases hn
  · rename_i t ht
    have hlt := (List.getElem?_eq_some_iff.1 ht).1
    cases t with
    | reading =>
      simp only [threadStep, Option.some.injEq] at hn
      have hi : (e.state (n + 1)).threads[i]? = some (.readSend x) := by
        rw [← hn]
        show ((e.state n).threads.set i _)[i]? = _
        simp [hlt]
      obtain ⟨m, h1, h2, _⟩ := Execution.offer_taken hf hr hi (fun _ => rfl) (fun s s' a h => by
        cases a with
        | giveUp =>
          simp only [threadStep] at h
          split at h
          · assumption
          · cases h
        | _ => cases h) (by simp) (by simp)
      exact ⟨m, by omega, h2⟩
    | seq rest => rcases rest with _ | ⟨_ | _, _⟩ <;> cases hn
    | _ => cases hn

open App in
/-- A size of the window that was found is taken by the event loop. -/
theorem C128_size {σ μ : Type} {p : Program σ μ} (e : Execution p) (hf : e.Fair) (hr : e.KeepsRunning) (n i : Nat)
    (w h : Int) (hc : e.choice n = some (.thread i (.sized w h))) :
    ∃ m, n < m ∧ .delivered i none (some (.size w h)) ∈ (e.state m).trace := by
  have hn := e.next n
  rw [hc] at hn
  simp only [move] at hn
  unfold App.step at hn
  rw [if_neg (by rw [e.not_crashed]; simp)] at hn
  simp only at hn
  split at hn
  · cases hn
  · rename_i t ht
    have hlt := (List.getElem?_eq_some_iff.1 ht).1
    cases t with
    | size loop =>
      simp only [threadStep, Option.some.injEq] at hn
      have hi : (e.state (n + 1)).threads[i]? = some (.sizeSend loop w h) := by
        rw [← hn]
        show ((e.state n).threads.set i _)[i]? = _
        simp [hlt]
      obtain ⟨m, h1, h2, _⟩ := Execution.offer_taken hf hr hi (fun _ => rfl) (fun s s' a h => by
        cases a with
        | giveUp =>
          simp only [threadStep] at h
          split at h
          · assumption
          · cases h
        | _ => cases h) (by simp) (by simp)
      exact ⟨m, by omega, h2⟩
    | seq rest => rcases rest with _ | ⟨_ | _, _⟩ <;> cases hn
    | _ => cases hn

namespace App

section

variable {σ μ : Type}

theorem runFrom_snoc {p : Program σ μ} (c : Choice μ) : ∀ (cs : List (Choice μ)) {s s' : State σ μ},
    runFrom p s cs = some s' → runFrom p s (cs ++ [c]) = step p s' c := by
  intro cs
  induction cs with
  | nil =>
    intro s s' h
    cases h
    show (match step p s c with | none => none | some s => some s) = _
    cases step p s c <;> rfl
  | cons d cs ih =>
    intro s s' h
    simp only [runFrom, List.cons_append] at h ⊢
    cases hd : step p s d with
    | none => rw [hd] at h; cases h
    | some t => rw [hd] at h; exact ih h

theorem runFrom_take {p : Program σ μ} (n : Nat) : ∀ (cs : List (Choice μ)) {s s' : State σ μ},
    runFrom p s cs = some s' → (runFrom p s (cs.take n)).isSome = true := by
  induction n with
  | zero => intro cs s s' h; rfl
  | succ n ih =>
    intro cs s s' h
    cases cs with
    | nil => rfl
    | cons d cs =>
      simp only [runFrom, List.take_succ_cons] at h ⊢
      cases hd : step p s d with
      | none => rw [hd] at h; cases h
      | some t => rw [hd] at h; exact ih cs h

/-- A run, and then rest. -/
def thenRests (p : Program σ μ) (cs : List (Choice μ)) (s : State σ μ) (h : run p cs = some s)
    (hc : s.crashed = false) : Execution p where
  state n := (run p (cs.take n)).getD (.start σ μ)
  choice n := cs[n]?
  start := rfl
  next n := by
    obtain ⟨t, ht⟩ := Option.isSome_iff_exists.1 (runFrom_take n cs h)
    have ht' : run p (cs.take n) = some t := ht
    by_cases hn : n < cs.length
    · rw [List.getElem?_eq_getElem hn, List.take_succ_eq_append_getElem hn]
      obtain ⟨t', h'⟩ := Option.isSome_iff_exists.1 (runFrom_take (n + 1) cs h)
      rw [List.take_succ_eq_append_getElem hn] at h'
      have e := h'
      rw [runFrom_snoc _ _ ht] at e
      have h'' : run p (cs.take n ++ [cs[n]]) = some t' := h'
      rw [ht', h'']
      exact e
    · rw [List.getElem?_eq_none (by omega), List.take_of_length_le (by omega), List.take_of_length_le (by omega), h]
      simp [move, hc]

theorem thenRests_end (p : Program σ μ) (cs : List (Choice μ)) (s : State σ μ) (h : run p cs = some s)
    (hc : s.crashed = false) (n : Nat) (hn : cs.length ≤ n) : (thenRests p cs s h hc).state n = s := by
  show (run p (cs.take n)).getD _ = s
  rw [List.take_of_length_le hn, h]
  rfl

/-- Whether a goroutine only waits for the surroundings or for the event loop. -/
def Thread.waits : Thread μ → Bool
  | .finished => true
  | .reading => true
  | .size _ => true
  | .commands => true
  | _ => false

/-- An app in which everyone waits rests fairly. -/
theorem thenRests_fair (p : Program σ μ) (cs : List (Choice μ)) (s : State σ μ) (h : run p cs = some s)
    (hc : s.crashed = false) (md : σ) (hm : s.main = .select md) (hd : s.done = false)
    (ht : s.threads.all Thread.waits = true) :
    (thenRests p cs s h hc).Fair ∧ (thenRests p cs s h hc).KeepsRunning := by
  have hw : ∀ (i : Nat) (t : Thread μ), s.threads[i]? = some t → t.waits = true := fun i t hi =>
    List.all_eq_true.1 ht t (List.mem_of_getElem? hi)
  refine ⟨fun turn hcan => ?_, cs.length, fun m hm' => ?_⟩
  · exfalso
    obtain ⟨m, h1, c, h2, h3⟩ := hcan cs.length
    rw [thenRests_end p cs s h hc m h1] at h3
    unfold step at h3
    rw [if_neg (by simp [hc])] at h3
    cases c with
    | cancel => cases turn <;> exact h2
    | main a =>
      simp only [mainStep, hm] at h3
      cases a <;> simp [hd] at h3
    | thread i a =>
      cases turn with
      | goroutine j =>
        obtain ⟨_, ha⟩ := h2
        cases hi : s.threads[i]? with
        | none => simp [hi] at h3
        | some t =>
          have hw := hw i t hi
          simp only [hi] at h3
          cases t with
          | finished => simp [threadStep] at h3
          | reading => cases a <;> first | exact ha | simp [threadStep] at h3
          | size l => cases a <;> first | exact ha | (cases l <;> simp [threadStep, hd] at h3)
          | commands => cases a <;> simp [threadStep, hd] at h3
          | _ => cases hw
      | _ => exact h2
    | message i j ok =>
      cases hi : s.threads[i]? with
      | none => simp [hi] at h3
      | some t =>
        have hw := hw i t hi
        simp only [hi, hm] at h3
        cases t with
        | finished => cases h3
        | reading => cases h3
        | size l => cases h3
        | commands => cases h3
        | _ => cases hw
    | error i => cases turn <;> exact h2
    | fromMain j => simp [hm] at h3
    | fromInit i j =>
      cases hi : s.threads[i]? with
      | none => simp [hi] at h3
      | some t =>
        have hw := hw i t hi
        simp only [hi] at h3
        cases t with
        | finished => cases h3
        | reading => cases h3
        | size l => cases h3
        | commands => cases h3
        | _ => cases hw
  · rw [thenRests_end p cs s h hc m hm']
    exact ⟨hd, .inl ⟨md, hm⟩⟩

end

/-- The first command leads to a second one, which returns a sequence: a batch of two, nothing, and a command. -/
def chain : Program Nat Nat where
  start := 0
  init := some (some 1)
  update := fun n m => match m with
    | .user 7 => some (n + 1, some 2)
    | _ => some (n + 1, none)
  call := fun c _ => match c with
    | 1 => .returns (some (.user 7))
    | 2 => .returns (some (.sequence [some 3, none, some 4]))
    | 3 => .returns (some (.batch [some 5, some 6]))
    | c => .returns (some (.user (c + 10)))

/-- After `Update`. -/
def chainDraws : List (Choice Nat) := [.fromMain 4, .main (.drawn (.ok true))]

/-- It all runs; then the size of the window is found and a key is pressed. -/
def chainRun : List (Choice Nat) :=
  [.main (.op true), .main (.op true), .main (.op true), .main (.op true), .main (.drawn (.ok true)), .main (.op true),
    .main (.op true), .main (.op true), .fromInit 0 4, .thread 5 (.go 0), .message 5 0 true] ++ chainDraws ++
  [.thread 6 (.go 0), .message 6 0 true] ++ chainDraws ++
  [.thread 7 (.go 0), .thread 7 (.go 0), .thread 7 (.member 0 0), .thread 7 (.member 1 0), .message 7 1 true] ++
  chainDraws ++ [.message 7 0 true] ++ chainDraws ++
  [.thread 7 (.go 0), .thread 7 (.go 0), .thread 7 (.go 0), .thread 7 (.go 0), .message 7 0 true] ++ chainDraws ++
  [.thread 7 (.go 0), .thread 2 (.sized 8 3), .message 2 0 true] ++ chainDraws ++
  [.thread 1 (.input 1), .message 1 0 true] ++ chainDraws

/-- Where it rests. -/
def chainEnd : State Nat Nat := (run chain chainRun).getD (.start Nat Nat)

theorem chain_ends : run chain chainRun = some chainEnd := by decide +kernel

/-- It rests for ever. -/
def chainLive : Execution chain := thenRests chain chainRun chainEnd chain_ends (by decide +kernel)

end App

open App in
/-- Non-vacuity: this execution is fair, and the app keeps running. Already before the sequence was run, it is
known that it will be; the same holds for all the others. -/
example : chainLive.Fair ∧ chainLive.KeepsRunning ∧ chain.init = some (some 1) ∧
    returned 2 (chainLive.state 10).trace < returned 2 (chainLive.state 11).trace ∧
    .spawned 7 [some 3, none, some 4] ∈ (chainLive.state 15).trace ∧
    .started 7 none (some 3) ∉ (chainLive.state 15).trace ∧
    .started 6 none (some 2) ∈ (chainLive.state 13).trace ∧
    chainLive.choice 35 = some (.thread 2 (.sized 8 3)) ∧ chainLive.choice 39 = some (.thread 1 (.input 1)) := by
  obtain ⟨h1, h2⟩ := thenRests_fair chain chainRun chainEnd chain_ends (by decide +kernel) 7 (by decide +kernel)
    (by decide +kernel) (by decide +kernel)
  exact ⟨h1, h2, by decide +kernel⟩

end Bento
