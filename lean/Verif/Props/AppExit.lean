import Verif.Props.App

/-!
# Leaving the event loop

Properties C54, C55, C75.
-/

namespace Bento

namespace App

section

variable {σ μ : Type}

/-! ### C54: the terminal is restored -/

theorem shutdown_flags {s s' : State σ μ} {st : Stage} {ok : Bool} {c : Closed}
    (h : shutdown s st ok = some (s', c)) : (s'.raw = true → s.raw = true) ∧ (s'.alt = true → s.alt = true) ∧
      (s'.hidden = true → s.hidden = true) ∧ s.trace <+: s'.trace := by
  unfold shutdown at h
  split at h <;> (try split at h) <;> cases h <;>
    refine ⟨?_, ?_, ?_, ?_⟩ <;> first | exact id | (intro h; cases h) | exact List.prefix_append _ _ | exact List.prefix_refl _

theorem threadStep_flags {p : Program σ μ} {s s' : State σ μ} {i : Nat} {t : Thread μ} {a : ThreadChoice μ}
    (h : threadStep p s i t a = some s') : (s'.raw = true → s.raw = true) ∧ (s'.alt = true → s.alt = true) ∧
      (s'.hidden = true → s.hidden = true) ∧ s.trace <+: s'.trace := by
  unfold threadStep at h
  split at h
  case h_5 =>
    split at h
    · cases h
    all_goals
      rename_i heq
      cases h
      have := shutdown_flags heq
      exact this
  all_goals
    repeat' split at h
    all_goals
      first
      | cases h; done
      | (cases h
         refine ⟨id, id, id, ?_⟩
         first | exact List.prefix_append _ _ | exact List.prefix_refl _)

/-- What is known of the terminal, depending on where `Run` is. -/
def Restoring (s : State σ μ) : Prop :=
  match s.main with
  | .closing _ .raw => s.hidden = false
  | .closing _ .alt => s.hidden = false ∧ s.raw = false
  | .returned (.ok _) => s.hidden = false ∧ s.raw = false ∧ s.alt = false
  | .returned (.recovered _) => (s.hidden = false ∧ s.raw = false ∧ s.alt = false) ∨ ∃ st, .failed st ∈ s.trace
  | _ => True

theorem Restoring.mono {s s' : State σ μ} (h : Restoring s) (hm : s'.main = s.main)
    (hf : (s'.raw = true → s.raw = true) ∧ (s'.alt = true → s.alt = true) ∧
      (s'.hidden = true → s.hidden = true) ∧ s.trace <+: s'.trace) : Restoring s' := by
  obtain ⟨h1, h2, h3, h4⟩ := hf
  have k : ∀ {a b : Bool}, (b = true → a = true) → a = false → b = false := by
    intro a b; cases a <;> cases b <;> simp
  unfold Restoring at *
  rw [hm]
  split at h
  · exact k h3 h
  · exact ⟨k h3 h.1, k h1 h.2⟩
  · exact ⟨k h3 h.1, k h1 h.2.1, k h2 h.2.2⟩
  · rcases h with h | ⟨st, h⟩
    · exact .inl ⟨k h3 h.1, k h1 h.2.1, k h2 h.2.2⟩
    · exact .inr ⟨st, h4.subset h⟩
  · first | trivial | (split <;> simp_all)

theorem mainStep_restoring {p : Program σ μ} {s s' : State σ μ} {a : MainChoice} (h : Restoring s)
    (hs : mainStep p s a = some s') : Restoring s' := by
  unfold mainStep at hs
  split at hs
  case h_17 r stage ok heq =>
    unfold Restoring at h
    rw [heq] at h
    cases stage <;> cases ok <;> simp only [shutdown, Bool.false_eq_true, if_true, if_false] at hs h
    case wait.false => cases hh : s.threads.any Thread.isHandler <;> simp only [hh, if_true, if_false, Bool.false_eq_true] at hs <;> cases hs; trivial
    case wait.true => cases hh : s.threads.any Thread.isHandler <;> simp only [hh, if_true, if_false, Bool.false_eq_true] at hs <;> cases hs; trivial
    case alt.true =>
      cases hs
      unfold Restoring State.at
      simp only
      split <;> simp_all
    all_goals
      first
      | (cases hs; trivial)
      | (cases hs; exact ⟨h, rfl⟩)
      | (cases hs; exact rfl)
      | (split at hs <;> cases hs
         · trivial
         · unfold Restoring State.at State.log
           simp only
           split <;> simp_all)
  all_goals
    first
    | cases hs; done
    | (cases hs; trivial)
    | (split at hs <;> first | (cases hs; trivial) | (cases hs; done))
    | (cases hs; unfold drawn; split <;> trivial)

theorem update_restoring (p : Program σ μ) (s : State σ μ) (md : σ) (m : Msg μ) : Restoring (update p s md m) := by
  unfold update
  split <;> trivial

theorem restoring_select {s : State σ μ} {md : σ} (h : s.main = .select md) : Restoring s := by
  unfold Restoring
  rw [h]
  trivial

theorem step_restoring {p : Program σ μ} {s s' : State σ μ} {c : Choice μ} (h : Restoring s)
    (hs : step p s c = some s') : Restoring s' := by
  unfold step at hs
  split at hs
  · cases hs
  cases c with
  | cancel =>
    cases hs
    exact h.mono rfl ⟨id, id, id, List.prefix_append _ _⟩
  | main a => exact mainStep_restoring h hs
  | thread i a =>
    simp only at hs
    split at hs
    · cases hs
    · exact h.mono (threadStep_quiet hs).1 (threadStep_flags hs)
  | message i j ok =>
    simp only at hs
    split at hs
    · rename_i md t h1 h2
      split at hs
      · cases hs
      · rename_i m member t' heq
        cases hs
        unfold receive
        split
        · exact restoring_select (md := md) h1
        · trivial
        · split
          · exact update_restoring ..
          · trivial
        · exact update_restoring ..
        · exact update_restoring ..
    · cases hs
  | error i =>
    simp only at hs
    split at hs
    · cases hs; trivial
    · cases hs
  | fromMain j =>
    simp only at hs
    split at hs
    · cases hs; trivial
    · cases hs
  | fromInit i j =>
    simp only at hs
    split at hs
    · cases hs
      exact h.mono rfl ⟨id, id, id, List.prefix_append _ _⟩
    · cases hs

theorem run_restoring {p : Program σ μ} {cs : List (Choice μ)} {s : State σ μ} (h : run p cs = some s) :
    Restoring s :=
  run_induction (P := Restoring) trivial (fun _ _ _ h _ hs => step_restoring h hs) h

end

end App

open App in
/-- **C54 (partial).** When `Run` returns without an error, raw mode is off, the alternate screen is left and the
cursor is visible. Missing: the other ways to return, for which it is false. -/
theorem C54_quit_partial {σ μ : Type} (p : Program σ μ) (cs : List (Choice μ)) (s : App.State σ μ) (m : σ)
    (h : run p cs = some s) (hm : s.main = .returned (.ok m)) :
    s.raw = false ∧ s.alt = false ∧ s.hidden = false := by
  have := run_restoring h
  unfold Restoring at this
  rw [hm] at this
  exact ⟨this.2.1, this.2.2, this.1⟩

open App in
/-- **C54 (partial).** The same after a panic of the goroutine of `Run`, unless restoring the terminal fails. -/
theorem C54_panic_partial {σ μ : Type} (p : Program σ μ) (cs : List (Choice μ)) (s : App.State σ μ) (m : Option σ)
    (h : run p cs = some s) (hm : s.main = .returned (.recovered m)) (hf : ∀ st, .failed st ∉ s.trace) :
    s.raw = false ∧ s.alt = false ∧ s.hidden = false := by
  have := run_restoring h
  unfold Restoring at this
  rw [hm] at this
  rcases this with this | ⟨st, this⟩
  · exact ⟨this.2.1, this.2.2, this.1⟩
  · exact absurd this (hf st)

namespace App

/-- The terminal is as the app found it. -/
def restored {σ μ : Type} (s : State σ μ) : Bool := !s.raw && !s.alt && !s.hidden

end App

open App in
/-- **C54 (negation).** When the context is cancelled, `Run` returns with the terminal in raw mode, on the
alternate screen, and with a hidden cursor. -/
theorem C54_cancel_false : ((run (demo none) (startup ++ [.cancel, .main (.op true)])).map fun s =>
    (s.main, s.raw, s.alt, s.hidden)) = some (.returned (.killed 0), true, true, true) := by
  decide +kernel

open App in
/-- **C54 (negation).** The same when reading the input fails. -/
theorem C54_error_false : ((run (demo none) (startup ++ [.thread 0 .inputError, .error 0])).map fun s =>
    (s.main, s.raw, s.alt, s.hidden)) = some (.returned (.error 0), true, true, true) := by
  decide +kernel

open App in
/-- **C54 (negation).** When the terminal cannot be set up completely, what was changed stays changed. -/
theorem C54_init_false : ((run (demo none) [.main (.op true), .main (.op false)]).map fun s =>
    (s.main, s.raw)) = some (.returned (.error 0), true) := by
  decide +kernel

open App in
/-- **C54 (negation).** When a command panics, `Run` can return before the terminal is restored. -/
theorem C54_command_false : ((run (demo none) (startup ++ [.thread 0 (.input 5), .message 0 0 true, .fromMain 3,
    .main (.drawn (.ok true)), .thread 4 (.go 0), .thread 4 (.op true), .main (.op true)])).map fun s =>
    (s.main, s.raw, s.alt, s.hidden)) = some (.returned (.killed 1), true, true, true) := by
  decide +kernel

open App in
/-- **C54 (negation).** A panic of a command in a sequence ends the process; nothing is restored. -/
theorem C54_sequence_false : ((run (demo none) (startup ++ [.thread 0 (.input 6), .message 0 0 true, .fromMain 3,
    .main (.drawn (.ok true)), .thread 4 (.go 0), .message 4 0 true, .thread 5 (.go 0), .thread 5 (.go 0)])).map
    fun s => (s.crashed, s.raw, s.alt, s.hidden)) = some (true, true, true, true) := by
  decide +kernel

open App in
/-- An app that quits: the hypotheses of `C54_quit_partial` are met. -/
example : ((run (demo none) (startup ++ [.thread 0 (.input 4), .message 0 0 true, .fromMain 3,
    .main (.drawn (.ok true)), .thread 4 (.go 0), .message 4 0 true, .main (.op true), .main (.drawn (.ok true)),
    .main (.op true), .thread 2 .giveUp, .thread 3 .giveUp, .main (.op true), .main (.op true), .main (.op true),
    .main (.op true), .main (.op true)])).map fun s => (s.main, restored s, taken s.trace)) =
    some (.returned (.ok 1), true, [some (.user 4), some .quit]) := by
  decide +kernel

/-! ### C55: nothing blocks forever -/

namespace App

section

variable {σ μ : Type}

/-- A step of a goroutine alone changes only that goroutine; it does not become a handler or start to take
commands. -/
theorem threadStep_threads {p : Program σ μ} {s s' : State σ μ} {i : Nat} {t : Thread μ} {a : ThreadChoice μ}
    (h : threadStep p s i t a = some s') : s'.threads = s.threads ∨
      ∃ t', s'.threads = s.threads.set i t' ∧ t' ≠ .commands ∧ (t'.isHandler = true → t.isHandler = true) ∧
        (t = .commands → s.done = true) := by
  unfold threadStep at h
  split at h
  case h_5 =>
    split at h
    · cases h
    all_goals
      rename_i heq
      cases h
      have := (shutdown_main heq).2.1
      exact .inr ⟨_, by unfold State.put; rw [this], by simp, by simp [Thread.isHandler], by simp⟩
  all_goals
    repeat' split at h
    all_goals
      first
      | cases h; done
      | (cases h; exact .inl rfl)
      | (cases h
         refine .inr ⟨_, rfl, ?_, ?_, ?_⟩
         · first | (intro h; cases h; done) | (unfold afterSize; split <;> simp)
         · first | (intro h; cases h; done) | (intro _; rfl) | exact id | (unfold afterSize; split <;> simp_all [Thread.isHandler])
         · first | (intro h; cases h; done) | (intro _; assumption))

theorem mem_set_of {α : Type} {l : List α} {i : Nat} {a b : α} (h : a ∈ l.set i b) : a ∈ l ∨ a = b :=
  List.mem_or_eq_of_mem_set h

/-- A goroutine that sends a command when none is there to take it is stuck for good. -/
theorem stuck_command {p : Program σ μ} {s s' : State σ μ} {md : σ} {c : Option Cmd} {ch : Choice μ}
    (hm : s.main = .command md c) (hc : Thread.commands ∉ s.threads) (hs : step p s ch = some s') :
    s'.main = .command md c ∧ Thread.commands ∉ s'.threads := by
  unfold step at hs
  split at hs
  · cases hs
  cases ch with
  | cancel => cases hs; exact ⟨hm, hc⟩
  | main a =>
    unfold mainStep at hs
    rw [hm] at hs
    cases hs
  | thread i a =>
    simp only at hs
    split at hs
    · cases hs
    · rename_i t ht
      refine ⟨(threadStep_quiet hs).1.trans hm, ?_⟩
      rcases threadStep_threads hs with h | ⟨t', h, h1, _⟩
      · rw [h]; exact hc
      · rw [h]
        intro hmem
        rcases List.mem_or_eq_of_mem_set hmem with h | h
        · exact hc h
        · exact h1 h.symm
  | message i j ok => simp only [hm] at hs; cases hs
  | error i => simp only [hm] at hs; cases hs
  | fromMain j =>
    simp only [hm] at hs
    split at hs
    · rename_i h1 h2
      exact absurd (List.mem_of_getElem? h2) hc
    · cases hs
  | fromInit i j =>
    simp only at hs
    split at hs
    · rename_i h1 h2
      exact absurd (List.mem_of_getElem? h2) hc
    · cases hs

/-- A goroutine that sends the error of a draw is stuck for good. -/
theorem stuck_failed {p : Program σ μ} {s s' : State σ μ} {ch : Choice μ}
    (hm : s.main = .failed) (hs : step p s ch = some s') : s'.main = .failed := by
  unfold step at hs
  split at hs
  · cases hs
  cases ch with
  | cancel => cases hs; exact hm
  | main a =>
    unfold mainStep at hs
    rw [hm] at hs
    cases hs
  | thread i a =>
    simp only at hs
    split at hs
    · cases hs
    · exact (threadStep_quiet hs).1.trans hm
  | message i j ok => simp only [hm] at hs; cases hs
  | error i => simp only [hm] at hs; cases hs
  | fromMain j => simp only [hm] at hs; cases hs
  | fromInit i j =>
    simp only at hs
    split at hs
    · cases hs
      exact hm
    · cases hs

/-- `Run` can still return. -/
def CanReturn (p : Program σ μ) (s : State σ μ) : Prop :=
  ∃ cs s' r, runFrom p s cs = some s' ∧ s'.main = .returned r

theorem CanReturn.step {p : Program σ μ} {s s' : State σ μ} (c : Choice μ) (h : step p s c = some s')
    (hc : CanReturn p s') : CanReturn p s := by
  obtain ⟨cs, s1, r, h1, h2⟩ := hc
  exact ⟨c :: cs, s1, r, by simp only [runFrom, h]; exact h1, h2⟩

theorem CanReturn.steps {p : Program σ μ} {s s' : State σ μ} (cs : List (Choice μ)) (h : runFrom p s cs = some s')
    (hc : CanReturn p s') : CanReturn p s := by
  obtain ⟨cs', s1, r, h1, h2⟩ := hc
  exact ⟨cs ++ cs', s1, r, by rw [runFrom_append, h]; exact h1, h2⟩

/-- Once the context is done a handler can come to its end. -/
theorem end_handler {p : Program σ μ} {s : State σ μ} (hd : s.done = true) (hc : s.crashed = false) (i : Nat)
    (hi : i < s.threads.length) : ∃ cs s' t, runFrom p s cs = some s' ∧ s'.main = s.main ∧ s'.done = true ∧
      s'.crashed = false ∧ s'.threads = s.threads.set i t ∧ t.isHandler = false := by
  have ht : s.threads[i]? = some s.threads[i] := List.getElem?_eq_getElem hi
  have stay : s.threads[i].isHandler = false → ∃ cs s' t, runFrom p s cs = some s' ∧ s'.main = s.main ∧
      s'.done = true ∧ s'.crashed = false ∧ s'.threads = s.threads.set i t ∧ t.isHandler = false :=
    fun h => ⟨[], s, s.threads[i], rfl, rfl, hd, hc, by rw [List.set_getElem_self], h⟩
  cases h : s.threads[i] with
  | initCmd c =>
    refine ⟨[.thread i .giveUp], s.put i .finished, .finished, ?_, rfl, hd, hc, rfl, rfl⟩
    simp [runFrom, App.step, hc, ht, h, threadStep, hd]
  | commands =>
    refine ⟨[.thread i .giveUp], s.put i .finished, .finished, ?_, rfl, hd, hc, rfl, rfl⟩
    simp [runFrom, App.step, hc, ht, h, threadStep, hd]
  | size loop =>
    cases loop with
    | false => exact stay (by rw [h]; rfl)
    | true =>
      refine ⟨[.thread i .giveUp], s.put i .finished, .finished, ?_, rfl, hd, hc, rfl, rfl⟩
      simp [runFrom, App.step, hc, ht, h, threadStep, hd]
  | sizeSend loop w h' =>
    cases loop with
    | false => exact stay (by rw [h]; rfl)
    | true =>
      refine ⟨[.thread i .giveUp, .thread i .giveUp],
        (((s.log [.dropped i none (some (.size w h'))]).put i (.size true)).put i .finished), .finished, ?_, rfl, hd,
        hc, by simp [State.put, State.log], rfl⟩
      have h2 : (s.threads.set i (.size true : Thread μ))[i]? = some (.size true) := by
        simp [hi]
      simp [runFrom, App.step, hc, ht, h, threadStep, hd, afterSize, State.put, State.log, h2]
  | _ => exact stay (by rw [h]; rfl)

/-- Once the context is done all handlers can come to their end. -/
theorem end_handlers {p : Program σ μ} {s : State σ μ} (hd : s.done = true) (hc : s.crashed = false) :
    ∃ cs s', runFrom p s cs = some s' ∧ s'.main = s.main ∧ s'.done = true ∧ s'.crashed = false ∧
      s'.threads.any Thread.isHandler = false := by
  have key : ∀ k ≤ s.threads.length, ∃ cs s', runFrom p s cs = some s' ∧ s'.main = s.main ∧ s'.done = true ∧
      s'.crashed = false ∧ s'.threads.length = s.threads.length ∧
      ∀ j < k, ∀ t, s'.threads[j]? = some t → t.isHandler = false := by
    intro k
    induction k with
    | zero => intro _; exact ⟨[], s, rfl, rfl, hd, hc, rfl, by omega⟩
    | succ k ih =>
      intro hk
      obtain ⟨cs, s1, h1, h2, h3, h4, h5, h6⟩ := ih (by omega)
      obtain ⟨cs', s2, t, k1, k2, k3, k4, k5, k6⟩ := end_handler (p := p) h3 h4 k (by omega)
      refine ⟨cs ++ cs', s2, by rw [runFrom_append, h1]; exact k1, k2.trans h2, k3, k4, by rw [k5]; simpa using h5, ?_⟩
      intro j hj t' ht'
      rw [k5] at ht'
      by_cases hjk : k = j
      · subst hjk
        rw [List.getElem?_set_self (by omega)] at ht'
        cases ht'
        exact k6
      · rw [List.getElem?_set_ne hjk] at ht'
        exact h6 j (by omega) t' ht'
  obtain ⟨cs, s', h1, h2, h3, h4, h5, h6⟩ := key _ (Nat.le_refl _)
  refine ⟨cs, s', h1, h2, h3, h4, ?_⟩
  rw [List.any_eq_false]
  intro t ht
  obtain ⟨j, hj, rfl⟩ := List.getElem_of_mem ht
  rw [h6 j (by omega) _ (List.getElem?_eq_getElem hj)]
  simp

theorem can_closing {p : Program σ μ} : ∀ {s : State σ μ} {r : Result σ} {st : Stage}, s.done = true →
    s.crashed = false → s.main = .closing r st → CanReturn p s := by
  have halt : ∀ {s : State σ μ} {r : Result σ}, s.crashed = false → s.main = .closing r .alt → CanReturn p s := by
    intro s r hc hm
    exact ⟨[.main (.op true)], { s with alt := false }.at (.returned r), r,
      by simp [runFrom, App.step, hc, mainStep, hm, shutdown], rfl⟩
  have hraw : ∀ {s : State σ μ} {r : Result σ}, s.crashed = false → s.main = .closing r .raw → CanReturn p s := by
    intro s r hc hm
    refine CanReturn.step (s' := { s with raw := false }.at (.closing r .alt)) (.main (.op true))
      (by simp [App.step, hc, mainStep, hm, shutdown]) (halt hc rfl)
  have hcur : ∀ {s : State σ μ} {r : Result σ}, s.crashed = false → s.main = .closing r .cursor → CanReturn p s := by
    intro s r hc hm
    refine CanReturn.step (s' := { s with hidden := false }.at (.closing r .raw)) (.main (.op true))
      (by simp [App.step, hc, mainStep, hm, shutdown]) (hraw hc rfl)
  have hpas : ∀ {s : State σ μ} {r : Result σ}, s.crashed = false → s.main = .closing r .paste → CanReturn p s := by
    intro s r hc hm
    refine CanReturn.step (s' := s.at (.closing r .cursor)) (.main (.op true))
      (by simp [App.step, hc, mainStep, hm, shutdown]) (hcur hc rfl)
  have hwai : ∀ {s : State σ μ} {r : Result σ}, s.done = true → s.crashed = false → s.main = .closing r .wait →
      CanReturn p s := by
    intro s r hd hc hm
    obtain ⟨cs, s', h1, h2, h3, h4, h5⟩ := end_handlers (p := p) hd hc
    refine CanReturn.steps cs h1 (CanReturn.step (s' := s'.at (.closing r .paste)) (.main (.op true)) ?_ (hpas h4 rfl))
    simp only [App.step, h4, mainStep, h2, hm, shutdown, h5]
    rfl
  intro s r st hd hc hm
  cases st with
  | cancel =>
    refine CanReturn.step (s' := ({ s with done := true }.log [.cancelled]).at (.closing r .wait)) (.main (.op true))
      (by simp [App.step, hc, mainStep, hm, shutdown]) (hwai rfl hc rfl)
  | wait => exact hwai hd hc hm
  | paste => exact hpas hc hm
  | cursor => exact hcur hc hm
  | raw => exact hraw hc hm
  | alt => exact halt hc hm

theorem can_select {p : Program σ μ} {s : State σ μ} {m : σ} (hd : s.done = true) (hc : s.crashed = false)
    (hm : s.main = .select m) : CanReturn p s :=
  ⟨[.main (.op true)], s.at (.returned (.killed m)), .killed m, by simp [runFrom, App.step, hc, mainStep, hm, hd], rfl⟩

theorem can_draw {p : Program σ μ} {s : State σ μ} {m : σ} (hd : s.done = true) (hc : s.crashed = false)
    (hm : s.main = .draw m) : CanReturn p s :=
  CanReturn.step (s' := drawn s m (.ok true) (.select m) none) (.main (.drawn (.ok true)))
    (by simp [App.step, hc, mainStep, hm]) (can_select hd hc rfl)

/-- Once the context is done, `Run` can return from everywhere but the two places where it is stuck. -/
theorem can_return {p : Program σ μ} {s : State σ μ} (hd : s.done = true) (hc : s.crashed = false)
    (hf : s.main ≠ .failed) (hcmd : ∀ m c, s.main = .command m c → Thread.commands ∈ s.threads) :
    CanReturn p s := by
  have h8 : ∀ {s : State σ μ}, s.done = true → s.crashed = false → s.main = .commands → CanReturn p s := by
    intro s hd hc hm
    exact CanReturn.step (s' := (s.spawn [.commands]).at (.select p.start)) (.main (.op true))
      (by simp [App.step, hc, mainStep, hm]) (can_select hd hc rfl)
  have h7 : ∀ {s : State σ μ}, s.done = true → s.crashed = false → s.main = .resize → CanReturn p s := by
    intro s hd hc hm
    exact CanReturn.step (s' := (s.spawn [.size false, .size true]).at .commands) (.main (.op true))
      (by simp [App.step, hc, mainStep, hm]) (h8 hd hc rfl)
  have h6 : ∀ {s : State σ μ}, s.done = true → s.crashed = false → s.main = .reader → CanReturn p s := by
    intro s hd hc hm
    exact CanReturn.step (s' := (s.spawn [.reading]).at .resize) (.main (.op true))
      (by simp [App.step, hc, mainStep, hm]) (h7 hd hc rfl)
  have h5 : ∀ {s : State σ μ}, s.done = true → s.crashed = false → s.main = .draw0 → CanReturn p s := by
    intro s hd hc hm
    exact CanReturn.step (s' := drawn s p.start (.ok true) .reader none) (.main (.drawn (.ok true)))
      (by simp [App.step, hc, mainStep, hm]) (h6 hd hc rfl)
  have h4 : ∀ {s : State σ μ}, s.done = true → s.crashed = false → s.main = .model → CanReturn p s := by
    intro s hd hc hm
    cases hi : p.init with
    | none =>
      exact CanReturn.step (s' := s.at (.closing (.recovered none) .cancel)) (.main (.op true))
        (by simp [App.step, hc, mainStep, hm, hi]) (can_closing hd hc rfl)
    | some c =>
      cases c with
      | none =>
        exact CanReturn.step (s' := s.at .draw0) (.main (.op true)) (by simp [App.step, hc, mainStep, hm, hi])
          (h5 hd hc rfl)
      | some c =>
        exact CanReturn.step (s' := (s.spawn [.initCmd c]).at .draw0) (.main (.op true))
          (by simp [App.step, hc, mainStep, hm, hi]) (h5 hd hc rfl)
  have h3 : ∀ {s : State σ μ}, s.done = true → s.crashed = false → s.main = .alt → CanReturn p s := by
    intro s hd hc hm
    exact CanReturn.step (s' := { s with alt := true }.at .model) (.main (.op true))
      (by simp [App.step, hc, mainStep, hm]) (h4 hd hc rfl)
  have h2 : ∀ {s : State σ μ}, s.done = true → s.crashed = false → s.main = .cursor → CanReturn p s := by
    intro s hd hc hm
    exact CanReturn.step (s' := { s with hidden := true }.at .alt) (.main (.op true))
      (by simp [App.step, hc, mainStep, hm]) (h3 hd hc rfl)
  cases hm : s.main with
  | raw =>
    exact CanReturn.step (s' := { s with raw := true }.at .cursor) (.main (.op true))
      (by simp [App.step, hc, mainStep, hm]) (h2 hd hc rfl)
  | cursor => exact h2 hd hc hm
  | alt => exact h3 hd hc hm
  | model => exact h4 hd hc hm
  | draw0 => exact h5 hd hc hm
  | reader => exact h6 hd hc hm
  | resize => exact h7 hd hc hm
  | commands => exact h8 hd hc hm
  | select m => exact can_select hd hc hm
  | command m c =>
    obtain ⟨j, hj, h⟩ := List.getElem_of_mem (hcmd m c hm)
    have hj' : s.threads[j]? = some .commands := by rw [List.getElem?_eq_getElem hj, h]
    refine CanReturn.step (s' := (accept s c).at (.draw m)) (.fromMain j) (by simp [App.step, hc, hm, hj'])
      (can_draw (m := m) ?_ ?_ rfl)
    · cases c <;> exact hd
    · cases c <;> exact hc
  | draw m => exact can_draw hd hc hm
  | failed => exact absurd hm hf
  | quit m =>
    exact ⟨[.main (.op true)], s.at (.returned (.killed m)), .killed m,
      by simp [runFrom, App.step, hc, mainStep, hm, hd], rfl⟩
  | lastDraw m =>
    exact CanReturn.step (s' := drawn s m (.ok true) (.closing (.ok m) .cancel) (some m)) (.main (.drawn (.ok true)))
      (by simp [App.step, hc, mainStep, hm]) (can_closing hd hc rfl)
  | closing r st => exact can_closing hd hc hm
  | returned r => exact ⟨[], s, r, rfl, hm⟩

theorem mem_set_ne {α : Type} {l : List α} {i : Nat} {a b c : α} (ha : a ∈ l) (hi : l[i]? = some b) (hb : b ≠ a) :
    a ∈ l.set i c := by
  obtain ⟨j, hj, rfl⟩ := List.getElem_of_mem ha
  have hij : i ≠ j := by
    rintro rfl
    rw [List.getElem?_eq_getElem hj] at hi
    exact hb (Option.some.inj hi).symm
  have : (l.set i c)[j]? = some l[j] := by rw [List.getElem?_set_ne hij, List.getElem?_eq_getElem hj]
  exact List.mem_of_getElem? this

theorem offer_threads {t t' : Thread μ} {j : Nat} {m : Option (Msg μ)} {member : Option Nat}
    (h : offer t j = some (m, member, t')) : t ≠ .commands ∧ (t'.isHandler = true → t.isHandler = true) := by
  unfold offer at h
  split at h
  case h_3 =>
    split at h <;> cases h
    exact ⟨by simp, by simp [Thread.isHandler]⟩
  case h_5 =>
    cases h
    refine ⟨by simp, ?_⟩
    unfold afterSize
    split <;> simp_all [Thread.isHandler]
  all_goals
    cases h; try exact ⟨by simp, by simp [Thread.isHandler]⟩

/-- The command goroutine lives as long as the event loop, unless the context is done; in the last stages of
`shutdown` the context is done and no handler is left. -/
def Housekeeping (s : State σ μ) : Prop :=
  match s.main with
  | .select _ | .command _ _ | .draw _ | .quit _ | .lastDraw _ => s.done = true ∨ Thread.commands ∈ s.threads
  | .closing _ .wait => s.done = true
  | .closing _ .paste | .closing _ .cursor | .closing _ .raw | .closing _ .alt =>
    s.done = true ∧ s.threads.any Thread.isHandler = false
  | .returned (.ok _) | .returned (.unrestored _) | .returned (.recovered _) =>
    s.done = true ∧ s.threads.any Thread.isHandler = false
  | _ => True

theorem Housekeeping.mono {s s' : State σ μ} (h : Housekeeping s) (hm : s'.main = s.main)
    (hd : s.done = true → s'.done = true)
    (hc : Thread.commands ∈ s.threads → s'.done = true ∨ Thread.commands ∈ s'.threads)
    (hh : s.done = true → s.threads.any Thread.isHandler = false → s'.threads.any Thread.isHandler = false) :
    Housekeeping s' := by
  have k : s.done = true ∨ Thread.commands ∈ s.threads → s'.done = true ∨ Thread.commands ∈ s'.threads := by
    rintro (h | h)
    · exact .inl (hd h)
    · exact hc h
  have k2 : s.done = true ∧ s.threads.any Thread.isHandler = false →
      s'.done = true ∧ s'.threads.any Thread.isHandler = false := fun h => ⟨hd h.1, hh h.1 h.2⟩
  unfold Housekeeping at *
  rw [hm]
  generalize s.main = main at h ⊢
  cases main with
  | closing r st => cases st <;> first | trivial | exact hd h | exact k2 h
  | returned r => cases r <;> first | trivial | exact k2 h
  | _ => first | trivial | exact k h

theorem no_handler_set {l : List (Thread μ)} {i : Nat} {t t' : Thread μ} (hi : l[i]? = some t)
    (ht : t'.isHandler = true → t.isHandler = true) (h : l.any Thread.isHandler = false) :
    (l.set i t').any Thread.isHandler = false := by
  rw [List.any_eq_false] at *
  intro x hx
  rcases List.mem_or_eq_of_mem_set hx with hx | rfl
  · exact h x hx
  · intro hx
    exact h t (List.mem_of_getElem? hi) (ht hx)

theorem threadStep_done {p : Program σ μ} {s s' : State σ μ} {i : Nat} {t : Thread μ} {a : ThreadChoice μ}
    (h : threadStep p s i t a = some s') : s.done = true → s'.done = true := by
  unfold threadStep at h
  split at h
  case h_5 =>
    split at h
    · cases h
    all_goals
      rename_i heq
      cases h
      have := (shutdown_main heq).2.2.2.1
      exact this
  all_goals
    repeat' split at h
    all_goals
      first
      | cases h; done
      | (cases h; exact id)

theorem housekeeping_drawn {s : State σ μ} {m : σ} {d : Drawn} {next : Main σ} {r : Option σ}
    (h : Housekeeping (s.at next)) : Housekeeping (drawn s m d next r) := by
  unfold drawn
  cases d with
  | ok hidden => exact h.mono rfl id .inr (fun _ => id)
  | error => trivial
  | panics => trivial

theorem housekeeping_update {p : Program σ μ} {s : State σ μ} {md : σ} {m : Msg μ}
    (h : s.done = true ∨ Thread.commands ∈ s.threads) : Housekeeping (update p s md m) := by
  unfold update
  split
  · trivial
  · exact h

theorem mainStep_housekeeping {p : Program σ μ} {s s' : State σ μ} {a : MainChoice} (h : Housekeeping s)
    (hs : mainStep p s a = some s') : Housekeeping s' := by
  unfold mainStep at hs
  split at hs
  case h_8 heq => cases hs; exact housekeeping_drawn trivial
  case h_12 => cases hs; exact .inr (by simp [State.at, State.spawn])
  case h_14 heq =>
    cases hs
    unfold Housekeeping at h
    rw [heq] at h
    exact housekeeping_drawn h
  case h_15 heq =>
    unfold Housekeeping at h
    rw [heq] at h
    split at hs <;> cases hs
    · trivial
    · exact h
  case h_16 heq => cases hs; exact housekeeping_drawn trivial
  case h_17 r stage ok heq =>
    unfold Housekeeping at h
    rw [heq] at h
    cases stage <;> cases ok <;> simp only [shutdown, Bool.false_eq_true, if_true, if_false] at hs h
    case wait.false =>
      cases hh : s.threads.any Thread.isHandler <;> simp only [hh, if_true, if_false, Bool.false_eq_true] at hs <;>
        cases hs
      exact ⟨h, hh⟩
    case wait.true =>
      cases hh : s.threads.any Thread.isHandler <;> simp only [hh, if_true, if_false, Bool.false_eq_true] at hs <;>
        cases hs
      exact ⟨h, hh⟩
    case alt.true =>
      cases hs
      cases r <;> first | trivial | exact h
    all_goals
      first
      | (cases hs; exact h)
      | (cases hs; exact rfl)
      | (cases r <;> (cases hs; first | trivial | exact h))
  all_goals
    first
    | cases hs; done
    | (cases hs; trivial)
    | (split at hs <;> first | (cases hs; trivial) | (cases hs; done))

theorem step_housekeeping {p : Program σ μ} {s s' : State σ μ} {c : Choice μ} (h : Housekeeping s)
    (hs : step p s c = some s') : Housekeeping s' := by
  unfold App.step at hs
  split at hs
  · cases hs
  cases c with
  | cancel =>
    cases hs
    exact h.mono rfl (fun _ => rfl) .inr (fun _ => id)
  | main a => exact mainStep_housekeeping h hs
  | thread i a =>
    simp only at hs
    split at hs
    · cases hs
    · rename_i t ht
      have hd := threadStep_done hs
      rcases threadStep_threads hs with e | ⟨t', e, h1, h2, h3⟩
      · exact h.mono (threadStep_quiet hs).1 hd (fun h => .inr (by rw [e]; exact h)) (fun _ h => by rw [e]; exact h)
      · refine h.mono (threadStep_quiet hs).1 hd ?_ ?_
        · intro hmem
          by_cases htc : t = .commands
          · exact .inl (hd (h3 htc))
          · rw [e]
            exact .inr (mem_set_ne hmem ht htc)
        · intro _ hh
          rw [e]
          exact no_handler_set ht h2 hh
  | message i j ok =>
    simp only at hs
    split at hs
    · rename_i md t h1 h2
      split at hs
      · cases hs
      · rename_i m member t' heq
        cases hs
        obtain ⟨k1, k2⟩ := offer_threads heq
        have k : s.done = true ∨ Thread.commands ∈ s.threads.set i t' := by
          unfold Housekeeping at h
          rw [h1] at h
          exact h.imp id fun h => mem_set_ne h h2 k1
        unfold receive
        split
        · unfold Housekeeping
          rw [show ((s.log _).put i t').main = .select md from h1]
          exact k
        · exact k
        · split
          · exact housekeeping_update k
          · trivial
        · refine housekeeping_update (k.imp id fun h => ?_)
          exact List.mem_append_left _ h
        · exact housekeeping_update k
    · cases hs
  | error i =>
    simp only at hs
    split at hs
    · cases hs; trivial
    · cases hs
  | fromMain j =>
    simp only at hs
    split at hs
    · rename_i md c h1 h2
      cases hs
      refine .inr ?_
      have := List.mem_of_getElem? h2
      cases c with
      | none => exact this
      | some c => exact List.mem_append_left _ this
    · cases hs
  | fromInit i j =>
    simp only at hs
    split at hs
    · rename_i c h1 h2
      cases hs
      refine h.mono rfl id (fun _ => .inr ?_) ?_
      · exact List.mem_append_left _ (mem_set_ne (List.mem_of_getElem? h2) h1 (by simp))
      · intro _ hh
        have := no_handler_set (t' := .finished) h1 (by simp [Thread.isHandler]) hh
        show ((s.threads.set i .finished) ++ [Thread.call c]).any Thread.isHandler = false
        rw [List.any_append, this]
        rfl
    · cases hs

theorem run_housekeeping {p : Program σ μ} {cs : List (Choice μ)} {s : State σ μ} (h : run p cs = some s) :
    Housekeeping s :=
  run_induction (P := Housekeeping) trivial (fun _ _ _ h _ hs => step_housekeeping h hs) h

end

end App

open App in
/-- **C55 (partial).** Once the context is done, `Run` can return, unless it is sending the error of a draw or a
command that no goroutine takes any more. Missing: these two places, for which it is false, and that the
scheduler lets it return. -/
theorem C55_can_return_partial {σ μ : Type} (p : Program σ μ) (s : App.State σ μ) (hd : s.done = true)
    (hc : s.crashed = false) (hf : s.main ≠ .failed)
    (hcmd : ∀ m c, s.main = .command m c → Thread.commands ∈ s.threads) :
    ∃ cs s' r, runFrom p s cs = some s' ∧ s'.main = .returned r :=
  can_return hd hc hf hcmd

open App in
example : ((run (demo none) (startup ++ [.thread 0 (.input 1), .message 0 0 true, .cancel])).map fun s =>
    (s.done, s.crashed, s.main, decide (Thread.commands ∈ s.threads))) =
    some (true, false, .command 1 (some 1), true) := by decide +kernel

open App in
/-- **C55 (partial).** As long as the context is not done, the event loop always finds a goroutine that takes its
command. -/
theorem C55_command_partial {σ μ : Type} (p : Program σ μ) (cs : List (Choice μ)) (s : App.State σ μ) (m : σ)
    (c : Option Cmd) (h : run p cs = some s) (hc : s.crashed = false) (hd : s.done = false)
    (hm : s.main = .command m c) : ∃ j s', step p s (.fromMain j) = some s' ∧ s'.main = .draw m := by
  have hk := run_housekeeping h
  unfold Housekeeping at hk
  rw [hm] at hk
  rcases hk with hk | hk
  · rw [hd] at hk; cases hk
  · obtain ⟨j, hj, e⟩ := List.getElem_of_mem hk
    have hj' : s.threads[j]? = some .commands := by rw [List.getElem?_eq_getElem hj, e]
    exact ⟨j, (accept s c).at (.draw m), by simp [App.step, hc, hm, hj'], rfl⟩

open App in
example : ((run (demo none) (startup ++ [.thread 0 (.input 1), .message 0 0 true])).map fun s =>
    (s.done, s.crashed, s.main)) = some (false, false, .command 1 (some 1)) := by decide +kernel

open App in
/-- **C55 (negation).** If the first draw of an app fails, `Run` never returns, whatever happens. -/
theorem C55_draw_false {σ μ : Type} (p : Program σ μ) (hi : p.init ≠ none) : ∃ s : App.State σ μ,
    run p [.main (.op true), .main (.op true), .main (.op true), .main (.op true), .main (.drawn .error)] = some s ∧
    ∀ (cs : List (Choice μ)) (s' : App.State σ μ), runFrom p s cs = some s' → ∀ r, s'.main ≠ .returned r := by
  have key : ∀ (cs : List (Choice μ)) (s s' : App.State σ μ), s.main = .failed → runFrom p s cs = some s' →
      s'.main = .failed := by
    intro cs
    induction cs with
    | nil =>
      intro s s' hm h
      simp only [runFrom, Option.some.injEq] at h
      exact h ▸ hm
    | cons c cs ih =>
      intro s s' hm h
      simp only [runFrom] at h
      cases hc : step p s c with
      | none => rw [hc] at h; cases h
      | some s1 =>
        rw [hc] at h
        exact ih s1 s' (stuck_failed hm hc) h
  match h : p.init with
  | none => exact absurd h hi
  | some none =>
    refine ⟨⟨.failed, [], false, true, true, true, false, []⟩, ?_, ?_⟩
    · simp [run, runFrom, App.step, mainStep, h, State.start, State.at, drawn]
    · intro cs s' hs r
      rw [key cs _ s' rfl hs]
      simp
  | some (some c) =>
    refine ⟨⟨.failed, [.initCmd c], false, true, true, true, false, []⟩, ?_, ?_⟩
    · simp [run, runFrom, App.step, mainStep, h, State.start, State.at, State.spawn, drawn]
    · intro cs s' hs r
      rw [key cs _ s' rfl hs]
      simp

open App in
/-- **C55 (negation).** If the context is cancelled while the event loop handles a message, `Run` may never
return. -/
theorem C55_cancel_false : ∃ s : App.State Nat Nat,
    run (demo none) (startup ++ [.thread 0 (.input 1), .message 0 0 true, .cancel, .thread 3 .giveUp]) = some s ∧
    s.done = true ∧
    ∀ cs s', runFrom (demo none) s cs = some s' → ∀ r, s'.main ≠ .returned r := by
  refine ⟨_, rfl, rfl, ?_⟩
  have key : ∀ (cs : List (Choice Nat)) (s s' : App.State Nat Nat), s.main = .command 1 (some 1) →
      Thread.commands ∉ s.threads → runFrom (demo none) s cs = some s' → s'.main = .command 1 (some 1) := by
    intro cs
    induction cs with
    | nil =>
      intro s s' hm _ h
      simp only [runFrom, Option.some.injEq] at h
      exact h ▸ hm
    | cons c cs ih =>
      intro s s' hm hc h
      simp only [runFrom] at h
      cases hst : step (demo none) s c with
      | none => rw [hst] at h; cases h
      | some s1 =>
        rw [hst] at h
        obtain ⟨h1, h2⟩ := stuck_command hm hc hst
        exact ih s1 s' h1 h2 h
  intro cs s' h r
  rw [key cs _ s' rfl (by decide +kernel) h]
  simp

open App in
/-- **C75 (partial).** When `Run` returns without an error or after a panic of its own, the context is done, none
of the goroutines it waits for is left, and every other goroutine that is blocked on a channel can go on.
Missing: returning with an error, for which it is false. -/
theorem C75_no_leak_partial {σ μ : Type} (p : Program σ μ) (cs : List (Choice μ)) (s : App.State σ μ)
    (h : run p cs = some s) (hc : s.crashed = false)
    (hr : (∃ m, s.main = .returned (.ok m)) ∨ ∃ m, s.main = .returned (.recovered m)) :
    s.done = true ∧ (∀ t ∈ s.threads, t.isHandler = false) ∧
    ∀ (i j : Nat) (t : Thread μ), s.threads[i]? = some t → (offer t j).isSome = true ∨ t = .readErr →
      ∃ a s', step p s (.thread i a) = some s' := by
  have hk := run_housekeeping h
  have hk : s.done = true ∧ s.threads.any Thread.isHandler = false := by
    unfold Housekeeping at hk
    rcases hr with ⟨m, hm⟩ | ⟨m, hm⟩ <;> (rw [hm] at hk; exact hk)
  obtain ⟨hd, hh⟩ := hk
  refine ⟨hd, ?_, ?_⟩
  · intro t ht
    rw [List.any_eq_false] at hh
    simpa using hh t ht
  · intro i j t ht ho
    rcases ho with ho | rfl
    · unfold offer at ho
      split at ho
      · exact ⟨.giveUp, _, by simp only [App.step, hc, ht, threadStep, hd]; rfl⟩
      · exact ⟨.giveUp, _, by simp only [App.step, hc, ht, threadStep, hd]; rfl⟩
      · split at ho
        · rename_i heq
          exact ⟨.memberGiveUp j, _, by simp only [App.step, hc, ht, threadStep, hd, heq]; rfl⟩
        · cases ho
      · exact ⟨.giveUp, _, by simp only [App.step, hc, ht, threadStep, hd]; rfl⟩
      · exact ⟨.giveUp, _, by simp only [App.step, hc, ht, threadStep, hd]; rfl⟩
      · cases ho
    · exact ⟨.giveUp, _, by simp only [App.step, hc, ht, threadStep, hd]; rfl⟩

open App in
example : ((run (demo none) quits).map fun s => (s.crashed, s.main, s.threads.length)) =
    some (false, .returned (.ok 1), 5) := by decide +kernel

open App in
/-- **C75 (negation).** When reading the input fails, `Run` returns with the context alive: the goroutine for
commands stays, and a message sent by a command blocks its goroutine. -/
theorem C75_error_false : ∃ s : App.State Nat Nat,
    run (demo none) (startup ++ [.thread 0 (.input 1), .message 0 0 true, .fromMain 3, .main (.drawn (.ok true)),
      .thread 0 .inputError, .error 0, .thread 4 (.go 0)]) = some s ∧
    s.main = .returned (.error 1) ∧ s.done = false ∧ Thread.commands ∈ s.threads ∧
    s.threads[4]? = some (.send (some (.user 11))) ∧
    (∀ a, step (demo none) s (.thread 4 a) = none) ∧ ∀ j ok, step (demo none) s (.message 4 j ok) = none := by
  refine ⟨_, rfl, rfl, rfl, by decide +kernel, rfl, ?_, ?_⟩
  · intro a
    cases a <;> rfl
  · intro j ok
    rfl

end Bento
