import Verif.Props.AppLive
import Verif.Props.Animated

/-!
# C133 — an animation goes on for ever
-/

namespace Bento

namespace App

/-- The event loop has ended, or is about to end. -/
def Ending {σ : Type} : Main σ → Prop
  | .failed | .quit _ | .lastDraw _ | .closing _ _ | .returned _ => True
  | _ => False

namespace Execution

section

variable {σ μ : Type} {p : Program σ μ}

theorem ending_stays (e : Execution p) {n : Nat} (h : Ending (e.state n).main) : Ending (e.state (n + 1)).main := by
  rcases move_main (e.next n) with h' | ⟨a, h'⟩ | ⟨md, h'⟩ | ⟨md, c, j, h', _⟩
  · rw [h']; exact h
  · have hn := e.next n
    rw [h'] at hn
    simp only [move] at hn
    unfold App.step at hn
    rw [if_neg (by rw [e.not_crashed]; simp)] at hn
    simp only at hn
    cases hm : (e.state n).main with
    | failed => simp only [mainStep, hm] at hn; cases hn
    | returned r => simp only [mainStep, hm] at hn; cases hn
    | quit m =>
      rcases a with ok | d
      · simp only [mainStep, hm] at hn
        split at hn <;> (simp only [Option.some.injEq] at hn; rw [← hn]; trivial)
      · simp only [mainStep, hm] at hn; cases hn
    | lastDraw m =>
      rcases a with ok | d
      · simp only [mainStep, hm] at hn; cases hn
      · simp only [mainStep, hm, Option.some.injEq] at hn
        rw [← hn]
        cases d <;> trivial
    | closing r stage =>
      rcases a with ok | d
      · simp only [mainStep, hm] at hn
        split at hn
        · cases hn
        · simp only [Option.some.injEq] at hn; rw [← hn]; trivial
        · simp only [Option.some.injEq] at hn; rw [← hn]; trivial
        · split at hn <;> (simp only [Option.some.injEq] at hn; rw [← hn]; trivial)
      · simp only [mainStep, hm] at hn; cases hn
    | _ => rw [hm] at h; exact h.elim
  · rw [h'] at h; exact h.elim
  · rw [h'] at h; exact h.elim

/-- An app that keeps running never ended before. -/
theorem KeepsRunning.not_ending {e : Execution p} (hr : e.KeepsRunning) (n : Nat) : ¬ Ending (e.state n).main := by
  intro h
  obtain ⟨n₀, hr⟩ := hr
  have h' := from_on (P := fun m => Ending (e.state m).main) h (fun m _ ih => e.ending_stays ih) (max n n₀) (by omega)
  rcases (hr (max n n₀) (by omega)).2 with ⟨_, hm⟩ | ⟨_, _, hm⟩ | ⟨_, hm⟩ <;> (simp only [hm] at h'; exact h')

/-- A draw is done, and then the event loop waits. -/
theorem draw_done {e : Execution p} (hf : e.Fair) (hr : e.KeepsRunning) {k : Nat} {md : σ}
    (hm : (e.state k).main = .draw md) :
    ∃ m, k ≤ m ∧ (e.state m).main = .select md ∧ .drew md ∈ (e.state m).trace := by
  obtain ⟨m, h1, h2, a, h3⟩ := first_time (P := fun m => ∃ a, e.choice m = some (.main a))
    (Q := fun m => (e.state m).main = .draw md) k hm
    (fun m _ hq hp => by
      rcases move_main (e.next m) with h | ⟨a, h⟩ | ⟨md', h⟩ | ⟨md', c', j, h, _⟩
      · rw [h]; exact hq
      · exact absurd ⟨a, h⟩ hp
      · rw [hq] at h; cases h
      · rw [hq] at h; cases h)
    (fun hall => by
      obtain ⟨m, h1, c', hc, h2⟩ := hf .run (fun l => ⟨max k l, by omega, .main (.drawn (.ok true)), trivial, by
        have hq := hall (max k l) (by omega)
        unfold App.step
        rw [if_neg (by rw [e.not_crashed]; simp)]
        simp only [mainStep, hq]
        rfl⟩) k
      refine ⟨m, h1, ?_⟩
      cases c' with
      | main a => exact ⟨a, hc⟩
      | _ => exact h2.elim)
  have hn := e.next m
  rw [h3] at hn
  simp only [move] at hn
  unfold App.step at hn
  rw [if_neg (by rw [e.not_crashed]; simp)] at hn
  simp only [mainStep, h2] at hn
  have hr' := hr.not_ending (m + 1)
  refine ⟨m + 1, by omega, ?_⟩
  rcases a with ok | d
  · cases hn
  · simp only [Option.some.injEq] at hn
    rw [← hn] at hr' ⊢
    cases d with
    | ok hidden => exact ⟨rfl, List.mem_append_right _ (List.mem_singleton.2 rfl)⟩
    | error => exact absurd trivial hr'
    | panics => exact absurd trivial hr'

/-- The step in which a message is taken. -/
theorem send_step {e : Execution p} (hf : e.Fair) (hr : e.KeepsRunning) {n i : Nat} {m : Option (Msg μ)}
    (hi : (e.state n).threads[i]? = some (.send m)) :
    ∃ k md ok, n ≤ k ∧ (e.state k).main = .select md ∧ (e.state k).threads[i]? = some (.send m) ∧
      e.state (k + 1) = receive p (((e.state k).log [.delivered i none m]).put i .finished) md m ok := by
  obtain ⟨k, k1, k2, k3⟩ := hf.leaves hi ⟨.message i, fun c hc => by
      cases c <;> first | exact hc.1.symm | exact hc.symm | exact hc.elim, fun l _ => by
      obtain ⟨l', h1, md, h2⟩ := hr.waits hf l
      refine ⟨l', h1, fun ht => ⟨.message i 0 true, rfl, ?_⟩⟩
      unfold App.step
      rw [if_neg (by rw [e.not_crashed]; simp)]
      simp only [h2, ht, offer]
      rfl⟩
  rcases touch_move (e.next k) k3 k2 with ⟨a, _, h⟩ | ⟨j, ok, md, m', member, t'', _, hm, h, hs⟩ | ⟨h, _⟩ | ⟨c, h, _⟩
  · cases a with
    | giveUp =>
      simp only [threadStep, hr.live k] at h
      cases h
    | _ => cases h
  · cases h
    exact ⟨k, md, ok, k1, hm, k2, hs⟩
  · cases h
  · cases h

/-- A call ends. -/
theorem call_ends {e : Execution p} (hf : e.Fair) {n i : Nat} {c : Cmd}
    (hi : (e.state n).threads[i]? = some (.call c)) (hp : ∀ q, p.call c q ≠ .panics) :
    ∃ k q m, n ≤ k ∧ p.call c q = .returns m ∧ (e.state k).threads[i]? = some (.send m) := by
  obtain ⟨k, k1, k2, k3⟩ := hf.leaves hi ⟨.goroutine i, fun c hc => by
      cases c <;> first | exact hc.1.symm | exact hc.symm | exact hc.elim, fun l _ => by
      refine ⟨l, Nat.le_refl l, fun ht => ⟨.thread i (.go 0), ⟨rfl, trivial⟩, ?_⟩⟩
      unfold App.step
      rw [if_neg (by rw [e.not_crashed]; simp)]
      simp only [ht, threadStep]
      cases p.call c 0 <;> rfl⟩
  have hlt := (List.getElem?_eq_some_iff.1 k2).1
  rcases touch_move (e.next k) k3 k2 with ⟨a, _, h⟩ | ⟨j, ok, md, m', member, t'', _, hm, h, hs⟩ | ⟨h, _⟩ | ⟨c, h, _⟩
  · cases a with
    | go q =>
      simp only [threadStep] at h
      cases hc : p.call c q with
      | returns m =>
        rw [hc] at h
        simp only [Option.some.injEq] at h
        refine ⟨k + 1, q, m, by omega, hc, ?_⟩
        rw [← h]
        show ((e.state k).threads.set i _)[i]? = _
        simp [hlt]
      | panics => exact absurd hc (hp q)
    | _ => cases h
  · cases h
  · cases h
  · cases h

/-- The command of `Init` is called. -/
theorem init_called {e : Execution p} (hf : e.Fair) (hr : e.KeepsRunning) {n i : Nat} {c : Cmd}
    (hi : (e.state n).threads[i]? = some (.initCmd c)) :
    ∃ k i' : Nat, n ≤ k ∧ (e.state k).threads[i']? = some (.call c) := by
  obtain ⟨n₀, hn⟩ := id hr
  obtain ⟨k, k1, k2, k3⟩ := hf.leaves hi ⟨.first i, fun c hc => by
      cases c <;> first | exact hc.1.symm | exact hc.symm | exact hc.elim, fun l hl => by
      refine ⟨max l n₀, by omega, fun ht => ?_⟩
      have hh := e.housekeeping (max l n₀)
      have hm : Thread.commands ∈ (e.state (max l n₀)).threads := by
        unfold Housekeeping at hh
        rcases (hn (max l n₀) (by omega)).2 with ⟨_, h⟩ | ⟨_, _, h⟩ | ⟨_, h⟩ <;>
          (rw [h] at hh; simpa only [hr.live, Bool.false_eq_true, false_or] using hh)
      obtain ⟨j, hj, hje⟩ := List.getElem_of_mem hm
      refine ⟨.fromInit i j, rfl, ?_⟩
      unfold App.step
      rw [if_neg (by rw [e.not_crashed]; simp)]
      simp only [ht, List.getElem?_eq_getElem hj, hje]
      rfl⟩
  rcases touch_move (e.next k) k3 k2 with ⟨a, _, h⟩ | ⟨_, _, _, _, _, _, _, _, h, _⟩ | ⟨h, _⟩ | ⟨c', h, h'⟩
  · cases a with
    | giveUp =>
      simp only [threadStep, hr.live k] at h
      cases h
    | _ => cases h
  · cases h
  · cases h
  · cases h
    refine ⟨k + 1, ((e.state k).put i .finished).threads.length, by omega, ?_⟩
    rw [h']
    show (((e.state k).put i .finished).threads ++ [Thread.call c])[_]? = _
    simp

/-- How the app starts: the first frame is drawn before the event loop waits for the first time. -/
theorem first_wait (e : Execution p) (n : Nat) :
    ((e.state n).main = .raw ∨ (e.state n).main = .cursor ∨ (e.state n).main = .alt ∨ (e.state n).main = .model ∨
      (e.state n).main = .draw0) ∨
    (((e.state n).main = .reader ∨ (e.state n).main = .resize ∨ (e.state n).main = .commands) ∧
      .drew p.start ∈ (e.state n).trace) ∨
    (∃ m, m ≤ n ∧ (e.state m).main = .select p.start ∧ .drew p.start ∈ (e.state m).trace) ∨ Ending (e.state n).main := by
  induction n with
  | zero => rw [e.start]; exact .inl (.inl rfl)
  | succ n ih =>
    have hcr : ¬ (e.state n).crashed = true := by rw [e.not_crashed]; simp
    have hmain : ∀ a, e.choice n = some (.main a) → mainStep p (e.state n) a = some (e.state (n + 1)) := by
      intro a h
      have hn := e.next n
      rw [h] at hn
      simp only [move] at hn
      unfold App.step at hn
      rw [if_neg hcr] at hn
      exact hn
    rcases ih with h | ⟨h, hd⟩ | ⟨m, hm, h⟩ | h
    · rcases move_main (e.next n) with h' | ⟨a, h'⟩ | ⟨md, h'⟩ | ⟨md, c', j, h', _⟩
      · rw [h']; exact .inl h
      · have hn := hmain a h'
        rcases h with h | h | h | h | h
        · rcases a with (_ | _) | d <;> simp only [mainStep, h, Option.some.injEq, reduceCtorEq] at hn <;> rw [← hn]
          · exact .inr (.inr (.inr trivial))
          · exact .inl (.inr (.inl rfl))
        · rcases a with (_ | _) | d <;> simp only [mainStep, h, Option.some.injEq, reduceCtorEq] at hn <;> rw [← hn]
          · exact .inr (.inr (.inr trivial))
          · exact .inl (.inr (.inr (.inl rfl)))
        · rcases a with (_ | _) | d <;> simp only [mainStep, h, Option.some.injEq, reduceCtorEq] at hn <;> rw [← hn]
          · exact .inr (.inr (.inr trivial))
          · exact .inl (.inr (.inr (.inr (.inl rfl))))
        · rcases a with ok | d
          · simp only [mainStep, h] at hn
            split at hn <;> (simp only [Option.some.injEq] at hn; rw [← hn])
            · exact .inr (.inr (.inr trivial))
            · exact .inl (.inr (.inr (.inr (.inr rfl))))
            · exact .inl (.inr (.inr (.inr (.inr rfl))))
          · simp only [mainStep, h] at hn
            cases hn
        · rcases a with ok | d
          · simp only [mainStep, h] at hn
            cases hn
          · simp only [mainStep, h, Option.some.injEq] at hn
            rw [← hn]
            cases d with
            | ok hidden => exact .inr (.inl ⟨.inl rfl, List.mem_append_right _ (List.mem_singleton.2 rfl)⟩)
            | error => exact .inr (.inr (.inr trivial))
            | panics => exact .inr (.inr (.inr trivial))
      · rcases h with h | h | h | h | h <;> (rw [h] at h'; cases h')
      · rcases h with h | h | h | h | h <;> (rw [h] at h'; cases h')
    · rcases move_main (e.next n) with h' | ⟨a, h'⟩ | ⟨md, h'⟩ | ⟨md, c', j, h', _⟩
      · rw [h']; exact .inr (.inl ⟨h, e.trace_mono (by omega) hd⟩)
      · have hd' := e.trace_mono (show n ≤ n + 1 by omega) hd
        have hn := hmain a h'
        rcases h with h | h | h
        · rcases a with (_ | _) | d <;> simp only [mainStep, h, Option.some.injEq, reduceCtorEq] at hn
          · rw [← hn]; exact .inr (.inr (.inr trivial))
          · exact .inr (.inl ⟨.inr (.inl (by rw [← hn]; rfl)), hd'⟩)
        · rcases a with ok | d
          · simp only [mainStep, h, Option.some.injEq] at hn
            exact .inr (.inl ⟨.inr (.inr (by rw [← hn]; rfl)), hd'⟩)
          · simp only [mainStep, h] at hn
            cases hn
        · rcases a with ok | d
          · simp only [mainStep, h, Option.some.injEq] at hn
            exact .inr (.inr (.inl ⟨n + 1, Nat.le_refl _, by rw [← hn]; rfl, hd'⟩))
          · simp only [mainStep, h] at hn
            cases hn
      · rcases h with h | h | h <;> (rw [h] at h'; cases h')
      · rcases h with h | h | h <;> (rw [h] at h'; cases h')
    · exact .inr (.inr (.inl ⟨m, by omega, h⟩))
    · exact .inr (.inr (.inr (e.ending_stays h)))

theorem KeepsRunning.first_wait {e : Execution p} (hr : e.KeepsRunning) :
    ∃ m, (e.state m).main = .select p.start ∧ .drew p.start ∈ (e.state m).trace := by
  have hne := hr.not_ending
  obtain ⟨n, hr⟩ := hr
  have hl := (hr n (Nat.le_refl n)).2
  rcases Execution.first_wait e n with h | ⟨h, _⟩ | ⟨m, _, h⟩ | h
  · rcases h with h | h | h | h | h <;> (rw [h] at hl; rcases hl with ⟨_, h⟩ | ⟨_, _, h⟩ | ⟨_, h⟩ <;> cases h)
  · rcases h with h | h | h <;> (rw [h] at hl; rcases hl with ⟨_, h⟩ | ⟨_, _, h⟩ | ⟨_, h⟩ <;> cases h)
  · exact ⟨m, h⟩
  · exact absurd h (hne n)

end

section

variable {σ μ : Type} {T : Ticks μ} {p : Program σ μ} {throbber : σ → Throbber.State}

/-- Ticks never come from the terminal. -/
def NoTicksTyped (T : Ticks μ) (e : Execution p) : Prop :=
  ∀ n i m, e.choice n = some (.thread i (.input m)) → T.ofMsg m = none

theorem tick_inv (ha : Animated T p throbber) (e : Execution p) (hin : e.NoTicksTyped T) (n : Nat) :
    TickInv T p throbber (e.state n) := by
  induction n with
  | zero =>
    rw [e.start]
    refine ⟨?_, fun _ => ⟨rfl, rfl⟩, fun m e => (by cases e), fun e => (e : False).elim⟩
    intro t ht
    cases ht
  | succ n ih =>
    have hn := e.next n
    cases hc : e.choice n with
    | none =>
      rw [hc] at hn
      rw [← move_none hn]
      exact ih
    | some c =>
      rw [hc] at hn
      exact step_inv ha ih (fun i m h => hin n i m (by rw [hc, h])) hn

/-- A tick in a goroutine is the one that the throbber waits for. -/
theorem tick_is (ha : Animated T p throbber) {e : Execution p} (hr : e.KeepsRunning) (hin : e.NoTicksTyped T) {n : Nat}
    {m : σ} (hm : (e.state n).main = .select m) {i : Nat} {t : Thread μ} (hi : (e.state n).threads[i]? = some t)
    {x : Throbber.Tick} (hx : x ∈ T.inThread t) : x = (throbber m).tick := by
  have hl := (e.tick_inv ha hin n).later m (by rw [hm]; rfl)
  have hw := hl.way.resolve_right (by rw [hr.live n]; simp) x
  by_cases h : x = (throbber m).tick
  · exact h
  · rw [if_neg h, List.count_eq_zero] at hw
    exact absurd (List.mem_append_right _ (List.mem_flatMap.2 ⟨t, List.mem_of_getElem? hi, hx⟩)) hw

/-- A tick that is being sent leads to the next frame. -/
theorem sent_shown (ha : Animated T p throbber) {e : Execution p} (hf : e.Fair) (hr : e.KeepsRunning)
    (hin : e.NoTicksTyped T) {n i : Nat} {g : μ} (hi : (e.state n).threads[i]? = some (.send (some (.user g))))
    {x : Throbber.Tick} (hx : T.ofMsg g = some x) :
    ∃ k md, n ≤ k ∧ (e.state k).main = .select md ∧ .drew md ∈ (e.state k).trace ∧ (throbber md).frame = x.tag + 1 := by
  obtain ⟨k, md, ok, hk, hm, hi', hs⟩ := send_step hf hr hi
  have hl := (e.tick_inv ha hin k).later md (by rw [hm]; rfl)
  have he : x = (throbber md).tick := tick_is ha hr hin hm hi' (by
    show x ∈ (T.ofMsg g).toList
    rw [hx]
    simp)
  have htag : (throbber md).frame = x.tag := by rw [he, ← hl.tag]; rfl
  obtain ⟨md', c, hu, hth, _⟩ := ha.accepts md g _ _ _ hl.id (by rw [hl.tag, hl.frame]; omega) (hx.trans (by rw [he]))
    (tick_accepted (throbber md))
  have hcmd : (e.state (k + 1)).main = .command md' (some c) := by
    rw [hs]
    unfold receive
    simp only
    unfold App.update
    rw [hu]
    rfl
  obtain ⟨l, hl1, _, j, _, hl2⟩ := command_taken hf hr.live hcmd
  obtain ⟨q, hq, hq1, hq2⟩ := draw_done hf hr (k := l + 1) (md := md') (by rw [hl2]; rfl)
  refine ⟨q, md', by omega, hq1, hq2, ?_⟩
  rw [hth, ← htag]

theorem called_shown (ha : Animated T p throbber) {e : Execution p} (hf : e.Fair) (hr : e.KeepsRunning)
    (hin : e.NoTicksTyped T) {n i : Nat} {c : Cmd} (hi : (e.state n).threads[i]? = some (.call c))
    {x : Throbber.Tick} (hx : T.ofCmd c = some x) :
    ∃ k md, n ≤ k ∧ (e.state k).main = .select md ∧ .drew md ∈ (e.state k).trace ∧ (throbber md).frame = x.tag + 1 := by
  obtain ⟨k, q, m, hk, hq, hi'⟩ := call_ends hf hi (fun q h => by
    obtain ⟨g, hg, _⟩ := ha.sends c x q hx
    rw [h] at hg
    cases hg)
  obtain ⟨g, hg, hgx⟩ := ha.sends c x q hx
  rw [hq] at hg
  cases hg
  obtain ⟨l, md, h1, h2⟩ := sent_shown ha hf hr hin hi' hgx
  exact ⟨l, md, by omega, h2⟩

/-- After a frame comes the next one. -/
theorem next_frame (ha : Animated T p throbber) {e : Execution p} (hf : e.Fair) (hr : e.KeepsRunning)
    (hin : e.NoTicksTyped T) {n : Nat} {m : σ} (hm : (e.state n).main = .select m) :
    ∃ k md, n ≤ k ∧ (e.state k).main = .select md ∧ .drew md ∈ (e.state k).trace ∧
      (throbber md).frame = (throbber m).frame + 1 := by
  have hv := e.tick_inv ha hin n
  have hl := hv.later m (by rw [hm]; rfl)
  have hw := hl.way.resolve_right (by rw [hr.live n]; simp) (throbber m).tick
  rw [if_pos rfl] at hw
  have hmem : (throbber m).tick ∈ T.onTheWay (e.state n) := List.count_pos_iff.1 (by omega)
  unfold Ticks.onTheWay at hmem
  rw [hm] at hmem
  obtain ⟨t, ht, htick⟩ := List.mem_flatMap.1 (show _ ∈ (e.state n).threads.flatMap T.inThread from hmem)
  obtain ⟨i, hi⟩ := List.getElem?_of_mem ht
  have htag : (throbber m).tick.tag + 1 = (throbber m).frame + 1 := by rw [← hl.tag]; rfl
  rw [← htag]
  rcases hv.plain t ht with hn | ⟨c, rfl⟩ | ⟨c, rfl⟩ | ⟨g, k, rfl, hk⟩
  · rw [hn] at htick
    cases htick
  · have hoc : T.ofCmd c = some (throbber m).tick := by
      have : (throbber m).tick ∈ (T.ofCmd c).toList := htick
      simpa using this
    obtain ⟨k, i', hk, h⟩ := init_called hf hr hi
    obtain ⟨l, md, h1, h2⟩ := called_shown ha hf hr hin h hoc
    exact ⟨l, md, by omega, h2⟩
  · have hoc : T.ofCmd c = some (throbber m).tick := by
      have : (throbber m).tick ∈ (T.ofCmd c).toList := htick
      simpa using this
    exact called_shown ha hf hr hin hi hoc
  · have hk' : T.ofMsg g = some (throbber m).tick := by
      have : (throbber m).tick ∈ (T.ofMsg g).toList := htick
      simpa using this
    exact sent_shown ha hf hr hin hi hk'

end

end Execution

end App

open App

variable {σ μ : Type} {T : Ticks μ} {p : Program σ μ} {throbber : σ → Throbber.State}

/-- **C133**: an app with a throbber that keeps running draws every frame of the animation, whatever else happens, as
long as everyone gets their turn. -/
theorem C133_every_frame (ha : Animated T p throbber) (e : Execution p) (hf : e.Fair) (hr : e.KeepsRunning)
    (hin : e.NoTicksTyped T) (frame : Nat) :
    ∃ n md, (e.state n).main = .select md ∧ .drew md ∈ (e.state n).trace ∧ (throbber md).frame = frame := by
  induction frame with
  | zero =>
    obtain ⟨m, h1, h2⟩ := hr.first_wait
    exact ⟨m, p.start, h1, h2, ha.new.1⟩
  | succ frame ih =>
    obtain ⟨n, m, h1, _, h3⟩ := ih
    obtain ⟨k, md, _, h4, h5, h6⟩ := Execution.next_frame ha hf hr hin h1
    exact ⟨k, md, h4, h5, by rw [h6, h3]; rfl⟩

/-- **C133**: frames follow one another without a gap: whenever the app waits, the next frame is drawn later. -/
theorem C133_next (ha : Animated T p throbber) (e : Execution p) (hf : e.Fair) (hr : e.KeepsRunning)
    (hin : e.NoTicksTyped T) (n : Nat) (m : σ) (hm : (e.state n).main = .select m) :
    ∃ k md, n < k ∧ (e.state k).main = .select md ∧ .drew md ∈ (e.state k).trace ∧
      (throbber md).frame = (throbber m).frame + 1 := by
  obtain ⟨k, md, h1, h2, h3, h4⟩ := Execution.next_frame ha hf hr hin hm
  refine ⟨k, md, ?_, h2, h3, h4⟩
  rcases Nat.lt_or_eq_of_le h1 with h | h
  · exact h
  · subst h
    rw [hm] at h2
    cases h2
    omega

/-- **C133** for `examples/throbber`. -/
theorem C133_example (id : Int) (hid : 0 < id) (e : Execution (ThrobberExample.program id)) (hf : e.Fair)
    (hr : e.KeepsRunning) (hin : ∀ n i m, e.choice n = some (.thread i (.input m)) → ∃ x, m = .input x) (frame : Nat) :
    ∃ n md, (e.state n).main = .select md ∧ .drew md ∈ (e.state n).trace ∧ md.throbber.frame = frame :=
  C133_every_frame (C120_example id hid) e hf hr (fun n i m h => by
    obtain ⟨x, rfl⟩ := hin n i m h
    rfl) frame

open ThrobberExample

/-- The program. -/
abbrev spinP := ThrobberExample.program 1

/-- The model at a frame. -/
def spinModel (j : Nat) : ThrobberExample.Model := ⟨⟨j, 1, j⟩, 111111111⟩

/-- The steps: the start, and then, again and again, the call, its tick, the next command and the draw. -/
def spinChoice (n : Nat) : Choice ThrobberExample.Message :=
  if n < 9 then ([.main (.op true), .main (.op true), .main (.op true), .main (.op true), .main (.drawn (.ok true)),
    .main (.op true), .main (.op true), .main (.op true), .fromInit 0 4] : List (Choice ThrobberExample.Message))[n]?.getD .cancel
  else match (n - 9) % 4 with
    | 0 => .thread (5 + (n - 9) / 4) (.go 0)
    | 1 => .message (5 + (n - 9) / 4) 0 true
    | 2 => .fromMain 4
    | _ => .main (.drawn (.ok true))

/-- The states. -/
def spinState : Nat → App.State ThrobberExample.Model ThrobberExample.Message
  | 0 => .start _ _
  | n + 1 => (step spinP (spinState n) (spinChoice n)).getD (spinState n)

/-- The goroutines of the app, those of past ticks, and the current one. -/
def spinThreads (j : Nat) (l : List (Thread ThrobberExample.Message)) : List (Thread ThrobberExample.Message) :=
  [.finished, .reading, .size false, .size true, .commands] ++ List.replicate j .finished ++ l

/-- What the state looks like. -/
structure SpinShape (j : Nat) (main : Main ThrobberExample.Model) (l : List (Thread ThrobberExample.Message))
    (s : App.State ThrobberExample.Model ThrobberExample.Message) : Prop where
  main : s.main = main
  threads : s.threads = spinThreads j l
  done : s.done = false
  crashed : s.crashed = false

theorem spin_last (j : Nat) (t : Thread ThrobberExample.Message) (l) : (spinThreads j (t :: l))[5 + j]? = some t := by
  unfold spinThreads
  rw [List.getElem?_append_right (by simp; omega)]
  simp [show 5 + j - (j + 1 + 1 + 1 + 1 + 1) = 0 by omega]

theorem spin_set (j : Nat) (t t' : Thread ThrobberExample.Message) :
    (spinThreads j [t]).set (5 + j) t' = spinThreads j [t'] := by
  unfold spinThreads
  rw [List.set_append_right _ _ (by simp; omega)]
  simp [show 5 + j - (j + 1 + 1 + 1 + 1 + 1) = 0 by omega]

theorem spin_done (j : Nat) (l : List (Thread ThrobberExample.Message)) :
    spinThreads j (.finished :: l) = spinThreads (j + 1) l := by
  unfold spinThreads
  rw [List.replicate_succ']
  simp

theorem spin_call {j : Nat} {s} (h : SpinShape j (.select (spinModel j)) [.call (j + 1)] s) :
    ∃ s', step spinP s (.thread (5 + j) (.go 0)) = some s' ∧
      SpinShape j (.select (spinModel j)) [.send (some (.user (.tick ⟨j, 1⟩)))] s' := by
  refine ⟨s.put (5 + j) (.send (some (.user (.tick ⟨j, 1⟩)))), ?_, h.main, ?_, h.done, h.crashed⟩
  · have hc : spinP.call (j + 1) 0 = .returns (some (.user (.tick ⟨j, 1⟩))) := by
      show Outcome.returns (some (if j + 1 = Lazygit.quitCmd then _ else _)) = _
      rw [if_neg (show ¬ (j + 1 : Nat) = Lazygit.quitCmd from Nat.succ_ne_zero j)]
      simp
    unfold step
    rw [if_neg (by rw [h.crashed]; simp)]
    simp only [h.threads, spin_last, threadStep, hc]
  · show s.threads.set _ _ = _
    rw [h.threads, spin_set]

theorem spin_message {j : Nat} {s}
    (h : SpinShape j (.select (spinModel j)) [.send (some (.user (.tick ⟨j, 1⟩)))] s) :
    ∃ s', step spinP s (.message (5 + j) 0 true) = some s' ∧
      SpinShape (j + 1) (.command (spinModel (j + 1)) (some (j + 2))) [] s' := by
  have hu : spinP.update (spinModel j) (.user (.tick ⟨j, 1⟩)) = some (spinModel (j + 1), some (j + 2)) := by
    show some (ThrobberExample.update (spinModel j) (.user (.tick ⟨j, 1⟩))) = _
    unfold ThrobberExample.update
    have := tick_accepted (spinModel j).throbber
    simp only [show (⟨(j : Int), 1⟩ : Throbber.Tick) = (spinModel j).throbber.tick from rfl, this]
    simp [spinModel, ThrobberExample.tickCmd]
  refine ⟨receive spinP ((s.log [.delivered (5 + j) none (some (.user (.tick ⟨j, 1⟩)))]).put (5 + j) .finished)
    (spinModel j) (some (.user (.tick ⟨j, 1⟩))) true, ?_, ?_⟩
  · unfold step
    rw [if_neg (by rw [h.crashed]; simp)]
    simp only [h.threads, spin_last, h.main, offer]
  · unfold receive
    simp only
    unfold App.update
    rw [hu]
    refine ⟨rfl, ?_, h.done, h.crashed⟩
    show s.threads.set _ _ = _
    rw [h.threads, spin_set, spin_done]

theorem spin_command {j : Nat} {s} (h : SpinShape (j + 1) (.command (spinModel (j + 1)) (some (j + 2))) [] s) :
    ∃ s', step spinP s (.fromMain 4) = some s' ∧ SpinShape (j + 1) (.draw (spinModel (j + 1))) [.call (j + 2)] s' := by
  refine ⟨(accept s (some (j + 2))).at (.draw (spinModel (j + 1))), ?_, rfl, ?_, h.done, h.crashed⟩
  · unfold step
    rw [if_neg (by rw [h.crashed]; simp)]
    have : s.threads[4]? = some .commands := by rw [h.threads]; rfl
    simp only [h.main, this]
  · show s.threads ++ [_] = _
    rw [h.threads]
    unfold spinThreads
    simp

theorem spin_draw {j : Nat} {s} (h : SpinShape (j + 1) (.draw (spinModel (j + 1))) [.call (j + 2)] s) :
    ∃ s', step spinP s (.main (.drawn (.ok true))) = some s' ∧
      SpinShape (j + 1) (.select (spinModel (j + 1))) [.call (j + 2)] s' := by
  refine ⟨drawn s (spinModel (j + 1)) (.ok true) (.select (spinModel (j + 1))) none, ?_,
    rfl, h.threads, h.done, h.crashed⟩
  unfold step
  rw [if_neg (by rw [h.crashed]; simp)]
  simp only [mainStep, h.main]

/-- The state in a round. -/
theorem spin_round (j : Nat) : SpinShape j (.select (spinModel j)) [.call (j + 1)] (spinState (9 + 4 * j)) ∧
    SpinShape j (.select (spinModel j)) [.send (some (.user (.tick ⟨j, 1⟩)))] (spinState (9 + 4 * j + 1)) ∧
    SpinShape (j + 1) (.command (spinModel (j + 1)) (some (j + 2))) [] (spinState (9 + 4 * j + 2)) ∧
    SpinShape (j + 1) (.draw (spinModel (j + 1))) [.call (j + 2)] (spinState (9 + 4 * j + 3)) ∧
    ∀ r, r < 4 → step spinP (spinState (9 + 4 * j + r)) (spinChoice (9 + 4 * j + r)) = some (spinState (9 + 4 * j + r + 1)) := by
  have c0 : ∀ j, spinChoice (9 + 4 * j) = .thread (5 + j) (.go 0) := by
    intro j
    unfold spinChoice
    rw [if_neg (by omega), show (9 + 4 * j - 9) % 4 = 0 by omega, show (9 + 4 * j - 9) / 4 = j by omega]; rfl
  have c1 : ∀ j, spinChoice (9 + 4 * j + 1) = .message (5 + j) 0 true := by
    intro j
    unfold spinChoice
    rw [if_neg (by omega), show (9 + 4 * j + 1 - 9) % 4 = 1 by omega, show (9 + 4 * j + 1 - 9) / 4 = j by omega]; rfl
  have c2 : ∀ j, spinChoice (9 + 4 * j + 2) = .fromMain 4 := by
    intro j
    unfold spinChoice
    rw [if_neg (by omega), show (9 + 4 * j + 2 - 9) % 4 = 2 by omega]; rfl
  have c3 : ∀ j, spinChoice (9 + 4 * j + 3) = .main (.drawn (.ok true)) := by
    intro j
    unfold spinChoice
    rw [if_neg (by omega), show (9 + 4 * j + 3 - 9) % 4 = 3 by omega]; rfl
  have hs : ∀ n s', step spinP (spinState n) (spinChoice n) = some s' → spinState (n + 1) = s' := by
    intro n s' h
    show (step spinP (spinState n) (spinChoice n)).getD _ = s'
    rw [h]
    rfl
  have round : ∀ j, SpinShape j (.select (spinModel j)) [.call (j + 1)] (spinState (9 + 4 * j)) →
      SpinShape j (.select (spinModel j)) [.send (some (.user (.tick ⟨j, 1⟩)))] (spinState (9 + 4 * j + 1)) ∧
      SpinShape (j + 1) (.command (spinModel (j + 1)) (some (j + 2))) [] (spinState (9 + 4 * j + 2)) ∧
      SpinShape (j + 1) (.draw (spinModel (j + 1))) [.call (j + 2)] (spinState (9 + 4 * j + 3)) ∧
      SpinShape (j + 1) (.select (spinModel (j + 1))) [.call (j + 2)] (spinState (9 + 4 * j + 4)) ∧
      ∀ r, r < 4 → step spinP (spinState (9 + 4 * j + r)) (spinChoice (9 + 4 * j + r)) =
        some (spinState (9 + 4 * j + r + 1)) := by
    intro j h
    obtain ⟨s1, e1, h1⟩ := spin_call h
    rw [← c0] at e1
    rw [← hs _ _ e1] at h1 e1
    obtain ⟨s2, e2, h2⟩ := spin_message h1
    rw [← c1] at e2
    rw [← hs _ _ e2] at h2 e2
    obtain ⟨s3, e3, h3⟩ := spin_command h2
    rw [← c2 j] at e3
    rw [← hs _ _ e3] at h3 e3
    obtain ⟨s4, e4, h4⟩ := spin_draw h3
    rw [← c3 j] at e4
    rw [← hs _ _ e4] at h4 e4
    refine ⟨h1, h2, h3, h4, fun r hr => ?_⟩
    rcases r with _ | _ | _ | _ | r
    · exact e1
    · exact e2
    · exact e3
    · exact e4
    · omega
  have h0 : ∀ j, SpinShape j (.select (spinModel j)) [.call (j + 1)] (spinState (9 + 4 * j)) := by
    intro j
    induction j with
    | zero => exact ⟨rfl, rfl, rfl, rfl⟩
    | succ j ih => exact (round j ih).2.2.2.1
  obtain ⟨h1, h2, h3, _, h5⟩ := round j (h0 j)
  exact ⟨h0 j, h1, h2, h3, h5⟩

theorem spin_early : ∀ n < 9, (step spinP (spinState n) (spinChoice n)).isSome = true := by
  intro n hn
  rcases n with _ | _ | _ | _ | _ | _ | _ | _ | _ | n
  all_goals first | rfl | omega

/-- It spins for ever. -/
def spin : Execution spinP where
  state := spinState
  choice n := some (spinChoice n)
  start := rfl
  next n := by
    show step spinP (spinState n) (spinChoice n) = some (spinState (n + 1))
    by_cases hn : n < 9
    · obtain ⟨s, h⟩ := Option.isSome_iff_exists.1 (spin_early n hn)
      show _ = some ((step spinP (spinState n) (spinChoice n)).getD (spinState n))
      rw [h]
      rfl
    · have h := (spin_round ((n - 9) / 4)).2.2.2.2 ((n - 9) % 4) (by omega)
      rw [show 9 + 4 * ((n - 9) / 4) + (n - 9) % 4 = n by omega] at h
      exact h

/-- Every later moment is one of four. -/
theorem spin_cases (n : Nat) (hn : 9 ≤ n) : ∃ j main l, n < 9 + 4 * (j + 1) ∧ SpinShape j main l (spinState n) ∧
    Looping main := by
  have h := spin_round ((n - 9) / 4)
  have hr : n = 9 + 4 * ((n - 9) / 4) + (n - 9) % 4 := by omega
  have h4 : (n - 9) % 4 < 4 := Nat.mod_lt _ (by decide)
  generalize (n - 9) / 4 = j at h hr
  generalize (n - 9) % 4 = r at hr h4
  obtain ⟨h0, h1, h2, h3, _⟩ := h
  rcases r with _ | _ | _ | _ | r
  · exact ⟨j, .select (spinModel j), _, by omega, hr ▸ h0, trivial⟩
  · exact ⟨j, .select (spinModel j), _, by omega, hr ▸ h1, trivial⟩
  · exact ⟨j + 1, .command (spinModel (j + 1)) (some (j + 2)), _, by omega, hr ▸ h2, trivial⟩
  · exact ⟨j + 1, .draw (spinModel (j + 1)), _, by omega, hr ▸ h3, trivial⟩
  · omega

/-- A goroutine whose time has passed. -/
theorem spin_past (n i : Nat) (hn : 9 + 4 * (i + 1) ≤ n) : (spinState n).done = false ∧ ∃ t,
    (spinState n).threads[i]? = some t ∧ t.waits = true := by
  obtain ⟨j, main, l, h1, h2, _⟩ := spin_cases n (by omega)
  refine ⟨h2.done, ?_⟩
  rw [h2.threads]
  unfold spinThreads
  have hlt : i < (([.finished, .reading, .size false, .size true, .commands] : List (Thread ThrobberExample.Message)) ++
      List.replicate j Thread.finished).length := by simp; omega
  rw [List.getElem?_append_left hlt, List.getElem?_eq_getElem hlt]
  refine ⟨_, rfl, ?_⟩
  have hall : ∀ t ∈ (([.finished, .reading, .size false, .size true, .commands] : List (Thread ThrobberExample.Message)) ++
      List.replicate j Thread.finished), t.waits = true := by
    intro t ht
    rcases List.mem_append.1 ht with ht | ht
    · simp only [List.mem_cons, List.not_mem_nil, or_false] at ht
      rcases ht with rfl | rfl | rfl | rfl | rfl <;> rfl
    · rw [List.eq_of_mem_replicate ht]
      rfl
  exact hall _ (List.getElem_mem hlt)

/-- Non-vacuity: an execution of `examples/throbber` that is fair and keeps running, in which no ticks are typed. -/
theorem spin_fair : spin.Fair ∧ spin.KeepsRunning := by
  have hch : ∀ j : Nat, spin.choice (9 + 4 * j + 2) = some (.fromMain 4) ∧
      spin.choice (9 + 4 * j + 3) = some (.main (.drawn (.ok true))) := by
    intro j
    constructor
    · show some (spinChoice _) = _
      unfold spinChoice
      rw [if_neg (by omega), show (9 + 4 * j + 2 - 9) % 4 = 2 by omega]; rfl
    · show some (spinChoice _) = _
      unfold spinChoice
      rw [if_neg (by omega), show (9 + 4 * j + 3 - 9) % 4 = 3 by omega]; rfl
  refine ⟨fun turn hcan n => ?_, 9, fun m hm => ?_⟩
  · cases turn with
    | run => exact ⟨9 + 4 * n + 3, by omega, _, (hch n).2, trivial⟩
    | command => exact ⟨9 + 4 * n + 2, by omega, _, (hch n).1, trivial⟩
    | goroutine i =>
      exfalso
      obtain ⟨m, h1, c, h2, h3⟩ := hcan (9 + 4 * (i + 1))
      obtain ⟨hd, t, ht, hw⟩ := spin_past m i h1
      change (step spinP (spinState m) c).isSome = true at h3
      unfold step at h3
      rw [if_neg (by rw [show (spinState m).crashed = false from spin.not_crashed m]; simp)] at h3
      cases c with
      | thread k a =>
        obtain ⟨rfl, ha⟩ := h2
        simp only [ht] at h3
        cases t with
        | finished => simp [threadStep] at h3
        | reading => cases a <;> first | exact ha | simp [threadStep] at h3
        | size l => cases a <;> first | exact ha | (cases l <;> simp [threadStep, hd] at h3)
        | commands => cases a <;> simp [threadStep, hd] at h3
        | _ => cases hw
      | _ => exact h2
    | message i =>
      exfalso
      obtain ⟨m, h1, c, h2, h3⟩ := hcan (9 + 4 * (i + 1))
      obtain ⟨hd, t, ht, hw⟩ := spin_past m i h1
      change (step spinP (spinState m) c).isSome = true at h3
      unfold step at h3
      rw [if_neg (by rw [show (spinState m).crashed = false from spin.not_crashed m]; simp)] at h3
      cases c with
      | message k j ok =>
        obtain rfl : i = k := h2
        simp only [ht] at h3
        have ho : offer t j = none := by
          cases t <;> first | rfl | cases hw
        split at h3
        · rename_i he
          cases he
          rw [ho] at h3
          cases h3
        · cases h3
      | _ => exact h2
    | first i =>
      exfalso
      obtain ⟨m, h1, c, h2, h3⟩ := hcan (9 + 4 * (i + 1))
      obtain ⟨hd, t, ht, hw⟩ := spin_past m i h1
      change (step spinP (spinState m) c).isSome = true at h3
      unfold step at h3
      rw [if_neg (by rw [show (spinState m).crashed = false from spin.not_crashed m]; simp)] at h3
      cases c with
      | fromInit k j =>
        obtain rfl : i = k := h2
        simp only [ht] at h3
        cases t with
        | finished => cases h3
        | reading => cases h3
        | size l => cases h3
        | commands => cases h3
        | _ => cases hw
      | _ => exact h2
  · obtain ⟨j, main, l, _, h, hl⟩ := spin_cases m hm
    refine ⟨h.done, ?_⟩
    have hmain : (spin.state m).main = main := h.main
    rw [hmain]
    cases main with
    | select md => exact .inl ⟨md, rfl⟩
    | command md c => exact .inr (.inl ⟨md, c, rfl⟩)
    | draw md => exact .inr (.inr ⟨md, rfl⟩)
    | _ => exact hl.elim

/-- Non-vacuity: `spin` meets the hypotheses. -/
example : spin.Fair ∧ spin.KeepsRunning ∧
    (∀ n i m, spin.choice n = some (.thread i (.input m)) → ∃ x, m = .input x) ∧
    ∃ n md, (spin.state n).main = .select md ∧ md.throbber.frame = 1000 := by
  have hno : ∀ n i m, spin.choice n = some (.thread i (.input m)) → ∃ x, m = .input x := by
    intro n i m h
    exfalso
    by_cases hn : n < 9
    · rcases n with _ | _ | _ | _ | _ | _ | _ | _ | _ | n
      all_goals first | cases h | omega
    · change some (spinChoice n) = _ at h
      unfold spinChoice at h
      rw [if_neg hn] at h
      split at h <;> cases h
  refine ⟨spin_fair.1, spin_fair.2, hno, ?_⟩
  obtain ⟨n, md, h1, _, h2⟩ := C133_example 1 (by decide) spin spin_fair.1 spin_fair.2 hno 1000
  exact ⟨n, md, h1, h2⟩

end Bento
