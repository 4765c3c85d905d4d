import Verif.Spec.Watched
import Verif.Props.AppLive
import Verif.Props.Reached

/-!
# C136: what is typed is seen at last
-/

namespace Bento

namespace App

section

variable {σ μ : Type} {p : Program σ μ} {d : Display σ}

theorem Watched.live {e : Execution p} (w : Watched p d e) (n : Nat) :
    Live p d (e.state n) (w.tty n) (w.shell n) := by
  induction n with
  | zero =>
    obtain ⟨sc, t, h1, h2, h3, h4, h5, h6, h7⟩ := w.start
    rw [e.start, h6, h7]
    exact .start sc t h1 h2 h3 h4 h5
  | succ n ih =>
    have hn := e.next n
    cases hc : e.choice n with
    | none =>
      rw [hc] at hn
      rw [← move_none hn]
      rcases w.rests n hc with ⟨h1, h2⟩ | ⟨cols, rows, cx, cy, grid, other, h1, h2⟩
      · rw [h1, h2]; exact ih
      · rw [h1, h2]; exact .window ih cols rows cx cy grid other
    | some c =>
      rw [hc] at hn
      obtain ⟨h1, h2⟩ := w.moves n c hc
      rw [h2]
      exact .step ih c _ hn _ h1

theorem taken_mono (e : Execution p) {n m : Nat} (h : n ≤ m) : taken (e.state n).trace <+: taken (e.state m).trace := by
  refine from_on (P := fun m => taken (e.state n).trace <+: taken (e.state m).trace) (List.prefix_refl _)
    (fun m _ ih => ?_) m h
  obtain ⟨es, h⟩ := move_trace (e.next m)
  rw [h]
  exact ih.trans ⟨taken es, by simp [taken]⟩

/-- The step in which an input is taken. -/
theorem input_step {e : Execution p} (hf : e.Fair) (hr : e.KeepsRunning) {n i : Nat} {x : μ}
    (hi : (e.state n).threads[i]? = some (.readSend x)) :
    ∃ k md j ok, n ≤ k ∧ e.choice k = some (.message i j ok) ∧ (e.state k).main = .select md ∧
      e.state (k + 1) = receive p (((e.state k).log [.delivered i none (some (.user x))]).put i .reading) md
        (some (.user x)) ok := by
  obtain ⟨k, k1, k2, k3⟩ := hf.leaves hi ⟨.message i, fun c hc => by
      cases c <;> first | exact hc.1.symm | exact hc.symm | exact hc.elim, fun l _ => by
      obtain ⟨l', h1, md, h2⟩ := hr.waits hf l
      refine ⟨l', h1, fun ht => ⟨.message i 0 true, rfl, ?_⟩⟩
      unfold App.step
      rw [if_neg (by rw [e.not_crashed]; simp)]
      simp only [h2, ht, offer]
      rfl⟩
  rcases touch_move (e.next k) k3 k2 with ⟨a, _, h⟩ | ⟨j, ok, md, m', member, t'', hc, hm, h, hs⟩ | ⟨h, _⟩ | ⟨c, h, _⟩
  · cases a with
    | giveUp =>
      simp only [threadStep, hr.live k] at h
      cases h
    | _ => cases h
  · cases h
    exact ⟨k, md, j, ok, k1, hc, hm, hs⟩
  · cases h
  · cases h

theorem input_taken {e : Execution p} (hf : e.Fair) (hr : e.KeepsRunning) {n i : Nat} {x : μ}
    (h : e.choice n = some (.thread i (.input x))) :
    ∃ k j ok, n < k ∧ e.choice k = some (.message i j ok) ∧
      taken (e.state (k + 1)).trace = taken (e.state k).trace ++ [some (.user x)] := by
  have hn := e.next n
  rw [h] at hn
  simp only [move] at hn
  unfold App.step at hn
  rw [if_neg (by rw [e.not_crashed]; simp)] at hn
  simp only at hn
  split at hn
  · cases hn
  · rename_i t ht
    have hlt := (List.getElem?_eq_some_iff.1 ht).1
    cases t with
    | reading =>
      simp only [threadStep, Option.some.injEq] at hn
      have hi : (e.state (n + 1)).threads[i]? = some (.readSend x) := by
        rw [← hn]
        show ((e.state n).threads.set i _)[i]? = _
        simp [hlt]
      obtain ⟨k, md, j, ok, hk, hc, hm, hs⟩ := input_step hf hr hi
      refine ⟨k, j, ok, by omega, hc, ?_⟩
      rw [hs]
      unfold receive
      simp only
      unfold App.update
      split <;> simp [State.at, State.log, State.put, taken]
    | seq rest => rcases rest with _ | ⟨_ | _, _⟩ <;> cases hn
    | _ => cases hn

end

end App

open App in
/-- **C136.** What is typed is taken at some later moment; from then on, whenever the app waits and knows the size of
the window, the screen shows a model that `Update` has made of the messages taken, among them this one in its
place. -/
theorem C136_seen {σ μ : Type} (p : Program σ μ) (d : Display σ) (S : String → Prop)
    (env : Env d.uniseg d.termenv S)
    (hv : ∀ t m, model p p.start t = some m → (d.view m).Good d.uniseg d.termenv S)
    (e : Execution p) (hf : e.Fair) (hr : e.KeepsRunning) (w : Watched p d e)
    (n i : Nat) (x : μ) (h : e.choice n = some (.thread i (.input x))) :
    ∃ k before, n < k ∧ before = taken (e.state k).trace ∧
      ∀ m md, k < m → (e.state m).main = .select md → (w.tty m).known = true →
        ∃ after, taken (e.state m).trace = before ++ some (.user x) :: after ∧
          model p p.start (before ++ some (.user x) :: after) = some md ∧ d.Presents (w.tty m).screen md := by
  obtain ⟨k, j, ok, hk, _, ht⟩ := input_taken hf hr h
  refine ⟨k, _, hk, rfl, fun m md hm hmain hknown => ?_⟩
  obtain ⟨after, ha⟩ := taken_mono e (n := k + 1) (m := m) (by omega)
  rw [ht, List.append_assoc] at ha
  obtain ⟨h1, blank, frame, cur, h2, h3, h4, h5, h6, _⟩ := C105_waiting_reached p d S env hv _ _ _ (w.live m) hknown
    (.inl (hr.live m)) md hmain
  exact ⟨after, ha.symm, by rw [← h1]; exact congrArg _ ha, blank, frame, cur, h2, h3, h4, h5, h6⟩

open App in
/-- **C136.** If the window has stopped changing and the app knows its size, there is such a moment after every other
one. -/
theorem C136_at_last {σ μ : Type} (p : Program σ μ) (d : Display σ) (S : String → Prop)
    (env : Env d.uniseg d.termenv S)
    (hv : ∀ t m, model p p.start t = some m → (d.view m).Good d.uniseg d.termenv S)
    (e : Execution p) (hf : e.Fair) (hr : e.KeepsRunning) (w : Watched p d e)
    (hk : ∃ N, ∀ m, N ≤ m → (w.tty m).known = true)
    (n i : Nat) (x : μ) (h : e.choice n = some (.thread i (.input x))) (l : Nat) :
    ∃ k m md after, n < k ∧ k < m ∧ l ≤ m ∧ (e.state m).main = .select md ∧
      model p p.start (taken (e.state k).trace ++ some (.user x) :: after) = some md ∧
      d.Presents (w.tty m).screen md := by
  obtain ⟨N, hN⟩ := hk
  obtain ⟨k, before, h1, rfl, h2⟩ := C136_seen p d S env hv e hf hr w n i x h
  obtain ⟨m, h3, md, h4⟩ := hr.waits hf (max (k + 1) (max l N))
  obtain ⟨after, _, h5, h6⟩ := h2 m md (by omega) h4 (hN m (by omega))
  exact ⟨k, m, md, after, h1, by omega, by omega, h4, h5, h6⟩

namespace App

/-- The counter of `Props/Live` is started, and 7 is typed. -/
def counterRun : List (Choice Nat) :=
  [.main (.op true), .main (.op true), .main (.op true), .main (.op true), .main (.drawn (.ok false)), .main (.op true),
    .main (.op true), .main (.op true), .thread 0 (.input 7), .message 0 0 true, .fromMain 3, .main (.drawn (.ok false))]

/-- Where it rests. -/
def counterEnd : State Nat Nat := (run counter counterRun).getD (.start Nat Nat)

theorem counter_ends : run counter counterRun = some counterEnd := by decide +kernel

/-- It rests for ever. -/
def counterLive : Execution counter := thenRests counter counterRun counterEnd counter_ends (by decide +kernel)

/-- A step of it can be taken on a screen. -/
def CounterNext (n : Nat) (y : Tty) : Prop :=
  ∃ y' : Tty, y'.known = true ∧
    (∀ c, counterLive.choice n = some c → counterDisplay.Touches counter (counterLive.state n) c y y') ∧
    (counterLive.choice n = none → y' = y)

theorem counter_send {n : Nat} {y : Tty} (c : Choice Nat) (y' : Tty) (hc : counterLive.choice n = some c)
    (hk : y'.known = true) (ht : counterDisplay.Touches counter (counterLive.state n) c y y') : CounterNext n y :=
  ⟨y', hk, fun c' hc' => by rw [hc] at hc'; cases hc'; exact ht, fun hc' => by rw [hc] at hc'; cases hc'⟩

theorem counter_draws {n : Nat} {y : Tty} (h : Live counter counterDisplay (counterLive.state n) y Grid.blank)
    (hk : y.known = true) (m : Nat) (hm : counter.drawing (counterLive.state n).main = some m)
    (hc : counterLive.choice n = some (.main (.drawn (.ok false)))) : CounterNext n y := by
  obtain ⟨t, out, ht⟩ := (C105_succeeds counter counterDisplay (fun _ => True) simple_env (fun _ => fillA_good) _ y _ h
    (.inr (by simp [counter]))).1 m hm
  exact counter_send _ ⟨t, y.screen.feed counterDisplay.junk counterDisplay.uniseg out, y.known⟩ hc hk
    ⟨m, t, out, hm, ht, (fillA_cursor ht).symm, rfl⟩

theorem counter_next : ∀ (n : Nat) (y : Tty),
    Live counter counterDisplay (counterLive.state n) y Grid.blank → y.known = true → CounterNext n y
  | 0, y, _, hk => counter_send (.main (.op true)) y rfl hk rfl
  | 1, y, _, hk => by
    obtain ⟨o, ho⟩ := writes_one (T := simpleEnv) (c := .hideCursor) rfl
    exact counter_send (.main (.op true)) ⟨{ y.term with hiddenCursor := true },
      y.screen.feed counterDisplay.junk counterDisplay.uniseg o, y.known⟩ rfl hk
      ⟨_, ⟨o, ho, rfl⟩, rfl⟩
  | 2, y, _, hk => by
    obtain ⟨o, ho⟩ := writes_one (T := simpleEnv) (c := .enterAlternateScreen) rfl
    exact counter_send (.main (.op true)) ⟨y.term, y.screen.feed counterDisplay.junk counterDisplay.uniseg o, y.known⟩
      rfl hk ⟨_, ⟨o, ho, rfl⟩, rfl⟩
  | 3, y, _, hk => counter_send (.main (.op true)) y rfl hk rfl
  | 4, y, h, hk => counter_draws h hk 0 rfl rfl
  | 5, y, _, hk => counter_send (.main (.op true)) y rfl hk rfl
  | 6, y, _, hk => counter_send (.main (.op true)) y rfl hk rfl
  | 7, y, _, hk => counter_send (.main (.op true)) y rfl hk rfl
  | 8, y, _, hk => counter_send (.thread 0 (.input 7)) y rfl hk rfl
  | 9, y, _, hk => counter_send (.message 0 0 true) y rfl hk rfl
  | 10, y, _, hk => counter_send (.fromMain 3) y rfl hk rfl
  | 11, y, h, hk => counter_draws h hk 1 rfl rfl
  | n + 12, y, _, hk => ⟨y, hk, fun c hc => (Option.some_ne_none c (Eq.symm hc)).elim, fun _ => rfl⟩

/-- The screen of the shell. -/
def counterScreen : Screen := ⟨2, 1, Grid.blank, 0, 0, Pen.neutral, true, false, Grid.blank, false⟩

/-- The screens, one after the other. -/
theorem counter_ttys : ∃ tty : Nat → Tty, (∃ t, Terminal.new .fullscreen 2 1 = some t ∧ tty 0 = ⟨t, counterScreen, true⟩) ∧
    ∀ n, (tty n).known = true ∧
      (∀ c, counterLive.choice n = some c → counterDisplay.Touches counter (counterLive.state n) c (tty n) (tty (n + 1))) ∧
      (counterLive.choice n = none → tty (n + 1) = tty n) := by
  classical
  obtain ⟨t, ht⟩ : ∃ t, Terminal.new .fullscreen 2 1 = some t := ⟨_, rfl⟩
  have h0 : Live counter counterDisplay (counterLive.state 0) ⟨t, counterScreen, true⟩ Grid.blank :=
    .start counterScreen t ht (by decide) (by decide) rfl rfl
  let next : Nat → Tty → Tty := fun n y => if h : CounterNext n y then h.choose else y
  let tty : Nat → Tty := fun n => Nat.rec ⟨t, counterScreen, true⟩ next n
  have hl : ∀ n, Live counter counterDisplay (counterLive.state n) (tty n) Grid.blank ∧ (tty n).known = true := by
    intro n
    induction n with
    | zero => exact ⟨h0, rfl⟩
    | succ n ih =>
      have hx := counter_next n _ ih.1 ih.2
      have he : tty (n + 1) = hx.choose := dif_pos hx
      obtain ⟨h1, h2, h3⟩ := hx.choose_spec
      rw [← he] at h1 h2 h3
      refine ⟨?_, h1⟩
      have hn := counterLive.next n
      cases hc : counterLive.choice n with
      | none =>
        rw [hc] at hn
        rw [← move_none hn, h3 hc]
        exact ih.1
      | some c =>
        rw [hc] at hn
        exact .step ih.1 c _ hn _ (h2 c hc)
  refine ⟨tty, ⟨t, ht, rfl⟩, fun n => ?_⟩
  have hx := counter_next n _ (hl n).1 (hl n).2
  have he : tty (n + 1) = hx.choose := dif_pos hx
  obtain ⟨_, h2, h3⟩ := hx.choose_spec
  rw [← he] at h2 h3
  exact ⟨(hl n).2, h2, h3⟩

end App

open App in
/-- Non-vacuity: 7 is typed in an app that keeps running under a fair scheduler, on a screen whose size it knows. -/
example : counterLive.Fair ∧ counterLive.KeepsRunning ∧ counterLive.choice 8 = some (.thread 0 (.input 7)) ∧
    (∀ m, (counterDisplay.view m).Good counterDisplay.uniseg counterDisplay.termenv (fun _ => True)) ∧
    ∃ w : Watched counter counterDisplay counterLive, ∀ m, (w.tty m).known = true := by
  obtain ⟨h1, h2⟩ := thenRests_fair counter counterRun counterEnd counter_ends (by decide +kernel) 1 (by decide +kernel)
    (by decide +kernel) (by decide +kernel)
  obtain ⟨tty, ⟨t, ht, h0⟩, h⟩ := counter_ttys
  exact ⟨h1, h2, rfl, fun _ => fillA_good, ⟨tty, fun _ => Grid.blank,
    ⟨counterScreen, t, ht, by decide, by decide, rfl, rfl, h0, rfl⟩,
    fun n c hc => ⟨(h n).2.1 c hc, rfl⟩, fun n hc => .inl ⟨(h n).2.2 hc, rfl⟩⟩, fun m => (h m).1⟩

end Bento
