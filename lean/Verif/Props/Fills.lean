import Verif.Props.Watched

/-!
# C138: after its window has changed the app fills it again
-/

namespace Bento

namespace App

section

variable {σ μ : Type}

/-- A draw does not change the size of the screen. -/
theorem draw_size {d : Display σ} {S : String → Prop} (env : Env d.uniseg d.termenv S) {y : Tty} {g : Grid}
    (h : Running d S y g) {w : Widget} (hw : w.Good d.uniseg d.termenv S) {t : Terminal} {out : List Char}
    (hd : y.term.draw d.uniseg d.termenv w noFault = some (t, out, true)) :
    (y.screen.feed d.junk d.uniseg out).cols = y.screen.cols ∧
      (y.screen.feed d.junk d.uniseg out).rows = y.screen.rows := by
  obtain ⟨⟨ht, hfull, hpen, harea⟩, halt, hsh, hshows⟩ := h
  obtain ⟨b, cur, hwb, hb, hcur⟩ := hw y.term.viewportArea y.term.cur ht.x ht.y ht.cur
  obtain ⟨t2, ups, out2, e1, e2, e3, e4, e5, e6, e7, e8, e9, _⟩ := draw_spec env ht.toPInv hwb hb hcur
  rw [e1] at hd
  injection hd with hd
  injection hd with hd1 hd2
  injection hd2 with hd2 _
  subst hd1
  subst hd2
  obtain ⟨o, ho, hf⟩ := feed_commands d.junk env _ e4 y.screen
  rw [e5] at ho
  injection ho with ho
  subst ho
  have k := drawCommands_keeps d.junk d.uniseg d.termenv ups y.screen
  rw [hf, List.foldl_append, cursor_effect]
  generalize (drawCommands d.termenv ups).foldl (Command.effect d.junk d.uniseg d.termenv) y.screen = sc at k
  cases cur <;> exact ⟨k.cols, k.rows⟩

/-- Nor does a resize of the terminal. -/
theorem resize_size {d : Display σ} {S : String → Prop} (env : Env d.uniseg d.termenv S) {y : Tty} {g : Grid}
    (h : Running d S y g) {w v : Int} (hw : 0 ≤ w) (hv : 0 ≤ v) {t : Terminal} {out : List Char}
    (hd : y.term.resize d.termenv (Rect.new w v) none = some (t, out, true)) :
    (y.screen.feed d.junk d.uniseg out).cols = y.screen.cols ∧
      (y.screen.feed d.junk d.uniseg out).rows = y.screen.rows := by
  obtain ⟨⟨ht, hfull, hpen, _⟩, halt, hsh, _⟩ := h
  obtain ⟨t1, h1, h2, h3, h4, h5, h6⟩ := setViewport_spec ht (a := Rect.new w v) hw hv
  obtain ⟨hc, rfl⟩ := resize_spec d.termenv ht.vp h1 hd
  obtain ⟨_, _, cmds, hcm, ho⟩ := clear_spec d.termenv hc rfl
  have hvp : ∀ n, t1.viewport ≠ .inline n := by rw [h6]; exact ht.vp
  obtain ⟨o, ho', hf⟩ := feed_commands d.junk env cmds
    (clear_ok d.termenv S hvp (by rw [h5]; exact Int.le_refl 0) hcm) y.screen
  rw [ho] at ho'
  injection ho' with ho'
  subst ho'
  obtain ⟨gr, cx, cy, he, hbl⟩ := clear_effect d.junk d.uniseg d.termenv hvp hcm y.screen hpen
  rw [hf, he]
  exact ⟨rfl, rfl⟩

variable {p : Program σ μ} {d : Display σ}

theorem Execution.RunsFrom.keeps {e : Execution p} {N : Nat} (hr : e.RunsFrom N) : e.KeepsRunning := ⟨N, hr⟩

/-- A step after the window has come to rest: its size stays; what the app knows it goes on knowing; and a size that
it is told it knows. -/
theorem calm_step {S : String → Prop} (env : Env d.uniseg d.termenv S)
    (hv : ∀ m, (d.view m).Good d.uniseg d.termenv S) {e : Execution p} {w : Watched p d e} {N : Nat}
    (hr : e.RunsFrom N) (hc : w.Calm N) {n : Nat} (hn : N ≤ n) :
    (w.tty (n + 1)).screen.cols = (w.tty n).screen.cols ∧ (w.tty (n + 1)).screen.rows = (w.tty n).screen.rows ∧
    ((w.tty n).known = true → (w.tty (n + 1)).known = true) ∧
    (∀ i j ok a b, e.choice n = some (.message i j ok) →
      (((e.state n).threads[i]?).bind (offer · j)).map (·.1) = some (some (.size a b)) →
      (w.tty (n + 1)).known = true) := by
  have hl := w.live n
  have hdone := (hr n hn).1
  have hat := ((live_at env hv hl).2).resolve_left (by rw [hdone]; simp)
  have hres := (live_at env hv hl).1
  have hrun : Running d S (w.tty n) (w.shell n) := by
    rcases (hr n hn).2 with ⟨md, h⟩ | ⟨md, c, h⟩ | ⟨md, h⟩ <;> (rw [h] at hat; exact hat.1)
  have hstep := e.next n
  have hnext := hr (n + 1) (by omega)
  cases hch : e.choice n with
  | none =>
    rw [hc.still n hn hch]
    exact ⟨rfl, rfl, id, fun i j ok a b h => by cases h⟩
  | some c =>
    rw [hch] at hstep
    obtain ⟨ht, _⟩ := w.moves n c hch
    have same : w.tty (n + 1) = w.tty n → (∀ i j ok, c ≠ .message i j ok) →
        (w.tty (n + 1)).screen.cols = (w.tty n).screen.cols ∧ (w.tty (n + 1)).screen.rows = (w.tty n).screen.rows ∧
        ((w.tty n).known = true → (w.tty (n + 1)).known = true) ∧
        (∀ i j ok a b, some c = some (.message i j ok) →
          (((e.state n).threads[i]?).bind (offer · j)).map (·.1) = some (some (.size a b)) →
          (w.tty (n + 1)).known = true) := fun h hm => by
      rw [h]
      exact ⟨rfl, rfl, id, fun i j ok a b h => absurd (Option.some.inj h) (hm i j ok)⟩
    have hcr : ¬ (e.state n).crashed = true := by rw [e.not_crashed]; simp
    simp only [move] at hstep
    unfold step at hstep
    rw [if_neg hcr] at hstep
    cases c with
    | cancel => exact same ht (by simp)
    | main a =>
      cases a with
      | op ok =>
        exfalso
        simp only at hstep
        rcases (hr n hn).2 with ⟨md, h⟩ | ⟨md, c, h⟩ | ⟨md, h⟩ <;> (simp [mainStep, h, hdone] at hstep)
      | drawn dr =>
        simp only at hstep
        rcases (hr n hn).2 with ⟨md, h⟩ | ⟨md, c, h⟩ | ⟨md, h⟩
        · simp [mainStep, h] at hstep
        · simp [mainStep, h] at hstep
        · simp only [mainStep, h, Option.some.injEq] at hstep
          cases dr with
          | ok hidden =>
            obtain ⟨m, t, out, h1, h2, h3, h4⟩ := ht
            have hk : (w.tty (n + 1)).known = (w.tty n).known := by rw [h4]
            obtain ⟨h5, h6⟩ := draw_size env hrun (hv m) h2
            refine ⟨by rw [h4]; exact h5, by rw [h4]; exact h6, by rw [hk]; exact id, fun i j ok a b h => by cases h⟩
          | error =>
            exfalso
            rw [← hstep] at hnext
            rcases hnext.2 with ⟨md, h⟩ | ⟨md, c, h⟩ | ⟨md, h⟩ <;> cases h
          | panics =>
            exfalso
            rw [← hstep] at hnext
            rcases hnext.2 with ⟨md, h⟩ | ⟨md, c, h⟩ | ⟨md, h⟩ <;> cases h
    | thread i a =>
      refine same ?_ (by simp)
      cases a with
      | op ok =>
        simp only [Display.Touches] at ht
        split at ht
        · rename_i stage hi
          have := (hres stage (List.mem_of_getElem? hi)).2
          cases stage <;> first | exact ht | (rw [hdone] at this; exact absurd (this (by simp)) (by simp))
        · exact ht
      | _ => exact ht
    | message i j ok =>
      simp only [Display.Touches] at ht
      simp only at hstep
      cases hi : (e.state n).threads[i]? with
      | none =>
        rw [hi] at hstep
        rcases (hr n hn).2 with ⟨md, h⟩ | ⟨md, c, h⟩ | ⟨md, h⟩ <;> (simp [h] at hstep)
      | some t =>
        rw [hi] at hstep ht
        rcases (hr n hn).2 with ⟨md, h⟩ | ⟨md, c, h⟩ | ⟨md, h⟩
        · simp only [h] at hstep
          cases ho : offer t j with
          | none => rw [ho] at hstep; cases hstep
          | some o =>
            obtain ⟨m, member, t'⟩ := o
            rw [ho] at hstep
            have hoff : (((e.state n).threads[i]?).bind (offer · j)).map (·.1) = some m := by
              rw [hi]; simp [ho]
            have other : w.tty (n + 1) = w.tty n → (∀ a b, m ≠ some (.size a b)) →
                (w.tty (n + 1)).screen.cols = (w.tty n).screen.cols ∧
                (w.tty (n + 1)).screen.rows = (w.tty n).screen.rows ∧
                ((w.tty n).known = true → (w.tty (n + 1)).known = true) ∧
                (∀ i' j' ok' a b, some (Choice.message (μ := μ) i j ok) = some (.message i' j' ok') →
                  (((e.state n).threads[i']?).bind (offer · j')).map (·.1) = some (some (.size a b)) →
                  (w.tty (n + 1)).known = true) := fun h hm => by
              rw [h]
              refine ⟨rfl, rfl, id, fun i' j' ok' a b h h' => ?_⟩
              cases h
              rw [hoff] at h'
              exact absurd (Option.some.inj h') (hm a b)
            simp only [Option.bind_some, ho] at ht
            rcases m with _ | m
            · cases ok <;> exact other ht (by simp)
            · cases m with
              | size a b =>
                cases ok with
                | true =>
                  obtain ⟨ha, hb, t1, out, h1, h2⟩ := ht
                  obtain ⟨h3, h4⟩ := resize_size env hrun ha hb h1
                  have h5 := hc.told n i j _ a b hn hch hoff
                  have hk : (w.tty (n + 1)).known = true := by rw [h2]; simp [h5]
                  exact ⟨by rw [h2]; exact h3, by rw [h2]; exact h4, fun _ => hk, fun _ _ _ _ _ _ _ => hk⟩
                | false =>
                  exfalso
                  simp only [receive, Bool.false_eq_true, if_false, Option.some.injEq] at hstep
                  rw [← hstep] at hnext
                  rcases hnext.2 with ⟨md, h⟩ | ⟨md, c, h⟩ | ⟨md, h⟩ <;> cases h
              | _ => cases ok <;> exact other ht (by simp)
        · simp [h] at hstep
        · simp [h] at hstep
    | error i => exact same ht (by simp)
    | fromMain j => exact same ht (by simp)
    | fromInit i j => exact same ht (by simp)

theorem calm_size {S : String → Prop} (env : Env d.uniseg d.termenv S)
    (hv : ∀ m, (d.view m).Good d.uniseg d.termenv S) {e : Execution p} {w : Watched p d e} {N : Nat}
    (hr : e.RunsFrom N) (hc : w.Calm N) (n : Nat) (hn : N ≤ n) :
    (w.tty n).screen.cols = (w.tty N).screen.cols ∧ (w.tty n).screen.rows = (w.tty N).screen.rows :=
  from_on (P := fun n => (w.tty n).screen.cols = (w.tty N).screen.cols ∧ (w.tty n).screen.rows = (w.tty N).screen.rows)
    ⟨rfl, rfl⟩ (fun n hn ih => by
      obtain ⟨h1, h2, _⟩ := calm_step env hv hr hc hn
      exact ⟨h1.trans ih.1, h2.trans ih.2⟩) n hn

theorem calm_known {S : String → Prop} (env : Env d.uniseg d.termenv S)
    (hv : ∀ m, (d.view m).Good d.uniseg d.termenv S) {e : Execution p} {w : Watched p d e} {N : Nat}
    (hr : e.RunsFrom N) (hc : w.Calm N) {k : Nat} (hk : N ≤ k) (h : (w.tty k).known = true) (n : Nat) (hn : k ≤ n) :
    (w.tty n).known = true :=
  from_on (P := fun n => (w.tty n).known = true) h
    (fun n hn ih => (calm_step env hv hr hc (by omega)).2.2.1 ih) n hn

/-- The step in which a size is taken. -/
theorem size_step {e : Execution p} (hf : e.Fair) (hr : e.KeepsRunning) {n i : Nat} {l : Bool} {a b : Int}
    (hi : (e.state n).threads[i]? = some (.sizeSend l a b)) :
    ∃ k j ok, n ≤ k ∧ e.choice k = some (.message i j ok) ∧
      (((e.state k).threads[i]?).bind (offer · j)).map (·.1) = some (some (.size a b)) := by
  obtain ⟨k, k1, k2, k3⟩ := hf.leaves hi ⟨.message i, fun c hc => by
      cases c <;> first | exact hc.1.symm | exact hc.symm | exact hc.elim, fun l _ => by
      obtain ⟨l', h1, md, h2⟩ := hr.waits hf l
      refine ⟨l', h1, fun ht => ⟨.message i 0 true, rfl, ?_⟩⟩
      unfold App.step
      rw [if_neg (by rw [e.not_crashed]; simp)]
      simp only [h2, ht, offer]
      rfl⟩
  rcases touch_move (e.next k) k3 k2 with ⟨a, _, h⟩ | ⟨j, ok, md, m', member, t'', hc, hm, h, hs⟩ | ⟨h, _⟩ | ⟨c, h, _⟩
  · cases a with
    | giveUp =>
      simp only [threadStep, hr.live k] at h
      cases l <;> cases h
    | _ => cases h
  · exact ⟨k, j, ok, k1, hc, by rw [k2]; rfl⟩
  · cases h
  · cases h

/-- What it means to fill the window from moment `M` on. -/
def Fills {e : Execution p} (w : Watched p d e) (N M : Nat) : Prop :=
  ∀ m, M ≤ m → (w.tty m).known = true ∧ (w.tty m).screen.cols = (w.tty N).screen.cols ∧
    (w.tty m).screen.rows = (w.tty N).screen.rows ∧
    ∀ md, (e.state m).main = .select md → model p p.start (taken (e.state m).trace) = some md ∧
      d.Presents (w.tty m).screen md

theorem fills_of {S : String → Prop} (env : Env d.uniseg d.termenv S)
    (hv : ∀ m, (d.view m).Good d.uniseg d.termenv S) {e : Execution p} {w : Watched p d e} {N : Nat}
    (hr : e.RunsFrom N) (hc : w.Calm N) {k : Nat} (hk : N ≤ k) (h : (w.tty k).known = true) : Fills w N k := by
  intro m hm
  have hkn := calm_known env hv hr hc hk h m hm
  obtain ⟨h1, h2⟩ := calm_size env hv hr hc m (by omega)
  refine ⟨hkn, h1, h2, fun md hmd => ?_⟩
  obtain ⟨h1, blank, frame, cur, h2, h3, h4, h5, h6, _⟩ := C105_waiting p d S env hv _ _ _ (w.live m) hkn
    (.inl (hr m (by omega)).1) md hmd
  exact ⟨h1, blank, frame, cur, h2, h3, h4, h5, h6⟩

end

end App

open App in
/-- **C138.** The window has come to rest, and the sizes that the app is told from then on are right. If its size is
found once more, the app fills the window from some moment on for ever: whenever it waits, the screen, which is as
large as the window, shows the frame of the current model. -/
theorem C138_fills {σ μ : Type} (p : Program σ μ) (d : Display σ) (S : String → Prop)
    (env : Env d.uniseg d.termenv S) (hv : ∀ m, (d.view m).Good d.uniseg d.termenv S)
    (e : Execution p) (hf : e.Fair) (w : Watched p d e) (N : Nat) (hr : e.RunsFrom N) (hc : w.Calm N)
    (n i : Nat) (hn : N ≤ n) (a b : Int) (h : e.choice n = some (.thread i (.sized a b))) :
    ∃ M, n ≤ M ∧ Fills w N M := by
  have hstep := e.next n
  rw [h] at hstep
  simp only [move] at hstep
  unfold App.step at hstep
  rw [if_neg (by rw [e.not_crashed]; simp)] at hstep
  simp only at hstep
  split at hstep
  · cases hstep
  · rename_i t ht
    have hlt := (List.getElem?_eq_some_iff.1 ht).1
    cases t with
    | size loop =>
      simp only [threadStep, Option.some.injEq] at hstep
      have hi : (e.state (n + 1)).threads[i]? = some (.sizeSend loop a b) := by
        rw [← hstep]
        show ((e.state n).threads.set i _)[i]? = _
        simp [hlt]
      obtain ⟨k, j, ok, hk, hch, hoff⟩ := size_step hf hr.keeps hi
      exact ⟨k + 1, by omega, fills_of env hv hr hc (by omega)
        ((calm_step env hv hr hc (n := k) (by omega)).2.2.2 i j ok a b hch hoff)⟩
    | seq rest => rcases rest with _ | ⟨_ | _, _⟩ <;> cases hstep
    | _ => cases hstep

open App in
/-- **C138.** If the app knows the size of the window when the window comes to rest, it fills it all the time. -/
theorem C138_keeps {σ μ : Type} (p : Program σ μ) (d : Display σ) (S : String → Prop)
    (env : Env d.uniseg d.termenv S) (hv : ∀ m, (d.view m).Good d.uniseg d.termenv S)
    (e : Execution p) (w : Watched p d e) (N : Nat) (hr : e.RunsFrom N) (hc : w.Calm N)
    (hk : (w.tty N).known = true) : Fills w N N := fills_of env hv hr hc (Nat.le_refl N) hk

namespace App

section

variable {σ μ : Type}

/-- An execution, with a moment of rest at `k`. -/
def Execution.pause {p : Program σ μ} (e : Execution p) (k : Nat) : Execution p where
  state n := if n ≤ k then e.state n else e.state (n - 1)
  choice n := if n < k then e.choice n else if n = k then none else e.choice (n - 1)
  start := by simp [e.start]
  next n := by
    by_cases h1 : n < k
    · rw [if_pos (by omega), if_pos h1, if_pos (by omega)]
      exact e.next n
    · by_cases h2 : n = k
      · subst h2
        rw [if_pos (Nat.le_refl n), if_neg h1, if_pos rfl, if_neg (by omega)]
        simp [move, e.not_crashed]
      · rw [if_neg (by omega), if_neg h1, if_neg h2, if_neg (by omega)]
        have := e.next (n - 1)
        rw [show n - 1 + 1 = n by omega] at this
        exact this

theorem Execution.pause_fair {p : Program σ μ} {e : Execution p} (hf : e.Fair) (k : Nat) : (e.pause k).Fair := by
  intro t ht n
  obtain ⟨m, h1, c, h2, h3⟩ := hf t (fun n => by
    obtain ⟨m, h1, c, h2, h3⟩ := ht (n + k + 1)
    refine ⟨m - 1, by omega, c, h2, ?_⟩
    rw [show (e.pause k).state m = e.state (m - 1) from if_neg (by omega)] at h3
    exact h3) (n + k + 1)
  refine ⟨m + 1, by omega, c, ?_, h3⟩
  show (if m + 1 < k then _ else if m + 1 = k then _ else e.choice (m + 1 - 1)) = _
  rw [if_neg (by omega), if_neg (by omega)]
  exact h2

/-- Screens one after the other. -/
theorem ttys {P : Nat → Tty → Prop} {R : Nat → Tty → Tty → Prop} (y₀ : Tty) (h₀ : P 0 y₀)
    (h : ∀ n y, P n y → ∃ y', P (n + 1) y' ∧ R n y y') :
    ∃ tty : Nat → Tty, tty 0 = y₀ ∧ ∀ n, P n (tty n) ∧ R n (tty n) (tty (n + 1)) := by
  classical
  let next : Nat → Tty → Tty := fun n y => if h : ∃ y', P (n + 1) y' ∧ R n y y' then h.choose else y
  let tty : Nat → Tty := fun n => Nat.rec y₀ next n
  have hs : ∀ n, P n (tty n) → P (n + 1) (tty (n + 1)) ∧ R n (tty n) (tty (n + 1)) := by
    intro n hn
    have hx := h n _ hn
    have he : tty (n + 1) = hx.choose := dif_pos hx
    rw [he]
    exact hx.choose_spec
  have hp : ∀ n, P n (tty n) := by
    intro n
    induction n with
    | zero => exact h₀
    | succ n ih => exact (hs n ih).1
  exact ⟨tty, rfl, fun n => ⟨hp n, (hs n (hp n)).2⟩⟩

end

/-- The counter is started; the window becomes wider, its size is found, the app is told, and draws. -/
def widerRun : List (Choice Nat) :=
  [.main (.op true), .main (.op true), .main (.op true), .main (.op true), .main (.drawn (.ok false)), .main (.op true),
    .main (.op true), .main (.op true), .thread 2 (.sized 3 1), .message 2 0 true, .fromMain 3, .main (.drawn (.ok false))]

/-- Where it rests. -/
def widerEnd : State Nat Nat := (run counter widerRun).getD (.start Nat Nat)

theorem wider_ends : run counter widerRun = some widerEnd := by decide +kernel

/-- It rests for ever, and once before, while the window changes. -/
def wider : Execution counter := (thenRests counter widerRun widerEnd wider_ends (by decide +kernel)).pause 8

/-- What is used of its screens. -/
def WiderAt (n : Nat) (y : Tty) : Prop :=
  Live counter counterDisplay (wider.state n) y Grid.blank ∧ (n = 9 ∨ n = 10 → y.screen.cols = 3 ∧ y.screen.rows = 1)

/-- What becomes of a screen. -/
def WiderNext (n : Nat) (y y' : Tty) : Prop :=
  (∀ c, wider.choice n = some c → counterDisplay.Touches counter (wider.state n) c y y') ∧
  (n = 8 → y' = { y with
    screen := { y.screen with cols := 3, rows := 1, cx := 0, cy := 0, grid := Grid.blank, other := Grid.blank }
    known := false }) ∧
  (n ≠ 8 → wider.choice n = none → y' = y)

theorem wider_move {n : Nat} {y : Tty} (h : WiderAt n y) (c : Choice Nat) (y' : Tty) (hc : wider.choice n = some c)
    (h8 : n ≠ 8) (ht : counterDisplay.Touches counter (wider.state n) c y y')
    (hs : n + 1 = 9 ∨ n + 1 = 10 → y'.screen.cols = 3 ∧ y'.screen.rows = 1) :
    ∃ y', WiderAt (n + 1) y' ∧ WiderNext n y y' := by
  refine ⟨y', ⟨?_, hs⟩, fun c' hc' => ?_, fun h => absurd h h8, fun _ hc' => ?_⟩
  · have hn := wider.next n
    rw [hc] at hn
    exact .step h.1 c _ hn _ ht
  · rw [hc] at hc'; cases hc'; exact ht
  · rw [hc] at hc'; cases hc'

theorem wider_draws {n : Nat} {y : Tty} (h : WiderAt n y) (m : Nat) (hm : counter.drawing (wider.state n).main = some m)
    (hc : wider.choice n = some (.main (.drawn (.ok false)))) (h8 : n < 8) :
    ∃ y', WiderAt (n + 1) y' ∧ WiderNext n y y' := by
  obtain ⟨t, out, ht⟩ := (C105_succeeds counter counterDisplay (fun _ => True) simple_env (fun _ => fillA_good) _ y _ h.1
    (.inr (by simp [counter]))).1 m hm
  exact wider_move h _ ⟨t, y.screen.feed counterDisplay.junk counterDisplay.uniseg out, y.known⟩ hc (by omega)
    ⟨m, t, out, hm, ht, (fillA_cursor ht).symm, rfl⟩ (by omega)

theorem wider_choice (n : Nat) (hn : 13 ≤ n) : wider.choice n = none := by
  have h : wider.choice n = if n < 8 then widerRun[n]? else if n = 8 then none else widerRun[n - 1]? := rfl
  rw [h, if_neg (by omega), if_neg (by omega)]
  exact List.getElem?_eq_none (show 12 ≤ n - 1 by omega)

theorem wider_next : ∀ (n : Nat) (y : Tty), WiderAt n y → ∃ y', WiderAt (n + 1) y' ∧ WiderNext n y y'
  | 0, y, h => wider_move h (.main (.op true)) y rfl (by omega) rfl (by omega)
  | 1, y, h => by
    obtain ⟨o, ho⟩ := writes_one (T := simpleEnv) (c := .hideCursor) rfl
    exact wider_move h (.main (.op true)) ⟨{ y.term with hiddenCursor := true },
      y.screen.feed counterDisplay.junk counterDisplay.uniseg o, y.known⟩ rfl (by omega) ⟨_, ⟨o, ho, rfl⟩, rfl⟩ (by omega)
  | 2, y, h => by
    obtain ⟨o, ho⟩ := writes_one (T := simpleEnv) (c := .enterAlternateScreen) rfl
    exact wider_move h (.main (.op true)) ⟨y.term, y.screen.feed counterDisplay.junk counterDisplay.uniseg o, y.known⟩
      rfl (by omega) ⟨_, ⟨o, ho, rfl⟩, rfl⟩ (by omega)
  | 3, y, h => wider_move h (.main (.op true)) y rfl (by omega) rfl (by omega)
  | 4, y, h => wider_draws h 0 rfl rfl (by omega)
  | 5, y, h => wider_move h (.main (.op true)) y rfl (by omega) rfl (by omega)
  | 6, y, h => wider_move h (.main (.op true)) y rfl (by omega) rfl (by omega)
  | 7, y, h => wider_move h (.main (.op true)) y rfl (by omega) rfl (by omega)
  | 8, y, h => by
    refine ⟨_, ⟨?_, fun _ => ⟨rfl, rfl⟩⟩, fun c hc => (Option.some_ne_none c (Eq.symm hc)).elim, fun _ => rfl,
      fun h => absurd rfl h⟩
    have := Live.window h.1 3 1 0 0 Grid.blank Grid.blank
    rw [ite_self] at this
    exact this
  | 9, y, h => wider_move h (.thread 2 (.sized 3 1)) y rfl (by omega) rfl (fun _ => h.2 (.inl rfl))
  | 10, y, h => by
    obtain ⟨t, out, ht⟩ := (C105_succeeds counter counterDisplay (fun _ => True) simple_env (fun _ => fillA_good) _ _ _ h.1
      (.inr (by simp [counter]))).2 0 rfl 3 1 (by decide) (by omega)
    exact wider_move h (.message 2 0 true) ⟨t, y.screen.feed counterDisplay.junk counterDisplay.uniseg out, _⟩ rfl
      (by decide) ⟨by decide, by decide, t, out, ht, rfl⟩ (by omega)
  | 11, y, h => wider_move h (.fromMain 3) y rfl (by omega) rfl (by omega)
  | 12, y, h => by
    obtain ⟨t, out, ht⟩ := (C105_succeeds counter counterDisplay (fun _ => True) simple_env (fun _ => fillA_good) _ _ _ h.1
      (.inr (by simp [counter]))).1 1 rfl
    exact wider_move h (.main (.drawn (.ok false)))
      ⟨t, y.screen.feed counterDisplay.junk counterDisplay.uniseg out, y.known⟩ rfl (by omega)
      ⟨1, t, out, rfl, ht, (fillA_cursor ht).symm, rfl⟩ (by omega)
  | n + 13, y, h => by
    have hc : wider.choice (n + 13) = none := wider_choice _ (by omega)
    have hn := wider.next (n + 13)
    rw [hc] at hn
    refine ⟨y, ⟨?_, by omega⟩, fun c hc' => ?_, by omega, fun _ _ => rfl⟩
    · rw [← move_none hn]; exact h.1
    · rw [hc] at hc'; cases hc'

theorem wider_state (n : Nat) (hn : 13 ≤ n) : wider.state n = widerEnd := by
  have h : wider.state n = if n ≤ 8 then (thenRests counter widerRun widerEnd wider_ends (by decide +kernel)).state n
    else (thenRests counter widerRun widerEnd wider_ends (by decide +kernel)).state (n - 1) := rfl
  rw [h, if_neg (by omega)]
  exact thenRests_end _ _ _ _ _ _ (show 12 ≤ n - 1 by omega)

theorem wider_runs : wider.RunsFrom 9 := by
  intro m hm
  by_cases h : 13 ≤ m
  · rw [wider_state m h]
    exact ⟨by decide +kernel, .inl ⟨1, by decide +kernel⟩⟩
  · have : m = 9 ∨ m = 10 ∨ m = 11 ∨ m = 12 := by omega
    rcases this with rfl | rfl | rfl | rfl
    · exact ⟨rfl, .inl ⟨0, rfl⟩⟩
    · exact ⟨rfl, .inl ⟨0, rfl⟩⟩
    · exact ⟨rfl, .inr (.inl ⟨1, none, rfl⟩)⟩
    · exact ⟨rfl, .inr (.inr ⟨1, rfl⟩)⟩

theorem wider_watched : ∃ w : Watched counter counterDisplay wider, w.Calm 9 ∧ (w.tty 9).known = false := by
  obtain ⟨t, ht⟩ : ∃ t, Terminal.new .fullscreen 2 1 = some t := ⟨_, rfl⟩
  obtain ⟨tty, h0, h⟩ := ttys (P := WiderAt) (R := WiderNext) ⟨t, counterScreen, true⟩
    ⟨.start counterScreen t ht (by decide) (by decide) rfl rfl, by omega⟩ wider_next
  refine ⟨⟨tty, fun _ => Grid.blank, ⟨counterScreen, t, ht, by decide, by decide, rfl, rfl, h0, rfl⟩,
    fun n c hc => ⟨(h n).2.1 c hc, rfl⟩, fun n hc => ?_⟩, ⟨fun n hn hc => (h n).2.2.2 (by omega) hc, ?_⟩, ?_⟩
  · by_cases h8 : n = 8
    · exact .inr ⟨3, 1, 0, 0, Grid.blank, Grid.blank, (h n).2.2.1 h8, by simp⟩
    · exact .inl ⟨(h n).2.2.2 h8 hc, rfl⟩
  · intro n i j ok a b hn hc ho
    by_cases h13 : 13 ≤ n
    · rw [wider_choice n h13] at hc; cases hc
    · have : n = 9 ∨ n = 10 ∨ n = 11 ∨ n = 12 := by omega
      rcases this with rfl | rfl | rfl | rfl
      · cases (show some (Choice.thread 2 (.sized 3 1)) = some (Choice.message i j ok) from hc)
      · have e : some (Choice.message (μ := Nat) 2 0 true) = some (Choice.message i j ok) := hc
        cases e
        have e : some (some (Msg.size (μ := Nat) 3 1)) = some (some (.size a b)) := ho
        cases e
        have := (h 10).1.2 (.inr rfl)
        exact ⟨this.1.symm, this.2.symm⟩
      · cases (show some (Choice.fromMain (μ := Nat) 3) = some (Choice.message i j ok) from hc)
      · cases (show some (Choice.main (μ := Nat) (.drawn (.ok false))) = some (Choice.message i j ok) from hc)
  · show (tty 9).known = false
    rw [(h 8).2.2.1 rfl]

end App

open App in
/-- Non-vacuity: the window of the counter becomes wider; the app, which does not know, is told. -/
example : wider.Fair ∧ wider.RunsFrom 9 ∧ wider.choice 9 = some (.thread 2 (.sized 3 1)) ∧
    (∀ m, (counterDisplay.view m).Good counterDisplay.uniseg counterDisplay.termenv (fun _ => True)) ∧
    ∃ w : Watched counter counterDisplay wider, w.Calm 9 ∧ (w.tty 9).known = false :=
  ⟨Execution.pause_fair (thenRests_fair counter widerRun widerEnd wider_ends (by decide +kernel) 1 (by decide +kernel)
    (by decide +kernel) (by decide +kernel)).1 8, wider_runs, rfl, fun _ => fillA_good, wider_watched⟩

end Bento
