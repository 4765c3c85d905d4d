import Verif.Spec.Live
import Verif.Props.AppExit
import Verif.Props.Terminal

/-!
# While an app waits, the screen shows its model

Property C105.
-/

namespace Bento

namespace App

section

variable {σ μ : Type}

/-! ### Goroutines that restore the terminal -/

/-- A command can panic. -/
def Panicky (p : Program σ μ) : Prop := ∃ c k, p.call c k = .panics

theorem threadStep_rescue {p : Program σ μ} {s s' : State σ μ} {i : Nat} {t : Thread μ} {a : ThreadChoice μ}
    (h : threadStep p s i t a = some s') : s'.threads = s.threads ∨
      ∃ t', s'.threads = s.threads.set i t' ∧ ∀ st, t' = .rescue st →
        (st = .cancel ∧ Panicky p) ∨ ∃ st', t = .rescue st' ∧ (st' = .cancel → s'.done = true) := by
  unfold threadStep at h
  split at h
  case h_5 stage ok =>
    cases stage <;> cases ok <;> simp only [shutdown, Bool.false_eq_true, if_true, if_false] at h
    case wait.false => cases hh : s.threads.any Thread.isHandler <;> simp only [hh, if_true, if_false, Bool.false_eq_true] at h <;> cases h; exact .inr ⟨_, rfl, fun _ _ => .inr ⟨_, rfl, by simp⟩⟩
    case wait.true => cases hh : s.threads.any Thread.isHandler <;> simp only [hh, if_true, if_false, Bool.false_eq_true] at h <;> cases h; exact .inr ⟨_, rfl, fun _ _ => .inr ⟨_, rfl, by simp⟩⟩
    all_goals
      cases h
      exact .inr ⟨_, rfl, fun _ _ => .inr ⟨_, rfl, by first | (intro _; rfl) | simp⟩⟩
  all_goals
    repeat' split at h
    all_goals
      first
      | cases h; done
      | (cases h; exact .inl rfl)
      | (cases h
         refine .inr ⟨_, rfl, ?_⟩
         intro st e
         first
         | (cases e; done)
         | (cases e; exact .inl ⟨rfl, _, _, by assumption⟩)
         | (unfold afterSize at e; split at e <;> cases e))

theorem offer_rescue {t t' : Thread μ} {j : Nat} {m : Option (Msg μ)} {member : Option Nat}
    (h : offer t j = some (m, member, t')) (st : Stage) : t' ≠ .rescue st := by
  unfold offer at h
  split at h
  case h_3 =>
    split at h <;> cases h
    simp
  case h_5 =>
    cases h
    unfold afterSize
    split <;> simp
  all_goals
    cases h; try simp

theorem mainStep_rescue {p : Program σ μ} {s s' : State σ μ} {a : MainChoice} (h : mainStep p s a = some s')
    (st : Stage) (hm : Thread.rescue st ∈ s'.threads) : Thread.rescue st ∈ s.threads := by
  have hd : ∀ {m : σ} {d : Drawn} {next : Main σ} {r : Option σ}, (drawn s m d next r).threads = s.threads := by
    intro m d next r
    cases d <;> rfl
  have hn : ∀ (ts : List (Thread μ)), Thread.rescue st ∉ ts → Thread.rescue st ∈ s.threads ++ ts →
      Thread.rescue st ∈ s.threads := by
    intro ts h1 h2
    rcases List.mem_append.1 h2 with h | h
    · exact h
    · exact absurd h h1
  unfold mainStep at h
  split at h
  case h_17 =>
    split at h
    · cases h
    · rename_i heq
      cases h
      rw [← (shutdown_main heq).2.1]
      exact hm
    · rename_i heq
      cases h
      rw [← (shutdown_main heq).2.1]
      exact hm
    · rename_i heq
      rw [← (shutdown_main heq).2.1]
      split at h <;> (cases h; exact hm)
  all_goals
    repeat' split at h
    all_goals
      first
      | cases h; done
      | (cases h; exact hm)
      | (cases h; rw [hd] at hm; exact hm)
      | (cases h; exact hn _ (by simp) hm)

/-- A goroutine that restores the terminal comes from a command that panicked, and has cancelled the context unless
it is about to. -/
theorem step_rescue {p : Program σ μ} {s s' : State σ μ} {c : Choice μ} (hs : step p s c = some s') (st : Stage)
    (hm : Thread.rescue st ∈ s'.threads) : Thread.rescue st ∈ s.threads ∨ (st = .cancel ∧ Panicky p) ∨
      ∃ st', Thread.rescue st' ∈ s.threads ∧ (st' = .cancel → s'.done = true) := by
  have hset : ∀ (l : List (Thread μ)) (i : Nat) (t : Thread μ), t ≠ .rescue st → Thread.rescue st ∈ l.set i t →
      Thread.rescue st ∈ l := by
    intro l i t h1 h2
    rcases List.mem_or_eq_of_mem_set h2 with h | h
    · exact h
    · exact absurd h.symm h1
  have hacc : ∀ (s : State σ μ) (c : Option Cmd), Thread.rescue st ∈ (accept s c).threads →
      Thread.rescue st ∈ s.threads := by
    intro s c h
    cases c with
    | none => exact h
    | some c =>
      rcases List.mem_append.1 h with h | h
      · exact h
      · simp at h
  unfold step at hs
  split at hs
  · cases hs
  cases c with
  | cancel => cases hs; exact .inl hm
  | main a => exact .inl (mainStep_rescue hs st hm)
  | thread i a =>
    simp only at hs
    split at hs
    · cases hs
    · rename_i t ht
      rcases threadStep_rescue hs with h | ⟨t', h, h1⟩
      · rw [h] at hm; exact .inl hm
      · rw [h] at hm
        rcases List.mem_or_eq_of_mem_set hm with hm | hm
        · exact .inl hm
        · rcases h1 st hm.symm with h2 | ⟨st', h2, h3⟩
          · exact .inr (.inl h2)
          · exact .inr (.inr ⟨st', h2 ▸ List.mem_of_getElem? ht, h3⟩)
  | message i j ok =>
    simp only at hs
    split at hs
    · rename_i md t h1 h2
      split at hs
      · cases hs
      · rename_i m member t' heq
        cases hs
        left
        have hu : ∀ (s : State σ μ) (m : Msg μ), (update p s md m).threads = s.threads := by
          intro s m; unfold update; split <;> rfl
        unfold receive at hm
        split at hm
        · exact hset _ _ _ (offer_rescue heq st) hm
        · exact hset _ _ _ (offer_rescue heq st) hm
        · split at hm
          · rw [hu] at hm; exact hset _ _ _ (offer_rescue heq st) hm
          · exact hset _ _ _ (offer_rescue heq st) hm
        · rw [hu] at hm
          rcases List.mem_append.1 hm with hm | hm
          · exact hset _ _ _ (offer_rescue heq st) hm
          · simp at hm
        · rw [hu] at hm; exact hset _ _ _ (offer_rescue heq st) hm
    · cases hs
  | error i =>
    simp only at hs
    split at hs
    · cases hs; exact .inl (hset _ _ _ (by simp) hm)
    · cases hs
  | fromMain j =>
    simp only at hs
    split at hs
    · cases hs; exact .inl (hacc _ _ hm)
    · cases hs
  | fromInit i j =>
    simp only at hs
    split at hs
    · cases hs; exact .inl (hset _ _ _ (by simp) (hacc _ _ hm))
    · cases hs

/-- A context that is done stays done. -/
theorem step_done {p : Program σ μ} {s s' : State σ μ} {c : Choice μ} (hs : step p s c = some s')
    (hd : s.done = true) : s'.done = true := by
  unfold step at hs
  split at hs
  · cases hs
  cases c with
  | cancel => cases hs; rfl
  | main a =>
    have hdr : ∀ {m : σ} {d : Drawn} {next : Main σ} {r : Option σ}, (drawn s m d next r).done = s.done := by
      intro m d next r
      cases d <;> rfl
    simp only at hs
    unfold mainStep at hs
    split at hs
    case h_17 =>
      split at hs
      · cases hs
      · rename_i heq; cases hs; exact (shutdown_main heq).2.2.2.1 hd
      · rename_i heq; cases hs; exact (shutdown_main heq).2.2.2.1 hd
      · rename_i heq
        split at hs <;> (cases hs; exact (shutdown_main heq).2.2.2.1 hd)
    all_goals
      repeat' split at hs
      all_goals
        first
        | cases hs; done
        | (cases hs; exact hd)
        | (cases hs; rw [hdr]; exact hd)
  | thread i a =>
    simp only at hs
    split at hs
    · cases hs
    · exact threadStep_done hs hd
  | message i j ok =>
    simp only at hs
    split at hs
    · split at hs
      · cases hs
      · cases hs
        have hu : ∀ (s : State σ μ) (md : σ) (m : Msg μ), (update p s md m).done = s.done := by
          intro s md m; unfold update; split <;> rfl
        unfold receive
        split
        · exact hd
        · exact hd
        · split
          · rw [hu]; exact hd
          · exact hd
        · rw [hu]; exact hd
        · rw [hu]; exact hd
    · cases hs
  | error i =>
    simp only at hs
    split at hs
    · cases hs; exact hd
    · cases hs
  | fromMain j =>
    simp only at hs
    split at hs
    · rename_i c _ _
      cases hs
      cases c <;> exact hd
    · cases hs
  | fromInit i j =>
    simp only at hs
    split at hs
    · cases hs; exact hd
    · cases hs

/-- Goroutines that restore the terminal, as they can be. -/
def Rescues (p : Program σ μ) (s : State σ μ) : Prop :=
  ∀ st, Thread.rescue st ∈ s.threads → Panicky p ∧ (st ≠ .cancel → s.done = true)

theorem step_rescues {p : Program σ μ} {s s' : State σ μ} {c : Choice μ} (h : Rescues p s)
    (hs : step p s c = some s') : Rescues p s' := by
  intro st hm
  rcases step_rescue hs st hm with h1 | ⟨h1, h2⟩ | ⟨st', h1, h2⟩
  · exact ⟨(h st h1).1, fun h3 => step_done hs ((h st h1).2 h3)⟩
  · exact ⟨h2, fun h3 => absurd h1 h3⟩
  · refine ⟨(h st' h1).1, fun _ => ?_⟩
    by_cases h3 : st' = .cancel
    · exact h2 h3
    · exact step_done hs ((h st' h1).2 h3)

end

end App

/-! ### The effect of drawing -/

/-- What drawing leaves alone. -/
structure Screen.Keeps (sc sc' : Screen) : Prop where
  cols : sc'.cols = sc.cols
  rows : sc'.rows = sc.rows
  alt : sc'.alt = sc.alt
  other : sc'.other = sc.other
  paste : sc'.paste = sc.paste

theorem Screen.Keeps.refl (sc : Screen) : sc.Keeps sc := ⟨rfl, rfl, rfl, rfl, rfl⟩

theorem Screen.Keeps.trans {a b c : Screen} (h : a.Keeps b) (h' : b.Keeps c) : a.Keeps c :=
  ⟨h'.cols.trans h.cols, h'.rows.trans h.rows, h'.alt.trans h.alt, h'.other.trans h.other, h'.paste.trans h.paste⟩

theorem putText_keeps (j : Junk) (u : Uniseg) (sc : Screen) (s : String) : sc.Keeps (sc.putText j u s) := by
  have hw : ∀ sc : Screen, sc.Keeps sc.wrap := by
    intro sc; unfold Screen.wrap; split <;> exact ⟨rfl, rfl, rfl, rfl, rfl⟩
  have hc : ∀ (sc : Screen) (s : String), sc.Keeps (sc.putCluster j u.width s) := by
    intro sc s
    unfold Screen.putCluster
    split
    · exact Screen.Keeps.refl sc
    · have hk : ∀ w : Int, sc.Keeps (if sc.cx + w > sc.cols then sc.wrap else sc) := by
        intro w
        split
        · exact hw sc
        · exact Screen.Keeps.refl sc
      exact (hk _).trans ⟨rfl, rfl, rfl, rfl, rfl⟩
  unfold Screen.putText
  generalize u.graphemes s = gs
  induction gs generalizing sc with
  | nil => exact Screen.Keeps.refl sc
  | cons g gs ih => exact (hc sc g).trans (ih _)

/-- Commands that drawing uses. -/
def Command.Draws : Command → Prop
  | .moveTo .. | .setAttribute _ | .setColors .. | .print _ => True
  | _ => False

theorem draws_keeps (j : Junk) (u : Uniseg) (T : Termenv) (sc : Screen) (c : Command) (h : c.Draws) :
    sc.Keeps (c.effect j u T sc) := by
  cases c with
  | moveTo => exact ⟨rfl, rfl, rfl, rfl, rfl⟩
  | setAttribute => exact ⟨rfl, rfl, rfl, rfl, rfl⟩
  | setColors f b => cases f <;> cases b <;> exact ⟨rfl, rfl, rfl, rfl, rfl⟩
  | print s => exact putText_keeps j u sc s
  | _ => cases h

theorem isAttr_draws {c : Command} (h : c.IsAttr) : c.Draws := by
  cases c <;> first | trivial | exact h.elim

theorem drawCommands_draws (T : Termenv) (ups : List PositionedCell) : ∀ c ∈ drawCommands T ups, c.Draws := by
  have key : ∀ (ups : List PositionedCell) (lastPos : Option Position) (m : Modifier) (fg bg : Color),
      ∀ c ∈ drawLoop T ups lastPos m fg bg, c.Draws := by
    intro ups
    induction ups with
    | nil => intro _ _ _ _ c hc; simp [drawLoop] at hc
    | cons pc rest ih =>
      intro lastPos m fg bg c hc
      simp only [drawLoop, List.mem_append] at hc
      rcases hc with (((hc | hc) | hc) | hc) | hc
      · split at hc
        · simp only [List.mem_singleton] at hc; subst hc; trivial
        · simp at hc
      · split at hc
        · exact isAttr_draws (modifierDiff_isAttr _ _ c hc).1
        · simp at hc
      · split at hc
        · simp only [List.mem_singleton] at hc; subst hc; trivial
        · simp at hc
      · simp only [List.mem_singleton] at hc; subst hc; trivial
      · exact ih _ _ _ _ c hc
  intro c hc
  simp only [drawCommands, List.mem_append, List.mem_cons, List.not_mem_nil, or_false] at hc
  rcases hc with hc | rfl | rfl
  · exact key ups _ _ _ _ c hc
  · trivial
  · trivial

theorem drawCommands_keeps (j : Junk) (u : Uniseg) (T : Termenv) (ups : List PositionedCell) (sc : Screen) :
    sc.Keeps ((drawCommands T ups).foldl (Command.effect j u T) sc) := by
  have h := drawCommands_draws T ups
  generalize drawCommands T ups = cs at h ⊢
  induction cs generalizing sc with
  | nil => exact Screen.Keeps.refl sc
  | cons c cs ih =>
    exact (draws_keeps j u T sc c (h c (by simp))).trans (ih _ fun c hc => h c (by simp [hc]))

namespace App

section

variable {σ μ : Type}

/-! ### The invariant -/

/-- The terminal is in order. -/
structure Steady (d : Display σ) (S : String → Prop) (y : Tty) : Prop where
  tinv : TInv d.uniseg d.termenv S y.term
  full : y.term.viewport = .fullscreen
  pen : y.screen.pen = Pen.neutral
  area : y.known = true → y.term.viewportArea = ⟨0, 0, y.screen.cols, y.screen.rows⟩

/-- The last frame is that of a widget. -/
def Framed (w : Widget) (y : Tty) : Prop :=
  ∃ (blank : Buffer) (cur : Option Position), blank.Blank y.term.viewportArea ∧
    w y.term.viewportArea blank = some (y.term.prev, cur) ∧ y.screen.visible = cur.isSome ∧
    (y.known = true → ∀ q, cur = some q → q.x < y.screen.cols → q.y < y.screen.rows →
      y.screen.cx = q.x ∧ y.screen.cy = q.y)

/-- The model whose frame is on the screen. -/
def Program.showing (p : Program σ μ) : Main σ → Option σ
  | .reader | .resize | .commands => some p.start
  | .select m => some m
  | _ => none

/-- On the screen of the shell, before anything is drawn. -/
structure Early (d : Display σ) (S : String → Prop) (y : Tty) (g : Grid) : Prop where
  steady : Steady d S y
  blank : y.term.prev.Blank y.term.viewportArea
  alt : y.screen.alt = false
  shell : y.screen.grid = g

/-- On the alternate screen. -/
structure Running (d : Display σ) (S : String → Prop) (y : Tty) (g : Grid) : Prop where
  steady : Steady d S y
  alt : y.screen.alt = true
  shell : y.screen.other = g
  shows : y.known = true → Shows d.uniseg (penOf d.termenv) y.screen.grid y.term.prev

/-- Restoring the terminal. -/
structure Closing (y : Tty) (g : Grid) (stage : Stage) : Prop where
  pen : y.screen.pen = Pen.neutral
  alt : y.screen.alt = true
  shell : y.screen.other = g
  paste : stage = .cursor ∨ stage = .raw ∨ stage = .alt → y.screen.paste = false
  visible : stage = .raw ∨ stage = .alt → y.screen.visible = true

/-- The terminal is restored. -/
structure Restored (y : Tty) (g : Grid) : Prop where
  pen : y.screen.pen = Pen.neutral
  alt : y.screen.alt = false
  shell : y.screen.grid = g
  paste : y.screen.paste = false
  visible : y.screen.visible = true

/-- What holds of the terminal, depending on where `Run` is. -/
def AtMain (p : Program σ μ) (d : Display σ) (S : String → Prop) (main : Main σ) (y : Tty) (g : Grid) : Prop :=
  match main with
  | .raw | .cursor | .alt => Early d S y g
  | .closing _ stage => Closing y g stage
  | .returned (.ok _) => Restored y g
  | .returned _ | .failed => True
  | main => Running d S y g ∧ ∀ m, p.showing main = some m → Framed (d.view m) y

theorem sends_effect {d : Display σ} {S : String → Prop} (env : Env d.uniseg d.termenv S) {c : Command}
    {sc sc' : Screen} (h : d.Sends c sc sc') (hc : c.Ok d.termenv) (hp : ∀ s, c ≠ .print s) :
    sc' = c.effect d.junk d.uniseg d.termenv sc := by
  obtain ⟨out, h1, rfl⟩ := h
  obtain ⟨o, h2, h3⟩ := feed_commands d.junk env [c] (by
    intro c' hc'
    simp only [List.mem_singleton] at hc'
    subst hc'
    exact ⟨hc, fun s hs => absurd hs (hp s)⟩) sc
  rw [h1] at h2
  injection h2 with h2
  subst h2
  exact h3

/-- A successful draw while the app runs. -/
theorem running_draw {d : Display σ} {S : String → Prop} (env : Env d.uniseg d.termenv S) {y : Tty} {g : Grid}
    (h : Running d S y g) {w : Widget} (hw : w.Good d.uniseg d.termenv S) {t : Terminal} {out : List Char}
    (hd : y.term.draw d.uniseg d.termenv w noFault = some (t, out, true)) :
    Running d S { y with term := t, screen := y.screen.feed d.junk d.uniseg out } g ∧
      Framed w { y with term := t, screen := y.screen.feed d.junk d.uniseg out } := by
  obtain ⟨⟨ht, hfull, hpen, harea⟩, halt, hsh, hshows⟩ := h
  obtain ⟨b, cur, hwb, hb, hcur⟩ := hw y.term.viewportArea y.term.cur ht.x ht.y ht.cur
  obtain ⟨t2, ups, out2, e1, e2, e3, e4, e5, e6, e7, e8, e9, _⟩ := draw_spec env ht.toPInv hwb hb hcur
  rw [e1] at hd
  injection hd with hd
  injection hd with hd1 hd2
  injection hd2 with hd2 _
  subst hd1
  subst hd2
  have ht' := draw_tinv ht.toPInv hb e6 e7 e8 e9
  obtain ⟨o, ho, hf⟩ := feed_commands d.junk env _ e4 y.screen
  rw [e5] at ho
  injection ho with ho
  subst ho
  have k := drawCommands_keeps d.junk d.uniseg d.termenv ups y.screen
  have hp := drawCommands_pen d.junk d.uniseg d.termenv ups y.screen
  have hcase : y.known = true → Shows d.uniseg (penOf d.termenv)
      ((drawCommands d.termenv ups).foldl (Command.effect d.junk d.uniseg d.termenv) y.screen).grid b := by
    intro hk
    have ha := harea hk
    have hfit : y.screen.Fits y.term.viewportArea := by
      have h1 := ht.width
      have h2 := ht.height
      rw [ha] at h1 h2 ⊢
      exact ⟨by simp, by simp, h1, h2, by simp, by simp⟩
    obtain ⟨cx, cy, g, he, hsh', _⟩ := draw_shows d.junk env ht.toPInv hb e2 e3 y.screen hfit hpen (hshows hk)
    rw [he]
    exact hsh'
  rw [hf, List.foldl_append, cursor_effect]
  generalize (drawCommands d.termenv ups).foldl (Command.effect d.junk d.uniseg d.termenv) y.screen = sc at k hp hcase
  constructor
  · refine ⟨⟨ht', e9.trans hfull, ?_, ?_⟩, ?_, ?_, ?_⟩
    · cases cur <;> exact hp
    · intro hk
      show t2.viewportArea = _
      rw [e8, harea hk]
      cases cur <;> simp only [k.cols, k.rows]
    · cases cur <;> exact k.alt.trans halt
    · cases cur <;> exact k.other.trans hsh
    · intro hk
      show Shows _ _ _ t2.prev
      rw [e6]
      cases cur <;> exact hcase hk
  · refine ⟨y.term.cur, cur, ?_, ?_, ?_, ?_⟩
    · show Buffer.Blank t2.viewportArea _
      rw [e8]
      exact ht.cur
    · show w t2.viewportArea _ = some (t2.prev, cur)
      rw [e8, e6]
      exact hwb
    · cases cur <;> rfl
    · intro _ q hq hx hy
      subst hq
      obtain ⟨h1, h2⟩ := hcur q rfl
      simp only at hx hy ⊢
      exact ⟨clampInt_id h1 (by omega), clampInt_id h2 (by omega)⟩

/-- A successful resize while the app runs. -/
theorem running_resize {d : Display σ} {S : String → Prop} (env : Env d.uniseg d.termenv S) {y : Tty} {g : Grid}
    (h : Running d S y g) {w v : Int} (hw : 0 ≤ w) (hv : 0 ≤ v) {t : Terminal} {out : List Char}
    (hd : y.term.resize d.termenv (Rect.new w v) none = some (t, out, true)) :
    Running d S ⟨t, y.screen.feed d.junk d.uniseg out, decide (w = y.screen.cols ∧ v = y.screen.rows)⟩ g := by
  obtain ⟨⟨ht, hfull, hpen, _⟩, halt, hsh, _⟩ := h
  obtain ⟨t1, h1, h2, h3, h4, h5, h6⟩ := setViewport_spec ht (a := Rect.new w v) hw hv
  obtain ⟨hc, rfl⟩ := resize_spec d.termenv ht.vp h1 hd
  obtain ⟨_, _, cmds, hcm, ho⟩ := clear_spec d.termenv hc rfl
  have hvp : ∀ n, t1.viewport ≠ .inline n := by rw [h6]; exact ht.vp
  obtain ⟨o, ho', hf⟩ := feed_commands d.junk env cmds
    (clear_ok d.termenv S hvp (by rw [h5]; exact Int.le_refl 0) hcm) y.screen
  rw [ho] at ho'
  injection ho' with ho'
  subst ho'
  obtain ⟨gr, cx, cy, he, hbl⟩ := clear_effect d.junk d.uniseg d.termenv hvp hcm y.screen hpen
  have hbk : t1.prev.reset.Blank (Rect.new w v) := by have := blank_reset h3; rwa [h4] at this
  rw [hf, he]
  refine ⟨⟨⟨⟨?_, ?_, ?_, hvp⟩, ?_⟩, h6.trans hfull, hpen, ?_⟩, halt, hsh, ?_⟩
  · simp only [h5]; exact blank_good env hbk
  · simp only [h5]; exact Int.le_refl 0
  · simp only [h5]; exact Int.le_refl 0
  · simp only [h5]; exact h2
  · intro hk
    simp only [decide_eq_true_eq] at hk
    show t1.viewportArea = _
    rw [h5, Rect.new, hk.1, hk.2]
  · intro hk
    simp only [decide_eq_true_eq] at hk
    refine shows_blank env hbk fun q hq => ?_
    rw [h5] at hbl
    exact hbl ⟨by simp [Rect.new], by simp [Rect.new], hw, hv, by simp [Rect.new, hk.1], by simp [Rect.new, hk.2]⟩ q hq

/-- A stage of `shutdown` of the goroutine of `Run`. -/
theorem closing_step {d : Display σ} {S : String → Prop} (env : Env d.uniseg d.termenv S) {y y' : Tty} {g : Grid}
    {stage : Stage} (h : Closing y g stage) (hy : d.Closes stage true y y') :
    match (generalizing := false) stage with
    | .cancel => Closing y' g .wait
    | .wait => Closing y' g .paste
    | .paste => Closing y' g .cursor
    | .cursor => Closing y' g .raw
    | .raw => Closing y' g .alt
    | .alt => Restored y' g := by
  obtain ⟨h1, h2, h3, h4, h5⟩ := h
  cases stage with
  | cancel => cases hy; exact ⟨h1, h2, h3, by simp, by simp⟩
  | wait => cases hy; exact ⟨h1, h2, h3, by simp, by simp⟩
  | paste =>
    obtain ⟨sc, hs, rfl⟩ := hy
    have := sends_effect env hs trivial (by simp)
    subst this
    exact ⟨h1, h2, h3, fun _ => rfl, by simp⟩
  | cursor =>
    obtain ⟨sc, hs, rfl⟩ := hy
    have := sends_effect env hs trivial (by simp)
    subst this
    exact ⟨h1, h2, h3, fun _ => h4 (.inl rfl), fun _ => rfl⟩
  | raw => cases hy; exact ⟨h1, h2, h3, fun _ => h4 (.inr (.inl rfl)), fun _ => h5 (.inl rfl)⟩
  | alt =>
    obtain ⟨sc, hs, rfl⟩ := hy
    have := sends_effect env hs trivial (by simp)
    subst this
    have hp := h4 (.inr (.inr rfl))
    have hv := h5 (.inr rfl)
    simp only [Command.effect, h2, if_true]
    exact ⟨h1, rfl, h3, hp, hv⟩

theorem Running.closing {d : Display σ} {S : String → Prop} {y : Tty} {g : Grid} (h : Running d S y g) :
    Closing y g .cancel := ⟨h.steady.pen, h.alt, h.shell, by simp, by simp⟩

/-- A draw by the goroutine of `Run`. -/
theorem at_draw {p : Program σ μ} {d : Display σ} {S : String → Prop} (env : Env d.uniseg d.termenv S)
    (hv : ∀ m, (d.view m).Good d.uniseg d.termenv S) {s : State σ μ} {m : σ} {r : Drawn} {next : Main σ}
    {res : Option σ} {y y' : Tty} {g : Grid} (h : Running d S y g) (hm : p.drawing s.main = some m)
    (hy : d.Touches p s (.main (.drawn r)) y y')
    (hn : ∀ y', Running d S y' g → Framed (d.view m) y' → AtMain p d S next y' g) :
    AtMain p d S (drawn s m r next res).main y' g := by
  cases r with
  | ok hidden =>
    obtain ⟨m', t, out, h1, h2, _, rfl⟩ := hy
    rw [hm] at h1
    injection h1 with h1
    subst h1
    obtain ⟨k1, k2⟩ := running_draw env h (hv m) h2
    exact hn _ k1 k2
  | error => trivial
  | panics =>
    have hy : y'.screen = y.screen := hy
    have := h.closing
    exact ⟨by rw [hy]; exact this.pen, by rw [hy]; exact this.alt, by rw [hy]; exact this.shell, by simp, by simp⟩

theorem mainStep_at {p : Program σ μ} {d : Display σ} {S : String → Prop} (env : Env d.uniseg d.termenv S)
    (hv : ∀ m, (d.view m).Good d.uniseg d.termenv S) {s s' : State σ μ} {a : MainChoice} {y y' : Tty} {g : Grid}
    (h : AtMain p d S s.main y g) (hs : mainStep p s a = some s') (hy : d.Touches p s (.main a) y y') :
    AtMain p d S s'.main y' g := by
  unfold mainStep at hs
  split at hs
  case h_1 heq =>
    rw [heq] at h
    simp only [Display.Touches, heq] at hy
    cases hs; cases hy
    exact h
  case h_3 heq =>
    rw [heq] at h
    simp only [Display.Touches, heq] at hy
    obtain ⟨sc, hsend, rfl⟩ := hy
    cases hs
    have := sends_effect env hsend trivial (by simp)
    subst this
    obtain ⟨⟨h1, h2, h3, h4⟩, h5, h6, h7⟩ := h
    exact ⟨⟨⟨⟨h1.prev, h1.x, h1.y, h1.vp⟩, h1.cur⟩, h2, h3, h4⟩, h5, h6, h7⟩
  case h_5 heq =>
    rw [heq] at h
    simp only [Display.Touches, heq] at hy
    obtain ⟨sc, hsend, rfl⟩ := hy
    cases hs
    have := sends_effect env hsend trivial (by simp)
    subst this
    obtain ⟨⟨h1, h2, h3, h4⟩, h5, h6, h7⟩ := h
    simp only [Command.effect, h6, Bool.false_eq_true, if_false]
    exact ⟨⟨⟨h1, h2, h3, h4⟩, rfl, h7, fun _ => shows_blank env h5 fun _ _ => rfl⟩, fun m hm => (by cases hm)⟩
  case h_7 heq =>
    rw [heq] at h
    simp only [Display.Touches, heq] at hy
    cases hy
    split at hs <;> cases hs
    · exact h.1.closing
    · exact ⟨h.1, fun m hm => (by cases hm)⟩
    · exact ⟨h.1, fun m hm => (by cases hm)⟩
  case h_8 heq =>
    rw [heq] at h
    cases hs
    refine at_draw env hv h.1 (by rw [heq]; rfl) hy fun y' k1 k2 => ⟨k1, ?_⟩
    intro m hm
    cases hm
    exact k2
  case h_9 heq =>
    rw [heq] at h
    simp only [Display.Touches, heq] at hy
    cases hs; cases hy
    exact h
  case h_11 heq =>
    rw [heq] at h
    simp only [Display.Touches, heq] at hy
    cases hs; cases hy
    exact h
  case h_12 heq =>
    rw [heq] at h
    simp only [Display.Touches, heq] at hy
    cases hs; cases hy
    exact h
  case h_13 heq =>
    split at hs <;> cases hs
    trivial
  case h_14 heq =>
    rw [heq] at h
    cases hs
    refine at_draw env hv h.1 (by rw [heq]; rfl) hy fun y' k1 k2 => ⟨k1, ?_⟩
    intro m hm
    cases hm
    exact k2
  case h_15 heq =>
    rw [heq] at h
    simp only [Display.Touches, heq] at hy
    cases hy
    split at hs <;> cases hs
    · trivial
    · exact ⟨h.1, fun m hm => (by cases hm)⟩
  case h_16 heq =>
    rw [heq] at h
    cases hs
    exact at_draw env hv h.1 (by rw [heq]; rfl) hy fun y' k1 k2 => k1.closing
  case h_17 r stage ok heq =>
    rw [heq] at h
    simp only [Display.Touches, heq] at hy
    have hfail : ∀ y', AtMain p d S (Main.returned (match r with | .ok m => Result.unrestored m | r => r)) y' g := by
      intro y'; cases r <;> trivial
    have hdone : ∀ y', Restored y' g → AtMain p d S (.returned r) y' g := by
      intro y' h; cases r <;> first | exact h | trivial
    cases ok with
    | true =>
      have key := closing_step env h hy
      cases stage with
      | cancel => cases hs; exact key
      | wait =>
        simp only [shutdown] at hs
        cases hh : s.threads.any Thread.isHandler <;>
          simp only [hh, if_true, if_false, Bool.false_eq_true] at hs <;> cases hs
        exact key
      | paste => cases hs; exact key
      | cursor => cases hs; exact key
      | raw => cases hs; exact key
      | alt => cases hs; exact hdone _ key
    | false =>
      cases stage with
      | cancel =>
        cases hs
        exact closing_step env h hy
      | wait =>
        simp only [shutdown] at hs
        cases hh : s.threads.any Thread.isHandler <;>
          simp only [hh, if_true, if_false, Bool.false_eq_true] at hs <;> cases hs
        exact closing_step env h hy
      | _ =>
        simp only [shutdown, Bool.false_eq_true, if_false] at hs
        cases r <;> (simp only [Option.some.injEq] at hs; subst hs; exact hfail y')
  all_goals
    first
    | cases hs; done
    | (cases hs; trivial)

theorem threadStep_tty {p : Program σ μ} {d : Display σ} {s : State σ μ} {i : Nat} {t : Thread μ}
    {a : ThreadChoice μ} {y y' : Tty} (ht : s.threads[i]? = some t) (hr : ∀ st, t ≠ .rescue st)
    (hy : d.Touches p s (.thread i a) y y') : y' = y := by
  cases a with
  | op ok =>
    simp only [Display.Touches, ht] at hy
    split at hy
    · rename_i st heq
      cases heq
      exact absurd rfl (hr _)
    · exact hy
  | _ => exact hy

theorem update_at {p : Program σ μ} {d : Display σ} {S : String → Prop} {s : State σ μ} {md : σ} {m : Msg μ}
    {y : Tty} {g : Grid} (h : Running d S y g) : AtMain p d S (update p s md m).main y g := by
  unfold update
  split
  · exact h.closing
  · exact ⟨h, fun m hm => (by cases hm)⟩

theorem step_at {p : Program σ μ} {d : Display σ} {S : String → Prop} (env : Env d.uniseg d.termenv S)
    (hv : ∀ m, (d.view m).Good d.uniseg d.termenv S) {s s' : State σ μ} {c : Choice μ} {y y' : Tty} {g : Grid}
    (hr : Rescues p s) (h : (Panicky p ∧ s.done = true) ∨ AtMain p d S s.main y g) (hs : step p s c = some s')
    (hy : d.Touches p s c y y') : (Panicky p ∧ s'.done = true) ∨ AtMain p d S s'.main y' g := by
  rcases h with ⟨h1, h2⟩ | h
  · exact .inl ⟨h1, step_done hs h2⟩
  have hs0 := hs
  unfold step at hs
  split at hs
  · cases hs
  cases c with
  | cancel =>
    cases hs; cases hy
    exact .inr h
  | main a => exact .inr (mainStep_at env hv h hs hy)
  | thread i a =>
    simp only at hs
    split at hs
    · cases hs
    · rename_i t ht
      by_cases hre : ∃ st, t = .rescue st
      · obtain ⟨st, rfl⟩ := hre
        have hk := hr st (List.mem_of_getElem? ht)
        refine .inl ⟨hk.1, ?_⟩
        by_cases hst : st = .cancel
        · subst hst
          cases a <;> cases hs
          rfl
        · exact step_done hs0 (hk.2 hst)
      · have := threadStep_tty ht (fun st e => hre ⟨st, e⟩) hy
        subst this
        rw [(threadStep_quiet hs).1]
        exact .inr h
  | message i j ok =>
    simp only at hs
    split at hs
    · rename_i md t h1 h2
      split at hs
      · cases hs
      · rename_i m member t' heq
        cases hs
        right
        rw [h1] at h
        simp only [Display.Touches, h2, Option.bind_some, heq] at hy
        unfold receive
        match m, ok with
        | none, _ =>
          cases hy
          show AtMain p d S s.main _ g
          rw [h1]
          exact h
        | some .quit, _ =>
          cases hy
          exact ⟨h.1, fun m hm => (by cases hm)⟩
        | some (.size w v), true =>
          obtain ⟨hw, hv', tm, out, hd, rfl⟩ := hy
          simp only [if_true]
          exact update_at (running_resize env h.1 hw hv' hd)
        | some (.size w v), false => trivial
        | some (.sequence _), _ =>
          cases hy
          exact update_at h.1
        | some (.user _), _ =>
          cases hy
          exact update_at h.1
        | some (.batch _), _ =>
          cases hy
          exact update_at h.1
    · cases hs
  | error i =>
    simp only at hs
    split at hs
    · cases hs; exact .inr trivial
    · cases hs
  | fromMain j =>
    simp only at hs
    split at hs
    · rename_i h1 h2
      cases hs; cases hy
      rw [h1] at h
      exact .inr ⟨h.1, fun m hm => (by cases hm)⟩
    · cases hs
  | fromInit i j =>
    simp only at hs
    split at hs
    · cases hs; cases hy
      exact .inr h
    · cases hs

theorem window_at {p : Program σ μ} {d : Display σ} {S : String → Prop} {main : Main σ} {y : Tty} {g : Grid}
    (h : AtMain p d S main y g) (cols rows cx cy : Int) (grid other : Grid) :
    AtMain p d S main { y with
      screen := { y.screen with cols := cols, rows := rows, cx := cx, cy := cy, grid := grid, other := other }
      known := false } (if y.screen.alt then other else grid) := by
  have hst : Steady d S y → Steady d S { y with
      screen := { y.screen with cols := cols, rows := rows, cx := cx, cy := cy, grid := grid, other := other }
      known := false } := fun h => ⟨h.tinv, h.full, h.pen, fun h => (by cases h)⟩
  have hearly : Early d S y g → Early d S { y with
      screen := { y.screen with cols := cols, rows := rows, cx := cx, cy := cy, grid := grid, other := other }
      known := false } (if y.screen.alt then other else grid) :=
    fun h => ⟨hst h.steady, h.blank, h.alt, by rw [h.alt]; rfl⟩
  have hrun : Running d S y g → Running d S { y with
      screen := { y.screen with cols := cols, rows := rows, cx := cx, cy := cy, grid := grid, other := other }
      known := false } (if y.screen.alt then other else grid) :=
    fun h => ⟨hst h.steady, h.alt, by rw [h.alt]; rfl, fun h => (by cases h)⟩
  have hfr : ∀ w, Framed w y → Framed w { y with
      screen := { y.screen with cols := cols, rows := rows, cx := cx, cy := cy, grid := grid, other := other }
      known := false } := by
    rintro w ⟨b, cur, h1, h2, h3, _⟩
    exact ⟨b, cur, h1, h2, h3, fun h => (by cases h)⟩
  cases main with
  | raw => exact hearly h
  | cursor => exact hearly h
  | alt => exact hearly h
  | failed => trivial
  | closing r st =>
    obtain ⟨h1, h2, h3, h4, h5⟩ := h
    exact ⟨h1, h2, by rw [h2]; rfl, h4, h5⟩
  | returned r =>
    cases r with
    | ok m =>
      obtain ⟨h1, h2, h3, h4, h5⟩ := h
      exact ⟨h1, h2, by rw [h2]; rfl, h4, h5⟩
    | _ => trivial
  | _ => exact ⟨hrun h.1, fun m hm => hfr _ (h.2 m hm)⟩

/-- What holds of every running app. -/
theorem live_at {p : Program σ μ} {d : Display σ} {S : String → Prop} (env : Env d.uniseg d.termenv S)
    (hv : ∀ m, (d.view m).Good d.uniseg d.termenv S) {s : State σ μ} {y : Tty} {g : Grid} (h : Live p d s y g) :
    Rescues p s ∧ ((Panicky p ∧ s.done = true) ∨ AtMain p d S s.main y g) := by
  induction h with
  | start sc t hnew hc hr hp ha =>
    refine ⟨fun st hm => absurd hm List.not_mem_nil, .inr ?_⟩
    have hr' : t.viewportArea = ⟨0, 0, sc.cols, sc.rows⟩ ∧ t.viewport = .fullscreen := by
      simp only [Terminal.new, Option.bind_eq_bind, Option.bind_eq_some_iff] at hnew
      obtain ⟨b, _, ht⟩ := hnew
      injection ht with ht
      subst ht
      exact ⟨rfl, rfl⟩
    obtain ⟨h1, h2⟩ := new_tinv (S := S) env hnew (by rw [hr'.1]; exact Int.le_refl 0)
      (by rw [hr'.1]; exact Int.le_refl 0) (by rw [hr'.1]; exact hc)
      (by rw [hr'.1]; exact hr)
    exact ⟨⟨h1, hr'.2, hp, fun _ => hr'.1⟩, h2, ha, rfl⟩
  | window _ cols rows cx cy grid other ih =>
    refine ⟨ih.1, ?_⟩
    rcases ih.2 with h | h
    · exact .inl h
    · exact .inr (window_at h cols rows cx cy grid other)
  | step _ c s' hs y' hy ih => exact ⟨step_rescues ih.1 hs, step_at env hv ih.1 ih.2 hs hy⟩

/-- The steps of a running app are a run. -/
theorem live_run {p : Program σ μ} {d : Display σ} {s : State σ μ} {y : Tty} {g : Grid} (h : Live p d s y g) :
    ∃ cs, run p cs = some s := by
  induction h with
  | start => exact ⟨[], rfl⟩
  | window _ _ _ _ _ _ _ ih => exact ih
  | step _ c s' hs _ _ ih =>
    obtain ⟨cs, ih⟩ := ih
    refine ⟨cs ++ [c], ?_⟩
    unfold run at ih ⊢
    rw [runFrom_append, ih]
    simp [runFrom, hs]

end

end App

open App in
/-- **C105.** Whenever a running app waits for a message and knows the size of the screen, the screen shows exactly
the frame of its current model — the start model with `Update` folded over all messages taken so far — as drawn onto
a blank buffer of the size of the screen; the cursor is visible if and only if the frame asks for it, and is where the
frame wants it. This is on the alternate screen; the screen of the shell is untouched. It holds for all programs, all
interleavings, and all changes of the window, as long as the context is not done or no command can panic. -/
theorem C105_waiting {σ μ : Type} (p : Program σ μ) (d : Display σ) (S : String → Prop)
    (env : Env d.uniseg d.termenv S) (hv : ∀ m, (d.view m).Good d.uniseg d.termenv S) (s : App.State σ μ) (y : Tty)
    (g : Grid) (h : Live p d s y g) (hk : y.known = true) (hd : s.done = false ∨ ∀ c k, p.call c k ≠ .panics)
    (m : σ) (hm : s.main = .select m) :
    model p p.start (taken s.trace) = some m ∧
    ∃ (blank frame : Buffer) (cur : Option Position), blank.Blank ⟨0, 0, y.screen.cols, y.screen.rows⟩ ∧
      d.view m ⟨0, 0, y.screen.cols, y.screen.rows⟩ blank = some (frame, cur) ∧
      Shows d.uniseg (penOf d.termenv) y.screen.grid frame ∧
      y.screen.visible = cur.isSome ∧
      (∀ q, cur = some q → q.x < y.screen.cols → q.y < y.screen.rows → y.screen.cx = q.x ∧ y.screen.cy = q.y) ∧
      y.screen.alt = true ∧ y.screen.other = g := by
  obtain ⟨cs, hrun⟩ := live_run h
  refine ⟨(C51_waiting p cs s m hrun hm).1, ?_⟩
  rcases (live_at env hv h).2 with ⟨⟨c, k, h1⟩, h2⟩ | h
  · rcases hd with hd | hd
    · rw [hd] at h2; cases h2
    · exact absurd h1 (hd c k)
  · rw [hm] at h
    obtain ⟨h1, h2⟩ := h
    obtain ⟨blank, cur, h3, h4, h5, h6⟩ := h2 m rfl
    rw [h1.steady.area hk] at h3 h4
    exact ⟨blank, y.term.prev, cur, h3, h4, h1.shows hk, h5, h6 hk, h1.alt, h1.shell⟩

open App in
/-- **C105.** When `Run` returns without an error, and no command can panic, the screen is that of the shell again,
exactly as it would be without the app: same contents, default rendition, visible cursor, no bracketed paste. -/
theorem C105_shell {σ μ : Type} (p : Program σ μ) (d : Display σ) (S : String → Prop)
    (env : Env d.uniseg d.termenv S) (hv : ∀ m, (d.view m).Good d.uniseg d.termenv S) (s : App.State σ μ) (y : Tty)
    (g : Grid) (h : Live p d s y g) (hp : ∀ c k, p.call c k ≠ .panics) (m : σ)
    (hm : s.main = .returned (.ok m)) :
    y.screen.alt = false ∧ y.screen.grid = g ∧ y.screen.pen = Pen.neutral ∧ y.screen.visible = true ∧
      y.screen.paste = false := by
  rcases (live_at env hv h).2 with ⟨⟨c, k, h1⟩, h2⟩ | h
  · exact absurd h1 (hp c k)
  · rw [hm] at h
    exact ⟨h.alt, h.shell, h.pen, h.visible, h.paste⟩

namespace App

section

variable {σ μ : Type}

theorem writes_one {T : Termenv} {c : Command} (h : (c.write T).isSome = true) : ∃ out, writeAll T [c] = some out := by
  obtain ⟨o, ho⟩ := Option.isSome_iff_exists.1 h
  exact ⟨o ++ [], by simp [writeAll, ho]⟩

end

end App

open App in
/-- **C105.** Nothing in the app itself keeps a draw from succeeding: as long as no backend call fails, every model
can be drawn, whatever happened before; and every size can be set. -/
theorem C105_succeeds {σ μ : Type} (p : Program σ μ) (d : Display σ) (S : String → Prop)
    (env : Env d.uniseg d.termenv S) (hv : ∀ m, (d.view m).Good d.uniseg d.termenv S) (s : App.State σ μ) (y : Tty)
    (g : Grid) (h : Live p d s y g) (hd : s.done = false ∨ ∀ c k, p.call c k ≠ .panics) :
    (∀ m, p.drawing s.main = some m → ∃ t out, y.term.draw d.uniseg d.termenv (d.view m) noFault = some (t, out, true)) ∧
    ∀ m, s.main = .select m → ∀ width height, 0 ≤ width → 0 ≤ height →
      ∃ t out, y.term.resize d.termenv (Rect.new width height) none = some (t, out, true) := by
  have hat : AtMain p d S s.main y g := by
    rcases (live_at env hv h).2 with ⟨⟨c, k, h1⟩, h2⟩ | h
    · rcases hd with hd | hd
      · rw [hd] at h2; cases h2
      · exact absurd h1 (hd c k)
    · exact h
  constructor
  · intro m hm
    have hr : Running d S y g := by
      cases hmain : s.main <;> rw [hmain] at hat hm <;> first | exact hat.1 | cases hm
    obtain ⟨b, cur, hwb, hb, hcur⟩ := hv m y.term.viewportArea y.term.cur hr.steady.tinv.x hr.steady.tinv.y hr.steady.tinv.cur
    obtain ⟨t2, ups, out2, e1, _⟩ := draw_spec env hr.steady.tinv.toPInv hwb hb hcur
    exact ⟨t2, out2, e1⟩
  · intro m hm w v hw hv
    rw [hm] at hat
    have ht := hat.1.steady.tinv
    obtain ⟨t1, h1, h2, h3, h4, h5, h6⟩ := setViewport_spec ht (a := Rect.new w v) hw hv
    obtain ⟨out, ho⟩ := clear_some d.junk (S := S) env (t := t1) (by rw [h6]; exact ht.vp)
      (by rw [h5]; exact Int.le_refl 0)
    refine ⟨{ t1 with prev := t1.prev.reset, lastKnownArea := Rect.new w v }, out, ?_⟩
    rw [Terminal.resize, hat.1.steady.full]
    simp [h1, ho]

namespace App

/-- A program for the example: the model counts messages, and message 4 quits. -/
def counter : Program Nat Nat where
  start := 0
  init := some none
  update n m := some (n + 1, match m with | .user 4 => some 0 | _ => none)
  call _ _ := .returns (some .quit)

/-- Its screen is full of `a`s. -/
def counterDisplay : Display Nat := ⟨default, Uniseg.simple, simpleEnv, fun _ => fillA⟩

theorem fillA_cursor {t t' : Terminal} {out : List Char}
    (h : t.draw Uniseg.simple simpleEnv fillA noFault = some (t', out, true)) : t'.hiddenCursor = false := by
  simp only [Terminal.draw, fillA, Option.bind_eq_bind, Option.bind_some, noFault, Option.bind_eq_some_iff] at h
  obtain ⟨_, _, _, _, _, _, _, _, h⟩ := h
  injection h with h
  injection h with h
  subst h
  rfl

/-- A step of the example that draws. -/
theorem counter_draw {s : State Nat Nat} {y : Tty} {g : Grid} (h : Live counter counterDisplay s y g) (m : Nat)
    (hm : counter.drawing s.main = some m) (s' : State Nat Nat)
    (hs : step counter s (.main (.drawn (.ok false))) = some s') :
    ∃ y', Live counter counterDisplay s' y' g ∧ y'.known = y.known := by
  obtain ⟨t, out, ht⟩ := (C105_succeeds counter counterDisplay (fun _ => True) simple_env (fun _ => fillA_good) s y g h
    (.inr (by simp [counter]))).1 m hm
  exact ⟨_, .step h _ s' hs _ ⟨m, t, out, hm, ht, (fillA_cursor ht).symm, rfl⟩, rfl⟩

/-- The example waits on a screen of two columns, after a message. -/
theorem counter_waits : ∃ s y g, Live counter counterDisplay s y g ∧ y.known = true ∧ s.done = false ∧
    s.main = .select 1 := by
  have h0 : Live counter counterDisplay (.start Nat Nat) _ _ := .start
    ⟨2, 1, Grid.blank, 0, 0, Pen.neutral, true, false, Grid.blank, false⟩ _ rfl (by decide) (by decide) rfl rfl
  have h1 := Live.step h0 (.main (.op true)) _ rfl _ rfl
  obtain ⟨o2, e2⟩ := writes_one (T := simpleEnv) (c := .hideCursor) rfl
  have h2 := Live.step h1 (.main (.op true)) _ rfl _ ⟨_, ⟨o2, e2, rfl⟩, rfl⟩
  obtain ⟨o3, e3⟩ := writes_one (T := simpleEnv) (c := .enterAlternateScreen) rfl
  have h3 := Live.step h2 (.main (.op true)) _ rfl _ ⟨_, ⟨o3, e3, rfl⟩, rfl⟩
  have h4 := Live.step h3 (.main (.op true)) _ rfl _ rfl
  obtain ⟨y5, h5, k5⟩ := counter_draw h4 0 rfl _ rfl
  have h6 := Live.step h5 (.main (.op true)) _ rfl _ rfl
  have h7 := Live.step h6 (.main (.op true)) _ rfl _ rfl
  have h8 := Live.step h7 (.main (.op true)) _ rfl _ rfl
  have h9 := Live.step h8 (.thread 0 (.input 7)) _ rfl _ rfl
  have h10 := Live.step h9 (.message 0 0 true) _ rfl _ rfl
  have h11 := Live.step h10 (.fromMain 3) _ rfl _ rfl
  obtain ⟨y12, h12, k12⟩ := counter_draw h11 1 rfl _ rfl
  exact ⟨_, _, _, h12, k12.trans k5, rfl, rfl⟩

/-- The example quits. -/
theorem counter_quits : ∃ s y g, Live counter counterDisplay s y g ∧ s.main = .returned (.ok 2) := by
  have h0 : Live counter counterDisplay (.start Nat Nat) _ _ := .start
    ⟨2, 1, Grid.blank, 0, 0, Pen.neutral, true, false, Grid.blank, false⟩ _ rfl (by decide) (by decide) rfl rfl
  have h1 := Live.step h0 (.main (.op true)) _ rfl _ rfl
  obtain ⟨o2, e2⟩ := writes_one (T := simpleEnv) (c := .hideCursor) rfl
  have h2 := Live.step h1 (.main (.op true)) _ rfl _ ⟨_, ⟨o2, e2, rfl⟩, rfl⟩
  obtain ⟨o3, e3⟩ := writes_one (T := simpleEnv) (c := .enterAlternateScreen) rfl
  have h3 := Live.step h2 (.main (.op true)) _ rfl _ ⟨_, ⟨o3, e3, rfl⟩, rfl⟩
  have h4 := Live.step h3 (.main (.op true)) _ rfl _ rfl
  obtain ⟨y5, h5, k5⟩ := counter_draw h4 0 rfl _ rfl
  have h6 := Live.step h5 (.main (.op true)) _ rfl _ rfl
  have h7 := Live.step h6 (.main (.op true)) _ rfl _ rfl
  have h8 := Live.step h7 (.main (.op true)) _ rfl _ rfl
  -- the window becomes wider, and the app is told
  have w1 := Live.window h8 3 1 0 0 Grid.blank Grid.blank
  have w2 := Live.step w1 (.thread 2 (.sized 3 1)) _ rfl _ rfl
  obtain ⟨tw, ow, hw⟩ := (C105_succeeds counter counterDisplay (fun _ => True) simple_env (fun _ => fillA_good) _ _ _ w2
    (.inr (by simp [counter]))).2 0 rfl 3 1 (by decide) (by decide)
  have w3 := Live.step w2 (.message 2 0 true) _ rfl _ ⟨by decide, by decide, tw, ow, hw, rfl⟩
  have w4 := Live.step w3 (.fromMain 3) _ rfl _ rfl
  obtain ⟨y13, w5, k13⟩ := counter_draw w4 1 rfl _ rfl
  -- message 4 starts the command that quits
  have h9 := Live.step w5 (.thread 0 (.input 4)) _ rfl _ rfl
  have h10 := Live.step h9 (.message 0 0 true) _ rfl _ rfl
  have h11 := Live.step h10 (.fromMain 3) _ rfl _ rfl
  obtain ⟨y12, h12, k12⟩ := counter_draw h11 2 rfl _ rfl
  have h13 := Live.step h12 (.thread 4 (.go 0)) _ rfl _ rfl
  have h14 := Live.step h13 (.message 4 0 true) _ rfl _ rfl
  have h15 := Live.step h14 (.main (.op true)) _ rfl _ rfl
  obtain ⟨y16, h16, k16⟩ := counter_draw h15 2 rfl _ rfl
  -- the handlers end, and the terminal is restored
  have h17 := Live.step h16 (.main (.op true)) _ rfl _ rfl
  have h18 := Live.step h17 (.thread 2 .giveUp) _ rfl _ rfl
  have h19 := Live.step h18 (.thread 3 .giveUp) _ rfl _ rfl
  have h20 := Live.step h19 (.main (.op true)) _ rfl _ rfl
  obtain ⟨o4, e4⟩ := writes_one (T := simpleEnv) (c := .disableBracketedPaste) rfl
  have h21 := Live.step h20 (.main (.op true)) _ rfl _ ⟨_, ⟨o4, e4, rfl⟩, rfl⟩
  obtain ⟨o5, e5⟩ := writes_one (T := simpleEnv) (c := .showCursor) rfl
  have h22 := Live.step h21 (.main (.op true)) _ rfl _ ⟨_, ⟨o5, e5, rfl⟩, rfl⟩
  have h23 := Live.step h22 (.main (.op true)) _ rfl _ rfl
  obtain ⟨o6, e6⟩ := writes_one (T := simpleEnv) (c := .leaveAlternateScreen) rfl
  have h24 := Live.step h23 (.main (.op true)) _ rfl _ ⟨_, ⟨o6, e6, rfl⟩, rfl⟩
  exact ⟨_, _, _, h24, rfl⟩

end App

open App in
/-- The hypotheses of `C105_waiting` and `C105_shell` are met. -/
example : (∃ s y g, Live counter counterDisplay s y g ∧ y.known = true ∧ s.done = false ∧ s.main = .select 1) ∧
    (∃ s y g, Live counter counterDisplay s y g ∧ s.main = .returned (.ok 2)) ∧
    (∀ c k, counter.call c k ≠ .panics) ∧
    Env counterDisplay.uniseg counterDisplay.termenv (fun _ => True) ∧
    ∀ m, (counterDisplay.view m).Good counterDisplay.uniseg counterDisplay.termenv (fun _ => True) :=
  ⟨counter_waits, counter_quits, by simp [counter], simple_env, fun _ => fillA_good⟩

namespace App

/-- A program whose command panics. -/
def panicker : Program Nat Nat where
  start := 0
  init := some none
  update n _ := some (n + 1, some 0)
  call _ _ := .panics

/-- The frame of the start model is blank, all others are full of `a`s. -/
def panickerDisplay : Display Nat :=
  ⟨default, Uniseg.simple, simpleEnv, fun n => if n = 0 then fun _ b => some (b, none) else fillA⟩

theorem panicker_good (m : Nat) : (panickerDisplay.view m).Good Uniseg.simple simpleEnv (fun _ => True) := by
  by_cases h : m = 0
  · subst h
    intro area b _ _ hb
    exact ⟨b, none, rfl, blank_good simple_env hb, by simp⟩
  · have : panickerDisplay.view m = fillA := by simp [panickerDisplay, h]
    rw [this]
    exact fillA_good

section

variable {σ : Type}

/-- The terminal can be restored. -/
theorem closes_all {d : Display σ} {S : String → Prop} (env : Env d.uniseg d.termenv S) {y : Tty} {g : Grid}
    (h : Closing y g .cancel) : ∃ y1 y2 y3, d.Closes .paste true y y1 ∧ d.Closes .cursor true y1 y2 ∧
      d.Closes .alt true y2 y3 ∧ Restored y3 g ∧ y3.term.prev = y.term.prev ∧ y3.term.cur = y.term.cur ∧
      y3.term.viewportArea = y.term.viewportArea ∧ y3.term.viewport = y.term.viewport ∧
      y3.screen.cols = y.screen.cols ∧ y3.screen.rows = y.screen.rows := by
  have r2 := closing_step env (closing_step (d := d) env h (y' := y) rfl) (y' := y) rfl
  obtain ⟨o1, e1⟩ := writes_one (T := d.termenv) (c := .disableBracketedPaste) rfl
  have c1 : d.Closes .paste true y _ := ⟨_, ⟨o1, e1, rfl⟩, rfl⟩
  have r3 := closing_step env r2 c1
  have k1 := sends_effect env (c := .disableBracketedPaste) (sc := y.screen) ⟨o1, e1, rfl⟩ trivial (by simp)
  generalize hy1 : (Tty.mk _ _ _) = y1 at c1 r3
  obtain ⟨o2, e2⟩ := writes_one (T := d.termenv) (c := .showCursor) rfl
  have c2 : d.Closes .cursor true y1 _ := ⟨_, ⟨o2, e2, rfl⟩, rfl⟩
  have r4 := closing_step env r3 c2
  have k2 := sends_effect env (c := .showCursor) (sc := y1.screen) ⟨o2, e2, rfl⟩ trivial (by simp)
  generalize hy2 : (Tty.mk _ _ _) = y2 at c2 r4
  have r5 := closing_step (d := d) env r4 (y' := y2) rfl
  obtain ⟨o3, e3⟩ := writes_one (T := d.termenv) (c := .leaveAlternateScreen) rfl
  have c3 : d.Closes .alt true y2 _ := ⟨_, ⟨o3, e3, rfl⟩, rfl⟩
  have r6 := closing_step env r5 c3
  have k3 := sends_effect env (c := .leaveAlternateScreen) (sc := y2.screen) ⟨o3, e3, rfl⟩ trivial (by simp)
  refine ⟨y1, y2, _, c1, c2, c3, r6, ?_, ?_, ?_, ?_, ?_, ?_⟩
  · simp only [← hy2, ← hy1]
  · simp only [← hy2, ← hy1]
  · simp only [← hy2, ← hy1]
  · simp only [← hy2, ← hy1]
  · show (Screen.feed _ _ _ _).cols = _
    rw [k3, Command.effect, r5.alt, if_pos rfl]
    show y2.screen.cols = _
    rw [← hy2]
    show (Screen.feed _ _ _ _).cols = _
    rw [k2]
    show y1.screen.cols = _
    rw [← hy1]
    show (Screen.feed _ _ _ _).cols = _
    rw [k1]
    rfl
  · show (Screen.feed _ _ _ _).rows = _
    rw [k3, Command.effect, r5.alt, if_pos rfl]
    show y2.screen.rows = _
    rw [← hy2]
    show (Screen.feed _ _ _ _).rows = _
    rw [k2]
    show y1.screen.rows = _
    rw [← hy1]
    show (Screen.feed _ _ _ _).rows = _
    rw [k1]
    rfl

end

end App

open App in
/-- **C105 (negation).** With a command that panics, the context is done, and the app can draw its next frame over the
screen of the shell: the goroutine of the command leaves the alternate screen while `Run` is still drawing. -/
theorem C105_panic_false : ∃ s y, Live panicker panickerDisplay s y Grid.blank ∧ s.main = .select 1 ∧
    y.screen.alt = false ∧ y.screen.grid ⟨0, 0⟩ ≠ Grid.blank ⟨0, 0⟩ := by
  have h0 : Live panicker panickerDisplay (.start Nat Nat) _ Grid.blank := .start
    ⟨2, 1, Grid.blank, 0, 0, Pen.neutral, true, false, Grid.blank, false⟩ _ rfl (by decide) (by decide) rfl rfl
  have h1 := Live.step h0 (.main (.op true)) _ rfl _ rfl
  obtain ⟨o2, e2⟩ := writes_one (T := simpleEnv) (c := .hideCursor) rfl
  have h2 := Live.step h1 (.main (.op true)) _ rfl _ ⟨_, ⟨o2, e2, rfl⟩, rfl⟩
  obtain ⟨o3, e3⟩ := writes_one (T := simpleEnv) (c := .enterAlternateScreen) rfl
  have h3 := Live.step h2 (.main (.op true)) _ rfl _ ⟨_, ⟨o3, e3, rfl⟩, rfl⟩
  have h4 := Live.step h3 (.main (.op true)) _ rfl _ rfl
  obtain ⟨t5, o5, e5⟩ := (C105_succeeds panicker panickerDisplay (fun _ => True) simple_env panicker_good _ _ _ h4
    (.inl rfl)).1 0 rfl
  have c5 : true = t5.hiddenCursor := by
    simp only [Terminal.draw, panickerDisplay, if_true, Option.bind_eq_bind, Option.bind_some, noFault,
      Option.bind_eq_some_iff] at e5
    obtain ⟨_, _, _, _, _, _, e5⟩ := e5
    injection e5 with e5
    injection e5 with e5
    subst e5
    rfl
  have h5 := Live.step h4 (.main (.drawn (.ok true))) _ rfl _ ⟨0, t5, o5, rfl, e5, c5, rfl⟩
  have h6 := Live.step h5 (.main (.op true)) _ rfl _ rfl
  have h7 := Live.step h6 (.main (.op true)) _ rfl _ rfl
  have h8 := Live.step h7 (.main (.op true)) _ rfl _ rfl
  generalize hy : (Tty.mk t5 _ _) = y8 at h8
  have hk : y8.known = true := by rw [← hy]
  have hv8 : y8.term.viewportArea = ⟨0, 0, 2, 1⟩ := by
    rw [← hy]
    obtain ⟨_, _, _, _, _, h⟩ := draw_ok_state e5
    exact h
  clear hy h7 h6 h5
  have hat := (live_at simple_env panicker_good h8).2.resolve_left (by rintro ⟨_, h⟩; cases h)
  obtain ⟨hrun, hfr⟩ := hat
  obtain ⟨blank, cur, hbl, hv, _, _⟩ := hfr 0 rfl
  have hpb : y8.term.prev.Blank y8.term.viewportArea := by
    simp only [panickerDisplay, if_true, Option.some.injEq, Prod.mk.injEq] at hv
    rw [← hv.1]
    exact hbl
  have h9 := Live.step h8 (.thread 0 (.input 7)) _ rfl _ rfl
  have h10 := Live.step h9 (.message 0 0 true) _ rfl _ rfl
  have h11 := Live.step h10 (.fromMain 3) _ rfl _ rfl
  have h12 := Live.step h11 (.thread 4 (.go 0)) _ rfl _ rfl
  obtain ⟨y1, y2, y3, c1, c2, c3, hre, hprev, hcur, harea, hvp, hcols, hrows⟩ := closes_all (d := panickerDisplay)
    simple_env hrun.closing
  have h13 := Live.step h12 (.thread 4 (.op true)) _ rfl y8 rfl
  have h14 := Live.step h13 (.thread 2 .giveUp) _ rfl _ rfl
  have h15 := Live.step h14 (.thread 3 .giveUp) _ rfl _ rfl
  have h16 := Live.step h15 (.thread 4 (.op true)) _ rfl y8 rfl
  have h17 := Live.step h16 (.thread 4 (.op true)) _ rfl y1 c1
  have h18 := Live.step h17 (.thread 4 (.op true)) _ rfl y2 c2
  have h19 := Live.step h18 (.thread 4 (.op true)) _ rfl y2 rfl
  have h20 := Live.step h19 (.thread 4 (.op true)) _ rfl y3 c3
  have ht := hrun.steady.tinv
  have ha := hrun.steady.area hk
  have hP : PInv Uniseg.simple simpleEnv (fun _ => True) y3.term :=
    ⟨by rw [hprev, harea]; exact ht.prev, by rw [harea]; exact ht.x, by rw [harea]; exact ht.y,
      by rw [hvp]; exact ht.vp⟩
  have hcb : y3.term.cur.Blank y3.term.viewportArea := by rw [hcur, harea]; exact ht.cur
  obtain ⟨b, cur2, hwb, hb, hcur2⟩ := fillA_good y3.term.viewportArea y3.term.cur hP.x hP.y hcb
  obtain ⟨t21, ups, o21, e1, e2, e3, e4, e5, e6, e7, e8, e9, _⟩ := draw_spec simple_env hP hwb hb hcur2
  have h21 := Live.step h20 (.main (.drawn (.ok false))) _ rfl _ ⟨1, t21, o21, rfl, e1, (fillA_cursor e1).symm, rfl⟩
  refine ⟨_, _, h21, rfl, ?_⟩
  have hfit : y3.screen.Fits y3.term.viewportArea := by
    have h1 := ht.width
    have h2 := ht.height
    rw [ha] at h1 h2
    rw [harea, ha]
    exact ⟨by simp, by simp, h1, h2, by simp [hcols], by simp [hrows]⟩
  have hshow : Shows Uniseg.simple (penOf simpleEnv) y3.screen.grid y3.term.prev := by
    rw [hre.shell, hprev]
    exact shows_blank simple_env hpb fun _ _ => rfl
  obtain ⟨o, ho, hf⟩ := feed_commands panickerDisplay.junk simple_env _ e4 y3.screen
  rw [e5] at ho
  injection ho with ho
  subst ho
  have k := drawCommands_keeps panickerDisplay.junk Uniseg.simple simpleEnv ups y3.screen
  obtain ⟨cx, cy, gr, he, hsh, _⟩ := draw_shows panickerDisplay.junk simple_env hP hb e2 e3 y3.screen hfit hre.pen hshow
  have hgrid : (y3.screen.feed panickerDisplay.junk Uniseg.simple o21).grid = gr ∧
      (y3.screen.feed panickerDisplay.junk Uniseg.simple o21).alt = y3.screen.alt := by
    rw [hf, List.foldl_append, cursor_effect, he]
    cases cur2 <;> exact ⟨rfl, rfl⟩
  refine ⟨hgrid.2.trans hre.alt, ?_⟩
  show (y3.screen.feed panickerDisplay.junk Uniseg.simple o21).grid ⟨0, 0⟩ ≠ _
  rw [hgrid.1]
  have hb0 : b.cellAt ⟨0, 0⟩ = some ⟨"a", .ansi 1, .reset, Modifier.bold, false⟩ := by
    simp only [fillA, Option.some.injEq, Prod.mk.injEq] at hwb
    obtain ⟨rfl, _⟩ := hwb
    have hin : (⟨0, 0, 2, 1⟩ : Rect).contains ⟨0, 0⟩ = true := by decide
    have hlen := hcb.wf.len
    have har : y3.term.cur.area = ⟨0, 0, 2, 1⟩ := by rw [hcb.area_eq, harea, hv8]
    rw [har] at hlen
    rw [Buffer.cellAt_eq (by rw [har]; exact hin), har, List.getElem?_replicate]
    have : y3.term.cur.content.length = 2 := by
      have h2 : (⟨0, 0, 2, 1⟩ : Rect).area = 2 := by decide
      omega
    rw [this]
    rfl
  intro hbad
  have := hsh ⟨0, 0⟩ _ hb0
  rw [hbad] at this
  revert this
  unfold Grid.blank
  cases b.covered Uniseg.simple ⟨0, 0⟩ <;> simp

end Bento
