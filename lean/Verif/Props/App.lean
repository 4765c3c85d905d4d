import Verif.Spec.App

/-!
# The event loop

Properties C51–C55, C75.
-/

namespace Bento

namespace App

section

variable {σ μ : Type}

theorem visible_append (a b : List (Event σ μ)) : visible (a ++ b) = visible a ++ visible b := by
  unfold visible
  rw [List.filterMap_append]

theorem taken_append (a b : List (Event σ μ)) : taken (a ++ b) = taken a ++ taken b := by
  unfold taken
  rw [List.filterMap_append]

theorem runFrom_append (p : Program σ μ) (as bs : List (Choice μ)) : ∀ s, runFrom p s (as ++ bs) =
    (runFrom p s as).bind fun s => runFrom p s bs := by
  induction as with
  | nil => intro s; rfl
  | cons a as ih =>
    intro s
    simp only [List.cons_append, runFrom]
    cases step p s a with
    | none => rfl
    | some s => exact ih s

/-- What holds at first and is kept by every step holds in every run. -/
theorem run_induction {p : Program σ μ} {P : State σ μ → Prop} (h0 : P (.start σ μ))
    (hs : ∀ s c s', P s → s.crashed = false → step p s c = some s' → P s') {cs : List (Choice μ)} {s : State σ μ}
    (h : run p cs = some s) : P s := by
  have key : ∀ (cs : List (Choice μ)) (s s' : State σ μ), P s → runFrom p s cs = some s' → P s' := by
    intro cs
    induction cs with
    | nil =>
      intro s s' hP h
      simp only [runFrom, Option.some.injEq] at h
      exact h ▸ hP
    | cons c cs ih =>
      intro s s' hP h
      simp only [runFrom] at h
      cases hc : step p s c with
      | none => rw [hc] at h; cases h
      | some s1 =>
        rw [hc] at h
        refine ih s1 s' (hs s c s1 hP ?_ hc) h
        cases hcr : s.crashed with
        | false => rfl
        | true => unfold step at hc; rw [hcr] at hc; cases hc
  exact key cs _ s h0 h

theorem shutdown_main {s s' : State σ μ} {st : Stage} {ok : Bool} {c : Closed}
    (h : shutdown s st ok = some (s', c)) : s'.main = s.main ∧ s'.threads = s.threads ∧
      s'.crashed = s.crashed ∧ (s.done = true → s'.done = true) ∧
      ∃ es, s'.trace = s.trace ++ es ∧ visible es = [] ∧ taken es = [] ∧ ∀ e ∈ es, e.thread = none := by
  unfold shutdown at h
  split at h <;> (try split at h) <;> cases h <;>
    (refine ⟨rfl, rfl, rfl, fun h => by first | exact h | rfl, ?_⟩) <;>
    first
    | exact ⟨[], (List.append_nil _).symm, rfl, rfl, by simp⟩
    | exact ⟨_, rfl, rfl, rfl, by simp [Event.thread]⟩

/-- A goroutine other than that of `Run` changes nothing that is visible. -/
theorem threadStep_quiet {p : Program σ μ} {s s' : State σ μ} {i : Nat} {t : Thread μ} {a : ThreadChoice μ}
    (h : threadStep p s i t a = some s') : s'.main = s.main ∧ visible s'.trace = visible s.trace ∧
      taken s'.trace = taken s.trace := by
  have hlog : ∀ (s : State σ μ) (e : Event σ μ) (t : Thread μ), visible [e] = [] → taken [e] = [] →
      ((s.log [e]).put i t).main = s.main ∧ visible ((s.log [e]).put i t).trace = visible s.trace ∧
        taken ((s.log [e]).put i t).trace = taken s.trace := by
    intro s e t h1 h2
    refine ⟨rfl, ?_, ?_⟩
    · show visible (s.trace ++ [e]) = _
      rw [visible_append, h1, List.append_nil]
    · show taken (s.trace ++ [e]) = _
      rw [taken_append, h2, List.append_nil]
  unfold threadStep at h
  split at h
  case h_5 =>
    split at h
    · cases h
    all_goals
      rename_i heq
      obtain ⟨h1, _, _, _, es, h2, h3, h4, _⟩ := shutdown_main heq
      cases h
      refine ⟨h1, ?_, ?_⟩
      · show visible (State.trace _) = _
        simp only [State.put]
        rw [h2, visible_append, h3, List.append_nil]
      · simp only [State.put]
        rw [h2, taken_append, h4, List.append_nil]
  all_goals
    repeat' split at h
    all_goals
      first
      | cases h; done
      | (cases h; first | exact hlog _ _ _ rfl rfl | exact ⟨rfl, rfl, rfl⟩)

/-! ### C51: messages, updates and frames -/

theorem model_append (p : Program σ μ) (b : List (Option (Msg μ))) : ∀ (a : List (Option (Msg μ))) (md md' : σ),
    model p md a = some md' → model p md (a ++ b) = model p md' b := by
  intro a
  induction a with
  | nil =>
    intro md md' h
    simp only [model, Option.some.injEq] at h
    rw [h]
    rfl
  | cons m a ih =>
    intro md md' h
    match m with
    | none => exact ih md md' h
    | some .quit => simp only [model] at h; cases h
    | some (.user _) | some (.size _ _) | some (.batch _) | some (.sequence _) =>
      simp only [model, List.cons_append] at h ⊢
      split at h
      · cases h
      · exact ih _ md' h

theorem reference_append (p : Program σ μ) (b : List (Option (Msg μ))) :
    ∀ (a : List (Option (Msg μ))) (md md' : σ),
      model p md a = some md' → reference p md (a ++ b) = reference p md a ++ reference p md' b := by
  intro a
  induction a with
  | nil =>
    intro md md' h
    simp only [model, Option.some.injEq] at h
    rw [h]
    rfl
  | cons m a ih =>
    intro md md' h
    match m with
    | none =>
      simp only [reference, List.cons_append]
      rw [ih md md' h]
    | some .quit => simp only [model] at h; cases h
    | some (.user _) | some (.size _ _) | some (.batch _) | some (.sequence _) =>
      simp only [model, reference, List.cons_append] at h ⊢
      split at h
      · cases h
      · rw [ih _ md' h]; rfl

theorem reference_one (p : Program σ μ) (md : σ) (m : Msg μ) (h : m ≠ .quit) : reference p md [some m] =
    .took (some m) :: match p.update md m with
      | none => []
      | some (md, c) => [.updated m c, .drew md] := by
  cases m with
  | quit => exact absurd rfl h
  | _ => rfl

theorem model_one (p : Program σ μ) (md : σ) (m : Msg μ) (h : m ≠ .quit) : model p md [some m] =
    match p.update md m with
    | none => none
    | some (md, _) => some md := by
  cases m with
  | quit => exact absurd rfl h
  | _ => rfl

/-- The messages ended with the quit message, and left this model. -/
def Quit (p : Program σ μ) (m : σ) (t : List (Option (Msg μ))) : Prop :=
  ∃ t₀, t = t₀ ++ [some .quit] ∧ model p p.start t₀ = some m

/-- How the result of `Run` depends on the messages taken and on what was visible. -/
def Returns (p : Program σ μ) (r : Result σ) (v : List (Visible σ μ)) (t : List (Option (Msg μ))) : Prop :=
  match r with
  | .ok m | .unrestored m | .recovered (some m) => Quit p m t ∧
      (r = .recovered (some m) ∨ v = .drew p.start :: reference p p.start t)
  | .killed m => model p p.start t = some m ∨ Quit p m t
  | .error m => model p p.start t = some m ∨
      ∃ t₀ w h, t = t₀ ++ [some (.size w h)] ∧ model p p.start t₀ = some m
  | .recovered none => True

/-- What holds of the visible events and the messages taken, depending on where `Run` is. -/
def Follows (p : Program σ μ) (main : Main σ) (v : List (Visible σ μ)) (t : List (Option (Msg μ))) : Prop :=
  match main with
  | .raw | .cursor | .alt | .model | .draw0 => v = [] ∧ t = []
  | .reader | .resize | .commands => v = [.drew p.start] ∧ t = []
  | .select m => model p p.start t = some m ∧ v = .drew p.start :: reference p p.start t
  | .command m c => ∃ t₀ x md, t = t₀ ++ [some x] ∧ x ≠ .quit ∧ model p p.start t₀ = some md ∧
      p.update md x = some (m, c) ∧ v = .drew p.start :: reference p p.start t₀ ++ [.took (some x), .updated x c]
  | .draw m => ∃ t₀ x md c, t = t₀ ++ [some x] ∧ x ≠ .quit ∧ model p p.start t₀ = some md ∧
      p.update md x = some (m, c) ∧ v = .drew p.start :: reference p p.start t₀ ++ [.took (some x), .updated x c]
  | .quit m | .lastDraw m => ∃ t₀, t = t₀ ++ [some .quit] ∧ model p p.start t₀ = some m ∧
      v = .drew p.start :: reference p p.start t₀ ++ [.took (some .quit)]
  | .failed => v <+: .drew p.start :: reference p p.start t
  | .closing r _ | .returned r => v <+: .drew p.start :: reference p p.start t ∧ Returns p r v t

theorem Follows.prefix {p : Program σ μ} {main : Main σ} {v : List (Visible σ μ)} {t : List (Option (Msg μ))}
    (h : Follows p main v t) : v <+: .drew p.start :: reference p p.start t := by
  have hnil : v = [] → v <+: .drew p.start :: reference p p.start t := fun h => h ▸ List.nil_prefix
  have hone : v = [.drew p.start] ∧ t = [] → v <+: .drew p.start :: reference p p.start t := by
    rintro ⟨rfl, rfl⟩
    exact List.prefix_refl _
  cases main with
  | raw => exact hnil h.1
  | cursor => exact hnil h.1
  | alt => exact hnil h.1
  | model => exact hnil h.1
  | draw0 => exact hnil h.1
  | reader => exact hone h
  | resize => exact hone h
  | commands => exact hone h
  | select m => rw [h.2]; exact List.prefix_refl _
  | command m c =>
    obtain ⟨t₀, x, md, rfl, hx, hm, hu, rfl⟩ := h
    rw [reference_append p _ t₀ _ md hm, reference_one p md x hx, hu, ← List.cons_append]
    exact (List.prefix_append_right_inj _).2 ⟨[.drew m], rfl⟩
  | draw m =>
    obtain ⟨t₀, x, md, c, rfl, hx, hm, hu, rfl⟩ := h
    rw [reference_append p _ t₀ _ md hm, reference_one p md x hx, hu, ← List.cons_append]
    exact (List.prefix_append_right_inj _).2 ⟨[.drew m], rfl⟩
  | quit m =>
    obtain ⟨t₀, rfl, hm, rfl⟩ := h
    rw [reference_append p _ t₀ _ m hm, ← List.cons_append]
    exact (List.prefix_append_right_inj _).2 ⟨[.drew m], rfl⟩
  | lastDraw m =>
    obtain ⟨t₀, rfl, hm, rfl⟩ := h
    rw [reference_append p _ t₀ _ m hm, ← List.cons_append]
    exact (List.prefix_append_right_inj _).2 ⟨[.drew m], rfl⟩
  | failed => exact h
  | closing r s => exact h.1
  | returned r => exact h.1

theorem drawn_follows {p : Program σ μ} {s : State σ μ} {m : σ} {d : Drawn} {next : Main σ} {r : Option σ}
    (hp : visible s.trace <+: .drew p.start :: reference p p.start (taken s.trace))
    (hok : Follows p next (visible s.trace ++ [.drew m]) (taken s.trace))
    (hr : Returns p (.recovered r) (visible s.trace) (taken s.trace)) :
    Follows p (drawn s m d next r).main (visible (drawn s m d next r).trace) (taken (drawn s m d next r).trace) := by
  unfold drawn
  cases d with
  | ok hidden =>
    show Follows p next (visible (s.trace ++ [.drew m])) (taken (s.trace ++ [.drew m]))
    rw [visible_append, taken_append]
    show Follows p next (visible s.trace ++ [.drew m]) (taken s.trace ++ [])
    rw [List.append_nil]
    exact hok
  | error => exact hp
  | panics => exact ⟨hp, hr⟩

theorem mainStep_follows {p : Program σ μ} {s s' : State σ μ} {a : MainChoice}
    (h : Follows p s.main (visible s.trace) (taken s.trace)) (hs : mainStep p s a = some s') :
    Follows p s'.main (visible s'.trace) (taken s'.trace) := by
  have hpre := h.prefix
  have hquit : ∀ {m : σ}, Follows p (.quit m) (visible s.trace) (taken s.trace) → Quit p m (taken s.trace) :=
    fun ⟨t₀, h1, h2, _⟩ => ⟨t₀, h1, h2⟩
  have herr : taken s.trace = [] → Returns p (.error p.start) (visible s.trace) (taken s.trace) := by
    intro h
    exact .inl (by rw [h]; rfl)
  unfold mainStep at hs
  split at hs
  case h_7 heq =>
    rw [heq] at h
    split at hs <;> cases hs
    · exact ⟨hpre, trivial⟩
    · exact h
    · exact h
  case h_8 heq =>
    rw [heq] at h
    cases hs
    refine drawn_follows hpre ?_ trivial
    show visible s.trace ++ _ = _ ∧ _
    rw [h.1]
    exact ⟨rfl, h.2⟩
  case h_12 heq =>
    rw [heq] at h
    cases hs
    show model p p.start (taken s.trace) = _ ∧ visible s.trace = _ :: reference p p.start (taken s.trace)
    rw [h.1, h.2]
    exact ⟨rfl, rfl⟩
  case h_13 heq =>
    rw [heq] at h
    split at hs <;> cases hs
    exact ⟨hpre, .inl h.1⟩
  case h_14 heq =>
    rw [heq] at h
    cases hs
    refine drawn_follows hpre ?_ trivial
    obtain ⟨t₀, x, md, c, h1, hx, hm, hu, h2⟩ := h
    show model p p.start (taken s.trace) = _ ∧ visible s.trace ++ _ = _
    rw [h1, h2, model_append p _ t₀ _ md hm, reference_append p _ t₀ _ md hm, model_one p md x hx,
      reference_one p md x hx, hu]
    simp
  case h_15 heq =>
    rw [heq] at h
    split at hs <;> cases hs
    · exact ⟨hpre, .inr (hquit h)⟩
    · exact h
  case h_16 heq =>
    rw [heq] at h
    cases hs
    refine drawn_follows hpre ?_ ⟨hquit h, .inl rfl⟩
    rename_i m _
    obtain ⟨t₀, h1, hm, h2⟩ := h
    have hv : visible s.trace ++ [.drew m] = .drew p.start :: reference p p.start (taken s.trace) := by
      rw [h1, h2, reference_append p _ t₀ _ _ hm]
      simp [reference]
    exact ⟨by rw [hv]; exact List.prefix_refl _, ⟨t₀, h1, hm⟩, .inr hv⟩
  case h_17 heq =>
    rw [heq] at h
    have hsh : ∀ {s1 : State σ μ} {st : Stage} {ok : Bool} {c : Closed} (main : Main σ),
        shutdown s st ok = some (s1, c) → Follows p main (visible s.trace) (taken s.trace) →
        Follows p main (visible s1.trace) (taken s1.trace) := by
      intro s1 st ok c main h hf
      obtain ⟨_, _, _, _, es, h1, h2, h3, _⟩ := shutdown_main h
      rw [h1, visible_append, taken_append, h2, h3, List.append_nil, List.append_nil]
      exact hf
    split at hs
    · cases hs
    · cases hs
      rename_i heq2
      have := hsh (.closing _ _) heq2 h
      exact this
    · cases hs
      rename_i heq2
      have := hsh (.returned _) heq2 h
      exact this
    · rename_i heq2
      split at hs <;> cases hs
      · have := hsh (.returned (.unrestored _)) heq2 ⟨h.1, h.2.1, .inr (h.2.2.resolve_left (by simp))⟩
        exact this
      · have := hsh (.returned _) heq2 h
        exact this
  all_goals
    first
    | cases hs; done
    | (rename_i heq; rw [heq] at h; cases hs; exact h)
    | (rename_i heq; rw [heq] at h; cases hs; exact ⟨hpre, herr h.2⟩)

theorem update_follows {p : Program σ μ} {s : State σ μ} {md : σ} {m : Msg μ} {t : List (Option (Msg μ))}
    (hq : m ≠ .quit) (hm : model p p.start t = some md) (ht : taken s.trace = t ++ [some m])
    (hv : visible s.trace = .drew p.start :: reference p p.start t ++ [.took (some m)]) :
    Follows p (update p s md m).main (visible (update p s md m).trace) (taken (update p s md m).trace) := by
  unfold update
  cases hu : p.update md m with
  | none =>
    refine ⟨?_, trivial⟩
    show visible s.trace <+: _ :: reference p p.start (taken s.trace)
    rw [ht, hv, reference_append p _ t _ md hm, reference_one p md m hq, hu]
    exact List.prefix_refl _
  | some r =>
    obtain ⟨md', c⟩ := r
    refine ⟨t, m, md, ?_, hq, hm, hu, ?_⟩
    · show taken (s.trace ++ _) = _
      rw [taken_append, ht]
      exact List.append_nil _
    · show visible (s.trace ++ _) = _
      rw [visible_append, hv, List.append_assoc]
      rfl

theorem receive_follows {p : Program σ μ} {s : State σ μ} {md : σ} {m : Option (Msg μ)} {ok : Bool}
    {t : List (Option (Msg μ))} (hmain : s.main = .select md)
    (hm : model p p.start t = some md) (ht : taken s.trace = t ++ [m])
    (hv : visible s.trace = .drew p.start :: reference p p.start t ++ [.took m]) :
    Follows p (receive p s md m ok).main (visible (receive p s md m ok).trace)
      (taken (receive p s md m ok).trace) := by
  match m with
  | none =>
    unfold receive
    simp only
    rw [hmain]
    show model p p.start (taken s.trace) = _ ∧ visible s.trace = _
    rw [ht, hv, model_append p _ t _ md hm, reference_append p _ t _ md hm]
    exact ⟨rfl, rfl⟩
  | some .quit => exact ⟨t, ht, hm, hv⟩
  | some (.size w h) =>
    unfold receive
    simp only
    split
    · exact update_follows (by simp) hm ht hv
    · refine ⟨?_, .inr ⟨t, w, h, ht, hm⟩⟩
      show visible s.trace <+: _ :: reference p p.start (taken s.trace)
      rw [ht, hv, reference_append p _ t _ md hm, reference_one p md _ (by simp), ← List.cons_append]
      exact (List.prefix_append_right_inj _).2 ⟨_, rfl⟩
  | some (.sequence cmds) =>
    refine update_follows (by simp) hm ?_ ?_
    · show taken (s.trace ++ _) = _
      rw [taken_append, ht]
      exact List.append_nil _
    · show visible (s.trace ++ _) = _
      rw [visible_append, hv]
      exact List.append_nil _
  | some (.user m) => exact update_follows (by simp) hm ht hv
  | some (.batch cmds) => exact update_follows (by simp) hm ht hv

theorem accept_quiet (s : State σ μ) (c : Option Cmd) : (accept s c).main = s.main ∧
    visible (accept s c).trace = visible s.trace ∧ taken (accept s c).trace = taken s.trace := by
  cases c with
  | none => exact ⟨rfl, rfl, rfl⟩
  | some c =>
    refine ⟨rfl, ?_, ?_⟩
    · show visible (s.trace ++ _) = _
      rw [visible_append]
      exact List.append_nil _
    · show taken (s.trace ++ _) = _
      rw [taken_append]
      exact List.append_nil _

theorem step_follows {p : Program σ μ} {s s' : State σ μ} {c : Choice μ}
    (h : Follows p s.main (visible s.trace) (taken s.trace)) (hs : step p s c = some s') :
    Follows p s'.main (visible s'.trace) (taken s'.trace) := by
  unfold step at hs
  split at hs
  · cases hs
  cases c with
  | cancel =>
    cases hs
    show Follows p s.main (visible (s.trace ++ _)) (taken (s.trace ++ _))
    rw [visible_append, taken_append]
    show Follows p s.main (visible s.trace ++ []) (taken s.trace ++ [])
    rw [List.append_nil, List.append_nil]
    exact h
  | main a => exact mainStep_follows h hs
  | thread i a =>
    simp only at hs
    split at hs
    · cases hs
    · obtain ⟨h1, h2, h3⟩ := threadStep_quiet hs
      rw [h1, h2, h3]
      exact h
  | message i j ok =>
    simp only at hs
    split at hs
    · rename_i md t h1 h2
      split at hs
      · cases hs
      · rename_i m member t' heq
        cases hs
        rw [h1] at h
        refine receive_follows (t := taken s.trace) h1 h.1 ?_ ?_
        · show taken (s.trace ++ _) = _
          rw [taken_append]
          rfl
        · show visible (s.trace ++ _) = _
          rw [visible_append, h.2]
          rfl
    · cases hs
  | error i =>
    simp only at hs
    split at hs
    · rename_i h1 h2
      cases hs
      have := h.prefix
      rw [h1] at h
      exact ⟨this, .inl h.1⟩
    · cases hs
  | fromMain j =>
    simp only at hs
    split at hs
    · rename_i md c h1 h2
      cases hs
      obtain ⟨_, k2, k3⟩ := accept_quiet s c
      show Follows p (.draw md) (visible (accept s c).trace) (taken (accept s c).trace)
      rw [k2, k3]
      rw [h1] at h
      obtain ⟨t₀, x, md', h⟩ := h
      exact ⟨t₀, x, md', c, h⟩
    · cases hs
  | fromInit i j =>
    simp only at hs
    split at hs
    · rename_i c h1 h2
      cases hs
      obtain ⟨k1, k2, k3⟩ := accept_quiet (s.put i .finished) (some c)
      rw [k1, k2, k3]
      exact h
    · cases hs

theorem run_follows {p : Program σ μ} {cs : List (Choice μ)} {s : State σ μ} (h : run p cs = some s) :
    Follows p s.main (visible s.trace) (taken s.trace) :=
  run_induction (P := fun s => Follows p s.main (visible s.trace) (taken s.trace)) ⟨rfl, rfl⟩
    (fun _ _ _ h _ hs => step_follows h hs) h

end

/-- A program for the examples: the model counts messages; command 0 returns the batch of commands 1 and 2,
command 3 the sequence of commands 1 and 2, command 4 quits, command 5 panics, command 6 returns the sequence of
commands 5 and 1. Message `n` starts command `n`. -/
def demo (first : Option Cmd) : Program Nat Nat where
  start := 0
  init := some first
  update n m := some (n + 1, match m with | .user m => some m | _ => none)
  call c _ := match c with
    | 0 => .returns (some (.batch [some 1, some 2]))
    | 3 => .returns (some (.sequence [some 1, some 2]))
    | 4 => .returns (some .quit)
    | 5 => .panics
    | 6 => .returns (some (.sequence [some 5, some 1]))
    | c => .returns (some (.user (c + 10)))

/-- The steps up to the first `select`, without a first command: goroutine 0 reads, 1 and 2 look at the size, 3
runs commands. -/
def startup : List (Choice Nat) :=
  [.main (.op true), .main (.op true), .main (.op true), .main (.op true), .main (.drawn (.ok true)),
    .main (.op true), .main (.op true), .main (.op true)]

/-- The program above is given message 1, whose command answers with message 11, and waits again. -/
def waits : List (Choice Nat) :=
  startup ++ [.thread 0 (.input 1), .message 0 0 true, .fromMain 3, .main (.drawn (.ok true)), .thread 4 (.go 0),
    .message 4 0 true, .fromMain 3, .main (.drawn (.ok true))]

/-- The program above is given message 4, whose command quits, and returns. -/
def quits : List (Choice Nat) :=
  startup ++ [.thread 0 (.input 4), .message 0 0 true, .fromMain 3,
    .main (.drawn (.ok true)), .thread 4 (.go 0), .message 4 0 true, .main (.op true), .main (.drawn (.ok true)),
    .main (.op true), .thread 2 .giveUp, .thread 3 .giveUp, .main (.op true), .main (.op true), .main (.op true),
    .main (.op true), .main (.op true)]

end App

open App in
/-- What is visible of an app is always what a sequential loop over the taken messages shows, up to some point:
every message is given to `Update` once, in the order of delivery, each model is drawn before the next message is
taken, and nothing follows the quit message but one draw. -/
theorem C51_sequential {σ μ : Type} (p : Program σ μ) (cs : List (Choice μ)) (s : App.State σ μ)
    (h : run p cs = some s) :
    visible s.trace <+: .drew p.start :: reference p p.start (taken s.trace) :=
  (run_follows h).prefix

open App in
example : ∃ s, run (demo none) (startup ++ [.thread 0 (.input 1), .message 0 0 true]) = some s ∧
    visible s.trace = [.drew 0, .took (some (.user 1)), .updated (.user 1) (some 1)] := ⟨_, rfl, by decide +kernel⟩

open App in
/-- When the app waits for a message, all messages taken so far have been handled and the last frame is that of
the current model. -/
theorem C51_waiting {σ μ : Type} (p : Program σ μ) (cs : List (Choice μ)) (s : App.State σ μ) (m : σ)
    (h : run p cs = some s) (hm : s.main = .select m) :
    model p p.start (taken s.trace) = some m ∧
      visible s.trace = .drew p.start :: reference p p.start (taken s.trace) := by
  have := run_follows h
  rw [hm] at this
  exact this

open App in
example : ((run (demo none) waits).map fun s => (s.main, taken s.trace)) =
    some (.select 2, [some (.user 1), some (.user 11)]) := by decide +kernel

open App in
/-- The model that `Run` returns is the start model with `Update` folded over the messages taken: over all but
the quit message, if it returns without an error (and then the last frame is that of this model); over all but
possibly the quit message, if it was killed; over all but possibly a last resize that failed, if it returns an
error. -/
theorem C51_result {σ μ : Type} (p : Program σ μ) (cs : List (Choice μ)) (s : App.State σ μ) (r : Result σ)
    (h : run p cs = some s) (hr : s.main = .returned r) :
    match r with
    | .ok m | .unrestored m => (∃ t, taken s.trace = t ++ [some .quit] ∧ model p p.start t = some m) ∧
        visible s.trace = .drew p.start :: reference p p.start (taken s.trace)
    | .killed m => model p p.start (taken s.trace) = some m ∨
        ∃ t, taken s.trace = t ++ [some .quit] ∧ model p p.start t = some m
    | .error m => model p p.start (taken s.trace) = some m ∨
        ∃ t w h, taken s.trace = t ++ [some (.size w h)] ∧ model p p.start t = some m
    | .recovered (some m) => ∃ t, taken s.trace = t ++ [some .quit] ∧ model p p.start t = some m
    | .recovered none => True := by
  have := run_follows h
  rw [hr] at this
  obtain ⟨_, this⟩ := this
  match r with
  | .ok m => exact ⟨this.1, this.2.resolve_left (by simp)⟩
  | .unrestored m => exact ⟨this.1, this.2.resolve_left (by simp)⟩
  | .killed m => exact this
  | .error m => exact this
  | .recovered (some m) => exact this.1
  | .recovered none => trivial

open App in
example : ((run (demo none) quits).map fun s => (s.main, taken s.trace)) =
    some (.returned (.ok 1), [some (.user 4), some .quit]) := by decide +kernel

end Bento
