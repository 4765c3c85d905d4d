import Verif.Spec.Animated
import Verif.Props.App

/-!
# Lemmas about ticks on their way
-/

namespace Bento.App

section

variable {σ μ : Type} {T : Ticks μ} {p : Program σ μ} {throbber : σ → Throbber.State}

theorem count_set {α β : Type} [DecidableEq β] (f : α → List β) (x : β) (t' : α) : ∀ (l : List α) (i : Nat) (t : α),
    l[i]? = some t →
    ((l.set i t').flatMap f).count x + (f t).count x = (l.flatMap f).count x + (f t').count x
  | [], i, t, h => by simp at h
  | a :: l, 0, t, h => by
    simp only [List.getElem?_cons_zero, Option.some.injEq] at h
    subst h
    simp only [List.set_cons_zero, List.flatMap_cons, List.count_append]
    omega
  | a :: l, i + 1, t, h => by
    simp only [List.getElem?_cons_succ] at h
    have := count_set f x t' l i t h
    simp only [List.set_cons_succ, List.flatMap_cons, List.count_append]
    omega

theorem mem_set {α : Type} {P : α → Prop} {l : List α} {i : Nat} {t : α} (h : ∀ a ∈ l, P a) (ht : P t) :
    ∀ a ∈ l.set i t, P a := by
  intro a ha
  rcases List.mem_or_eq_of_mem_set ha with h' | rfl
  · exact h a h'
  · exact ht

variable (T) in
/-- A goroutine has a tick only if it calls a command or sends a tick. -/
def TickPlain (t : Thread μ) : Prop :=
  T.inThread t = [] ∨ (∃ c, t = .initCmd c) ∨ (∃ c, t = .call c) ∨ ∃ m k, t = .send (some (.user m)) ∧ T.ofMsg m = some k

theorem inCmds_cons (c : Option Cmd) (cs : List (Option Cmd)) : T.inCmds (c :: cs) = T.inCmds [c] ++ T.inCmds cs := by
  unfold Ticks.inCmds
  cases c with
  | none => simp
  | some c =>
    simp only [List.filterMap_cons, id_eq, List.filterMap_nil]
    cases T.ofCmd c <;> simp

theorem inCmds_one (c : Cmd) : T.inCmds [some c] = (T.ofCmd c).toList := by
  unfold Ticks.inCmds
  simp only [List.filterMap_cons, id_eq, List.filterMap_nil]
  cases T.ofCmd c <;> rfl

theorem inMsg_call (ha : Animated T p throbber) {c : Cmd} {k : Nat} {m : Option (Msg μ)}
    (h : p.call c k = .returns m) : T.inMsg m = (T.ofCmd c).toList ∧
      (T.inMsg m = [] ∨ ∃ m' t, m = some (.user m') ∧ T.ofMsg m' = some t) := by
  cases hc : T.ofCmd c with
  | none =>
    have := ha.others c k m hc h
    exact ⟨this, .inl this⟩
  | some t =>
    obtain ⟨m', e, ht⟩ := ha.sends c t k hc
    rw [h] at e
    cases e
    refine ⟨?_, .inr ⟨m', t, rfl, ht⟩⟩
    show (T.ofMsg m').toList = _
    rw [ht]

theorem members_set {ms : List (Member μ)} (h : ms.flatMap T.inMember = []) (j : Nat) {x : Member μ}
    (hx : T.inMember x = []) : (ms.set j x).flatMap T.inMember = [] := by
  rw [List.flatMap_eq_nil_iff] at h ⊢
  exact mem_set h hx

theorem threadStep_noTick {s s' : State σ μ} {i : Nat} {t : Thread μ} {a : ThreadChoice μ}
    (h : threadStep p s i t a = some s') : s.done = true → s'.done = true := by
  intro hd
  unfold threadStep at h
  split at h
  case h_5 =>
    split at h
    · cases h
    · rename_i hs; cases h; exact (shutdown_main hs).2.2.2.1 hd
    · rename_i hs; cases h; exact (shutdown_main hs).2.2.2.1 hd
  all_goals (repeat' split at h) <;> first | (cases h; done) | (cases h; exact hd)

theorem threadStep_ticks (ha : Animated T p throbber) {s s' : State σ μ} {i : Nat} {t : Thread μ} {a : ThreadChoice μ}
    (hp : TickPlain T t) (hin : ∀ m, a = .input m → T.ofMsg m = none) (h : threadStep p s i t a = some s') :
    s'.threads = s.threads ∨ ∃ t', s'.threads = s.threads.set i t' ∧ TickPlain T t' ∧
      (T.inThread t' = T.inThread t ∨ s.done = true ∧ T.inThread t' = []) ∧
      (t = .commands → t' = .commands ∨ s.done = true) := by
  have hgone : ∀ {b : Bool} {t' : Thread μ} {s1 : State σ μ}, T.inThread t' = [] →
      (if b then some (s1.put i t') else none) = some s' → s1.threads = s.threads → b = s.done →
      s'.threads = s.threads ∨ ∃ t', s'.threads = s.threads.set i t' ∧ TickPlain T t' ∧
      (T.inThread t' = T.inThread t ∨ s.done = true ∧ T.inThread t' = []) ∧
      (t = .commands → t' = .commands ∨ s.done = true) := by
    intro b t' s1 h1 h2 h3 h4
    subst h4
    split at h2
    · rename_i hd
      cases h2
      refine .inr ⟨t', ?_, .inl h1, .inr ⟨hd, h1⟩, fun _ => .inr hd⟩
      show s1.threads.set i t' = _
      rw [h3]
    · cases h2
  have hsame : ∀ {t' : Thread μ} {s1 : State σ μ}, TickPlain T t' → T.inThread t' = T.inThread t →
      some (s1.put i t') = some s' → s1.threads = s.threads → t ≠ .commands →
      s'.threads = s.threads ∨ ∃ t', s'.threads = s.threads.set i t' ∧ TickPlain T t' ∧
      (T.inThread t' = T.inThread t ∨ s.done = true ∧ T.inThread t' = []) ∧
      (t = .commands → t' = .commands ∨ s.done = true) := by
    intro t' s1 h1 h2 h3 h4 h5
    cases h3
    refine .inr ⟨t', ?_, h1, .inl h2, fun h => absurd h h5⟩
    show s1.threads.set i t' = _
    rw [h4]
  have hnone : ∀ {t' : Thread μ} {s1 : State σ μ}, T.inThread t' = [] → T.inThread t = [] →
      some (s1.put i t') = some s' → s1.threads = s.threads → t ≠ .commands →
      s'.threads = s.threads ∨ ∃ t', s'.threads = s.threads.set i t' ∧ TickPlain T t' ∧
      (T.inThread t' = T.inThread t ∨ s.done = true ∧ T.inThread t' = []) ∧
      (t = .commands → t' = .commands ∨ s.done = true) :=
    fun h1 h2 h3 h4 h5 => hsame (.inl h1) (h1.trans h2.symm) h3 h4 h5
  -- sequences have no ticks
  have hseq : ∀ {rest : List (Option Cmd)}, t = .seq rest → T.inCmds rest = [] := by
    rintro rest rfl
    rcases hp with h | ⟨_, h⟩ | ⟨_, h⟩ | ⟨_, _, h, _⟩
    · exact h
    all_goals cases h
  have hseqCall : ∀ {c : Cmd} {rest : List (Option Cmd)}, t = .seqCall c rest → T.ofCmd c = none ∧ T.inCmds rest = [] := by
    rintro c rest rfl
    rcases hp with h | ⟨_, h⟩ | ⟨_, h⟩ | ⟨_, _, h, _⟩
    · have h : (T.ofCmd c).toList ++ T.inCmds rest = [] := h
      rw [List.append_eq_nil_iff] at h
      refine ⟨?_, h.2⟩
      cases hc : T.ofCmd c with
      | none => rfl
      | some _ => rw [hc] at h; cases h.1
    all_goals cases h
  have hseqSend : ∀ {m : Option (Msg μ)} {rest : List (Option Cmd)}, t = .seqSend m rest → T.inMsg m = [] ∧ T.inCmds rest = [] := by
    rintro c rest rfl
    rcases hp with h | ⟨_, h⟩ | ⟨_, h⟩ | ⟨_, _, h, _⟩
    · exact List.append_eq_nil_iff.1 h
    all_goals cases h
  have hseqWait : ∀ {ms : List (Member μ)} {rest : List (Option Cmd)}, t = .seqWait ms rest →
      ms.flatMap T.inMember = [] ∧ T.inCmds rest = [] := by
    rintro c rest rfl
    rcases hp with h | ⟨_, h⟩ | ⟨_, h⟩ | ⟨_, _, h, _⟩
    · exact List.append_eq_nil_iff.1 h
    all_goals cases h
  have hread : ∀ {m : μ}, t = .readSend m → T.ofMsg m = none := by
    rintro m rfl
    rcases hp with h | ⟨_, h⟩ | ⟨_, h⟩ | ⟨_, _, h, _⟩
    · have h : (T.ofMsg m).toList = [] := h
      cases hc : T.ofMsg m with
      | none => rfl
      | some _ => rw [hc] at h; cases h
    all_goals cases h
  unfold threadStep at h
  split at h
  · exact hgone rfl h rfl rfl
  · exact hgone rfl h rfl rfl
  · -- a call
    rename_i c k
    split at h
    · rename_i m hm
      obtain ⟨h1, h2⟩ := inMsg_call ha hm
      exact hsame (t' := .send m) (h2.imp id fun ⟨m', k, e, ht⟩ => .inr (.inr ⟨m', k, by rw [e], ht⟩)) h1 h rfl (by simp)
    · rename_i hm
      have hc : T.ofCmd c = none := by
        cases hc : T.ofCmd c with
        | none => rfl
        | some t =>
          obtain ⟨_, e, _⟩ := ha.sends c t k hc
          rw [hm] at e
          cases e
      exact hnone rfl (by show (T.ofCmd c).toList = []; rw [hc]; rfl) h rfl (by simp)
  · exact hgone rfl h rfl rfl
  · -- shutdown
    split at h
    · cases h
    · rename_i hs
      exact hnone rfl rfl h (shutdown_main hs).2.1 (by simp)
    · rename_i hs
      exact hnone rfl rfl h (shutdown_main hs).2.1 (by simp)
  · exact hnone rfl rfl h rfl (by simp)
  · rename_i rest _
    have := hseq rfl
    rw [inCmds_cons, List.append_eq_nil_iff] at this
    exact hnone (t' := .seq rest) this.2 (hseq rfl) h rfl (by simp)
  · rename_i c rest _
    have h1 := hseq rfl
    have h2 := h1
    rw [inCmds_cons, inCmds_one] at h2
    exact hnone (t' := .seqCall c rest) h2 h1 h rfl (by simp)
  · rename_i c rest k
    obtain ⟨h1, h2⟩ := hseqCall rfl
    have h0 : T.inThread (.seqCall c rest) = [] := by
      show (T.ofCmd c).toList ++ T.inCmds rest = []
      rw [h1, h2]
      rfl
    split at h
    · rename_i cmds hm
      have := ha.others c k _ h1 hm
      refine hnone ?_ h0 h rfl (by simp)
      show (cmds.map Member.call).flatMap T.inMember ++ T.inCmds rest = []
      rw [h2, List.append_nil, List.flatMap_eq_nil_iff]
      intro x hx
      obtain ⟨c', hc', rfl⟩ := List.mem_map.1 hx
      show T.inCmds [c'] = []
      have hcm : T.inCmds cmds = [] := this
      unfold Ticks.inCmds at hcm ⊢
      rw [List.filterMap_eq_nil_iff] at hcm ⊢
      intro y hy
      refine hcm y ?_
      rw [List.mem_filterMap] at hy ⊢
      obtain ⟨z, hz, e⟩ := hy
      exact ⟨z, (by rw [List.mem_singleton] at hz; rw [hz]; exact hc'), e⟩
    · rename_i m _ hm
      have := ha.others c k _ h1 hm
      refine hnone ?_ h0 h rfl (by simp)
      show T.inMsg m ++ T.inCmds rest = []
      rw [this, h2]
      rfl
    · cases h
      exact .inl rfl
  · rename_i m rest
    obtain ⟨_, h2⟩ := hseqSend rfl
    exact hgone (t' := .seq rest) h2 h rfl rfl
  · rename_i ms rest j k
    obtain ⟨h1, h2⟩ := hseqWait rfl
    have h0 : T.inThread (.seqWait ms rest) = [] := by
      show ms.flatMap T.inMember ++ T.inCmds rest = []
      rw [h1, h2]
      rfl
    split at h
    · rename_i c hj
      split at h
      · rename_i m hm
        refine hnone ?_ h0 h rfl (by simp)
        show (ms.set j _).flatMap T.inMember ++ T.inCmds rest = []
        rw [h2, List.append_nil]
        refine members_set h1 j ?_
        show T.inMsg m = []
        have hc : T.inCmds [some c] = [] := (List.flatMap_eq_nil_iff.1 h1) _ (List.mem_of_getElem? hj)
        rw [inCmds_one] at hc
        rw [(inMsg_call ha hm).1, hc]
      · cases h
        exact .inl rfl
    · cases h
      exact .inl rfl
    · cases h
  · rename_i ms rest j
    obtain ⟨h1, h2⟩ := hseqWait rfl
    split at h
    · refine hgone ?_ h rfl rfl
      show (ms.set j _).flatMap T.inMember ++ T.inCmds rest = []
      rw [h2, List.append_nil]
      exact members_set h1 j rfl
    · cases h
  · rename_i ms rest k
    obtain ⟨h1, h2⟩ := hseqWait rfl
    split at h
    · refine hnone (t' := .seq rest) h2 ?_ h rfl (by simp)
      show ms.flatMap T.inMember ++ T.inCmds rest = []
      rw [h1, h2]
      rfl
    · cases h
  · rename_i m
    refine hnone ?_ rfl h rfl (by simp)
    show (T.ofMsg m).toList = []
    rw [hin m rfl]
    rfl
  · exact hnone rfl rfl h rfl (by simp)
  · exact hnone rfl rfl h rfl (by simp)
  · exact hgone rfl h rfl rfl
  · exact hgone rfl h rfl rfl
  · exact hnone rfl rfl h rfl (by simp)
  · refine hnone ?_ rfl h rfl (by simp)
    unfold afterSize
    split <;> rfl
  · exact hgone rfl h rfl rfl
  · refine hgone ?_ h rfl rfl
    unfold afterSize
    split <;> rfl
  · cases h

/-- Nothing has happened yet. -/
def TickEarly : Main σ → Prop
  | .raw | .cursor | .alt | .model => True
  | _ => False

/-- The event loop runs. -/
def Looping : Main σ → Prop
  | .select _ | .command _ _ | .draw _ => True
  | _ => False

variable (T p throbber) in
/-- The throbber of a model, and its tick. -/
structure Ticking (s : State σ μ) (m : σ) : Prop where
  id : (throbber m).id = (throbber p.start).id
  tag : (throbber m).tag = (throbber m).frame
  frame : (throbber m).frame = T.taken s.trace
  way : (∀ x, (T.onTheWay s).count x = if x = (throbber m).tick then 1 else 0) ∨
    (s.done = true ∧ ∀ x, (T.onTheWay s).count x = 0)

variable (T p throbber) in
structure TickInv (s : State σ μ) : Prop where
  plain : ∀ t ∈ s.threads, TickPlain T t
  early : TickEarly s.main → s.threads = [] ∧ App.taken s.trace = []
  later : ∀ m, p.model? s.main = some m → Ticking T p throbber s m
  ready : Looping s.main → .commands ∈ s.threads ∨ s.done = true

theorem taken_eq {s s' : State σ μ} (h : App.taken s'.trace = App.taken s.trace) :
    T.taken s'.trace = T.taken s.trace := by
  unfold Ticks.taken
  rw [h]

/-- A step in which no tick moves to another place than the next one. -/
theorem Ticking.move {s s' : State σ μ} {m : σ} (h : Ticking T p throbber s m)
    (hk : App.taken s'.trace = App.taken s.trace) (hd : s.done = true → s'.done = true)
    (hc : (∀ x, (T.onTheWay s').count x = (T.onTheWay s).count x) ∨
      (s.done = true ∧ ∀ x, (T.onTheWay s').count x ≤ (T.onTheWay s).count x)) : Ticking T p throbber s' m := by
  have hframe : (throbber m).frame = T.taken s'.trace := by rw [taken_eq hk]; exact h.frame
  refine ⟨h.id, h.tag, hframe, ?_⟩
  rcases hc with hc | ⟨hdone, hc⟩
  · rcases h.way with hw | ⟨hw1, hw2⟩
    · exact .inl fun x => by rw [hc, hw]
    · exact .inr ⟨hd hw1, fun x => by rw [hc, hw2]⟩
  · rcases h.way with hw | ⟨hw1, hw2⟩
    · by_cases h1 : (T.onTheWay s').count (throbber m).tick = 1
      · refine .inl fun x => ?_
        by_cases hx : x = (throbber m).tick
        · rw [if_pos hx, hx]
          exact h1
        · rw [if_neg hx]
          have := hc x
          rw [hw, if_neg hx] at this
          omega
      · refine .inr ⟨hd hdone, fun x => ?_⟩
        have := hc x
        rw [hw] at this
        by_cases hx : x = (throbber m).tick
        · rw [if_pos hx] at this
          subst hx
          omega
        · rw [if_neg hx] at this
          omega
    · refine .inr ⟨hd hw1, fun x => ?_⟩
      have := hc x
      rw [hw2] at this
      omega

theorem TickInv.quiet {s s' : State σ μ} (h : TickInv T p throbber s) (ht : s'.threads = s.threads)
    (hk : App.taken s'.trace = App.taken s.trace) (hd : s.done = true → s'.done = true)
    (hm : ∀ m, p.model? s'.main = some m → p.model? s.main = some m ∧ T.inMain s'.main = T.inMain s.main)
    (he : TickEarly s'.main → TickEarly s.main) (hl : Looping s'.main → Looping s.main) : TickInv T p throbber s' := by
  refine ⟨by rw [ht]; exact h.plain, fun e => ?_, fun m e => ?_, fun e => ?_⟩
  · rw [ht, hk]
    exact h.early (he e)
  · obtain ⟨h1, h2⟩ := hm m e
    refine (h.later m h1).move hk hd (.inl fun x => ?_)
    unfold Ticks.onTheWay
    rw [ht, h2]
  · rw [ht]
    exact (h.ready (hl e)).imp id hd

theorem TickInv.thread (ha : Animated T p throbber) {s s' : State σ μ} (h : TickInv T p throbber s) {i : Nat} {t : Thread μ}
    {a : ThreadChoice μ} (hi : s.threads[i]? = some t) (hin : ∀ m, a = .input m → T.ofMsg m = none)
    (hs : threadStep p s i t a = some s') : TickInv T p throbber s' := by
  obtain ⟨q1, _, q3⟩ := threadStep_quiet hs
  have hd := threadStep_noTick hs
  rcases threadStep_ticks ha (h.plain t (List.mem_of_getElem? hi)) hin hs with ht | ⟨t', ht, hp, hk, hcm⟩
  · exact h.quiet ht q3 hd (fun m e => ⟨by rw [← q1]; exact e, by rw [q1]⟩) (by rw [q1]; exact id) (by rw [q1]; exact id)
  · refine ⟨by rw [ht]; exact mem_set h.plain hp, fun e => ?_, fun m e => ?_, fun e => ?_⟩
    · rw [q1] at e
      rw [(h.early e).1] at hi
      simp at hi
    · rw [q1] at e
      have hcount : ∀ x, (T.onTheWay s').count x + (T.inThread t).count x =
          (T.onTheWay s).count x + (T.inThread t').count x := by
        intro x
        have := count_set T.inThread x t' s.threads i t hi
        unfold Ticks.onTheWay
        rw [ht, q1]
        simp only [List.count_append]
        omega
      refine (h.later m e).move q3 hd ?_
      rcases hk with hk | ⟨hdone, hk⟩
      · refine .inl fun x => ?_
        have := hcount x
        rw [hk] at this
        omega
      · refine .inr ⟨hdone, fun x => ?_⟩
        have := hcount x
        rw [hk] at this
        simp only [List.count_nil] at this
        omega
    · rw [q1] at e
      rcases h.ready e with hr | hr
      · by_cases hdone : s.done = true
        · exact .inr (hd hdone)
        · refine .inl ?_
          rw [ht]
          obtain ⟨j, hj⟩ := List.getElem?_of_mem hr
          by_cases hij : i = j
          · subst hij
            rw [hi] at hj
            cases hj
            rcases hcm rfl with hc | hc
            · rw [hc]
              exact List.mem_of_getElem? (List.getElem?_set_self (List.getElem?_eq_some_iff.1 hi).1)
            · exact absurd hc hdone
          · exact List.mem_of_getElem? (by rw [List.getElem?_set_ne hij]; exact hj)
      · exact .inr (hd hr)

theorem flatMap_spawn {ts us : List (Thread μ)} (h : ∀ t ∈ us, T.inThread t = []) :
    (ts ++ us).flatMap T.inThread = ts.flatMap T.inThread := by
  rw [List.flatMap_append, List.flatMap_eq_nil_iff.2 h, List.append_nil]

/-- New goroutines without ticks. -/
theorem TickInv.spawn {s s' : State σ μ} (h : TickInv T p throbber s) (us : List (Thread μ)) (hu : ∀ t ∈ us, T.inThread t = [])
    (ht : s'.threads = s.threads ++ us) (hk : App.taken s'.trace = App.taken s.trace)
    (hd : s.done = true → s'.done = true)
    (hm : ∀ m, p.model? s'.main = some m → p.model? s.main = some m ∧ T.inMain s'.main = T.inMain s.main)
    (he : ¬ TickEarly s'.main) (hl : Looping s'.main → Looping s.main ∨ .commands ∈ us) : TickInv T p throbber s' := by
  refine ⟨?_, fun e => absurd e he, fun m e => ?_, fun e => ?_⟩
  · rw [ht]
    intro t hmem
    rcases List.mem_append.1 hmem with h' | h'
    · exact h.plain t h'
    · exact .inl (hu t h')
  · obtain ⟨h1, h2⟩ := hm m e
    refine (h.later m h1).move hk hd (.inl fun x => ?_)
    unfold Ticks.onTheWay
    rw [ht, h2, flatMap_spawn hu]
  · rw [ht]
    rcases hl e with h' | h'
    · exact (h.ready h').imp (fun h => List.mem_append_left _ h) hd
    · exact .inl (List.mem_append_right _ h')

theorem TickInv.drawn {s : State σ μ} (h : TickInv T p throbber s) (m : σ) (d : Drawn) (next : Main σ) (r : Option σ)
    (hm : ∀ m, p.model? next = some m → p.model? s.main = some m) (hn : T.inMain next = []) (hs : T.inMain s.main = [])
    (he : ¬ TickEarly next) (hl : Looping next → Looping s.main) : TickInv T p throbber (drawn s m d next r) := by
  unfold App.drawn
  cases d with
  | ok hidden =>
    refine h.quiet rfl ?_ id (fun m' e => ⟨hm m' e, hn.trans hs.symm⟩) (fun e => absurd e he) hl
    show App.taken (s.trace ++ [.drew m]) = _
    rw [taken_append]
    simp [App.taken]
  | error => exact h.quiet rfl rfl id (fun m' e => by cases e) (fun e => e.elim) (fun e => e.elim)
  | panics => exact h.quiet rfl rfl id (fun m' e => by cases e) (fun e => e.elim) (fun e => e.elim)

theorem TickInv.mainStep (ha : Animated T p throbber) {s s' : State σ μ} (h : TickInv T p throbber s) {a : MainChoice}
    (hs : mainStep p s a = some s') : TickInv T p throbber s' := by
  have hend : ∀ {r : Main σ}, (∀ m, p.model? r ≠ some m) → ¬ TickEarly r → ¬ Looping r → TickInv T p throbber (s.at r) :=
    fun h1 h2 h3 => h.quiet rfl rfl id (fun m e => absurd e (h1 m)) (fun e => absurd e h2) (fun e => absurd e h3)
  have hstop : ∀ {r : Main σ}, (∀ m, p.model? r ≠ some m) → ¬ TickEarly r → ¬ Looping r → some (s.at r) = some s' →
      TickInv T p throbber s' := by
    intro r h1 h2 h3 e
    cases e
    exact hend h1 h2 h3
  unfold App.mainStep at hs
  split at hs
  · rename_i hm
    cases hs
    exact h.quiet rfl rfl id (fun m e => by cases e) (fun _ => by rw [hm]; trivial) (fun e => e.elim)
  · exact hstop (fun m e => by cases e) id id hs
  · rename_i hm
    cases hs
    exact h.quiet rfl rfl id (fun m e => by cases e) (fun _ => by rw [hm]; trivial) (fun e => e.elim)
  · exact hstop (fun m e => by cases e) id id hs
  · rename_i hm
    cases hs
    exact h.quiet rfl rfl id (fun m e => by cases e) (fun _ => by rw [hm]; trivial) (fun e => e.elim)
  · exact hstop (fun m e => by cases e) id id hs
  · -- Init
    rename_i hm
    obtain ⟨c, hc, ht⟩ := ha.init
    rw [hc] at hs
    cases hs
    obtain ⟨h1, h2⟩ := h.early (by rw [hm]; trivial)
    refine ⟨?_, fun e => e.elim, ?_, fun e => e.elim⟩
    · intro t hmem
      have hmem : t ∈ s.threads ++ [.initCmd c] := hmem
      rw [h1] at hmem
      obtain rfl : t = .initCmd c := by simpa using hmem
      exact .inr (.inl ⟨c, rfl⟩)
    · intro m e
      obtain rfl : p.start = m := by simpa [State.at, State.spawn, Program.model?] using e
      obtain ⟨n1, n2, _⟩ := ha.new
      refine ⟨rfl, by rw [n1, n2], ?_, .inl fun x => ?_⟩
      · rw [n1]
        show (0 : Int) = ((T.taken s.trace : Nat) : Int)
        unfold Ticks.taken
        rw [h2]
        rfl
      · show (([] : List Throbber.Tick) ++ (s.threads ++ [Thread.initCmd c]).flatMap T.inThread).count x = _
        rw [h1]
        show ((T.ofCmd c).toList ++ []).count x = _
        rw [ht]
        simp only [Option.toList_some, List.append_nil, List.count_singleton]
        by_cases hx : x = (throbber p.start).tick
        · simp [hx]
        · rw [if_neg hx]
          rw [if_neg]
          simp only [beq_iff_eq]
          exact fun e => hx e.symm
  · rename_i hm
    cases hs
    exact h.drawn _ _ _ _ (fun m e => by rw [hm]; exact e) rfl (by rw [hm]; rfl) id (fun e => e.elim)
  · rename_i hm
    cases hs
    refine h.spawn [.reading] (by simp [Ticks.inThread]) rfl rfl id (fun m e => ⟨by rw [hm]; exact e, by rw [hm]; rfl⟩) id
      (fun e => e.elim)
  · exact hstop (fun m e => by cases e) id id hs
  · rename_i hm
    cases hs
    refine h.spawn [.size false, .size true] (by simp [Ticks.inThread]) rfl rfl id
      (fun m e => ⟨by rw [hm]; exact e, by rw [hm]; rfl⟩) id (fun e => e.elim)
  · rename_i hm
    cases hs
    refine h.spawn [.commands] (by simp [Ticks.inThread]) rfl rfl id (fun m e => ⟨by rw [hm]; exact e, by rw [hm]; rfl⟩) id
      (fun _ => .inr (by simp))
  · split at hs
    · exact hstop (fun m e => by cases e) id id hs
    · cases hs
  · rename_i m _ hm
    cases hs
    exact h.drawn _ _ _ _ (fun m e => by rw [hm]; exact e) rfl (by rw [hm]; rfl) id (fun _ => by rw [hm]; trivial)
  · rename_i m _ hm
    split at hs
    · exact hstop (fun m e => by cases e) id id hs
    · cases hs
      exact h.quiet rfl rfl id (fun m e => ⟨by rw [hm]; exact e, by rw [hm]; rfl⟩) (fun e => e.elim) (fun e => e.elim)
  · rename_i m _ hm
    cases hs
    exact h.drawn _ _ _ _ (fun m e => by cases e) rfl (by rw [hm]; rfl) id (fun e => e.elim)
  · split at hs
    · cases hs
    · rename_i hsh
      cases hs
      obtain ⟨_, k2, _, k4, es, k5, _, k6, _⟩ := shutdown_main hsh
      exact h.quiet k2 ((congrArg App.taken k5).trans (by rw [taken_append, k6, List.append_nil])) k4 (fun m e => by cases e)
        (fun e => e.elim) (fun e => e.elim)
    · rename_i hsh
      cases hs
      obtain ⟨_, k2, _, k4, es, k5, _, k6, _⟩ := shutdown_main hsh
      exact h.quiet k2 ((congrArg App.taken k5).trans (by rw [taken_append, k6, List.append_nil])) k4 (fun m e => by cases e)
        (fun e => e.elim) (fun e => e.elim)
    · rename_i hsh
      obtain ⟨_, k2, _, k4, es, k5, _, k6, _⟩ := shutdown_main hsh
      split at hs <;> cases hs <;>
      exact h.quiet k2 ((congrArg App.taken k5).trans (by rw [taken_append, k6, List.append_nil])) k4 (fun m e => by cases e)
        (fun e => e.elim) (fun e => e.elim)
  · cases hs

/-- What a goroutine offers. -/
theorem offer_ticks {t t' : Thread μ} {j : Nat} {m : Option (Msg μ)} {k : Option Nat} (hp : TickPlain T t)
    (h : offer t j = some (m, k, t')) : T.inThread t' = [] ∧ T.inThread t = T.inMsg m ∧
      (T.inMsg m = [] ∨ ∃ m' tk, m = some (.user m') ∧ T.ofMsg m' = some tk) ∧ t ≠ .commands := by
  unfold offer at h
  split at h
  · cases h
    refine ⟨rfl, rfl, ?_, by simp⟩
    rcases hp with h | ⟨_, h⟩ | ⟨_, h⟩ | ⟨m', tk, h, ht⟩
    · exact .inl h
    · cases h
    · cases h
    · cases h
      exact .inr ⟨m', tk, rfl, ht⟩
  · cases h
    rcases hp with h | ⟨_, h⟩ | ⟨_, h⟩ | ⟨_, _, h, _⟩
    · obtain ⟨h1, h2⟩ := List.append_eq_nil_iff.1 h
      exact ⟨h2, h.trans h1.symm, .inl h1, by simp⟩
    all_goals cases h
  · split at h
    · rename_i ms rest _ m' hj
      cases h
      rcases hp with h | ⟨_, h⟩ | ⟨_, h⟩ | ⟨_, _, h, _⟩
      · obtain ⟨h1, h2⟩ := List.append_eq_nil_iff.1 h
        have hm : T.inMsg m = [] := (List.flatMap_eq_nil_iff.1 h1) _ (List.mem_of_getElem? hj)
        refine ⟨?_, h.trans hm.symm, .inl hm, by simp⟩
        show (ms.set j _).flatMap T.inMember ++ T.inCmds rest = []
        rw [h2, members_set h1 j rfl]
        rfl
      all_goals cases h
    · cases h
  · rename_i m'
    cases h
    rcases hp with h | ⟨_, h⟩ | ⟨_, h⟩ | ⟨_, _, h, _⟩
    · exact ⟨rfl, rfl, .inl h, by simp⟩
    all_goals cases h
  · cases h
    refine ⟨?_, rfl, .inl rfl, by simp⟩
    unfold afterSize
    split <;> rfl
  · cases h

theorem tick_accepted (th : Throbber.State) : th.tryUpdate th.tick =
    some ({ th with frame := th.frame + 1, tag := th.tag + 1 }, ⟨th.tag + 1, th.id⟩) := by
  unfold Throbber.State.tryUpdate Throbber.State.tick
  simp

/-- `Update` with a message without a tick. -/
theorem TickInv.update (ha : Animated T p throbber) {s : State σ μ} {md : σ} {g : Msg μ} (hmain : s.main = .select md)
    (h : TickInv T p throbber s) (hg : T.inMsg (some g) = []) : TickInv T p throbber (update p s md g) := by
  unfold App.update
  cases hu : p.update md g with
  | none => exact h.quiet rfl rfl id (fun m e => by cases e) (fun e => e.elim) (fun e => e.elim)
  | some r =>
    obtain ⟨md', c⟩ := r
    obtain ⟨r1, r2⟩ := ha.rest md g md' c hu (by
      intro m t e ht
      subst e
      have : (T.ofMsg m).toList = [] := hg
      rw [ht] at this
      cases this)
    have hl := h.later md (by rw [hmain]; rfl)
    have htk : App.taken (s.trace ++ [.updated g c]) = App.taken s.trace := by
      rw [taken_append]
      simp [App.taken]
    refine ⟨h.plain, fun e => e.elim, ?_, fun _ => h.ready (by rw [hmain]; trivial)⟩
    intro m e
    obtain rfl : md' = m := by simpa [State.at, State.log, Program.model?] using e
    have hmv : Ticking T p throbber ((s.log [.updated g c]).at (.command md' c)) md := by
      refine hl.move htk id (.inl fun x => ?_)
      unfold Ticks.onTheWay
      rw [hmain]
      show (T.inCmds [c] ++ s.threads.flatMap T.inThread).count x = _
      rw [r2]
      rfl
    exact ⟨by rw [r1]; exact hmv.id, by rw [r1]; exact hmv.tag, by rw [r1]; exact hmv.frame, by rw [r1]; exact hmv.way⟩

theorem taken_deliver (s : State σ μ) (i : Nat) (k : Option Nat) (m : Option (Msg μ)) :
    T.taken (s.trace ++ [.delivered i k m]) = T.taken s.trace + if T.inMsg m = [] then 0 else 1 := by
  unfold Ticks.taken
  rw [taken_append, List.countP_append]
  congr 1
  show List.countP _ [m] = _
  rw [List.countP_singleton]
  cases hm : T.inMsg m <;> simp

/-- The event loop takes a message. -/
theorem TickInv.message (ha : Animated T p throbber) {s : State σ μ} {md : σ} {i j : Nat} {t t' : Thread μ}
    {m : Option (Msg μ)} {k : Option Nat} {ok : Bool} (h : TickInv T p throbber s) (hmain : s.main = .select md)
    (hi : s.threads[i]? = some t) (ho : offer t j = some (m, k, t')) :
    TickInv T p throbber (receive p ((s.log [.delivered i k m]).put i t') md m ok) := by
  obtain ⟨o1, o2, o3, o4⟩ := offer_ticks (h.plain t (List.mem_of_getElem? hi)) ho
  have hl := h.later md (by rw [hmain]; rfl)
  have hset : ∀ x, ((s.threads.set i t').flatMap T.inThread).count x + (T.inMsg m).count x =
      (s.threads.flatMap T.inThread).count x := by
    intro x
    have := count_set T.inThread x t' s.threads i t hi
    rw [o1, o2] at this
    simpa using this
  have hway : ∀ x, (T.onTheWay s).count x = (s.threads.flatMap T.inThread).count x := by
    intro x
    unfold Ticks.onTheWay
    rw [hmain]
    rfl
  have hready : .commands ∈ s.threads.set i t' ∨ s.done = true := by
    rcases h.ready (by rw [hmain]; trivial) with hr | hr
    · left
      obtain ⟨n, hn⟩ := List.getElem?_of_mem hr
      refine List.mem_of_getElem? (i := n) ?_
      rw [List.getElem?_set_ne ?_]
      · exact hn
      · rintro rfl
        rw [hi] at hn
        cases hn
        exact o4 rfl
    · exact .inr hr
  by_cases hno : T.inMsg m = []
  · -- no tick
    have h1 : TickInv T p throbber ((s.log [.delivered i k m]).put i t') := by
      refine ⟨mem_set h.plain (.inl o1), fun e => ?_, fun m' e => ?_, fun _ => hready⟩
      · have e : TickEarly s.main := e
        rw [hmain] at e
        exact e.elim
      · have e : p.model? s.main = some m' := e
        rw [hmain] at e
        obtain rfl : md = m' := by simpa [Program.model?] using e
        have hcnt : ∀ x, (T.onTheWay ((s.log [.delivered i k m]).put i t')).count x = (T.onTheWay s).count x := by
          intro x
          have := hset x
          rw [hno] at this
          rw [hway]
          unfold Ticks.onTheWay
          show (T.inMain s.main ++ (s.threads.set i t').flatMap T.inThread).count x = _
          rw [hmain]
          show (([] : List Throbber.Tick) ++ (s.threads.set i t').flatMap T.inThread).count x = _
          simpa using this
        refine ⟨hl.id, hl.tag, ?_, ?_⟩
        · show _ = ((T.taken (s.trace ++ [.delivered i k m]) : Nat) : Int)
          rw [taken_deliver, if_pos hno]
          exact hl.frame
        · rcases hl.way with hw | ⟨hw1, hw2⟩
          · exact .inl fun x => by rw [hcnt, hw]
          · exact .inr ⟨hw1, fun x => by rw [hcnt, hw2]⟩
    unfold receive
    split
    · exact h1
    · refine h1.quiet rfl rfl id (fun m' e => ?_) (fun e => e.elim) (fun e => e.elim)
      refine ⟨?_, ?_⟩
      · show p.model? s.main = _
        rw [hmain]
        exact e
      · show _ = T.inMain s.main
        rw [hmain]
        rfl
    · split
      · exact h1.update ha hmain hno
      · exact h1.quiet rfl rfl id (fun m e => by cases e) (fun e => e.elim) (fun e => e.elim)
    · rename_i cmds
      refine TickInv.update ha (by show s.main = _; exact hmain) ?_ hno
      refine h1.spawn [.seq cmds] ?_ rfl ?_ id (fun m' e => ⟨e, rfl⟩) ?_ (fun e => .inl e)
      · intro t ht
        obtain rfl : t = .seq cmds := by simpa using ht
        exact hno
      · show App.taken ((s.trace ++ [.delivered i k (some (.sequence cmds))]) ++ [.spawned _ cmds]) =
          App.taken (s.trace ++ [.delivered i k (some (.sequence cmds))])
        rw [taken_append _ [.spawned _ cmds]]
        simp [App.taken]
      · show ¬ TickEarly s.main
        rw [hmain]
        exact id
    · exact h1.update ha hmain hno
  · -- a tick
    obtain ⟨m', tk, rfl, htk⟩ : ∃ m' tk, m = some (.user m') ∧ T.ofMsg m' = some tk := o3.resolve_left hno
    have hin : T.inMsg (some (.user m')) = [tk] := by
      show (T.ofMsg m').toList = _
      rw [htk]
      rfl
    have hone : tk = (throbber md).tick ∧ ∀ x, ((s.threads.set i t').flatMap T.inThread).count x = 0 := by
      rcases hl.way with hw | ⟨_, hw2⟩
      · have heq : tk = (throbber md).tick := by
          by_contra hne
          have h1 := hset tk
          rw [hin, ← hway, hw, if_neg hne] at h1
          simp at h1
        refine ⟨heq, fun x => ?_⟩
        have h1 := hset x
        rw [hin, ← hway, hw, List.count_singleton, ← heq] at h1
        by_cases hx : x = tk
        · simp only [hx, beq_self_eq_true, if_true] at h1
          rw [hx]
          omega
        · rw [if_neg hx] at h1
          omega
      · have h1 := hset tk
        rw [hin, ← hway, hw2] at h1
        simp at h1
    obtain ⟨heq, hzero⟩ := hone
    have hacc := tick_accepted (throbber md)
    rw [← heq] at hacc
    obtain ⟨md', c, hu, hth, hc⟩ := ha.accepts md m' tk _ _ hl.id (by rw [hl.tag, hl.frame]; omega) htk hacc
    unfold receive
    simp only
    unfold App.update
    rw [hu]
    simp only
    refine ⟨mem_set h.plain (.inl o1), fun e => e.elim, fun m'' e => ?_, fun _ => hready⟩
    obtain rfl : md' = m'' := by simpa [State.at, State.log, Program.model?] using e
    refine ⟨by rw [hth]; exact hl.id, by rw [hth]; show _ + 1 = _ + 1; rw [hl.tag], ?_, .inl fun x => ?_⟩
    · rw [hth]
      show (throbber md).frame + 1 = ((T.taken ((s.trace ++ [.delivered i k (some (.user m'))]) ++
        [.updated (.user m') (some c)]) : Nat) : Int)
      have hq : T.taken ((s.trace ++ [.delivered i k (some (.user m'))]) ++ [.updated (.user m') (some c)]) =
          T.taken (s.trace ++ [.delivered i k (some (.user m'))]) := by
        unfold Ticks.taken
        rw [taken_append _ [.updated (.user m') (some c)]]
        simp [App.taken]
      rw [hq, taken_deliver, if_neg hno, hl.frame]
      omega
    · show (T.inCmds [some c] ++ (s.threads.set i t').flatMap T.inThread).count x = _
      rw [List.count_append, hzero, inCmds_one, hc, hth]
      show ([_] : List Throbber.Tick).count x + 0 = _
      rw [List.count_singleton]
      unfold Throbber.State.tick
      simp only [Nat.add_zero, beq_iff_eq]
      by_cases hx : x = ⟨(throbber md).tag + 1, (throbber md).id⟩
      · rw [if_pos hx, if_pos hx.symm]
      · rw [if_neg hx, if_neg fun e => hx e.symm]

theorem accept_inv {s : State σ μ} {md : σ} {c : Option Cmd} (h : TickInv T p throbber s)
    (hmain : s.main = .command md c) : TickInv T p throbber ((accept s c).at (.draw md)) := by
  have hl := h.later md (by rw [hmain]; rfl)
  have hr := h.ready (by rw [hmain]; trivial)
  cases c with
  | none =>
    refine h.quiet rfl rfl id (fun m e => ⟨by rw [hmain]; exact e, by rw [hmain]; rfl⟩) (fun e => e.elim)
      (fun _ => by rw [hmain]; trivial)
  | some c =>
    refine ⟨?_, fun e => e.elim, fun m e => ?_, fun _ => hr.imp (fun h => List.mem_append_left _ h) id⟩
    · intro t ht
      have ht : t ∈ s.threads ++ [.call c] := ht
      rcases List.mem_append.1 ht with h' | h'
      · exact h.plain t h'
      · obtain rfl : t = .call c := by simpa using h'
        exact .inr (.inr (.inl ⟨c, rfl⟩))
    · obtain rfl : md = m := by simpa [State.at, Program.model?] using e
      refine hl.move ?_ id (.inl fun x => ?_)
      · show App.taken (s.trace ++ [.started s.threads.length none (some c)]) = _
        rw [taken_append]
        simp [App.taken]
      · unfold Ticks.onTheWay
        rw [hmain]
        show (([] : List Throbber.Tick) ++ (s.threads ++ [Thread.call c]).flatMap T.inThread).count x =
          (T.inCmds [some c] ++ s.threads.flatMap T.inThread).count x
        rw [inCmds_one, List.flatMap_append]
        have : [Thread.call c].flatMap T.inThread = (T.ofCmd c).toList := by
          rw [List.flatMap_singleton]
          rfl
        rw [this]
        simp only [List.nil_append, List.count_append]
        omega

theorem fromInit_inv {s : State σ μ} {i j : Nat} {c : Cmd} (h : TickInv T p throbber s)
    (hi : s.threads[i]? = some (.initCmd c)) (hj : s.threads[j]? = some .commands) :
    TickInv T p throbber (accept (s.put i .finished) (some c)) := by
  have hmem : .commands ∈ s.threads.set i .finished := by
    refine List.mem_of_getElem? (i := j) ?_
    rw [List.getElem?_set_ne ?_]
    · exact hj
    · rintro rfl
      rw [hi] at hj
      cases hj
  refine ⟨?_, fun e => ?_, fun m e => ?_, fun _ => .inl (List.mem_append_left _ hmem)⟩
  · intro t ht
    have ht : t ∈ s.threads.set i .finished ++ [.call c] := ht
    rcases List.mem_append.1 ht with h' | h'
    · exact mem_set h.plain (.inl rfl) t h'
    · obtain rfl : t = .call c := by simpa using h'
      exact .inr (.inr (.inl ⟨c, rfl⟩))
  · have e : TickEarly s.main := e
    rw [(h.early e).1] at hi
    simp at hi
  · have e : p.model? s.main = some m := e
    refine (h.later m e).move ?_ id (.inl fun x => ?_)
    · show App.taken (s.trace ++ [.started _ none (some c)]) = _
      rw [taken_append]
      simp [App.taken]
    · have := count_set T.inThread x .finished s.threads i _ hi
      unfold Ticks.onTheWay
      show (T.inMain s.main ++ (s.threads.set i .finished ++ [Thread.call c]).flatMap T.inThread).count x = _
      rw [List.flatMap_append]
      have h2 : [Thread.call c].flatMap T.inThread = T.inThread (.initCmd c) := by
        rw [List.flatMap_singleton]
        rfl
      rw [h2]
      simp only [List.count_append]
      have h3 : (T.inThread (.finished : Thread μ)).count x = 0 := rfl
      omega

theorem step_inv (ha : Animated T p throbber) {s s' : State σ μ} {c : Choice μ} (h : TickInv T p throbber s)
    (hin : ∀ i m, c = .thread i (.input m) → T.ofMsg m = none) (hs : step p s c = some s') : TickInv T p throbber s' := by
  unfold step at hs
  split at hs
  · cases hs
  split at hs
  · cases hs
    refine h.quiet rfl ?_ (fun _ => rfl) (fun m e => ⟨e, rfl⟩) id id
    show App.taken (s.trace ++ [.cancelled]) = _
    rw [taken_append]
    simp [App.taken]
  · exact h.mainStep ha hs
  · rename_i i a
    split at hs
    · cases hs
    · rename_i t hi
      exact h.thread ha hi (fun m e => hin i m (by rw [e])) hs
  · split at hs
    · rename_i md t hmain hi
      split at hs
      · cases hs
      · rename_i m member t' ho
        cases hs
        exact h.message ha hmain hi ho
    · cases hs
  · split at hs
    · cases hs
      rename_i md hmain hi
      refine ⟨mem_set h.plain (.inl rfl), fun e => e.elim, fun m e => (by cases e), fun e => e.elim⟩
    · cases hs
  · split at hs
    · cases hs
      rename_i md c hmain hj
      exact accept_inv h hmain
    · cases hs
  · split at hs
    · cases hs
      rename_i c hi hj
      exact fromInit_inv h hi hj
    · cases hs

theorem runFrom_inv (ha : Animated T p throbber) : ∀ (cs : List (Choice μ)) (s s' : State σ μ), T.NotTyped cs →
    TickInv T p throbber s → runFrom p s cs = some s' → TickInv T p throbber s'
  | [], s, s', _, h, hs => by
    simp only [runFrom, Option.some.injEq] at hs
    rw [← hs]
    exact h
  | c :: cs, s, s', hin, h, hs => by
    unfold runFrom at hs
    split at hs
    · cases hs
    · rename_i s1 h1
      refine runFrom_inv ha cs s1 s' (fun i m hm => hin i m (List.mem_cons_of_mem _ hm)) ?_ hs
      exact step_inv ha h (fun i m e => hin i m (by rw [e]; exact List.mem_cons_self ..)) h1

theorem run_inv (ha : Animated T p throbber) {cs : List (Choice μ)} (hin : T.NotTyped cs) {s : State σ μ}
    (hs : run p cs = some s) : TickInv T p throbber s := by
  refine runFrom_inv ha cs _ s hin ⟨?_, fun _ => ⟨rfl, rfl⟩, fun m e => (by cases e), fun e => (e : False).elim⟩ hs
  intro t ht
  cases ht

end

end Bento.App
