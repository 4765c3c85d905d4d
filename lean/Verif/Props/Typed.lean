import Verif.Props.AppCommands

/-!
# What is typed arrives in the order typed

Property C139.
-/

namespace Bento

namespace App

section

variable {σ μ : Type}

/-- What was typed in a run: the inputs that were read, in order. -/
def inputs (cs : List (Choice μ)) : List μ :=
  cs.filterMap fun c => match c with
    | .thread _ (.input m) => some m
    | _ => none

/-- What a goroutine has read and is still about to hand over. -/
def Thread.held : Thread μ → List μ
  | .readSend m => [m]
  | _ => []

/-- Whether a goroutine reads inputs. -/
def Thread.isReader : Thread μ → Bool
  | .reading => true
  | .readSend _ => true
  | .readErr => true
  | _ => false

/-- Whether more is read. -/
def Thread.reads : Thread μ → Bool
  | .reading => true
  | .readSend _ => true
  | _ => false

/-- Whether the read loop was started. -/
def Main.late : Main σ → Bool
  | .raw => false
  | .cursor => false
  | .alt => false
  | .model => false
  | .draw0 => false
  | .reader => false
  | _ => true

/-- The inputs handed to the event loop, and then those given up. -/
def readings (i : Nat) (got lost : List μ) : List (Event σ μ) :=
  (got.map fun m => .delivered i none (some (.user m))) ++ lost.map fun m => .dropped i none (some (.user m))

structure NoReader (ts : List (Thread μ)) (ins : List μ) : Prop where
  ins : ins = []
  none : ∀ t ∈ ts, t.isReader = false

structure HasReader (r : Nat) (ts : List (Thread μ)) (tr : List (Event σ μ)) (ins : List μ) : Prop where
  only : ∀ (i : Nat) t, ts[i]? = some t → t.isReader = true → i = r
  own : ∃ t got lost, ts[r]? = some t ∧ (t.isReader = true ∨ t = .finished) ∧
    doings r tr = readings r got lost ∧ ins = got ++ t.held ++ lost ∧ lost.length ≤ 1 ∧ (t.reads = true → lost = [])

theorem NoReader.append {ts new : List (Thread μ)} {ins : List μ} (h : NoReader ts ins)
    (hn : ∀ t ∈ new, t.isReader = false) : NoReader (ts ++ new) ins :=
  ⟨h.ins, fun t ht => (List.mem_append.1 ht).elim (h.none t) (hn t)⟩

theorem NoReader.set {ts : List (Thread μ)} {ins : List μ} (h : NoReader ts ins) {i : Nat} {t' : Thread μ}
    (hn : t'.isReader = false) : NoReader (ts.set i t') ins :=
  ⟨h.ins, fun t ht => (List.mem_or_eq_of_mem_set ht).elim (h.none t) (fun e => e ▸ hn)⟩

theorem HasReader.lt {r : Nat} {ts : List (Thread μ)} {tr : List (Event σ μ)} {ins : List μ}
    (h : HasReader r ts tr ins) : r < ts.length := by
  obtain ⟨t, _, _, h1, _⟩ := h.own
  exact (List.getElem?_eq_some_iff.1 h1).1

theorem HasReader.log {r : Nat} {ts : List (Thread μ)} {tr es : List (Event σ μ)} {ins : List μ}
    (h : HasReader r ts tr ins) (he : ∀ e ∈ es, e.thread ≠ some r) : HasReader r ts (tr ++ es) ins := by
  refine ⟨h.only, ?_⟩
  rw [doings_append, doings_nil he, List.append_nil]
  exact h.own

theorem HasReader.append {r : Nat} {ts new : List (Thread μ)} {tr : List (Event σ μ)} {ins : List μ}
    (h : HasReader r ts tr ins) (hn : ∀ t ∈ new, t.isReader = false) : HasReader r (ts ++ new) tr ins := by
  have hlt := h.lt
  refine ⟨?_, ?_⟩
  · intro i t hi ht
    by_cases hl : i < ts.length
    · rw [List.getElem?_append_left hl] at hi
      exact h.only i t hi ht
    · rw [List.getElem?_append_right (by omega)] at hi
      rw [hn t (List.mem_of_getElem? hi)] at ht
      cases ht
  · rw [List.getElem?_append_left hlt]
    exact h.own

theorem HasReader.set {r : Nat} {ts : List (Thread μ)} {tr : List (Event σ μ)} {ins : List μ}
    (h : HasReader r ts tr ins) {i : Nat} {t' : Thread μ} (hi : i ≠ r) (hn : t'.isReader = false) :
    HasReader r (ts.set i t') tr ins := by
  refine ⟨?_, ?_⟩
  · intro j t hj ht
    by_cases hji : i = j
    · subst hji
      by_cases hl : i < ts.length
      · rw [List.getElem?_set_self hl] at hj
        cases hj
        rw [hn] at ht
        cases ht
      · rw [List.getElem?_eq_none (by simpa using hl)] at hj
        cases hj
    · rw [List.getElem?_set_ne hji] at hj
      exact h.only j t hj ht
  · rw [List.getElem?_set_ne hi]
    exact h.own

/-- The reader itself moves. -/
theorem HasReader.self {r : Nat} {ts : List (Thread μ)} {tr es : List (Event σ μ)} {ins ins' : List μ}
    (h : HasReader r ts tr ins) {t t' : Thread μ} (ht : ts[r]? = some t) (hn : t'.isReader = true ∨ t' = .finished)
    (hes : ∀ got lost, lost.length ≤ 1 → (t.reads = true → lost = []) → ins = got ++ t.held ++ lost →
      ∃ got' lost', readings r got lost ++ doings r es = readings r got' lost' ∧
        ins' = got' ++ t'.held ++ lost' ∧ lost'.length ≤ 1 ∧ (t'.reads = true → lost' = [])) :
    HasReader r (ts.set r t') (tr ++ es) ins' := by
  have hlt := h.lt
  refine ⟨?_, ?_⟩
  · intro j t hj ht
    by_cases hji : r = j
    · exact hji.symm
    · rw [List.getElem?_set_ne hji] at hj
      exact h.only j t hj ht
  · obtain ⟨t₀, got, lost, h1, h2, h3, h4, h5, h6⟩ := h.own
    rw [ht] at h1
    cases h1
    obtain ⟨got', lost', k1, k2, k3, k4⟩ := hes got lost h5 h6 h4
    refine ⟨t', got', lost', List.getElem?_set_self hlt, hn, ?_, k2, k3, k4⟩
    rw [doings_append, h3, k1]

/-- Before the read loop is started nothing is typed; afterwards its goroutine has it all. -/
def Typed (s : State σ μ) (ins : List μ) : Prop :=
  NoReader s.threads ins ∨ (s.main.late = true ∧ ∃ r, HasReader r s.threads s.trace ins)

/-- Another goroutine moves. -/
theorem Typed.other {s s' : State σ μ} {ins : List μ} (h : Typed s ins) {i : Nat} {t t' : Thread μ}
    {new : List (Thread μ)} {es : List (Event σ μ)} (ht : s.threads[i]? = some t) (hr : t.isReader = false)
    (hf : t ≠ .finished) (hr' : t'.isReader = false) (hn : ∀ t ∈ new, t.isReader = false)
    (h1 : s'.threads = s.threads.set i t' ++ new) (h2 : s'.trace = s.trace ++ es)
    (h3 : ∀ e ∈ es, ∀ k, e.thread = some k → k = i ∨ s.threads.length ≤ k)
    (h4 : s.main.late = true → s'.main.late = true) : Typed s' ins := by
  rcases h with h | ⟨hl, r, h⟩
  · refine .inl ?_
    rw [h1]
    exact (h.set hr').append hn
  · refine .inr ⟨h4 hl, r, ?_⟩
    have hlt := h.lt
    have hir : i ≠ r := by
      rintro rfl
      obtain ⟨t₀, _, _, k1, k2, _⟩ := h.own
      rw [ht] at k1
      cases k1
      rcases k2 with k2 | k2
      · rw [hr] at k2; cases k2
      · exact hf k2
    rw [h1, h2]
    refine ((h.set hir hr').append hn).log ?_
    intro e he hk
    rcases h3 e he r hk with k | k
    · exact hir k.symm
    · omega

/-- Something happens that is no move of a goroutine. -/
theorem Typed.grow {s s' : State σ μ} {ins : List μ} (h : Typed s ins) {new : List (Thread μ)}
    {es : List (Event σ μ)} (hn : ∀ t ∈ new, t.isReader = false) (h1 : s'.threads = s.threads ++ new)
    (h2 : s'.trace = s.trace ++ es) (h3 : ∀ e ∈ es, ∀ k, e.thread = some k → s.threads.length ≤ k)
    (h4 : s.main.late = true → s'.main.late = true) : Typed s' ins := by
  rcases h with h | ⟨hl, r, h⟩
  · refine .inl ?_
    rw [h1]
    exact h.append hn
  · refine .inr ⟨h4 hl, r, ?_⟩
    have hlt := h.lt
    rw [h1, h2]
    refine (h.append hn).log ?_
    intro e he hk
    have := h3 e he r hk
    omega

theorem threadStep_nonreader {p : Program σ μ} {s s' : State σ μ} {i : Nat} {t : Thread μ} {a : ThreadChoice μ}
    (h : threadStep p s i t a = some s') (hr : t.isReader = false) : s'.main = s.main ∧ t ≠ .finished ∧
      inputs [Choice.thread i a] = [] ∧
      ((s'.threads = s.threads ∧ s'.trace = s.trace) ∨
        ∃ t' es, s'.threads = s.threads.set i t' ∧ t'.isReader = false ∧ s'.trace = s.trace ++ es ∧
          ∀ e ∈ es, ∀ k, e.thread = some k → k = i) := by
  unfold threadStep at h
  split at h
  case h_5 =>
    split at h
    · cases h
    all_goals
      rename_i heq
      cases h
      obtain ⟨k1, k2, _, _, es, k3, _, _, k4⟩ := shutdown_main heq
      refine ⟨k1, by simp, rfl, .inr ⟨_, es, by unfold State.put; rw [k2], rfl, k3, ?_⟩⟩
      intro e he k hk
      rw [k4 e he] at hk
      cases hk
  all_goals
    repeat' split at h
    all_goals
      first
      | (cases h; done)
      | (cases hr; done)
      | (cases h; exact ⟨rfl, by simp, rfl, .inl ⟨rfl, rfl⟩⟩)
      | (cases h
         refine ⟨rfl, by simp, rfl, .inr ⟨_, [], rfl, ?_, (List.append_nil _).symm, by simp⟩⟩
         first | rfl | (unfold afterSize; split <;> rfl))
      | (cases h
         refine ⟨rfl, by simp, rfl, .inr ⟨_, _, rfl, ?_, rfl, ?_⟩⟩
         · first | rfl | (unfold afterSize; split <;> rfl)
         · simp [Event.thread])

theorem Typed.reader {s : State σ μ} {ins : List μ} (h : Typed s ins) {i : Nat} {t : Thread μ}
    (ht : s.threads[i]? = some t) (hr : t.isReader = true) :
    s.main.late = true ∧ HasReader i s.threads s.trace ins := by
  rcases h with h | ⟨hl, r, h⟩
  · rw [h.none t (List.mem_of_getElem? ht)] at hr
    cases hr
  · rw [h.only i t ht hr]
    exact ⟨hl, h⟩

theorem readings_got (r : Nat) (got : List μ) (m : μ) : (readings r got [] : List (Event σ μ)) ++
    doings r [.delivered r none (some (.user m))] = readings r (got ++ [m]) [] := by
  simp [readings, doings, Event.thread]

theorem readings_lost (r : Nat) (got : List μ) (m : μ) : (readings r got [] : List (Event σ μ)) ++
    doings r [.dropped r none (some (.user m))] = readings r got [m] := by
  simp [readings, doings, Event.thread]

theorem threadStep_typed {p : Program σ μ} {s s' : State σ μ} {ins : List μ} (h : Typed s ins) {i : Nat}
    {t : Thread μ} {a : ThreadChoice μ} (ht : s.threads[i]? = some t) (hs : threadStep p s i t a = some s') :
    Typed s' (ins ++ inputs [Choice.thread i a]) := by
  cases hr : t.isReader with
  | false =>
    obtain ⟨k1, k2, k3, k4⟩ := threadStep_nonreader hs hr
    rw [k3, List.append_nil]
    rcases k4 with ⟨k4, k5⟩ | ⟨t', es, k4, k5, k6, k7⟩
    · exact h.grow (new := []) (es := []) (by simp) (by simp [k4]) (by simp [k5]) (by simp) (by rw [k1]; exact id)
    · exact h.other (new := []) ht hr k2 k5 (by simp) (by simp [k4]) k6 (fun e he k hk => .inl (k7 e he k hk))
        (by rw [k1]; exact id)
  | true =>
    obtain ⟨hl, hh⟩ := h.reader ht hr
    have put : ∀ {t' : Thread μ} {es : List (Event σ μ)} {ins' : List μ}, s' = (s.log es).put i t' →
        HasReader i (s.threads.set i t') (s.trace ++ es) ins' → Typed s' ins' := by
      rintro t' es ins' rfl hh
      exact .inr ⟨hl, i, hh⟩
    have nolog : s.log [] = s := by unfold State.log; rw [List.append_nil]
    cases t <;> cases hr <;> cases a <;> simp only [threadStep] at hs <;> (try (cases hs; done))
    case true.reading.refl.input m =>
      cases hs
      refine put (es := []) (by rw [nolog]) (hh.self ht (.inl rfl) ?_)
      intro got lost _ h2 h3
      obtain rfl := h2 rfl
      exact ⟨got, [], by simp [doings], by simp [h3, Thread.held, inputs], by simp, by simp⟩
    case true.reading.refl.eof =>
      cases hs
      refine put (es := []) (by rw [nolog]) (hh.self ht (.inr rfl) ?_)
      intro got lost _ h2 h3
      obtain rfl := h2 rfl
      exact ⟨got, [], by simp [doings], by simp [h3, Thread.held, inputs], by simp, by simp⟩
    case true.reading.refl.inputError =>
      cases hs
      refine put (es := []) (by rw [nolog]) (hh.self ht (.inl rfl) ?_)
      intro got lost _ h2 h3
      obtain rfl := h2 rfl
      exact ⟨got, [], by simp [doings], by simp [h3, Thread.held, inputs], by simp, by simp⟩
    case true.readSend.refl.giveUp m =>
      split at hs
      · cases hs
        refine put rfl (hh.self ht (.inl rfl) ?_)
        intro got lost _ h2 h3
        obtain rfl := h2 rfl
        exact ⟨got, [m], readings_lost i got m, by simp [h3, Thread.held, inputs], by simp, by simp [Thread.reads]⟩
      · cases hs
    case true.readErr.refl.giveUp =>
      split at hs
      · cases hs
        refine put (es := []) (by rw [nolog]) (hh.self ht (.inr rfl) ?_)
        intro got lost h1 h2 h3
        exact ⟨got, lost, by simp [doings], by simp [h3, Thread.held, inputs], h1, by simp [Thread.reads]⟩
      · cases hs

theorem mainStep_reader {p : Program σ μ} {s s' : State σ μ} {a : MainChoice} (h : mainStep p s a = some s') :
    (∃ new es, s'.threads = s.threads ++ new ∧ s'.trace = s.trace ++ es ∧ (∀ t ∈ new, t.isReader = false) ∧
      (∀ e ∈ es, e.thread = none) ∧ (s.main.late = true → s'.main.late = true)) ∨
    (s.main = .reader ∧ s' = (s.spawn [.reading]).at .resize) := by
  have hdr : ∀ {m : σ} {d : Drawn} {next : Main σ} {r : Option σ}, (s.main.late = true → next.late = true) →
      ∃ new es, (drawn s m d next r).threads = s.threads ++ new ∧ (drawn s m d next r).trace = s.trace ++ es ∧
        (∀ t ∈ new, t.isReader = false) ∧ (∀ e ∈ es, e.thread = none) ∧
        (s.main.late = true → (drawn s m d next r).main.late = true) := by
    intro m d next r hl
    cases d with
    | ok hidden => exact ⟨[], [.drew m], (List.append_nil _).symm, rfl, by simp, by simp [Event.thread], hl⟩
    | error => exact ⟨[], [], (List.append_nil _).symm, (List.append_nil _).symm, by simp, by simp, fun _ => rfl⟩
    | panics => exact ⟨[], [], (List.append_nil _).symm, (List.append_nil _).symm, by simp, by simp, fun _ => rfl⟩
  have hsh : ∀ {s1 : State σ μ} {st : Stage} {ok : Bool} {c : Closed} {m : Main σ}, shutdown s st ok = some (s1, c) →
      m.late = true → ∃ new es, (s1.at m).threads = s.threads ++ new ∧ (s1.at m).trace = s.trace ++ es ∧
        (∀ t ∈ new, t.isReader = false) ∧ (∀ e ∈ es, e.thread = none) ∧
        (s.main.late = true → (s1.at m).main.late = true) := by
    intro s1 st ok c m h hm
    obtain ⟨_, k2, _, _, es, k3, _, _, k4⟩ := shutdown_main h
    exact ⟨[], es, by rw [List.append_nil]; exact k2, k3, by simp, k4, fun _ => hm⟩
  unfold mainStep at h
  split at h
  case h_17 =>
    refine .inl ?_
    split at h
    · cases h
    · rename_i heq; cases h; exact hsh heq rfl
    · rename_i heq; cases h; exact hsh heq rfl
    · rename_i heq
      split at h <;> (cases h; exact hsh heq rfl)
  case h_9 heq => cases h; exact .inr ⟨heq, rfl⟩
  case h_18 => cases h
  all_goals
    refine .inl ?_
    have hmain := ‹s.main = _›
    repeat' split at h
    all_goals
      first
      | (cases h; done)
      | (cases h
         exact ⟨[], [], (List.append_nil _).symm, (List.append_nil _).symm, by simp, by simp,
          by rw [hmain]; intro h; first | (cases h; done) | rfl⟩)
      | (cases h; exact hdr (by rw [hmain]; intro h; first | (cases h; done) | rfl))
      | (cases h
         exact ⟨_, [], rfl, (List.append_nil _).symm, by simp [Thread.isReader], by simp,
          by rw [hmain]; intro h; first | (cases h; done) | rfl⟩)

theorem receive_typed (p : Program σ μ) (s : State σ μ) (md : σ) (m : Option (Msg μ)) (ok : Bool)
    (hl : s.main.late = true) : (receive p s md m ok).main.late = true ∧
    ∃ new es, (receive p s md m ok).threads = s.threads ++ new ∧ (receive p s md m ok).trace = s.trace ++ es ∧
      (∀ t ∈ new, t.isReader = false) ∧ ∀ e ∈ es, e.thread = none := by
  have hup : ∀ (s : State σ μ) (m : Msg μ), (update p s md m).main.late = true ∧
      ∃ es, (update p s md m).threads = s.threads ∧ (update p s md m).trace = s.trace ++ es ∧
        ∀ e ∈ es, e.thread = none := by
    intro s m
    unfold update
    split
    · exact ⟨rfl, [], rfl, (List.append_nil _).symm, by simp⟩
    · exact ⟨rfl, _, rfl, rfl, by simp [Event.thread]⟩
  unfold receive
  split
  · exact ⟨hl, [], [], (List.append_nil _).symm, (List.append_nil _).symm, by simp, by simp⟩
  · exact ⟨rfl, [], [], (List.append_nil _).symm, (List.append_nil _).symm, by simp, by simp⟩
  · split
    · obtain ⟨k1, es, k2, k3, k4⟩ := hup s _
      exact ⟨k1, [], es, by rw [k2, List.append_nil], k3, by simp, k4⟩
    · exact ⟨rfl, [], [], (List.append_nil _).symm, (List.append_nil _).symm, by simp, by simp⟩
  · rename_i cmds
    obtain ⟨k1, es, k2, k3, k4⟩ := hup ((s.log [.spawned s.threads.length cmds]).spawn [.seq cmds]) (.sequence cmds)
    refine ⟨k1, [.seq cmds], .spawned s.threads.length cmds :: es, k2, ?_, by simp [Thread.isReader], ?_⟩
    · rw [k3]; simp [State.log, State.spawn]
    · intro e he
      rcases List.mem_cons.1 he with rfl | he
      · rfl
      · exact k4 e he
  · obtain ⟨k1, es, k2, k3, k4⟩ := hup s _
    exact ⟨k1, [], es, by rw [k2, List.append_nil], k3, by simp, k4⟩

theorem offer_reader {t t' : Thread μ} {j : Nat} {m : Option (Msg μ)} {member : Option Nat}
    (h : offer t j = some (m, member, t')) :
    (t.isReader = false ∧ t ≠ .finished ∧ t'.isReader = false) ∨
      ∃ x, t = .readSend x ∧ m = some (.user x) ∧ member = none ∧ t' = .reading := by
  unfold offer at h
  split at h
  · cases h; exact .inl ⟨rfl, by simp, rfl⟩
  · cases h; exact .inl ⟨rfl, by simp, rfl⟩
  · split at h
    · cases h; exact .inl ⟨rfl, by simp, rfl⟩
    · cases h
  · cases h; exact .inr ⟨_, rfl, rfl, rfl, rfl⟩
  · cases h
    refine .inl ⟨rfl, by simp, ?_⟩
    unfold afterSize
    split <;> rfl
  · cases h

theorem step_typed {p : Program σ μ} {s s' : State σ μ} {c : Choice μ} {ins : List μ} (hlife : Life p s.threads s.trace)
    (h : Typed s ins) (hs : step p s c = some s') : Typed s' (ins ++ inputs [c]) := by
  unfold App.step at hs
  split at hs
  · cases hs
  cases c with
  | cancel =>
    cases hs
    rw [show inputs [Choice.cancel (μ := μ)] = [] from rfl, List.append_nil]
    exact h.grow (new := []) (es := [.cancelled]) (by simp) (List.append_nil _).symm rfl (by simp [Event.thread]) id
  | main a =>
    rw [show inputs [Choice.main (μ := μ) a] = [] from rfl, List.append_nil]
    rcases mainStep_reader hs with ⟨new, es, h1, h2, h3, h4, h5⟩ | ⟨hm, rfl⟩
    · exact h.grow h3 h1 h2 (fun e he k hk => by rw [h4 e he] at hk; cases hk) h5
    · rcases h with h | ⟨hl, _⟩
      · refine .inr ⟨rfl, s.threads.length, ?_, .reading, [], [], ?_, .inl rfl, ?_, ?_, by simp, by simp⟩
        · intro i t hi ht
          change (s.threads ++ [.reading])[i]? = some t at hi
          by_cases hl : i < s.threads.length
          · rw [List.getElem?_append_left hl] at hi
            rw [h.none t (List.mem_of_getElem? hi)] at ht
            cases ht
          · have := (List.getElem?_eq_some_iff.1 hi).1
            simp only [List.length_append, List.length_cons, List.length_nil] at this
            omega
        · change (s.threads ++ [.reading])[s.threads.length]? = some .reading
          simp
        · refine doings_nil (es := s.trace) ?_
          intro e he hk
          have := hlife.fresh e he _ hk
          omega
        · rw [h.ins]; rfl
      · rw [hm] at hl
        cases hl
  | thread i a =>
    simp only at hs
    split at hs
    · cases hs
    · rename_i t ht
      exact threadStep_typed h ht hs
  | message i j ok =>
    rw [show inputs [Choice.message (μ := μ) i j ok] = [] from rfl, List.append_nil]
    simp only at hs
    split at hs
    · rename_i md t hm ht
      split at hs
      · cases hs
      · rename_i m member t' heq
        cases hs
        obtain ⟨k1, new, es, k2, k3, k4, k5⟩ := receive_typed p ((s.log [.delivered i member m]).put i t') md m ok
          (show s.main.late = true by rw [hm]; rfl)
        have k3' : (receive p ((s.log [.delivered i member m]).put i t') md m ok).trace =
            s.trace ++ ([.delivered i member m] ++ es) := by
          rw [k3, ← List.append_assoc]; rfl
        rcases offer_reader heq with ⟨hr, hf, hr'⟩ | ⟨x, rfl, rfl, rfl, rfl⟩
        · refine h.other ht hr hf hr' k4 k2 k3' ?_ (fun _ => k1)
          intro e he k hk
          rcases List.mem_append.1 he with he | he
          · rw [List.mem_singleton] at he
            subst he
            cases hk
            exact .inl rfl
          · rw [k5 e he] at hk
            cases hk
        · obtain ⟨hl, hh⟩ := h.reader ht rfl
          refine .inr ⟨k1, i, ?_⟩
          rw [k2, k3]
          refine HasReader.log (HasReader.append ?_ k4) (fun e he => by rw [k5 e he]; simp)
          refine hh.self ht (.inl rfl) ?_
          intro got lost _ h2 h3
          obtain rfl := h2 rfl
          exact ⟨got ++ [x], [], readings_got i got x, by simp [h3, Thread.held], by simp, by simp⟩
    · cases hs
  | error i =>
    rw [show inputs [Choice.error (μ := μ) i] = [] from rfl, List.append_nil]
    simp only at hs
    split at hs
    · rename_i md hm ht
      cases hs
      obtain ⟨hl, hh⟩ := h.reader ht rfl
      refine .inr ⟨rfl, i, ?_⟩
      have := hh.self (es := []) (ins' := ins) (t' := .finished) ht (.inr rfl) (by
        intro got lost h1 h2 h3
        exact ⟨got, lost, by simp [doings], by simp [h3, Thread.held], h1, by simp [Thread.reads]⟩)
      rw [List.append_nil] at this
      exact this
    · cases hs
  | fromMain j =>
    rw [show inputs [Choice.fromMain (μ := μ) j] = [] from rfl, List.append_nil]
    simp only at hs
    split at hs
    · rename_i md c hm ht
      cases hs
      cases c with
      | none =>
        exact h.grow (new := []) (es := []) (by simp) (List.append_nil _).symm (List.append_nil _).symm (by simp)
          (fun _ => rfl)
      | some c =>
        exact h.grow (new := [.call c]) (es := [.started s.threads.length none (some c)]) (by simp [Thread.isReader])
          rfl rfl (by simp [Event.thread]) (fun _ => rfl)
    · cases hs
  | fromInit i j =>
    rw [show inputs [Choice.fromInit (μ := μ) i j] = [] from rfl, List.append_nil]
    simp only at hs
    split at hs
    · rename_i c ht _
      cases hs
      refine h.other (new := [.call c]) (t' := .finished) (es := [.started (s.threads.set i .finished).length none (some c)])
        ht rfl (by simp) rfl (by simp [Thread.isReader]) rfl rfl ?_ id
      intro e he k hk
      rw [List.mem_singleton] at he
      subst he
      cases hk
      right
      simp
    · cases hs

theorem inputs_append (a b : List (Choice μ)) : inputs (a ++ b) = inputs a ++ inputs b :=
  List.filterMap_append

theorem runFrom_typed {p : Program σ μ} : ∀ (cs : List (Choice μ)) (s s' : State σ μ) (ins : List μ),
    Life p s.threads s.trace → Typed s ins → runFrom p s cs = some s' → Typed s' (ins ++ inputs cs) := by
  intro cs
  induction cs with
  | nil =>
    intro s s' ins _ h hr
    cases hr
    rw [show inputs ([] : List (Choice μ)) = [] from rfl, List.append_nil]
    exact h
  | cons c cs ih =>
    intro s s' ins hlife h hr
    simp only [runFrom] at hr
    cases hc : step p s c with
    | none => rw [hc] at hr; cases hr
    | some s1 =>
      rw [hc] at hr
      have := ih s1 s' _ (step_life hlife hc) (step_typed hlife h hc) hr
      rw [List.append_assoc, ← inputs_append] at this
      exact this

end

end App

open App

variable {σ μ : Type}

/-- C139, what becomes of what is typed. -/
theorem C139_order {p : Program σ μ} {cs : List (Choice μ)} {s : State σ μ} (h : run p cs = some s) :
    ∃ r got held lost, doings r s.trace = readings r got lost ∧ inputs cs = got ++ held ++ lost ∧
      (held = [] ∨ ∃ m, held = [m] ∧ s.threads[r]? = some (.readSend m)) ∧ lost.length ≤ 1 ∧
      (lost ≠ [] → .cancelled ∈ s.trace) := by
  have hlife := run_life h
  have hd := run_drops h
  have ht : Typed s ([] ++ inputs cs) :=
    runFrom_typed cs (.start σ μ) s []
      (run_life (p := p) (cs := []) rfl) (.inl ⟨rfl, by simp [State.start]⟩) h
  rw [List.nil_append] at ht
  rcases ht with ht | ⟨_, r, ht⟩
  · refine ⟨s.threads.length, [], [], [], doings_nil ?_, ht.ins, .inl rfl, by simp, by simp⟩
    intro e he hk
    have := hlife.fresh e he _ hk
    omega
  · obtain ⟨t, got, lost, h1, h2, h3, h4, h5, h6⟩ := ht.own
    refine ⟨r, got, t.held, lost, h3, h4, ?_, h5, ?_⟩
    · cases t <;> first | exact .inl rfl | exact .inr ⟨_, rfl, h1⟩
    · intro hne
      obtain ⟨x, l, rfl⟩ := List.exists_cons_of_ne_nil hne
      have hmem : (.dropped r none (some (.user x)) : Event σ μ) ∈ s.trace := by
        have : (.dropped r none (some (.user x)) : Event σ μ) ∈ doings r s.trace := by
          rw [h3]; simp [readings]
        exact (List.mem_filter.1 this).1
      obtain ⟨pre, post, hp⟩ := List.append_of_mem hmem
      rw [hp]
      exact List.mem_append_left _ (hd.drops pre _ _ _ post hp)

/-- C139, as long as the app is not ended: all that was typed, but for the input in hand, was taken by the event
loop, in the order typed. -/
theorem C139_taken {p : Program σ μ} {cs : List (Choice μ)} {s : State σ μ} (h : run p cs = some s)
    (hc : .cancelled ∉ s.trace) : ∃ got held, inputs cs = got ++ held ∧ held.length ≤ 1 ∧
      (got.map fun m => some (Msg.user m)).Sublist (taken s.trace) := by
  obtain ⟨r, got, held, lost, h1, h2, h3, _, h5⟩ := C139_order h
  have hl : lost = [] := by
    rcases lost with _ | ⟨x, l⟩
    · rfl
    · exact absurd (h5 (by simp)) hc
  subst hl
  refine ⟨got, held, by rw [h2, List.append_nil], ?_, ?_⟩
  · rcases h3 with rfl | ⟨m, rfl, _⟩ <;> simp
  · have hsub : (doings r s.trace).Sublist s.trace := List.filter_sublist
    have := hsub.filterMap (fun e => match e with
      | .delivered _ _ m => some m
      | _ => none)
    rw [h1] at this
    refine List.Sublist.trans ?_ this
    simp [readings, List.filterMap_map, Function.comp_def]

/-- Two inputs are read, the first is taken, the other one in hand; then the app is cancelled and that one given
up. -/
example : ∃ s s', run (demo none) (startup ++ [.thread 0 (.input 4), .message 0 0 true, .thread 0 (.input 5)]) = some s ∧
    s.threads[0]? = some (.readSend 5) ∧ doings 0 s.trace = readings 0 [4] [] ∧ .cancelled ∉ s.trace ∧
    runFrom (demo none) s [.cancel, .thread 0 .giveUp] = some s' ∧ doings 0 s'.trace = readings 0 [4] [5] := by
  refine ⟨_, _, rfl, by decide, by decide, by decide, rfl, by decide⟩

end Bento
