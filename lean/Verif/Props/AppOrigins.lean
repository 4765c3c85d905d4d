import Verif.Props.AppCommands

/-!
# Where commands come from

Properties C52 and C53.
-/

namespace Bento

namespace App

section

variable {σ μ : Type}

/-! ### C52: every sequence gets one goroutine -/

theorem begun_append (a b : List (Event σ μ)) : begun (a ++ b) = begun a ++ begun b := by
  unfold begun; rw [List.filterMap_append]

theorem sequences_append (a b : List (Option (Msg μ))) : sequences (a ++ b) = sequences a ++ sequences b := by
  unfold sequences; rw [List.filterMap_append]

theorem begun_nil {es : List (Event σ μ)} (h : ∀ j cs, .spawned j cs ∉ es) : begun es = [] := by
  unfold begun
  rw [List.filterMap_eq_nil_iff]
  intro e he
  cases e with
  | spawned i cs => exact absurd he (h i cs)
  | _ => rfl

theorem taken_nil {es : List (Event σ μ)} (h : ∀ i j m, .delivered i j m ∉ es) : taken es = [] := by
  unfold taken
  rw [List.filterMap_eq_nil_iff]
  intro e he
  cases e with
  | delivered i j m => exact absurd he (h i j m)
  | _ => rfl

/-- What a step of another goroutine logs. -/
theorem threadStep_events {p : Program σ μ} {s s' : State σ μ} {i : Nat} {t : Thread μ} {a : ThreadChoice μ}
    (h : threadStep p s i t a = some s') : s'.main = s.main ∧
    (∀ c, .initCmd c ∈ s'.threads → .initCmd c ∈ s.threads) ∧
    ∃ es, s'.trace = s.trace ++ es ∧ ∀ e ∈ es,
      (∃ c rest, e = .started i none (some c) ∧ t = .seq (some c :: rest)) ∨
      (∃ j c k m ms rest, e = .started i (some j) (some c) ∧ t = .seqWait ms rest ∧ ms[j]? = some (.call (some c)) ∧
        p.call c k = .returns m) ∨
      (∃ j m, e = .dropped i j m) ∨ e = .cancelled ∨ ∃ st, e = .failed st := by
  have hset : ∀ {ts : List (Thread μ)} {t' : Thread μ}, (∀ c, t' ≠ .initCmd c) →
      ∀ c, .initCmd c ∈ ts.set i t' → .initCmd c ∈ ts := by
    intro ts t' h c hc
    rcases mem_set_of hc with hc | hc
    · exact hc
    · exact absurd hc.symm (h c)
  unfold threadStep at h
  split at h
  case h_5 =>
    have hsp : ∀ {s1 : State σ μ} {st : Stage} {ok : Bool} {c : Closed}, shutdown s st ok = some (s1, c) →
        s1.main = s.main ∧ s1.threads = s.threads ∧ ∃ es, s1.trace = s.trace ++ es ∧
          ∀ e ∈ es, e = .cancelled ∨ ∃ st, e = .failed st := by
      intro s1 st ok c h
      unfold shutdown at h
      split at h <;> (try split at h) <;> cases h <;>
        first
        | exact ⟨rfl, rfl, [], (List.append_nil _).symm, fun _ h => absurd h List.not_mem_nil⟩
        | exact ⟨rfl, rfl, _, rfl, by simp⟩
    split at h
    · cases h
    · rename_i heq; cases h
      obtain ⟨k1, k2, es, k3, k4⟩ := hsp heq
      refine ⟨k1, ?_, es, k3, fun e he => .inr (.inr (.inr (k4 e he)))⟩
      intro c hc
      rw [← k2]
      exact hset (by simp) c hc
    · rename_i heq; cases h
      obtain ⟨k1, k2, es, k3, k4⟩ := hsp heq
      refine ⟨k1, ?_, es, k3, fun e he => .inr (.inr (.inr (k4 e he)))⟩
      intro c hc
      rw [← k2]
      exact hset (by simp) c hc
  case h_8 =>
    cases h
    refine ⟨rfl, hset (by simp), _, rfl, ?_⟩
    intro e he
    exact .inl ⟨_, _, List.mem_singleton.1 he, rfl⟩
  case h_11 =>
    split at h
    · rename_i hj
      split at h
      · rename_i hc
        cases h
        refine ⟨rfl, hset (by simp), _, rfl, ?_⟩
        intro e he
        exact .inr (.inl ⟨_, _, _, _, _, _, List.mem_singleton.1 he, rfl, hj, hc⟩)
      · cases h
        exact ⟨rfl, fun _ h => h, [], (List.append_nil _).symm, fun _ h => absurd h List.not_mem_nil⟩
    · cases h
      exact ⟨rfl, fun _ h => h, [], (List.append_nil _).symm, fun _ h => absurd h List.not_mem_nil⟩
    · cases h
  all_goals
    repeat' split at h
    all_goals
      first
      | (cases h; done)
      | (cases h; exact ⟨rfl, fun _ h => h, [], (List.append_nil _).symm, fun _ h => absurd h List.not_mem_nil⟩)
      | (cases h; exact ⟨rfl, hset (by intro c; simp [afterSize]; try split <;> simp), [], (List.append_nil _).symm,
          fun _ h => absurd h List.not_mem_nil⟩)
      | (cases h; exact ⟨rfl, hset (by intro c; simp [afterSize]; try split <;> simp), _, rfl,
          fun e he => .inr (.inr (.inl ⟨_, _, List.mem_singleton.1 he⟩))⟩)

theorem step_begun {p : Program σ μ} {s s' : State σ μ} {c : Choice μ}
    (h : begun s.trace = sequences (taken s.trace)) (hs : step p s c = some s') :
    begun s'.trace = sequences (taken s'.trace) := by
  have plain : ∀ {es : List (Event σ μ)}, s'.trace = s.trace ++ es → (∀ j cs, .spawned j cs ∉ es) →
      (∀ i j m, .delivered i j m ∉ es) → begun s'.trace = sequences (taken s'.trace) := by
    intro es h1 h2 h3
    rw [h1, begun_append, taken_append, begun_nil h2, taken_nil h3, List.append_nil, List.append_nil, h]
  unfold App.step at hs
  split at hs
  · cases hs
  cases c with
  | cancel =>
    cases hs
    exact plain (es := [.cancelled]) rfl (by simp) (by simp)
  | main a =>
    obtain ⟨_, es, _, h1, _, h2⟩ := mainStep_effect hs
    refine plain h1 ?_ ?_
    · intro j cs hm
      rcases h2 _ hm with ⟨m, h⟩ | h | ⟨st, h⟩ <;> cases h
    · intro i j m hm
      rcases h2 _ hm with ⟨m, h⟩ | h | ⟨st, h⟩ <;> cases h
  | thread i a =>
    simp only at hs
    split at hs
    · cases hs
    · obtain ⟨_, _, es, h1, h2⟩ := threadStep_events hs
      refine plain h1 ?_ ?_
      · intro j cs hm
        rcases h2 _ hm with ⟨_, _, h, _⟩ | ⟨_, _, _, _, _, _, h, _⟩ | ⟨_, _, h⟩ | h | ⟨_, h⟩ <;> cases h
      · intro i j m hm
        rcases h2 _ hm with ⟨_, _, h, _⟩ | ⟨_, _, _, _, _, _, h, _⟩ | ⟨_, _, h⟩ | h | ⟨_, h⟩ <;> cases h
  | message i j ok =>
    simp only at hs
    split at hs
    · rename_i md t h1 h2
      split at hs
      · cases hs
      · rename_i m member t' heq
        cases hs
        obtain ⟨k1, es₁, es₂, k2, k3, k4⟩ := receive_trace p ((s.log [.delivered i member m]).put i t') md m ok
        have e2 : begun es₂ = [] ∧ taken es₂ = [] := by
          rcases k4 with ⟨rfl, _⟩ | ⟨_, _, _, _, _, rfl, _⟩ <;> exact ⟨rfl, rfl⟩
        have e1 : begun es₁ = sequences [m] ∧ taken es₁ = [] := by
          rcases k3 with ⟨rfl, k3, _⟩ | ⟨cs, rfl, rfl, _⟩
          · refine ⟨?_, rfl⟩
            cases m with
            | none => rfl
            | some m =>
              cases m with
              | sequence cs => exact absurd rfl (k3 cs)
              | _ => rfl
          · exact ⟨rfl, rfl⟩
        have e3 : ((s.log [.delivered i member m]).put i t').trace = s.trace ++ [.delivered i member m] := rfl
        have e4 : taken [(.delivered i member m : Event σ μ)] = [m] := rfl
        have e5 : begun [(.delivered i member m : Event σ μ)] = [] := rfl
        rw [k2, e3, begun_append, begun_append, begun_append, taken_append, taken_append, taken_append, e1.1, e1.2,
          e2.1, e2.2, e4, e5, h, sequences_append, sequences_append]
        simp [sequences]
    · cases hs
  | error i =>
    simp only at hs
    split at hs
    · cases hs
      exact plain (es := []) (List.append_nil _).symm (by simp) (by simp)
    · cases hs
  | fromMain j =>
    simp only at hs
    split at hs
    · rename_i md c h1 h2
      cases hs
      obtain ⟨k1, es, k2, k3⟩ := accept_trace s c
      refine plain (es := es) k2 ?_ ?_
      · intro j cs hm
        rcases k3 with ⟨_, rfl⟩ | ⟨c', _, rfl⟩ <;> simp at hm
      · intro i j m hm
        rcases k3 with ⟨_, rfl⟩ | ⟨c', _, rfl⟩ <;> simp at hm
    · cases hs
  | fromInit i j =>
    simp only at hs
    split at hs
    · rename_i c h1 h2
      cases hs
      obtain ⟨k1, es, k2, k3⟩ := accept_trace (s.put i .finished) (some c)
      refine plain (es := es) k2 ?_ ?_
      · intro j cs hm
        rcases k3 with ⟨_, rfl⟩ | ⟨c', _, rfl⟩ <;> simp at hm
      · intro i j m hm
        rcases k3 with ⟨_, rfl⟩ | ⟨c', _, rfl⟩ <;> simp at hm
    · cases hs

/-! ### C53: commands have an origin -/

/-- Where the commands that started come from. -/
structure Origins (p : Program σ μ) (s : State σ μ) : Prop where
  init : ∀ c, .initCmd c ∈ s.threads → p.init = some (some c)
  pending : ∀ md c, s.main = .command md c → ∃ m, .updated m c ∈ s.trace
  updated : ∀ m c, .updated m c ∈ s.trace → ∃ md md', p.update md m = some (md', c)
  started : ∀ i c, .started i none (some c) ∈ s.trace → p.init = some (some c) ∨
    (∃ m, .updated m (some c) ∈ s.trace) ∨ ∃ cs, .spawned i cs ∈ s.trace ∧ some c ∈ cs
  member : ∀ i j c, .started i (some j) (some c) ∈ s.trace → ∃ c₀ k cmds, .started i none (some c₀) ∈ s.trace ∧
    (∃ cs, .spawned i cs ∈ s.trace) ∧ p.call c₀ k = .returns (some (.batch cmds)) ∧ some c ∈ cmds
  spawned : ∀ i cs, .spawned i cs ∈ s.trace → ∃ i' j c k, .started i' j (some c) ∈ s.trace ∧
    p.call c k = .returns (some (.sequence cs))

theorem Origins.extend {p : Program σ μ} {s s' : State σ μ} {es : List (Event σ μ)} (h : Origins p s)
    (ht : s'.trace = s.trace ++ es) (hi : ∀ c, .initCmd c ∈ s'.threads → .initCmd c ∈ s.threads ∨ p.init = some (some c))
    (hp : ∀ md c, s'.main = .command md c → s.main = .command md c ∨ ∃ m, .updated m c ∈ es)
    (hu : ∀ m c, .updated m c ∈ es → ∃ md md', p.update md m = some (md', c))
    (hs : ∀ i c, .started i none (some c) ∈ es → p.init = some (some c) ∨
      (∃ m, .updated m (some c) ∈ s.trace) ∨ ∃ cs, .spawned i cs ∈ s.trace ∧ some c ∈ cs)
    (hm : ∀ i j c, .started i (some j) (some c) ∈ es → ∃ c₀ k cmds, .started i none (some c₀) ∈ s.trace ∧
      (∃ cs, .spawned i cs ∈ s.trace) ∧ p.call c₀ k = .returns (some (.batch cmds)) ∧ some c ∈ cmds)
    (hq : ∀ i cs, .spawned i cs ∈ es → ∃ i' j c k, .started i' j (some c) ∈ s.trace ∧
      p.call c k = .returns (some (.sequence cs))) : Origins p s' := by
  refine ⟨?_, ?_, ?_, ?_, ?_, ?_⟩
  · intro c hc
    rcases hi c hc with hc | hc
    · exact h.init c hc
    · exact hc
  · intro md c hc
    rw [ht]
    rcases hp md c hc with hc | ⟨m, hc⟩
    · obtain ⟨m, hm⟩ := h.pending md c hc
      exact ⟨m, List.mem_append_left _ hm⟩
    · exact ⟨m, List.mem_append_right _ hc⟩
  · intro m c hc
    rw [ht] at hc
    rcases List.mem_append.1 hc with hc | hc
    · exact h.updated m c hc
    · exact hu m c hc
  · intro i c hc
    rw [ht] at hc ⊢
    have : p.init = some (some c) ∨
        (∃ m, .updated m (some c) ∈ s.trace) ∨ ∃ cs, .spawned i cs ∈ s.trace ∧ some c ∈ cs := by
      rcases List.mem_append.1 hc with hc | hc
      · exact h.started i c hc
      · exact hs i c hc
    rcases this with h1 | ⟨m, h1⟩ | ⟨cs, h1, h2⟩
    · exact .inl h1
    · exact .inr (.inl ⟨m, List.mem_append_left _ h1⟩)
    · exact .inr (.inr ⟨cs, List.mem_append_left _ h1, h2⟩)
  · intro i j c hc
    rw [ht] at hc ⊢
    have : ∃ c₀ k cmds, .started i none (some c₀) ∈ s.trace ∧
        (∃ cs, .spawned i cs ∈ s.trace) ∧ p.call c₀ k = .returns (some (.batch cmds)) ∧ some c ∈ cmds := by
      rcases List.mem_append.1 hc with hc | hc
      · exact h.member i j c hc
      · exact hm i j c hc
    obtain ⟨c₀, k, cmds, h1, ⟨cs, h2⟩, h3, h4⟩ := this
    exact ⟨c₀, k, cmds, List.mem_append_left _ h1, ⟨cs, List.mem_append_left _ h2⟩, h3, h4⟩
  · intro i cs hc
    rw [ht] at hc ⊢
    have : ∃ i' j c k, .started i' j (some c) ∈ s.trace ∧ p.call c k = .returns (some (.sequence cs)) := by
      rcases List.mem_append.1 hc with hc | hc
      · exact h.spawned i cs hc
      · exact hq i cs hc
    obtain ⟨i', j, c, k, h1, h2⟩ := this
    exact ⟨i', j, c, k, List.mem_append_left _ h1, h2⟩

theorem mainStep_init {p : Program σ μ} {s s' : State σ μ} {a : MainChoice} (h : mainStep p s a = some s') :
    (∀ c, .initCmd c ∈ s'.threads → .initCmd c ∈ s.threads ∨ p.init = some (some c)) ∧
    ∀ md c, s'.main ≠ .command md c := by
  have hsh : ∀ {s1 : State σ μ} {st : Stage} {ok : Bool} {c : Closed}, shutdown s st ok = some (s1, c) →
      s1.threads = s.threads := by
    intro s1 st ok c h
    unfold shutdown at h
    split at h <;> (try split at h) <;> cases h <;> rfl
  have hdr : ∀ {m : σ} {d : Drawn} {next : Main σ} {r : Option σ}, (∀ md c, next ≠ .command md c) →
      (∀ c, .initCmd c ∈ (drawn s m d next r).threads → .initCmd c ∈ s.threads ∨ p.init = some (some c)) ∧
      ∀ md c, (drawn s m d next r).main ≠ .command md c := by
    intro m d next r hn
    cases d with
    | ok hidden => exact ⟨fun _ h => .inl h, hn⟩
    | error => exact ⟨fun _ h => .inl h, fun _ _ h => by cases h⟩
    | panics => exact ⟨fun _ h => .inl h, fun _ _ h => by cases h⟩
  unfold mainStep at h
  split at h
  case h_7 =>
    split at h
    · cases h; exact ⟨fun _ h => .inl h, fun _ _ h => by cases h⟩
    · cases h; exact ⟨fun _ h => .inl h, fun _ _ h => by cases h⟩
    · rename_i heq
      cases h
      refine ⟨fun c hc => ?_, fun _ _ h => by cases h⟩
      simp only [State.at, State.spawn, List.mem_append, List.mem_singleton, Thread.initCmd.injEq] at hc
      rcases hc with hc | rfl
      · exact .inl hc
      · exact .inr heq
  case h_17 =>
    split at h
    · cases h
    · rename_i heq; cases h
      exact ⟨fun c hc => .inl (hsh heq ▸ hc), fun _ _ h => by cases h⟩
    · rename_i heq; cases h
      exact ⟨fun c hc => .inl (hsh heq ▸ hc), fun _ _ h => by cases h⟩
    · rename_i heq
      split at h <;> (cases h; exact ⟨fun c hc => .inl (hsh heq ▸ hc), fun _ _ h => by cases h⟩)
  all_goals
    repeat' split at h
    all_goals
      first
      | (cases h; done)
      | (cases h; exact ⟨fun _ h => .inl h, fun _ _ h => by cases h⟩)
      | (cases h; exact hdr (fun _ _ h => by cases h))
      | (cases h; exact ⟨fun c hc => .inl (by simpa [State.spawn, State.at] using hc), fun _ _ h => by cases h⟩)

/-- The messages of goroutines other than the housekeeping ones come from commands that started. -/
theorem offer_call {p : Program σ μ} {s : State σ μ} {i j : Nat} {t t' : Thread μ} {m : Option (Msg μ)}
    {member : Option Nat} (hl : Life p s.threads s.trace) (hi : s.threads[i]? = some t)
    (h : offer t j = some (m, member, t')) : (∃ j' c k, .started i j' (some c) ∈ s.trace ∧ p.call c k = .returns m) ∨
      (∃ u, m = some (.user u)) ∨ ∃ w h, m = some (.size w h) := by
  have hsub : ∀ {e}, e ∈ doings i s.trace → e ∈ s.trace := fun he => (List.mem_filter.1 he).1
  unfold offer at h
  split at h
  · rename_i m'
    cases h
    obtain ⟨c, h1, h2⟩ := hl.ownCmd i _ hi rfl
    obtain ⟨t1, h3, h4⟩ := hl.cmds i c h1 h2
    rw [hi] at h3
    cases h3
    obtain ⟨⟨k, h4⟩, _⟩ := h4
    exact .inl ⟨none, c, k, h1, h4⟩
  · rename_i m' rest
    cases h
    obtain ⟨cs, h1⟩ := hl.ownSeq i _ hi rfl
    obtain ⟨t1, h3, h4⟩ := hl.seqs i cs h1
    rw [hi] at h3
    cases h3
    obtain ⟨ds, es₁, c, _, _, h5, ⟨k, h6⟩, _⟩ := h4
    exact .inl ⟨none, c, k, hsub (by rw [h5]; simp), h6⟩
  · rename_i ms rest
    split at h
    · rename_i m' hj
      cases h
      obtain ⟨cs, h1⟩ := hl.ownSeq i _ hi rfl
      obtain ⟨t1, h3, h4⟩ := hl.seqs i cs h1
      rw [hi] at h3
      cases h3
      obtain ⟨ds, es₁, c, k, cmds, more, _, _, h5, h6, _, h7, h8⟩ := h4
      have hlt : j < cmds.length := by
        have := (List.getElem?_eq_some_iff.1 hj).1
        omega
      obtain ⟨c', k', h9, h10, h11⟩ := h8 j _ _ hj (List.getElem?_eq_getElem hlt)
      refine .inl ⟨some j, c', k', hsub ?_, h10⟩
      rw [h6]
      have : (.started i (some j) (some c') : Event σ μ) ∈ more.filter (·.member == some j) := by rw [h11]; simp
      have := (List.mem_filter.1 this).1
      simp [this]
    · cases h
  · cases h; exact .inr (.inl ⟨_, rfl⟩)
  · cases h; exact .inr (.inr ⟨_, _, rfl⟩)
  · cases h

theorem step_origins {p : Program σ μ} {s s' : State σ μ} {c : Choice μ} (hl : Life p s.threads s.trace)
    (h : Origins p s) (hs : step p s c = some s') : Origins p s' := by
  have hset : ∀ {i : Nat} {t' : Thread μ}, (∀ c, t' ≠ .initCmd c) →
      ∀ c, .initCmd c ∈ s.threads.set i t' → .initCmd c ∈ s.threads := by
    intro i t' h c hc
    rcases mem_set_of hc with hc | hc
    · exact hc
    · exact absurd hc.symm (h c)
  unfold App.step at hs
  split at hs
  · cases hs
  cases c with
  | cancel =>
    cases hs
    exact h.extend (es := [.cancelled]) rfl (fun _ h => .inl h) (fun _ _ h => .inl h) (by simp) (by simp) (by simp)
      (by simp)
  | main a =>
    obtain ⟨_, es, _, h1, _, h2⟩ := mainStep_effect hs
    obtain ⟨h3, h4⟩ := mainStep_init hs
    refine h.extend h1 h3 (fun _ _ h => absurd h (h4 _ _)) ?_ ?_ ?_ ?_
    · intro m c hm
      rcases h2 _ hm with ⟨m, h⟩ | h | ⟨st, h⟩ <;> cases h
    · intro i c hm
      rcases h2 _ hm with ⟨m, h⟩ | h | ⟨st, h⟩ <;> cases h
    · intro i j c hm
      rcases h2 _ hm with ⟨m, h⟩ | h | ⟨st, h⟩ <;> cases h
    · intro i j hm
      rcases h2 _ hm with ⟨m, h⟩ | h | ⟨st, h⟩ <;> cases h
  | thread i a =>
    simp only at hs
    split at hs
    · cases hs
    · rename_i t ht
      obtain ⟨h0, hi, es, h1, h2⟩ := threadStep_events hs
      refine h.extend h1 (fun c hc => .inl (hi c hc)) (fun _ _ h => .inl (h0 ▸ h)) ?_ ?_ ?_ ?_
      · intro m c hm
        rcases h2 _ hm with ⟨_, _, h, _⟩ | ⟨_, _, _, _, _, _, h, _⟩ | ⟨_, _, h⟩ | h | ⟨_, h⟩ <;> cases h
      · intro i' c hm
        rcases h2 _ hm with ⟨c', rest, h', hh⟩ | ⟨_, _, _, _, _, _, h, _⟩ | ⟨_, _, h⟩ | h | ⟨_, h⟩
        · cases h'
          subst hh
          obtain ⟨cs, h1⟩ := hl.ownSeq _ _ ht rfl
          obtain ⟨t1, h3, h4⟩ := hl.seqs _ cs h1
          rw [ht] at h3
          cases h3
          obtain ⟨ds, h4, _⟩ := h4
          exact .inr (.inr ⟨cs, h1, by rw [h4]; simp⟩)
        all_goals cases h
      · intro i' j c hm
        rcases h2 _ hm with ⟨_, _, h, _⟩ | ⟨_, _, _, _, ms, rest, h', hh, hj, hk⟩ | ⟨_, _, h⟩ | h | ⟨_, h⟩
        rotate_left
        · cases h'
          subst hh
          obtain ⟨cs, h1⟩ := hl.ownSeq _ _ ht rfl
          obtain ⟨t1, h3, h4⟩ := hl.seqs _ cs h1
          rw [ht] at h3
          cases h3
          obtain ⟨ds, es₁, c₀, k, cmds, more, _, _, h5, h6, _, h7, h8⟩ := h4
          have hlt : j < cmds.length := by
            have := (List.getElem?_eq_some_iff.1 hj).1
            omega
          obtain ⟨h9, h10⟩ := h8 j _ _ hj (List.getElem?_eq_getElem hlt)
          refine ⟨c₀, k, cmds, ?_, ⟨cs, h1⟩, h5, ?_⟩
          · have : (.started i none (some c₀) : Event σ μ) ∈ doings i s.trace := by rw [h6]; simp
            exact (List.mem_filter.1 this).1
          · rw [h9]; exact List.getElem_mem hlt
        all_goals cases h
      · intro j cs hm
        rcases h2 _ hm with ⟨_, _, h, _⟩ | ⟨_, _, _, _, _, _, h, _⟩ | ⟨_, _, h⟩ | h | ⟨_, h⟩ <;> cases h
  | message i j ok =>
    simp only at hs
    split at hs
    · rename_i md t h1 h2
      split at hs
      · cases hs
      · rename_i m member t' heq
        cases hs
        obtain ⟨k1, es₁, es₂, k2, k3, k4⟩ := receive_trace p ((s.log [.delivered i member m]).put i t') md m ok
        have ht' : ∀ c, t' ≠ .initCmd c := by
          intro c hc
          subst hc
          unfold offer at heq
          split at heq
          · cases heq
          · cases heq
          · split at heq <;> cases heq
          · cases heq
          · simp only [Option.some.injEq, Prod.mk.injEq, afterSize] at heq
            obtain ⟨_, _, heq⟩ := heq
            split at heq <;> cases heq
          · cases heq
        refine h.extend (es := .delivered i member m :: (es₁ ++ es₂)) ?_ ?_ ?_ ?_ ?_ ?_ ?_
        · rw [k2]; simp [State.put, State.log]
        · intro c hc
          refine .inl (hset (i := i) ht' c ?_)
          rcases k3 with ⟨_, _, k3⟩ | ⟨cs, _, _, k3⟩
          · rw [k3] at hc; exact hc
          · rw [k3] at hc
            simpa [State.put, State.log] using hc
        · intro md' c hc
          rcases k4 with ⟨_, k4⟩ | ⟨m', md'', c', _, _, rfl, k4⟩
          · exact .inl (k4 md' c hc)
          · rw [k4] at hc
            cases hc
            exact .inr ⟨m', by simp⟩
        · intro m' c hm
          simp only [List.mem_cons, reduceCtorEq, false_or, List.mem_append] at hm
          rcases hm with hm | hm
          · rcases k3 with ⟨rfl, _⟩ | ⟨cs, _, rfl, _⟩ <;> simp at hm
          · rcases k4 with ⟨rfl, _⟩ | ⟨m'', md'', c', _, k4, rfl, _⟩
            · simp at hm
            · simp only [List.mem_singleton, Event.updated.injEq] at hm
              obtain ⟨rfl, rfl⟩ := hm
              exact ⟨md, md'', k4⟩
        · intro i' c hm
          simp only [List.mem_cons, reduceCtorEq, false_or, List.mem_append] at hm
          rcases hm with hm | hm
          · rcases k3 with ⟨rfl, _⟩ | ⟨cs, _, rfl, _⟩ <;> simp at hm
          · rcases k4 with ⟨rfl, _⟩ | ⟨_, _, _, _, _, rfl, _⟩ <;> simp at hm
        · intro i' j c hm
          simp only [List.mem_cons, reduceCtorEq, false_or, List.mem_append] at hm
          rcases hm with hm | hm
          · rcases k3 with ⟨rfl, _⟩ | ⟨cs, _, rfl, _⟩ <;> simp at hm
          · rcases k4 with ⟨rfl, _⟩ | ⟨_, _, _, _, _, rfl, _⟩ <;> simp at hm
        · intro i' cs hm
          simp only [List.mem_cons, reduceCtorEq, false_or, List.mem_append] at hm
          rcases hm with hm | hm
          · rcases k3 with ⟨rfl, _⟩ | ⟨cs', hcs, rfl, _⟩
            · simp at hm
            · simp only [List.mem_singleton, Event.spawned.injEq] at hm
              obtain ⟨_, rfl⟩ := hm
              subst hcs
              rcases offer_call hl h2 heq with ⟨j', c, k, k5, k6⟩ | ⟨u, hu⟩ | ⟨w, hh, hu⟩
              · exact ⟨i, j', c, k, k5, k6⟩
              · cases hu
              · cases hu
          · rcases k4 with ⟨rfl, _⟩ | ⟨_, _, _, _, _, rfl, _⟩ <;> simp at hm
    · cases hs
  | error i =>
    simp only at hs
    split at hs
    · cases hs
      exact h.extend (es := []) (List.append_nil _).symm (fun c hc => .inl (hset (i := i) (t' := .finished) (by simp) c hc))
        (fun _ _ h => by cases h) (by simp) (by simp) (by simp) (by simp)
    · cases hs
  | fromMain j =>
    simp only at hs
    split at hs
    · rename_i md c h1 h2
      cases hs
      cases c with
      | none =>
        exact h.extend (es := []) (List.append_nil _).symm (fun c hc => .inl hc) (fun _ _ h => by cases h) (by simp)
          (by simp) (by simp) (by simp)
      | some c =>
        refine h.extend (es := [.started s.threads.length none (some c)]) rfl ?_ (fun _ _ h => by cases h) (by simp) ?_
          (by simp) (by simp)
        · intro c' hc
          exact .inl (by simpa [accept, State.at, State.spawn, State.log] using hc)
        · intro i c' hm
          simp only [List.mem_singleton, Event.started.injEq, true_and, Option.some.injEq] at hm
          obtain ⟨_, rfl⟩ := hm
          exact .inr (.inl (h.pending md _ h1))
    · cases hs
  | fromInit i j =>
    simp only at hs
    split at hs
    · rename_i c h1 h2
      cases hs
      refine h.extend (es := [.started (s.put i .finished).threads.length none (some c)]) rfl ?_
        (fun _ _ h => .inl h) (by simp) ?_ (by simp) (by simp)
      · intro c' hc
        refine .inl (hset (i := i) (t' := .finished) (by simp) c' ?_)
        simpa [accept, State.put, State.spawn, State.log] using hc
      · intro i' c' hm
        simp only [List.mem_singleton, Event.started.injEq, true_and, Option.some.injEq] at hm
        obtain ⟨_, rfl⟩ := hm
        exact .inl (h.init _ (List.mem_of_getElem? h1))
    · cases hs

theorem run_origins {p : Program σ μ} {cs : List (Choice μ)} {s : State σ μ} (h : run p cs = some s) :
    Origins p s :=
  (run_induction (P := fun s => Life p s.threads s.trace ∧ Origins p s)
    ⟨⟨by simp [State.start], by simp [State.start], by simp [State.start], by simp [State.start], by simp [State.start],
      by simp [State.start]⟩, ⟨by simp [State.start], by simp [State.start], by simp [State.start],
      by simp [State.start], by simp [State.start], by simp [State.start]⟩⟩
    (fun _ _ _ h _ hs => ⟨step_life h.1 hs, step_origins h.1 h.2 hs⟩) h).2

/-! ### C53: every command that `Update` returns starts -/

/-- Whether the event loop is about to hand over a command. -/
def handing (c : Cmd) : Main σ → Nat
  | .command _ c' => if c' = some c then 1 else 0
  | _ => 0

theorem returned_append (c : Cmd) (a b : List (Event σ μ)) : returned c (a ++ b) = returned c a + returned c b := by
  unfold returned; rw [List.countP_append]

theorem startedTimes_append (c : Cmd) (a b : List (Event σ μ)) :
    startedTimes c (a ++ b) = startedTimes c a + startedTimes c b := by
  unfold startedTimes; rw [List.countP_append]

theorem returned_zero {c : Cmd} {es : List (Event σ μ)} (h : ∀ m c', .updated m c' ∉ es) : returned c es = 0 := by
  unfold returned
  rw [List.countP_eq_zero]
  intro e he
  cases e with
  | updated m c' => exact absurd he (h m c')
  | _ => simp

theorem mainStep_command {p : Program σ μ} {s s' : State σ μ} {a : MainChoice} (h : mainStep p s a = some s')
    (md : σ) (c : Option Cmd) : s.main ≠ .command md c := by
  intro hm
  unfold mainStep at h
  rw [hm] at h
  cases a <;> cases h

theorem step_counts {p : Program σ μ} {s s' : State σ μ} {ch : Choice μ} (c : Cmd)
    (h : returned c s.trace ≤ startedTimes c s.trace + handing c s.main) (hs : step p s ch = some s') :
    returned c s'.trace ≤ startedTimes c s'.trace + handing c s'.main := by
  have plain : ∀ {es : List (Event σ μ)}, s'.trace = s.trace ++ es → (∀ m c', .updated m c' ∉ es) →
      handing c s.main ≤ startedTimes c es + handing c s'.main →
      returned c s'.trace ≤ startedTimes c s'.trace + handing c s'.main := by
    intro es h1 h2 h3
    rw [h1, returned_append, startedTimes_append, returned_zero h2]
    omega
  unfold App.step at hs
  split at hs
  · cases hs
  cases ch with
  | cancel =>
    cases hs
    exact plain (es := [.cancelled]) rfl (by simp) (Nat.le_add_left _ _)
  | main a =>
    obtain ⟨_, es, _, h1, _, h2⟩ := mainStep_effect hs
    refine plain h1 ?_ ?_
    · intro m c' hm
      rcases h2 _ hm with ⟨m, h⟩ | h | ⟨st, h⟩ <;> cases h
    · have : handing c s.main = 0 := by
        cases hm : s.main with
        | command md c' => exact absurd hm (mainStep_command hs md c')
        | _ => rfl
      omega
  | thread i a =>
    simp only at hs
    split at hs
    · cases hs
    · obtain ⟨h0, _, es, h1, h2⟩ := threadStep_events hs
      refine plain h1 ?_ (by rw [h0]; omega)
      intro m c' hm
      rcases h2 _ hm with ⟨_, _, h, _⟩ | ⟨_, _, _, _, _, _, h, _⟩ | ⟨_, _, h⟩ | h | ⟨_, h⟩ <;> cases h
  | message i j ok =>
    simp only at hs
    split at hs
    · rename_i md t h1 h2
      split at hs
      · cases hs
      · rename_i m member t' heq
        cases hs
        obtain ⟨k1, es₁, es₂, k2, k3, k4⟩ := receive_trace p ((s.log [.delivered i member m]).put i t') md m ok
        have e3 : ((s.log [.delivered i member m]).put i t').trace = s.trace ++ [.delivered i member m] := rfl
        have hz : handing c s.main = 0 := by rw [h1]; rfl
        have e1 : returned c es₁ = 0 := by
          rcases k3 with ⟨rfl, _⟩ | ⟨cs, _, rfl, _⟩ <;> exact returned_zero (by simp)
        have e2 : returned c es₂ ≤ handing c (receive p ((s.log [.delivered i member m]).put i t') md m ok).main := by
          rcases k4 with ⟨rfl, _⟩ | ⟨m', md', c', _, _, rfl, k4⟩
          · exact Nat.zero_le _
          · rw [k4]
            simp only [returned, List.countP_cons, List.countP_nil, handing, Nat.zero_add]
            by_cases hc : c' = some c <;> simp [hc]
        have e4 : returned c [(.delivered i member m : Event σ μ)] = 0 := returned_zero (by simp)
        rw [k2, e3, returned_append, returned_append, returned_append, startedTimes_append, startedTimes_append]
        omega
    · cases hs
  | error i =>
    simp only at hs
    split at hs
    · rename_i md h1 h2
      cases hs
      refine plain (es := []) (List.append_nil _).symm (by simp) ?_
      rw [h1]
      exact Nat.zero_le _
    · cases hs
  | fromMain j =>
    simp only at hs
    split at hs
    · rename_i md c' h1 h2
      cases hs
      obtain ⟨_, es, k2, k3⟩ := accept_trace s c'
      refine plain (es := es) k2 ?_ ?_
      · intro m c hm
        rcases k3 with ⟨_, rfl⟩ | ⟨c', _, rfl⟩ <;> simp at hm
      · rw [h1]
        rcases k3 with ⟨rfl, rfl⟩ | ⟨c', rfl, rfl⟩
        · exact Nat.zero_le _
        · simp only [handing, startedTimes, List.countP_cons, List.countP_nil]
          by_cases hc : c' = c <;> simp [hc]
    · cases hs
  | fromInit i j =>
    simp only at hs
    split at hs
    · rename_i c' h1 h2
      cases hs
      obtain ⟨_, es, k2, k3⟩ := accept_trace (s.put i .finished) (some c')
      refine plain (es := es) k2 ?_ (Nat.le_add_left _ _)
      intro m c hm
      rcases k3 with ⟨_, rfl⟩ | ⟨c', _, rfl⟩ <;> simp at hm
    · cases hs

end

end App

open App in
/-- Every sequence that the event loop takes gets one goroutine, which runs its commands (`C52_in_order`). -/
theorem C52_every_sequence {σ μ : Type} (p : Program σ μ) (cs : List (Choice μ)) (s : App.State σ μ)
    (h : run p cs = some s) : begun s.trace = sequences (taken s.trace) :=
  run_induction (P := fun s => begun s.trace = sequences (taken s.trace)) rfl (fun _ _ _ h _ hs => step_begun h hs) h

open App in
/-- A sequence of two commands runs to its end: each command starts after the message of the one before was taken. -/
example : ((run (demo none) (startup ++ [.thread 0 (.input 3), .message 0 0 true, .fromMain 3, .main (.drawn (.ok true)),
    .thread 4 (.go 0), .message 4 0 true, .fromMain 3, .main (.drawn (.ok true)),
    .thread 5 (.go 0), .thread 5 (.go 0), .message 5 0 true, .fromMain 3, .main (.drawn (.ok true)),
    .thread 5 (.go 0), .thread 5 (.go 0), .message 5 0 true, .fromMain 3, .thread 5 (.go 0)])).map fun s =>
      (begun s.trace, doings 5 s.trace)) =
    some ([[some 1, some 2]], [.started 5 none (some 1), .delivered 5 none (some (.user 11)),
      .started 5 none (some 2), .delivered 5 none (some (.user 12))]) := by
  decide +kernel

namespace App

/-- Two messages, the second of which makes a command quit; then `Run` returns. -/
def quitting : List (Choice Nat) := startup ++ [.thread 0 (.input 1), .message 0 0 true, .fromMain 3,
  .main (.drawn (.ok true)), .thread 0 (.input 4), .message 0 0 true, .fromMain 3, .main (.drawn (.ok true)),
  .thread 5 (.go 0), .message 5 0 true, .main (.op true), .main (.drawn (.ok true)), .main (.op true),
  .thread 2 .giveUp, .thread 3 .giveUp, .main (.op true), .main (.op true), .main (.op true), .main (.op true),
  .main (.op true)]

end App

open App in
/-- A run that quits: `Update` sees the two messages, then the command that quits ends the loop, and `Run` returns
the model of two updates (`C51_sequential`, `C51_waiting`, `C51_result`). -/
example : ((run (demo none) quitting).map fun s => (s.main, restored s, taken s.trace)) =
    some (.returned (.ok 2), true, [some (.user 1), some (.user 4), some .quit]) := by
  decide +kernel

open App in
example : ((run (demo none) quitting).map fun s => visible s.trace) =
    some [.drew 0, .took (some (.user 1)), .updated (.user 1) (some 1), .drew 1, .took (some (.user 4)),
      .updated (.user 4) (some 4), .drew 2, .took (some .quit), .drew 2] := by
  decide +kernel

open App in
/-- `Batch` drops nil commands: nothing is left, a single command, or a command that returns all of them as a
batch. -/
theorem C53_batch (cmds : List (Option Cmd)) :
    match batch cmds with
    | .nil => ∀ c, some c ∉ cmds
    | .same c => cmds.filter (·.isSome) = [some c]
    | .returns cs => cs = cmds.filter (·.isSome) ∧ 2 ≤ cs.length := by
  have key : ∀ cmds : List (Option Cmd), cmds.filter (·.isSome) = (cmds.filterMap id).map some := by
    intro cmds
    induction cmds with
    | nil => rfl
    | cons c cs ih => cases c <;> simp [ih]
  rw [key]
  unfold batch
  rcases h : cmds.filterMap id with _ | ⟨a, _ | ⟨b, l⟩⟩
  · intro c hc
    have := List.filterMap_eq_nil_iff.1 h (some c) hc
    cases this
  · rfl
  · exact ⟨rfl, by simp⟩

/-- All three cases occur. -/
example : App.batch [none, none] = .nil ∧ App.batch [none, some 4, none] = .same 4 ∧
    App.batch [some 3, none, some 4] = .returns [some 3, some 4] := by decide

open App in
/-- **C53, the part that holds.** Every command that `Update` returns starts, once for each time it is returned,
unless the event loop is just handing it over. Missing: that the commands of a batch start (`C53_batch_false`), and
that the command of `Init` starts. -/
theorem C53_update_partial {σ μ : Type} (p : Program σ μ) (cs : List (Choice μ)) (s : App.State σ μ) (c : Cmd)
    (h : run p cs = some s) (hm : ∀ md, s.main ≠ .command md (some c)) :
    returned c s.trace ≤ startedTimes c s.trace := by
  have k := run_induction (P := fun s => returned c s.trace ≤ startedTimes c s.trace + handing c s.main)
    (by simp [State.start, returned]) (fun _ _ _ h _ hs => step_counts c h hs) h
  have : handing c s.main = 0 := by
    cases hc : s.main with
    | command md c' =>
      simp only [handing]
      split
      · rename_i hh
        subst hh
        exact absurd hc (hm md)
      · rfl
    | _ => rfl
  omega

open App in
example : ((run (demo none) waits).map fun s => (s.main, returned 1 s.trace, startedTimes 1 s.trace)) =
    some (.select 2, 1, 1) := by decide +kernel

open App in
/-- **C53, the part that holds.** A command that started, other than in a sequence, has not returned yet, or its
message was taken by the event loop once, or given up, or the command panicked. -/
theorem C53_life_partial {σ μ : Type} (p : Program σ μ) (cs : List (Choice μ)) (s : App.State σ μ) (i : Nat) (c : Cmd)
    (h : run p cs = some s) (hi : .started i none (some c) ∈ s.trace) (hs : ∀ cmds, .spawned i cmds ∉ s.trace) :
    (doings i s.trace = [.started i none (some c)] ∧
      (s.threads[i]? = some (.call c) ∨ (∃ m, s.threads[i]? = some (.send m)) ∨ ∃ k, p.call c k = .panics)) ∨
    ∃ m, Single p i none c m (doings i s.trace) := by
  obtain ⟨t, ht, hq⟩ := (run_life h).cmds i c hi hs
  unfold CmdState at hq
  split at hq
  · exact .inl ⟨hq.2, .inl (hq.1 ▸ ht)⟩
  · exact .inl ⟨hq.2, .inr (.inl ⟨_, ht⟩)⟩
  · exact .inl ⟨hq.2, .inr (.inr hq.1)⟩
  · rcases hq with hq | ⟨m, hq⟩
    · exact .inl ⟨hq.2, .inr (.inr hq.1)⟩
    · exact .inr ⟨m, hq⟩
  · exact hq.elim

open App in
example : ((run (demo none) waits).map fun s => doings 4 s.trace) =
    some [.started 4 none (some 1), .delivered 4 none (some (.user 11))] := by decide +kernel

open App in
/-- Commands come from nowhere else: from `Init`, from `Update`, or from a sequence that a command returned. -/
theorem C53_origin_partial {σ μ : Type} (p : Program σ μ) (cs : List (Choice μ)) (s : App.State σ μ) (i : Nat) (c : Cmd)
    (h : run p cs = some s) (hi : .started i none (some c) ∈ s.trace) :
    p.init = some (some c) ∨ (∃ md m md', p.update md m = some (md', some c)) ∨
      ∃ c' k cmds, p.call c' k = .returns (some (.sequence cmds)) ∧ some c ∈ cmds := by
  have ho := run_origins h
  rcases ho.started i c hi with h1 | ⟨m, h1⟩ | ⟨cmds, h1, h2⟩
  · exact .inl h1
  · obtain ⟨md, md', h2⟩ := ho.updated m _ h1
    exact .inr (.inl ⟨md, m, md', h2⟩)
  · obtain ⟨_, _, c', k, _, h3⟩ := ho.spawned i cmds h1
    exact .inr (.inr ⟨c', k, cmds, h3, h2⟩)

namespace App

/-- A program whose `Init` returns `Batch(1, 2)`, and whose `Update` never returns a command. -/
def batching : Program Nat Nat where
  start := 0
  init := some (some 0)
  update n _ := some (n + 1, none)
  call c _ := if c = 0 then .returns (some (.batch [some 1, some 2])) else .returns (some (.user c))

end App

open App in
/-- **C53 (negation).** A batch that is not in a sequence never runs: whatever happens, no command of the batch
starts. -/
theorem C53_batch_false (cs : List (Choice Nat)) (s : App.State Nat Nat) (h : run batching cs = some s) (i : Nat)
    (j : Option Nat) (c : Cmd) (hi : .started i j (some c) ∈ s.trace) : c = 0 := by
  have ho := run_origins h
  have hno : ∀ i cmds, .spawned i cmds ∉ s.trace := by
    intro i cmds hm
    obtain ⟨_, _, c, k, _, h2⟩ := ho.spawned i cmds hm
    simp only [batching] at h2
    split at h2 <;> cases h2
  cases j with
  | none =>
    rcases ho.started i c hi with h1 | ⟨m, h1⟩ | ⟨cmds, h1, _⟩
    · simp only [batching, Option.some.injEq] at h1
      exact h1.symm
    · obtain ⟨_, _, h2⟩ := ho.updated m _ h1
      simp [batching] at h2
    · exact absurd h1 (hno i cmds)
  | some j =>
    obtain ⟨_, _, _, _, ⟨cmds, h1⟩, _⟩ := ho.member i j c hi
    exact absurd h1 (hno i cmds)

open App in
/-- The batch of `batching` is taken by the event loop and given to `Update`, which is all that happens to it. -/
example : ((run batching ([.main (.op true), .main (.op true), .main (.op true), .main (.op true),
    .main (.drawn (.ok true)), .main (.op true), .main (.op true), .main (.op true), .fromInit 0 4, .thread 5 (.go 0),
    .message 5 0 true, .fromMain 4, .main (.drawn (.ok true))])).map fun s =>
      (s.main, taken s.trace, doings 5 s.trace)) =
    some (.select 1, [some (.batch [some 1, some 2])],
      [.started 5 none (some 0), .delivered 5 none (some (.batch [some 1, some 2]))]) := by
  decide +kernel

open App in
/-- In a sequence, a batch does run. -/
example : ((run { batching with init := some (some 7), call := fun c _ => if c = 7 then .returns (some (.sequence [some 0]))
      else if c = 0 then .returns (some (.batch [some 1, some 2])) else .returns (some (.user c)) }
    ([.main (.op true), .main (.op true), .main (.op true), .main (.op true),
    .main (.drawn (.ok true)), .main (.op true), .main (.op true), .main (.op true), .fromInit 0 4, .thread 5 (.go 0),
    .message 5 0 true, .fromMain 4, .main (.drawn (.ok true)), .thread 6 (.go 0), .thread 6 (.go 0),
    .thread 6 (.member 1 0), .thread 6 (.member 0 0), .message 6 1 true])).map fun s => doings 6 s.trace) =
    some [.started 6 none (some 0), .started 6 (some 1) (some 2), .started 6 (some 0) (some 1),
      .delivered 6 (some 1) (some (.user 2))] := by
  decide +kernel

end Bento
