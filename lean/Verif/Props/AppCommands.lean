import Verif.Props.AppExit

/-!
# Commands

Properties C52, C53.
-/

namespace Bento

namespace App

section

variable {σ μ : Type}

/-! ### The lives of goroutines -/

theorem doings_append (i : Nat) (a b : List (Event σ μ)) : doings i (a ++ b) = doings i a ++ doings i b := by
  unfold doings
  rw [List.filter_append]

/-- Where a goroutine of a batch is, and what it did. -/
def MemberState (p : Program σ μ) (i j : Nat) (c' : Option Cmd) (m : Member μ) (es : List (Event σ μ)) : Prop :=
  match m with
  | .call c => c = c' ∧ es = []
  | .send m => ∃ c k, c' = some c ∧ p.call c k = .returns m ∧ es = [.started i (some j) (some c)]
  | .finished => ∃ c m, c' = some c ∧ Single p i (some j) c m es

/-- Where the goroutine of a sequence is, and what it did. -/
def SeqState (p : Program σ μ) (i : Nat) (cs : List (Option Cmd)) (t : Thread μ) (es : List (Event σ μ)) : Prop :=
  match t with
  | .seq rest => ∃ ds, cs = ds ++ rest ∧ Past p i ds es
  | .seqCall c rest => ∃ ds es₁, cs = ds ++ some c :: rest ∧ Past p i ds es₁ ∧ es = es₁ ++ [.started i none (some c)]
  | .seqSend m rest => ∃ ds es₁ c, cs = ds ++ some c :: rest ∧ Past p i ds es₁ ∧
      es = es₁ ++ [.started i none (some c)] ∧ (∃ k, p.call c k = .returns m) ∧ ∀ cmds, m ≠ some (.batch cmds)
  | .seqWait ms rest => ∃ ds es₁ c k cmds more, cs = ds ++ some c :: rest ∧ Past p i ds es₁ ∧
      p.call c k = .returns (some (.batch cmds)) ∧ es = es₁ ++ .started i none (some c) :: more ∧
      (∀ e ∈ more, ∃ j < cmds.length, e.member = some j) ∧ ms.length = cmds.length ∧
      ∀ j m c', ms[j]? = some m → cmds[j]? = some c' →
        MemberState p i j c' m (more.filter (·.member == some j))
  | .finished => Past p i cs es
  | _ => False

/-- Where the goroutine of a command is, and what it did. -/
def CmdState (p : Program σ μ) (i : Nat) (c : Cmd) (t : Thread μ) (es : List (Event σ μ)) : Prop :=
  match t with
  | .call c' => c' = c ∧ es = [.started i none (some c)]
  | .send m => (∃ k, p.call c k = .returns m) ∧ es = [.started i none (some c)]
  | .rescue _ => (∃ k, p.call c k = .panics) ∧ es = [.started i none (some c)]
  | .finished => ((∃ k, p.call c k = .panics) ∧ es = [.started i none (some c)]) ∨ ∃ m, Single p i none c m es
  | _ => False

def Thread.isSeq : Thread μ → Bool
  | .seq _ | .seqCall _ _ | .seqSend _ _ | .seqWait _ _ => true
  | _ => false

def Thread.isCmd : Thread μ → Bool
  | .call _ | .send _ | .rescue _ => true
  | _ => false

/-- A goroutine goes on, and logs some events, as its owner may expect. -/
structure Local (p : Program σ μ) (i : Nat) (t t' : Thread μ) (es : List (Event σ μ)) : Prop where
  seq : ∀ cs es₀, SeqState p i cs t es₀ → SeqState p i cs t' (es₀ ++ doings i es)
  cmd : ∀ c es₀, CmdState p i c t es₀ → CmdState p i c t' (es₀ ++ doings i es)
  isSeq : t'.isSeq = true → t.isSeq = true
  isCmd : t'.isCmd = true → t.isCmd = true
  starts : ∀ c, .started i none (some c) ∈ es → t.isSeq = true
  own : ∀ e ∈ es, ∀ j, e.thread = some j → j = i
  spawns : ∀ j cs, .spawned j cs ∉ es

/-- What is known of all goroutines of sequences and commands. -/
structure Life (p : Program σ μ) (ts : List (Thread μ)) (tr : List (Event σ μ)) : Prop where
  fresh : ∀ e ∈ tr, ∀ i, e.thread = some i → i < ts.length
  freshSeq : ∀ i cs, .spawned i cs ∈ tr → i < ts.length
  seqs : ∀ i cs, .spawned i cs ∈ tr → ∃ t, ts[i]? = some t ∧ SeqState p i cs t (doings i tr)
  cmds : ∀ i c, .started i none (some c) ∈ tr → (∀ cs, .spawned i cs ∉ tr) →
    ∃ t, ts[i]? = some t ∧ CmdState p i c t (doings i tr)
  ownSeq : ∀ (i : Nat) t, ts[i]? = some t → t.isSeq = true → ∃ cs, .spawned i cs ∈ tr
  ownCmd : ∀ (i : Nat) t, ts[i]? = some t → t.isCmd = true →
    ∃ c, .started i none (some c) ∈ tr ∧ ∀ cs, .spawned i cs ∉ tr

theorem doings_nil {i : Nat} {es : List (Event σ μ)} (h : ∀ e ∈ es, e.thread ≠ some i) : doings i es = [] := by
  unfold doings
  rw [List.filter_eq_nil_iff]
  intro e he
  simpa using h e he

theorem Life.log {p : Program σ μ} {ts : List (Thread μ)} {tr es : List (Event σ μ)} (h : Life p ts tr)
    (h1 : ∀ e ∈ es, e.thread = none) (h2 : ∀ j cs, .spawned j cs ∉ es) : Life p ts (tr ++ es) := by
  have hd : ∀ i, doings i (tr ++ es) = doings i tr := by
    intro i
    rw [doings_append, doings_nil (i := i) (es := es) (fun e he => by rw [h1 e he]; simp), List.append_nil]
  have hs : ∀ i cs, .spawned i cs ∈ tr ++ es ↔ .spawned i cs ∈ tr := by
    intro i cs
    simp [h2 i cs]
  have hst : ∀ i c, .started i none (some c) ∈ tr ++ es ↔ .started i none (some c) ∈ tr := by
    intro i c
    rw [List.mem_append]
    refine ⟨fun h => h.resolve_right fun h => ?_, .inl⟩
    have := h1 _ h
    simp [Event.thread] at this
  refine ⟨?_, ?_, ?_, ?_, ?_, ?_⟩
  · intro e he i hi
    rcases List.mem_append.1 he with he | he
    · exact h.fresh e he i hi
    · rw [h1 e he] at hi; cases hi
  · intro i cs hm
    exact h.freshSeq i cs ((hs i cs).1 hm)
  · intro i cs hm
    rw [hd]
    exact h.seqs i cs ((hs i cs).1 hm)
  · intro i c hm hn
    rw [hd]
    exact h.cmds i c ((hst i c).1 hm) fun cs hc => hn cs ((hs i cs).2 hc)
  · intro i t ht hq
    obtain ⟨cs, hc⟩ := h.ownSeq i t ht hq
    exact ⟨cs, (hs i cs).2 hc⟩
  · intro i t ht hq
    obtain ⟨c, hc, hn⟩ := h.ownCmd i t ht hq
    exact ⟨c, (hst i c).2 hc, fun cs hcs => hn cs ((hs i cs).1 hcs)⟩

theorem Life.spawn {p : Program σ μ} {ts new : List (Thread μ)} {tr : List (Event σ μ)} (h : Life p ts tr)
    (hn : ∀ t ∈ new, t.isSeq = false ∧ t.isCmd = false) : Life p (ts ++ new) tr := by
  have hlen : ts.length ≤ (ts ++ new).length := by simp
  have hget : ∀ (i : Nat) t, (ts ++ new)[i]? = some t → ts[i]? = some t ∨ t ∈ new := by
    intro i t ht
    by_cases hi : i < ts.length
    · rw [List.getElem?_append_left hi] at ht; exact .inl ht
    · rw [List.getElem?_append_right (by omega)] at ht
      exact .inr (List.mem_of_getElem? ht)
  have hold : ∀ (i : Nat) t, ts[i]? = some t → (ts ++ new)[i]? = some t := by
    intro i t ht
    obtain ⟨hi, _⟩ := List.getElem?_eq_some_iff.1 ht
    rw [List.getElem?_append_left hi]
    exact ht
  refine ⟨?_, ?_, ?_, ?_, ?_, ?_⟩
  · intro e he i hi
    exact Nat.lt_of_lt_of_le (h.fresh e he i hi) hlen
  · intro i cs hm
    exact Nat.lt_of_lt_of_le (h.freshSeq i cs hm) hlen
  · intro i cs hm
    obtain ⟨t, ht, hq⟩ := h.seqs i cs hm
    exact ⟨t, hold i t ht, hq⟩
  · intro i c hm hn
    obtain ⟨t, ht, hq⟩ := h.cmds i c hm hn
    exact ⟨t, hold i t ht, hq⟩
  · intro i t ht hq
    rcases hget i t ht with ht | ht
    · exact h.ownSeq i t ht hq
    · rw [(hn t ht).1] at hq; cases hq
  · intro i t ht hq
    rcases hget i t ht with ht | ht
    · exact h.ownCmd i t ht hq
    · rw [(hn t ht).2] at hq; cases hq

theorem Life.move {p : Program σ μ} {ts : List (Thread μ)} {tr es : List (Event σ μ)} {i : Nat} {t t' : Thread μ}
    (h : Life p ts tr) (hi : ts[i]? = some t) (hl : Local p i t t' es) : Life p (ts.set i t') (tr ++ es) := by
  have hil : i < ts.length := (List.getElem?_eq_some_iff.1 hi).1
  have hs : ∀ j cs, .spawned j cs ∈ tr ++ es ↔ .spawned j cs ∈ tr := by
    intro j cs
    simp [hl.spawns j cs]
  have hd : ∀ j, j ≠ i → doings j (tr ++ es) = doings j tr := by
    intro j hj
    rw [doings_append, doings_nil (i := j) (es := es) (fun e he h => hj (hl.own e he j h)), List.append_nil]
  have hst : ∀ j c, j ≠ i → (.started j none (some c) ∈ tr ++ es ↔ .started j none (some c) ∈ tr) := by
    intro j c hj
    rw [List.mem_append]
    exact ⟨fun h => h.resolve_right fun h => hj (hl.own _ h j rfl), .inl⟩
  refine ⟨?_, ?_, ?_, ?_, ?_, ?_⟩
  · intro e he j hj
    rw [List.length_set]
    rcases List.mem_append.1 he with he | he
    · exact h.fresh e he j hj
    · rw [hl.own e he j hj]; exact hil
  · intro j cs hm
    rw [List.length_set]
    exact h.freshSeq j cs ((hs j cs).1 hm)
  · intro j cs hm
    obtain ⟨t1, ht1, hq⟩ := h.seqs j cs ((hs j cs).1 hm)
    by_cases hj : j = i
    · subst hj
      rw [hi] at ht1
      cases ht1
      refine ⟨t', by rw [List.getElem?_set_self hil], ?_⟩
      rw [doings_append]
      exact hl.seq cs _ hq
    · rw [hd j hj]
      exact ⟨t1, by rw [List.getElem?_set_ne (Ne.symm hj)]; exact ht1, hq⟩
  · intro j c hm hn
    have hn' : ∀ cs, .spawned j cs ∉ tr := fun cs hc => hn cs ((hs j cs).2 hc)
    by_cases hj : j = i
    · subst hj
      have hm' : .started j none (some c) ∈ tr := by
        rcases List.mem_append.1 hm with hm | hm
        · exact hm
        · obtain ⟨cs, hc⟩ := h.ownSeq j t hi (hl.starts c hm)
          exact absurd hc (hn' cs)
      obtain ⟨t1, ht1, hq⟩ := h.cmds j c hm' hn'
      rw [hi] at ht1
      cases ht1
      refine ⟨t', by rw [List.getElem?_set_self hil], ?_⟩
      rw [doings_append]
      exact hl.cmd c _ hq
    · obtain ⟨t1, ht1, hq⟩ := h.cmds j c ((hst j c hj).1 hm) hn'
      rw [hd j hj]
      exact ⟨t1, by rw [List.getElem?_set_ne (Ne.symm hj)]; exact ht1, hq⟩
  · intro j t1 ht1 hq
    have : ∃ cs, .spawned j cs ∈ tr := by
      by_cases hj : j = i
      · subst hj
        rw [List.getElem?_set_self hil] at ht1
        cases ht1
        exact h.ownSeq j t hi (hl.isSeq hq)
      · rw [List.getElem?_set_ne (Ne.symm hj)] at ht1
        exact h.ownSeq j t1 ht1 hq
    obtain ⟨cs, hc⟩ := this
    exact ⟨cs, (hs j cs).2 hc⟩
  · intro j t1 ht1 hq
    have : ∃ c, .started j none (some c) ∈ tr ∧ ∀ cs, .spawned j cs ∉ tr := by
      by_cases hj : j = i
      · subst hj
        rw [List.getElem?_set_self hil] at ht1
        cases ht1
        exact h.ownCmd j t hi (hl.isCmd hq)
      · rw [List.getElem?_set_ne (Ne.symm hj)] at ht1
        exact h.ownCmd j t1 ht1 hq
    obtain ⟨c, hc, hn⟩ := this
    exact ⟨c, List.mem_append_left _ hc, fun cs hcs => hn cs ((hs j cs).1 hcs)⟩

theorem Life.spawnSeq {p : Program σ μ} {ts : List (Thread μ)} {tr : List (Event σ μ)} (h : Life p ts tr)
    (cs : List (Option Cmd)) : Life p (ts ++ [.seq cs]) (tr ++ [.spawned ts.length cs]) := by
  have hlen : (ts ++ [Thread.seq cs]).length = ts.length + 1 := by simp
  have hd : ∀ i, doings i (tr ++ [.spawned ts.length cs]) = doings i tr := by
    intro i
    rw [doings_append, doings_nil (i := i) (es := [.spawned ts.length cs]) (by simp [Event.thread]), List.append_nil]
  have hs : ∀ i cs', .spawned i cs' ∈ tr ++ [.spawned ts.length cs] → .spawned i cs' ∈ tr ∨ i = ts.length ∧ cs' = cs := by
    intro i cs' hm
    simp only [List.mem_append, List.mem_singleton, Event.spawned.injEq] at hm
    exact hm
  have hst : ∀ i c, .started i none (some c) ∈ tr ++ [.spawned ts.length cs] → .started i none (some c) ∈ tr := by
    intro i c hm
    simpa using hm
  have hnew : (ts ++ [Thread.seq cs])[ts.length]? = some (.seq cs) := by simp
  have hold : ∀ (i : Nat) t, ts[i]? = some t → (ts ++ [Thread.seq cs])[i]? = some t := by
    intro i t ht
    obtain ⟨hi, _⟩ := List.getElem?_eq_some_iff.1 ht
    rw [List.getElem?_append_left hi]
    exact ht
  refine ⟨?_, ?_, ?_, ?_, ?_, ?_⟩
  · intro e he i hi
    rw [hlen]
    simp only [List.mem_append, List.mem_singleton] at he
    rcases he with he | rfl
    · have := h.fresh e he i hi; omega
    · cases hi
  · intro i cs' hm
    rw [hlen]
    rcases hs i cs' hm with hm | ⟨rfl, _⟩
    · have := h.freshSeq i cs' hm; omega
    · omega
  · intro i cs' hm
    rw [hd]
    rcases hs i cs' hm with hm | ⟨rfl, rfl⟩
    · obtain ⟨t, ht, hq⟩ := h.seqs i cs' hm
      exact ⟨t, hold i t ht, hq⟩
    · refine ⟨_, hnew, [], rfl, ?_⟩
      rw [doings_nil]
      · exact .nil
      · intro e he hi
        have := h.fresh e he _ hi
        omega
  · intro i c hm hn
    rw [hd]
    obtain ⟨t, ht, hq⟩ := h.cmds i c (hst i c hm) fun cs' hc => hn cs' (List.mem_append_left _ hc)
    exact ⟨t, hold i t ht, hq⟩
  · intro i t ht hq
    by_cases hi : i < ts.length
    · rw [List.getElem?_append_left hi] at ht
      obtain ⟨cs', hc⟩ := h.ownSeq i t ht hq
      exact ⟨cs', List.mem_append_left _ hc⟩
    · have : i = ts.length := by
        have := (List.getElem?_eq_some_iff.1 ht).1
        omega
      subst this
      exact ⟨cs, by simp⟩
  · intro i t ht hq
    by_cases hi : i < ts.length
    · rw [List.getElem?_append_left hi] at ht
      obtain ⟨c, hc, hn⟩ := h.ownCmd i t ht hq
      refine ⟨c, List.mem_append_left _ hc, fun cs' hcs => ?_⟩
      rcases hs i cs' hcs with hcs | ⟨rfl, _⟩
      · exact hn cs' hcs
      · omega
    · have : i = ts.length := by
        have := (List.getElem?_eq_some_iff.1 ht).1
        omega
      subst this
      rw [hnew] at ht
      cases ht
      cases hq

theorem Life.spawnCmd {p : Program σ μ} {ts : List (Thread μ)} {tr : List (Event σ μ)} (h : Life p ts tr)
    (c : Cmd) : Life p (ts ++ [.call c]) (tr ++ [.started ts.length none (some c)]) := by
  have hlen : (ts ++ [Thread.call (μ := μ) c]).length = ts.length + 1 := by simp
  have hd : ∀ i, i ≠ ts.length → doings i (tr ++ [.started ts.length none (some c)]) = doings i tr := by
    intro i hi
    rw [doings_append, doings_nil (i := i) (es := [.started ts.length none (some c)]), List.append_nil]
    intro e he
    simp only [List.mem_singleton] at he
    subst he
    simp only [Event.thread, ne_eq, Option.some.injEq]
    exact Ne.symm hi
  have hs : ∀ i cs', .spawned i cs' ∈ tr ++ [.started ts.length none (some c)] ↔ .spawned i cs' ∈ tr := by
    intro i cs'
    simp
  have hnew : (ts ++ [Thread.call (μ := μ) c])[ts.length]? = some (.call c) := by simp
  have hold : ∀ (i : Nat) t, ts[i]? = some t → (ts ++ [Thread.call c])[i]? = some t := by
    intro i t ht
    obtain ⟨hi, _⟩ := List.getElem?_eq_some_iff.1 ht
    rw [List.getElem?_append_left hi]
    exact ht
  refine ⟨?_, ?_, ?_, ?_, ?_, ?_⟩
  · intro e he i hi
    rw [hlen]
    simp only [List.mem_append, List.mem_singleton] at he
    rcases he with he | rfl
    · have := h.fresh e he i hi; omega
    · simp only [Event.thread, Option.some.injEq] at hi
      omega
  · intro i cs' hm
    rw [hlen]
    have := h.freshSeq i cs' ((hs i cs').1 hm)
    omega
  · intro i cs' hm
    have hm := (hs i cs').1 hm
    have hne := h.freshSeq i cs' hm
    rw [hd i (by omega)]
    obtain ⟨t, ht, hq⟩ := h.seqs i cs' hm
    exact ⟨t, hold i t ht, hq⟩
  · intro i c' hm hn
    have hn' : ∀ cs', .spawned i cs' ∉ tr := fun cs' hc => hn cs' ((hs i cs').2 hc)
    simp only [List.mem_append, List.mem_singleton, Event.started.injEq, true_and, Option.some.injEq] at hm
    rcases hm with hm | ⟨rfl, rfl⟩
    · obtain ⟨t, ht, hq⟩ := h.cmds i c' hm hn'
      have := (List.getElem?_eq_some_iff.1 ht).1
      rw [hd i (by omega)]
      exact ⟨t, hold i t ht, hq⟩
    · refine ⟨_, hnew, rfl, ?_⟩
      rw [doings_append, doings_nil (es := tr)]
      · simp [doings, Event.thread]
      · intro e he hi
        have := h.fresh e he _ hi
        omega
  · intro i t ht hq
    by_cases hi : i < ts.length
    · rw [List.getElem?_append_left hi] at ht
      obtain ⟨cs', hc⟩ := h.ownSeq i t ht hq
      exact ⟨cs', List.mem_append_left _ hc⟩
    · have : i = ts.length := by
        have := (List.getElem?_eq_some_iff.1 ht).1
        omega
      subst this
      rw [hnew] at ht
      cases ht
      cases hq
  · intro i t ht hq
    by_cases hi : i < ts.length
    · rw [List.getElem?_append_left hi] at ht
      obtain ⟨c', hc, hn⟩ := h.ownCmd i t ht hq
      exact ⟨c', List.mem_append_left _ hc, fun cs' hcs => hn cs' ((hs i cs').1 hcs)⟩
    · have : i = ts.length := by
        have := (List.getElem?_eq_some_iff.1 ht).1
        omega
      subst this
      refine ⟨c, by simp, fun cs' hcs => ?_⟩
      have := h.freshSeq _ cs' ((hs _ cs').1 hcs)
      omega

/-! ### Steps -/

theorem local_plain {p : Program σ μ} {i : Nat} {t t' : Thread μ} {es : List (Event σ μ)}
    (h1 : t.isSeq = false) (h2 : t.isCmd = false) (h3 : t ≠ .finished) (h4 : t'.isSeq = false)
    (h5 : t'.isCmd = false) (hs : ∀ c, .started i none (some c) ∉ es)
    (ho : ∀ e ∈ es, ∀ j, e.thread = some j → j = i) (hp : ∀ j cs, .spawned j cs ∉ es) : Local p i t t' es := by
  refine ⟨?_, ?_, ?_, ?_, ?_, ho, hp⟩
  · intro cs es₀ h
    cases t <;> first | (cases h; done) | (cases h1; done) | exact absurd rfl h3
  · intro cs es₀ h
    cases t <;> first | (cases h; done) | (cases h2; done) | exact absurd rfl h3
  · intro h; rw [h4] at h; cases h
  · intro h; rw [h5] at h; cases h
  · intro c h; exact absurd h (hs c)

theorem seqWait_member {p : Program σ μ} {i j : Nat} {cs rest : List (Option Cmd)} {ms : List (Member μ)}
    {es : List (Event σ μ)} {m₀ m₁ : Member μ} {e : Event σ μ} (h : SeqState p i cs (.seqWait ms rest) es)
    (hj : ms[j]? = some m₀) (he : e.member = some j)
    (hm : ∀ c' es, MemberState p i j c' m₀ es → MemberState p i j c' m₁ (es ++ [e])) :
    SeqState p i cs (.seqWait (ms.set j m₁) rest) (es ++ [e]) := by
  obtain ⟨ds, es₁, c, k, cmds, more, h1, h2, h3, h4, h5, h6, h7⟩ := h
  have hlt : j < ms.length := (List.getElem?_eq_some_iff.1 hj).1
  refine ⟨ds, es₁, c, k, cmds, more ++ [e], h1, h2, h3, by rw [h4]; simp, ?_, by simpa using h6, ?_⟩
  · intro e' he'
    simp only [List.mem_append, List.mem_singleton] at he'
    rcases he' with he' | rfl
    · exact h5 e' he'
    · exact ⟨j, by omega, he⟩
  · intro j' m c' hm' hc'
    rw [List.filter_append]
    by_cases hjj : j' = j
    · subst hjj
      rw [List.getElem?_set_self hlt] at hm'
      cases hm'
      have : [e].filter (fun e => e.member == some j') = [e] := by simp [he]
      rw [this]
      exact hm c' _ (h7 j' m₀ c' hj hc')
    · rw [List.getElem?_set_ne (Ne.symm hjj)] at hm'
      have : [e].filter (fun e => e.member == some j') = [] := by simp [he, Ne.symm hjj]
      rw [this, List.append_nil]
      exact h7 j' m c' hm' hc'

theorem Past.one {p : Program σ μ} {i : Nat} {ds : List (Option Cmd)} {es es' : List (Event σ μ)} {c : Cmd}
    {m : Option (Msg μ)} (h : Past p i ds es) (hk : ∃ k, p.call c k = .returns m)
    (hm : ∀ cmds, m ≠ some (.batch cmds))
    (he : es' = [.started i none (some c), .delivered i none m] ∨ es' = [.started i none (some c), .dropped i none m]) :
    Past p i (ds ++ [some c]) (es ++ es') :=
  h.snoc (.inl ⟨m, hm, hk, he⟩)

/-- The effect of a step of a goroutine alone. -/
theorem threadStep_local {p : Program σ μ} {s s' : State σ μ} {i : Nat} {t : Thread μ} {a : ThreadChoice μ}
    (h : threadStep p s i t a = some s') : (s'.threads = s.threads ∧ s'.trace = s.trace) ∨
      ∃ t' es, s'.threads = s.threads.set i t' ∧ s'.trace = s.trace ++ es ∧ Local p i t t' es := by
  have hput : ∀ {t' : Thread μ}, Local p i t t' [] → s' = s.put i t' →
      ∃ t' es, s'.threads = s.threads.set i t' ∧ s'.trace = s.trace ++ es ∧ Local p i t t' es := by
    rintro t' hl rfl
    exact ⟨t', [], rfl, (List.append_nil _).symm, hl⟩
  have hlog : ∀ {t' : Thread μ} {e : Event σ μ}, Local p i t t' [e] → s' = (s.log [e]).put i t' →
      ∃ t' es, s'.threads = s.threads.set i t' ∧ s'.trace = s.trace ++ es ∧ Local p i t t' es := by
    rintro t' e hl rfl
    exact ⟨t', [e], rfl, rfl, hl⟩
  have hself : ∀ {e : Event σ μ}, e.thread = some i → doings i [e] = [e] := by
    intro e he
    simp [doings, he]
  have mk : ∀ {t' : Thread μ} {es : List (Event σ μ)},
      (∀ cs es₀, SeqState p i cs t es₀ → SeqState p i cs t' (es₀ ++ doings i es)) →
      (∀ c es₀, CmdState p i c t es₀ → CmdState p i c t' (es₀ ++ doings i es)) →
      (t'.isSeq = true → t.isSeq = true) → (t'.isCmd = true → t.isCmd = true) →
      (∀ e ∈ es, e.thread = some i ∧ ((∃ c, e = .started i none (some c)) → t.isSeq = true)) → Local p i t t' es := by
    intro t' es h1 h2 h3 h4 h5
    refine ⟨h1, h2, h3, h4, fun c hc => (h5 _ hc).2 ⟨c, rfl⟩, ?_, ?_⟩
    · intro e he j hj
      rw [(h5 e he).1] at hj
      exact (Option.some.inj hj).symm
    · intro j cs hj
      have := (h5 _ hj).1
      cases this
  unfold threadStep at h
  split at h
  -- initCmd, commands
  · split at h <;> cases h
    exact .inr (hput (local_plain rfl rfl (by simp) rfl rfl (by simp) (by simp) (by simp)) rfl)
  · split at h <;> cases h
    exact .inr (hput (local_plain rfl rfl (by simp) rfl rfl (by simp) (by simp) (by simp)) rfl)
  -- call
  · rename_i c k
    split at h <;> cases h <;> rename_i heq
    · refine .inr (hput (mk (fun _ _ h => h.elim) ?_ (by simp [Thread.isSeq]) (by simp [Thread.isCmd]) (by simp)) rfl)
      rintro c' es₀ ⟨rfl, rfl⟩
      exact ⟨⟨k, heq⟩, rfl⟩
    · refine .inr (hput (mk (fun _ _ h => h.elim) ?_ (by simp [Thread.isSeq]) (by simp [Thread.isCmd]) (by simp)) rfl)
      rintro c' es₀ ⟨rfl, rfl⟩
      exact ⟨⟨k, heq⟩, rfl⟩
  -- send
  · split at h <;> cases h
    refine .inr (hlog (mk (fun _ _ h => h.elim) ?_ (by simp [Thread.isSeq]) (by simp [Thread.isCmd]) (by simp [Event.thread])) rfl)
    rintro c' es₀ ⟨hk, rfl⟩
    rw [hself rfl]
    exact .inr ⟨_, hk, .inr rfl⟩
  -- rescue
  · have hl : ∀ {t' : Thread μ} {es : List (Event σ μ)} {st : Stage}, (∀ e ∈ es, e.thread = none) →
        (∀ j cs, .spawned j cs ∉ es) → ((∃ st, t' = .rescue st) ∨ t' = .finished) →
        Local p i (.rescue st) t' es := by
      intro t' es st h1 h2 h3
      refine ⟨fun _ _ h => h.elim, ?_, ?_, ?_, ?_, ?_, h2⟩
      · rintro c es₀ ⟨hk, rfl⟩
        rw [doings_nil (fun e he => by rw [h1 e he]; simp), List.append_nil]
        rcases h3 with ⟨st', rfl⟩ | rfl
        · exact ⟨hk, rfl⟩
        · exact .inl ⟨hk, rfl⟩
      · rcases h3 with ⟨st', rfl⟩ | rfl <;> simp [Thread.isSeq]
      · intro _; rfl
      · intro c hc
        have := h1 _ hc
        cases this
      · intro e he j hj
        rw [h1 e he] at hj
        cases hj
    have hsp : ∀ {s1 : State σ μ} {st : Stage} {ok : Bool} {c : Closed}, shutdown s st ok = some (s1, c) →
        s1.threads = s.threads ∧ ∃ es, s1.trace = s.trace ++ es ∧ (∀ e ∈ es, e.thread = none) ∧
          ∀ j cs, .spawned j cs ∉ es := by
      intro s1 st ok c h
      unfold shutdown at h
      split at h <;> (try split at h) <;> cases h <;>
        first
        | exact ⟨rfl, [], (List.append_nil _).symm, by simp, by simp⟩
        | exact ⟨rfl, _, rfl, by simp [Event.thread], by simp⟩
    split at h
    · cases h
    · rename_i heq
      cases h
      obtain ⟨h1, es, h2, h3, h4⟩ := hsp heq
      exact .inr ⟨_, es, by simp only [State.put]; rw [h1], h2, hl h3 h4 (.inl ⟨_, rfl⟩)⟩
    · rename_i heq
      cases h
      obtain ⟨h1, es, h2, h3, h4⟩ := hsp heq
      exact .inr ⟨_, es, by simp only [State.put]; rw [h1], h2, hl h3 h4 (.inr rfl)⟩
  -- seq
  · cases h
    refine .inr (hput (mk ?_ (fun _ _ h => h.elim) (by simp [Thread.isSeq]) (by simp [Thread.isCmd]) (by simp)) rfl)
    rintro cs es₀ ⟨ds, rfl, hp⟩
    show Past p i _ (es₀ ++ [])
    rw [List.append_nil, List.append_nil]
    exact hp
  · cases h
    refine .inr (hput (mk ?_ (fun _ _ h => h.elim) (by simp [Thread.isSeq]) (by simp [Thread.isCmd]) (by simp)) rfl)
    rintro cs es₀ ⟨ds, rfl, hp⟩
    exact ⟨ds ++ [none], by simp, hp.snoc rfl⟩
  · cases h
    refine .inr (hlog (mk ?_ (fun _ _ h => h.elim) (by simp [Thread.isSeq]) (by simp [Thread.isCmd])
      (by simp [Event.thread, Thread.isSeq])) rfl)
    rintro cs es₀ ⟨ds, rfl, hp⟩
    rw [hself rfl]
    exact ⟨ds, es₀, rfl, hp, rfl⟩
  -- seqCall
  · rename_i c rest k
    split at h
    · rename_i cmds heq
      cases h
      refine .inr (hput (mk ?_ (fun _ _ h => h.elim) (by simp [Thread.isSeq]) (by simp [Thread.isCmd]) (by simp)) rfl)
      rintro cs es₀ ⟨ds, es₁, rfl, hp, rfl⟩
      refine ⟨ds, es₁, c, k, cmds, [], rfl, hp, heq, by simp [doings], by simp, by simp, ?_⟩
      intro j m c' hm hc
      rw [List.getElem?_map, hc] at hm
      cases hm
      exact ⟨rfl, rfl⟩
    · rename_i m hb heq
      cases h
      refine .inr (hput (mk ?_ (fun _ _ h => h.elim) (by simp [Thread.isSeq]) (by simp [Thread.isCmd]) (by simp)) rfl)
      rintro cs es₀ ⟨ds, es₁, rfl, hp, rfl⟩
      refine ⟨ds, es₁, c, rfl, hp, by simp [doings], ⟨k, heq⟩, ?_⟩
      rintro cmds rfl
      exact hb cmds rfl
    · cases h
      exact .inl ⟨rfl, rfl⟩
  -- seqSend
  · split at h <;> cases h
    refine .inr (hlog (mk ?_ (fun _ _ h => h.elim) (by simp [Thread.isSeq]) (by simp [Thread.isCmd])
      (by simp [Event.thread])) rfl)
    rintro cs es₀ ⟨ds, es₁, c, rfl, hp, rfl, hk, hb⟩
    rw [hself rfl]
    refine ⟨ds ++ [some c], by simp, ?_⟩
    rw [List.append_assoc]
    exact hp.one hk hb (.inr rfl)
  -- seqWait
  · rename_i members rest j k
    split at h
    · rename_i c hj
      split at h <;> cases h
      · rename_i m heq
        refine .inr (hlog (mk ?_ (fun _ _ h => h.elim) (by simp [Thread.isSeq]) (by simp [Thread.isCmd])
          (by simp [Event.thread])) rfl)
        intro cs es₀ hq
        rw [hself rfl]
        refine seqWait_member hq hj rfl ?_
        rintro c' es ⟨rfl, rfl⟩
        exact ⟨c, k, rfl, heq, rfl⟩
      · exact .inl ⟨rfl, rfl⟩
    · cases h
      exact .inl ⟨rfl, rfl⟩
    · cases h
  · rename_i members rest j
    split at h
    · rename_i m hj
      split at h <;> cases h
      refine .inr (hlog (mk ?_ (fun _ _ h => h.elim) (by simp [Thread.isSeq]) (by simp [Thread.isCmd])
        (by simp [Event.thread])) rfl)
      intro cs es₀ hq
      rw [hself rfl]
      refine seqWait_member hq hj rfl ?_
      rintro c' es ⟨c, k, rfl, hk, rfl⟩
      exact ⟨c, m, rfl, ⟨k, hk⟩, .inr rfl⟩
    · cases h
  · rename_i members rest k
    split at h <;> cases h
    rename_i hall
    refine .inr (hput (mk ?_ (fun _ _ h => h.elim) (by simp [Thread.isSeq]) (by simp [Thread.isCmd]) (by simp)) rfl)
    rintro cs es₀ ⟨ds, es₁, c, k, cmds, more, rfl, hp, hc, rfl, h5, h6, h7⟩
    refine ⟨ds ++ [some c], by simp, ?_⟩
    show Past p i _ (_ ++ [])
    rw [List.append_nil]
    refine hp.snoc (.inr ⟨k, cmds, more, hc, rfl, h5, ?_⟩)
    intro j c' hj
    have hlt : j < members.length := by
      have := (List.getElem?_eq_some_iff.1 hj).1
      omega
    have hm := List.getElem?_eq_getElem hlt
    have hfin : members[j] = .finished := by
      have := List.all_eq_true.1 hall _ (List.getElem_mem hlt)
      cases hx : members[j] <;> rw [hx] at this <;> first | rfl | cases this
    rw [hfin] at hm
    exact h7 j _ c' hm hj
  -- the others
  all_goals
    first
    | (cases h; done)
    | (cases h
       exact .inr (hput (local_plain rfl rfl (by simp) rfl rfl (by simp) (by simp) (by simp)) rfl))
    | (cases h
       exact .inr (hput (local_plain rfl rfl (by simp) (by unfold afterSize; split <;> rfl)
         (by unfold afterSize; split <;> rfl) (by simp) (by simp) (by simp)) rfl))
    | (split at h <;> cases h
       exact .inr (hput (local_plain rfl rfl (by simp) rfl rfl (by simp) (by simp) (by simp)) rfl))
    | (split at h <;> cases h
       exact .inr (hlog (local_plain rfl rfl (by simp) rfl rfl (by simp) (by simp [Event.thread]) (by simp)) rfl))
    | (split at h <;> cases h
       exact .inr (hlog (local_plain rfl rfl (by simp) (by unfold afterSize; split <;> rfl)
         (by unfold afterSize; split <;> rfl) (by simp) (by simp [Event.thread]) (by simp)) rfl))

/-- The effect of handing a message to the event loop. -/
theorem offer_local {p : Program σ μ} {t t' : Thread μ} {i j : Nat} {m : Option (Msg μ)} {member : Option Nat}
    (h : offer t j = some (m, member, t')) : Local p i t t' [.delivered i member m] := by
  have hself : doings i [(.delivered i member m : Event σ μ)] = [.delivered i member m] := by
    simp [doings, Event.thread]
  have mk : (∀ cs es₀, SeqState p i cs t es₀ → SeqState p i cs t' (es₀ ++ [.delivered i member m])) →
      (∀ c es₀, CmdState p i c t es₀ → CmdState p i c t' (es₀ ++ [.delivered i member m])) →
      (t'.isSeq = true → t.isSeq = true) → (t'.isCmd = true → t.isCmd = true) →
      Local p i t t' [.delivered i member m] := by
    intro h1 h2 h3 h4
    rw [← hself] at h1 h2
    exact ⟨h1, h2, h3, h4, by simp, by simp [Event.thread], by simp⟩
  unfold offer at h
  split at h
  · cases h
    refine mk (fun _ _ h => h.elim) ?_ (by simp [Thread.isSeq]) (by simp [Thread.isCmd])
    rintro c' es₀ ⟨hk, rfl⟩
    exact .inr ⟨_, hk, .inl rfl⟩
  · cases h
    refine mk ?_ (fun _ _ h => h.elim) (by simp [Thread.isSeq]) (by simp [Thread.isCmd])
    rintro cs es₀ ⟨ds, es₁, c, rfl, hp, rfl, hk, hb⟩
    refine ⟨ds ++ [some c], by simp, ?_⟩
    rw [List.append_assoc]
    exact hp.one hk hb (.inl rfl)
  · split at h <;> cases h
    rename_i hj
    refine mk ?_ (fun _ _ h => h.elim) (by simp [Thread.isSeq]) (by simp [Thread.isCmd])
    intro cs es₀ hq
    refine seqWait_member hq hj rfl ?_
    rintro c' es ⟨c, k, rfl, hk, rfl⟩
    exact ⟨c, _, rfl, ⟨k, hk⟩, .inl rfl⟩
  · cases h
    exact local_plain rfl rfl (by simp) rfl rfl (by simp) (by simp [Event.thread]) (by simp)
  · cases h
    exact local_plain rfl rfl (by simp) (by unfold afterSize; split <;> rfl)
      (by unfold afterSize; split <;> rfl) (by simp) (by simp [Event.thread]) (by simp)
  · cases h

/-- The effect of a step of the goroutine of `Run` alone. -/
theorem mainStep_effect {p : Program σ μ} {s s' : State σ μ} {a : MainChoice} (h : mainStep p s a = some s') :
    ∃ new es, s'.threads = s.threads ++ new ∧ s'.trace = s.trace ++ es ∧
      (∀ t ∈ new, t.isSeq = false ∧ t.isCmd = false) ∧
      ∀ e ∈ es, (∃ m, e = .drew m) ∨ e = .cancelled ∨ ∃ st, e = .failed st := by
  have hnil : ∀ {s' : State σ μ}, s'.threads = s.threads → s'.trace = s.trace →
      ∃ new es, s'.threads = s.threads ++ new ∧ s'.trace = s.trace ++ es ∧
      (∀ t ∈ new, t.isSeq = false ∧ t.isCmd = false) ∧
      ∀ e ∈ es, (∃ m, e = .drew m) ∨ e = .cancelled ∨ ∃ st, e = .failed st := by
    intro s' h1 h2
    exact ⟨[], [], by simp [h1], by simp [h2], by simp, by simp⟩
  have hsp : ∀ {new : List (Thread μ)} {m : Main σ}, (∀ t ∈ new, t.isSeq = false ∧ t.isCmd = false) →
      ∃ new' es, ((s.spawn new).at m).threads = s.threads ++ new' ∧ ((s.spawn new).at m).trace = s.trace ++ es ∧
      (∀ t ∈ new', t.isSeq = false ∧ t.isCmd = false) ∧
      ∀ e ∈ es, (∃ m, e = .drew m) ∨ e = .cancelled ∨ ∃ st, e = .failed st := by
    intro new m h
    exact ⟨new, [], rfl, (List.append_nil _).symm, h, by simp⟩
  have hdr : ∀ {m : σ} {d : Drawn} {next : Main σ} {r : Option σ},
      ∃ new es, (drawn s m d next r).threads = s.threads ++ new ∧ (drawn s m d next r).trace = s.trace ++ es ∧
      (∀ t ∈ new, t.isSeq = false ∧ t.isCmd = false) ∧
      ∀ e ∈ es, (∃ m, e = .drew m) ∨ e = .cancelled ∨ ∃ st, e = .failed st := by
    intro m d next r
    cases d with
    | ok hidden => exact ⟨[], [.drew m], (List.append_nil _).symm, rfl, by simp, by simp⟩
    | error => exact hnil rfl rfl
    | panics => exact hnil rfl rfl
  have hsh : ∀ {s1 : State σ μ} {st : Stage} {ok : Bool} {c : Closed} {m : Main σ}, shutdown s st ok = some (s1, c) →
      ∃ new es, (s1.at m).threads = s.threads ++ new ∧ (s1.at m).trace = s.trace ++ es ∧
      (∀ t ∈ new, t.isSeq = false ∧ t.isCmd = false) ∧
      ∀ e ∈ es, (∃ m, e = .drew m) ∨ e = .cancelled ∨ ∃ st, e = .failed st := by
    intro s1 st ok c m h
    unfold shutdown at h
    split at h <;> (try split at h) <;> cases h <;>
      first
      | exact ⟨[], [], (List.append_nil _).symm, (List.append_nil _).symm, by simp, by simp⟩
      | exact ⟨[], _, (List.append_nil _).symm, rfl, by simp, by simp⟩
  unfold mainStep at h
  split at h
  case h_17 =>
    split at h
    · cases h
    · rename_i heq; cases h; exact hsh heq
    · rename_i heq; cases h; exact hsh heq
    · rename_i heq
      split at h <;> (cases h; exact hsh heq)
  all_goals
    repeat' split at h
    all_goals
      first
      | (cases h; done)
      | (cases h; exact hnil rfl rfl)
      | (cases h; exact hdr)
      | (cases h; exact hsp (by simp [Thread.isSeq, Thread.isCmd]))

theorem life_accept {p : Program σ μ} {s : State σ μ} (h : Life p s.threads s.trace) (c : Option Cmd) :
    Life p (accept s c).threads (accept s c).trace := by
  cases c with
  | none => exact h
  | some c => exact h.spawnCmd c

theorem life_update {p : Program σ μ} {s : State σ μ} (h : Life p s.threads s.trace) (md : σ) (m : Msg μ) :
    Life p (update p s md m).threads (update p s md m).trace := by
  unfold update
  split
  · exact h
  · exact h.log (by simp [Event.thread]) (by simp)

theorem step_life {p : Program σ μ} {s s' : State σ μ} {c : Choice μ} (h : Life p s.threads s.trace)
    (hs : step p s c = some s') : Life p s'.threads s'.trace := by
  unfold App.step at hs
  split at hs
  · cases hs
  cases c with
  | cancel =>
    cases hs
    exact h.log (by simp [Event.thread]) (by simp)
  | main a =>
    obtain ⟨new, es, h1, h2, h3, h4⟩ := mainStep_effect hs
    rw [h1, h2]
    refine (h.spawn h3).log ?_ ?_
    · intro e he
      rcases h4 e he with ⟨m, rfl⟩ | rfl | ⟨st, rfl⟩ <;> rfl
    · intro j cs he
      rcases h4 _ he with ⟨m, h⟩ | h | ⟨st, h⟩ <;> cases h
  | thread i a =>
    simp only at hs
    split at hs
    · cases hs
    · rename_i t ht
      rcases threadStep_local hs with ⟨h1, h2⟩ | ⟨t', es, h1, h2, hl⟩
      · rw [h1, h2]; exact h
      · rw [h1, h2]
        exact h.move ht hl
  | message i j ok =>
    simp only at hs
    split at hs
    · rename_i md t h1 h2
      split at hs
      · cases hs
      · rename_i m member t' heq
        cases hs
        have k : Life p ((s.log [.delivered i member m]).put i t').threads
            ((s.log [.delivered i member m]).put i t').trace := h.move h2 (offer_local heq)
        unfold receive
        split
        · exact k
        · exact k
        · split
          · exact life_update k _ _
          · exact k
        · exact life_update (k.spawnSeq _) _ _
        · exact life_update k _ _
    · cases hs
  | error i =>
    simp only at hs
    split at hs
    · rename_i md h1 h2
      cases hs
      have := h.move (es := []) h2 (local_plain (t' := .finished) rfl rfl (by simp) rfl rfl (by simp) (by simp) (by simp))
      rw [List.append_nil] at this
      exact this
    · cases hs
  | fromMain j =>
    simp only at hs
    split at hs
    · cases hs
      exact life_accept h _
    · cases hs
  | fromInit i j =>
    simp only at hs
    split at hs
    · rename_i c h1 h2
      cases hs
      have := h.move (es := []) h1 (local_plain (t' := .finished) rfl rfl (by simp) rfl rfl (by simp) (by simp) (by simp))
      rw [List.append_nil] at this
      exact life_accept (s := s.put i .finished) this _
    · cases hs

theorem run_life {p : Program σ μ} {cs : List (Choice μ)} {s : State σ μ} (h : run p cs = some s) :
    Life p s.threads s.trace :=
  run_induction (P := fun s => Life p s.threads s.trace)
    ⟨by simp [State.start], by simp [State.start], by simp [State.start], by simp [State.start],
      by simp [State.start], by simp [State.start]⟩
    (fun _ _ _ h _ hs => step_life h hs) h

theorem SeqState.inOrder {p : Program σ μ} {i : Nat} {cs : List (Option Cmd)} {t : Thread μ}
    {es : List (Event σ μ)} (h : SeqState p i cs t es) : InOrder p i cs es := by
  unfold SeqState at h
  split at h
  · obtain ⟨ds, rfl, hp⟩ := h
    exact ⟨ds, _, es, [], rfl, (List.append_nil _).symm, hp, .inl rfl⟩
  · obtain ⟨ds, es₁, rfl, hp, rfl⟩ := h
    exact ⟨ds, _, es₁, _, rfl, rfl, hp, .inr ⟨_, _, rfl, .inl rfl⟩⟩
  · obtain ⟨ds, es₁, c, rfl, hp, rfl, hk, hb⟩ := h
    exact ⟨ds, _, es₁, _, rfl, rfl, hp, .inr ⟨_, _, rfl, .inl rfl⟩⟩
  · rename_i ms rest
    obtain ⟨ds, es₁, c, k, cmds, more, rfl, hp, hc, rfl, h5, h6, h7⟩ := h
    refine ⟨ds, _, es₁, _, rfl, rfl, hp, .inr ⟨_, _, rfl, .inr ⟨k, cmds, more, hc, rfl, h5, ?_⟩⟩⟩
    intro j c' hj
    have hlt : j < ms.length := by
      have := (List.getElem?_eq_some_iff.1 hj).1
      omega
    have := h7 j _ c' (List.getElem?_eq_getElem hlt) hj
    cases hm : ms[j] with
    | call c => rw [hm] at this; exact .inl this.2
    | send m =>
      rw [hm] at this
      obtain ⟨c, k, h1, _, h2⟩ := this
      exact .inr (.inl ⟨c, h1, h2⟩)
    | finished =>
      rw [hm] at this
      exact .inr (.inr this)
  · exact ⟨cs, [], es, [], (List.append_nil _).symm, (List.append_nil _).symm, h, .inl rfl⟩
  · exact h.elim

/-! ### C52: messages are given up only when the context is done -/

/-- The context is done only if it was cancelled, and no message was given up before. -/
structure Drops (s : State σ μ) : Prop where
  done : s.done = true → .cancelled ∈ s.trace
  drops : ∀ pre i j m post, s.trace = pre ++ .dropped i j m :: post → .cancelled ∈ pre

theorem drops_append {tr es : List (Event σ μ)} {done : Bool} (hd : done = true → .cancelled ∈ tr)
    (h : ∀ pre i j m post, tr = pre ++ .dropped i j m :: post → .cancelled ∈ pre)
    (he : ∀ i j m, .dropped i j m ∈ es → done = true) :
    ∀ pre i j m post, tr ++ es = pre ++ .dropped i j m :: post → .cancelled ∈ pre := by
  intro pre i j m post heq
  rcases List.append_eq_append_iff.1 heq with ⟨a, h1, h2⟩ | ⟨a, h1, h2⟩
  · rw [h1]
    refine List.mem_append_left _ (hd (he i j m ?_))
    rw [h2]
    simp
  · cases a with
    | nil =>
      simp only [List.append_nil, List.nil_append] at h1 h2
      rw [← h1]
      exact hd (he i j m (by rw [← h2]; simp))
    | cons e a =>
      simp only [List.cons_append, List.cons.injEq] at h2
      exact h pre i j m a (by rw [h1, h2.1])

theorem threadStep_drops {p : Program σ μ} {s s' : State σ μ} {i : Nat} {t : Thread μ} {a : ThreadChoice μ}
    (h : threadStep p s i t a = some s') : ∃ es, s'.trace = s.trace ++ es ∧
      (∀ i j m, .dropped i j m ∈ es → s.done = true) ∧ (s'.done = s.done ∨ .cancelled ∈ es) := by
  unfold threadStep at h
  split at h
  case h_5 =>
    have hsp : ∀ {s1 : State σ μ} {st : Stage} {ok : Bool} {c : Closed}, shutdown s st ok = some (s1, c) →
        ∃ es, s1.trace = s.trace ++ es ∧ (∀ i j m, .dropped i j m ∈ es → s.done = true) ∧
          (s1.done = s.done ∨ .cancelled ∈ es) := by
      intro s1 st ok c h
      unfold shutdown at h
      split at h <;> (try split at h) <;> cases h <;>
        first
        | exact ⟨[], (List.append_nil _).symm, by simp, .inl rfl⟩
        | exact ⟨_, rfl, by simp, .inl rfl⟩
        | exact ⟨_, rfl, by simp, .inr (by simp)⟩
    split at h
    · cases h
    · rename_i heq; cases h; have := hsp heq; exact this
    · rename_i heq; cases h; have := hsp heq; exact this
  all_goals
    repeat' split at h
    all_goals
      first
      | (cases h; done)
      | (cases h; exact ⟨[], (List.append_nil _).symm, fun _ _ _ h => absurd h List.not_mem_nil, .inl rfl⟩)
      | (cases h; exact ⟨_, rfl, fun _ _ _ _ => by assumption, .inl rfl⟩)
      | (cases h; exact ⟨_, rfl, by simp, .inl rfl⟩)

theorem Drops.extend {s s' : State σ μ} {es : List (Event σ μ)} (h : Drops s) (ht : s'.trace = s.trace ++ es)
    (he : ∀ i j m, .dropped i j m ∈ es → s.done = true) (hd : s'.done = s.done ∨ .cancelled ∈ es) : Drops s' := by
  refine ⟨?_, ?_⟩
  · intro hd'
    rw [ht]
    rcases hd with hd | hd
    · exact List.mem_append_left _ (h.done (hd ▸ hd'))
    · exact List.mem_append_right _ hd
  · rw [ht]
    exact drops_append h.done h.drops he

theorem mainStep_done {p : Program σ μ} {s s' : State σ μ} {a : MainChoice} (h : mainStep p s a = some s') :
    ∃ es, s'.trace = s.trace ++ es ∧ (∀ i j m, .dropped i j m ∉ es) ∧ (s'.done = s.done ∨ .cancelled ∈ es) := by
  have hsh : ∀ {s1 : State σ μ} {st : Stage} {ok : Bool} {c : Closed}, shutdown s st ok = some (s1, c) →
      ∃ es, s1.trace = s.trace ++ es ∧ (∀ i j m, .dropped i j m ∉ es) ∧ (s1.done = s.done ∨ .cancelled ∈ es) := by
    intro s1 st ok c h
    unfold shutdown at h
    split at h <;> (try split at h) <;> cases h <;>
      first
      | exact ⟨[], (List.append_nil _).symm, by simp, .inl rfl⟩
      | exact ⟨_, rfl, by simp, .inl rfl⟩
      | exact ⟨_, rfl, by simp, .inr (by simp)⟩
  have hdr : ∀ {m : σ} {d : Drawn} {next : Main σ} {r : Option σ},
      ∃ es, (drawn s m d next r).trace = s.trace ++ es ∧ (∀ i j m, .dropped i j m ∉ es) ∧
        ((drawn s m d next r).done = s.done ∨ .cancelled ∈ es) := by
    intro m d next r
    cases d with
    | ok hidden => exact ⟨[.drew m], rfl, by simp, .inl rfl⟩
    | error => exact ⟨[], (List.append_nil _).symm, by simp, .inl rfl⟩
    | panics => exact ⟨[], (List.append_nil _).symm, by simp, .inl rfl⟩
  unfold mainStep at h
  split at h
  case h_17 =>
    split at h
    · cases h
    · rename_i heq; cases h; have := hsh heq; exact this
    · rename_i heq; cases h; have := hsh heq; exact this
    · rename_i heq
      split at h <;> (cases h; have := hsh heq; exact this)
  all_goals
    repeat' split at h
    all_goals
      first
      | (cases h; done)
      | (cases h; exact ⟨[], (List.append_nil _).symm, by simp, .inl rfl⟩)
      | (cases h; exact hdr)

theorem accept_trace (s : State σ μ) (c : Option Cmd) : (accept s c).done = s.done ∧ ∃ es,
    (accept s c).trace = s.trace ++ es ∧
    ((c = none ∧ es = []) ∨ ∃ c', c = some c' ∧ es = [.started s.threads.length none (some c')]) := by
  cases c with
  | none => exact ⟨rfl, [], (List.append_nil _).symm, .inl ⟨rfl, rfl⟩⟩
  | some c => exact ⟨rfl, _, rfl, .inr ⟨c, rfl, rfl⟩⟩

/-- What taking a message adds to the record. -/
theorem receive_trace (p : Program σ μ) (s : State σ μ) (md : σ) (m : Option (Msg μ)) (ok : Bool) :
    (receive p s md m ok).done = s.done ∧ ∃ es₁ es₂, (receive p s md m ok).trace = s.trace ++ (es₁ ++ es₂) ∧
      ((es₁ = [] ∧ (∀ cs, m ≠ some (.sequence cs)) ∧ (receive p s md m ok).threads = s.threads) ∨
        ∃ cs, m = some (.sequence cs) ∧ es₁ = [.spawned s.threads.length cs] ∧
          (receive p s md m ok).threads = s.threads ++ [.seq cs]) ∧
      ((es₂ = [] ∧ ∀ md₁ c, (receive p s md m ok).main = .command md₁ c → s.main = .command md₁ c) ∨
        ∃ m' md' c, m = some m' ∧ p.update md m' = some (md', c) ∧ es₂ = [.updated m' c] ∧
          (receive p s md m ok).main = .command md' c) := by
  have hup : ∀ (s : State σ μ) (m' : Msg μ), (update p s md m').done = s.done ∧ (update p s md m').threads = s.threads ∧
      ∃ es₂, (update p s md m').trace = s.trace ++ es₂ ∧
      ((es₂ = [] ∧ ∀ md1 c, (update p s md m').main ≠ .command md1 c) ∨
        ∃ md' c, p.update md m' = some (md', c) ∧ es₂ = [.updated m' c] ∧
          (update p s md m').main = .command md' c) := by
    intro s m'
    unfold update
    split
    · exact ⟨rfl, rfl, [], (List.append_nil _).symm, .inl ⟨rfl, fun _ _ h => by cases h⟩⟩
    · rename_i md' c heq
      exact ⟨rfl, rfl, _, rfl, .inr ⟨md', c, heq, rfl, rfl⟩⟩
  have hup2 : ∀ (m' : Msg μ), (∀ cs, m' ≠ .sequence cs) →
      (update p s md m').done = s.done ∧ ∃ es₁ es₂, (update p s md m').trace = s.trace ++ (es₁ ++ es₂) ∧
      ((es₁ = [] ∧ (∀ cs, some m' ≠ some (Msg.sequence cs)) ∧ (update p s md m').threads = s.threads) ∨
        ∃ cs, some m' = some (Msg.sequence cs) ∧ es₁ = [.spawned s.threads.length cs] ∧
          (update p s md m').threads = s.threads ++ [.seq cs]) ∧
      ((es₂ = [] ∧ ∀ md1 c, (update p s md m').main = .command md1 c → s.main = .command md1 c) ∨
        ∃ m'' md' c, some m' = some m'' ∧ p.update md m'' = some (md', c) ∧ es₂ = [.updated m'' c] ∧
          (update p s md m').main = .command md' c) := by
    intro m' hq
    obtain ⟨h1, h2, es₂, h3, h4⟩ := hup s m'
    refine ⟨h1, [], es₂, h3, .inl ⟨rfl, fun cs h => hq cs (Option.some.inj h), h2⟩, ?_⟩
    rcases h4 with ⟨h4, h5⟩ | ⟨md', c, h4, h5, h6⟩
    · exact .inl ⟨h4, fun md1 c h => absurd h (h5 md1 c)⟩
    · exact .inr ⟨m', md', c, rfl, h4, h5, h6⟩
  match m with
  | none =>
    exact ⟨rfl, [], [], (List.append_nil _).symm, .inl ⟨rfl, by simp, rfl⟩, .inl ⟨rfl, fun _ _ h => h⟩⟩
  | some .quit =>
    exact ⟨rfl, [], [], (List.append_nil _).symm, .inl ⟨rfl, by simp, rfl⟩, .inl ⟨rfl, fun _ _ h => by cases h⟩⟩
  | some (.size w h) =>
    unfold receive
    simp only
    split
    · exact hup2 (.size w h) (by simp)
    · exact ⟨rfl, [], [], (List.append_nil _).symm, .inl ⟨rfl, by simp, rfl⟩, .inl ⟨rfl, fun _ _ h => by cases h⟩⟩
  | some (.sequence cs) =>
    obtain ⟨h1, h2, es₂, h3, h4⟩ := hup ((s.log [.spawned s.threads.length cs]).spawn [.seq cs]) (.sequence cs)
    refine ⟨h1, [.spawned s.threads.length cs], es₂, ?_, .inr ⟨cs, rfl, rfl, h2⟩, ?_⟩
    · rw [← List.append_assoc]; exact h3
    · rcases h4 with ⟨h4, h5⟩ | ⟨md', c, h4, h5, h6⟩
      · exact .inl ⟨h4, fun md1 c h => absurd h (h5 md1 c)⟩
      · exact .inr ⟨_, md', c, rfl, h4, h5, h6⟩
  | some (.user m) => exact hup2 (.user m) (by simp)
  | some (.batch cs) => exact hup2 (.batch cs) (by simp)

theorem step_drops {p : Program σ μ} {s s' : State σ μ} {c : Choice μ} (h : Drops s)
    (hs : step p s c = some s') : Drops s' := by
  unfold App.step at hs
  split at hs
  · cases hs
  cases c with
  | cancel =>
    cases hs
    exact h.extend (es := [.cancelled]) rfl (by simp) (.inr (by simp))
  | main a =>
    obtain ⟨es, h1, h2, h3⟩ := mainStep_done hs
    exact h.extend h1 (fun i j m hm => absurd hm (h2 i j m)) h3
  | thread i a =>
    simp only at hs
    split at hs
    · cases hs
    · obtain ⟨es, h1, h2, h3⟩ := threadStep_drops hs
      exact h.extend h1 h2 h3
  | message i j ok =>
    simp only at hs
    split at hs
    · rename_i md t h1 h2
      split at hs
      · cases hs
      · rename_i m member t' heq
        cases hs
        obtain ⟨k1, es₁, es₂, k2, k3, k4⟩ := receive_trace p ((s.log [.delivered i member m]).put i t') md m ok
        refine h.extend (es := .delivered i member m :: (es₁ ++ es₂)) ?_ ?_ (.inl k1)
        · rw [k2]; simp [State.put, State.log]
        · intro i' j' m' hm
          simp only [List.mem_cons, reduceCtorEq, false_or, List.mem_append] at hm
          rcases hm with hm | hm
          · rcases k3 with ⟨rfl, _⟩ | ⟨cs, _, rfl, _⟩ <;> simp at hm
          · rcases k4 with ⟨rfl, _⟩ | ⟨_, _, _, _, _, rfl, _⟩ <;> simp at hm
    · cases hs
  | error i =>
    simp only at hs
    split at hs
    · cases hs
      exact h.extend (es := []) (List.append_nil _).symm (by simp) (.inl rfl)
    · cases hs
  | fromMain j =>
    simp only at hs
    split at hs
    · rename_i md c h1 h2
      cases hs
      obtain ⟨k1, es, k2, k3⟩ := accept_trace s c
      refine h.extend (es := es) k2 ?_ (.inl k1)
      intro i j m hm
      rcases k3 with ⟨_, rfl⟩ | ⟨c', _, rfl⟩ <;> simp at hm
    · cases hs
  | fromInit i j =>
    simp only at hs
    split at hs
    · rename_i c h1 h2
      cases hs
      obtain ⟨k1, es, k2, k3⟩ := accept_trace (s.put i .finished) (some c)
      refine h.extend (es := es) k2 ?_ (.inl k1)
      intro i j m hm
      rcases k3 with ⟨_, rfl⟩ | ⟨c', _, rfl⟩ <;> simp at hm
    · cases hs

theorem run_drops {p : Program σ μ} {cs : List (Choice μ)} {s : State σ μ} (h : run p cs = some s) : Drops s :=
  run_induction (P := Drops) ⟨by simp [State.start], by simp [State.start]⟩ (fun _ _ _ h _ hs => step_drops h hs) h

end

end App

open App in
/-- The commands of a sequence run one after the other: a command starts only after the message of the one
before it (or, if that one returned a batch, the messages of all commands of the batch) was taken by the event
loop or given up. This holds for every sequence, in every execution. -/
theorem C52_in_order {σ μ : Type} (p : Program σ μ) (cs : List (Choice μ)) (s : App.State σ μ)
    (h : run p cs = some s) (i : Nat) (cmds : List (Option Cmd)) (hi : .spawned i cmds ∈ s.trace) :
    InOrder p i cmds (doings i s.trace) := by
  obtain ⟨t, _, hq⟩ := (run_life h).seqs i cmds hi
  exact hq.inOrder

open App in
example : ((run (demo none) (startup ++ [.thread 0 (.input 3), .message 0 0 true, .fromMain 3, .main (.drawn (.ok true)),
    .thread 4 (.go 0), .message 4 0 true, .fromMain 3, .main (.drawn (.ok true)), .thread 5 (.go 0), .thread 5 (.go 0)])).map
    fun s => (decide (.spawned 5 [some 1, some 2] ∈ s.trace), doings 5 s.trace)) =
    some (true, [.started 5 none (some 1)]) := by decide +kernel

open App in
/-- A message is given up only after the context was cancelled. -/
theorem C52_given_up {σ μ : Type} (p : Program σ μ) (cs : List (Choice μ)) (s : App.State σ μ)
    (h : run p cs = some s) (before after : List (Event σ μ)) (i : Nat) (j : Option Nat) (m : Option (Msg μ))
    (hs : s.trace = before ++ .dropped i j m :: after) : .cancelled ∈ before :=
  (run_drops h).drops before i j m after hs

open App in
example : ((run (demo none) (startup ++ [.thread 0 (.input 1), .message 0 0 true, .fromMain 3, .main (.drawn (.ok true)),
    .thread 4 (.go 0), .cancel, .thread 4 .giveUp])).map fun s => s.trace.drop (s.trace.length - 2)) =
    some [.cancelled, .dropped 4 none (some (.user 11))] := by decide +kernel

end Bento
