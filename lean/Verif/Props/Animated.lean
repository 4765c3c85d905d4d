import Verif.Lemmas.Animated
import Verif.Model.ThrobberExample

/-!
# C120: the animation of a running program
-/

namespace Bento

open App

variable {σ μ : Type} {T : Ticks μ} {p : Program σ μ} {throbber : σ → Throbber.State}

/-- **C120**: while the program runs, exactly one tick is on its way to `Update`, the one that the throbber accepts; and
the throbber is at the frame that counts the ticks so far. Once the context is cancelled, the tick may be given up, but
there is never a second one. -/
theorem C120_one_tick (ha : Animated T p throbber) {cs : List (Choice μ)} (hin : T.NotTyped cs) {s : App.State σ μ}
    (h : run p cs = some s) {m : σ} (hm : p.model? s.main = some m) :
    (throbber m).frame = T.taken s.trace ∧
    (T.onTheWay s = [(throbber m).tick] ∨ s.done = true ∧ T.onTheWay s = []) := by
  have hl := (run_inv ha hin h).later m hm
  refine ⟨hl.frame, ?_⟩
  rcases hl.way with hw | ⟨hw1, hw2⟩
  · left
    rw [← List.perm_singleton, List.perm_iff_count]
    intro x
    rw [hw, List.count_singleton]
    by_cases hx : x = (throbber m).tick
    · rw [hx]
      simp
    · rw [if_neg hx, if_neg]
      simp only [beq_iff_eq]
      exact fun e => hx e.symm
  · right
    refine ⟨hw1, ?_⟩
    rw [← List.perm_nil, List.perm_iff_count]
    intro x
    rw [hw2]
    rfl

/-- A tick that is being sent can be taken. -/
theorem App.sent_taken (ha : Animated T p throbber) {s : App.State σ μ} (hc : s.crashed = false) {m : σ}
    (hid : (throbber m).id = (throbber p.start).id) (htag : 0 ≤ (throbber m).tag)
    (hm : s.main = .select m) {i : Nat} {g : μ} (hi : s.threads[i]? = some (.send (some (.user g))))
    (ht : T.ofMsg g = some (throbber m).tick) :
    ∃ s' md' c, step p s (.message i 0 true) = some s' ∧ s'.main = .command md' c ∧
      (throbber md').frame = (throbber m).frame + 1 := by
  obtain ⟨md', c, hu, hth, _⟩ := ha.accepts m g _ _ _ hid htag ht (tick_accepted (throbber m))
  refine ⟨receive p ((s.log [.delivered i none (some (.user g))]).put i .finished) m (some (.user g)) true, md', some c,
    ?_, ?_, by rw [hth]⟩
  · unfold step
    simp only [hc, Bool.false_eq_true, if_false, hm, hi, offer]
  · unfold receive
    simp only
    unfold App.update
    rw [hu]
    rfl

/-- A command for a tick that was started can be called and its tick taken. -/
theorem App.called_taken (ha : Animated T p throbber) {s : App.State σ μ} (hc : s.crashed = false) {m : σ}
    (hid : (throbber m).id = (throbber p.start).id) (htag : 0 ≤ (throbber m).tag)
    (hm : s.main = .select m) {i : Nat} {c : Cmd} (hi : s.threads[i]? = some (.call c))
    (ht : T.ofCmd c = some (throbber m).tick) :
    ∃ s' md' c', runFrom p s [.thread i (.go 0), .message i 0 true] = some s' ∧ s'.main = .command md' c' ∧
      (throbber md').frame = (throbber m).frame + 1 := by
  obtain ⟨g, hg, htg⟩ := ha.sends c _ 0 ht
  have h1 : step p s (.thread i (.go 0)) = some (s.put i (.send (some (.user g)))) := by
    unfold step
    simp only [hc, Bool.false_eq_true, if_false, hi, threadStep, hg]
  have hi' : (s.put i (.send (some (.user g)))).threads[i]? = some (.send (some (.user g))) := by
    show (s.threads.set i _)[i]? = _
    exact List.getElem?_set_self (List.getElem?_eq_some_iff.1 hi).1
  obtain ⟨s', md', c', h2, h3, h4⟩ := App.sent_taken (s := s.put i (.send (some (.user g)))) ha hc hid htag hm hi' htg
  refine ⟨s', md', c', ?_, h3, h4⟩
  simp only [runFrom, h1, h2]

/-- **C120**, it goes on: whenever the program waits for a message, the next frame is at most three steps away, without
any input. -/
theorem C120_goes_on (ha : Animated T p throbber) {cs : List (Choice μ)} (hin : T.NotTyped cs) {s : App.State σ μ}
    (h : run p cs = some s) {m : σ} (hm : s.main = .select m) (hd : s.done = false) (hc : s.crashed = false) :
    ∃ cs' s' md' c, cs'.length ≤ 3 ∧ T.NotTyped cs' ∧ .cancel ∉ cs' ∧ runFrom p s cs' = some s' ∧
      s'.main = .command md' c ∧ (throbber md').frame = (throbber m).frame + 1 := by
  have hv := run_inv ha hin h
  have hl := hv.later m (by rw [hm]; rfl)
  have hid := hl.id
  have htag : 0 ≤ (throbber m).tag := by rw [hl.tag, hl.frame]; omega
  obtain ⟨_, hw⟩ := C120_one_tick ha hin h (m := m) (by rw [hm]; rfl)
  have hw : T.onTheWay s = [(throbber m).tick] := hw.resolve_right (by rw [hd]; simp)
  have hflat : s.threads.flatMap T.inThread = [(throbber m).tick] := by
    unfold Ticks.onTheWay at hw
    rw [hm] at hw
    exact hw
  have hmem : (throbber m).tick ∈ s.threads.flatMap T.inThread := by rw [hflat]; simp
  obtain ⟨t, ht, htick⟩ := List.mem_flatMap.1 hmem
  obtain ⟨i, hi⟩ := List.getElem?_of_mem ht
  obtain ⟨j, hj⟩ := List.getElem?_of_mem ((hv.ready (by rw [hm]; trivial)).resolve_right (by rw [hd]; simp))
  rcases hv.plain t ht with hn | ⟨c, rfl⟩ | ⟨c, rfl⟩ | ⟨g, k, rfl, hk⟩
  · rw [hn] at htick
    cases htick
  · -- the command of `Init` was not yet handed over
    have hoc : T.ofCmd c = some (throbber m).tick := by
      have : (throbber m).tick ∈ (T.ofCmd c).toList := htick
      simpa using this
    let s1 := accept (s.put i .finished) (some c)
    have h1 : step p s (.fromInit i j) = some s1 := by
      unfold step
      simp only [hc, Bool.false_eq_true, if_false, hi, hj]
      rfl
    have hlast : s1.threads[s.threads.length]? = some (.call c) := by
      show (s.threads.set i .finished ++ [.call c])[s.threads.length]? = _
      rw [List.getElem?_append_right (by simp)]
      simp
    obtain ⟨s', md', c', h2, h3, h4⟩ := App.called_taken (s := s1) ha hc hid htag hm hlast hoc
    refine ⟨[.fromInit i j, .thread s.threads.length (.go 0), .message s.threads.length 0 true], s', md', c', by simp,
      ?_, by simp, ?_, h3, h4⟩
    · intro i m hmem
      simp at hmem
    · rw [runFrom, h1]
      exact h2
  · have hoc : T.ofCmd c = some (throbber m).tick := by
      have : (throbber m).tick ∈ (T.ofCmd c).toList := htick
      simpa using this
    obtain ⟨s', md', c', h2, h3, h4⟩ := App.called_taken ha hc hid htag hm hi hoc
    refine ⟨_, s', md', c', by simp, ?_, by simp, h2, h3, h4⟩
    intro i m hmem
    simp at hmem
  · have hk' : T.ofMsg g = some (throbber m).tick := by
      have : (throbber m).tick ∈ (T.ofMsg g).toList := htick
      simpa using this
    obtain ⟨s', md', c', h2, h3, h4⟩ := App.sent_taken ha hc hid htag hm hi hk'
    refine ⟨[.message i 0 true], s', md', c', by simp, ?_, by simp, ?_, h3, h4⟩
    · intro i m hmem
      simp at hmem
    · simp only [runFrom, h2]

/-! ### The example program -/

/-- The ticks of the example program. -/
def ThrobberExample.ticks (id : Int) : Ticks ThrobberExample.Message where
  ofMsg
    | .tick t => some t
    | .input _ => none
  ofCmd c := if c = Lazygit.quitCmd then none else some ⟨(c : Int) - 1, id⟩

theorem ThrobberExample.ofCmd_tickCmd (id : Int) (t : Throbber.Tick) (ht : 0 ≤ t.tag) (hid : t.id = id) :
    (ThrobberExample.ticks id).ofCmd (ThrobberExample.tickCmd t) = some t := by
  obtain ⟨tag, tid⟩ := t
  unfold ThrobberExample.ticks ThrobberExample.tickCmd
  simp only at ht hid ⊢
  have hne : ¬ (tag.toNat + 1 : Nat) = Lazygit.quitCmd := Nat.succ_ne_zero _
  rw [if_neg hne, hid]
  congr 2
  show ((tag.toNat + 1 : Nat) : Int) - 1 = tag
  omega

/-- **C120**: the example program is such a program. -/
theorem C120_example (id : Int) (hid : 0 < id) :
    Animated (ThrobberExample.ticks id) (ThrobberExample.program id) ThrobberExample.Model.throbber := by
  have hq : ∀ c : Cmd, (ThrobberExample.ticks id).ofCmd c = if c = Lazygit.quitCmd then none else some ⟨(c : Int) - 1, id⟩ :=
    fun _ => rfl
  refine ⟨⟨rfl, rfl, hid⟩, ⟨_, rfl, ?_⟩, ?_, ?_, ?_, ?_⟩
  · exact ThrobberExample.ofCmd_tickCmd id _ (Int.le_refl 0) rfl
  · intro c t k hc
    rw [hq] at hc
    split at hc
    · cases hc
    · rename_i hne
      cases hc
      refine ⟨.tick ⟨(c : Int) - 1, id⟩, ?_, rfl⟩
      show Outcome.returns (some (if c = Lazygit.quitCmd then _ else _)) = _
      rw [if_neg hne]
  · intro md m t th t' h1 h2 hm hu
    cases m with
    | input m => cases hm
    | tick t0 =>
      cases hm
      refine ⟨{ md with throbber := th }, ThrobberExample.tickCmd t', ?_, rfl, ?_⟩
      · show some (ThrobberExample.update md (.user (.tick t))) = _
        unfold ThrobberExample.update
        simp only [hu]
      · unfold Throbber.State.tryUpdate at hu
        split at hu
        · cases hu
        · split at hu
          · cases hu
          · cases hu
            exact ThrobberExample.ofCmd_tickCmd id _ (by show 0 ≤ md.throbber.tag + 1; omega) h1
  · intro md g md' c hu hno
    replace hu : ThrobberExample.update md g = (md', c) := Option.some.inj hu
    unfold ThrobberExample.update at hu
    split at hu
    · rename_i t
      rw [hno _ t rfl rfl] at hu
      cases hu
      exact ⟨rfl, rfl⟩
    · split_ifs at hu <;> cases hu <;> exact ⟨rfl, rfl⟩
    · cases hu
      exact ⟨rfl, rfl⟩
  · intro c k m hc hm
    rw [hq] at hc
    split at hc
    · rename_i he
      replace hm : Outcome.returns (some (if c = Lazygit.quitCmd then _ else _)) = Outcome.returns m := hm
      rw [if_pos he] at hm
      cases hm
      rfl
    · cases hc

/-- The first two frames: the tick of `Init`, and that of the timer; the program waits with the next one on its way. -/
example : ∃ cs s m, (ThrobberExample.ticks 1).NotTyped cs ∧ run (ThrobberExample.program 1) cs = some s ∧
    s.main = .select m ∧ m.throbber.frame = 2 ∧ s.done = false ∧ s.crashed = false ∧
    (ThrobberExample.ticks 1).onTheWay s = [⟨2, 1⟩] ∧ (ThrobberExample.ticks 1).taken s.trace = 2 := by
  refine ⟨[.main (.op true), .main (.op true), .main (.op true), .main (.op true), .main (.drawn (.ok true)),
    .main (.op true), .main (.op true), .main (.op true), .fromInit 0 4, .thread 5 (.go 0), .message 5 0 true, .fromMain 4,
    .main (.drawn (.ok true)), .thread 6 (.go 0), .message 6 0 true, .fromMain 4, .main (.drawn (.ok true))],
    _, _, ?_, rfl, rfl, rfl, rfl, rfl, rfl, rfl⟩
  intro i m h
  simp at h

end Bento
