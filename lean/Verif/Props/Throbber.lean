import Verif.Spec.Throbber
import Verif.Props.Popup
import Verif.Props.Text

/-!
# Throbbers
-/

namespace Bento

open MeasureTheory

/-! ### C48: ticks -/

namespace Throbber

theorem tryUpdate_some {t t' : State} {m m' : Tick} (hm : 0 < m.id) (h : t.tryUpdate m = some (t', m')) :
    m.id = t.id ∧ (m.tag ≤ 0 ∨ m.tag = t.tag) ∧ t' = ⟨t.frame + 1, t.id, t.tag + 1⟩ ∧ m' = t'.tick := by
  unfold State.tryUpdate at h
  split at h
  · cases h
  split at h
  · cases h
  rename_i h1 h2
  simp only [Option.some.injEq, Prod.mk.injEq] at h
  refine ⟨by omega, by omega, h.1.symm, ?_⟩
  rw [← h.2, ← h.1]
  rfl

theorem offer_none (m : Tick) : ∀ ts : List State, (∀ t ∈ ts, t.tryUpdate m = none) → offer m ts = (ts, [])
  | [], _ => rfl
  | t :: ts, h => by
    unfold offer
    rw [offer_none m ts (fun t ht => h t (by simp [ht])), h t (by simp)]

theorem offer_spec (m : Tick) (hm : 0 < m.id) : ∀ ts : List State, (ts.map State.id).Nodup →
    offer m ts = (ts, []) ∨
    ∃ pre t post, ts = pre ++ t :: post ∧ m.id = t.id ∧ (m.tag ≤ 0 ∨ m.tag = t.tag) ∧
      offer m ts = (pre ++ ⟨t.frame + 1, t.id, t.tag + 1⟩ :: post, [⟨true, ⟨t.tag + 1, t.id⟩⟩])
  | [], _ => .inl rfl
  | t :: ts, hnd => by
    rw [List.map_cons, List.nodup_cons] at hnd
    cases h : t.tryUpdate m with
    | some r =>
      obtain ⟨t', m'⟩ := r
      obtain ⟨h1, h2, rfl, rfl⟩ := tryUpdate_some hm h
      right
      refine ⟨[], t, ts, rfl, h1, h2, ?_⟩
      unfold offer
      rw [h, offer_none m ts]
      · rfl
      · intro t2 ht2
        cases h' : t2.tryUpdate m with
        | none => rfl
        | some r =>
          obtain ⟨t2', m2'⟩ := r
          obtain ⟨k, _⟩ := tryUpdate_some hm h'
          exact absurd (List.mem_map_of_mem (f := State.id) ht2) (by rw [← k, h1]; exact hnd.1)
    | none =>
      rcases offer_spec m hm ts hnd.2 with e | ⟨pre, t2, post, e1, e2, e3, e4⟩
      · left
        unfold offer
        rw [h, e]
      · right
        refine ⟨t :: pre, t2, post, by rw [e1]; rfl, e2, e3, ?_⟩
        unfold offer
        rw [h, e4]
        rfl

/-- What holds in every state of a program with throbbers. -/
structure Inv (s : Sys) : Prop where
  ids : (s.throbbers.map State.id).Nodup
  lastId : 0 ≤ s.lastId
  known : ∀ t ∈ s.throbbers, 0 < t.id ∧ t.id ≤ s.lastId ∧ 0 ≤ t.tag ∧ t.frame = t.tag
  msgs : ∀ p ∈ s.pending, 0 < p.msg.id ∧ p.msg.id ≤ s.lastId ∧ 0 ≤ p.msg.tag ∧ (p.timer = true → 0 < p.msg.tag)
  old : ∀ p ∈ s.pending, ∀ t ∈ s.throbbers, p.msg.id = t.id → p.msg.tag ≤ t.tag
  one : ∀ t ∈ s.throbbers, (s.pending.filter fun p => p.timer && (p.msg == t.tick)).length ≤ 1

theorem Inv.step {s : Sys} (h : Inv s) (e : Event) : Inv (step s e) := by
  obtain ⟨h1, h2, h3, h4, h5, h6⟩ := h
  cases e with
  | make =>
    simp only [Throbber.step]
    refine ⟨?_, by simp only; omega, ?_, ?_, ?_, ?_⟩
    · simp only [List.map_append, List.map_cons, List.map_nil]
      rw [List.nodup_append]
      refine ⟨h1, by simp, ?_⟩
      intro a ha b hb
      simp only [List.mem_map] at ha
      obtain ⟨t, ht, rfl⟩ := ha
      simp only [List.mem_singleton] at hb
      rw [hb]
      have := h3 t ht
      unfold State.new
      simp only
      omega
    · intro t ht
      simp only [List.mem_append, List.mem_singleton] at ht
      rcases ht with ht | rfl
      · have := h3 t ht; simp only; omega
      · exact ⟨by unfold State.new; simp only; omega, Int.le_refl _, Int.le_refl _, rfl⟩
    · intro p hp
      have := h4 p hp
      refine ⟨this.1, ?_, this.2.2⟩
      simp only
      omega
    · intro p hp t ht hid
      simp only [List.mem_append, List.mem_singleton] at ht
      rcases ht with ht | rfl
      · exact h5 p hp t ht hid
      · have := h4 p hp
        unfold State.new at hid
        simp only at hid
        omega
    · intro t ht
      simp only [List.mem_append, List.mem_singleton] at ht
      rcases ht with ht | rfl
      · exact h6 t ht
      · rw [List.filter_eq_nil_iff.2]
        · simp
        · intro p hp
          have := h4 p hp
          simp only [Bool.and_eq_true, beq_iff_eq, not_and]
          intro _ h
          rw [h] at this
          unfold State.tick State.new at this
          simp only at this
          omega
  | start j =>
    cases hj : s.throbbers[j]? with
    | none =>
      simp only [Throbber.step, hj]
      exact ⟨h1, h2, h3, h4, h5, h6⟩
    | some t =>
      simp only [Throbber.step, hj]
      have ht : t ∈ s.throbbers := List.mem_of_getElem? hj
      have hk := h3 t ht
      have huniq : ∀ t2 ∈ s.throbbers, t2.id = t.id → t2 = t := by
        intro t2 ht2 hid
        exact List.inj_on_of_nodup_map h1 ht2 ht hid
      refine ⟨h1, h2, h3, ?_, ?_, ?_⟩
      · intro p hp
        simp only [List.mem_append, List.mem_singleton] at hp
        rcases hp with hp | rfl
        · exact h4 p hp
        · exact ⟨hk.1, hk.2.1, hk.2.2.1, by simp⟩
      · intro p hp t2 ht2 hid
        simp only [List.mem_append, List.mem_singleton] at hp
        rcases hp with hp | rfl
        · exact h5 p hp t2 ht2 hid
        · rw [huniq t2 ht2 hid.symm]; exact Int.le_refl _
      · intro t2 ht2
        simp only [List.filter_append, List.length_append]
        have := h6 t2 ht2
        simp
        exact this
  | arrive i =>
    cases hi : s.pending[i]? with
    | none =>
      simp only [Throbber.step, hi]
      exact ⟨h1, h2, h3, h4, h5, h6⟩
    | some p =>
      simp only [Throbber.step, hi]
      have hp : p ∈ s.pending := List.mem_of_getElem? hi
      have hsub : ∀ p ∈ s.pending.eraseIdx i, p ∈ s.pending := fun p hp => (List.eraseIdx_sublist ..).subset hp
      have hone : ∀ t ∈ s.throbbers,
          ((s.pending.eraseIdx i).filter fun p => p.timer && (p.msg == t.tick)).length ≤ 1 := by
        intro t ht
        exact Nat.le_trans ((List.eraseIdx_sublist ..).filter _).length_le (h6 t ht)
      rcases offer_spec p.msg (h4 p hp).1 s.throbbers h1 with e | ⟨pre, t, post, e1, e2, e3, e4⟩
      · simp only [e, List.append_nil]
        exact ⟨h1, h2, h3, fun p hp => h4 p (hsub p hp), fun p hp => h5 p (hsub p hp), hone⟩
      · simp only [e4]
        have ht : t ∈ s.throbbers := by rw [e1]; simp
        have hk := h3 t ht
        have hother : ∀ t2, t2 ∈ pre ∨ t2 ∈ post → t2 ∈ s.throbbers ∧ t2.id ≠ t.id := by
          intro t2 ht2
          have hnd := h1
          rw [e1, List.map_append, List.map_cons, List.nodup_append, List.nodup_cons] at hnd
          rcases ht2 with ht2 | ht2
          · refine ⟨by rw [e1]; simp [ht2], ?_⟩
            exact hnd.2.2 t2.id (List.mem_map_of_mem ht2) t.id (by simp)
          · refine ⟨by rw [e1]; simp [ht2], ?_⟩
            intro h
            exact hnd.2.1.1 (by rw [← h]; exact List.mem_map_of_mem ht2)
        have hmem : ∀ t2, t2 ∈ pre ++ (⟨t.frame + 1, t.id, t.tag + 1⟩ : State) :: post →
            t2 = ⟨t.frame + 1, t.id, t.tag + 1⟩ ∨ (t2 ∈ s.throbbers ∧ t2.id ≠ t.id) := by
          intro t2 h
          simp only [List.mem_append, List.mem_cons] at h
          rcases h with h | h | h
          · exact .inr (hother t2 (.inl h))
          · exact .inl h
          · exact .inr (hother t2 (.inr h))
        refine ⟨?_, h2, ?_, ?_, ?_, ?_⟩
        · rw [e1] at h1
          simpa using h1
        · intro t2 ht2
          rcases hmem t2 ht2 with rfl | ⟨h, _⟩
          · simp only; omega
          · exact h3 t2 h
        · intro p2 hp2
          simp only [List.mem_append, List.mem_singleton] at hp2
          rcases hp2 with hp2 | rfl
          · exact h4 p2 (hsub p2 hp2)
          · simp only; exact ⟨hk.1, hk.2.1, by omega, fun _ => by omega⟩
        · intro p2 hp2 t2 ht2 hid
          simp only [List.mem_append, List.mem_singleton] at hp2
          rcases hmem t2 ht2 with rfl | ⟨h, hne⟩
          · rcases hp2 with hp2 | rfl
            · have := h5 p2 (hsub p2 hp2) t ht hid
              simp only
              omega
            · exact Int.le_refl _
          · rcases hp2 with hp2 | rfl
            · exact h5 p2 (hsub p2 hp2) t2 h hid
            · exact absurd hid.symm hne
        · intro t2 ht2
          rw [List.filter_append, List.length_append]
          rcases hmem t2 ht2 with rfl | ⟨h, hne⟩
          · rw [List.filter_eq_nil_iff.2]
            · exact Nat.le_trans (Nat.add_le_add_left (List.length_filter_le _ _) _) (by simp)
            · intro p2 hp2
              simp only [Bool.and_eq_true, beq_iff_eq, not_and]
              intro _ hm
              have := h5 p2 (hsub p2 hp2) t ht (by rw [hm]; rfl)
              rw [hm] at this
              unfold State.tick at this
              simp only at this
              omega
          · have : ([⟨true, ⟨t.tag + 1, t.id⟩⟩] : List Pending).filter (fun p => p.timer && (p.msg == t2.tick)) = [] := by
              rw [List.filter_eq_nil_iff]
              intro p2 hp2
              simp only [List.mem_singleton] at hp2
              subst hp2
              simp only [Bool.true_and, beq_iff_eq]
              unfold State.tick
              simp only [Tick.mk.injEq]
              exact fun h => hne h.2.symm
            rw [this]
            exact hone t2 h

theorem inv_run (events : List Event) : Inv (run events) := by
  have : ∀ (events : List Event) (s : Sys), Inv s → Inv (events.foldl Throbber.step s) := by
    intro events
    induction events with
    | nil => exact fun s h => h
    | cons e events ih => exact fun s h => ih _ (h.step e)
  exact this events _ ⟨by simp, by simp, by simp, by simp, by simp, by simp⟩

end Throbber

open Throbber in
/-- However often throbbers are started, no throbber has more than one timer that it will listen to. -/
theorem C48_one_timer (events : List Event) : ∀ t ∈ (run events).throbbers,
    ((run events).pending.filter fun p => p.timer && (t.tryUpdate p.msg).isSome).length ≤ 1 := by
  intro t ht
  have h := inv_run events
  rw [List.filter_congr (q := fun p => p.timer && (p.msg == t.tick))]
  · exact h.one t ht
  · intro p hp
    have hm := h.msgs p hp
    cases hpt : p.timer with
    | false => rfl
    | true =>
      have h4 := hm.2.2.2 hpt
      rw [Bool.true_and, Bool.true_and, Bool.eq_iff_iff, beq_iff_eq]
      unfold State.tryUpdate State.tick
      obtain ⟨ti, ⟨tag, id⟩⟩ := p
      simp only [Tick.mk.injEq] at *
      split
      · simp; omega
      split
      · simp; omega
      · simp; omega

open Throbber in
/-- Each arriving message advances at most one throbber, the one it was made for, by one frame; otherwise
nothing changes. -/
theorem C48_one_frame (events : List Event) (i : Nat) :
    (run (events ++ [.arrive i])).throbbers = (run events).throbbers ∨
    ∃ pre t post p, (run events).pending[i]? = some p ∧ p.msg.id = t.id ∧
      (run events).throbbers = pre ++ t :: post ∧
      (run (events ++ [.arrive i])).throbbers = pre ++ ⟨t.frame + 1, t.id, t.tag + 1⟩ :: post := by
  have h := inv_run events
  have e : run (events ++ [.arrive i]) = step (run events) (.arrive i) := by
    unfold run
    rw [List.foldl_append]
    rfl
  rw [e]
  cases hi : (run events).pending[i]? with
  | none =>
    left
    simp only [step, hi]
  | some p =>
    simp only [step, hi]
    have hp : p ∈ (run events).pending := List.mem_of_getElem? hi
    rcases offer_spec p.msg (h.msgs p hp).1 (run events).throbbers h.ids with e | ⟨pre, t, post, e1, e2, e3, e4⟩
    · left; simp only [e]
    · exact .inr ⟨pre, t, post, p, rfl, e2, e1, by simp only [e4]⟩

open Throbber in
/-- A throbber keeps its ID, and its tag never decreases. -/
theorem Throbber.tag_grows (events more : List Event) : ∀ t ∈ (run events).throbbers,
    ∃ t' ∈ (run (events ++ more)).throbbers, t'.id = t.id ∧ t.tag ≤ t'.tag := by
  have key : ∀ (more : List Event) (s : Sys), Inv s → ∀ t ∈ s.throbbers,
      ∃ t' ∈ (more.foldl step s).throbbers, t'.id = t.id ∧ t.tag ≤ t'.tag := by
    intro more
    induction more with
    | nil => exact fun s _ t ht => ⟨t, ht, rfl, Int.le_refl _⟩
    | cons e more ih =>
      intro s hs t ht
      have h1 : ∃ t1 ∈ (step s e).throbbers, t1.id = t.id ∧ t.tag ≤ t1.tag := by
        cases e with
        | make => exact ⟨t, by unfold step; simp [ht], rfl, Int.le_refl _⟩
        | start j =>
          refine ⟨t, ?_, rfl, Int.le_refl _⟩
          cases hj : s.throbbers[j]? <;> simp only [step, hj] <;> exact ht
        | arrive i =>
          cases hi : s.pending[i]? with
          | none =>
            simp only [step, hi]
            exact ⟨t, ht, rfl, Int.le_refl _⟩
          | some p =>
            simp only [step, hi]
            have hp : p ∈ s.pending := List.mem_of_getElem? hi
            rcases offer_spec p.msg (hs.msgs p hp).1 s.throbbers hs.ids with e | ⟨pre, t2, post, e1, e2, e3, e4⟩
            · simp only [e]; exact ⟨t, ht, rfl, Int.le_refl _⟩
            · simp only [e4]
              rw [e1] at ht
              simp only [List.mem_append, List.mem_cons] at ht
              rcases ht with ht | rfl | ht
              · exact ⟨t, by simp [ht], rfl, Int.le_refl _⟩
              · exact ⟨⟨t.frame + 1, t.id, t.tag + 1⟩, by simp, rfl, by simp only; omega⟩
              · exact ⟨t, by simp [ht], rfl, Int.le_refl _⟩
      obtain ⟨t1, m1, i1, l1⟩ := h1
      obtain ⟨t', m', i', l'⟩ := ih (step s e) (hs.step e) t1 m1
      exact ⟨t', m', i'.trans i1, by omega⟩
  intro t ht
  have := key more (run events) (inv_run events) t ht
  unfold run at *
  rw [List.foldl_append]
  exact this

open Throbber in
/-- **C48 (partial).** A tick that a throbber has left behind is ignored by all throbbers, from then on forever.
Missing: ticks made before the first advance, for which it is false. -/
theorem C48_stale_partial (events more : List Event) (t : State) (ht : t ∈ (run events).throbbers) (m : Tick)
    (hid : m.id = t.id) (h0 : 0 < m.tag) (hlt : m.tag < t.tag) :
    ∀ t' ∈ (run (events ++ more)).throbbers, t'.tryUpdate m = none := by
  intro t' ht'
  have hpos := ((inv_run events).known t ht).1
  obtain ⟨t2, m2, i2, l2⟩ := tag_grows events more t ht
  cases h : t'.tryUpdate m with
  | none => rfl
  | some r =>
    obtain ⟨a, b⟩ := r
    obtain ⟨k1, k2, _⟩ := tryUpdate_some (by omega) h
    have : t' = t2 := List.inj_on_of_nodup_map (inv_run (events ++ more)).ids ht' m2 (by omega)
    subst this
    omega

open Throbber in
/-- In every state the number of frames a throbber has advanced is its tag: the ticks it has accepted. -/
theorem C48_frame_count (events : List Event) : ∀ t ∈ (run events).throbbers, t.frame = t.tag :=
  fun t ht => ((inv_run events).known t ht).2.2.2

open Throbber in
/-- **C48 (negation).** Started twice, a throbber accepts the second tick although it has advanced since that
tick was made. -/
theorem C48_restart_false :
    (run [.make, .start 0, .start 0, .arrive 0]).throbbers = [⟨1, 1, 1⟩] ∧
    (run [.make, .start 0, .start 0, .arrive 0]).pending = [⟨false, ⟨0, 1⟩⟩, ⟨true, ⟨1, 1⟩⟩] ∧
    (run [.make, .start 0, .start 0, .arrive 0, .arrive 0]).throbbers = [⟨2, 1, 2⟩] := by
  decide +kernel

open Throbber in
/-- Two throbbers, one of them started again while it runs: the stale tick is ignored. -/
example : (run [.make, .make, .start 0, .arrive 0, .start 0, .arrive 0, .arrive 0]).throbbers =
    [⟨2, 1, 2⟩, ⟨0, 2, 0⟩] := by
  decide +kernel

/-! ### C74: drawing a throbber -/

open Throbber in
/-- The frames are shown in turn, over and over. -/
theorem C74_cycle (set : List (List Char)) (hset : set ≠ []) (frame : Int) (h0 : 0 ≤ frame) :
    frameOf set frame = set[(frame % set.length).toNat]? ∧ (frameOf set frame).isSome = true ∧
      frameOf set (frame + set.length) = frameOf set frame := by
  have hl : 0 < set.length := List.length_pos_iff.2 hset
  have key : ∀ frame : Int, 0 ≤ frame → frameOf set frame = set[(frame % set.length).toNat]? := by
    intro frame h0
    unfold frameOf
    rw [if_neg hset, Int.tmod_eq_emod_of_nonneg h0]
    simp only
    rw [if_neg]
    have := Int.emod_nonneg frame (b := (set.length : Int)) (by omega)
    omega
  refine ⟨key frame h0, ?_, ?_⟩
  · rw [key frame h0]
    have h1 := Int.emod_nonneg frame (b := (set.length : Int)) (by omega)
    have h2 := Int.emod_lt_of_pos frame (b := (set.length : Int)) (by omega)
    rw [List.getElem?_eq_getElem (by omega)]
    rfl
  · rw [key frame h0, key _ (by omega), Int.add_emod_right]

/-- **C74.** Drawing a throbber does not panic and changes only cells of its area inside the buffer, if the
layouts come to an end (see `C74_almost_surely`). -/
theorem C74_confined (ω ω' : Nat → Nat) (fuel : Nat) (u : Uniseg) (t : Throbber) (hset : t.set ≠ [])
    (area : Rect) (b : Buffer) (wf : b.WF) (s : Throbber.State) (h0 : 0 ≤ s.frame)
    (hp : 0 ≤ t.padding.top ∧ 0 ≤ t.padding.right ∧ 0 ≤ t.padding.bottom ∧ 0 ≤ t.padding.left) :
    t.render ω ω' fuel u area b s = .running ∨
    ∃ b' : Buffer, t.render ω ω' fuel u area b s = .ok b' ∧ b'.area = b.area ∧ b'.WF ∧
      ∀ q, ¬ Clipped b area q → b'.cellAt q = b.cellAt q := by
  obtain ⟨_, h, _⟩ := C74_cycle t.set hset s.frame h0
  obtain ⟨frame, hf⟩ := Option.isSome_iff_exists.1 h
  unfold Throbber.render
  rw [hf]
  simp only
  rcases Popup.unwrap_split ω fuel ⟨.vertical, [.len ((newLinesStr frame).length : Nat)], t.padding, t.vertical, .space 0⟩
    rfl area with h | ⟨r1, h, h1⟩
  · left; rw [h]
  rw [h]
  simp only
  rcases Popup.unwrap_split ω' fuel ⟨.horizontal, [.len (((newLinesStr frame).map (Line.width u)).foldl max 0 : Nat)],
    t.padding, t.horizontal, .space 0⟩ rfl r1 with h | ⟨r, h, h2⟩
  · left; rw [h]
  rw [h]
  simp only
  obtain ⟨b', e', a', wf', c'⟩ := C32_text_confined u { newTextStr frame with style := t.style } r b wf
  right
  rw [e']
  refine ⟨b', rfl, a', wf', fun q hq => c' q (fun hc => hq ⟨?_, hc.2⟩)⟩
  have hc := hc.1
  obtain ⟨a1, a2⟩ := Rect.inner_inside hp .vertical h1
  obtain ⟨c1, c2⟩ := Rect.inner_inside hp .horizontal h2
  by_cases k2 : r1.width < t.padding.left + t.padding.right ∨ r1.height < t.padding.top + t.padding.bottom
  · rw [c1 k2 q] at hc; cases hc
  have c2 := c2 (by omega) (by omega)
  by_cases k1 : area.width < t.padding.left + t.padding.right ∨ area.height < t.padding.top + t.padding.bottom
  · have := a1 k1 q
    rw [← Bool.not_eq_true, Rect.contains_iff] at this
    rw [Rect.contains_iff] at hc
    unfold Rect.Mem at *
    omega
  · have a2 := a2 (by omega) (by omega)
    rw [Rect.contains_iff] at *
    unfold Rect.Mem at *
    omega

/-- **C74**, termination: a throbber is drawn, inside its area, with probability one over the orders of the
maps of its two layouts. -/
theorem C74_almost_surely (u : Uniseg) (t : Throbber) (hset : t.set ≠ []) (area : Rect) (b : Buffer) (wf : b.WF)
    (s : Throbber.State) (h0 : 0 ≤ s.frame)
    (hp : 0 ≤ t.padding.top ∧ 0 ≤ t.padding.right ∧ 0 ≤ t.padding.bottom ∧ 0 ≤ t.padding.left)
    (μ : ℕ → Measure ℕ) [∀ i, IsProbabilityMeasure (μ i)] {ε : ENNReal} (hε : ε ≠ 0) (hμ : ∀ i, ε ≤ μ i {0}) :
    ∀ᵐ ω ∂(Measure.infinitePi μ), ∀ᵐ ω' ∂(Measure.infinitePi μ), ∃ n, ∀ fuel, n ≤ fuel →
      ∃ b' : Buffer, t.render ω ω' fuel u area b s = .ok b' ∧ b'.area = b.area ∧ b'.WF ∧
        ∀ q, ¬ Clipped b area q → b'.cellAt q = b.cellAt q := by
  obtain ⟨_, h, _⟩ := C74_cycle t.set hset s.frame h0
  obtain ⟨frame, hf⟩ := Option.isSome_iff_exists.1 h
  filter_upwards [Popup.nested_almost_surely
    ⟨.vertical, [.len ((newLinesStr frame).length : Nat)], t.padding, t.vertical, .space 0⟩
    ⟨.horizontal, [.len (((newLinesStr frame).map (Line.width u)).foldl max 0 : Nat)], t.padding, t.horizontal, .space 0⟩
    rfl rfl area μ hε hμ] with ω hω
  filter_upwards [hω] with ω' ⟨n, hn⟩
  refine ⟨n, fun fuel hfu => ?_⟩
  obtain ⟨r, r', h1, h2⟩ := hn fuel hfu
  rcases C74_confined ω ω' fuel u t hset area b wf s h0 hp with hr | hr
  · unfold Throbber.render at hr
    rw [hf] at hr
    simp only [h1, h2] at hr
    split at hr <;> cases hr
  · exact hr

/-- The hypotheses on the throbber are met by the default one. -/
example : Throbber.new.set ≠ [] ∧ (0 ≤ Throbber.new.padding.top ∧ 0 ≤ Throbber.new.padding.right ∧
    0 ≤ Throbber.new.padding.bottom ∧ 0 ≤ Throbber.new.padding.left) := by decide

/-! ### C87: the place of a throbber -/

/-- A throbber is drawn where a popup of the size of its frame would be. -/
def Throbber.asPopup (t : Throbber) (width height : Nat) : Popup :=
  ⟨none, t.horizontal, t.vertical, t.style, .len width, .len height, none, t.padding⟩

theorem Throbber.render_place (ω ω' : Nat → Nat) (fuel : Nat) (u : Uniseg) (t : Throbber) (area : Rect) (b : Buffer)
    (s : Throbber.State) {frame : List Char} (hf : Throbber.frameOf t.set s.frame = some frame) :
    t.render ω ω' fuel u area b s =
      match (t.asPopup (((newLinesStr frame).map (Line.width u)).foldl max 0) (newLinesStr frame).length).place
        ω ω' fuel area with
      | .panics => .panics
      | .running => .running
      | .ok r => match ({ newTextStr frame with style := t.style } : Text).render u r b with
        | some b => .ok b
        | none => .panics := by
  unfold Throbber.render Popup.place Throbber.asPopup
  rw [hf]
  simp only
  cases Popup.unwrap (Layout.splitWithSpacers ω fuel
    ⟨.vertical, [.len ((newLinesStr frame).length : Nat)], t.padding, t.vertical, .space 0⟩ area) <;> rfl

/-- **C87.** If all frames of a throbber have the same size, it stays in its place: there is one rectangle in
which every frame is drawn, whatever its number, the order of the maps and what is on the screen. -/
theorem C87_steady_partial (u : Uniseg) (t : Throbber) (area : Rect)
    (hv : t.vertical ≠ .spaceAround) (hh : t.horizontal ≠ .spaceAround) (width height : Nat)
    (hdim : ∀ frame ∈ t.set, ((newLinesStr frame).map (Line.width u)).foldl max 0 = width ∧
      (newLinesStr frame).length = height) :
    ∃ r : Rect, ∀ (ω ω' : Nat → Nat) (fuel : Nat) (b : Buffer) (s : Throbber.State) (frame : List Char),
      Throbber.frameOf t.set s.frame = some frame →
      t.render ω ω' fuel u area b s = .running ∨
      t.render ω ω' fuel u area b s =
        match ({ newTextStr frame with style := t.style } : Text).render u r b with
        | some b => .ok b
        | none => .panics := by
  have hmem : ∀ (n : Int) (frame : List Char), Throbber.frameOf t.set n = some frame → frame ∈ t.set := by
    intro n frame h
    unfold Throbber.frameOf at h
    split at h
    · cases h
    · simp only at h
      split at h
      · cases h
      · exact List.mem_of_getElem? h
  by_cases hex : ∃ ω ω' fuel, ∃ r, (t.asPopup width height).place ω ω' fuel area = .ok r
  · obtain ⟨η, η', fuel', r, hr⟩ := hex
    refine ⟨r, fun ω ω' fuel b s frame hf => ?_⟩
    rw [Throbber.render_place ω ω' fuel u t area b s hf]
    obtain ⟨e1, e2⟩ := hdim frame (hmem _ _ hf)
    rw [e1, e2]
    by_cases hrun : (t.asPopup width height).place ω ω' fuel area = .running
    · left; rw [hrun]
    · right
      rw [Popup.place_same (p := t.asPopup width height) hv hh (by rw [hr]; exact fun h => nomatch h) hrun, hr]
  · refine ⟨area, fun ω ω' fuel b s frame hf => Or.inl ?_⟩
    rw [Throbber.render_place ω ω' fuel u t area b s hf]
    obtain ⟨e1, e2⟩ := hdim frame (hmem _ _ hf)
    rw [e1, e2]
    have : (t.asPopup width height).place ω ω' fuel area = .running := by
      unfold Popup.place
      rcases Popup.unwrap_split ω fuel ⟨.vertical, [(t.asPopup width height).height], (t.asPopup width height).padding,
        (t.asPopup width height).vertical, .space 0⟩ rfl area with h | ⟨r1, h, _⟩
      · rw [h]
      rw [h]
      simp only
      rcases Popup.unwrap_split ω' fuel ⟨.horizontal, [(t.asPopup width height).width],
        (t.asPopup width height).padding, (t.asPopup width height).horizontal, .space 0⟩ rfl r1 with h' | ⟨r2, h', _⟩
      · rw [h']
      · exfalso
        apply hex
        refine ⟨ω, ω', fuel, r2, ?_⟩
        unfold Popup.place
        rw [h]
        exact h'
    rw [this]

/-- All built-in sets but the ellipsis meet the hypothesis (their symbols being one column wide). -/
example : ∀ k : Throbber.Kind, k ≠ .ellipsis → ∃ width height, ∀ frame ∈ (Throbber.new.withType k).set,
    ((newLinesStr frame).map (Line.width Uniseg.simple)).foldl max 0 = width ∧ (newLinesStr frame).length = height := by
  intro k hk
  cases k
  case ellipsis => exact absurd rfl hk
  case meter => exact ⟨3, 1, by decide +kernel⟩
  all_goals exact ⟨1, 1, by decide +kernel⟩

/-- The columns in which the frames of the ellipsis are drawn, in an area of ten. -/
theorem Throbber.ellipsis_place :
    ((Throbber.new.withType .ellipsis).asPopup 1 1).place (fun _ => 0) (fun _ => 0) 100 ⟨0, 0, 10, 1⟩
      = .ok ⟨5, 0, 1, 1⟩ ∧
    ((Throbber.new.withType .ellipsis).asPopup 3 1).place (fun _ => 0) (fun _ => 0) 100 ⟨0, 0, 10, 1⟩
      = .ok ⟨4, 0, 3, 1⟩ := by
  have hv : Layout.splitWithSpacers (fun _ => 0) 100 ⟨.vertical, [.len 1], Padding.none', .center, .space 0⟩
      ⟨0, 0, 10, 1⟩ = .ok [⟨0, 0, 10, 1⟩] [⟨0, 0, 10, 0⟩, ⟨0, 1, 10, 0⟩] := by
    rw [Layout.split_fast _ _ (by decide)]
    decide +kernel
  have h1 : Layout.splitWithSpacers (fun _ => 0) 100 ⟨.horizontal, [.len 1], Padding.none', .center, .space 0⟩
      ⟨0, 0, 10, 1⟩ = .ok [⟨5, 0, 1, 1⟩] [⟨0, 0, 5, 1⟩, ⟨6, 0, 4, 1⟩] := by
    rw [Layout.split_fast _ _ (by decide)]
    decide +kernel
  have h3 : Layout.splitWithSpacers (fun _ => 0) 100 ⟨.horizontal, [.len 3], Padding.none', .center, .space 0⟩
      ⟨0, 0, 10, 1⟩ = .ok [⟨4, 0, 3, 1⟩] [⟨0, 0, 4, 1⟩, ⟨7, 0, 3, 1⟩] := by
    rw [Layout.split_fast _ _ (by decide)]
    decide +kernel
  have place_of : ∀ (p : Popup) (area r r' : Rect) (t t' : List Rect),
      Layout.splitWithSpacers (fun _ => 0) 100 ⟨.vertical, [p.height], p.padding, p.vertical, .space 0⟩ area = .ok [r] t →
      Layout.splitWithSpacers (fun _ => 0) 100 ⟨.horizontal, [p.width], p.padding, p.horizontal, .space 0⟩ r
        = .ok [r'] t' → p.place (fun _ => 0) (fun _ => 0) 100 area = .ok r' := by
    intro p area r r' t t' e1 e2
    unfold Popup.place
    rw [e1]
    simp only [Popup.unwrap]
    rw [e2]
  exact ⟨place_of _ _ _ _ _ _ hv h1, place_of _ _ _ _ _ _ hv h3⟩

/-- **C87 (negation).** The frames of the built-in ellipsis differ in width and are each put in the middle, so
that the first dot moves: in an area of ten columns it is in column 5 of the first frame that has one, and in
column 4 of the one with three dots. -/
theorem C87_ellipsis_false :
    ∃ b1 b3 : Buffer,
      (Throbber.new.withType .ellipsis).render (fun _ => 0) (fun _ => 0) 100 Uniseg.simple ⟨0, 0, 10, 1⟩
        ⟨⟨0, 0, 10, 1⟩, List.replicate 10 (Cell.new " ")⟩ ⟨1, 1, 1⟩ = .ok b1 ∧
      (Throbber.new.withType .ellipsis).render (fun _ => 0) (fun _ => 0) 100 Uniseg.simple ⟨0, 0, 10, 1⟩
        ⟨⟨0, 0, 10, 1⟩, List.replicate 10 (Cell.new " ")⟩ ⟨3, 1, 3⟩ = .ok b3 ∧
      (List.range 10).map (fun (i : Nat) => b1.symbolAt ⟨i, 0⟩)
        = [" ", " ", " ", " ", " ", ".", " ", " ", " ", " "].map some ∧
      (List.range 10).map (fun (i : Nat) => b3.symbolAt ⟨i, 0⟩)
        = [" ", " ", " ", " ", ".", ".", ".", " ", " ", " "].map some := by
  obtain ⟨p1, p3⟩ := Throbber.ellipsis_place
  have drawn : ∀ (cs : List Char) (r : Rect),
      (({ newTextStr cs with style := Style.new } : Text).render Uniseg.simple r
        ⟨⟨0, 0, 10, 1⟩, List.replicate 10 (Cell.new " ")⟩).isSome = true →
      (match ({ newTextStr cs with style := Style.new } : Text).render Uniseg.simple r
        ⟨⟨0, 0, 10, 1⟩, List.replicate 10 (Cell.new " ")⟩ with
      | some b => Popup.Result.ok b
      | none => .panics) = .ok ((({ newTextStr cs with style := Style.new } : Text).render Uniseg.simple r
        ⟨⟨0, 0, 10, 1⟩, List.replicate 10 (Cell.new " ")⟩).getD default) := by
    intro cs r h
    obtain ⟨b', h⟩ := Option.isSome_iff_exists.1 h
    rw [h]
    rfl
  refine ⟨(({ newTextStr ['.'] with style := Style.new } : Text).render Uniseg.simple ⟨5, 0, 1, 1⟩
      ⟨⟨0, 0, 10, 1⟩, List.replicate 10 (Cell.new " ")⟩).getD default,
    (({ newTextStr ['.', '.', '.'] with style := Style.new } : Text).render Uniseg.simple ⟨4, 0, 3, 1⟩
      ⟨⟨0, 0, 10, 1⟩, List.replicate 10 (Cell.new " ")⟩).getD default, ?_, ?_, by decide +kernel, by decide +kernel⟩
  · rw [Throbber.render_place (frame := ['.']) _ _ _ _ _ _ _ _ (by decide)]
    rw [show ((newLinesStr ['.']).map (Line.width Uniseg.simple)).foldl max 0 = 1 by decide +kernel,
      show (newLinesStr ['.']).length = 1 by decide +kernel, p1]
    exact drawn ['.'] ⟨5, 0, 1, 1⟩ (by decide +kernel)
  · rw [Throbber.render_place (frame := ['.', '.', '.']) _ _ _ _ _ _ _ _ (by decide)]
    rw [show ((newLinesStr ['.', '.', '.']).map (Line.width Uniseg.simple)).foldl max 0 = 3 by decide +kernel,
      show (newLinesStr ['.', '.', '.']).length = 1 by decide +kernel, p3]
    exact drawn ['.', '.', '.'] ⟨4, 0, 3, 1⟩ (by decide +kernel)

end Bento
