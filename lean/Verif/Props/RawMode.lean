import Verif.Spec.RawMode

/-!
# C131: raw mode is taken back
-/

namespace Bento

open RawMode

namespace RawMode

theorem calls_append {α : Type} (i : Input α) (cs ds : List Call) : ∀ s : State α,
    calls i s (cs ++ ds) = calls i (calls i s cs) ds := by
  induction cs with
  | nil => intro s; rfl
  | cons c cs ih => intro s; exact ih _

/-- The device has the original settings, or raw ones and these are remembered. -/
theorem calls_alternating {α : Type} (i : Input α) (hf : i.isFile = true) (ht : i.isTerminal = true) (a : α)
    (cs : List Call) : ∀ (on : Bool) (s : State α), NeverTwice on cs →
    (on = true → s = ⟨i.raw a, some a⟩) → (on = false → s.settings = a ∧ (s.prev = none ∨ s.prev = some a)) →
    (calls i s cs).settings = if onAfter on cs then i.raw a else a := by
  induction cs with
  | nil =>
    intro on s _ h1 h2
    cases on with
    | true => rw [h1 rfl]; rfl
    | false => exact (h2 rfl).1
  | cons c cs ih =>
    intro on s hn h1 h2
    cases c with
    | enable ok =>
      obtain ⟨rfl, hn⟩ := hn
      obtain ⟨hs, hp⟩ := h2 rfl
      cases ok with
      | true =>
        refine ih true _ hn (fun _ => ?_) (fun h => by cases h)
        simp [call, enable, hf, ht, hs]
      | false =>
        refine ih false _ hn (fun h => by cases h) (fun _ => ?_)
        simpa [call, enable, hf, ht] using ⟨hs, hp⟩
    | disable ok =>
      cases on with
      | true =>
        have hs := h1 rfl
        cases ok with
        | true =>
          refine ih false _ hn (fun h => by cases h) (fun _ => ?_)
          simp [call, disable, hs, hf]
        | false =>
          refine ih true _ hn (fun _ => ?_) (fun h => by cases h)
          simp [call, disable, hs, hf]
      | false =>
        obtain ⟨hs, hp⟩ := h2 rfl
        refine ih false _ hn (fun h => by cases h) (fun _ => ?_)
        rcases hp with hp | hp
        · simp [call, disable, hp, hs]
        · cases ok <;> simp [call, disable, hp, hs, hf]

end RawMode

/-- **C131, the part that holds.** If raw mode is never enabled while it is on, the terminal has its own settings
whenever raw mode is off, and raw ones made from these whenever it is on, whatever fails in between. Missing:
enabling it twice (`C131_twice_false`). -/
theorem C131_restored_partial {α : Type} (i : Input α) (hf : i.isFile = true) (ht : i.isTerminal = true) (a : α)
    (cs : List Call) (h : NeverTwice false cs) :
    (calls i ⟨a, none⟩ cs).settings = if onAfter false cs then i.raw a else a :=
  calls_alternating i hf ht a cs false _ h (fun h => by cases h) (fun _ => ⟨rfl, .inl rfl⟩)

example : NeverTwice false [.disable true, .enable false, .enable true, .disable false, .disable true, .disable true,
    .enable true] ∧
    (calls ⟨true, true, fun n => n + 100⟩ ⟨7, none⟩ [.disable true, .enable false, .enable true, .disable false]).settings
      = 107 ∧
    (calls ⟨true, true, fun n => n + 100⟩ ⟨7, none⟩ [.enable true, .disable false, .disable true]).settings = 7 := by
  refine ⟨?_, by decide, by decide⟩
  simp [NeverTwice]

/-- Whatever was called before: disabling brings back the settings from before the last time raw mode was
enabled. -/
theorem C131_last {α : Type} (i : Input α) (hf : i.isFile = true) (ht : i.isTerminal = true) (s : State α)
    (cs ds : List Call) (hd : Call.enable true ∉ ds) :
    (calls i s (cs ++ [.enable true] ++ ds ++ [.disable true])).settings = (calls i s cs).settings := by
  rw [calls_append, calls_append, calls_append]
  have key : ∀ (ds : List Call) (t : State α) (b : α), Call.enable true ∉ ds → t.prev = some b →
      (calls i t ds).prev = some b := by
    intro ds
    induction ds with
    | nil => intro t b _ h; exact h
    | cons d ds ih =>
      intro t b hd h
      simp only [List.mem_cons, not_or] at hd
      refine ih _ b hd.2 ?_
      cases d with
      | enable ok =>
        cases ok with
        | true => exact absurd rfl hd.1
        | false => simp [call, enable, hf, ht, h]
      | disable ok => cases ok <;> simp [call, disable, h, hf]
  have h1 : (calls i (calls i s cs) [.enable true]).prev = some (calls i s cs).settings := by
    simp [calls, call, enable, hf, ht]
  have h2 := key ds _ _ hd h1
  generalize calls i (calls i (calls i s cs) [.enable true]) ds = t at h2
  simp [calls, call, disable, h2, hf]

example : (calls ⟨true, true, fun n => n + 100⟩ ⟨7, none⟩ ([.enable true] ++ [.enable true] ++
    [.enable false, .disable true] ++ [.disable true])).settings = 107 := by decide

/-- An input that is no terminal is left alone. -/
theorem C131_no_terminal {α : Type} (i : Input α) (h : i.isFile = false ∨ i.isTerminal = false) (a : α)
    (cs : List Call) : calls i ⟨a, none⟩ cs = ⟨a, none⟩ := by
  induction cs with
  | nil => rfl
  | cons c cs ih =>
    have : (call i ⟨a, none⟩ c).1 = ⟨a, none⟩ := by
      cases c with
      | enable ok => rcases h with h | h <;> simp [call, enable, h]
      | disable ok => rfl
    unfold calls
    rw [this]
    exact ih

example : (⟨true, false, fun n => n + 100⟩ : Input Nat).isTerminal = false := rfl

/-- **C131 does not hold in general.** Enabling raw mode a second time forgets the settings of the terminal:
afterwards disabling it, however often, leaves the terminal in raw mode. -/
theorem C131_twice_false {α : Type} (i : Input α) (hf : i.isFile = true) (ht : i.isTerminal = true) (a : α) (n : Nat) :
    (calls i ⟨a, none⟩ ([.enable true, .enable true] ++ List.replicate (n + 1) (.disable true))).settings = i.raw a := by
  have h : ∀ n, calls i ⟨i.raw a, some (i.raw a)⟩ (List.replicate n (.disable true)) = ⟨i.raw a, some (i.raw a)⟩ := by
    intro n
    induction n with
    | zero => rfl
    | succ n ih =>
      rw [List.replicate_succ]
      unfold calls
      simpa [call, disable, hf] using ih
  have h1 : calls i ⟨a, none⟩ ([.enable true, .enable true] ++ List.replicate (n + 1) (.disable true)) =
      calls i ⟨i.raw (i.raw a), some (i.raw a)⟩ (List.replicate (n + 1) (.disable true)) := by
    simp [calls, call, enable, hf, ht]
  rw [h1, List.replicate_succ]
  unfold calls
  have : (call i ⟨i.raw (i.raw a), some (i.raw a)⟩ (.disable true)).1 = ⟨i.raw a, some (i.raw a)⟩ := by
    simp [call, disable, hf]
  rw [this, h]

example : ∃ (i : Input Nat) (a : Nat), i.isFile = true ∧ i.isTerminal = true ∧ i.raw a ≠ a :=
  ⟨⟨true, true, fun n => n + 100⟩, 7, rfl, rfl, by decide⟩

end Bento
