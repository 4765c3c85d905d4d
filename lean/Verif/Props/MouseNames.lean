import Verif.Props.Input

/-!
# Property C93: mouse messages are well-formed and their names tell them apart
-/

namespace Bento

open Input

/-- The events a program may expect: one of the eleven buttons or none; the wheel is only turned, which
counts as a press; without a button there is only a release or a motion. -/
def SensibleMouse (m : MouseEvent) : Prop :=
  m.button ≤ 11 ∧ (4 ≤ m.button ∧ m.button ≤ 7 → m.action = .press) ∧ (m.button = 0 → m.action ≠ .press)

theorem masked_le (e : Int) (mask : Nat) : Mouse.masked e mask ≤ mask := Nat.and_le_right

theorem sensible_button (e : Int) : (Mouse.buttonOf e).1 ≤ 11 ∧
    (4 ≤ (Mouse.buttonOf e).1 → (Mouse.buttonOf e).2 = .press) ∧
    ((Mouse.buttonOf e).1 = 0 → (Mouse.buttonOf e).2 = .release) := by
  have h3 := masked_le e 3
  unfold Mouse.buttonOf
  by_cases h1 : Mouse.masked e 128 ≠ 0
  · rw [if_pos h1]
    exact ⟨by simp only; omega, fun _ => rfl, fun h => by simp only at h; omega⟩
  rw [if_neg h1]
  by_cases h2 : Mouse.masked e 64 ≠ 0
  · rw [if_pos h2]
    exact ⟨by simp only; omega, fun _ => rfl, fun h => by simp only at h; omega⟩
  rw [if_neg h2]
  by_cases h4 : Mouse.masked e 3 = 3
  · rw [if_pos h4]
    exact ⟨by simp only; omega, fun h => by simp only at h; omega, fun _ => rfl⟩
  · rw [if_neg h4]
    exact ⟨by simp only; omega, fun _ => rfl, fun h => by simp only at h; omega⟩

theorem sensible_wheel {m : MouseEvent} (h : ¬ m.isWheel) (hw : 4 ≤ m.button ∧ m.button ≤ 7) : False := by
  apply h
  unfold MouseEvent.isWheel
  simp only [Bool.or_eq_true, beq_iff_eq]
  omega

theorem sensible_motion {m : MouseEvent} {c : Prop} [Decidable c] (h : SensibleMouse m) :
    SensibleMouse (if c ∧ ¬ m.isWheel then { m with action := .motion } else m) := by
  split_ifs with hc
  · exact ⟨h.1, fun hw => (sensible_wheel hc.2 hw).elim, fun _ => by simp⟩
  · exact h

theorem sensible_parse (b : Int) (sgr : Bool) : SensibleMouse (Mouse.parseMouseButton b sgr) := by
  unfold Mouse.parseMouseButton
  apply sensible_motion
  obtain ⟨h1, h2, h3⟩ := sensible_button (if sgr = true then b else b - 32)
  exact ⟨h1, fun hw => h2 hw.1, fun h0 => by
    intro hp
    have := h3 h0
    rw [this] at hp
    cases hp⟩

theorem sensible_move {m : MouseEvent} (h : SensibleMouse m) (x y : Int) :
    SensibleMouse { m with x := x, y := y } := h

theorem sensible_sgr (s : Mouse.SGRMatch) : SensibleMouse (Mouse.parseSGR s) := by
  unfold Mouse.parseSGR
  simp only
  apply sensible_move
  have h := sensible_parse (Mouse.atoi s.b) true
  split_ifs with hr
  · refine ⟨h.1, fun hw => ?_, fun _ => by simp⟩
    exact (sensible_wheel hr.2.1 hw).elim
  · exact h

/-- **C93.** Whatever bytes arrive, every mouse message made of them is well-formed: wheel events are
presses, whether or not the terminal sets the motion bit or ends the report like a release. -/
theorem C93_sensible (bytes : List Byte) (more : Bool) (n : Nat) (m : MouseEvent)
    (h : detectOneMsg bytes more = .msg n (.mouse m)) : SensibleMouse m := by
  unfold detectOneMsg at h
  cases hm : detectMouse bytes with
  | some d =>
    rw [hm] at h
    simp only at h
    subst h
    unfold detectMouse at hm
    split at hm
    · cases hm
      exact sensible_move (sensible_parse _ _) _ _
    · split_ifs at hm
      · rw [Option.map_eq_some_iff] at hm
        obtain ⟨p, _, hp⟩ := hm
        cases hp
        exact sensible_sgr _
    · cases hm
  | none =>
    rw [hm] at h
    simp only at h
    exfalso
    have h1 : ∀ d, detectFocus bytes = some d → d ≠ .msg n (.mouse m) := by
      intro d hd
      unfold detectFocus at hd
      split_ifs at hd <;> cases hd <;> simp
    have h2 : ∀ d, detectPaste bytes = some d → d ≠ .msg n (.mouse m) := by
      intro d hd
      unfold detectPaste at hd
      split_ifs at hd
      split at hd <;> cases hd <;> simp
    have h3 : ∀ d, detectSequence bytes = some d → d.2 ≠ .mouse m := by
      intro d hd
      unfold detectSequence at hd
      split at hd
      · cases hd; simp
      · split at hd <;> cases hd
        simp
    have h4 : detectText bytes more ≠ .msg n (.mouse m) := by
      unfold detectText
      simp only
      split_ifs <;> simp
    split at h
    · exact h1 _ (by assumption) h
    · split at h
      · exact h2 _ (by assumption) h
      · split at h
        · rename_i hs
          refine h3 _ hs ?_
          cases h; rfl
        · exact h4 h

/-- Names that begin with a modifier. -/
def stripName (p s : List Char) : Bool × List Char :=
  if p.isPrefixOf s then (true, s.drop p.length) else (false, s)

/-- The modifiers a name begins with, and the rest. -/
def splitName (s : List Char) : Bool × Bool × Bool × List Char :=
  let a := stripName "ctrl+".toList s
  let b := stripName "alt+".toList a.2
  let c := stripName "shift+".toList b.2
  (a.1, b.1, c.1, c.2)

theorem splitName_string : ∀ (button : Fin 12) (action : MouseAction) (shift alt ctrl : Bool),
    splitName (MouseEvent.string ⟨0, 0, shift, alt, ctrl, action, button⟩).toList
      = (ctrl, alt, shift, (MouseEvent.string ⟨0, 0, false, false, false, action, button⟩).toList) := by
  intro button action
  cases action <;> revert button <;> decide +kernel

theorem plainNames : ∀ (b b' : Fin 12) (a a' : MouseAction),
    (4 ≤ b.val ∧ b.val ≤ 7 → a = .press) → (4 ≤ b'.val ∧ b'.val ≤ 7 → a' = .press) →
    (b.val = 0 → a ≠ .press) → (b'.val = 0 → a' ≠ .press) →
    (MouseEvent.string ⟨0, 0, false, false, false, a, b⟩).toList
      = (MouseEvent.string ⟨0, 0, false, false, false, a', b'⟩).toList → b = b' ∧ a = a' := by
  intro b b' a a'
  cases a <;> cases a' <;> revert b b' <;> decide +kernel

/-- **C93.** Two mouse messages with the same name differ at most in their positions. -/
theorem C93_names (bytes bytes' : List Byte) (more more' : Bool) (n n' : Nat) (m m' : MouseEvent)
    (h : detectOneMsg bytes more = .msg n (.mouse m)) (h' : detectOneMsg bytes' more' = .msg n' (.mouse m'))
    (he : m.string = m'.string) : m' = { m with x := m'.x, y := m'.y } := by
  obtain ⟨h1, h2, h3⟩ := C93_sensible bytes more n m h
  obtain ⟨i1, i2, i3⟩ := C93_sensible bytes' more' n' m' h'
  obtain ⟨x, y, sh, al, ct, ac, bu⟩ := m
  obtain ⟨x', y', sh', al', ct', ac', bu'⟩ := m'
  simp only at h1 h2 h3 i1 i2 i3 ⊢
  have e1 := splitName_string ⟨bu, by omega⟩ ac sh al ct
  have e2 := splitName_string ⟨bu', by omega⟩ ac' sh' al' ct'
  have es : (MouseEvent.string ⟨0, 0, sh, al, ct, ac, bu⟩) = MouseEvent.string ⟨0, 0, sh', al', ct', ac', bu'⟩ := he
  simp only at e1 e2
  rw [es, e2] at e1
  simp only [Prod.mk.injEq] at e1
  obtain ⟨rfl, rfl, rfl, e⟩ := e1
  obtain ⟨hb, ha⟩ := plainNames ⟨bu, by omega⟩ ⟨bu', by omega⟩ ac ac' h2 i2 h3 i3 e.symm
  cases hb; cases ha
  rfl

/-- A wheel event with the motion bit, ended like a release. -/
example : detectOneMsg [27, 91, 60, 57, 56, 59, 49, 59, 49, 109] false
    = .msg 10 (.mouse ⟨0, 0, false, false, false, .press, 6⟩) := by decide +kernel

example : MouseEvent.string ⟨0, 0, true, false, true, .motion, 2⟩ = "ctrl+shift+middle motion" ∧
    MouseEvent.string ⟨0, 0, false, false, false, .press, 6⟩ = "wheel left" := by decide +kernel

end Bento
