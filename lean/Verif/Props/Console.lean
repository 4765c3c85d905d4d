import Verif.Spec.Console

/-!
# C129, C130, C132: the Windows console
-/

namespace Bento

open Console Input

namespace Console

theorem and_ne_zero (a b : Nat) : (a &&& b) ≠ 0 ↔ ∃ i, a.testBit i = true ∧ b.testBit i = true := by
  constructor
  · intro h
    refine Classical.byContradiction fun hno => h (Nat.eq_of_testBit_eq fun i => ?_)
    rw [Nat.testBit_and, Nat.zero_testBit]
    cases ha : a.testBit i <;> cases hb : b.testBit i <;> simp
    exact hno ⟨i, ha, hb⟩
  · rintro ⟨i, ha, hb⟩ h
    have := congrArg (fun n => n.testBit i) h
    simp [Nat.testBit_and, ha, hb] at this

theorem bits_high {m : Nat} (hm : m < 32) (i : Nat) (hi : 5 ≤ i) : m.testBit i = false := by
  apply Nat.testBit_lt_two_pow
  exact Nat.lt_of_lt_of_le hm (Nat.pow_le_pow_right (n := 2) (by decide) hi)

theorem contains_shift (s : Nat) : contains s 0x10 = (mods s).shift := by
  rw [Bool.eq_iff_iff]
  simp only [contains, bne_iff_ne, mods]
  rw [and_ne_zero]
  constructor
  · rintro ⟨i, h1, h2⟩
    have hi : i < 5 := Nat.lt_of_not_le fun h => by rw [bits_high (by decide) i h] at h2; cases h2
    rcases i with _ | _ | _ | _ | _ | i <;> first | exact absurd h2 (by decide) | exact h1 | omega
  · intro h; exact ⟨4, h, by decide⟩

theorem contains_alt (s : Nat) : contains s (0x2 ||| 0x1) = (mods s).alt := by
  rw [Bool.eq_iff_iff]
  simp only [contains, bne_iff_ne, mods, Bool.or_eq_true]
  rw [and_ne_zero]
  constructor
  · rintro ⟨i, h1, h2⟩
    have hi : i < 5 := Nat.lt_of_not_le fun h => by rw [bits_high (by decide) i h] at h2; cases h2
    rcases i with _ | _ | _ | _ | _ | i <;> first | exact absurd h2 (by decide) | exact .inl h1 | exact .inr h1 | omega
  · rintro (h | h)
    · exact ⟨0, h, by decide⟩
    · exact ⟨1, h, by decide⟩

theorem contains_ctrl (s : Nat) : contains s (0x8 ||| 0x4) = (mods s).ctrl := by
  rw [Bool.eq_iff_iff]
  simp only [contains, bne_iff_ne, mods, Bool.or_eq_true]
  rw [and_ne_zero]
  constructor
  · rintro ⟨i, h1, h2⟩
    have hi : i < 5 := Nat.lt_of_not_le fun h => by rw [bits_high (by decide) i h] at h2; cases h2
    rcases i with _ | _ | _ | _ | _ | i <;>
      first | exact absurd h2 (by decide) | exact .inl h1 | exact .inr h1 | omega
  · rintro (h | h)
    · exact ⟨2, h, by decide⟩
    · exact ⟨3, h, by decide⟩

theorem and_ctrl (s : Nat) : (s &&& (0x8 ||| 0x4)) = 0 ↔ (mods s).ctrl = false := by
  rw [← contains_ctrl, contains]
  simp

/-- A key that has a meaning of its own or types, as one message for each time it repeats. -/
theorem read_key (s : State) (r : KeyRecord) (hd : r.keyDown = true) (hc : r.code ≠ shiftCode) (rs : List Record) :
    readFrom s (.key r :: rs) = List.replicate r.repeatCount (.key (keyOf r)) ++ readFrom s rs := by
  have : r.code ≠ 0x10 := hc
  simp [readFrom, readRecord, hd, this]

/-- `keyType` of a key without a meaning of its own. -/
theorem keyType_types (r : KeyRecord) (h : r.code ∉ ownCodes) :
    keyType r = if (mods r.state).ctrl = false then keyRunes else controlType r.char r.code := by
  have : keyType r = if (r.state &&& (0x8 ||| 0x4)) = 0 then keyRunes else controlType r.char r.code := by
    unfold keyType
    simp only
    split <;> rename_i hc <;> first | (exfalso; apply h; rw [hc]; decide) | rfl
  rw [this]
  simp only [and_ctrl]

end Console

/-- **C129, the part that holds: the cursor keys.** Arrow keys, home and end are called as in a terminal, with all
their modifiers, and come as often as they repeat. -/
theorem C129_cursor_partial (s : Console.State) (r : KeyRecord) (name : String) (hk : (r.code, name) ∈ cursorKeys)
    (hd : r.keyDown = true) (rs : List Record) :
    ∃ k : Key, readFrom s (.key r :: rs) = List.replicate r.repeatCount (.key k) ++ readFrom s rs ∧
      keyString k = Keys.called (mods r.state) name ∧ k.runes = [] := by
  refine ⟨keyOf r, read_key s r hd ?_ rs, ?_, ?_⟩
  · intro h
    rw [h] at hk
    revert hk
    have : ∀ p ∈ cursorKeys, p.1 ≠ shiftCode := by decide
    exact fun hk => this _ hk rfl
  all_goals
    have ha := contains_alt r.state
    have hs := contains_shift r.state
    have hc := contains_ctrl r.state
    generalize mods r.state = m at ha hs hc
    rcases m with ⟨ms, ma, mc⟩
    simp only at ha hs hc
    simp only [cursorKeys, List.mem_cons, Prod.mk.injEq, List.not_mem_nil, or_false] at hk
    rcases hk with ⟨h, rfl⟩ | ⟨h, rfl⟩ | ⟨h, rfl⟩ | ⟨h, rfl⟩ | ⟨h, rfl⟩ | ⟨h, rfl⟩ <;>
      simp only [keyOf, keyType, h, ha, hs, hc] <;> cases ms <;> cases ma <;> cases mc <;>
      (rw [if_neg (by decide)]; try decide +kernel)

/-- **C129, the part that holds: other keys that type nothing.** Their names have alt, but neither ctrl nor shift;
the tabulator's has shift, too. -/
theorem C129_plain_partial (s : Console.State) (r : KeyRecord) (name : String)
    (hk : (r.code, name) ∈ plainKeys ∨ r.code = tabCode ∧ name = "tab") (hd : r.keyDown = true) (rs : List Record) :
    ∃ k : Key, readFrom s (.key r :: rs) = List.replicate r.repeatCount (.key k) ++ readFrom s rs ∧
      keyString k = Keys.called { (mods r.state) with
        ctrl := false, shift := (mods r.state).shift && (r.code == tabCode) } name ∧ k.runes = [] := by
  refine ⟨keyOf r, read_key s r hd ?_ rs, ?_, ?_⟩
  · intro h
    rcases hk with hk | ⟨hk, _⟩
    · rw [h] at hk
      have : ∀ p ∈ plainKeys, p.1 ≠ shiftCode := by decide
      exact this _ hk rfl
    · rw [h] at hk; revert hk; decide
  all_goals
    have ha := contains_alt r.state
    have hs := contains_shift r.state
    have hc := contains_ctrl r.state
    generalize mods r.state = m at ha hs hc
    rcases m with ⟨ms, ma, mc⟩
    simp only at ha hs hc
    simp only [plainKeys, tabCode, List.mem_cons, Prod.mk.injEq, List.not_mem_nil, or_false] at hk
    rcases hk with (⟨h, rfl⟩ | ⟨h, rfl⟩ | ⟨h, rfl⟩ | ⟨h, rfl⟩ | ⟨h, rfl⟩ | ⟨h, rfl⟩) | ⟨h, rfl⟩ <;>
      simp only [keyOf, keyType, h, ha, hs] <;> cases ms <;> cases ma <;> cases mc <;>
      ((try simp only [Bool.false_eq_true, if_true, if_false]); rw [if_neg (by decide)]; try decide +kernel)

/-- **C129, the part that holds: control characters.** A key that types a control character with ctrl is called as
that control character is called in a terminal, for ctrl+a to ctrl+z, ctrl+\\ and ctrl+_. -/
theorem C129_control_partial (s : Console.State) (r : KeyRecord) (ht : r.Types) (hc : (mods r.state).ctrl = true)
    (hr : 1 ≤ r.char ∧ r.char ≤ 26 ∨ r.char = 28 ∨ r.char = 31) (rs : List Record) :
    ∃ k : Key, readFrom s (.key r :: rs) = List.replicate r.repeatCount (.key k) ++ readFrom s rs ∧
      keyString k = Keys.called { alt := (mods r.state).alt } "" ++ Keys.controlName r.char ∧ k.runes = [] := by
  obtain ⟨hd, ho, hsh⟩ := ht
  refine ⟨keyOf r, read_key s r hd hsh rs, ?_⟩
  have hk := keyType_types r ho
  rw [hc] at hk
  simp only [Bool.true_eq_false, if_false] at hk
  have ha := contains_alt r.state
  simp only [keyOf, hk, ha]
  generalize (mods r.state).alt = a
  have ht : controlType r.char r.code = (r.char : Int) := by
    unfold controlType
    rcases hr with h | h | h
    · rw [if_neg (by omega), if_pos h]
    · rw [h]; rfl
    · rw [h]; rfl
  rw [ht]
  have hall : ∀ c ∈ (List.range 32), c ≠ 0 → ∀ a : Bool, c ≠ 27 → c ≠ 29 → c ≠ 30 →
      keyString ⟨(c : Int), if (c : Int) = keyRunes then [c] else [], a, false⟩ =
        Keys.called { alt := a } "" ++ Keys.controlName c ∧
      (if (c : Int) = keyRunes then [c] else ([] : List Rune)) = [] := by decide +kernel
  exact hall r.char (List.mem_range.2 (by omega)) (by omega) a (by omega) (by omega) (by omega)

/-- **C129, the part that holds: text.** A key that types a character without ctrl arrives as this character, and
so does the space bar with whatever is pressed. -/
theorem C129_text_partial (s : Console.State) (r : KeyRecord)
    (ht : r.Types ∧ (mods r.state).ctrl = false ∨ r.keyDown = true ∧ r.code = spaceCode) (rs : List Record) :
    readFrom s (.key r :: rs) =
      List.replicate r.repeatCount (.key ⟨keyRunes, [r.char], (mods r.state).alt, false⟩) ++ readFrom s rs := by
  have hd : r.keyDown = true := by rcases ht with ⟨h, _⟩ | h <;> exact h.1
  have hsh : r.code ≠ shiftCode := by
    rcases ht with ⟨h, _⟩ | h
    · exact h.2.2
    · rw [h.2]; decide
  rw [read_key s r hd hsh rs]
  have hk : keyType r = keyRunes := by
    rcases ht with ⟨h, hc⟩ | ⟨_, h⟩
    · rw [keyType_types r h.2.1, hc]; rfl
    · simp only [keyType, h, spaceCode]
  simp only [keyOf, hk, contains_alt, if_true]

/-- Keys that go up, and the shift key, say nothing. -/
theorem C129_silent (s : Console.State) (r : KeyRecord) (h : r.keyDown = false ∨ r.code = shiftCode) (rs : List Record) :
    readFrom s (.key r :: rs) = readFrom s rs := by
  rcases h with h | h
  · simp [readFrom, readRecord, h]
  · simp [readFrom, readRecord, h, shiftCode]

/-- Ctrl+shift+left twice, alt+a, ctrl+c, shift+tab, a release. -/
example : readRecords [.key ⟨true, 2, 0x25, 0, 0x18⟩, .key ⟨true, 1, 0x41, 97, 0x2⟩, .key ⟨true, 1, 0x43, 3, 0x4⟩,
    .key ⟨true, 1, 0x09, 9, 0x10⟩, .key ⟨false, 1, 0x43, 3, 0x4⟩] =
    [.key ⟨keyCtrlShiftLeft, [], false, false⟩, .key ⟨keyCtrlShiftLeft, [], false, false⟩,
      .key ⟨keyRunes, [97], true, false⟩, .key ⟨3, [], false, false⟩, .key ⟨keyShiftTab, [], false, false⟩] := by
  decide +kernel

example : (0x25, "left") ∈ cursorKeys ∧ (0x0D, "enter") ∈ plainKeys ∧ (⟨true, 1, 0x43, 3, 0x4⟩ : KeyRecord).Types ∧
    (mods 0x4).ctrl = true ∧ (⟨true, 1, 0x41, 97, 0x2⟩ : KeyRecord).Types ∧ (mods 0x2).ctrl = false := by
  refine ⟨by decide, by decide, ⟨rfl, by decide, by decide⟩, by decide, ⟨rfl, by decide, by decide⟩, by decide⟩

/-- **C129 does not hold in general: brackets.** Ctrl+[ types the control character 27, and is called ctrl+];
ctrl+] types 29, which arrives as text. -/
theorem C129_brackets_false :
    (readRecords [.key ⟨true, 1, 0xDB, 27, 0x8⟩, .key ⟨true, 1, 0xDD, 29, 0x8⟩]) =
      [.key ⟨29, [], false, false⟩, .key ⟨keyRunes, [29], false, false⟩] ∧
    keyString ⟨29, [], false, false⟩ = Keys.called { ctrl := true } "]" := by decide +kernel

/-- **C129 does not hold in general: keys that type nothing.** F1, insert, and the ctrl and alt keys themselves
arrive as the character NUL. -/
theorem C129_nothing_false : ∀ r ∈ [(⟨true, 1, 0x70, 0, 0⟩ : KeyRecord), ⟨true, 1, 0x2D, 0, 0⟩, ⟨true, 1, 0x11, 0, 0x8⟩,
      ⟨true, 1, 0x12, 0, 0x2⟩],
    ∃ a, readRecords [.key r] = [.key ⟨keyRunes, [0], a, false⟩] := by
  intro r hr
  simp only [List.mem_cons, List.not_mem_nil, or_false] at hr
  rcases hr with rfl | rfl | rfl | rfl
  · exact ⟨false, by decide +kernel⟩
  · exact ⟨false, by decide +kernel⟩
  · exact ⟨false, by decide +kernel⟩
  · exact ⟨true, by decide +kernel⟩

/-- **C129 does not hold in general: AltGr.** Windows reports it as left ctrl with right alt. An at sign typed with
it arrives as alt+ctrl+@ and not as text. -/
theorem C129_at_sign_false :
    ∃ k : Key, readRecords [.key ⟨true, 1, 0x51, 64, 0x9⟩] = [.key k] ∧ k.runes = [] ∧
      keyString k = Keys.called { alt := true, ctrl := true } "@" :=
  ⟨⟨0, [], true, false⟩, by decide +kernel⟩

/-- **C129 does not hold in general: ctrl+pgup**, which the library knows, is called pgup. -/
theorem C129_page_false :
    ∃ k : Key, readRecords [.key ⟨true, 1, 0x21, 0, 0x8⟩] = [.key k] ∧ keyString k = Keys.called {} "pgup" ∧
      (keyNames.any fun p => p.2 == "ctrl+pgup") = true :=
  ⟨⟨keyPgUp, [], false, false⟩, by decide +kernel⟩

namespace Console

theorem mouseEventButton_change (h : Held) (b : Button) (v : Bool) (hv : h.has b = !v) :
    mouseEventButton h.code (h.set b v).code = (b.number, if v then .press else .release) := by
  rcases h with ⟨h1, h2, h3, h4, h5⟩
  cases h1 <;> cases h2 <;> cases h3 <;> cases h4 <;> cases h5 <;> cases b <;> cases v <;>
    first | rfl | (cases hv) | decide +kernel

theorem mouseEventButton_same (h : Held) : (mouseEventButton h.code h.code).1 = h.dragging := by
  rcases h with ⟨h1, h2, h3, h4, h5⟩
  cases h1 <;> cases h2 <;> cases h3 <;> cases h4 <;> cases h5 <;> decide +kernel

theorem mouse_gesture (h : Held) (g : Gesture) (hp : g.act.Possible h) (size : Int × Int) :
    readRecord ⟨h.code, size⟩ (g.record h) = (⟨(g.act.after h).code, size⟩, [g.message h]) := by
  rcases g with ⟨act, x, y, st⟩
  simp only [readRecord, Gesture.record, Gesture.message, Prod.mk.injEq, List.cons.injEq, Msg.mouse.injEq, true_and,
    and_true]
  have ha : contains st 3 = _ := contains_alt st
  have hs := contains_shift st
  have hc : contains st 12 = _ := contains_ctrl st
  cases act with
  | press b =>
    have := mouseEventButton_change h b true (by simpa [Act.Possible] using hp)
    simp [mouseEvent, Act.flags, Act.after, Act.told, this, ha, hs, hc]
  | again b =>
    have := mouseEventButton_change h b true (by simpa [Act.Possible] using hp)
    simp [mouseEvent, Act.flags, Act.after, Act.told, this, ha, hs, hc]
  | release b =>
    have := mouseEventButton_change h b false (by simpa [Act.Possible] using hp)
    simp [mouseEvent, Act.flags, Act.after, Act.told, this, ha, hs, hc]
  | move =>
    have := mouseEventButton_same h
    simp [mouseEvent, Act.flags, Act.after, Act.told, this, ha, hs, hc]
  | wheel up => cases up <;> simp [mouseEvent, Act.flags, Act.told, Act.direction, ha, hs, hc]
  | tilt r => cases r <;> simp [mouseEvent, Act.flags, Act.told, Act.direction, ha, hs, hc]

theorem read_gestures (gs : List Gesture) : ∀ (h : Held) (size : Int × Int), Possible h gs →
    readFrom ⟨h.code, size⟩ (records h gs) = expected h gs := by
  induction gs with
  | nil => intro h size _; rfl
  | cons g gs ih =>
    intro h size hp
    simp only [records, expected, readFrom, mouse_gesture h g hp.1 size, List.cons_append, List.nil_append]
    rw [ih _ _ hp.2]

end Console

/-- **C130.** Whatever is done with the mouse, the messages say it: which button is pressed or released, where and
with which modifiers, although the console only reports which buttons are down. -/
theorem C130_gestures (gs : List Gesture) (hp : Possible {} gs) : readRecords (records {} gs) = expected {} gs :=
  read_gestures gs {} (0, 0) hp

example : Possible {} [⟨.press .left, 3, 4, 0⟩, ⟨.press .right, 3, 4, 0x10⟩, ⟨.move, 5, 4, 0x8⟩, ⟨.release .left, 5, 4, 0⟩,
    ⟨.wheel false, 5, 4, 0⟩, ⟨.release .right, 5, 4, 0⟩, ⟨.again .left, 5, 4, 0⟩] ∧
    readRecords (records {} [⟨.press .left, 3, 4, 0⟩, ⟨.press .right, 3, 4, 0x10⟩, ⟨.move, 5, 4, 0x8⟩,
      ⟨.release .left, 5, 4, 0⟩]) =
    [.mouse ⟨3, 4, false, false, false, .press, 1⟩, .mouse ⟨3, 4, true, false, false, .press, 3⟩,
      .mouse ⟨5, 4, false, false, true, .motion, 1⟩, .mouse ⟨5, 4, false, false, false, .release, 1⟩] := by
  refine ⟨?_, by decide +kernel⟩
  simp [Possible, Act.Possible, Act.after, Held.has, Held.set]

/-- The assumption that records name the buttons and nothing else matters: if the record of a wheel had the distance
in its upper half, as the Windows call itself has, the next click would have no button. -/
example : readRecords [.mouse ⟨5, 4, 0x780000, 0, 4, 1⟩, .mouse ⟨5, 4, 1, 0, 0, 0⟩] =
    [.mouse ⟨5, 4, false, false, false, .press, 4⟩, .mouse ⟨5, 4, false, false, false, .press, 0⟩] := by decide +kernel

/-- Records of other kinds between those of the mouse make no difference to the messages of the mouse. -/
theorem C130_between (s : Console.State) (rs : List Record) :
    (readFrom s rs).filterMap (fun | .mouse m => some m | _ => none) =
      (readFrom s (rs.filter fun | .mouse _ => true | _ => false)).filterMap (fun | .mouse m => some m | _ => none) := by
  induction rs generalizing s with
  | nil => rfl
  | cons r rs ih =>
    have hsize : ∀ (rs : List Record) (b : Nat) (x y : Int × Int),
        (readFrom ⟨b, x⟩ (rs.filter fun | .mouse _ => true | _ => false)) =
          (readFrom ⟨b, y⟩ (rs.filter fun | .mouse _ => true | _ => false)) := by
      intro rs
      induction rs with
      | nil => intros; rfl
      | cons r rs ih =>
        intro b x y
        cases r with
        | mouse e =>
          simp only [List.filter_cons_of_pos, readFrom, readRecord]
          rw [ih e.buttons x y]
        | _ => simpa using ih b x y
    cases r with
    | mouse e =>
      simp only [List.filter_cons_of_pos, readFrom, List.filterMap_append]
      rw [ih]
    | key e =>
      have h0 : (readRecord s (.key e)).1 = s := by
        simp only [readRecord]; split <;> rfl
      have h1 : (readRecord s (.key e)).2.filterMap (fun | .mouse m => some m | _ => none) = [] := by
        simp only [readRecord]
        split
        · rfl
        · rw [List.filterMap_eq_nil_iff]
          intro m hm
          rw [List.eq_of_mem_replicate hm]
      simp only [readFrom, List.filterMap_append, h0, h1, List.nil_append]
      rw [ih]
      rfl
    | size w h =>
      have h1 : (readRecord s (.size w h)).2.filterMap (fun | .mouse m => some m | _ => none) = [] := by
        simp only [readRecord]
        split <;> rfl
      have h0 : (readRecord s (.size w h)).1.buttons = s.buttons := by
        simp only [readRecord]; split <;> rfl
      simp only [readFrom, List.filterMap_append, h1, List.nil_append]
      rw [ih]
      have := hsize rs s.buttons (readRecord s (.size w h)).1.size s.size
      rw [show readFrom (readRecord s (.size w h)).1 _ = readFrom ⟨s.buttons, (readRecord s (.size w h)).1.size⟩ _ by
        rw [← h0], this]
      rfl
    | other =>
      simp only [readFrom, readRecord, List.nil_append]
      rw [ih]
      rfl

namespace Console

theorem read_sizes (s : State) (r : Record) (rs : List Record) :
    (sizesOut (readFrom s (r :: rs)) = sizesOut (readFrom s rs) ∧ sizesIn (r :: rs) = sizesIn rs) ∨
    (sizesOut (readFrom s (r :: rs)) = sizesOut (readFrom s rs) ∧ sizesIn (r :: rs) = s.size :: sizesIn rs) ∨
    ∃ a, a ≠ s.size ∧ sizesOut (readFrom s (r :: rs)) = a :: sizesOut (readFrom { s with size := a } rs) ∧
      sizesIn (r :: rs) = a :: sizesIn rs := by
  have hb : ∀ (rs : List Record) (b b' : Nat) (x : Int × Int),
      sizesOut (readFrom ⟨b, x⟩ rs) = sizesOut (readFrom ⟨b', x⟩ rs) := by
    intro rs
    induction rs with
    | nil => intros; rfl
    | cons r rs ih =>
      intro b b' x
      cases r with
      | key e =>
        simp only [readFrom, readRecord]
        split <;> simp only [sizesOut, List.filterMap_append] <;> congr 1 <;> exact ih b b' x
      | mouse e => exact ih _ _ x
      | other => exact ih _ _ x
      | size w h =>
        simp only [readFrom, readRecord]
        split <;> simp only [sizesOut, List.filterMap_append] <;> congr 1 <;> exact ih b b' _
  cases r with
  | key e =>
    refine .inl ⟨?_, rfl⟩
    simp only [readFrom, readRecord]
    split
    · rfl
    · simp only [sizesOut, List.filterMap_append]
      rw [List.filterMap_eq_nil_iff.2 (fun m hm => by rw [List.eq_of_mem_replicate hm]), List.nil_append]
  | mouse e => exact .inl ⟨hb rs _ _ _, rfl⟩
  | other => exact .inl ⟨rfl, rfl⟩
  | size w h =>
    by_cases hw : (w, h) = s.size
    · refine .inr (.inl ⟨?_, ?_⟩)
      · simp [readFrom, readRecord, hw]
      · rw [← hw]; rfl
    · refine .inr (.inr ⟨(w, h), hw, ?_, rfl⟩)
      simp [readFrom, readRecord, hw, sizesOut]

end Console

/-- **C132.** The app is told about sizes as the console reports them: nothing is made up and the order is kept, no
size is told twice in a row, and the last one told is the last one reported. Before the first report the size
counts as told that the reader starts with. -/
theorem C132_sizes (s : Console.State) (rs : List Record) :
    (sizesOut (readFrom s rs)).Sublist (sizesIn rs) ∧
    (∀ l a b r, s.size :: sizesOut (readFrom s rs) = l ++ a :: b :: r → a ≠ b) ∧
    (s.size :: sizesOut (readFrom s rs)).getLast? = (s.size :: sizesIn rs).getLast? := by
  induction rs generalizing s with
  | nil =>
    refine ⟨List.Sublist.refl _, fun l a b r h => ?_, rfl⟩
    have := congrArg List.length h
    simp [readFrom, sizesOut] at this
    omega
  | cons r rs ih =>
    rcases read_sizes s r rs with ⟨h1, h2⟩ | ⟨h1, h2⟩ | ⟨x, hx, h1, h2⟩
    · rw [h1, h2]; exact ih s
    · rw [h1, h2]
      obtain ⟨i1, i2, i3⟩ := ih s
      refine ⟨i1.cons _, i2, ?_⟩
      rw [i3, List.getLast?_cons_cons]
    · rw [h1, h2]
      obtain ⟨i1, i2, i3⟩ := ih { s with size := x }
      refine ⟨i1.cons_cons _, fun l a b r h => ?_, ?_⟩
      · cases l with
        | nil =>
          simp only [List.nil_append, List.cons.injEq] at h
          rw [← h.1, ← h.2.1]
          exact fun e => hx e.symm
        | cons y l =>
          simp only [List.cons_append, List.cons.injEq] at h
          exact i2 l a b r h.2
      · rw [List.getLast?_cons_cons, List.getLast?_cons_cons]
        exact i3

/-- From the beginning: if the console reports sizes and the last one is not empty, it is also the last one that the
app is told. -/
theorem C132_last (rs : List Record) (w h : Int) (hl : (sizesIn rs).getLast? = some (w, h)) (h0 : (w, h) ≠ (0, 0)) :
    (sizesOut (readRecords rs)).getLast? = some (w, h) := by
  obtain ⟨_, _, h3⟩ := C132_sizes {} rs
  change (((0 : Int), (0 : Int)) :: sizesOut (readRecords rs)).getLast? = ((0, 0) :: sizesIn rs).getLast? at h3
  have hne : sizesIn rs ≠ [] := by intro h; rw [h] at hl; cases hl
  rw [List.getLast?_cons_of_ne_nil hne, hl] at h3
  cases ho : sizesOut (readRecords rs) with
  | nil => rw [ho] at h3; cases h3; exact absurd rfl h0
  | cons a l => rw [ho, List.getLast?_cons_cons] at h3; exact h3

example : readRecords [.size 80 25, .key ⟨true, 1, 0x41, 97, 0⟩, .size 80 25, .size 100 30, .other, .size 80 25] =
    [.size 80 25, .key ⟨keyRunes, [97], false, false⟩, .size 100 30, .size 80 25] := by decide +kernel

end Bento
