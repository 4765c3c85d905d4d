import Verif.Spec.Keys
import Verif.Props.Input

/-!
# Keys, buttons and unknown sequences (C113, C114, C115)
-/

namespace Bento

open Input Keys

/-! ### C113: the keys terminals send -/

/-- Every sequence of the specification is in the table under its name. -/
theorem sent_table : ∀ p ∈ sent, ∃ s ∈ sequences, s.1 = p.1 ∧ keyString s.2 = p.2 ∧ s.2.paste = false ∧
    (s.2.alt = true ↔ called { alt := true } "" <+: p.2) := by
  decide +kernel

/-- No sequence of the specification is the double escape. -/
theorem sent_ne : ∀ p ∈ sent, p.1 ≠ [27, 27] := by decide +kernel

/-- C113: what a terminal sends for a key with modifiers is delivered as one key message, which is
called like the key and its modifiers, whatever follows. -/
theorem C113_keys (s : List Byte) (name : List Rune) (rest : List Byte) (more : Bool) (h : (s, name) ∈ sent) :
    ∃ k : Key, detectOneMsg (s ++ rest) more = .msg s.length (.key k) ∧ keyString k = name ∧
      k.paste = false := by
  obtain ⟨⟨s', k⟩, hm, h1, h2, h3, -⟩ := sent_table _ h
  simp only at h1 h2 h3
  subst h1
  exact ⟨k, C26_sequence _ _ _ _ (.seq hm) (sent_ne _ h), h2, h3⟩

example : (letterKey 67 { ctrl := true, alt := true }, called { ctrl := true, alt := true } "right") ∈ sent ∧
    letterKey 67 { ctrl := true, alt := true } = [27, 91, 49, 59, 55, 67] ∧
    called { ctrl := true, alt := true } "right" = "alt+ctrl+right".toList.map Char.toNat := by
  decide +kernel

/-- C113: with an escape before it, it is the key with alt. -/
theorem C113_escape (s : List Byte) (name : List Rune) (rest : List Byte) (more : Bool) (h : (s, name) ∈ sent)
    (ha : ¬ called { alt := true } "" <+: name) :
    ∃ k : Key, detectOneMsg (27 :: s ++ rest) more = .msg (s.length + 1) (.key k) ∧
      keyString k = called { alt := true } "" ++ name ∧ k.paste = false := by
  obtain ⟨⟨s', k⟩, hm, h1, h2, h3, h4⟩ := sent_table _ h
  simp only at h1 h2 h3 h4
  subst h1
  have hf : k.alt = false := by
    cases hk : k.alt with
    | false => rfl
    | true => exact absurd (h4.1 hk) ha
  refine ⟨{ k with alt := true }, C26_alt _ _ _ _ (.seq hm) hf, ?_, h3⟩
  have hall : ∀ p ∈ sequences, p.2.alt = false →
      keyString { p.2 with alt := true } = called { alt := true } "" ++ keyString p.2 := by decide +kernel
  rw [hall _ hm hf, h2]

example : (letterKey 67 { shift := true }, called { shift := true } "right") ∈ sent ∧
    ¬ called { alt := true } "" <+: called { shift := true } "right" := by
  decide +kernel

/-- C113: a control character, but escape, is the key with ctrl, or tab, enter or backspace, whatever
follows; escape alone is escape. -/
theorem C113_controls (c : Byte) (hc : c < 32 ∨ c = 127) (rest : List Byte) (more : Bool)
    (he : c = 27 → rest = [] ∧ more = false) :
    ∃ k : Key, detectOneMsg (c :: rest) more = .msg 1 (.key k) ∧ keyString k = controlName c := by
  by_cases h27 : c = 27
  · obtain ⟨rfl, rfl⟩ := he h27
    subst h27
    exact ⟨⟨27, [], false, false⟩, by decide +kernel, by decide +kernel⟩
  by_cases h0 : c = 0
  · subst h0
    refine ⟨⟨0, [], false, false⟩, ?_, by decide +kernel⟩
    have hne : ∀ l : List Byte, ¬ (27 :: l) <+: 0 :: rest := by
      intro l h
      have := (List.cons_prefix_cons.1 h).1
      omega
    unfold detectOneMsg
    rw [detectMouse_none (hne _) (hne _), detectFocus_none (by simp) (by simp), detectPaste_none (hne _)]
    have hl : longestIn (0 :: rest) seqLengths = none := by
      cases h : longestIn (0 :: rest) seqLengths with
      | none => rfl
      | some p =>
        exfalso
        obtain ⟨w, k⟩ := p
        obtain ⟨h1, h2, h3, h4⟩ := longestIn_some seqLengths_sorted h
        have hfree : ∀ p ∈ extSequences, p.1 ≠ [] ∧ ¬ [0] <+: p.1 := by decide +kernel
        rcases prefix_cases (List.take_prefix w (0 :: rest)) (show [0] <+: 0 :: rest from ⟨rest, rfl⟩) with h | h
        · rw [List.prefix_cons_iff] at h
          rcases h with h | ⟨t, h, ht⟩
          · exact (hfree _ h1).1 h
          · rw [List.prefix_nil] at ht
            exact (hfree _ h1).2 (by rw [h, ht]; exact List.prefix_refl _)
        · exact (hfree _ h1).2 h
    unfold detectSequence
    rw [hl]
    simp [csiLength, detectText, special]
  refine ⟨⟨c, [], false, false⟩, C26_sequence [c] _ rest more (.control (by omega) h27) ?_, ?_⟩
  · intro h
    have := congrArg List.length h
    simp at this
  · have hall : ∀ c : Fin 128, (c.1 < 32 ∨ c.1 = 127) → keyString ⟨(c.1 : Int), [], false, false⟩ = controlName c.1 := by
      decide +kernel
    exact hall ⟨c, by omega⟩ hc

example : controlName 3 = "ctrl+c".toList.map Char.toNat ∧ controlName 13 = "enter".toList.map Char.toNat ∧
    controlName 31 = "ctrl+_".toList.map Char.toNat := by decide +kernel

/-- C113: conversely, every sequence in the table of the library is one that these terminals send for
that key, but for nine odd ones. -/
theorem C113_table (s : List Byte) (k : Key) (h : (s, k) ∈ sequences) :
    (s, keyString k) ∈ sent ∨ (s, keyString k) ∈ odd := by
  have hall : ∀ p ∈ sequences, (p.1, keyString p.2) ∈ sent ∨ (p.1, keyString p.2) ∈ odd := by decide +kernel
  exact hall _ h

example : ([27, 91, 50, 48, 126], special keyF9 false) ∈ sequences ∧
    numberKey (functionNumber 9) {} = [27, 91, 50, 48, 126] := by decide +kernel

/-- One of the odd ones is wrong: what xterm sends for delete with shift is taken for insert with alt. -/
theorem C113_delete_false :
    numberKey 3 { shift := true } = [27, 91, 51, 59, 50, 126] ∧
    detectOneMsg (numberKey 3 { shift := true }) false = .msg 6 (.key (special keyInsert true)) ∧
    keyString (special keyInsert true) = called { alt := true } "insert" := by decide +kernel

/-- What rxvt sends for an arrow with ctrl, `ESC O a`, is taken for alt+O and a typed letter. -/
theorem C113_rxvt_false :
    (readAll [] [[27, 79, 97]]).1.map Prod.snd =
      [.key ⟨keyRunes, [79], true, false⟩, .key ⟨keyRunes, [97], false, false⟩] := by decide +kernel

/-! ### C114: mouse buttons -/

/-- The button with a number and name of the specification. -/
theorem buttons_table : ∀ p ∈ buttons, ∃ b : Fin 12, b.1 ≠ 0 ∧ buttonCode b.1 = p.1 ∧ mouseButtonName b.1 = p.2 ∧
    (64 ≤ p.1 ∧ p.1 < 128 ↔ 4 ≤ b.1 ∧ b.1 ≤ 7) := by decide +kernel

/-- C114: a report of a button is delivered as one mouse event at the position counted from zero, whose
name tells modifiers, button, and whether it was pressed, released or moved; the wheel has no such
action. -/
theorem C114_report (code : Nat) (name : String) (m : Mods) (x y : Nat) (a : MouseAction) (rest : List Byte)
    (more : Bool) (hb : (code, name) ∈ buttons) (hx : 1 ≤ x) (hy : 1 ≤ y) (hx' : x < 2 ^ 63) (hy' : y < 2 ^ 63)
    (hw : 64 ≤ code → code < 128 → a = .press) :
    let report := sgr (code + m.bits + if a = .motion then 32 else 0) x y (if a = .release then 109 else 77)
    ∃ e : MouseEvent, detectOneMsg (report ++ rest) more = .msg report.length (.mouse e) ∧
      e.x = (x : Int) - 1 ∧ e.y = (y : Int) - 1 ∧
      e.string = mouseMods m ++ name ++
        (if 64 ≤ code ∧ code < 128 then "" else
          match a with | .press => " press" | .release => " release" | .motion => " motion") := by
  intro report
  obtain ⟨b, h1, h2, h3, h4⟩ := buttons_table _ hb
  simp only at h2 h3 h4
  let e : MouseEvent := ⟨(x : Int) - 1, (y : Int) - 1, m.shift, m.alt, m.ctrl, a, b.1⟩
  have hr : sgrReport e = report := by
    have e1 : (e.x + 1).toNat = x := by show ((x : Int) - 1 + 1).toNat = x; omega
    have e2 : (e.y + 1).toNat = y := by show ((y : Int) - 1 + 1).toNat = y; omega
    have e3 : reportCode e = code + m.bits + if a = .motion then 32 else 0 := by
      show buttonCode b.1 + (if m.shift then 4 else 0) + (if m.alt then 8 else 0) + (if m.ctrl then 16 else 0) +
        (if a = .motion then 32 else 0) = _
      rw [h2]
      unfold Mods.bits
      omega
    unfold sgrReport
    rw [e1, e2, e3]
    rfl
  have he : SGREvent e := by
    refine ⟨by have := b.2; show b.1 ≤ 11; omega, fun h => absurd h h1, fun h => ?_, ?_, ?_, ?_, ?_⟩
    · have := h4.2 h
      exact hw this.1 this.2
    · show 0 ≤ (x : Int) - 1; omega
    · show 0 ≤ (y : Int) - 1; omega
    · show (x : Int) - 1 < 2 ^ 63 - 1; omega
    · show (y : Int) - 1 < 2 ^ 63 - 1; omega
  have hd := C28_sgr e rest more he
  rw [hr] at hd
  refine ⟨e, hd, rfl, rfl, ?_⟩
  have hwheel : e.isWheel = true ↔ 4 ≤ b.1 ∧ b.1 ≤ 7 := by
    show (b.1 == 4 || b.1 == 5 || b.1 == 6 || b.1 == 7) = true ↔ _
    simp only [Bool.or_eq_true, beq_iff_eq]
    omega
  unfold MouseEvent.string
  rw [if_neg (show e.button ≠ 0 from h1)]
  by_cases hc : 64 ≤ code ∧ code < 128
  · rw [if_pos hc, if_pos (hwheel.2 (h4.1 hc))]
    show mouseMods m ++ mouseButtonName b.1 = _
    rw [h3, String.append_empty]
  · rw [if_neg hc, if_neg (fun h => hc (h4.2 (hwheel.1 h)))]
    show mouseMods m ++ mouseButtonName b.1 ++ (" " ++ a.name) = _
    rw [h3]
    cases a <;> rfl

example : sgr (128 + Mods.bits { ctrl := true, shift := true } + 0) 7 300 109 =
    "\x1b[<148;7;300m".toList.map Char.toNat ∧
    detectOneMsg (sgr 148 7 300 109) false = .msg 13 (.mouse ⟨6, 299, true, false, true, .release, 8⟩) ∧
    (⟨6, 299, true, false, true, .release, 8⟩ : MouseEvent).string = "ctrl+shift+backward release" := by
  decide +kernel

/-- C114: the pointer moving without a button is called so, with the modifiers. -/
theorem C114_motion (m : Mods) (x y : Nat) (rest : List Byte) (more : Bool) (hx : 1 ≤ x) (hy : 1 ≤ y)
    (hx' : x < 2 ^ 63) (hy' : y < 2 ^ 63) :
    let report := sgr (35 + m.bits) x y 77
    ∃ e : MouseEvent, detectOneMsg (report ++ rest) more = .msg report.length (.mouse e) ∧
      e.x = (x : Int) - 1 ∧ e.y = (y : Int) - 1 ∧ e.string = mouseMods m ++ "motion" := by
  intro report
  let e : MouseEvent := ⟨(x : Int) - 1, (y : Int) - 1, m.shift, m.alt, m.ctrl, .motion, 0⟩
  have hr : sgrReport e = report := by
    have e1 : (e.x + 1).toNat = x := by show ((x : Int) - 1 + 1).toNat = x; omega
    have e2 : (e.y + 1).toNat = y := by show ((y : Int) - 1 + 1).toNat = y; omega
    have e3 : reportCode e = 35 + m.bits := by
      show 3 + (if m.shift then 4 else 0) + (if m.alt then 8 else 0) + (if m.ctrl then 16 else 0) + 32 = _
      unfold Mods.bits
      omega
    unfold sgrReport
    rw [e1, e2, e3]
    rfl
  have he : SGREvent e := by
    refine ⟨by show 0 ≤ 11; omega, fun _ => rfl, fun h => ?_, ?_, ?_, ?_, ?_⟩
    · exact absurd h.1 (by show ¬ 4 ≤ 0; omega)
    · show 0 ≤ (x : Int) - 1; omega
    · show 0 ≤ (y : Int) - 1; omega
    · show (x : Int) - 1 < 2 ^ 63 - 1; omega
    · show (y : Int) - 1 < 2 ^ 63 - 1; omega
  have hd := C28_sgr e rest more he
  rw [hr] at hd
  exact ⟨e, hd, rfl, rfl, rfl⟩

example : sgr (35 + Mods.bits { alt := true }) 1 1 77 = "\x1b[<43;1;1M".toList.map Char.toNat := by
  decide +kernel

/-! ### C115: unknown sequences -/

/-- C115: a control sequence that means nothing to the library, with parameters, intermediate bytes and
a final byte as the standard says, is taken whole for one message that no key binding sees, so that
nothing of it arrives as typed text, whatever follows. -/
theorem C115_whole (ps is : List Byte) (f : Byte) (rest : List Byte) (more : Bool)
    (hps : ∀ c ∈ ps, 0x30 ≤ c ∧ c ≤ 0x3F) (his : ∀ c ∈ is, 0x20 ≤ c ∧ c ≤ 0x2F) (hf : 0x40 ≤ f ∧ f ≤ 0x7E)
    (hk : ∀ s k, Known s k → ¬ s <+: csi (ps ++ is ++ [f]) ++ rest)
    (hmouse : ¬ csi [77] <+: csi (ps ++ is ++ [f]) ++ rest ∧ ¬ csi [60] <+: csi (ps ++ is ++ [f]) ++ rest)
    (hfocus : csi (ps ++ is ++ [f]) ++ rest ≠ csi [73] ∧ csi (ps ++ is ++ [f]) ++ rest ≠ csi [79])
    (hpaste : ¬ csi [50, 48, 48, 126] <+: csi (ps ++ is ++ [f]) ++ rest) :
    detectOneMsg (csi (ps ++ is ++ [f]) ++ rest) more =
      .msg (ps.length + is.length + 3) (.unknownCSI (csi (ps ++ is ++ [f]))) := by
  unfold detectOneMsg
  rw [detectMouse_none hmouse.1 hmouse.2, detectFocus_none hfocus.1 hfocus.2, detectPaste_none hpaste]
  have hl : longestIn (csi (ps ++ is ++ [f]) ++ rest) seqLengths = none := by
    cases h : longestIn (csi (ps ++ is ++ [f]) ++ rest) seqLengths with
    | none => rfl
    | some p =>
      exfalso
      obtain ⟨w, k⟩ := p
      obtain ⟨h1, -, -, -⟩ := longestIn_some seqLengths_sorted h
      exact hk _ k ((known_iff _ _).2 h1) (List.take_prefix _ _)
  unfold detectSequence
  rw [hl]
  have hlen : csiLength (csi (ps ++ is ++ [f]) ++ rest) = some (ps.length + is.length + 3) := by
    have hform : csi (ps ++ is ++ [f]) ++ rest = 27 :: 91 :: (ps ++ (is ++ f :: rest)) := by simp [csi]
    rw [hform]
    unfold csiLength
    simp only
    have t1 : (ps ++ (is ++ f :: rest)).takeWhile (fun c => decide (48 ≤ c) && decide (c ≤ 63)) = ps ∧
        (ps ++ (is ++ f :: rest)).dropWhile (fun c => decide (48 ≤ c) && decide (c ≤ 63)) = is ++ f :: rest := by
      have hall : ∀ c ∈ ps, (decide (48 ≤ c) && decide (c ≤ 63)) = true := by
        intro c hc; have := hps c hc; simp; omega
      have hst : (is ++ f :: rest).takeWhile (fun c => decide (48 ≤ c) && decide (c ≤ 63)) = [] ∧
          (is ++ f :: rest).dropWhile (fun c => decide (48 ≤ c) && decide (c ≤ 63)) = is ++ f :: rest := by
        cases is with
        | nil =>
          have : (decide (48 ≤ f) && decide (f ≤ 63)) = false := by
            simp; omega
          simp [this]
        | cons c cs =>
          have h := his c List.mem_cons_self
          have : (decide (48 ≤ c) && decide (c ≤ 63)) = false := by
            simp; omega
          simp [this]
      constructor
      · rw [List.takeWhile_append_of_pos hall, hst.1, List.append_nil]
      · rw [List.dropWhile_append_of_pos hall, hst.2]
    have t2 : (is ++ f :: rest).takeWhile (fun c => decide (32 ≤ c) && decide (c ≤ 47)) = is ∧
        (is ++ f :: rest).dropWhile (fun c => decide (32 ≤ c) && decide (c ≤ 47)) = f :: rest := by
      have hall : ∀ c ∈ is, (decide (32 ≤ c) && decide (c ≤ 47)) = true := by
        intro c hc; have := his c hc; simp; omega
      have : (decide (32 ≤ f) && decide (f ≤ 47)) = false := by simp; omega
      constructor
      · rw [List.takeWhile_append_of_pos hall]; simp [this]
      · rw [List.dropWhile_append_of_pos hall]; simp [this]
    rw [t1.1, t1.2, t2.1, t2.2]
    simp only
    rw [if_pos (show 64 ≤ f ∧ f ≤ 126 by omega)]
    exact congrArg some (by omega)
  rw [hlen]
  simp only [Detected.msg.injEq, Msg.unknownCSI.injEq, true_and]
  rw [List.take_append_of_le_length (by simp [csi]; omega), List.take_of_length_le (by simp [csi]; omega)]

/-- Delete with ctrl is such a sequence, and so is a sequence with an intermediate byte. -/
example : detectOneMsg (csi ([51, 59, 53] ++ [] ++ [126]) ++ [120]) false =
      .msg 6 (.unknownCSI (csi [51, 59, 53, 126])) ∧
    detectOneMsg (csi ([49] ++ [36] ++ [121]) ++ [120]) false = .msg 5 (.unknownCSI (csi [49, 36, 121])) ∧
    ∀ p ∈ extSequences, ¬ p.1 <+: csi ([49] ++ [36] ++ [121]) ++ [120] := by
  decide +kernel

/-- C115: whatever the library takes for an unknown sequence is one: it has that form. -/
theorem C115_form (b : List Byte) (more : Bool) (w : Nat) (u : List Byte)
    (h : detectOneMsg b more = .msg w (.unknownCSI u)) :
    u = b.take w ∧ ∃ ps is f, u = csi (ps ++ is ++ [f]) ∧ (∀ c ∈ ps, 0x30 ≤ c ∧ c ≤ 0x3F) ∧
      (∀ c ∈ is, 0x20 ≤ c ∧ c ≤ 0x2F) ∧ 0x40 ≤ f ∧ f ≤ 0x7E := by
  have hseq : detectSequence b = some (w, .unknownCSI u) := by
    unfold detectOneMsg at h
    cases h1 : detectMouse b with
    | some d =>
      rw [h1] at h
      simp only at h
      subst h
      unfold detectMouse at h1
      split at h1
      · simp at h1
      · split_ifs at h1
        simp only [Option.map_eq_some_iff] at h1
        obtain ⟨p, -, hp⟩ := h1
        simp at hp
      · simp at h1
    | none =>
      rw [h1] at h
      simp only at h
      cases h2 : detectFocus b with
      | some d =>
        rw [h2] at h
        simp only at h
        subst h
        unfold detectFocus at h2
        split_ifs at h2 <;> simp at h2
      | none =>
        rw [h2] at h
        simp only at h
        cases h3 : detectPaste b with
        | some d =>
          rw [h3] at h
          simp only at h
          subst h
          unfold detectPaste at h3
          split_ifs at h3
          split at h3 <;> simp at h3
        | none =>
          rw [h3] at h
          simp only at h
          cases h4 : detectSequence b with
          | some p =>
            rw [h4] at h
            obtain ⟨w', m⟩ := p
            simp only [Detected.msg.injEq] at h
            rw [h.1, h.2]
          | none =>
            rw [h4] at h
            simp only at h
            unfold detectText at h
            simp only at h
            split_ifs at h <;> simp at h
  unfold detectSequence at hseq
  split at hseq
  · simp at hseq
  · split at hseq
    · rename_i w' hw
      simp only [Option.some.injEq, Prod.mk.injEq, Msg.unknownCSI.injEq] at hseq
      obtain ⟨rfl, rfl⟩ := hseq
      refine ⟨rfl, ?_⟩
      unfold csiLength at hw
      split at hw
      · rename_i rest _
        simp only at hw
        split at hw
        · rename_i c cs hc
          split_ifs at hw with hcc
          simp only [Option.some.injEq] at hw
          subst hw
          refine ⟨rest.takeWhile (fun c => decide (48 ≤ c) && decide (c ≤ 63)),
            (rest.dropWhile (fun c => decide (48 ≤ c) && decide (c ≤ 63))).takeWhile
              (fun c => decide (32 ≤ c) && decide (c ≤ 47)), c, ?_, ?_, ?_, hcc.1, hcc.2⟩
          · have e1 : rest = rest.takeWhile (fun c => decide (48 ≤ c) && decide (c ≤ 63)) ++
                ((rest.dropWhile (fun c => decide (48 ≤ c) && decide (c ≤ 63))).takeWhile
                  (fun c => decide (32 ≤ c) && decide (c ≤ 47)) ++ c :: cs) := by
              rw [← hc, List.takeWhile_append_dropWhile, List.takeWhile_append_dropWhile]
            generalize rest.takeWhile (fun c => decide (48 ≤ c) && decide (c ≤ 63)) = A at *
            generalize (rest.dropWhile (fun c => decide (48 ≤ c) && decide (c ≤ 63))).takeWhile
                  (fun c => decide (32 ≤ c) && decide (c ≤ 47)) = B at *
            have e2 : 27 :: 91 :: rest = csi (A ++ B ++ [c]) ++ cs := by rw [e1]; simp [csi]
            rw [e2, List.take_append_of_le_length (by simp [csi]; omega),
              List.take_of_length_le (by simp [csi]; omega)]
          · intro d hd
            have := List.all_eq_true.1 List.all_takeWhile d hd
            simpa using this
          · intro d hd
            have := List.all_eq_true.1 List.all_takeWhile d hd
            simpa using this
        · simp at hw
      · simp at hw
    · simp at hseq

example : detectOneMsg [27, 91, 63, 49, 59, 50, 99, 120] true = .msg 7 (.unknownCSI [27, 91, 63, 49, 59, 50, 99]) := by
  decide +kernel

end Bento
