import Verif.Spec.Gestures
import Verif.Props.Input

/-!
# Characters, keys, mouse and pastes mixed
-/

namespace Bento

open Input Utf8

namespace Input

abbrev sent (gs : List Gesture) : List Byte := gs.flatMap Gesture.bytes

theorem sent_append (a b : List Gesture) : sent (a ++ b) = sent a ++ sent b := List.flatMap_append

theorem sent_chars (t : List Rune) : sent (t.map Gesture.char) = encodeText t := by
  unfold sent encodeText
  rw [List.flatMap_map]
  rfl

theorem ext_second : ∀ s ∈ extSequences, ∀ c ∈ s.1.head?, c = 27 →
    ∃ d ∈ s.1.tail.head?, d ≤ 32 ∨ d = 127 ∨ d = 91 ∨ d = 79 := by decide +kernel

/-- A gesture that does not continue a run of characters. -/
theorem stops (g : Gesture) (hg : g.Valid) (rest : List Byte) (hc : ∀ r, g = .char r → r = 32) :
    ∃ c cs, g.bytes ++ rest = c :: cs ∧ stopsRun (decodeRune (g.bytes ++ rest)).1 = true := by
  have low : ∀ (c : Byte) (cs : List Byte), c ≤ 32 ∨ c = 127 → stopsRun (decodeRune (c :: cs)).1 = true := by
    intro c cs h
    have : decodeRune (c :: cs) = (c, 1) := by
      have hlt : c < 128 := by omega
      simp [decodeRune, hlt]
    rw [this]
    simp only [stopsRun, Bool.or_eq_true, decide_eq_true_eq, beq_iff_eq]
    omega
  have esc : ∀ cs, g.bytes = 27 :: cs → ∃ c cs, g.bytes ++ rest = c :: cs ∧
      stopsRun (decodeRune (g.bytes ++ rest)).1 = true := by
    intro cs e
    refine ⟨27, cs ++ rest, by rw [e]; rfl, ?_⟩
    rw [e]
    exact low _ _ (by omega)
  cases g with
  | char r =>
    have := hc r rfl
    subst this
    exact ⟨32, rest, rfl, low 32 rest (by omega)⟩
  | alt r => exact esc _ rfl
  | key s k =>
    obtain ⟨c, h1, h2⟩ := ext_head _ ((known_iff s k).1 hg.1)
    cases s with
    | nil => simp at h1
    | cons d ds =>
      simp only [List.head?_cons, Option.mem_def, Option.some.injEq] at h1
      subst h1
      exact ⟨d, ds ++ rest, rfl, low _ _ h2⟩
  | escape => exact esc _ rfl
  | mouse m =>
    refine esc (sgrReport m).tail ?_
    show sgrReport m = _
    simp [sgrReport]
  | paste t => exact esc _ rfl

/-- The characters at the start of what is read. -/
theorem run_split : ∀ gs : List Gesture, (∀ g ∈ gs, g.Valid) →
    ∃ (t : List Rune) (rest : List Gesture), gs = t.map Gesture.char ++ rest ∧ (∀ r ∈ t, Printable r ∧ r ≠ 32) ∧
      ∀ g gs', rest = g :: gs' → ∀ r, g = .char r → r = 32
  | [], _ => ⟨[], [], rfl, by simp, by simp⟩
  | g :: gs, h => by
    have stop : (∀ r, g = .char r → r = 32) → _ := fun hs =>
      (⟨[], g :: gs, rfl, by simp, fun g' gs' e => by cases e; exact hs⟩ : ∃ (t : List Rune) (rest : List Gesture),
        g :: gs = t.map Gesture.char ++ rest ∧ (∀ r ∈ t, Printable r ∧ r ≠ 32) ∧
        ∀ g gs', rest = g :: gs' → ∀ r, g = .char r → r = 32)
    cases g with
    | char r =>
      by_cases hr : r = 32
      · exact stop fun r' e => by cases e; exact hr
      · obtain ⟨t, rest, e, h1, h2⟩ := run_split gs fun g hg => h g (List.mem_cons_of_mem _ hg)
        refine ⟨r :: t, rest, by rw [e]; rfl, ?_, h2⟩
        intro x hx
        rcases List.mem_cons.1 hx with rfl | hx
        · exact ⟨h (.char x) List.mem_cons_self, hr⟩
        · exact h1 x hx
    | alt r => exact stop fun _ e => by cases e
    | key s k => exact stop fun _ e => by cases e
    | escape => exact stop fun _ e => by cases e
    | mouse m => exact stop fun _ e => by cases e
    | paste t => exact stop fun _ e => by cases e

/-- A run of characters. -/
theorem detect_run {t : List Rune} {rest : List Gesture} (hne : t ≠ []) (ht : ∀ r ∈ t, Printable r ∧ r ≠ 32)
    (hv : ∀ g ∈ rest, g.Valid) (hrest : ∀ g gs', rest = g :: gs' → ∀ r, g = .char r → r = 32) (more : Bool) :
    (rest = [] ∧ more = true ∧ detectOneMsg (encodeText t ++ sent rest) more = .more) ∨
    detectOneMsg (encodeText t ++ sent rest) more = .msg (encodeText t).length (.key ⟨keyRunes, t, false, false⟩) := by
  have hstop : sent rest = [] ∨ ∃ c cs, sent rest = c :: cs ∧ stopsRun (decodeRune (sent rest)).1 = true := by
    cases rest with
    | nil => left; rfl
    | cons g gs =>
      right
      exact stops g (hv g List.mem_cons_self) (sent gs) (hrest g gs rfl)
  have hloop := runesLoop_text t (sent rest) ht hstop (encodeText t ++ sent rest).length le_rfl
  match t, hne with
  | r :: t', _ =>
  obtain ⟨hr, hs⟩ := ht r List.mem_cons_self
  obtain ⟨b, bs, he, hb1, hb2, hb3⟩ := encodeRune_head hr
  have hcons : encodeText (r :: t') ++ sent rest = b :: (bs ++ encodeText t' ++ sent rest) := by
    rw [encodeText_cons, he]; simp
  have hb : 32 < b := by
    rcases Nat.lt_or_ge 32 b with h | h
    · exact h
    · exact absurd (hb3 (by omega)) hs
  have hdet : detectOneMsg (encodeText (r :: t') ++ sent rest) more =
      if (encodeText (r :: t')).length ≥ (encodeText (r :: t') ++ sent rest).length ∧ more = true then .more
      else .msg (encodeText (r :: t')).length (.key ⟨keyRunes, r :: t', false, false⟩) := by
    rw [hcons, detectOneMsg_plain hb hb2]
    unfold detectText
    have halt : ((b :: (bs ++ encodeText t' ++ sent rest)).head? == some 27) = false := by
      rw [List.head?_cons, beq_eq_false_iff_ne]
      intro h; cases h; omega
    rw [halt]
    simp only [Bool.false_eq_true, if_false, List.drop_zero, Nat.zero_add]
    rw [if_neg (by rw [List.head?_cons]; intro h; cases h; omega)]
    rw [← hcons, hloop]
    simp only
    have h32 : r :: t' ≠ [32] := fun h => (ht 32 (by rw [h]; simp)).2 rfl
    rw [if_neg h32, if_pos (List.cons_ne_nil _ _)]
  rw [hdet]
  split_ifs with hc
  · left
    refine ⟨?_, hc.2, rfl⟩
    cases rest with
    | nil => rfl
    | cons g gs =>
      obtain ⟨c, cs, e, _⟩ := stops g (hv g List.mem_cons_self) (sent gs) (hrest g gs rfl)
      have : sent (g :: gs) = g.bytes ++ sent gs := rfl
      rw [this, e, List.length_append, List.length_cons] at hc
      omega
  · exact .inr rfl

/-- A character with Alt. -/
theorem detect_alt {r : Rune} (h : (Gesture.alt r).Valid) (rest : List Byte) (more : Bool) :
    (rest = [] ∧ more = true ∧ detectOneMsg (27 :: encodeRune r ++ rest) more = .more) ∨
    detectOneMsg (27 :: encodeRune r ++ rest) more = .msg (encodeRune r).length.succ (.key ⟨keyRunes, [r], true, false⟩) := by
  obtain ⟨hr, h32, h91, h79⟩ := h
  obtain ⟨b, bs, he, hb1, hb2, hb3⟩ := encodeRune_head hr
  have hb : 32 < b := by
    rcases Nat.lt_or_ge 32 b with h | h
    · exact h
    · exact absurd (hb3 (by omega)) h32
  have hlow : b < 128 → b = r := by
    intro hlt
    unfold encodeRune at he
    split_ifs at he <;> simp only [List.cons.injEq] at he <;> omega
  have hcons : 27 :: encodeRune r ++ rest = 27 :: b :: (bs ++ rest) := by rw [he]; rfl
  have hne : ∀ (c : Byte) (l : List Byte), c ≠ b → ¬ (27 :: c :: l) <+: 27 :: b :: (bs ++ rest) := by
    intro c l hc h
    exact hc (List.cons_prefix_cons.1 (List.cons_prefix_cons.1 h).2).1
  have hb91 : (91 : Byte) ≠ b := fun e => h91 (by have := hlow (by omega); omega)
  have hb79 : (79 : Byte) ≠ b := fun e => h79 (by have := hlow (by omega); omega)
  have hseq : detectSequence (27 :: b :: (bs ++ rest)) = none := by
    unfold detectSequence
    cases hl : longestIn (27 :: b :: (bs ++ rest)) seqLengths with
    | some p =>
      obtain ⟨w, k⟩ := p
      obtain ⟨e1, e2, e3, e4⟩ := longestIn_some seqLengths_sorted hl
      obtain ⟨c, hc, hc'⟩ := ext_head _ e1
      match w, e1, hc, e3 with
      | 0, _, hc, _ => simp at hc
      | 1, e1, _, _ =>
        obtain ⟨d, hd, _⟩ := ext_second _ e1 27 (by simp) rfl
        simp at hd
      | w + 2, e1, _, _ =>
        obtain ⟨d, hd, hd'⟩ := ext_second _ e1 27 (by simp) rfl
        simp at hd
        omega
    | none =>
      have : csiLength (27 :: b :: (bs ++ rest)) = none := by
        unfold csiLength
        split
        · rename_i heq
          cases heq
          exact absurd rfl hb91
        · rfl
      simp only [this]
  have hloop : runesLoop true (27 :: b :: (bs ++ rest)).length (encodeRune r ++ rest) = ([r], (encodeRune r).length) := by
    have hstop : stopsRun r = false := by rw [stopsRun_printable hr]; simp [h32]
    have hd := decode_encode hr.1 rest
    rw [he] at hd ⊢
    show runesLoop true (_ + 1) (b :: (bs ++ rest)) = _
    unfold runesLoop
    simp only [List.cons_append] at hd
    simp only [hd, hstop, Bool.false_eq_true, if_false, if_true]
  have hdet : detectOneMsg (27 :: encodeRune r ++ rest) more =
      if (encodeRune r).length + 1 ≥ (27 :: encodeRune r ++ rest).length ∧ more = true then .more
      else .msg ((encodeRune r).length + 1) (.key ⟨keyRunes, [r], true, false⟩) := by
    have hfoc : ∀ l, (27 : Byte) :: b :: (bs ++ rest) = 27 :: 91 :: l → (91 : Byte) = b := by
      intro l h
      exact (List.cons.inj (List.cons.inj h).2).1.symm
    rw [hcons]
    unfold detectOneMsg
    rw [detectMouse_none (hne _ _ hb91) (hne _ _ hb91),
      detectFocus_none (fun h => hb91 (hfoc _ h)) (fun h => hb91 (hfoc _ h)),
      detectPaste_none (hne _ _ hb91), hseq]
    simp only
    unfold detectText
    simp only [List.head?_cons, beq_self_eq_true, if_true, List.drop_succ_cons, List.drop_zero]
    rw [if_neg (by intro h; cases h; omega)]
    have e2 : b :: (bs ++ rest) = encodeRune r ++ rest := by rw [he]; rfl
    rw [e2] at hloop ⊢
    rw [hloop]
    simp only
    rw [if_neg (show ¬ ([r] : List Rune) = [32] by simp [h32]), if_pos (List.cons_ne_nil _ _), Nat.add_comm]
  rw [hdet]
  split_ifs with hc
  · left
    refine ⟨?_, hc.2, rfl⟩
    have := hc.1
    simp only [List.length_append, List.length_cons] at this
    exact List.length_eq_zero_iff.1 (by omega)
  · exact .inr rfl

/-- The first message in what is read. -/
theorem detect_gestures {gs : List Gesture} (hne : gs ≠ []) (hv : ∀ g ∈ gs, g.Valid) (more : Bool)
    (hesc : ∀ before after, gs = before ++ .escape :: after → after = [] ∧ more = false) :
    (more = true ∧ detectOneMsg (sent gs) more = .more) ∨
    ∃ (first rest : List Gesture) (m : Msg), gs = first ++ rest ∧ first ≠ [] ∧ sent first ≠ [] ∧
      detectOneMsg (sent gs) more = .msg (sent first).length m ∧ m.pieces = first.map Gesture.msg := by
  obtain ⟨t, rest, e, ht, hrest⟩ := run_split gs hv
  by_cases htn : t = []
  · subst htn
    simp only [List.map_nil, List.nil_append] at e
    subst e
    match gs, hne with
    | g :: gs, _ =>
    have hg := hv g List.mem_cons_self
    have hsent : sent (g :: gs) = g.bytes ++ sent gs := rfl
    have one : ∀ m, detectOneMsg (g.bytes ++ sent gs) more = .msg g.bytes.length m → g.bytes ≠ [] → m.pieces = [g.msg] →
        ∃ (first rest : List Gesture) (m : Msg), g :: gs = first ++ rest ∧ first ≠ [] ∧ sent first ≠ [] ∧
          detectOneMsg (sent (g :: gs)) more = .msg (sent first).length m ∧ m.pieces = first.map Gesture.msg := by
      intro m h1 h2 h3
      have e : sent [g] = g.bytes := by simp [sent]
      exact ⟨[g], gs, m, rfl, by simp, by rw [e]; exact h2, by rw [e, hsent]; exact h1, by simpa using h3⟩
    have keys : ∀ s k, g = .key s k → ∃ (first rest : List Gesture) (m : Msg), g :: gs = first ++ rest ∧ first ≠ [] ∧
          sent first ≠ [] ∧ detectOneMsg (sent (g :: gs)) more = .msg (sent first).length m ∧
          m.pieces = first.map Gesture.msg := by
      intro s k e
      subst e
      have hk := (known_iff s k).1 hg.1
      refine one (.key k) (detectOneMsg_known _ more hk hg.2) ?_ ?_
      · intro h0
        obtain ⟨b, hb, _⟩ := ext_head _ hk
        have : s = [] := h0
        simp [this] at hb
      · have hnr : ∀ p ∈ extSequences, p.2.type ≠ keyRunes := by decide +kernel
        show (if k.type = keyRunes ∧ k.alt = false ∧ k.paste = false then _ else [Msg.key k]) = _
        rw [if_neg (fun h => hnr _ hk h.1)]
        rfl
    cases g with
    | char r =>
      right
      have := hrest _ _ rfl r rfl
      subst this
      refine one (.key ⟨keySpace, [32], false, false⟩)
        (detectOneMsg_known (s := [32]) (sent gs) more ((known_iff _ _).1 Known.space) (by decide)) (by decide) rfl
    | alt r =>
      rcases detect_alt hg (sent gs) more with ⟨_, h2, h3⟩ | h
      · exact .inl ⟨h2, h3⟩
      · exact .inr (one _ h (by simp [Gesture.bytes]) rfl)
    | key s k => exact .inr (keys s k rfl)
    | escape =>
      obtain ⟨h1, h2⟩ := hesc [] gs rfl
      subst h1 h2
      exact .inr (one (.key ⟨27, [], false, false⟩) (by decide +kernel) (by decide) rfl)
    | mouse m =>
      refine .inr (one (.mouse m) (C28_sgr m (sent gs) more hg) ?_ rfl)
      simp [Gesture.bytes, sgrReport]
    | paste t =>
      refine .inr (one (.key ⟨keyRunes, t, false, true⟩) ?_ (by simp [Gesture.bytes]) ?_)
      · have h := C27_text_partial t (sent gs) more hg.1 hg.2
        have hl : (Gesture.paste t).bytes.length = (encodeText t).length + 12 := by
          simp [Gesture.bytes]
        rw [hl]
        exact h
      · simp [Msg.pieces, Gesture.msg]
  · have hsent : sent gs = encodeText t ++ sent rest := by rw [e, sent_append, sent_chars]
    have hvr : ∀ g ∈ rest, g.Valid := fun g hg => hv g (by rw [e]; exact List.mem_append_right _ hg)
    rw [hsent]
    rcases detect_run htn ht hvr hrest more with ⟨_, h2, h3⟩ | h
    · exact .inl ⟨h2, h3⟩
    · right
      refine ⟨t.map Gesture.char, rest, _, e, by simpa using htn, ?_, by rw [sent_chars]; exact h, ?_⟩
      · rw [sent_chars]
        intro h0
        have := encodeText_length t
        rw [h0] at this
        exact htn (List.length_eq_zero_iff.1 (by simpa using this))
      · unfold Msg.pieces
        simp only [and_self, if_true, List.map_map]
        refine List.map_congr_left fun r hr => ?_
        simp only [Function.comp, Gesture.msg, if_neg (ht r hr).2]

/-- All messages in what is at hand. -/
theorem decode_gestures (more : Bool) : ∀ (n : Nat) (gs : List Gesture), (∀ g ∈ gs, g.Valid) →
    (∀ before after, gs = before ++ .escape :: after → after = [] ∧ more = false) → (sent gs).length ≤ n →
    ∃ held, (decodeAll more n (sent gs)).2 = sent held ∧ (∃ done, gs = done ++ held) ∧
      ((decodeAll more n (sent gs)).1.flatMap fun p => p.2.pieces) ++ held.map Gesture.msg = gs.map Gesture.msg ∧
      (more = false → held = [])
  | n, [], _, _, _ => ⟨[], by cases n <;> simp [decodeAll, sent]⟩
  | 0, g :: gs, hv, hesc, hn => by
    rcases detect_gestures (gs := g :: gs) (by simp) hv more hesc with ⟨h, h'⟩ | ⟨first, rest, m, e, hf, hs, _⟩
    · have h0 : sent (g :: gs) = [] := List.length_eq_zero_iff.1 (by omega)
      refine ⟨g :: gs, ?_, ⟨[], rfl⟩, ?_, fun h2 => by rw [h2] at h; cases h⟩
      · rw [h0]; rfl
      · rw [h0]; simp [decodeAll]
    · exfalso
      apply hs
      have h0 : sent (g :: gs) = [] := List.length_eq_zero_iff.1 (by omega)
      rw [e, sent_append, List.append_eq_nil_iff] at h0
      exact h0.1
  | n + 1, g :: gs, hv, hesc, hn => by
    have hstep : ∀ b : List Byte, b ≠ [] → decodeAll more (n + 1) b =
        match detectOneMsg b more with
        | .more => ([], b)
        | .msg w m => ((b.take w, m) :: (decodeAll more n (b.drop w)).1, (decodeAll more n (b.drop w)).2) := by
      intro b hb
      cases b with
      | nil => exact absurd rfl hb
      | cons c bs => rfl
    rcases detect_gestures (gs := g :: gs) (by simp) hv more hesc with ⟨h, h'⟩ | ⟨first, rest, m, e, hf, hs, hd, hp⟩
    · by_cases h0 : sent (g :: gs) = []
      · refine ⟨g :: gs, ?_, ⟨[], rfl⟩, ?_, fun h2 => by rw [h2] at h; cases h⟩
        · rw [h0]; rfl
        · rw [h0]; simp [decodeAll]
      · rw [hstep _ h0, h']
        exact ⟨g :: gs, rfl, ⟨[], rfl⟩, by simp, fun h2 => by rw [h2] at h; cases h⟩
    · have hse : sent (g :: gs) = sent first ++ sent rest := by rw [e, sent_append]
      have h0 : sent (g :: gs) ≠ [] := by
        rw [hse]
        intro h
        exact hs (List.append_eq_nil_iff.1 h).1
      have hdrop : (sent (g :: gs)).drop (sent first).length = sent rest := by rw [hse, List.drop_left]
      have hlen : 0 < (sent first).length := List.length_pos_iff.2 hs
      obtain ⟨held, i1, ⟨done, i2⟩, i3, i4⟩ := decode_gestures more n rest
        (fun g' hg' => hv g' (by rw [e]; exact List.mem_append_right _ hg'))
        (fun before after hh => hesc (first ++ before) after (by rw [e, hh]; simp))
        (by rw [hse, List.length_append] at hn; omega)
      rw [hstep _ h0, hd]
      simp only
      rw [hdrop]
      refine ⟨held, i1, ⟨first ++ done, by rw [e, i2]; simp⟩, ?_, i4⟩
      rw [List.flatMap_cons, hp, List.append_assoc, i3, e, List.map_append]

end Input

/-- **C103**. Whatever is done at the terminal, in whatever order, with the reads cutting between two gestures: the
messages, with runs of characters taken apart, are those of the gestures, in order, each of them once. A read that
fills the buffer may hold back its last gestures for the next one; after another read nothing is held back. -/
theorem C103_mixed (reads : List (List Gesture)) (hv : ∀ gs ∈ reads, (∀ g ∈ gs, g.Valid) ∧ Together gs) :
    ∃ held, (readAll [] (reads.map fun gs => gs.flatMap Gesture.bytes)).2 = held.flatMap Gesture.bytes ∧
      ((readAll [] (reads.map fun gs => gs.flatMap Gesture.bytes)).1.flatMap fun p => p.2.pieces) ++
        held.map Gesture.msg = reads.flatten.map Gesture.msg ∧
      (∃ done, reads.flatten = done ++ held) ∧
      ∀ gs, reads.getLast? = some gs → (gs.flatMap Gesture.bytes).length ≠ 256 → held = [] := by
  have key : ∀ (reads : List (List Gesture)) (left : List Gesture), (∀ g ∈ left, g.Valid) →
      (∀ before after, left ≠ before ++ .escape :: after) →
      (∀ gs ∈ reads, (∀ g ∈ gs, g.Valid) ∧ Together gs) →
      ∃ held, (readAll (sent left) (reads.map sent)).2 = sent held ∧
        ((readAll (sent left) (reads.map sent)).1.flatMap fun p => p.2.pieces) ++ held.map Gesture.msg =
          (left ++ reads.flatten).map Gesture.msg ∧
        (∃ done, left ++ reads.flatten = done ++ held) ∧
        ∀ gs, reads.getLast? = some gs → (sent gs).length ≠ 256 → held = [] := by
    intro reads
    induction reads with
    | nil =>
      intro left hl he _
      exact ⟨left, rfl, by simp [readAll], ⟨[], by simp⟩, by simp⟩
    | cons gs reads ih =>
      intro left hl he hv
      obtain ⟨hgs, htog⟩ := hv gs List.mem_cons_self
      have hstep : readAll (sent left) ((gs :: reads).map sent) =
          ((readStep (sent left) (sent gs)).1 ++ (readAll (readStep (sent left) (sent gs)).2 (reads.map sent)).1,
            (readAll (readStep (sent left) (sent gs)).2 (reads.map sent)).2) := rfl
      have hrs : readStep (sent left) (sent gs) =
          decodeAll ((sent gs).length == bufSize) (sent (left ++ gs)).length (sent (left ++ gs)) := by
        rw [sent_append]; rfl
      have hescape : ∀ before after, left ++ gs = before ++ .escape :: after →
          after = [] ∧ ((sent gs).length == bufSize) = false := by
        intro before after e
        rcases List.append_eq_append_iff.1 e with ⟨x, h1, h2⟩ | ⟨x, h1, h2⟩
        · obtain ⟨a, b⟩ := htog x after h2
          exact ⟨a, by rw [beq_eq_false_iff_ne]; exact b⟩
        · cases x with
          | nil =>
            simp only [List.nil_append] at h2
            obtain ⟨a, b⟩ := htog [] after h2.symm
            exact ⟨a, by rw [beq_eq_false_iff_ne]; exact b⟩
          | cons y ys =>
            simp only [List.cons_append, List.cons.injEq] at h2
            exact absurd (by rw [h1, ← h2.1]) (he before ys)
      obtain ⟨held, d1, ⟨done, d2⟩, d3, d4⟩ := decode_gestures ((sent gs).length == bufSize) _ (left ++ gs)
        (fun g hg => (List.mem_append.1 hg).elim (hl g) (hgs g)) hescape le_rfl
      have hvheld : ∀ g ∈ held, g.Valid := fun g hg =>
        (List.mem_append.1 (show g ∈ left ++ gs by rw [d2]; exact List.mem_append_right _ hg)).elim (hl g) (hgs g)
      have heheld : ∀ before after, held ≠ before ++ .escape :: after := by
        intro before after e
        have := (hescape (done ++ before) after (by rw [d2, e]; simp)).2
        have h0 := d4 this
        rw [h0] at e
        simp at e
      obtain ⟨held', i1, i2, ⟨done', i3⟩, i4⟩ := ih held hvheld heheld fun g hg => hv g (List.mem_cons_of_mem _ hg)
      rw [hstep, hrs, d1]
      refine ⟨held', i1, ?_, ⟨done ++ done', ?_⟩, ?_⟩
      · rw [List.flatMap_append, List.append_assoc, i2, List.map_append, ← List.append_assoc, d3]
        simp
      · rw [List.flatten_cons, ← List.append_assoc, d2, List.append_assoc, i3]
        simp
      · intro gl hgl hlen
        cases reads with
        | nil =>
          rw [List.getLast?_singleton, Option.some.injEq] at hgl
          subst hgl
          have h0 : held = [] := d4 (by rw [beq_eq_false_iff_ne]; exact hlen)
          subst h0
          simp only [List.flatten_nil, List.append_nil, List.map_nil] at i2 i3
          have := i3
          cases held' with
          | nil => rfl
          | cons a b => simp at this
        | cons g2 reads => exact i4 gl (by rw [List.getLast?_cons_cons] at hgl; exact hgl) hlen
  obtain ⟨held, h1, h2, h3, h4⟩ := key reads [] (by simp) (by simp) hv
  exact ⟨held, h1, by simpa using h2, by simpa using h3, h4⟩

/-- "é", a click, Alt+x, an arrow, then escape; in a second read a paste and "ok ". -/
example :
    let reads : List (List Gesture) :=
      [[.char 233, .mouse ⟨3, 4, false, false, false, .press, 1⟩, .alt 120, .key [27, 91, 65] ⟨keyUp, [], false, false⟩, .escape],
       [.paste [72, 27, 105], .char 111, .char 107, .char 32]]
    (∀ gs ∈ reads, ∀ g ∈ gs, g.Valid) ∧
    (readAll [] (reads.map fun gs => gs.flatMap Gesture.bytes)).1.map Prod.snd =
      [.key ⟨keyRunes, [233], false, false⟩, .mouse ⟨3, 4, false, false, false, .press, 1⟩,
       .key ⟨keyRunes, [120], true, false⟩, .key ⟨keyUp, [], false, false⟩, .key ⟨27, [], false, false⟩,
       .key ⟨keyRunes, [72, 27, 105], false, true⟩, .key ⟨keyRunes, [111, 107], false, false⟩,
       .key ⟨keySpace, [32], false, false⟩] := by
  refine ⟨?_, by decide +kernel⟩
  have h1 : Known [27, 91, 65] ⟨keyUp, [], false, false⟩ := .seq (by decide +kernel)
  simp only [List.mem_cons, List.not_mem_nil, or_false, forall_eq_or_imp, forall_eq, Gesture.Valid, h1, true_and, and_true]
  refine ⟨⟨by decide, ⟨by decide, by decide, by decide, by decide, by decide, by decide, by decide⟩, by decide, by decide⟩,
    by decide +kernel, by decide, by decide, by decide⟩

end Bento
