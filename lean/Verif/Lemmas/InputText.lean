import Verif.Lemmas.Input
import Mathlib.Tactic.IntervalCases

/-!
# Text, pastes, sequences and mouse reports in the input
-/

namespace Bento.Input

open Utf8

/-! ### Running the decoder -/

theorem decodeAll_accounts (more : Bool) : ∀ (n : Nat) (b : List Byte), b.length ≤ n →
    ((decodeAll more n b).1.map Prod.fst).flatten ++ (decodeAll more n b).2 = b ∧
    (∀ p ∈ (decodeAll more n b).1, p.1 ≠ []) ∧
    ((decodeAll more n b).2 = [] ∨ more = true ∨ OpenPaste (decodeAll more n b).2) := by
  intro n
  induction n with
  | zero =>
    intro b hb
    have : b = [] := List.length_eq_zero_iff.1 (by omega)
    subst this
    simp [decodeAll]
  | succ n ih =>
    intro b hb
    cases b with
    | nil => simp [decodeAll]
    | cons c bs =>
      unfold decodeAll
      rcases detectOneMsg_width c bs more with ⟨h, h'⟩ | ⟨w, m, h, h1, h2⟩
      · rw [h]
        simp only [List.map_nil, List.flatten_nil, List.nil_append, true_and]
        exact ⟨by simp, Or.inr h'⟩
      · rw [h]
        simp only [List.map_cons, List.flatten_cons]
        obtain ⟨i1, i2, i3⟩ := ih ((c :: bs).drop w) (by rw [List.length_drop]; omega)
        refine ⟨?_, ?_, i3⟩
        · rw [List.append_assoc, i1, List.take_append_drop]
        · intro p hp
          rcases List.mem_cons.1 hp with rfl | hp
          · intro he
            have := congrArg List.length he
            simp only [List.length_take, List.length_nil] at this
            omega
          · exact i2 p hp

theorem readAll_accounts : ∀ (chunks : List (List Byte)) (left : List Byte),
    ((readAll left chunks).1.map Prod.fst).flatten ++ (readAll left chunks).2 =
      left ++ chunks.flatten ∧ ∀ p ∈ (readAll left chunks).1, p.1 ≠ [] := by
  intro chunks
  induction chunks with
  | nil => intro left; simp [readAll]
  | cons c cs ih =>
    intro left
    unfold readAll
    simp only
    obtain ⟨h1, h2, _⟩ := decodeAll_accounts (c.length == bufSize) (left ++ c).length (left ++ c) le_rfl
    obtain ⟨i1, i2⟩ := ih (readStep left c).2
    constructor
    · rw [List.map_append, List.flatten_append, List.append_assoc, i1, ← List.append_assoc]
      rw [show (readStep left c) = decodeAll (c.length == bufSize) (left ++ c).length (left ++ c) from rfl, h1]
      simp
    · intro p hp
      rcases List.mem_append.1 hp with hp | hp
      · exact h2 p hp
      · exact i2 p hp

theorem readAll_idle : ∀ (chunks : List (List Byte)) (left : List Byte),
    (∀ c, chunks.getLast? = some c → c.length < bufSize) → chunks ≠ [] →
    (readAll left chunks).2 = [] ∨ OpenPaste (readAll left chunks).2 := by
  intro chunks
  induction chunks with
  | nil => intro left _ h; exact absurd rfl h
  | cons c cs ih =>
    intro left hl _
    unfold readAll
    simp only
    cases cs with
    | nil =>
      have hc : c.length < bufSize := hl c (by simp)
      have := (decodeAll_accounts (c.length == bufSize) (left ++ c).length (left ++ c) le_rfl).2.2
      have hm : (c.length == bufSize) = false := by
        rw [beq_eq_false_iff_ne]; omega
      simp only [readAll]
      change (decodeAll (c.length == bufSize) (left ++ c).length (left ++ c)).2 = [] ∨
        OpenPaste (decodeAll (c.length == bufSize) (left ++ c).length (left ++ c)).2
      rw [hm] at this ⊢
      rcases this with h | h | h
      · exact Or.inl h
      · cases h
      · exact Or.inr h
    | cons d ds =>
      exact ih _ (fun c' hc' => hl c' (by rw [List.getLast?_cons_cons]; exact hc')) (by simp)

/-! ### Sequences -/

theorem known_iff (s : List Byte) (k : Key) : Known s k ↔ (s, k) ∈ extSequences := by
  constructor
  · intro h
    induction h with
    | seq h => simp only [extSequences, List.mem_append]; exact Or.inl (Or.inl (Or.inl (Or.inl h)))
    | @control c h h' =>
      have : c ∈ controls := by
        simp only [controls, List.mem_append, List.mem_filter, List.mem_range, List.mem_singleton,
          decide_eq_true_eq]
        omega
      simp only [extSequences, List.mem_append]
      exact Or.inl (Or.inl (Or.inr (List.mem_map.2 ⟨c, this, rfl⟩)))
    | space => decide +kernel
    | @alt s k h ha ih =>
      have key : ∀ p ∈ extSequences, p.2.alt = false → (27 :: p.1, { p.2 with alt := true }) ∈ extSequences := by
        decide +kernel
      exact key (s, k) ih ha
    | escape => decide +kernel
  · intro h
    simp only [extSequences, List.mem_append] at h
    rcases h with (((h | h) | h) | h) | h
    · exact .seq h
    · obtain ⟨⟨s', k'⟩, hm, he⟩ := List.mem_map.1 h
      rw [List.mem_filter] at hm
      simp only [Prod.mk.injEq] at he
      obtain ⟨rfl, rfl⟩ := he
      exact .alt (.seq hm.1) (by simpa using hm.2)
    · obtain ⟨c, hc, he⟩ := List.mem_map.1 h
      simp only [Prod.mk.injEq] at he
      obtain ⟨rfl, rfl⟩ := he
      simp only [controls, List.mem_append, List.mem_filter, List.mem_range, List.mem_singleton,
          decide_eq_true_eq] at hc
      exact .control (by omega) (by omega)
    · obtain ⟨c, hc, he⟩ := List.mem_map.1 h
      simp only [Prod.mk.injEq] at he
      obtain ⟨rfl, rfl⟩ := he
      simp only [controls, List.mem_append, List.mem_filter, List.mem_range, List.mem_singleton,
          decide_eq_true_eq] at hc
      exact .alt (k := ⟨c, [], false, false⟩) (.control (by omega) (by omega)) rfl
    · simp only [List.mem_cons, Prod.mk.injEq, List.not_mem_nil, or_false] at h
      rcases h with ⟨rfl, rfl⟩ | ⟨rfl, rfl⟩ | ⟨rfl, rfl⟩
      · exact .space
      · exact .alt (k := ⟨keySpace, [32], false, false⟩) .space rfl
      · exact .escape

theorem ext_marks : ∀ s ∈ extSequences,
    ¬ (s.1 <+: [27, 91, 77] ∨ [27, 91, 77] <+: s.1 ∨ s.1 <+: [27, 91, 60] ∨ [27, 91, 60] <+: s.1 ∨
      s.1 <+: bpStart ∨ bpStart <+: s.1 ∨ s.1 <+: [27, 91, 73] ∨ s.1 <+: [27, 91, 79]) := by
  decide +kernel

theorem prefix_cases {α : Type} {a b l : List α} (ha : a <+: l) (hb : b <+: l) : a <+: b ∨ b <+: a :=
  List.prefix_or_prefix_of_prefix ha hb

theorem detectMouse_none {b : List Byte} (h1 : ¬ [27, 91, 77] <+: b) (h2 : ¬ [27, 91, 60] <+: b) :
    detectMouse b = none := by
  unfold detectMouse
  split
  · exact absurd ⟨_, rfl⟩ h1
  · exact absurd ⟨_, rfl⟩ h2
  · rfl

theorem detectFocus_none {b : List Byte} (h1 : b ≠ [27, 91, 73]) (h2 : b ≠ [27, 91, 79]) :
    detectFocus b = none := by
  unfold detectFocus; rw [if_neg h1, if_neg h2]

theorem detectPaste_none {b : List Byte} (h1 : ¬ bpStart <+: b) : detectPaste b = none := by
  unfold detectPaste
  rw [if_neg]
  intro h
  exact h1 (List.isPrefixOf_iff_prefix.1 h)

theorem detectOneMsg_seq {s : List Byte} {k : Key} {b : List Byte} (more : Bool)
    (hk : (s, k) ∈ extSequences) (hp : s <+: b)
    (hmax : ∀ s' k', (s', k') ∈ extSequences → s' <+: b → s'.length ≤ s.length) :
    detectOneMsg b more = .msg s.length (.key k) := by
  have hm := ext_marks _ hk
  simp only [not_or] at hm
  obtain ⟨m1, m2, m3, m4, m5, m6, m7, m8⟩ := hm
  unfold detectOneMsg
  rw [detectMouse_none (fun h => (prefix_cases hp h).elim m1 m2) (fun h => (prefix_cases hp h).elim m3 m4),
    detectFocus_none (fun h => m7 (h ▸ hp)) (fun h => m8 (h ▸ hp)),
    detectPaste_none (fun h => (prefix_cases hp h).elim m5 m6)]
  unfold detectSequence
  cases hl : longestIn b seqLengths with
  | none => exact absurd hp (longestIn_none hl s k hk (ext_lengths _ hk))
  | some p =>
    obtain ⟨w, k'⟩ := p
    obtain ⟨h1, h2, h3, h4⟩ := longestIn_some seqLengths_sorted hl
    have hw : s.length ≤ w := h4 s k hk hp (ext_lengths _ hk)
    have hw' := hmax _ _ h1 (List.take_prefix _ _)
    rw [List.length_take] at hw'
    have e : w = s.length := by omega
    subst e
    rw [← List.prefix_iff_eq_take.1 hp] at h1
    have e2 := (lookup_of_mem extSequences_nodup h1).symm.trans (lookup_of_mem extSequences_nodup hk)
    cases e2
    rfl

theorem detectOneMsg_known {s : List Byte} {k : Key} (rest : List Byte) (more : Bool)
    (hk : (s, k) ∈ extSequences) (hne : s ≠ [27, 27]) :
    detectOneMsg (s ++ rest) more = .msg s.length (.key k) := by
  refine detectOneMsg_seq more hk (List.prefix_append _ _) ?_
  intro s' k' hk' hp
  rcases prefix_cases hp (List.prefix_append s rest) with h | h
  · exact h.length_le
  · by_contra hl
    refine hne (ext_prefix_free _ hk _ hk' h ?_)
    intro he
    rw [show s = s' from he] at hl
    omega

/-! ### Text -/

theorem encodeText_cons (r : Rune) (t : List Rune) : encodeText (r :: t) = encodeRune r ++ encodeText t := by
  simp [encodeText]

theorem encodeText_append (t u : List Rune) : encodeText (t ++ u) = encodeText t ++ encodeText u := by
  simp [encodeText]

theorem encodeText_length (t : List Rune) : t.length ≤ (encodeText t).length := by
  induction t with
  | nil => simp
  | cons r t ih =>
    rw [encodeText_cons, List.length_append, List.length_cons]
    have := encodeRune_length_pos r; omega

theorem stopsRun_printable {r : Rune} (h : Printable r) : stopsRun r = decide (r = 32) := by
  obtain ⟨_, h1, h2, h3⟩ := h
  by_cases hr : r = 32
  · subst hr; decide
  · simp only [stopsRun, runeError]
    simp only [hr, decide_false, Bool.or_eq_false_iff, beq_eq_false_iff_ne, decide_eq_false_iff_not]
    refine ⟨⟨⟨h3, by omega⟩, h2⟩, hr⟩

theorem runesLoop_text (t : List Rune) (rest : List Byte)
    (ht : ∀ r ∈ t, Printable r ∧ r ≠ 32) (hr : rest = [] ∨ ∃ c cs, rest = c :: cs ∧ stopsRun (decodeRune rest).1 = true) :
    ∀ n, (encodeText t ++ rest).length ≤ n →
      runesLoop false n (encodeText t ++ rest) = (t, (encodeText t).length) := by
  induction t with
  | nil =>
    intro n hn
    simp only [encodeText, List.flatMap_nil, List.nil_append, List.length_nil]
    match n, rest, hr with
    | 0, _, _ => rfl
    | n + 1, [], _ => rfl
    | n + 1, c :: cs, hr =>
      rcases hr with h | ⟨_, _, _, h⟩
      · cases h
      · unfold runesLoop
        simp only [h, if_true]
  | cons r t ih =>
    intro n hn
    obtain ⟨hp, hs⟩ := ht r List.mem_cons_self
    have hstop : stopsRun r = false := by rw [stopsRun_printable hp]; simp [hs]
    have hpos := encodeRune_length_pos r
    rw [encodeText_cons, List.append_assoc] at hn ⊢
    have hd : decodeRune (encodeRune r ++ (encodeText t ++ rest)) = (r, (encodeRune r).length) :=
      decode_encode hp.1 _
    match n with
    | 0 => simp only [List.length_append] at hn; omega
    | n + 1 =>
      obtain ⟨b, bs, he, _⟩ := encodeRune_head hp
      have hcons : encodeRune r ++ (encodeText t ++ rest) = b :: (bs ++ (encodeText t ++ rest)) := by
        rw [he]; rfl
      have hstep : runesLoop false (n + 1) (encodeRune r ++ (encodeText t ++ rest)) =
          (r :: (runesLoop false n (encodeText t ++ rest)).1,
            (encodeRune r).length + (runesLoop false n (encodeText t ++ rest)).2) := by
        conv_lhs => rw [hcons]; unfold runesLoop
        simp only
        rw [← hcons, hd]
        simp only [hstop, Bool.false_eq_true, if_false, List.drop_left]
      rw [hstep, ih (fun r' hr' => ht r' (List.mem_cons_of_mem _ hr')) n (by
        rw [List.length_append] at hn; omega)]
      rw [List.length_append]

theorem detectOneMsg_plain {b : Byte} {bs : List Byte} (h1 : 32 < b) (h2 : b ≠ 127) (more : Bool) :
    detectOneMsg (b :: bs) more = detectText (b :: bs) more := by
  have hne : ∀ l : List Byte, ¬ (27 :: l) <+: b :: bs := by
    intro l h
    have := (List.cons_prefix_cons.1 h).1
    omega
  unfold detectOneMsg
  rw [detectMouse_none (hne _) (hne _),
    detectFocus_none (fun h => by cases h; omega) (fun h => by cases h; omega),
    detectPaste_none (hne _)]
  have hs : detectSequence (b :: bs) = none := by
    unfold detectSequence
    cases hl : longestIn (b :: bs) seqLengths with
    | some p =>
      obtain ⟨w, k⟩ := p
      obtain ⟨e1, e2, e3, e4⟩ := longestIn_some seqLengths_sorted hl
      obtain ⟨c, hc, hc'⟩ := ext_head _ e1
      have : c = b := by
        cases w with
        | zero => simp at hc
        | succ w => simpa using hc.symm
      omega
    | none =>
      have : csiLength (b :: bs) = none := by
        unfold csiLength
        split
        · rename_i heq
          cases heq; omega
        · rfl
      simp only [this]
  rw [hs]

theorem takeWhile_ne_space (t : List Rune) : ∀ r ∈ t.takeWhile (fun r => decide (r ≠ 32)), r ≠ 32 := by
  induction t with
  | nil => simp
  | cons x t ih =>
    rw [List.takeWhile_cons]
    split_ifs with h
    · intro r hr
      rcases List.mem_cons.1 hr with rfl | hr
      · simpa using h
      · exact ih r hr
    · simp

theorem detectOneMsg_text {t : List Rune} (hne : t ≠ []) (ht : ∀ r ∈ t, Printable r) (more : Bool) :
    (detectOneMsg (encodeText t) more = .more ∧ more = true) ∨
    ∃ u v ty, t = u ++ v ∧ u ≠ [] ∧
      detectOneMsg (encodeText t) more = .msg (encodeText u).length (.key ⟨ty, u, false, false⟩) := by
  match t with
  | r :: t =>
  have hr := ht r List.mem_cons_self
  by_cases hs : r = 32
  · right
    subst hs
    refine ⟨[32], t, keySpace, rfl, by simp, ?_⟩
    have := detectOneMsg_known (s := [32]) (encodeText t) more
      ((known_iff _ _).1 Known.space) (by decide)
    rw [encodeText_cons]
    exact this
  · obtain ⟨b, bs, he, hb1, hb2, hb3⟩ := encodeRune_head hr
    have hcons : encodeText (r :: t) = b :: (bs ++ encodeText t) := by rw [encodeText_cons, he]; rfl
    have hb : 32 < b := by
      rcases Nat.lt_or_ge 32 b with h | h
      · exact h
      · exact absurd (hb3 (by omega)) hs
    set u := (r :: t).takeWhile (fun r => decide (r ≠ 32)) with hu
    set v := (r :: t).dropWhile (fun r => decide (r ≠ 32)) with hv
    have huv : r :: t = u ++ v := (List.takeWhile_append_dropWhile).symm
    have hune : u ≠ [] := by rw [hu, List.takeWhile_cons]; simp [hs]
    have hu1 : ∀ x ∈ u, Printable x ∧ x ≠ 32 := fun x hx =>
      ⟨ht x (huv ▸ List.mem_append_left _ hx), takeWhile_ne_space _ x hx⟩
    have hrest : encodeText v = [] ∨ ∃ c cs, encodeText v = c :: cs ∧ stopsRun (decodeRune (encodeText v)).1 = true := by
      cases hv' : v with
      | nil => left; rfl
      | cons x v' =>
        right
        have hx : x = 32 := by
          have := List.head_dropWhile_not (fun r => decide (r ≠ 32)) (l := r :: t) (by rw [← hv, hv']; simp)
          have h2 : ((r :: t).dropWhile (fun r => decide (r ≠ 32))).head (by rw [← hv, hv']; simp) = x := by
            simp only [← hv, hv', List.head_cons]
          rw [h2] at this
          simpa using this
        subst hx
        refine ⟨32, encodeText v', by rw [encodeText_cons]; rfl, ?_⟩
        rw [encodeText_cons, decode_encode (by decide)]
        decide
    have hloop := runesLoop_text u (encodeText v) hu1 hrest (encodeText (r :: t)).length
      (by rw [huv, encodeText_append])
    rw [← encodeText_append, ← huv] at hloop
    have hdet : detectOneMsg (encodeText (r :: t)) more =
        if (encodeText u).length ≥ (encodeText (r :: t)).length ∧ more = true then .more
        else .msg (encodeText u).length (.key ⟨keyRunes, u, false, false⟩) := by
      rw [hcons, detectOneMsg_plain hb hb2]
      unfold detectText
      have halt : ((b :: (bs ++ encodeText t)).head? == some 27) = false := by
        rw [List.head?_cons, beq_eq_false_iff_ne]
        intro h; cases h; omega
      rw [halt]
      simp only [Bool.false_eq_true, if_false, List.drop_zero, Nat.zero_add]
      rw [if_neg (by rw [List.head?_cons]; intro h; cases h; omega)]
      rw [← hcons, hloop]
      simp only
      have h32 : u ≠ [32] := fun h => (hu1 32 (by rw [h]; simp)).2 rfl
      rw [if_neg h32, if_pos hune]
    rw [hdet]
    split_ifs with hc
    · exact Or.inl ⟨rfl, hc.2⟩
    · exact Or.inr ⟨u, v, _, huv, hune, rfl⟩

theorem decodeAll_text (more : Bool) : ∀ (n : Nat) (t : List Rune), (∀ r ∈ t, Printable r) →
    (encodeText t).length ≤ n →
    ∃ t', (decodeAll more n (encodeText t)).2 = encodeText t' ∧ (∀ r ∈ t', Printable r) ∧
      ((decodeAll more n (encodeText t)).1.flatMap fun p => p.2.text) ++ t' = t ∧
      (more = false → t' = []) ∧
      ∀ p ∈ (decodeAll more n (encodeText t)).1, ∃ ty u, p.2 = .key ⟨ty, u, false, false⟩ := by
  intro n
  induction n with
  | zero =>
    intro t ht hn
    have := encodeText_length t
    have : t = [] := List.length_eq_zero_iff.1 (by omega)
    subst this
    exact ⟨[], by simp [decodeAll, encodeText]⟩
  | succ n ih =>
    intro t ht hn
    by_cases hne : t = []
    · subst hne
      exact ⟨[], by simp [decodeAll, encodeText]⟩
    obtain ⟨c, bs, hc⟩ : ∃ c bs, encodeText t = c :: bs := by
      have h1 := encodeText_length t
      have h2 : 0 < t.length := List.length_pos_iff.2 hne
      cases h : encodeText t with
      | nil => rw [h, List.length_nil] at h1; omega
      | cons c bs => exact ⟨c, bs, rfl⟩
    have hstep : decodeAll more (n + 1) (encodeText t) =
        match detectOneMsg (encodeText t) more with
        | .more => ([], encodeText t)
        | .msg w m => (((encodeText t).take w, m) :: (decodeAll more n ((encodeText t).drop w)).1,
            (decodeAll more n ((encodeText t).drop w)).2) := by
      rw [hc]; rfl
    rw [hstep]
    rcases detectOneMsg_text hne ht more with ⟨h, hm⟩ | ⟨u, v, ty, huv, hu, h⟩
    · rw [h]
      exact ⟨t, rfl, ht, by simp, by simp [hm], by simp⟩
    · rw [h]
      simp only
      have hdrop : (encodeText t).drop (encodeText u).length = encodeText v := by
        rw [huv, encodeText_append, List.drop_left]
      rw [hdrop]
      obtain ⟨t', i1, i2, i3, i4, i5⟩ := ih v (fun r hr => ht r (huv ▸ List.mem_append_right _ hr)) (by
        have h1 := encodeText_length u
        have h2 : 0 < u.length := List.length_pos_iff.2 hu
        rw [huv, encodeText_append, List.length_append] at hn
        omega)
      refine ⟨t', i1, i2, ?_, i4, ?_⟩
      · rw [List.flatMap_cons, List.append_assoc, i3, huv]; rfl
      · intro p hp
        rcases List.mem_cons.1 hp with rfl | hp
        · exact ⟨ty, u, rfl⟩
        · exact i5 p hp

theorem readAll_text : ∀ (ts : List (List Rune)) (t0 : List Rune), (∀ r ∈ t0, Printable r) →
    (∀ t ∈ ts, ∀ r ∈ t, Printable r) →
    ∃ t', (readAll (encodeText t0) (ts.map encodeText)).2 = encodeText t' ∧
      ((readAll (encodeText t0) (ts.map encodeText)).1.flatMap fun p => p.2.text) ++ t' =
        t0 ++ ts.flatten ∧
      (∀ t, ts.getLast? = some t → (encodeText t).length < bufSize → t' = []) ∧
      ∀ p ∈ (readAll (encodeText t0) (ts.map encodeText)).1, ∃ ty u, p.2 = .key ⟨ty, u, false, false⟩ := by
  intro ts
  induction ts with
  | nil => intro t0 h0 _; exact ⟨t0, rfl, by simp [readAll], by simp, by simp [readAll]⟩
  | cons t ts ih =>
    intro t0 h0 hts
    have hstep : readAll (encodeText t0) ((t :: ts).map encodeText) =
        ((readStep (encodeText t0) (encodeText t)).1 ++
          (readAll (readStep (encodeText t0) (encodeText t)).2 (ts.map encodeText)).1,
          (readAll (readStep (encodeText t0) (encodeText t)).2 (ts.map encodeText)).2) := rfl
    have hrs : readStep (encodeText t0) (encodeText t) =
        decodeAll ((encodeText t).length == bufSize) (encodeText (t0 ++ t)).length (encodeText (t0 ++ t)) := by
      rw [encodeText_append]; rfl
    obtain ⟨t1, d1, d2, d3, d4, d5⟩ := decodeAll_text ((encodeText t).length == bufSize)
      (encodeText (t0 ++ t)).length (t0 ++ t) (by
        intro r hr
        rcases List.mem_append.1 hr with h | h
        · exact h0 r h
        · exact hts t List.mem_cons_self r h) le_rfl
    rw [hstep, hrs, d1]
    obtain ⟨t', i1, i2, i3, i4⟩ := ih t1 d2 (fun t ht => hts t (List.mem_cons_of_mem _ ht))
    refine ⟨t', i1, ?_, ?_, ?_⟩
    · rw [List.flatMap_append, List.append_assoc, i2, ← List.append_assoc, d3]; simp
    · intro tl htl hlen
      cases ts with
      | nil =>
        rw [List.getLast?_singleton, Option.some.injEq] at htl
        subst htl
        have : t1 = [] := d4 (by rw [beq_eq_false_iff_ne]; omega)
        subst this
        simp only [List.map_nil, readAll, List.flatMap_nil, List.nil_append, List.append_nil,
          List.flatten_nil] at i2
        exact i2
      | cons t2 ts => exact i3 tl (by rw [List.getLast?_cons_cons] at htl; exact htl) hlen
    · intro p hp
      rcases List.mem_append.1 hp with hp | hp
      · exact d5 p hp
      · exact i4 p hp

end Bento.Input
