import Verif.Lemmas.InputPaste

/-!
# Properties of the input decoder (C25–C30, C62, C63)
-/

namespace Bento

open Input

/-! ### C25: progress, and every byte accounted for -/

/-- C25: on every non-empty input the decoder takes at least one and at most all bytes for a message,
or asks for more data; the latter only after a read that filled the buffer, or inside a paste. -/
theorem C25_progress (b : List Byte) (more : Bool) (hb : b ≠ []) :
    (detectOneMsg b more = .more ∧ (more = true ∨ OpenPaste b)) ∨
    ∃ w m, detectOneMsg b more = .msg w m ∧ 1 ≤ w ∧ w ≤ b.length := by
  obtain ⟨c, bs, rfl⟩ := List.exists_cons_of_ne_nil hb
  exact detectOneMsg_width c bs more

example : detectOneMsg [27, 91, 65, 120] false = .msg 3 (.key ⟨keyUp, [], false, false⟩) := by
  decide +kernel

/-- C25: over any sequence of reads, the bytes the messages were made of, in order, followed by the
bytes left over, are the bytes read; no message is made of nothing. -/
theorem C25_accounts (chunks : List (List Byte)) :
    ((readAll [] chunks).1.map Prod.fst).flatten ++ (readAll [] chunks).2 = chunks.flatten ∧
    ∀ p ∈ (readAll [] chunks).1, p.1 ≠ [] := by
  simpa using readAll_accounts chunks []

example : ((readAll [] [[97, 27], [91, 65]]).1.map Prod.fst).flatten ++ (readAll [] [[97, 27], [91, 65]]).2 = [97, 27, 91, 65] :=
  (C25_accounts _).1

/-- C25: when the last read did not fill the buffer, nothing is left over but an unterminated paste.
Missing: reads that fill the buffer exactly, see `C25_full_read_false`. -/
theorem C25_idle_partial (chunks : List (List Byte)) (hne : chunks ≠ [])
    (hlast : ∀ c, chunks.getLast? = some c → c.length < 256) :
    (readAll [] chunks).2 = [] ∨ OpenPaste (readAll [] chunks).2 :=
  readAll_idle chunks [] hlast hne

example : readAll [] [[97, 98], [27, 91, 65]] =
    ([([97, 98], .key ⟨keyRunes, [97, 98], false, false⟩),
      ([27, 91, 65], .key ⟨keyUp, [], false, false⟩)], []) := by decide +kernel

/-- C25 fails for a read of exactly 256 bytes: the text typed is held back, with no paste going on. -/
theorem C25_full_read_false :
    ∃ chunk : List Byte, chunk.length = 256 ∧ (∀ b ∈ chunk, b = 97) ∧ readAll [] [chunk] = ([], chunk) ∧
      ¬ OpenPaste chunk := by
  refine ⟨List.replicate 256 97, List.length_replicate, fun b hb => List.eq_of_mem_replicate hb, by decide +kernel, ?_⟩
  rintro ⟨h, _⟩
  revert h
  decide +kernel

/-! ### C26: key sequences -/

/-- C26: the longest known sequence at the start of the input is decoded, and its bytes consumed. -/
theorem C26_longest (s : List Byte) (k : Key) (b : List Byte) (more : Bool) (hk : Known s k)
    (hp : s <+: b) (hmax : ∀ s' k', Known s' k' → s' <+: b → s'.length ≤ s.length) :
    detectOneMsg b more = .msg s.length (.key k) :=
  detectOneMsg_seq more ((known_iff _ _).1 hk) hp
    (fun s' k' h => hmax s' k' ((known_iff _ _).2 h))

/-- C26: a known sequence is decoded whatever follows; only the double escape can be the beginning of
a longer one. -/
theorem C26_sequence (s : List Byte) (k : Key) (rest : List Byte) (more : Bool) (hk : Known s k)
    (hne : s ≠ [27, 27]) : detectOneMsg (s ++ rest) more = .msg s.length (.key k) :=
  detectOneMsg_known rest more ((known_iff _ _).1 hk) hne

example : detectOneMsg ([27, 91, 65] ++ [27, 91, 66]) true = .msg 3 (.key ⟨keyUp, [], false, false⟩) :=
  C26_sequence _ _ _ _ (.seq (by decide +kernel)) (by decide)

/-- C26: an escape before a known sequence is that key with Alt. -/
theorem C26_alt (s : List Byte) (k : Key) (rest : List Byte) (more : Bool) (hk : Known s k)
    (ha : k.alt = false) :
    detectOneMsg (27 :: s ++ rest) more = .msg (s.length + 1) (.key { k with alt := true }) := by
  refine C26_sequence (27 :: s) _ rest more (.alt hk ha) ?_
  intro h
  have hs : s = [27] := by simpa using h
  subst hs
  have : ∀ p ∈ extSequences, p.1 ≠ [27] := by decide +kernel
  exact this _ ((known_iff _ _).1 hk) rfl

example : detectOneMsg (27 :: [27, 91, 65] ++ [120]) true = .msg 4 (.key ⟨keyUp, [], true, false⟩) :=
  C26_alt _ ⟨keyUp, [], false, false⟩ _ _ (.seq (by decide +kernel)) rfl

/-- C26: a sequence stands for one key. -/
theorem C26_unique (s : List Byte) (k k' : Key) (h : Known s k) (h' : Known s k') : k = k' := by
  have h1 := lookup_of_mem extSequences_nodup ((known_iff _ _).1 h)
  have h2 := lookup_of_mem extSequences_nodup ((known_iff _ _).1 h')
  exact Option.some.inj (h1.symm.trans h2)

example : Known [27, 91, 49, 59, 53, 65] ⟨keyCtrlUp, [], false, false⟩ :=
  .seq (by decide +kernel)

example : Known [27, 91, 65] ⟨keyUp, [], false, false⟩ ∧ Known [27, 27] ⟨27, [], true, false⟩ ∧
    detectOneMsg [27, 27, 91, 65, 120] true = .msg 4 (.key ⟨keyUp, [], true, false⟩) :=
  ⟨.seq (by decide +kernel), .escape, by decide +kernel⟩

/-! ### C27: pastes -/

/-- C27: what is between the paste markers is one key message marked as paste, which takes the bytes
up to the end marker; its runes are the valid characters pasted.
Missing: pasted replacement characters are dropped, see `C27_replacement_false`. -/
theorem C27_paste_partial (p rest : List Byte) (more : Bool)
    (hp : ¬ [27, 91, 50, 48, 49, 126] <:+: p) :
    ∃ rs, ValidRunes p rs ∧
      detectOneMsg ([27, 91, 50, 48, 48, 126] ++ p ++ [27, 91, 50, 48, 49, 126] ++ rest) more =
        .msg (p.length + 12) (.key ⟨keyRunes, rs, false, true⟩) :=
  ⟨_, pasteRunes_valid p.length p le_rfl, detectOneMsg_paste rest hp more⟩

example : ∃ rs, ValidRunes [104, 27, 91, 65, 255] rs ∧
    detectOneMsg ([27, 91, 50, 48, 48, 126] ++ [104, 27, 91, 65, 255] ++ [27, 91, 50, 48, 49, 126] ++ [13]) false =
      .msg 17 (.key ⟨keyRunes, rs, false, true⟩) :=
  C27_paste_partial _ _ _ (by decide +kernel)

/-- C27: pasted text arrives verbatim, whatever it contains but for the end marker and the
replacement character. -/
theorem C27_text_partial (t : List Rune) (rest : List Byte) (more : Bool)
    (ht : ∀ r ∈ t, Scalar r ∧ r ≠ 0xFFFD) (hp : ¬ [27, 91, 50, 48, 49, 126] <:+: encodeText t) :
    detectOneMsg ([27, 91, 50, 48, 48, 126] ++ encodeText t ++ [27, 91, 50, 48, 49, 126] ++ rest) more =
      .msg ((encodeText t).length + 12) (.key ⟨keyRunes, t, false, true⟩) := by
  have := detectOneMsg_paste rest hp more
  rw [pasteRunes_text t ht _ le_rfl] at this
  exact this

example : detectOneMsg ([27, 91, 50, 48, 48, 126] ++ encodeText [27, 91, 65, 0x1F600] ++ [27, 91, 50, 48, 49, 126] ++ [13]) true =
    .msg 19 (.key ⟨keyRunes, [27, 91, 65, 0x1F600], false, true⟩) :=
  C27_text_partial _ _ _ (by decide +kernel) (by decide +kernel)

/-- C27: the same when the paste arrives in any number of reads, split anywhere but in the start
marker. -/
theorem C27_chunks_partial (t : List Rune) (rest : List Byte) (chunks : List (List Byte))
    (ht : ∀ r ∈ t, Scalar r ∧ r ≠ 0xFFFD) (hp : ¬ [27, 91, 50, 48, 49, 126] <:+: encodeText t)
    (hc : chunks.flatten =
      [27, 91, 50, 48, 48, 126] ++ encodeText t ++ [27, 91, 50, 48, 49, 126] ++ rest)
    (hstart : ∃ c cs, chunks = c :: cs ∧ [27, 91, 50, 48, 48, 126] <+: c) :
    ∃ ms left, readAll [] chunks =
      (([27, 91, 50, 48, 48, 126] ++ encodeText t ++ [27, 91, 50, 48, 49, 126],
        .key ⟨keyRunes, t, false, true⟩) :: ms, left) := by
  have := readAll_paste hp rest chunks [] (Or.inr ⟨rfl, hstart⟩) (by simp) hc
  rw [pasteRunes_text t ht _ le_rfl] at this
  exact this

example : ∃ ms left, readAll [] [[27, 91, 50, 48, 48, 126, 104], [105, 27, 91], [50, 48, 49, 126, 13]] =
    (([27, 91, 50, 48, 48, 126] ++ encodeText [104, 105] ++ [27, 91, 50, 48, 49, 126],
      .key ⟨keyRunes, [104, 105], false, true⟩) :: ms, left) :=
  C27_chunks_partial [104, 105] [13] _ (by decide +kernel) (by decide +kernel) (by decide +kernel)
    ⟨_, _, rfl, by decide⟩

example : (∀ r ∈ [27, 91, 65, 0x1F600], Scalar r ∧ r ≠ 0xFFFD) ∧
    ¬ [27, 91, 50, 48, 49, 126] <:+: encodeText [27, 91, 65, 0x1F600] := by decide +kernel

/-- C27 fails for the replacement character, a valid character of which nothing arrives. -/
theorem C27_replacement_false : Scalar 0xFFFD ∧
    detectOneMsg ([27, 91, 50, 48, 48, 126] ++ encodeText [97, 0xFFFD, 98] ++ [27, 91, 50, 48, 49, 126])
      false = .msg 17 (.key ⟨keyRunes, [97, 98], false, true⟩) := by decide +kernel

/-- C27 fails when the start marker is split: here after three of its six bytes, with the first read
full; the paste is then typed into the application. -/
theorem C27_split_start_false :
    ∃ c d : List Byte, c.length = 256 ∧
      c ++ d = List.replicate 253 97 ++ [27, 91, 50, 48, 48, 126] ++ [13] ++ [27, 91, 50, 48, 49, 126] ∧
      Msg.key ⟨13, [], false, false⟩ ∈ (readAll [] [c, d]).1.map Prod.snd ∧
      ∀ m ∈ (readAll [] [c, d]).1.map Prod.snd, ∀ k, m = .key k → k.paste = false := by
  refine ⟨List.replicate 253 97 ++ [27, 91, 50], [48, 48, 126, 13, 27, 91, 50, 48, 49, 126],
    by decide +kernel, by decide +kernel, by decide +kernel, ?_⟩
  have : ∀ m ∈ (readAll [] [List.replicate 253 97 ++ [27, 91, 50],
      [48, 48, 126, 13, 27, 91, 50, 48, 49, 126]]).1.map Prod.snd,
      (match m with | .key k => k.paste | _ => false) = false := by decide +kernel
  intro m hm k hk
  have := this m hm
  rw [hk] at this
  exact this

/-! ### C28: mouse reports -/

/-- C28: decoding the SGR report of an event gives the event and consumes the report, whatever
follows. -/
theorem C28_sgr (m : MouseEvent) (rest : List Byte) (more : Bool) (hm : SGREvent m) :
    detectOneMsg (sgrReport m ++ rest) more = .msg (sgrReport m).length (.mouse m) := by
  obtain ⟨h1, h2, h3, h4, h5, h6, h7⟩ := hm
  obtain ⟨hc, hlt⟩ := sgr_code ⟨m.button, by omega⟩ m.shift m.alt m.ctrl m.action h2 h3
  have hcode : reportCode ⟨0, 0, m.shift, m.alt, m.ctrl, m.action, m.button⟩ = reportCode m := rfl
  rw [hcode] at hc hlt
  have hform : sgrReport m ++ rest = 27 :: 91 :: 60 :: (decimal (reportCode m) ++ 59 ::
      (decimal (m.x + 1).toNat ++ 59 :: (decimal (m.y + 1).toNat ++
        (if decide (m.action = .release) = true then 109 else 77) :: rest))) := by
    simp [sgrReport]
  have hfind := sgrAt_report (reportCode m) (m.x + 1).toNat (m.y + 1).toNat
    (decide (m.action = .release)) rest
  obtain ⟨d, ds, hd⟩ := List.exists_cons_of_ne_nil (decimal_ne_nil (reportCode m))
  have hlen : (sgrReport m).length = (decimal (reportCode m)).length + 1 +
      (decimal (m.x + 1).toNat).length + 1 + (decimal (m.y + 1).toNat).length + 1 + 3 := by
    simp only [sgrReport, List.length_append, List.length_cons, List.length_nil]; omega
  have hfind' : Mouse.sgrFind (decimal (reportCode m) ++ 59 ::
      (decimal (m.x + 1).toNat ++ 59 :: (decimal (m.y + 1).toNat ++
        (if decide (m.action = .release) = true then 109 else 77) :: rest))) = some
      (⟨decimal (reportCode m), decimal (m.x + 1).toNat, decimal (m.y + 1).toNat,
        decide (m.action = .release), (sgrReport m).length - 3⟩, (sgrReport m).length - 3) := by
    rw [hlen, Nat.add_sub_cancel]
    rw [hd, List.cons_append] at hfind ⊢
    unfold Mouse.sgrFind
    rw [hfind]
  unfold detectOneMsg
  have hmouse : detectMouse (sgrReport m ++ rest) =
      some (.msg (sgrReport m).length (.mouse m)) := by
    have hl6 : 6 ≤ (sgrReport m ++ rest).length := by
      rw [List.length_append, hlen]; omega
    rw [hform] at hl6 ⊢
    unfold detectMouse
    simp only
    rw [if_pos hl6, hfind']
    simp only [Option.map_some, Option.some.injEq, Detected.msg.injEq, Msg.mouse.injEq]
    refine ⟨by omega, ?_⟩
    unfold Mouse.parseSGR
    simp only
    rw [atoi_decimal (by omega), atoi_decimal (by omega), atoi_decimal (by omega)]
    have : (((m.x + 1).toNat : Nat) : Int) - 1 = m.x := by omega
    rw [this]
    have : (((m.y + 1).toNat : Nat) : Int) - 1 = m.y := by omega
    rw [this]
    rw [hc]
  rw [hmouse]

example : SGREvent ⟨400, 7, true, false, true, .release, 2⟩ ∧
    SGREvent ⟨0, 0, false, false, false, .press, 5⟩ := by
  constructor <;> refine ⟨by decide, by decide, by decide, by decide, by decide, by decide, by decide⟩

/-- C28: the same for X10 reports, in their range. -/
theorem C28_x10 (m : MouseEvent) (rest : List Byte) (more : Bool) (hm : X10Event m) :
    detectOneMsg (x10Report m ++ rest) more = .msg 6 (.mouse m) := by
  obtain ⟨h1, h2, h3, h4, h5, h6, h7, h8⟩ := hm
  have hc := x10_code ⟨m.button, by omega⟩ m.shift m.alt m.ctrl m.action h2 h3 h4
  have hcode : reportCode ⟨0, 0, m.shift, m.alt, m.ctrl, m.action, m.button⟩ = reportCode m := rfl
  simp only at hc
  rw [hcode] at hc
  unfold detectOneMsg x10Report detectMouse
  simp only [List.cons_append, Detected.msg.injEq, Msg.mouse.injEq, true_and]
  unfold Mouse.parseX10
  rw [hc]
  have e1 : (((32 + (m.x + 1).toNat : Nat) : Int)) - 32 - 1 = m.x := by omega
  have e2 : (((32 + (m.y + 1).toNat : Nat) : Int)) - 32 - 1 = m.y := by omega
  rw [e1, e2]

example : X10Event ⟨222, 0, true, false, true, .motion, 2⟩ ∧
    X10Event ⟨3, 5, false, false, false, .release, 0⟩ := by
  constructor <;>
    refine ⟨by decide, by decide, by decide, by decide, by decide, by decide, by decide, by decide⟩

/-! ### C29: typed text -/

/-- C29: printable text arrives unchanged, as keys without Alt and not as a paste, when no read ends
inside a character: the runes of the messages, and the text held back after a read that filled the
buffer, are the text. Missing: reads that end inside a character, see `C29_split_false`. -/
theorem C29_text_partial (ts : List (List Rune)) (ht : ∀ t ∈ ts, ∀ r ∈ t, Printable r) :
    ∃ held, (readAll [] (ts.map encodeText)).2 = encodeText held ∧
      ((readAll [] (ts.map encodeText)).1.flatMap fun p => p.2.text) ++ held = ts.flatten ∧
      (∀ t, ts.getLast? = some t → (encodeText t).length < 256 → held = []) ∧
      ∀ p ∈ (readAll [] (ts.map encodeText)).1, ∃ ty u, p.2 = .key ⟨ty, u, false, false⟩ := by
  have h := readAll_text ts [] (by simp) ht
  exact h

example : ∀ t ∈ [[72, 105, 32], [233, 0x1F600]], ∀ r ∈ t, Printable r := by decide

/-- C29 fails when a character is split at the limit of 256 bytes: a two-byte character after 255
letters is lost. -/
theorem C29_split_false :
    ∃ c d : List Byte, c ++ d = encodeText (List.replicate 255 97 ++ [233]) ∧ c.length = 256 ∧
      ((readAll [] [c, d]).1.flatMap fun p => p.2.text) = List.replicate 255 97 := by
  refine ⟨List.replicate 255 97 ++ [195], [169], by decide +kernel, by decide +kernel, by decide +kernel⟩

/-- C29 fails when the terminal delivers a character in two reads. -/
theorem C29_short_split_false :
    [195] ++ [169] = encodeText [233] ∧
    readAll [] [[195], [169]] = ([([195], .unknownByte 195), ([169], .unknownByte 169)], []) := by
  decide +kernel

/-! ### C30: names of keys -/

/-- A key that carries no text, with a name. -/
def Special (k : Key) : Prop :=
  k.type ≠ keyRunes ∧ (keyNames.lookup k.type).isSome

/-- A single typed character, not a space (which is a key of its own). -/
def Typed (k : Key) : Prop :=
  k.type = keyRunes ∧ k.paste = false ∧ ∃ r, k.runes = [r] ∧ r ≠ 32

theorem keyNames_inj : ∀ p ∈ keyNames, ∀ q ∈ keyNames, p.2 = q.2 → p.1 = q.1 := by decide +kernel

theorem keyNames_not_alt : ∀ p ∈ keyNames,
    ¬ [97, 108, 116, 43] <+: p.2.toList.map Char.toNat := by decide +kernel

theorem keyNames_length : ∀ p ∈ keyNames, p.2.toList.length = 1 → p.2.toList.map Char.toNat = [32] := by
  decide +kernel

theorem keyNames_bracket : ∀ p ∈ keyNames, (p.2.toList.map Char.toNat).head? ≠ some 91 ∧
    p.2.toList ≠ [] := by decide +kernel

theorem toList_inj {s t : String} (h : s.toList.map Char.toNat = t.toList.map Char.toNat) : s = t := by
  have hinj : Function.Injective Char.toNat := by
    intro a b hab
    exact Char.ext (UInt32.toNat_inj.1 hab)
  exact String.toList_injective (List.map_injective_iff.2 hinj h)

theorem alt_eq : "alt+".toList.map Char.toNat = [97, 108, 116, 43] := by decide

/-- C30: among named keys and single characters, the name says type, Alt and the character.
Missing: several characters in one message, and pastes; see `C30_text_false`, `C30_alt_false`. -/
theorem C30_names_partial (k k' : Key) (h : Special k ∨ Typed k) (h' : Special k' ∨ Typed k')
    (he : keyString k = keyString k') :
    k.type = k'.type ∧ k.alt = k'.alt ∧ (k.type = keyRunes → k.runes = k'.runes) := by
  -- the names without the prefix for Alt
  have key : ∀ k : Key, Special k ∨ Typed k → ∃ base : List Rune,
      keyString k = (if k.alt then [97, 108, 116, 43] else []) ++ base ∧
      ¬ [97, 108, 116, 43] <+: base ∧
      ((k.type ≠ keyRunes ∧ ∃ s, (k.type, s) ∈ keyNames ∧ base = s.toList.map Char.toNat) ∨
       (k.type = keyRunes ∧ ∃ r, k.runes = [r] ∧ r ≠ 32 ∧ base = [r])) := by
    rintro k (⟨h1, h2⟩ | ⟨h1, h2, r, h3, h4⟩)
    · obtain ⟨s, hs⟩ := Option.isSome_iff_exists.1 h2
      refine ⟨s.toList.map Char.toNat, ?_, keyNames_not_alt _ (mem_of_lookup hs), Or.inl ⟨h1, s, mem_of_lookup hs, rfl⟩⟩
      unfold keyString
      rw [alt_eq, if_neg h1, hs]
    · refine ⟨[r], ?_, ?_, Or.inr ⟨h1, r, h3, h4, rfl⟩⟩
      · unfold keyString
        rw [alt_eq, if_pos h1, h2, h3]; simp
      · intro hp; have := hp.length_le; simp at this
  obtain ⟨b, e1, n1, c1⟩ := key k h
  obtain ⟨b', e2, n2, c2⟩ := key k' h'
  rw [e1, e2] at he
  have hab : k.alt = k'.alt ∧ b = b' := by
    cases ha : k.alt <;> cases ha' : k'.alt <;> rw [ha, ha'] at he
    · exact ⟨rfl, by simpa using he⟩
    · exact absurd ⟨b', by simpa using he.symm⟩ n1
    · exact absurd ⟨b, by simpa using he⟩ n2
    · exact ⟨rfl, by simpa using he⟩
  obtain ⟨ha, rfl⟩ := hab
  rcases c1 with ⟨t1, s, hs, hb⟩ | ⟨t1, r, hr, h32, hb⟩ <;>
    rcases c2 with ⟨t2, s', hs', hb'⟩ | ⟨t2, r', hr', h32', hb'⟩
  · exact ⟨keyNames_inj _ hs _ hs' (toList_inj (hb ▸ hb')), ha, fun h => absurd h t1⟩
  · exfalso
    have hl : s.toList.length = 1 := by
      have := congrArg List.length (hb.symm.trans hb'); simpa using this
    have := keyNames_length _ hs hl
    rw [← hb, hb'] at this
    exact h32' (by simpa using this)
  · exfalso
    have hl : s'.toList.length = 1 := by
      have := congrArg List.length (hb'.symm.trans hb); simpa using this
    have := keyNames_length _ hs' hl
    rw [← hb', hb] at this
    exact h32 (by simpa using this)
  · refine ⟨t1.trans t2.symm, ha, fun _ => ?_⟩
    rw [hr, hr', ← hb, ← hb']

example : keyString ⟨keyCtrlUp, [], true, false⟩ ≠ keyString ⟨keyRunes, [113], false, false⟩ := fun he =>
  absurd (C30_names_partial _ _ (.inl ⟨by decide, by decide +kernel⟩) (.inr ⟨rfl, rfl, 113, rfl, by decide⟩) he).1
    (by decide)

/-- C30: the name of a paste is that of no named key and of no single character, so a paste fires no
binding to one of these. -/
theorem C30_paste_partial (k p : Key) (h : Special k ∨ Typed k) (hp : p.type = keyRunes)
    (hpaste : p.paste = true) (halt : p.alt = false) : keyString k ≠ keyString p := by
  have e2 : keyString p = 91 :: (p.runes ++ [93]) := by
    unfold keyString
    rw [if_pos hp, hpaste, halt]; simp
  rw [e2]
  rcases h with ⟨h1, h2⟩ | ⟨h1, h2, r, h3, h4⟩
  · obtain ⟨s, hs⟩ := Option.isSome_iff_exists.1 h2
    have hb := keyNames_bracket _ (mem_of_lookup hs)
    unfold keyString
    rw [alt_eq, if_neg h1, hs]
    intro he
    cases ha : k.alt
    · rw [ha] at he
      simp only [Bool.false_eq_true, if_false, List.nil_append] at he
      exact hb.1 (by simp only [he, List.head?_cons])
    · rw [ha] at he
      simp at he
  · unfold keyString
    rw [alt_eq, if_pos h1, h2, h3]
    intro he
    cases ha : k.alt
    · rw [ha] at he
      have := congrArg List.length he
      simp at this
    · rw [ha] at he
      simp at he

example : Special ⟨keyCtrlUp, [], true, false⟩ ∧ Typed ⟨keyRunes, [113], false, false⟩ :=
  ⟨⟨by decide, by decide +kernel⟩, rfl, rfl, 113, rfl, by decide⟩

/-- C30 fails for text: a message with the two characters `u`, `p` has the name of the up key. Both
come from the decoder. -/
theorem C30_text_false : ∃ b b' : List Byte, ∃ k k' : Key,
    detectOneMsg b false = .msg b.length (.key k) ∧ detectOneMsg b' false = .msg b'.length (.key k') ∧
    k.type ≠ k'.type ∧ keyString k = keyString k' :=
  ⟨[117, 112], [27, 91, 65], ⟨keyRunes, [117, 112], false, false⟩, ⟨keyUp, [], false, false⟩,
    by decide +kernel, by decide +kernel, by decide, by decide +kernel⟩

/-- C30 fails for Alt: typing `alt+a` has the name of Alt and `a`. -/
theorem C30_alt_false : ∃ b b' : List Byte, ∃ k k' : Key,
    detectOneMsg b false = .msg b.length (.key k) ∧ detectOneMsg b' false = .msg b'.length (.key k') ∧
    k.alt ≠ k'.alt ∧ keyString k = keyString k' :=
  ⟨[97, 108, 116, 43, 97], [27, 97], ⟨keyRunes, [97, 108, 116, 43, 97], false, false⟩,
    ⟨keyRunes, [97], true, false⟩, by decide +kernel, by decide +kernel, by decide, by decide +kernel⟩

/-- C30 fails for pastes: typing `[x]` has the name of a paste of `x`. -/
theorem C30_paste_false : ∃ b b' : List Byte, ∃ k k' : Key,
    detectOneMsg b false = .msg b.length (.key k) ∧ detectOneMsg b' false = .msg b'.length (.key k') ∧
    k.paste ≠ k'.paste ∧ keyString k = keyString k' :=
  ⟨[91, 120, 93], [27, 91, 50, 48, 48, 126, 120, 27, 91, 50, 48, 49, 126],
    ⟨keyRunes, [91, 120, 93], false, false⟩,
    ⟨keyRunes, [120], false, true⟩, by decide +kernel, by decide +kernel, by decide, by decide +kernel⟩

/-! ### C62: focus reports -/

/-- C62: a focus report that arrives alone in a read is delivered.
Missing: reports that share a read, see `C62_shared_read_false`. -/
theorem C62_focus_partial (more : Bool) :
    detectOneMsg [27, 91, 73] more = .msg 3 .focus ∧ detectOneMsg [27, 91, 79] more = .msg 3 .blur := by
  cases more <;> decide +kernel

/-- C62 fails when anything follows in the same read: whatever it is, the report is not delivered. -/
theorem C62_shared_read_false (c : Byte) (rest : List Byte) (more : Bool) :
    detectOneMsg (27 :: 91 :: 73 :: c :: rest) more = .msg 3 (.unknownCSI [27, 91, 73]) := by
  have hx : ∀ d : Byte, d ≠ 73 → ¬ [27, 91, d] <+: 27 :: 91 :: 73 :: c :: rest := by
    intro d hd h
    simp only [List.cons_prefix_cons] at h
    exact hd h.2.2.1
  unfold detectOneMsg
  rw [detectMouse_none (hx 77 (by omega)) (hx 60 (by omega)),
    detectFocus_none (by simp) (by simp),
    detectPaste_none (fun h => by simp [bpStart, List.cons_prefix_cons] at h)]
  have hl : longestIn (27 :: 91 :: 73 :: c :: rest) seqLengths = none := by
    cases h : longestIn (27 :: 91 :: 73 :: c :: rest) seqLengths with
    | none => rfl
    | some p =>
      exfalso
      obtain ⟨w, k⟩ := p
      obtain ⟨h1, h2, h3, h4⟩ := longestIn_some seqLengths_sorted h
      have hfree : ∀ p ∈ extSequences, ¬ p.1 <+: [27, 91, 73] ∧ ¬ [27, 91, 73] <+: p.1 := by
        decide +kernel
      rcases prefix_cases (List.take_prefix w (27 :: 91 :: 73 :: c :: rest))
          (show [27, 91, 73] <+: 27 :: 91 :: 73 :: c :: rest from ⟨c :: rest, rfl⟩) with h | h
      · exact (hfree _ h1).1 h
      · exact (hfree _ h1).2 h
  unfold detectSequence
  rw [hl]
  simp [csiLength, List.takeWhile, List.dropWhile]

/-! ### C63: mouse reports do not swallow other input -/

/-- C63: a report is found only after its introducer and only when the three numbers are there: bytes
that do not start with `ESC [ M` or `ESC [ <` are never taken for a mouse report.
Missing: bytes between introducer and numbers, see `C63_swallowed_false`. -/
theorem C63_introducer_partial (b : List Byte) (more : Bool) (w : Nat) (m : MouseEvent)
    (h : detectOneMsg b more = .msg w (.mouse m)) :
    ([27, 91, 77] <+: b ∧ w = 6) ∨ [27, 91, 60] <+: b := by
  unfold detectOneMsg at h
  cases h1 : detectMouse b with
  | some d =>
    rw [h1] at h
    simp only at h
    subst h
    unfold detectMouse at h1
    split at h1
    · cases h1; exact Or.inl ⟨⟨_, rfl⟩, rfl⟩
    · exact Or.inr ⟨_, rfl⟩
    · cases h1
  | none =>
    exfalso
    rw [h1] at h
    simp only at h
    cases h2 : detectFocus b with
    | some d =>
      rw [h2] at h; simp only at h; subst h
      unfold detectFocus at h2
      split_ifs at h2 <;> cases h2
    | none =>
      rw [h2] at h; simp only at h
      cases h3 : detectPaste b with
      | some d =>
        rw [h3] at h; simp only at h; subst h
        unfold detectPaste at h3
        split_ifs at h3
        split at h3 <;> cases h3
      | none =>
        rw [h3] at h; simp only at h
        cases h4 : detectSequence b with
        | some p =>
          rw [h4] at h
          obtain ⟨w', m'⟩ := p
          simp only at h
          cases h
          unfold detectSequence at h4
          split at h4
          · cases h4
          · split at h4 <;> cases h4
        | none =>
          rw [h4] at h
          simp only at h
          unfold detectText at h
          simp only at h
          split_ifs at h <;> cases h

example : detectOneMsg [27, 91, 77, 32, 33, 33] false = .msg 6 (.mouse ⟨0, 0, false, false, false, .press, 1⟩) := by
  decide +kernel

/-- C63 fails for what stands between the introducer and the numbers: here the key sequence for up and
the letters `quit`, before a report of their own. -/
theorem C63_swallowed_false :
    detectOneMsg ([27, 91, 60] ++ [27, 91, 65] ++ [113, 117, 105, 116] ++
      [27, 91, 60, 48, 59, 49, 59, 49, 77]) false =
      .msg 19 (.mouse ⟨0, 0, false, false, false, .press, 1⟩) := by decide +kernel

end Bento
