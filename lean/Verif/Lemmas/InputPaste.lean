import Verif.Lemmas.InputText

/-!
# Pastes and mouse reports
-/

namespace Bento.Input

open Utf8

/-! ### Decoding UTF-8 -/

/-- What the decoder returns is an encoding that is there, or there is none. -/
theorem decodeRune_sound (b : Byte) (bs : List Byte) :
    (Scalar (decodeRune (b :: bs)).1 ∧
      encodeRune (decodeRune (b :: bs)).1 = (b :: bs).take (decodeRune (b :: bs)).2) ∨
    decodeRune (b :: bs) = (runeError, 1) := by
  unfold decodeRune
  simp only
  by_cases h1 : b < 0x80
  · rw [if_pos h1]
    left
    simp only [Scalar, encodeRune, h1, if_true, List.take_succ_cons, List.take_zero, and_true]
    omega
  rw [if_neg h1]
  by_cases h2 : 0xC2 ≤ b ∧ b ≤ 0xDF
  · rw [if_pos h2]
    cases bs with
    | nil => right; rfl
    | cons c cs =>
      simp only
      by_cases hc : cont 0x80 0xBF c = true
      · rw [if_pos hc]
        left
        simp only [cont, Bool.and_eq_true, decide_eq_true_eq] at hc
        have e1 : ((b - 0xC0) * 64 + (c - 0x80)) / 64 = b - 0xC0 := by omega
        have e2 : ((b - 0xC0) * 64 + (c - 0x80)) % 64 = c - 0x80 := by omega
        refine ⟨by unfold Scalar; simp only; omega, ?_⟩
        unfold encodeRune
        simp only
        rw [if_neg (by omega), if_pos (by omega), e1, e2]
        simp only [List.take_succ_cons, List.take_zero]
        rw [show 0xC0 + (b - 0xC0) = b by omega, show 0x80 + (c - 0x80) = c by omega]
      · rw [if_neg hc]; right; rfl
  rw [if_neg h2]
  by_cases h3 : 0xE0 ≤ b ∧ b ≤ 0xEF
  · rw [if_pos h3]
    match bs with
    | [] => right; rfl
    | [_] => right; rfl
    | c :: d :: cs =>
      simp only
      by_cases hc : (cont (second b).1 (second b).2 c && cont 0x80 0xBF d) = true
      · rw [if_pos hc]
        left
        simp only [cont, Bool.and_eq_true, decide_eq_true_eq] at hc
        obtain ⟨⟨c1, c2⟩, d1, d2⟩ := hc
        have c3 : 0x80 ≤ c ∧ c ≤ 0xBF ∧ (b = 0xE0 → 0xA0 ≤ c) ∧ (b = 0xED → c ≤ 0x9F) := by
          unfold second at c1 c2
          split_ifs at c1 c2 <;> simp only at c1 c2 <;> omega
        obtain ⟨c3, c4, c5, c6⟩ := c3
        have e1 : ((b - 0xE0) * 4096 + (c - 0x80) * 64 + (d - 0x80)) / 4096 = b - 0xE0 := by omega
        have e2 : ((b - 0xE0) * 4096 + (c - 0x80) * 64 + (d - 0x80)) / 64 % 64 = c - 0x80 := by omega
        have e3 : ((b - 0xE0) * 4096 + (c - 0x80) * 64 + (d - 0x80)) % 64 = d - 0x80 := by omega
        refine ⟨by unfold Scalar; simp only; omega, ?_⟩
        unfold encodeRune
        simp only
        rw [if_neg (by omega), if_neg (by omega), if_pos (by omega), e1, e2, e3]
        simp only [List.take_succ_cons, List.take_zero]
        rw [show 0xE0 + (b - 0xE0) = b by omega, show 0x80 + (c - 0x80) = c by omega,
          show 0x80 + (d - 0x80) = d by omega]
      · rw [if_neg hc]; right; rfl
  rw [if_neg h3]
  by_cases h4 : 0xF0 ≤ b ∧ b ≤ 0xF4
  · rw [if_pos h4]
    match bs with
    | [] => right; rfl
    | [_] => right; rfl
    | [_, _] => right; rfl
    | c :: d :: e :: cs =>
      simp only
      by_cases hc : (cont (second b).1 (second b).2 c && cont 0x80 0xBF d && cont 0x80 0xBF e) = true
      · rw [if_pos hc]
        left
        simp only [cont, Bool.and_eq_true, decide_eq_true_eq] at hc
        obtain ⟨⟨⟨c1, c2⟩, d1, d2⟩, f1, f2⟩ := hc
        have c3 : 0x80 ≤ c ∧ c ≤ 0xBF ∧ (b = 0xF0 → 0x90 ≤ c) ∧ (b = 0xF4 → c ≤ 0x8F) := by
          unfold second at c1 c2
          split_ifs at c1 c2 <;> simp only at c1 c2 <;> omega
        obtain ⟨c3, c4, c5, c6⟩ := c3
        have e1 : ((b - 0xF0) * 262144 + (c - 0x80) * 4096 + (d - 0x80) * 64 + (e - 0x80)) / 262144 =
            b - 0xF0 := by omega
        have e2 : ((b - 0xF0) * 262144 + (c - 0x80) * 4096 + (d - 0x80) * 64 + (e - 0x80)) / 4096 % 64 =
            c - 0x80 := by omega
        have e3 : ((b - 0xF0) * 262144 + (c - 0x80) * 4096 + (d - 0x80) * 64 + (e - 0x80)) / 64 % 64 =
            d - 0x80 := by omega
        have e4 : ((b - 0xF0) * 262144 + (c - 0x80) * 4096 + (d - 0x80) * 64 + (e - 0x80)) % 64 =
            e - 0x80 := by omega
        refine ⟨by unfold Scalar; simp only; omega, ?_⟩
        unfold encodeRune
        simp only
        rw [if_neg (by omega), if_neg (by omega), if_neg (by omega), e1, e2, e3, e4]
        simp only [List.take_succ_cons, List.take_zero]
        rw [show 0xF0 + (b - 0xF0) = b by omega, show 0x80 + (c - 0x80) = c by omega,
          show 0x80 + (d - 0x80) = d by omega, show 0x80 + (e - 0x80) = e by omega]
      · rw [if_neg hc]; right; rfl
  rw [if_neg h4]
  right; rfl

theorem decodeRune_error {b : Byte} {bs : List Byte} (h : decodeRune (b :: bs) = (runeError, 1)) :
    ∀ r, Scalar r → ¬ encodeRune r <+: b :: bs := by
  rintro r hr ⟨t, ht⟩
  rw [← ht, decode_encode hr t] at h
  have h1 := congrArg Prod.fst h
  have h2 := congrArg Prod.snd h
  simp only at h1 h2
  subst h1
  revert h2
  decide

theorem pasteRunes_valid : ∀ (n : Nat) (p : List Byte), p.length ≤ n → ValidRunes p (pasteRunes n p) := by
  intro n
  induction n with
  | zero =>
    intro p hp
    have : p = [] := List.length_eq_zero_iff.1 (by omega)
    subst this; exact .nil
  | succ n ih =>
    intro p hp
    cases p with
    | nil => exact .nil
    | cons b bs =>
      unfold pasteRunes
      simp only
      have hw := decodeRune_width b bs
      have hrec := ih ((b :: bs).drop (decodeRune (b :: bs)).2) (by rw [List.length_drop]; omega)
      rcases decodeRune_sound b bs with ⟨h1, h2⟩ | h
      · have hb : b :: bs = encodeRune (decodeRune (b :: bs)).1 ++ (b :: bs).drop (decodeRune (b :: bs)).2 := by
          rw [h2, List.take_append_drop]
        split_ifs with he
        · have h := ValidRunes.char h1 he hrec
          rwa [← hb] at h
        · have he : (decodeRune (b :: bs)).1 = runeError := by simpa using he
          have h := ValidRunes.replacement hrec
          rw [he] at hb
          change ValidRunes (encodeRune runeError ++ _) _ at h
          rwa [← hb] at h
      · rw [if_neg (by rw [h]; simp)]
        rw [h] at hrec ⊢
        exact .invalid (decodeRune_error h) (by simpa using hrec)

/-- Encoded text is read back. -/
theorem pasteRunes_text : ∀ (t : List Rune), (∀ r ∈ t, Scalar r ∧ r ≠ 0xFFFD) →
    ∀ n, (encodeText t).length ≤ n → pasteRunes n (encodeText t) = t := by
  intro t
  induction t with
  | nil => intro _ n _; cases n <;> rfl
  | cons r t ih =>
    intro ht n hn
    obtain ⟨h1, h2⟩ := ht r List.mem_cons_self
    have hpos := encodeRune_length_pos r
    rw [encodeText_cons] at hn ⊢
    rw [List.length_append] at hn
    match n with
    | 0 => omega
    | n + 1 =>
      obtain ⟨b, bs, he⟩ : ∃ b bs, encodeRune r = b :: bs := by
        cases h : encodeRune r with
        | nil => exact absurd h (encodeRune_ne_nil r)
        | cons b bs => exact ⟨b, bs, rfl⟩
      have hcons : encodeRune r ++ encodeText t = b :: (bs ++ encodeText t) := by rw [he]; rfl
      conv_lhs => rw [hcons]; unfold pasteRunes
      simp only
      rw [← hcons, decode_encode h1]
      simp only [List.drop_left]
      rw [if_pos (show r ≠ runeError from h2), ih (fun r' hr' => ht r' (List.mem_cons_of_mem _ hr')) n (by omega)]

theorem detectOneMsg_paste {p : List Byte} (rest : List Byte) (h : ¬ bpEnd <:+: p) (more : Bool) :
    detectOneMsg (bpStart ++ p ++ bpEnd ++ rest) more =
      .msg (p.length + 12) (.key ⟨keyRunes, pasteRunes p.length p, false, true⟩) := by
  have hpre : bpStart <+: bpStart ++ p ++ bpEnd ++ rest := by
    rw [List.append_assoc, List.append_assoc]; exact List.prefix_append _ _
  have hx : ∀ c : Byte, c ≠ 50 → ¬ [27, 91, c] <+: bpStart ++ p ++ bpEnd ++ rest := by
    intro c hc hp
    rcases prefix_cases hp hpre with h | h
    · simp only [bpStart, List.cons_prefix_cons] at h
      exact hc h.2.2.1
    · have := h.length_le
      simp [bpStart] at this
  unfold detectOneMsg
  rw [detectMouse_none (hx 77 (by omega)) (hx 60 (by omega)),
    detectFocus_none (fun he => hx 73 (by omega) (he ▸ List.prefix_refl _))
      (fun he => hx 79 (by omega) (he ▸ List.prefix_refl _))]
  have hd : (bpStart ++ p ++ bpEnd ++ rest).drop 6 = p ++ bpEnd ++ rest := by
    simp [bpStart]
  have : detectPaste (bpStart ++ p ++ bpEnd ++ rest) =
      some (.msg (6 + p.length + 6) (.key ⟨keyRunes, pasteRunes p.length p, false, true⟩)) := by
    unfold detectPaste
    rw [if_pos (List.isPrefixOf_iff_prefix.2 hpre), hd, indexOf_bpEnd p rest h]
    simp
  rw [this]
  simp only
  congr 1
  omega

theorem indexOf_append {needle x : List Byte} (y : List Byte) {i : Nat} (hn : needle ≠ [])
    (h : indexOf needle x = some i) : indexOf needle (x ++ y) = some i := by
  induction x generalizing i with
  | nil => unfold indexOf at h; rw [if_neg hn] at h; cases h
  | cons c x ih =>
    rw [List.cons_append]
    unfold indexOf at h ⊢
    split_ifs at h with hp
    · cases h
      rw [if_pos]
      have := List.isPrefixOf_iff_prefix.1 hp
      exact List.isPrefixOf_iff_prefix.2 (this.trans (by rw [← List.cons_append]; exact List.prefix_append _ _))
    · obtain ⟨j, hj, rfl⟩ := Option.map_eq_some_iff.1 h
      by_cases hq : needle.isPrefixOf (c :: (x ++ y)) = true
      · exfalso
        apply hp
        have hq := List.isPrefixOf_iff_prefix.1 hq
        have hl := (indexOf_some hj).2
        rw [← List.cons_append] at hq
        exact List.isPrefixOf_iff_prefix.2
          (List.prefix_of_prefix_length_le hq (List.prefix_append _ _) (by simp only [List.length_cons]; omega))
      · rw [if_neg hq, ih hj]; rfl

theorem detectOneMsg_open {b : List Byte} (h1 : bpStart <+: b) (h2 : indexOf bpEnd (b.drop 6) = none)
    (more : Bool) : detectOneMsg b more = .more := by
  have hx : ∀ c : Byte, c ≠ 50 → ¬ [27, 91, c] <+: b := by
    intro c hc hp
    rcases prefix_cases hp h1 with h | h
    · simp only [bpStart, List.cons_prefix_cons] at h
      exact hc h.2.2.1
    · have := h.length_le
      simp [bpStart] at this
  unfold detectOneMsg
  rw [detectMouse_none (hx 77 (by omega)) (hx 60 (by omega)),
    detectFocus_none (fun he => hx 73 (by omega) (he ▸ List.prefix_refl _))
      (fun he => hx 79 (by omega) (he ▸ List.prefix_refl _))]
  have : detectPaste b = some .more := by
    unfold detectPaste
    rw [if_pos (List.isPrefixOf_iff_prefix.2 h1), h2]
  rw [this]

theorem readAll_paste {p : List Byte} (hp : ¬ bpEnd <:+: p) (rest : List Byte) :
    ∀ (chunks : List (List Byte)) (left : List Byte),
      (bpStart <+: left ∨ left = [] ∧ ∃ c cs, chunks = c :: cs ∧ bpStart <+: c) →
      left.length < p.length + 12 →
      left ++ chunks.flatten = bpStart ++ p ++ bpEnd ++ rest →
      ∃ ms l, readAll left chunks =
        ((bpStart ++ p ++ bpEnd, .key ⟨keyRunes, pasteRunes p.length p, false, true⟩) :: ms, l) := by
  intro chunks
  induction chunks with
  | nil =>
    intro left _ hl he
    have := congrArg List.length he
    simp only [List.flatten_nil, List.append_nil, List.length_append, bpStart, bpEnd, List.length_cons,
      List.length_nil] at this
    omega
  | cons c cs ih =>
    intro left hs hl he
    rw [List.flatten_cons, ← List.append_assoc] at he
    have hs' : bpStart <+: left ++ c := by
      rcases hs with h | ⟨h, c', cs', h', h''⟩
      · exact h.trans (List.prefix_append _ _)
      · cases h'; subst h; exact h''
    have hne : left ++ c ≠ [] := by
      intro h; rw [h] at hs'; have := hs'.length_le; simp [bpStart] at this
    obtain ⟨x, xs, hx⟩ := List.exists_cons_of_ne_nil hne
    have hread : readAll left (c :: cs) =
        ((readStep left c).1 ++ (readAll (readStep left c).2 cs).1, (readAll (readStep left c).2 cs).2) := rfl
    have hrs : readStep left c = match detectOneMsg (left ++ c) (c.length == bufSize) with
        | .more => ([], left ++ c)
        | .msg w m => (((left ++ c).take w, m) ::
            (decodeAll (c.length == bufSize) xs.length ((left ++ c).drop w)).1,
            (decodeAll (c.length == bufSize) xs.length ((left ++ c).drop w)).2) := by
      unfold readStep
      rw [hx]; rfl
    by_cases hlen : (left ++ c).length < p.length + 12
    · -- the end has not arrived
      have hi : indexOf bpEnd ((left ++ c).drop 6) = none := by
        cases h : indexOf bpEnd ((left ++ c).drop 6) with
        | none => rfl
        | some i =>
          exfalso
          have h1 := indexOf_append cs.flatten (by simp [bpEnd]) h
          have h6 := hs'.length_le
          simp only [bpStart, List.length_cons, List.length_nil] at h6
          rw [← List.drop_append_of_le_length (by omega), he] at h1
          have hd : (bpStart ++ p ++ bpEnd ++ rest).drop 6 = p ++ bpEnd ++ rest := by simp [bpStart]
          rw [hd, indexOf_bpEnd p rest hp] at h1
          cases h1
          have := (indexOf_some h).2
          rw [List.length_drop] at this
          simp only [bpEnd, List.length_cons, List.length_nil] at this
          omega
      rw [detectOneMsg_open hs' hi] at hrs
      rw [hread, hrs]
      obtain ⟨ms, l, hml⟩ := ih (left ++ c) (Or.inl hs') hlen he
      exact ⟨ms, l, by rw [hml]; simp⟩
    · -- the paste is complete
      have hpre : bpStart ++ p ++ bpEnd <+: left ++ c := by
        refine List.prefix_of_prefix_length_le (l₃ := bpStart ++ p ++ bpEnd ++ rest) (List.prefix_append _ _) ?_ ?_
        · rw [← he]; exact List.prefix_append _ _
        · simp only [List.length_append, bpStart, bpEnd, List.length_cons, List.length_nil] at hlen ⊢
          omega
      obtain ⟨rest', hr⟩ := hpre
      have hlen' : (bpStart ++ p ++ bpEnd).length = p.length + 12 := by
        simp only [List.length_append, bpStart, bpEnd, List.length_cons, List.length_nil]; omega
      rw [← hr, detectOneMsg_paste rest' hp] at hrs
      simp only at hrs
      rw [← hlen', List.take_left, List.drop_left] at hrs
      rw [hread, hrs]
      exact ⟨_, _, rfl⟩

/-! ### Mouse reports -/

theorem decimal_ne_nil (n : Nat) : decimal n ≠ [] := by
  unfold decimal; split_ifs <;> simp

theorem decimal_digits (n : Nat) : ∀ d ∈ decimal n, Mouse.isDigit d = true := by
  induction n using Nat.strong_induction_on with
  | _ n ih =>
    unfold decimal
    split_ifs with h
    · intro d hd
      simp only [List.mem_singleton] at hd
      subst hd
      simp only [Mouse.isDigit, Bool.and_eq_true, decide_eq_true_eq]; omega
    · intro d hd
      rcases List.mem_append.1 hd with hd | hd
      · exact ih (n / 10) (by omega) d hd
      · simp only [List.mem_singleton] at hd
        subst hd
        simp only [Mouse.isDigit, Bool.and_eq_true, decide_eq_true_eq]; omega

theorem digitsValue_decimal (n : Nat) : Mouse.digitsValue (decimal n) = n := by
  induction n using Nat.strong_induction_on with
  | _ n ih =>
    unfold decimal
    split_ifs with h
    · simp [Mouse.digitsValue]
    · have := ih (n / 10) (by omega)
      unfold Mouse.digitsValue at this ⊢
      rw [List.foldl_append, this]
      simp only [List.foldl_cons, List.foldl_nil]
      omega

theorem takeWhile_decimal (n : Nat) (c : Byte) (rest : List Byte) (hc : Mouse.isDigit c = false) :
    (decimal n ++ c :: rest).takeWhile Mouse.isDigit = decimal n ∧
    (decimal n ++ c :: rest).dropWhile Mouse.isDigit = c :: rest := by
  constructor
  · rw [List.takeWhile_append_of_pos (decimal_digits n), List.takeWhile_cons]
    simp [hc]
  · rw [List.dropWhile_append_of_pos (decimal_digits n), List.dropWhile_cons]
    simp [hc]

theorem sgrAt_report (b x y : Nat) (rel : Bool) (rest : List Byte) :
    Mouse.sgrAt (decimal b ++ 59 :: (decimal x ++ 59 :: (decimal y ++ (if rel then 109 else 77) :: rest))) =
      some ⟨decimal b, decimal x, decimal y, rel,
        (decimal b).length + 1 + (decimal x).length + 1 + (decimal y).length + 1⟩ := by
  unfold Mouse.sgrAt
  obtain ⟨a1, a2⟩ := takeWhile_decimal b 59
    (decimal x ++ 59 :: (decimal y ++ (if rel then 109 else 77) :: rest)) (by decide)
  obtain ⟨b1, b2⟩ := takeWhile_decimal x 59 (decimal y ++ (if rel then 109 else 77) :: rest) (by decide)
  obtain ⟨c1, c2⟩ := takeWhile_decimal y (if rel then 109 else 77) rest (by cases rel <;> decide)
  rw [a1, a2]
  simp only
  rw [b1, b2]
  simp only
  rw [c1, c2]
  simp only
  rw [if_pos ⟨decimal_ne_nil _, decimal_ne_nil _, decimal_ne_nil _, by cases rel <;> simp⟩]
  cases rel <;> rfl

theorem atoi_decimal {n : Nat} (h : (n : Int) ≤ 2 ^ 63 - 1) : Mouse.atoi (decimal n) = n := by
  unfold Mouse.atoi
  rw [digitsValue_decimal]
  exact min_eq_left h

/-- The finite part of the SGR round trip: button, modifiers and action. -/
theorem sgr_code (button : Fin 12) (s a c : Bool) (act : MouseAction)
    (h1 : button.1 = 0 → act = .motion) (h2 : 4 ≤ button.1 ∧ button.1 ≤ 7 → act = .press) :
    let m : MouseEvent := ⟨0, 0, s, a, c, act, button.1⟩
    let m' := Mouse.parseMouseButton (reportCode m) true
    (if m'.action ≠ .motion ∧ ¬ m'.isWheel ∧ (decide (act = .release)) then
      { m' with action := .release } else m') = m ∧ reportCode m < 256 := by
  cases act <;> revert button s a c <;> decide +kernel

/-- The finite part of the X10 round trip. -/
theorem x10_code (button : Fin 12) (s a c : Bool) (act : MouseAction)
    (h1 : button.1 = 0 → act ≠ .press) (h2 : 4 ≤ button.1 ∧ button.1 ≤ 7 → act = .press)
    (h3 : act = .release → button.1 = 0) :
    let m : MouseEvent := ⟨0, 0, s, a, c, act, button.1⟩
    Mouse.parseMouseButton ((32 + reportCode m : Nat) : Int) false = m := by
  cases act <;> revert button s a c <;> decide +kernel

end Bento.Input
