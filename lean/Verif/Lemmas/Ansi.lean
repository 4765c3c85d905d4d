import Verif.Spec.Commands

/-! # Decoding of encoded commands -/

set_option linter.unusedSimpArgs false

namespace Bento

theorem digit_char (d : Nat) (h : d < 10) :
    ('0' ≤ Char.ofNat (48 + d) ∧ Char.ofNat (48 + d) ≤ '9') ∧ (Char.ofNat (48 + d)).toNat - 48 = d := by
  have : ∀ d < 10, ('0' ≤ Char.ofNat (48 + d) ∧ Char.ofNat (48 + d) ≤ '9') ∧
    (Char.ofNat (48 + d)).toNat - 48 = d := by decide
  exact this d h

theorem parse_digit (priv done cur bad) (d : Nat) (h : d < 10) (rest : List Char) :
    parse (.csi priv done cur bad) (Char.ofNat (48 + d) :: rest) =
      parse (.csi priv done (cur * 10 + d) bad) rest := by
  rw [parse, if_pos (digit_char d h).1, (digit_char d h).2]

/-- Reading a decimal number. -/
theorem parse_natDigits (n : Nat) : ∀ (priv done cur bad) (rest : List Char),
    parse (.csi priv done cur bad) (natDigits n ++ rest) =
      parse (.csi priv done (cur * 10 ^ (natDigits n).length + n) bad) rest := by
  induction n using Nat.strongRecOn with
  | _ n ih =>
    intro priv done cur bad rest
    rw [natDigits]
    split
    · rename_i h
      rw [List.singleton_append, parse_digit _ _ _ _ _ h]
      simp
    · rename_i h
      rw [List.append_assoc, ih (n / 10) (by omega), List.singleton_append,
        parse_digit _ _ _ _ _ (by omega)]
      congr 2
      rw [List.length_append, List.length_singleton, Nat.pow_succ, Nat.add_mul, Nat.mul_assoc]
      omega

theorem parse_natDigits0 (n : Nat) (priv done bad) (rest : List Char) :
    parse (.csi priv done 0 bad) (natDigits n ++ rest) = parse (.csi priv done n bad) rest := by
  rw [parse_natDigits]; simp

theorem parse_semi (priv done cur bad) (rest : List Char) :
    parse (.csi priv done cur bad) (';' :: rest) = parse (.csi priv (done ++ [cur]) 0 bad) rest := by
  rw [parse, if_neg (by decide), if_pos rfl]

theorem parse_final (priv done cur) (c : Char) (rest : List Char)
    (h1 : ¬ ('0' ≤ c ∧ c ≤ '9')) (h2 : c ≠ ';') (h3 : c ≠ '?') (h4 : '@' ≤ c ∧ c ≤ '~') :
    parse (.csi priv done cur false) (c :: rest) =
      .csi priv (done ++ [cur]) c :: parse (.ground []) rest := by
  rw [parse, if_neg h1, if_neg h2, if_neg h3, if_pos h4]; rfl

theorem parse_csi (acc : List Char) (rest : List Char) :
    parse (.ground acc) (csi rest) = flushText acc ++ parse (.csi false [] 0 false) rest := by
  rw [csi, parse, if_pos rfl, parse, if_pos rfl]

/-- The parameters a colour is encoded as. -/
def Color.codes (T : Termenv) (bg : Bool) : Color → List Nat
  | .reset => [if bg then 49 else 39]
  | .noColor => [0]
  | .ansi n => if n < 8 then [n + (if bg then 40 else 30)] else [n - 8 + (if bg then 100 else 90)]
  | .ansi256 n => [if bg then 48 else 38, 5, n]
  | .rgb h =>
    match T.hex h with
    | none => [0]
    | some (r, g, b) => [if bg then 48 else 38, 2, r, g, b]

theorem parse_char_digit (priv done cur bad) (c : Char) (d : Nat) (hc : c = Char.ofNat (48 + d))
    (h : d < 10) (rest : List Char) :
    parse (.csi priv done cur bad) (c :: rest) =
      parse (.csi priv done (cur * 10 + d) bad) rest := by
  subst hc; exact parse_digit _ _ _ _ _ h _

theorem parse_color (T : Termenv) (bg : Bool) (c : Color) (done : List Nat) :
    ∃ init last, c.codes T bg = init ++ [last] ∧ ∀ rest,
      parse (.csi false done 0 false) (c.sequence T bg ++ rest) =
        parse (.csi false (done ++ init) last false) rest := by
  cases c with
  | reset =>
    exact ⟨[], _, rfl, fun rest => by
      simp only [Color.sequence, List.append_nil]; exact parse_natDigits0 ..⟩
  | noColor => exact ⟨[], 0, rfl, fun rest => by simp [Color.sequence]⟩
  | ansi n =>
    by_cases h : n < 8
    · refine ⟨[], n + (if bg then 40 else 30), by simp [Color.codes, h], fun rest => ?_⟩
      simp only [Color.sequence, h, if_true, List.append_nil]; exact parse_natDigits0 ..
    · refine ⟨[], n - 8 + (if bg then 100 else 90), by simp [Color.codes, h], fun rest => ?_⟩
      simp only [Color.sequence, h, if_false, List.append_nil]; exact parse_natDigits0 ..
  | ansi256 n =>
    refine ⟨[if bg then 48 else 38, 5], n, rfl, fun rest => ?_⟩
    simp only [Color.sequence, List.append_assoc, List.cons_append]
    rw [parse_natDigits0, parse_semi, parse_char_digit _ _ _ _ '5' 5 (by decide) (by decide),
      parse_semi, parse_natDigits0]
    simp
  | rgb h =>
    cases hh : T.hex h with
    | none => exact ⟨[], 0, by simp [Color.codes, hh], fun rest => by simp [Color.sequence, hh]⟩
    | some t =>
      obtain ⟨r, g, b⟩ := t
      refine ⟨[if bg then 48 else 38, 2, r, g], b, by simp [Color.codes, hh], fun rest => ?_⟩
      simp only [Color.sequence, hh, List.append_assoc, List.cons_append]
      rw [parse_natDigits0, parse_semi, parse_char_digit _ _ _ _ '2' 2 (by decide) (by decide),
        parse_semi, parse_natDigits0, parse_semi, parse_natDigits0, parse_semi, parse_natDigits0]
      simp

/-- The tokens a command is decoded as; text is handled separately. -/
def Command.toks (T : Termenv) : Command → List Tok
  | .moveTo c r => [.csi false [(r + 1).toNat, (c + 1).toNat] 'H']
  | .setAttribute a => [.csi false [sgrTable.getD a.index 0] 'm']
  | .setColors (some f) (some b) => [.csi false (f.codes T false ++ b.codes T true) 'm']
  | .setColors _ _ => []
  | .print _ => []
  | .showCursor => [.csi true [25] 'h']
  | .hideCursor => [.csi true [25] 'l']
  | .clearAll => [.csi false [2] 'J']
  | .clearAfterCursor => [.csi false [0] 'J']
  | .clearBeforeCursor => [.csi false [1] 'J']
  | .clearCurrentLine => [.csi false [2] 'K']
  | .clearUntilNewLine => [.csi false [0] 'K']
  | .enterAlternateScreen => [.csi true [1049] 'h']
  | .leaveAlternateScreen => [.csi true [1049] 'l']
  | .enableBracketedPaste => [.csi true [2004] 'h']
  | .disableBracketedPaste => [.csi true [2004] 'l']

/-- Tokens of a command sequence: adjacent text is merged. -/
def toksOf (T : Termenv) : List Char → List Command → List Tok
  | acc, [] => flushText acc
  | acc, .print s :: cs => toksOf T (s.toList.reverse ++ acc) cs
  | acc, .setColors none none :: cs => toksOf T acc cs
  | acc, c :: cs => flushText acc ++ c.toks T ++ toksOf T [] cs

theorem parse_text (s : List Char) (hs : ∀ c ∈ s, 32 ≤ c.toNat ∧ c.toNat ≠ 127) :
    ∀ (acc rest : List Char), parse (.ground acc) (s ++ rest) =
      parse (.ground (s.reverse ++ acc)) rest := by
  induction s with
  | nil => intro acc rest; rfl
  | cons c s ih =>
    intro acc rest
    have hc := hs c (by simp)
    rw [List.cons_append, parse]
    rw [if_neg (by intro h; subst h; revert hc; decide), if_neg (by omega)]
    rw [ih (fun c hc => hs c (by simp [hc]))]
    simp

theorem itoa_nonneg {i : Int} (h : 0 ≤ i) : itoa i = natDigits i.toNat := by
  unfold itoa; rw [if_neg (by omega)]

theorem Attr.sgr_of_meaning {a : Attr} (h : a.meaning.isSome = true) :
    a.sgr = natDigits (sgrTable.getD a.index 0) := by
  cases a <;> first | rfl | (simp [Attr.meaning] at h)

/-- Decoding one encoded command followed by anything. -/
theorem parse_command (T : Termenv) (c : Command) (hok : c.Ok T) (hp : ∀ s, c ≠ .print s)
    (hn : c ≠ .setColors none none) (acc rest : List Char) :
    ∃ out, c.write T = some out ∧ parse (.ground acc) (out ++ rest) =
      flushText acc ++ c.toks T ++ parse (.ground []) rest := by
  have fin : ∀ priv done cur (f : Char) rest, f ∈ ['H', 'm', 'J', 'K', 'h', 'l'] →
      parse (.csi priv done cur false) (f :: rest) =
        .csi priv (done ++ [cur]) f :: parse (.ground []) rest := by
    intro priv done cur f rest hf
    simp only [List.mem_cons, List.not_mem_nil, or_false] at hf
    rcases hf with rfl | rfl | rfl | rfl | rfl | rfl <;>
      exact parse_final _ _ _ _ _ (by decide) (by decide) (by decide) (by decide)
  have q : ∀ done cur rest, parse (.csi false done cur false) ('?' :: rest) =
      parse (.csi true done cur false) rest := by
    intro done cur rest
    rw [parse, if_neg (by decide), if_neg (by decide), if_pos rfl]
  have dg := fun (priv : Bool) (cur : Nat) (c : Char) (d : Nat) (hc : c = Char.ofNat (48 + d))
    (h : d < 10) (rest : List Char) => parse_char_digit priv [] cur false c d hc h rest
  have d0 := fun p cur rest => dg p cur '0' 0 (by decide) (by decide) rest
  have d1 := fun p cur rest => dg p cur '1' 1 (by decide) (by decide) rest
  have d2 := fun p cur rest => dg p cur '2' 2 (by decide) (by decide) rest
  have d4 := fun p cur rest => dg p cur '4' 4 (by decide) (by decide) rest
  have d5 := fun p cur rest => dg p cur '5' 5 (by decide) (by decide) rest
  have d9 := fun p cur rest => dg p cur '9' 9 (by decide) (by decide) rest
  have fJ := fun p cur rest => fin p [] cur 'J' rest (by simp)
  have fK := fun p cur rest => fin p [] cur 'K' rest (by simp)
  have fh := fun p cur rest => fin p [] cur 'h' rest (by simp)
  have fl := fun p cur rest => fin p [] cur 'l' rest (by simp)
  have happ : ∀ x : List Char, csi x ++ rest = csi (x ++ rest) := fun x => rfl
  cases c with
  | moveTo x y =>
    refine ⟨_, rfl, ?_⟩
    rw [happ, parse_csi, itoa_nonneg (by have := hok.2; omega), itoa_nonneg (by have := hok.1; omega)]
    simp only [List.append_assoc, List.cons_append, List.nil_append]
    rw [parse_natDigits0, parse_semi, parse_natDigits0, fin _ _ _ _ _ (by simp)]
    simp [Command.toks]
  | setAttribute a =>
    refine ⟨_, rfl, ?_⟩
    rw [happ, parse_csi, Attr.sgr_of_meaning hok, List.append_assoc, parse_natDigits0,
      List.singleton_append, fin _ _ _ _ _ (by simp)]
    simp [Command.toks]
  | setColors f b =>
    cases f with
    | none =>
      cases b with
      | none => exact absurd rfl hn
      | some b => exact absurd hok (by simp [Command.Ok])
    | some f =>
      cases b with
      | none => exact absurd hok (by simp [Command.Ok])
      | some b =>
        refine ⟨_, rfl, ?_⟩
        obtain ⟨i1, l1, e1, p1⟩ := parse_color T false f []
        obtain ⟨i2, l2, e2, p2⟩ := parse_color T true b (f.codes T false)
        rw [happ, parse_csi]
        simp only [List.append_assoc, List.cons_append, List.nil_append]
        rw [p1, parse_semi, List.nil_append, ← e1, p2, fin _ _ _ _ _ (by simp), List.append_assoc,
          ← e2]
        simp [Command.toks]
  | print s => exact absurd rfl (hp s)
  | showCursor =>
    exact ⟨_, rfl, by simp [happ, parse_csi, q, d0, d1, d2, d4, d5, d9, fh, fl, fJ, fK, Command.toks]⟩
  | hideCursor =>
    exact ⟨_, rfl, by simp [happ, parse_csi, q, d0, d1, d2, d4, d5, d9, fh, fl, fJ, fK, Command.toks]⟩
  | clearAll =>
    exact ⟨_, rfl, by simp [happ, parse_csi, q, d0, d1, d2, d4, d5, d9, fh, fl, fJ, fK, Command.toks]⟩
  | clearAfterCursor =>
    exact ⟨_, rfl, by simp [happ, parse_csi, q, d0, d1, d2, d4, d5, d9, fh, fl, fJ, fK, Command.toks]⟩
  | clearBeforeCursor =>
    exact ⟨_, rfl, by simp [happ, parse_csi, q, d0, d1, d2, d4, d5, d9, fh, fl, fJ, fK, Command.toks]⟩
  | clearCurrentLine =>
    exact ⟨_, rfl, by simp [happ, parse_csi, q, d0, d1, d2, d4, d5, d9, fh, fl, fJ, fK, Command.toks]⟩
  | clearUntilNewLine =>
    exact ⟨_, rfl, by simp [happ, parse_csi, q, d0, d1, d2, d4, d5, d9, fh, fl, fJ, fK, Command.toks]⟩
  | enterAlternateScreen =>
    exact ⟨_, rfl, by simp [happ, parse_csi, q, d0, d1, d2, d4, d5, d9, fh, fl, fJ, fK, Command.toks]⟩
  | leaveAlternateScreen =>
    exact ⟨_, rfl, by simp [happ, parse_csi, q, d0, d1, d2, d4, d5, d9, fh, fl, fJ, fK, Command.toks]⟩
  | enableBracketedPaste =>
    exact ⟨_, rfl, by simp [happ, parse_csi, q, d0, d1, d2, d4, d5, d9, fh, fl, fJ, fK, Command.toks]⟩
  | disableBracketedPaste =>
    exact ⟨_, rfl, by simp [happ, parse_csi, q, d0, d1, d2, d4, d5, d9, fh, fl, fJ, fK, Command.toks]⟩

/-- Decoding a sequence of encoded commands. -/
theorem parse_writeAll (T : Termenv) (cmds : List Command) (hok : ∀ c ∈ cmds, c.Ok T) :
    ∃ out, writeAll T cmds = some out ∧
      ∀ acc, parse (.ground acc) out = toksOf T acc cmds := by
  induction cmds with
  | nil => exact ⟨[], rfl, fun acc => by simp [parse, toksOf]⟩
  | cons c cs ih =>
    obtain ⟨out, ho, hparse⟩ := ih (fun c hc => hok c (by simp [hc]))
    have hc := hok c (by simp)
    have hw : ∀ o, c.write T = some o → writeAll T (c :: cs) = some (o ++ out) := by
      intro o h
      simp only [writeAll] at ho ⊢
      rw [List.foldrM_cons, ho]
      simp [h]
    by_cases hp : ∃ s, c = .print s
    · obtain ⟨s, rfl⟩ := hp
      refine ⟨_, hw _ rfl, fun acc => ?_⟩
      rw [parse_text _ hc, hparse, toksOf]
    · by_cases hn : c = .setColors none none
      · subst hn
        exact ⟨_, hw _ rfl, fun acc => by rw [List.nil_append, hparse, toksOf]⟩
      · have hp' : ∀ s, c ≠ .print s := fun s h => hp ⟨s, h⟩
        obtain ⟨o, h1, _⟩ := parse_command T c hc hp' hn [] out
        refine ⟨_, hw _ h1, fun acc => ?_⟩
        obtain ⟨o', h1', h2⟩ := parse_command T c hc hp' hn acc out
        rw [h1] at h1'
        injection h1' with h1'
        subst h1'
        rw [h2, hparse]
        clear h2 h1 hw
        cases c with
        | print s => exact absurd rfl (hp' s)
        | setColors f b => cases f <;> cases b <;> first | rfl | (exact absurd rfl hn)
        | _ => rfl

/-! ## Effect of the decoded tokens -/

theorem sgr_color_fg (T : Termenv) (c : Color) (t : TColor) (h : c.shown T = some t)
    (rest : List Nat) (p : Pen) : sgr (c.codes T false ++ rest) p = sgr rest { p with fg := t } := by
  cases c with
  | reset => simp only [Color.shown, Option.some.injEq] at h; subst h; rfl
  | noColor => simp [Color.shown] at h
  | ansi n =>
    simp only [Color.shown] at h
    split at h
    · rename_i hn
      simp only [Option.some.injEq] at h
      subst h
      have : n = 0 ∨ n = 1 ∨ n = 2 ∨ n = 3 ∨ n = 4 ∨ n = 5 ∨ n = 6 ∨ n = 7 ∨ n = 8 ∨ n = 9 ∨ n = 10 ∨
        n = 11 ∨ n = 12 ∨ n = 13 ∨ n = 14 ∨ n = 15 := by omega
      rcases this with h | h | h | h | h | h | h | h | h | h | h | h | h | h | h | h <;>
        subst h <;> rfl
    · cases h
  | ansi256 n =>
    simp only [Color.shown] at h
    split at h
    · simp only [Option.some.injEq] at h; subst h; rfl
    · cases h
  | rgb s =>
    simp only [Color.shown, Option.map_eq_some_iff] at h
    obtain ⟨⟨r, g, b⟩, h1, h2⟩ := h
    subst h2
    simp only [Color.codes, h1]
    rfl

theorem sgr_color_bg (T : Termenv) (c : Color) (t : TColor) (h : c.shown T = some t)
    (rest : List Nat) (p : Pen) : sgr (c.codes T true ++ rest) p = sgr rest { p with bg := t } := by
  cases c with
  | reset => simp only [Color.shown, Option.some.injEq] at h; subst h; rfl
  | noColor => simp [Color.shown] at h
  | ansi n =>
    simp only [Color.shown] at h
    split at h
    · rename_i hn
      simp only [Option.some.injEq] at h
      subst h
      have : n = 0 ∨ n = 1 ∨ n = 2 ∨ n = 3 ∨ n = 4 ∨ n = 5 ∨ n = 6 ∨ n = 7 ∨ n = 8 ∨ n = 9 ∨ n = 10 ∨
        n = 11 ∨ n = 12 ∨ n = 13 ∨ n = 14 ∨ n = 15 := by omega
      rcases this with h | h | h | h | h | h | h | h | h | h | h | h | h | h | h | h <;>
        subst h <;> rfl
    · cases h
  | ansi256 n =>
    simp only [Color.shown] at h
    split at h
    · simp only [Option.some.injEq] at h; subst h; rfl
    · cases h
  | rgb s =>
    simp only [Color.shown, Option.map_eq_some_iff] at h
    obtain ⟨⟨r, g, b⟩, h1, h2⟩ := h
    subst h2
    simp only [Color.codes, h1]
    rfl

/-- Tokens of a non-text command have the intended effect. -/
theorem toks_effect (j : Junk) (u : Uniseg) (T : Termenv) (c : Command) (hok : c.Ok T)
    (hp : ∀ s, c ≠ .print s) (sc : Screen) :
    (c.toks T).foldl (Screen.tok j u) sc = c.effect j u T sc := by
  cases c with
  | moveTo x y =>
    obtain ⟨h1, h2⟩ := hok
    simp only [Command.toks, List.foldl_cons, List.foldl_nil, Screen.tok, Screen.control,
      Command.effect]
    have e1 : max 1 (((x + 1).toNat : Nat) : Int) - 1 = x := by omega
    have e2 : max 1 (((y + 1).toNat : Nat) : Int) - 1 = y := by omega
    rw [e1, e2]
  | setAttribute a =>
    cases a <;> first | rfl | (simp [Command.Ok, Attr.meaning] at hok)
  | setColors f b =>
    cases f with
    | none => cases b <;> rfl
    | some f =>
      cases b with
      | none => rfl
      | some b =>
        obtain ⟨h1, h2⟩ := hok
        obtain ⟨t1, h1⟩ := Option.isSome_iff_exists.1 h1
        obtain ⟨t2, h2⟩ := Option.isSome_iff_exists.1 h2
        simp only [Command.toks, List.foldl_cons, List.foldl_nil, Screen.tok, Screen.control,
          Command.effect, h1, h2, Option.getD_some]
        rw [sgr_color_fg T f t1 h1]
        have := sgr_color_bg T b t2 h2 [] { sc.pen with fg := t1 }
        rw [List.append_nil] at this
        rw [this]
        rfl
  | print s => exact absurd rfl (hp s)
  | _ => rfl

theorem join_foldl (l : List String) (acc : String) :
    l.foldl (· ++ ·) acc = acc ++ l.foldl (· ++ ·) "" := by
  induction l generalizing acc with
  | nil => simp
  | cons a l ih => simp only [List.foldl_cons]; rw [ih, ih ("" ++ a)]; simp [String.append_assoc]

theorem join_append_single (l : List String) (s : String) :
    String.join (l ++ [s]) = String.join l ++ s := by
  simp [String.join]

theorem putText_join (j : Junk) (u : Uniseg) (S : String → Prop) (hsep : Separable u S)
    (l : List String) (hl : ∀ s ∈ l, S s) (sc : Screen) :
    sc.putText j u (String.join l) = l.foldl (fun sc s => sc.putText j u s) sc := by
  simp only [Screen.putText]
  rw [hsep l hl]
  clear hl
  induction l generalizing sc with
  | nil => rfl
  | cons a l ih => simp only [List.flatMap_cons, List.foldl_append, List.foldl_cons]; rw [ih]

theorem flush_effect (j : Junk) (u : Uniseg) (S : String → Prop) (hsep : Separable u S)
    (l : List String) (hl : ∀ s ∈ l, S s) (sc : Screen) :
    (flushText (String.join l).toList.reverse).foldl (Screen.tok j u) sc =
      l.foldl (fun sc s => sc.putText j u s) sc := by
  rw [← putText_join j u S hsep l hl]
  unfold flushText
  split
  · rename_i h
    have : String.join l = "" := by
      have h' : (String.join l).toList = [] := List.reverse_eq_nil_iff.1 h
      have := congrArg String.ofList h'
      rwa [String.ofList_toList] at this
    rw [this]
    have h0 := hsep [] (by simp)
    simp only [Screen.putText]
    have e : String.join [] = "" := rfl
    rw [e] at h0
    rw [h0]; rfl
  · simp only [List.foldl_cons, List.foldl_nil, Screen.tok, List.reverse_reverse,
      String.ofList_toList]

/-- Feeding the tokens of a command sequence has the effects of the commands one after another. -/
theorem toksOf_effect (j : Junk) (u : Uniseg) (T : Termenv) (S : String → Prop)
    (hsep : Separable u S) (cmds : List Command) (hok : ∀ c ∈ cmds, c.Ok T)
    (hS : ∀ s, .print s ∈ cmds → S s) : ∀ (l : List String), (∀ s ∈ l, S s) → ∀ sc : Screen,
    (toksOf T (String.join l).toList.reverse cmds).foldl (Screen.tok j u) sc =
      cmds.foldl (Command.effect j u T) (l.foldl (fun sc s => sc.putText j u s) sc) := by
  induction cmds with
  | nil =>
    intro l hl sc
    simp only [toksOf, List.foldl_nil]
    exact flush_effect j u S hsep l hl sc
  | cons c cs ih =>
    intro l hl sc
    have ih' := ih (fun c hc => hok c (by simp [hc])) (fun s hs => hS s (by simp [hs]))
    by_cases hp : ∃ s, c = .print s
    · obtain ⟨s, rfl⟩ := hp
      rw [toksOf]
      have e : s.toList.reverse ++ (String.join l).toList.reverse =
          (String.join (l ++ [s])).toList.reverse := by
        rw [join_append_single]; simp
      rw [e, ih' (l ++ [s]) (by
        intro t ht
        rw [List.mem_append, List.mem_singleton] at ht
        rcases ht with h | h
        · exact hl t h
        · subst h; exact hS t (by simp))]
      simp [Command.effect]
    · have hp' : ∀ s, c ≠ .print s := fun s h => hp ⟨s, h⟩
      by_cases hn : c = .setColors none none
      · subst hn
        rw [toksOf, ih' l hl]
        rfl
      · have e : toksOf T (String.join l).toList.reverse (c :: cs) =
            flushText (String.join l).toList.reverse ++ c.toks T ++ toksOf T [] cs := by
          cases c with
          | print s => exact absurd rfl (hp' s)
          | setColors f b => cases f <;> cases b <;> first | rfl | (exact absurd rfl hn)
          | _ => rfl
        rw [e, List.foldl_append, List.foldl_append, flush_effect j u S hsep l hl,
          toks_effect j u T c (hok c (by simp)) hp']
        have := ih' [] (by simp) (Command.effect j u T (l.foldl (fun sc s => sc.putText j u s) sc) c)
        rw [List.foldl_cons]
        simpa [String.join] using this

end Bento
