import Verif.Lemmas.InputField
import Verif.Props.Text

/-!
# The text input
-/

namespace Bento

open InputField

/-! ### C37: a list with a cursor -/

namespace InputField

/-- The methods and keys that edit an input. -/
inductive Op
  | append (s : String)
  | moveLeft
  | moveRight
  | moveBegin
  | moveEnd
  | deleteUnderCursor
  | deleteLine
  | key (k : Key)

/-- What each of them does. -/
def Op.run (u : Uniseg) (s : State) : Op → Option State
  | .append t => s.append u t
  | .moveLeft => some s.moveCursorLeft
  | .moveRight => some s.moveCursorRight
  | .moveBegin => some s.moveCursorBegin
  | .moveEnd => some s.moveCursorEnd
  | .deleteUnderCursor => s.deleteUnderCursor
  | .deleteLine => some s.deleteLine
  | .key k => (s.update u k).map (·.1)

/-- What each of them means; `none` for the key that deletes a word. -/
def Op.edit : Op → Option Edit
  | .append t => some (.type t)
  | .moveLeft => some .left
  | .moveRight => some .right
  | .moveBegin => some .home
  | .moveEnd => some .fin
  | .deleteUnderCursor => some .backspace
  | .deleteLine => some .clear
  | .key k => keyEdit k

theorem keyText_eq (k : Key) : keyText k = State.runesString k.runes := by
  unfold keyText State.runesString
  congr 2
  funext r
  by_cases h : r.isValidChar
  · have h' : r < 0xD800 ∨ (0xDFFF < r ∧ r < 0x110000) := h
    rw [dif_pos h, if_pos h']
    unfold Char.ofNat
    rw [dif_pos h]
  · have h' : ¬ (r < 0xD800 ∨ (0xDFFF < r ∧ r < 0x110000)) := h
    rw [dif_neg h, if_neg h']

theorem State.Shows.length {s : State} {e : Editor} (h : s.Shows e) :
    s.graphemes.length = e.before.length + e.after.length := by
  have := congrArg List.length h.1
  simpa using this

/-- The state as two lists. -/
theorem State.Shows.split {s : State} {e : Editor} (h : s.Shows e) :
    ∃ b a : List Grapheme, s.graphemes = b ++ a ∧ b.map Grapheme.symbol = e.before ∧
      a.map Grapheme.symbol = e.after ∧ s.cursor = b.length := by
  have hl := h.length
  refine ⟨s.graphemes.take e.before.length, s.graphemes.drop e.before.length, (List.take_append_drop ..).symm,
    ?_, ?_, ?_⟩
  · rw [List.map_take, h.1]; simp
  · rw [List.map_drop, h.1]; simp
  · rw [h.2, List.length_take]; congr 1; omega

theorem State.Shows.of_split {s : State} {b a : List Grapheme} (hg : s.graphemes = b ++ a)
    (hc : s.cursor = b.length) : s.Shows ⟨b.map Grapheme.symbol, a.map Grapheme.symbol⟩ :=
  ⟨by rw [hg, List.map_append], by simpa using hc⟩

theorem appendLoop_spec (u : Uniseg) : ∀ (cs : List String) (s : State) (b a : List Grapheme),
    s.graphemes = b ++ a → s.cursor = b.length →
    State.appendLoop u cs s = some { s with
      graphemes := b ++ cs.map (Grapheme.new u) ++ a, cursor := (b.length + cs.length : Nat) }
  | [], s, b, a, hg, hc => by
    obtain ⟨c, sh, g, o⟩ := s
    simp only at hg hc
    subst hg hc
    simp [State.appendLoop]
  | c :: cs, s, b, a, hg, hc => by
    obtain ⟨cu, sh, g, o⟩ := s
    simp only at hg hc
    subst hg hc
    have hi : State.insert ⟨(b.length : Int), sh, b ++ a, o⟩ (Grapheme.new u c) =
        some ⟨(b.length : Int), sh, b ++ Grapheme.new u c :: a, o⟩ := by
      unfold State.insert
      rw [if_pos (by simp)]
      simp
    have ih := appendLoop_spec u cs (State.moveCursorRight ⟨(b.length : Int), sh, b ++ Grapheme.new u c :: a, o⟩)
      (b ++ [Grapheme.new u c]) a (by simp [State.moveCursorRight, State.setCursor])
      (by simp [State.moveCursorRight, State.setCursor, State.clampCursor]; omega)
    rw [State.appendLoop, hi, Option.bind_eq_bind, Option.bind_some, ih]
    simp [State.moveCursorRight, State.setCursor]
    omega

theorem splitAtCursor_snoc {s : State} {b a : List Grapheme} {g : Grapheme} (hg : s.graphemes = b ++ g :: a)
    (hc : s.cursor = b.length + 1) : s.splitAtCursor = some (b, g, a) := by
  unfold State.splitAtCursor
  rw [if_neg (by rw [hg]; simp; omega), if_neg (by omega), hg, hc]
  have h1 : ((b.length : Int) + 1 - 1).toNat = b.length := by omega
  have h2 : ((b.length : Int) + 1).toNat = b.length + 1 := by omega
  rw [h1, h2]
  simp [List.drop_append]

theorem splitAtCursor_nil {s : State} (hc : s.cursor = 0) :
    s.splitAtCursor = some ([], Grapheme.empty, s.graphemes) := by
  unfold State.splitAtCursor
  rw [if_pos (.inr hc)]

theorem deleteUnderCursor_spec {s : State} {b a : List Grapheme} (hg : s.graphemes = b ++ a)
    (hc : s.cursor = b.length) :
    s.deleteUnderCursor = some { s with graphemes := b.dropLast ++ a, cursor := (b.dropLast.length : Nat) } := by
  obtain ⟨cu, sh, g, o⟩ := s
  simp only at hg hc
  subst hg hc
  rcases List.eq_nil_or_concat b with h | ⟨b', x, h⟩
  · subst h
    unfold State.deleteUnderCursor
    rw [splitAtCursor_nil (by rfl)]
    simp [State.moveCursorLeft, State.setCursor, State.clampCursor]
  · rw [List.concat_eq_append] at h
    subst h
    unfold State.deleteUnderCursor
    rw [splitAtCursor_snoc (b := b') (g := x) (a := a) (by simp) (by simp)]
    simp [State.moveCursorLeft, State.setCursor, State.clampCursor]

theorem step_spec (u : Uniseg) {s : State} {e : Editor} (h : s.Shows e) (op : Op) {d : Edit}
    (hd : op.edit = some d) : ∃ s', op.run u s = some s' ∧ s'.Shows (e.step u d) := by
  have base : ∀ (op : Op) (d : Edit), (∀ k, op ≠ .key k) → op.edit = some d →
      ∃ s', op.run u s = some s' ∧ s'.Shows (e.step u d) := by
    intro op d hk hd
    obtain ⟨b, a, hg, hb, ha, hc⟩ := h.split
    have hlen : s.graphemes.length = b.length + a.length := by rw [hg, List.length_append]
    cases op with
    | key k => exact absurd rfl (hk k)
    | append t =>
      cases hd
      refine ⟨_, appendLoop_spec u _ s b a hg hc, ?_, ?_⟩
      · simp [Editor.step, hb, ha, List.map_map, Function.comp_def, Grapheme.new]
      · simp [Editor.step, ← hb]
    | moveLeft =>
      cases hd
      refine ⟨_, rfl, ?_⟩
      rcases List.eq_nil_or_concat b with hn | ⟨b', x, hn⟩
      · subst hn
        simp only [List.map_nil] at hb
        have he : e.step u .left = e := by unfold Editor.step; rw [← hb]; rfl
        rw [he]
        refine ⟨h.1, ?_⟩
        simp only [State.moveCursorLeft, State.setCursor, State.clampCursor, hc, ← hb]
        simp
      · rw [List.concat_eq_append] at hn
        subst hn
        have he : e.step u .left = ⟨b'.map Grapheme.symbol, x.symbol :: e.after⟩ := by
          unfold Editor.step
          rw [← hb]
          simp
        rw [he]
        refine ⟨?_, ?_⟩
        · simp [State.moveCursorLeft, State.setCursor, hg, ha]
        · simp only [State.moveCursorLeft, State.setCursor, State.clampCursor, hc, hlen]
          simp
          omega
    | moveRight =>
      cases hd
      refine ⟨_, rfl, ?_⟩
      cases a with
      | nil =>
        simp only [List.map_nil] at ha
        have he : e.step u .right = e := by unfold Editor.step; rw [← ha]
        rw [he]
        refine ⟨h.1, ?_⟩
        simp only [State.moveCursorRight, State.setCursor, State.clampCursor, hc, hlen, ← hb]
        simp
      | cons x a' =>
        simp only [List.map_cons] at ha
        have he : e.step u .right = ⟨e.before ++ [x.symbol], a'.map Grapheme.symbol⟩ := by
          unfold Editor.step; rw [← ha]
        rw [he]
        refine ⟨?_, ?_⟩
        · simp [State.moveCursorRight, State.setCursor, hg, hb]
        · simp only [State.moveCursorRight, State.setCursor, State.clampCursor, hc, hlen, ← hb]
          simp
          omega
    | moveBegin =>
      cases hd
      refine ⟨_, rfl, h.1, ?_⟩
      simp [State.moveCursorBegin, State.setCursor, State.clampCursor, Editor.step]
    | moveEnd =>
      cases hd
      refine ⟨_, rfl, ?_, ?_⟩
      · simp [State.moveCursorEnd, State.setCursor, Editor.step, h.1]
      · simp [State.moveCursorEnd, State.setCursor, State.clampCursor, Editor.step, h.length]
    | deleteUnderCursor =>
      cases hd
      refine ⟨_, deleteUnderCursor_spec hg hc, ?_, ?_⟩
      · simp [Editor.step, ← hb, ha, List.map_dropLast]
      · simp [Editor.step, ← hb]
    | deleteLine =>
      cases hd
      exact ⟨_, rfl, rfl, rfl⟩
  by_cases hk : ∃ k, op = .key k
  · obtain ⟨k, rfl⟩ := hk
    simp only [Op.edit, keyEdit] at hd
    split at hd
    · cases hd
    rename_i h23
    simp only [Option.some.injEq] at hd
    show ∃ s', (s.update u k).map (·.1) = some s' ∧ s'.Shows (e.step u d)
    unfold State.update
    by_cases h1 : k.type = -5
    · rw [if_pos h1] at hd
      rw [if_pos (show k.type = Input.keyLeft from h1)]
      subst hd
      exact base .moveLeft .left (by simp) rfl
    rw [if_neg h1] at hd
    rw [if_neg (show ¬k.type = Input.keyLeft from h1)]
    by_cases h2 : k.type = -25
    · rw [if_pos (show k.type = Input.keyShiftLeft from h2)]
      simp only [h2, Int.reduceNeg, reduceCtorEq, if_false, or_self, Int.reduceEq] at hd
      subst hd
      exact ⟨s, rfl, h⟩
    rw [if_neg (show ¬k.type = Input.keyShiftLeft from h2)]
    by_cases h3 : k.type = -4
    · rw [if_pos h3] at hd
      rw [if_pos (show k.type = Input.keyRight from h3)]
      subst hd
      exact base .moveRight .right (by simp) rfl
    rw [if_neg h3] at hd
    rw [if_neg (show ¬k.type = Input.keyRight from h3)]
    by_cases h4 : k.type = -24
    · rw [if_pos (show k.type = Input.keyShiftRight from h4)]
      simp only [h4, Int.reduceNeg, reduceCtorEq, if_false, or_self, Int.reduceEq] at hd
      subst hd
      exact ⟨s, rfl, h⟩
    rw [if_neg (show ¬k.type = Input.keyShiftRight from h4)]
    by_cases h5 : k.type = 127 ∨ k.type = -13
    · rw [if_pos (show (k.type = 127 ∨ k.type = Input.keyDelete) from h5)]
      have h6 : k.type ≠ 1 := by
        intro h
        rcases h5 with h5 | h5 <;> rw [h5] at h <;> exact absurd h (by decide)
      have h7 : k.type ≠ 5 := by
        intro h
        rcases h5 with h5 | h5 <;> rw [h5] at h <;> exact absurd h (by decide)
      rw [if_neg h6, if_neg h7, if_pos h5] at hd
      subst hd
      obtain ⟨s', e1, e2⟩ := base .deleteUnderCursor .backspace (by simp) rfl
      refine ⟨s', ?_, e2⟩
      simp only [Op.run] at e1
      rw [e1]
      rfl
    rw [if_neg (show ¬(k.type = 127 ∨ k.type = Input.keyDelete) from h5)]
    by_cases h6 : k.type = 1
    · rw [if_pos h6] at hd ⊢
      subst hd
      exact base .moveBegin .home (by simp) rfl
    rw [if_neg h6] at hd ⊢
    by_cases h7 : k.type = 5
    · rw [if_pos h7] at hd ⊢
      subst hd
      exact base .moveEnd .fin (by simp) rfl
    rw [if_neg h7] at hd ⊢
    rw [if_neg h23]
    by_cases h8 : k.type = -1 ∨ k.type = -15
    · rw [if_neg h5, if_pos h8] at hd
      rw [if_pos (show (k.type = Input.keyRunes ∨ k.type = Input.keySpace) from h8)]
      subst hd
      obtain ⟨s', e1, e2⟩ := base (.append (keyText k)) (.type (keyText k)) (by simp) rfl
      refine ⟨s', ?_, e2⟩
      simp only [Op.run, keyText_eq] at e1
      rw [e1]
      rfl
    · rw [if_neg h5, if_neg h8] at hd
      rw [if_neg (show ¬(k.type = Input.keyRunes ∨ k.type = Input.keySpace) from h8)]
      subst hd
      exact ⟨s, rfl, h⟩
  · exact base op d (fun k hk' => hk ⟨k, hk'⟩) hd

end InputField

/-- Every sequence of editing operations and keys (but the one that deletes a word, see C38) does to an
input what it does to an editor: the same clusters are before and after the cursor. Nothing panics. -/
theorem C37_editor (u : Uniseg) : ∀ (ops : List Op) (edits : List Edit), ops.map Op.edit = edits.map some →
    ∃ s, ops.foldlM (Op.run u) State.new = some s ∧
      s.Shows (edits.foldl (Editor.step u) ⟨[], []⟩) := by
  have key : ∀ (ops : List Op) (edits : List Edit) (s : State) (e : Editor), s.Shows e →
      ops.map Op.edit = edits.map some →
      ∃ s', ops.foldlM (Op.run u) s = some s' ∧ s'.Shows (edits.foldl (Editor.step u) e) := by
    intro ops
    induction ops with
    | nil =>
      intro edits s e h he
      cases edits with
      | nil => exact ⟨s, rfl, h⟩
      | cons d ds => simp at he
    | cons op ops ih =>
      intro edits s e h he
      cases edits with
      | nil => simp at he
      | cons d ds =>
        simp only [List.map_cons, List.cons.injEq] at he
        obtain ⟨s1, e1, h1⟩ := step_spec u h op he.1
        obtain ⟨s2, e2, h2⟩ := ih ds s1 _ h1 he.2
        refine ⟨s2, ?_, by simpa using h2⟩
        rw [List.foldlM_cons, e1]
        exact e2
  intro ops edits he
  exact key ops edits State.new ⟨[], []⟩ ⟨rfl, rfl⟩ he

/-- So the text is what is before and after the cursor, and the cursor is a position of the text. -/
theorem C37_text {s : State} {e : Editor} (h : s.Shows e) :
    s.string = String.join (e.before ++ e.after) ∧ 0 ≤ s.cursor ∧ s.cursor ≤ s.graphemes.length := by
  refine ⟨?_, ?_, ?_⟩
  · unfold State.string graphemesString; rw [h.1]
  · rw [h.2]; omega
  · rw [h.2, h.length]; omega

/-- Typing "ac", going left, typing "b" and deleting it again with the key, then typing "x". -/
example : ∃ s, [Op.append "ac", .moveLeft, .key ⟨-1, [98], false, false⟩, .key ⟨127, [], false, false⟩,
      .append "x"].foldlM (Op.run Uniseg.simple) State.new = some s ∧ s.string = "axc" ∧ s.cursor = 2 :=
  ⟨_, rfl, by decide +kernel, by decide +kernel⟩

example : [Op.append "ac", .moveLeft, .key ⟨-1, [98], false, false⟩, .key ⟨127, [], false, false⟩,
      .append "x"].map Op.edit = [Edit.type "ac", .left, .type "b", .backspace, .type "x"].map some := by
  decide +kernel

/-! ### C38: deleting a word -/

namespace InputField

theorem whileLoop_spec (cond : Grapheme → Bool) (len : Int) : ∀ (rs : List Grapheme) (c : Grapheme),
    (rs.length : Int) + 1 ≤ len →
    State.whileLoop cond len rs c ((rs.length : Int) + 1) =
      match (c :: rs).dropWhile cond with
      | [] => ([], Grapheme.empty, 1)
      | d :: ds => (ds, d, (ds.length : Int) + 1)
  | [], c, h => by
    unfold State.whileLoop
    cases hc : cond c <;> simp [List.dropWhile, hc]
  | g :: rs, c, h => by
    unfold State.whileLoop
    simp only [List.length_cons] at h ⊢
    cases hc : cond c with
    | false => simp [List.dropWhile, hc]
    | true =>
      rw [if_pos rfl]
      have ih := whileLoop_spec cond len rs g (by omega)
      have hm : min (max 0 (((rs.length + 1 : Nat) : Int) + 1 - 1)) len = (rs.length : Int) + 1 := by omega
      rw [hm, ih]
      conv => rhs; rw [List.dropWhile_cons, if_pos hc]

theorem deleteWhile_spec (cond : Grapheme → Bool) {s : State} {rs : List Grapheme} {c : Grapheme}
    {a : List Grapheme} (hg : s.graphemes = (c :: rs).reverse ++ a) (hc : s.cursor = (rs.length : Int) + 1) :
    s.deleteWhile cond = some (match (c :: rs).dropWhile cond with
      | [] => { s with graphemes := Grapheme.empty :: a, cursor := 1 }
      | d :: ds => { s with graphemes := (d :: ds).reverse ++ a, cursor := (ds.length : Int) + 1 }) := by
  unfold State.deleteWhile
  rw [splitAtCursor_snoc (b := rs.reverse) (g := c) (a := a) (by simp [hg]) (by simp [hc])]
  simp only [Option.bind_eq_bind, Option.bind_some, List.reverse_reverse]
  rw [hc, whileLoop_spec cond _ rs c (by rw [hg]; simp)]
  cases (c :: rs).dropWhile cond <;> simp

theorem takeWhile_imp {α : Type} {p : α → Bool} : ∀ {l : List α} {x : α}, x ∈ l.takeWhile p → p x = true
  | [], _, h => by simp at h
  | y :: l, x, h => by
    rw [List.takeWhile_cons] at h
    split at h
    · next hy =>
      rcases List.mem_cons.1 h with h | h
      · rw [h]; exact hy
      · exact takeWhile_imp h
    · simp at h

theorem dropWhile_all {α : Type} (p : α → Bool) {l l' : List α} (h : l.dropWhile p = l') :
    ∀ x ∈ l', x ∈ l := by
  subst h
  exact fun x hx => (List.dropWhile_suffix p).mem hx

theorem dropWhile_congr' {α : Type} {p q : α → Bool} : ∀ {l : List α}, (∀ x ∈ l, p x = q x) →
    l.dropWhile p = l.dropWhile q
  | [], _ => rfl
  | x :: l, h => by
    have hx := h x (List.mem_cons_self ..)
    have ih := dropWhile_congr' (l := l) fun y hy => h y (List.mem_cons_of_mem _ hy)
    simp only [List.dropWhile_cons, hx, ih]

/-- What deleting a word does. -/
theorem deleteWord_spec {s : State} {b a : List Grapheme} (hg : s.graphemes = b ++ a)
    (hc : s.cursor = b.length) (hne : ∀ g ∈ b, g.isEmpty = false) :
    s.deleteWordUnderCursor = some (if b = [] then s
      else if withoutWord b = [] then { s with graphemes := Grapheme.empty :: a, cursor := 1 }
      else { s with graphemes := withoutWord b ++ a, cursor := (withoutWord b).length }) := by
  rcases List.eq_nil_or_concat b with hb | ⟨b', c, hb⟩
  · subst hb
    rw [if_pos rfl]
    unfold State.deleteWordUnderCursor State.underCursor
    rw [if_pos (.inr (by simpa using hc))]
    rfl
  rw [List.concat_eq_append] at hb
  have hrev : b.reverse = c :: b'.reverse := by rw [hb]; simp
  generalize hrs : b'.reverse = rs at hrev
  have hbr : b = (c :: rs).reverse := by rw [← hrev, List.reverse_reverse]
  have hlen : b.length = rs.length + 1 := by rw [hbr]; simp
  rw [if_neg (by rw [hb]; simp)]
  have hcur : s.cursor = (rs.length : Int) + 1 := by omega
  have hgr : s.graphemes = (c :: rs).reverse ++ a := by rw [hg, hbr]
  have hune : c.isEmpty = false := hne c (by rw [hb]; simp)
  have hunder : s.underCursor = some c := by
    unfold State.underCursor
    rw [if_neg (by rw [hgr]; simp; omega), if_neg (by omega), hcur,
      show ((rs.length : Int) + 1 - 1).toNat = rs.length by omega, hgr]
    simp
  have hww : withoutWord b = (((c :: rs).dropWhile Grapheme.isWhitespace).dropWhile
      fun g => !g.isWhitespace).reverse := by unfold withoutWord; rw [hrev]
  -- the second loop, on a text that ends in something
  have hsec : ∀ (t : State) (d : Grapheme) (ds : List Grapheme), t.graphemes = (d :: ds).reverse ++ a →
      t.cursor = (ds.length : Int) + 1 → (∀ g ∈ d :: ds, g.isEmpty = false) →
      t.deleteWhile (fun g => !g.isEmpty && !g.isWhitespace) =
        some (if (d :: ds).dropWhile (fun g => !g.isWhitespace) = [] then
            { t with graphemes := Grapheme.empty :: a, cursor := 1 }
          else { t with graphemes := ((d :: ds).dropWhile fun g => !g.isWhitespace).reverse ++ a,
                        cursor := (((d :: ds).dropWhile fun g => !g.isWhitespace).reverse).length }) := by
    intro t d ds h1 h2 h3
    rw [deleteWhile_spec _ h1 h2, dropWhile_congr' (q := fun g => !g.isWhitespace)
      (fun x hx => by simp [h3 x hx])]
    cases (d :: ds).dropWhile (fun g => !g.isWhitespace) <;> simp
  have hmem : ∀ g ∈ c :: rs, g.isEmpty = false := fun g hg' => hne g (by rw [hbr]; exact List.mem_reverse.2 hg')
  unfold State.deleteWordUnderCursor
  rw [hunder]
  simp only [Option.bind_eq_bind, Option.bind_some, hune, Bool.false_eq_true, if_false]
  cases hws : c.isWhitespace with
  | true =>
    rw [if_pos rfl, deleteWhile_spec _ hgr hcur]
    cases hdw : (c :: rs).dropWhile Grapheme.isWhitespace with
    | nil =>
      rw [hdw] at hww
      simp only [List.dropWhile_nil, List.reverse_nil] at hww
      rw [hww, if_pos rfl]
      simp only [Option.bind_some]
      rw [deleteWhile_spec (rs := []) (c := Grapheme.empty) (a := a) _ (by simp) (by simp)]
      simp [Grapheme.empty, Grapheme.isEmpty]
    | cons d ds =>
      rw [hdw] at hww
      simp only [Option.bind_some]
      rw [hsec _ d ds rfl rfl (fun g hg' => hmem g (dropWhile_all _ hdw g hg'))]
      rw [hww]
      simp only [List.reverse_eq_nil_iff]
  | false =>
    simp only [Bool.false_eq_true, if_false]
    have hdw : (c :: rs).dropWhile Grapheme.isWhitespace = c :: rs := by simp [List.dropWhile, hws]
    rw [hdw] at hww
    rw [hsec _ c rs hgr hcur hmem, hww]
    simp only [List.reverse_eq_nil_iff]

end InputField

/-- Deleting a word deletes the last word before the cursor and the blanks behind it from the text, and
nothing else. If something is left before the cursor, the cursor is right after it. Missing: the case that
nothing is left, where an empty grapheme stays, see `C38_residue_false`. -/
theorem C38_word_partial {s : State} {b a : List Grapheme} (hg : s.graphemes = b ++ a)
    (hc : s.cursor = b.length) (hne : ∀ g ∈ b, g.isEmpty = false) :
    ∃ s', s.deleteWordUnderCursor = some s' ∧
      s'.string = graphemesString (withoutWord b ++ a) ∧
      (b = [] ∨ withoutWord b ≠ [] →
        s'.graphemes = withoutWord b ++ a ∧ s'.cursor = (withoutWord b).length) := by
  refine ⟨_, deleteWord_spec hg hc hne, ?_, ?_⟩
  · split
    · next h => subst h; unfold State.string; rw [hg]; rfl
    · split
      · next h =>
        rw [h]
        simp [State.string, graphemesString, Grapheme.empty, String.join]
      · rfl
  · intro h
    split
    · next hb => subst hb; exact ⟨hg, by rw [hc]; rfl⟩
    · next hb =>
      rw [if_neg (by tauto)]
      exact ⟨rfl, rfl⟩

example : ∃ s', (⟨3, true, [⟨"a", 1⟩, ⟨" ", 1⟩, ⟨"b", 1⟩, ⟨"c", 1⟩], 0⟩ : State).deleteWordUnderCursor = some s' ∧
    s'.string = "a c" := by
  obtain ⟨s', h, hs, _⟩ := C38_word_partial (s := ⟨3, true, [⟨"a", 1⟩, ⟨" ", 1⟩, ⟨"b", 1⟩, ⟨"c", 1⟩], 0⟩)
    (b := [⟨"a", 1⟩, ⟨" ", 1⟩, ⟨"b", 1⟩]) (a := [⟨"c", 1⟩]) rfl rfl (by decide +kernel)
  exact ⟨s', h, hs.trans (by decide +kernel)⟩

/-- The blanks and the word are what the specification says: what is deleted is a word without blanks
followed by blanks, and what is left does not end in a part of the word. -/
theorem C38_word_spec (b : List Grapheme) : ∃ word blanks, b = withoutWord b ++ word ++ blanks ∧
    (∀ g ∈ word, g.isWhitespace = false) ∧ (∀ g ∈ blanks, g.isWhitespace = true) ∧
    (∀ g ∈ (withoutWord b).getLast?, g.isWhitespace = true) ∧ (word = [] → withoutWord b = []) := by
  refine ⟨((b.reverse.dropWhile Grapheme.isWhitespace).takeWhile fun g => !g.isWhitespace).reverse,
    (b.reverse.takeWhile Grapheme.isWhitespace).reverse, ?_, ?_, ?_, ?_, ?_⟩
  · unfold withoutWord
    rw [← List.reverse_append, List.takeWhile_append_dropWhile, ← List.reverse_append,
      List.takeWhile_append_dropWhile, List.reverse_reverse]
  · intro g hg
    have := takeWhile_imp (List.mem_reverse.1 hg)
    simpa using this
  · intro g hg
    exact takeWhile_imp (List.mem_reverse.1 hg)
  · intro g hg
    unfold withoutWord at hg
    rw [List.getLast?_reverse] at hg
    have := List.head?_dropWhile_not (fun g : Grapheme => !g.isWhitespace)
      (b.reverse.dropWhile Grapheme.isWhitespace)
    rw [hg] at this
    simpa using this
  · intro h
    rw [List.reverse_eq_nil_iff] at h
    unfold withoutWord
    cases hd : b.reverse.dropWhile Grapheme.isWhitespace with
    | nil => rfl
    | cons d ds =>
      have := List.head?_dropWhile_not Grapheme.isWhitespace b.reverse
      rw [hd] at this h
      simp only [List.head?_cons] at this
      simp [List.takeWhile, this] at h

example : withoutWord [⟨"a", 1⟩, ⟨" ", 1⟩, ⟨"b", 1⟩, ⟨"c", 1⟩, ⟨" ", 1⟩] = [⟨"a", 1⟩, ⟨" ", 1⟩] := by decide +kernel

/-- When the first word of a text is deleted, an empty grapheme stays before the cursor. -/
theorem C38_residue_false {s : State} {b a : List Grapheme} (hg : s.graphemes = b ++ a)
    (hc : s.cursor = b.length) (hne : ∀ g ∈ b, g.isEmpty = false) (hb : b ≠ []) (hw : withoutWord b = []) :
    ∃ s', s.deleteWordUnderCursor = some s' ∧ s'.graphemes = Grapheme.empty :: a ∧ s'.cursor = 1 := by
  refine ⟨_, deleteWord_spec hg hc hne, ?_⟩
  rw [if_neg hb, if_pos hw]
  exact ⟨rfl, rfl⟩

/-- It shows: after "ab", Ctrl+W, "c", Ctrl+A, right and "x" the text is "xc", not "cx". -/
theorem C38_typing_false : ∃ s, [Op.append "ab", .key ⟨23, [], false, false⟩, .append "c",
      .key ⟨1, [], false, false⟩, .key ⟨-4, [], false, false⟩, .append "x"].foldlM
      (Op.run Uniseg.simple) State.new = some s ∧ s.string = "xc" :=
  ⟨_, rfl, by decide +kernel⟩

/-- Two words and blanks: the second word and the blanks go. -/
example : ∃ s, [Op.append "ab cd  ", .key ⟨23, [], false, false⟩].foldlM (Op.run Uniseg.simple) State.new =
    some s ∧ s.string = "ab " ∧ s.cursor = 3 := ⟨_, rfl, by decide +kernel, by decide +kernel⟩

/-! ### C39: the part that is shown -/

namespace InputField

theorem widthOf_append (a b : List Grapheme) : widthOf (a ++ b) = widthOf a + widthOf b := by
  simp [widthOf]

theorem widthOf_nonneg (a : List Grapheme) : 0 ≤ widthOf a := sum_width_nonneg a

theorem columnsOf_parts (pre a b : List Grapheme) (h : i = pre.length) (h' : j = (pre ++ a).length) :
    columnsOf (pre ++ a ++ b) i j = widthOf a := by
  subst h h'
  unfold columnsOf widthOf
  rw [List.take_left', List.drop_left'] <;> rfl

theorem isEmpty_all {gs : List Grapheme} (h : ∀ g ∈ gs, g.symbol ≠ "") (hn : gs ≠ []) :
    gs.all Grapheme.isEmpty = false := by
  cases gs with
  | nil => exact absurd rfl hn
  | cons g t =>
    have := h g (List.mem_cons_self ..)
    simp [Grapheme.isEmpty, this]

/-- Splitting the visible part at the cursor. -/
theorem split_spec (i : Widget) (t : State) (b a : List Grapheme) (hg : t.graphemes = b ++ a)
    (hc : t.cursor = b.length) : ∃ x y z, i.split t = some (x, y, z) ∧
      (t.graphemes ≠ [] → (∀ g ∈ t.graphemes, g.symbol ≠ "") → x = ⟨Style.new, graphemesString b⟩ ∧
        y = ⟨Style.new, (a.head?.map Grapheme.symbol).getD ""⟩ ∧ z = ⟨Style.new, graphemesString a.tail⟩) := by
  unfold Widget.split
  by_cases he : t.isEmpty = true
  · rw [if_pos he]
    have hno : t.graphemes ≠ [] → (∀ g ∈ t.graphemes, g.symbol ≠ "") → False := by
      intro h1 h2
      have := isEmpty_all h2 h1
      unfold State.isEmpty at he
      rw [he] at this
      cases this
    cases i.placeholder with
    | nil => exact ⟨_, _, _, rfl, fun h1 h2 => (hno h1 h2).elim⟩
    | cons p r => exact ⟨_, _, _, rfl, fun h1 h2 => (hno h1 h2).elim⟩
  · rw [if_neg he]
    rcases List.eq_nil_or_concat b with hb | ⟨b', x, hb⟩
    · subst hb
      rw [splitAtCursor_nil (by simpa using hc)]
      simp only [Option.bind_eq_bind, Option.bind_some]
      have hga : t.graphemes = a := by simpa using hg
      rw [hga]
      have hj : graphemesString ([] ++ [Grapheme.empty]) = graphemesString [] := by
        simp [graphemesString, Grapheme.empty, String.join]
      rw [hj]
      cases a with
      | nil => exact ⟨_, _, _, rfl, fun h => absurd rfl h⟩
      | cons c r => exact ⟨_, _, _, rfl, fun _ _ => ⟨rfl, rfl, rfl⟩⟩
    · rw [List.concat_eq_append] at hb
      subst hb
      rw [splitAtCursor_snoc (b := b') (g := x) (a := a) (by simp [hg]) (by simp [hc])]
      simp only [Option.bind_eq_bind, Option.bind_some]
      cases a with
      | nil => exact ⟨_, _, _, rfl, fun _ _ => ⟨rfl, rfl, rfl⟩⟩
      | cons c r => exact ⟨_, _, _, rfl, fun _ _ => ⟨rfl, rfl, rfl⟩⟩

theorem line_spec (u : Uniseg) (i : Widget) {width : Int} {s : State}
    (hw : (u.stringWidth i.prompt : Int) + 1 ≤ width)
    (h : Ready (width - u.stringWidth i.prompt - 1) s) :
    ∃ l s', i.line u width s = some (l, s') ∧ i.Window u width s l s' := by
  obtain ⟨f, l, e, hl, hcol, hfc, hcl, hpos, _, hne⟩ := getBounds_spec (by omega) h
  obtain ⟨c, hc⟩ : ∃ c : Nat, s.cursor = c := ⟨s.cursor.toNat, by have := h.low; omega⟩
  obtain ⟨cu, sh, gs, off⟩ := s
  simp only at *
  subst hc
  have hfc : f ≤ c := by omega
  have hcl : c ≤ l := by omega
  obtain ⟨pre, hpre⟩ : ∃ pre, pre = gs.take f := ⟨_, rfl⟩
  obtain ⟨bef, hbef⟩ : ∃ bef, bef = (gs.drop f).take (c - f) := ⟨_, rfl⟩
  obtain ⟨aft, haft⟩ : ∃ aft, aft = (gs.drop c).take (l - c) := ⟨_, rfl⟩
  have hprel : pre.length = f := by rw [hpre, List.length_take]; omega
  have hbefl : bef.length = c - f := by rw [hbef, List.length_take, List.length_drop]; omega
  have hvis : (gs.drop f).take (l - f) = bef ++ aft := by
    rw [hbef, haft, show l - f = (c - f) + (l - c) by omega, List.take_add, List.drop_drop,
      show f + (c - f) = c by omega]
  have hall : gs = pre ++ bef ++ aft ++ gs.drop l := by
    rw [hpre, List.append_assoc (gs.take f), ← hvis]
    conv => lhs; rw [← List.take_append_drop f gs, ← List.take_append_drop (l - f) (gs.drop f), List.drop_drop,
      show f + (l - f) = l by omega]
    rw [List.append_assoc]
  have hw2 : widthOf (bef ++ aft) = columnsOf gs f l := by
    conv => rhs; rw [hall]
    have hlen : (bef ++ aft).length = l - f := by
      rw [← hvis, List.length_take, List.length_drop]; omega
    rw [List.append_assoc pre, columnsOf_parts pre (bef ++ aft) _ hprel.symm]
    rw [List.length_append, hlen, hprel]; omega
  obtain ⟨x, y, z, hsplit, hxyz⟩ := split_spec i ⟨(c : Int) - (f : Int), false, bef ++ aft, (f : Int)⟩ bef aft rfl
    (by simp only; rw [hbefl]; omega)
  refine ⟨⟨Style.new, [if i.prompt ≠ "" then ⟨i.promptStyle, i.prompt⟩ else ⟨Style.new, ""⟩, x,
      i.cursorSpan ⟨(c : Int), sh, gs, (f : Int)⟩ y, z], i.alignment⟩,
    ⟨(c : Int), sh, gs, (f : Int)⟩, ?_, pre, bef, aft, gs.drop l, hall, ?_, ?_, ?_, ?_, ?_⟩
  · unfold Widget.line
    rw [e]
    simp only [Option.bind_eq_bind, Option.bind_some, skip, take]
    rw [if_neg (by omega)]
    simp only [Option.bind_some]
    rw [if_neg (by omega)]
    simp only [Option.bind_some, Int.toNat_natCast]
    rw [show ((l : Int) - (f : Int)).toNat = l - f by omega, hvis, hsplit]
    rfl
  · simp only
    rw [List.length_append, hprel, hbefl]; omega
  · intro h0
    have := hpos h0
    intro hb
    rw [hb] at hbefl
    simp at hbefl
    omega
  · rw [hw2]; omega
  · rw [hprel]
  · intro h1 h2
    have hvne : bef ++ aft ≠ [] := by
      intro hb
      have := hne h1
      have hlen : (bef ++ aft).length = l - f := by
        rw [← hvis, List.length_take, List.length_drop]; omega
      rw [hb] at hlen
      simp at hlen
      omega
    obtain ⟨hx, hy, hz⟩ := hxyz hvne (fun g hg => h2 g (by
      rw [hall]
      simp only [List.mem_append] at hg ⊢
      tauto))
    subst hx hy hz
    unfold Widget.textLine Widget.promptSpan Widget.cursorSpan
    simp only
    congr 1
    have hp : (if i.prompt ≠ "" then (⟨i.promptStyle, i.prompt⟩ : Span) else ⟨Style.new, ""⟩) =
        if i.prompt = "" then ⟨Style.new, ""⟩ else ⟨i.promptStyle, i.prompt⟩ := by
      by_cases hp : i.prompt = "" <;> simp [hp]
    rw [hp]
    congr 3
    cases sh
    · simp
    · simp only [if_true]
      congr 1
      cases aft with
      | nil => simp
      | cons a t =>
        have : a.symbol ≠ "" := h2 a (by rw [hall]; simp)
        simp [this]

/-- What a render leaves behind. -/
structure Settled (w : Int) (s : State) : Prop where
  fit : ∀ g ∈ s.graphemes, (g.width : Int) ≤ w
  shown : ∃ pre before rest : List Grapheme, s.graphemes = pre ++ before ++ rest ∧
    s.cursor = (pre ++ before).length ∧ s.offset = pre.length ∧ widthOf before ≤ w ∧ (0 < s.cursor → before ≠ [])

theorem Widget.Window.settled {u : Uniseg} {i : Widget} {width : Int} {s s' : State} {l : Line}
    (h : i.Window u width s l s') (hf : ∀ g ∈ s.graphemes, (g.width : Int) ≤ width - u.stringWidth i.prompt - 1) :
    Settled (width - u.stringWidth i.prompt - 1) s' := by
  obtain ⟨pre, bef, aft, post, h1, h2, h3, h4, rfl, -⟩ := h
  refine ⟨hf, pre, bef, aft ++ post, by simp [h1], h2, rfl, ?_, h3⟩
  rw [widthOf_append] at h4
  have := widthOf_nonneg aft
  omega

/-- A change that moves the cursor forward by one at most and leaves what is before it. -/
structure Near (s s' : State) : Prop where
  low : 0 ≤ s'.cursor
  high : s'.cursor ≤ s'.graphemes.length
  step : s'.cursor ≤ s.cursor + 1
  same : s'.graphemes.take (s'.cursor.toNat - 1) = s.graphemes.take (s'.cursor.toNat - 1)
  offset : s'.offset = s.offset ∨ s'.offset = 0 ∧ s'.cursor = 0
  home : s'.cursor = 0 → s.cursor ≤ 1 ∨ s'.offset = 0 ∨ s'.graphemes = []

theorem Settled.ready {w : Int} (hw : 0 ≤ w) {s s' : State} (h : Settled w s) (hn : Near s s')
    (hf : ∀ g ∈ s'.graphemes, (g.width : Int) ≤ w) : Ready w s' := by
  obtain ⟨_, pre, bef, rest, h1, h2, h3, h4, h5⟩ := h
  have hpre : s.cursor ≤ 1 → pre = [] := by
    intro hc
    rw [List.length_append] at h2
    have : s.cursor = 1 → bef ≠ [] := fun h => h5 (by omega)
    rcases Nat.eq_zero_or_pos bef.length with hb | hb
    · have hb' := List.eq_nil_of_length_eq_zero hb
      refine List.eq_nil_of_length_eq_zero ?_
      by_cases h01 : s.cursor = 1
      · exact absurd hb' (this h01)
      · omega
    · refine List.eq_nil_of_length_eq_zero ?_
      omega
  refine ⟨?_, hn.low, hn.high, ?_, hf, ?_⟩
  · rcases hn.offset with h | h <;> omega
  · intro hc
    rcases hn.home hc with h | h | h
    · left
      have := hpre h
      rcases hn.offset with ho | ho
      · rw [ho, h3, this]; rfl
      · exact ho.1
    · exact .inl h
    · exact .inr h
  · rw [columnsOf_take hn.same]
    rcases hn.offset with ho | ho
    · rw [ho, h3, Int.toNat_natCast]
      by_cases hlt : pre.length ≤ s'.graphemes.length - 1
      · rw [Nat.min_eq_left hlt]
        have hm := columnsOf_mono (gs := s.graphemes) (i := pre.length) (j := s'.cursor.toNat - 1)
          (k := (pre ++ bef).length) (by have := hn.step; omega)
        have : columnsOf s.graphemes pre.length (pre ++ bef).length = widthOf bef := by
          conv => lhs; rw [h1]
          exact columnsOf_parts pre bef rest rfl rfl
        omega
      · rw [Nat.min_eq_right (by omega)]
        unfold columnsOf
        rw [List.drop_eq_nil_of_le (by rw [List.length_take]; have := hn.high; omega)]
        exact hw
    · rw [ho.2]
      unfold columnsOf
      simpa using hw

/-- The operations that keep the cursor near: all but going to the end and inserting several graphemes at
once. What is inserted has to fit. -/
def Op.Small (u : Uniseg) (w : Int) : Op → Prop
  | .append t => (u.graphemes t).length ≤ 1 ∧ ∀ c ∈ u.graphemes t, (u.stringWidth c : Int) ≤ w
  | .moveEnd => False
  | .key k => k.type ≠ 5 ∧ (k.type = -1 ∨ k.type = -15 →
      (u.graphemes (keyText k)).length ≤ 1 ∧ ∀ c ∈ u.graphemes (keyText k), (u.stringWidth c : Int) ≤ w)
  | _ => True

/-- What a key does is one of the other operations. -/
theorem run_key (u : Uniseg) (s : State) (k : Key) :
    (Op.run u s (.key k) = some s) ∨ (Op.run u s (.key k) = s.deleteWordUnderCursor) ∨
    (k.type = 5) ∨ ((k.type = -1 ∨ k.type = -15) ∧ Op.run u s (.key k) = Op.run u s (.append (keyText k))) ∨
    ∃ op ∈ [Op.moveLeft, .moveRight, .moveBegin, .deleteUnderCursor], Op.run u s (.key k) = Op.run u s op := by
  have hrun : Op.run u s (.key k) = (s.update u k).map (·.1) := rfl
  have hmm : ∀ o : Option State, (o.map (·, true)).map (·.1) = o := by intro o; cases o <;> rfl
  rw [hrun]
  unfold State.update
  by_cases h1 : k.type = Input.keyLeft
  · rw [if_pos h1]; exact .inr (.inr (.inr (.inr ⟨.moveLeft, by simp, rfl⟩)))
  rw [if_neg h1]
  by_cases h2 : k.type = Input.keyShiftLeft
  · rw [if_pos h2]; exact .inl rfl
  rw [if_neg h2]
  by_cases h3 : k.type = Input.keyRight
  · rw [if_pos h3]; exact .inr (.inr (.inr (.inr ⟨.moveRight, by simp, rfl⟩)))
  rw [if_neg h3]
  by_cases h4 : k.type = Input.keyShiftRight
  · rw [if_pos h4]; exact .inl rfl
  rw [if_neg h4]
  by_cases h5 : k.type = 127 ∨ k.type = Input.keyDelete
  · rw [if_pos h5, hmm]; exact .inr (.inr (.inr (.inr ⟨.deleteUnderCursor, by simp, rfl⟩)))
  rw [if_neg h5]
  by_cases h6 : k.type = 1
  · rw [if_pos h6]; exact .inr (.inr (.inr (.inr ⟨.moveBegin, by simp, rfl⟩)))
  rw [if_neg h6]
  by_cases h7 : k.type = 5
  · exact .inr (.inr (.inl h7))
  rw [if_neg h7]
  by_cases h8 : k.type = 23
  · rw [if_pos h8, hmm]; exact .inr (.inl rfl)
  rw [if_neg h8]
  by_cases h9 : k.type = Input.keyRunes ∨ k.type = Input.keySpace
  · rw [if_pos h9, hmm]; exact .inr (.inr (.inr (.inl ⟨h9, by rw [keyText_eq]; rfl⟩)))
  rw [if_neg h9]
  exact .inl rfl

/-- One loop of deleting a word. -/
theorem deleteWhile_near (cond : Grapheme → Bool) {s : State} (hc1 : 1 ≤ s.cursor)
    (hc2 : s.cursor ≤ s.graphemes.length) :
    ∃ s', s.deleteWhile cond = some s' ∧ 1 ≤ s'.cursor ∧ s'.cursor ≤ s'.graphemes.length ∧
      s'.cursor ≤ s.cursor ∧ s'.graphemes.take (s'.cursor.toNat - 1) = s.graphemes.take (s'.cursor.toNat - 1) ∧
      s'.offset = s.offset ∧ ∀ g ∈ s'.graphemes, g ∈ s.graphemes ∨ g = Grapheme.empty := by
  obtain ⟨b, a, hg, hb⟩ : ∃ b a : List Grapheme, s.graphemes = b ++ a ∧ s.cursor = b.length :=
    ⟨s.graphemes.take s.cursor.toNat, s.graphemes.drop s.cursor.toNat, (List.take_append_drop ..).symm, by
      rw [List.length_take]; omega⟩
  have hbn : b.reverse ≠ [] := by
    intro h
    have : b = [] := by simpa using h
    rw [this] at hb
    simp at hb
    omega
  obtain ⟨c, rs, hrev⟩ := List.exists_cons_of_ne_nil hbn
  have hbr : b = (c :: rs).reverse := by rw [← hrev, List.reverse_reverse]
  have hlen : b.length = rs.length + 1 := by rw [hbr]; simp
  rw [hbr] at hg
  refine ⟨_, deleteWhile_spec cond hg (by omega), ?_⟩
  have hsuf := List.dropWhile_suffix (l := c :: rs) cond
  cases hdw : (c :: rs).dropWhile cond with
  | nil =>
    refine ⟨by simp, by simp, hc1, by simp, rfl, ?_⟩
    intro g hg'
    rw [hg]
    simp only [List.mem_cons] at hg'
    rcases hg' with h | h
    · exact .inr h
    · exact .inl (List.mem_append_right _ h)
  | cons d ds =>
    rw [hdw] at hsuf
    obtain ⟨t, ht⟩ := hsuf
    have htl : ds.length ≤ rs.length := by
      have := congrArg List.length ht
      simp at this
      omega
    have hpre : (c :: rs).reverse = (d :: ds).reverse ++ t.reverse := by rw [← ht, List.reverse_append]
    refine ⟨by simp, by simp, by simp; omega, ?_, rfl, ?_⟩
    · simp only
      rw [hg, hpre, List.append_assoc, show ((ds.length : Int) + 1).toNat - 1 = ds.length by omega,
        List.take_append_of_le_length (by simp), List.take_append_of_le_length (by simp)]
    · intro g hg'
      left
      rw [hg, hpre]
      simp only [List.mem_append] at hg' ⊢
      tauto

/-- What small operations do. -/
theorem small_near (u : Uniseg) {w : Int} (hw : 0 ≤ w) {s : State} (h0 : 0 ≤ s.cursor)
    (hc : s.cursor ≤ s.graphemes.length) (hf : ∀ g ∈ s.graphemes, (g.width : Int) ≤ w) {op : Op}
    (hs : op.Small u w) :
    ∃ s', op.run u s = some s' ∧ Near s s' ∧ ∀ g ∈ s'.graphemes, (g.width : Int) ≤ w := by
  obtain ⟨b, a, hg, hb⟩ : ∃ b a : List Grapheme, s.graphemes = b ++ a ∧ s.cursor = b.length :=
    ⟨s.graphemes.take s.cursor.toNat, s.graphemes.drop s.cursor.toNat, (List.take_append_drop ..).symm, by
      rw [List.length_take]; omega⟩
  have hstay : Near s s := ⟨h0, hc, by omega, rfl, .inl rfl, fun h => .inl (by omega)⟩
  have happ : ∀ t, (u.graphemes t).length ≤ 1 ∧ (∀ c ∈ u.graphemes t, (u.stringWidth c : Int) ≤ w) →
      ∃ s', Op.run u s (.append t) = some s' ∧ Near s s' ∧ ∀ g ∈ s'.graphemes, (g.width : Int) ≤ w := by
    intro t ⟨ht1, ht2⟩
    refine ⟨_, appendLoop_spec u _ s b a hg hb, ?_, ?_⟩
    · refine ⟨by simp only; omega, by simp, by simp only; omega, ?_, .inl rfl, ?_⟩
      · simp only
        rw [hg, Int.toNat_natCast, List.append_assoc, List.take_append_of_le_length (by omega),
          List.take_append_of_le_length (by omega)]
      · intro h
        simp only at h
        left
        omega
    · intro g hg'
      simp only [List.mem_append, List.mem_map] at hg'
      rcases hg' with (h | ⟨c, hc', rfl⟩) | h
      · exact hf g (by rw [hg]; exact List.mem_append_left _ h)
      · exact ht2 c hc'
      · exact hf g (by rw [hg]; exact List.mem_append_right _ h)
  have hleft : ∃ s', Op.run u s .moveLeft = some s' ∧ Near s s' ∧ ∀ g ∈ s'.graphemes, (g.width : Int) ≤ w := by
    refine ⟨_, rfl, ⟨?_, ?_, ?_, rfl, .inl rfl, ?_⟩, hf⟩ <;>
      simp only [State.moveCursorLeft, State.setCursor, State.clampCursor] <;> omega
  have hright : ∃ s', Op.run u s .moveRight = some s' ∧ Near s s' ∧ ∀ g ∈ s'.graphemes, (g.width : Int) ≤ w := by
    refine ⟨_, rfl, ⟨?_, ?_, ?_, rfl, .inl rfl, ?_⟩, hf⟩ <;>
      simp only [State.moveCursorRight, State.setCursor, State.clampCursor] <;> omega
  have hbegin : ∃ s', Op.run u s .moveBegin = some s' ∧ Near s s' ∧ ∀ g ∈ s'.graphemes, (g.width : Int) ≤ w := by
    refine ⟨_, rfl, ⟨?_, ?_, ?_, rfl, .inr ⟨rfl, ?_⟩, fun _ => .inr (.inl rfl)⟩, hf⟩ <;>
      simp only [State.moveCursorBegin, State.setCursor, State.clampCursor] <;> omega
  have hdel : ∃ s', Op.run u s .deleteUnderCursor = some s' ∧ Near s s' ∧
      ∀ g ∈ s'.graphemes, (g.width : Int) ≤ w := by
    refine ⟨_, deleteUnderCursor_spec hg hb, ⟨by simp, by simp, ?_, ?_, .inl rfl, ?_⟩, ?_⟩
    · simp only [List.length_dropLast]; omega
    · simp only [Int.toNat_natCast]
      rw [hg, List.take_append_of_le_length (by omega), List.take_append_of_le_length (by simp; omega),
        List.dropLast_eq_take, List.take_take]
      congr 1
      simp
    · intro h
      simp only [List.length_dropLast] at h
      left
      omega
    · intro g hg'
      simp only [List.mem_append] at hg'
      refine hf g ?_
      rw [hg]
      rcases hg' with h | h
      · exact List.mem_append_left _ (List.mem_of_mem_dropLast h)
      · exact List.mem_append_right _ h
  have hword : ∃ s', s.deleteWordUnderCursor = some s' ∧ Near s s' ∧ ∀ g ∈ s'.graphemes, (g.width : Int) ≤ w := by
    unfold State.deleteWordUnderCursor
    by_cases hz : s.cursor = 0
    · have : s.underCursor = some Grapheme.empty := by unfold State.underCursor; rw [if_pos (.inr hz)]
      rw [this]
      exact ⟨s, rfl, hstay, hf⟩
    have hbn : b ≠ [] := by
      intro h
      rw [h] at hb
      exact hz (by simpa using hb)
    have hlen : s.graphemes.length ≠ 0 := by omega
    obtain ⟨c, hcu⟩ : ∃ c, s.underCursor = some c := by
      unfold State.underCursor
      rw [if_neg (by tauto), if_neg (by omega)]
      exact getElem?_of_lt (by omega)
    rw [hcu]
    simp only [Option.bind_eq_bind, Option.bind_some]
    split
    · exact ⟨s, rfl, hstay, hf⟩
    have hempty : ((Grapheme.empty.width : Nat) : Int) ≤ w := by simpa [Grapheme.empty] using hw
    split
    · obtain ⟨s1, e1, a1, a2, a3, a4, a5, a6⟩ := deleteWhile_near Grapheme.isWhitespace (by omega) hc
      obtain ⟨s2, e2, b1, b2, b3, b4, b5, b6⟩ :=
        deleteWhile_near (fun g => !g.isEmpty && !g.isWhitespace) a1 a2
      rw [e1]
      refine ⟨s2, e2, ⟨by omega, b2, by omega, ?_, .inl (b5.trans a5), fun h => by omega⟩, ?_⟩
      · have := congrArg (List.take (s2.cursor.toNat - 1)) a4
        rw [List.take_take, List.take_take, Nat.min_eq_left (by omega)] at this
        rw [b4, this]
      · intro g hg'
        rcases b6 g hg' with h | h
        · rcases a6 g h with h | h
          · exact hf g h
          · rw [h]; exact hempty
        · rw [h]; exact hempty
    · obtain ⟨s2, e2, b1, b2, b3, b4, b5, b6⟩ :=
        deleteWhile_near (s := s) (fun g => !g.isEmpty && !g.isWhitespace) (by omega) hc
      refine ⟨s2, e2, ⟨by omega, b2, by omega, b4, .inl b5, fun h => by omega⟩, ?_⟩
      intro g hg'
      rcases b6 g hg' with h | h
      · exact hf g h
      · rw [h]; exact hempty
  cases op with
  | append t => exact happ t hs
  | moveLeft => exact hleft
  | moveRight => exact hright
  | moveBegin => exact hbegin
  | moveEnd => exact hs.elim
  | deleteUnderCursor => exact hdel
  | deleteLine =>
    exact ⟨_, rfl, ⟨by simp [State.deleteLine], by simp [State.deleteLine], by simp [State.deleteLine]; omega,
      by simp [State.deleteLine], .inl rfl, fun _ => .inr (.inr rfl)⟩, by simp [State.deleteLine]⟩
  | key k =>
    rcases run_key u s k with h | h | h | ⟨h1, h2⟩ | ⟨op, h1, h2⟩
    · rw [h]; exact ⟨s, rfl, hstay, hf⟩
    · rw [h]; exact hword
    · exact absurd h hs.1
    · rw [h2]; exact happ _ (hs.2 h1)
    · rw [h2]
      simp only [List.mem_cons, List.not_mem_nil, or_false] at h1
      rcases h1 with rfl | rfl | rfl | rfl
      · exact hleft
      · exact hright
      · exact hbegin
      · exact hdel

/-- A session: an operation, then the line is made for the row, and so on. -/
def session (u : Uniseg) (i : Widget) (width : Int) (ops : List Op) (s : State) : Option State :=
  ops.foldlM (fun s op => do
    let s ← op.run u s
    let r ← i.line u width s
    some r.2) s

end InputField

/-- Any state whose cursor is not too far behind the part shown last can be shown: nothing panics, a part
of the text is shown that fits with the prompt and the cursor, and the cursor is in that part. Missing:
states that are not `Ready`, see the negations. -/
theorem C39_window_partial (u : Uniseg) (i : Widget) (width : Int) (s : State)
    (hw : (u.stringWidth i.prompt : Int) + 1 ≤ width) (h : Ready (width - u.stringWidth i.prompt - 1) s) :
    ∃ l s', i.line u width s = some (l, s') ∧ i.Window u width s l s' := line_spec u i hw h

/-- In every session of small operations, each followed by showing the input in a row of the same width,
nothing ever panics and each time a part of the text with the cursor in it is shown. -/
theorem C39_session_partial (u : Uniseg) (i : Widget) (width : Int)
    (hw : (u.stringWidth i.prompt : Int) + 1 ≤ width) (ops : List Op)
    (hs : ∀ op ∈ ops, op.Small u (width - u.stringWidth i.prompt - 1)) :
    ∃ s, session u i width ops State.new = some s ∧
      ∀ op : Op, op.Small u (width - u.stringWidth i.prompt - 1) →
        ∃ s1 l s2, op.run u s = some s1 ∧ i.line u width s1 = some (l, s2) ∧ i.Window u width s1 l s2 := by
  have step : ∀ (s : State) (op : Op), Settled (width - u.stringWidth i.prompt - 1) s →
      op.Small u (width - u.stringWidth i.prompt - 1) →
      ∃ s1 l s2, op.run u s = some s1 ∧ i.line u width s1 = some (l, s2) ∧ i.Window u width s1 l s2 ∧
        Settled (width - u.stringWidth i.prompt - 1) s2 := by
    intro s op h ho
    obtain ⟨hf, pre, bef, rest, h1, h2, h3, h4, h5⟩ := id h
    obtain ⟨s1, e1, n1, f1⟩ := small_near u (w := width - u.stringWidth i.prompt - 1) (by omega)
      (show 0 ≤ s.cursor by omega) (by rw [h1, h2]; simp) hf ho
    obtain ⟨l, s2, e2, w2⟩ := line_spec u i hw (h.ready (by omega) n1 f1)
    exact ⟨s1, l, s2, e1, e2, w2, w2.settled f1⟩
  have key : ∀ (ops : List Op) (s : State), Settled (width - u.stringWidth i.prompt - 1) s →
      (∀ op ∈ ops, op.Small u (width - u.stringWidth i.prompt - 1)) →
      ∃ s', session u i width ops s = some s' ∧ Settled (width - u.stringWidth i.prompt - 1) s' := by
    intro ops
    induction ops with
    | nil => exact fun s h _ => ⟨s, rfl, h⟩
    | cons op ops ih =>
      intro s h ho
      obtain ⟨s1, l, s2, e1, e2, -, h2⟩ := step s op h (ho op (List.mem_cons_self ..))
      obtain ⟨s3, e3, h3⟩ := ih s2 h2 fun o h => ho o (List.mem_cons_of_mem _ h)
      refine ⟨s3, ?_, h3⟩
      unfold session at e3 ⊢
      rw [List.foldlM_cons, e1]
      simp only [Option.bind_eq_bind, Option.bind_some]
      rw [e2]
      exact e3
  obtain ⟨s, e, h⟩ := key ops State.new
    ⟨by simp [State.new], [], [], [], rfl, rfl, rfl, by simp [widthOf]; omega, by simp [State.new]⟩ hs
  refine ⟨s, e, fun op ho => ?_⟩
  obtain ⟨s1, l, s2, a, b, c, -⟩ := step s op h ho
  exact ⟨s1, l, s2, a, b, c⟩

namespace InputField

theorem graphemes_empty {u : Uniseg} (hu : u.Lawful) : u.graphemes "" = [] := by
  cases e : u.graphemes "" with
  | nil => rfl
  | cons c t =>
    exfalso
    have hj := hu.join ""
    have hc := hu.nonempty "" c (by rw [e]; exact List.mem_cons_self ..)
    rw [e] at hj
    have := congrArg String.length hj
    simp only [String.join_cons, String.length_append, String.length_empty] at this
    exact hc (String.length_eq_zero_iff.1 (by omega))

theorem widthOf_narrow : ∀ {gs : List Grapheme}, (∀ g ∈ gs, g.width = 1) → widthOf gs = gs.length
  | [], _ => rfl
  | g :: t, h => by
    have ih := widthOf_narrow (gs := t) fun x hx => h x (List.mem_cons_of_mem _ hx)
    have hg := h g (List.mem_cons_self ..)
    unfold widthOf at ih ⊢
    simp only [List.map_cons, List.sum_cons, List.length_cons, hg, ih]
    push_cast
    omega

/-- The clusters of the line that shows a part of the text. -/
theorem textLine_clusters {u : Uniseg} (hu : u.Lawful) (i : Widget) (sh : Bool) {pre before after post : List Grapheme}
    (hsep : Separate u (pre ++ before ++ after ++ post)) :
    (i.textLine sh before after).styledClusters u =
      ((u.graphemes i.prompt).map fun c => (c, i.promptStyle)) ++
      (before.map fun g => (g.symbol, Style.new)) ++
      ((cursorText sh after).map fun c => (c, if sh then Style.new.patched i.cursorStyle else Style.new)) ++
      (after.tail.map fun g => (g.symbol, Style.new)) := by
  have h1 : u.graphemes (graphemesString before) = before.map Grapheme.symbol :=
    hsep before ⟨pre, after ++ post, by simp⟩
  have h2 : u.graphemes (graphemesString after.tail) = after.tail.map Grapheme.symbol := by
    refine hsep after.tail ?_
    cases after with
    | nil => exact ⟨pre ++ before, post, by simp⟩
    | cons g t => exact ⟨pre ++ before ++ [g], post, by simp⟩
  have h3 : u.graphemes ((after.head?.map Grapheme.symbol).getD (if sh then " " else "")) = cursorText sh after := by
    unfold cursorText
    cases after with
    | nil =>
      cases sh
      · simp [graphemes_empty hu]
      · simp [hu.space.1]
    | cons g t =>
      have := hsep [g] ⟨pre ++ before, t ++ post, by simp⟩
      simpa [graphemesString, String.join] using this
  unfold Line.styledClusters Widget.textLine
  simp only [List.flatMap_cons, List.flatMap_nil, List.append_nil]
  rw [h1, h2, h3]
  have h4 : ((u.graphemes i.promptSpan.content).map fun c => (c, i.promptSpan.style)) =
      (u.graphemes i.prompt).map fun c => (c, i.promptStyle) := by
    unfold Widget.promptSpan
    by_cases hp : i.prompt = ""
    · rw [if_pos hp, hp]; simp [graphemes_empty hu]
    · rw [if_neg hp]
  rw [h4]
  simp [List.map_map, Function.comp_def]

end InputField

/-- What is on the screen, for single-width text whose clusters stay apart: the prompt, a part of the text
with the cursor in it and nothing else, aligned in the row; and the symbol at the cursor has the cursor's
style. -/
theorem C39_shown_partial {u : Uniseg} (hu : u.Lawful) (hs : u.Suffix) (i : Widget) (row : Rect) (b : Buffer)
    (wf : b.WF) (hin : Inside b row) (hh : 0 < row.height) (s : State)
    (hp : ∀ c ∈ u.graphemes i.prompt, u.Narrow c) (hne : s.graphemes ≠ [])
    (hnarrow : ∀ g ∈ s.graphemes, g.width = 1 ∧ u.Narrow g.symbol) (hsep : Separate u s.graphemes)
    (hw : (u.stringWidth i.prompt : Int) + 1 ≤ row.width)
    (h : Ready (row.width - u.stringWidth i.prompt - 1) s) :
    ∃ b' s', i.renderRow u row b s = some (b', s') ∧
      ∃ pre before after post : List Grapheme,
        s.graphemes = pre ++ before ++ after ++ post ∧ s.cursor = (pre ++ before).length ∧
        (0 < s.cursor → before ≠ []) ∧ s' = { s with offset := pre.length } ∧
        ∃ text, text = u.graphemes i.prompt ++ before.map Grapheme.symbol ++ cursorText s.showCursor after ++
            after.tail.map Grapheme.symbol ∧ (text.length : Int) ≤ row.width ∧
          (∀ q, b'.symbolAt q = if q.y = row.y ∧ row.x ≤ q.x ∧ q.x < row.x + row.width then
              (i.alignment.shown row.width.toNat text (q.x - row.x).toNat).or (b.symbolAt q)
            else b.symbolAt q) ∧
          (s.showCursor = true → ∀ q : Position, q.y = row.y →
            q.x = row.x + i.alignment.before (row.width.toNat - text.length) + (u.graphemes i.prompt).length +
              before.length →
            ∃ c, b.cellAt q = some c ∧ ∃ c0, (c0 = c ∨ c0 = c.setStyle Style.new) ∧
              b'.cellAt q = some ((c0.setSymbol ((after.head?.map Grapheme.symbol).getD " ")).setStyle
                (Style.new.patched i.cursorStyle))) := by
  obtain ⟨l, s', e, pre, before, after, post, h1, h2, h3, h4, h5, h6⟩ := line_spec u i hw h
  have hsym : ∀ g ∈ s.graphemes, g.symbol ≠ "" := by
    intro g hg
    obtain ⟨x, y, hxy⟩ := List.append_of_mem hg
    have := hsep [g] ⟨x, y, by rw [hxy]; simp⟩
    have hm := hu.nonempty (graphemesString [g]) g.symbol (by rw [this]; simp)
    exact hm
  have hl := h6 hne hsym
  rw [h1] at hsep
  have hst := textLine_clusters hu i s.showCursor hsep
  rw [← hl] at hst
  have hcl : l.clusters u = u.graphemes i.prompt ++ before.map Grapheme.symbol ++
      cursorText s.showCursor after ++ after.tail.map Grapheme.symbol := by
    have : l.clusters u = (l.styledClusters u).map Prod.fst := by
      unfold Line.clusters Line.styledClusters
      rw [List.map_flatMap]
      congr 1
      funext sp
      simp [List.map_map, Function.comp_def]
    rw [this, hst]
    simp [List.map_map, Function.comp_def]
  have hmem : ∀ g, (g ∈ before ∨ g ∈ after) → g ∈ s.graphemes := by
    intro g hg
    rw [h1]
    simp only [List.mem_append]
    tauto
  have hnt : l.NarrowText u := by
    intro sp hsp c hc
    have hcm : c ∈ l.clusters u := List.mem_flatMap.2 ⟨sp, hsp, hc⟩
    rw [hcl] at hcm
    simp only [List.mem_append, List.mem_map] at hcm
    rcases hcm with ((hc | ⟨g, hg, rfl⟩) | hc) | ⟨g, hg, rfl⟩
    · exact hp c hc
    · exact (hnarrow g (hmem g (.inl hg))).2
    · unfold cursorText at hc
      cases after with
      | nil =>
        simp only [List.head?_nil] at hc
        split at hc
        · simp only [List.mem_singleton] at hc
          subst hc
          exact ⟨hu.space.2, by decide⟩
        · simp at hc
      | cons g t =>
        simp only [List.head?_cons, List.mem_singleton] at hc
        subst hc
        exact (hnarrow g (hmem g (.inr (List.mem_cons_self ..)))).2
    · exact (hnarrow g (hmem g (.inr (List.mem_of_mem_tail hg)))).2
  have hlen : ((l.clusters u).length : Int) ≤ row.width := by
    rw [widthOf_narrow (fun g hg => (hnarrow g (hmem g (by simpa using hg))).1), narrow_width hp] at h4
    rw [hcl]
    have hct : (cursorText s.showCursor after).length + after.tail.length ≤ after.length + 1 := by
      unfold cursorText
      cases after <;> cases s.showCursor <;> simp <;> omega
    simp only [List.length_append, List.length_map] at h4 ⊢
    omega
  obtain ⟨b', eb, hb⟩ := C33_line_shown hu hs l hnt row b wf hin hh
  have hal : l.alignment = i.alignment := by rw [hl]; rfl
  have hls : l.style = Style.new := by rw [hl]; rfl
  refine ⟨b', s', ?_, pre, before, after, post, h1, h2, h3, h5, l.clusters u, hcl, hlen, ?_, ?_⟩
  · unfold Widget.renderRow
    rw [e, Option.bind_eq_bind, Option.bind_some]
    simp only
    rw [eb]
    rfl
  · rw [← hal]; exact hb
  · intro hshow q hy hx
    obtain ⟨b2, eb2, hb2⟩ := C71_line_styles hu hs l hnt row b wf hin hh
    rw [eb] at eb2
    simp only [Option.some.injEq] at eb2
    subst eb2
    have hslen : (l.styledClusters u).length = (l.clusters u).length := styledClusters_length u l
    have hidx : (l.styledClusters u)[(u.graphemes i.prompt).length + before.length]? =
        some ((after.head?.map Grapheme.symbol).getD " ", Style.new.patched i.cursorStyle) := by
      rw [hst, hshow, List.append_assoc, List.getElem?_append_right (by simp)]
      simp only [List.length_append, List.length_map, Nat.sub_self]
      unfold cursorText
      cases after <;> simp
    have hlt : (u.graphemes i.prompt).length + before.length < (l.clusters u).length := by
      rw [← hslen]
      exact (List.getElem?_eq_some_iff.1 hidx).1
    have hbef : i.alignment.before (row.width.toNat - (l.clusters u).length) ≤
        row.width.toNat - (l.clusters u).length := by
      cases i.alignment <;> simp only [Alignment.before] <;> omega
    obtain ⟨c, c0, a1, a2, a3⟩ := hb2 q hy (by omega) (by omega)
      ((after.head?.map Grapheme.symbol).getD " ") (Style.new.patched i.cursorStyle) (by
        rw [hal]
        unfold Alignment.shown
        rw [hslen, if_pos (by omega), if_neg (by omega), ← hidx]
        congr 1
        omega)
    rw [hls] at a2
    exact ⟨c, a1, c0, a2, a3⟩

/-- An input without a prompt, block or placeholder. -/
def sampleInput : Widget :=
  ⟨none, Style.new, .left, [], Style.new, Style.new, .start, "", Style.new⟩

/-- The cursor at "f" of "abcdefghijkl" in a row of four columns, with the part from "e" shown before: the
hypotheses of the theorems hold. -/
example : Ready (4 - 0 - 1) ⟨6, true, "abcdefghijkl".toList.map fun c => ⟨String.ofList [c], 1⟩, 5⟩ :=
  ⟨by decide, by decide, by decide, by decide, by decide +kernel, by decide +kernel⟩

/-- Going to the end of a text of twelve letters in a row of four columns after having gone left six times:
the program panics. -/
theorem C39_end_false :
    session Uniseg.simple sampleInput 4 ([Op.append "abcdefghijkl"] ++ List.replicate 6 .moveLeft ++ [.moveEnd])
      State.new = none := by decide +kernel

/-- Pasting twice in a row of four columns: the program panics. -/
theorem C39_paste_false :
    session Uniseg.simple sampleInput 4 [Op.append "abcdefgh", .append "wxyz"] State.new = none := by
  decide +kernel

/-- Showing a text of sixteen letters in a row of nine columns, then in one of three: the program panics. -/
theorem C39_resize_false :
    (session Uniseg.simple sampleInput 9 [Op.append "abcdefghijklmnop"] State.new).isSome = true ∧
    ((session Uniseg.simple sampleInput 9 [Op.append "abcdefghijklmnop"] State.new).bind
      (sampleInput.line Uniseg.simple 3)) = none := by decide +kernel

/-- Showing any text in a row that has no room for the cursor after the prompt: the program panics. -/
theorem C39_narrow_false :
    session Uniseg.simple sampleInput 0 [Op.append "a"] State.new = none := by decide +kernel

/-- In a row with room for the cursor only, typing works, but in the row of four columns, going left, right
and deleting words does too: a session of small operations. -/
example : ∃ s, session Uniseg.simple sampleInput 4 [.append "a", .append " ", .append "b", .append "c",
      .moveLeft, .moveRight, .append "d", .key ⟨23, [], false, false⟩] State.new = some s ∧ s.string = "a " :=
  ⟨(session Uniseg.simple sampleInput 4 [.append "a", .append " ", .append "b", .append "c",
      .moveLeft, .moveRight, .append "d", .key ⟨23, [], false, false⟩] State.new).getD State.new,
    by decide +kernel, by decide +kernel⟩

end Bento
