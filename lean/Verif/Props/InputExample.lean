import Verif.Lemmas.InputExample
import Verif.Lemmas.LazygitFrame
import Verif.Props.Lazygit

/-!
# C119: the example program with an input field
-/

namespace Bento

open Input InputField InputExample

variable {u : Uniseg} {S : String → Prop} {T : Termenv}

theorem InputExample.update_handle (s : State) (m : Input.Msg) :
    (InputExample.update u s (.user m)).map Prod.fst = InputField.handle u s m := by
  cases m with
  | key k =>
    unfold InputExample.update InputField.handle
    cases h : s.update u k with
    | none => simp [h]
    | some r =>
      obtain ⟨s', ok⟩ := r
      simp only [h, Option.bind_eq_bind, Option.bind_some, Option.map_some]
      split_ifs <;> rfl
  | _ => rfl

theorem InputExample.reads_handle (reads : List (List Gesture)) (s : State) :
    InputExample.handleReads u reads s = InputField.handleReads u reads s := by
  unfold InputExample.handleReads InputExample.handleAll InputField.handleReads
  congr 1
  funext s m
  exact InputExample.update_handle s m

theorem InputExample.prompt_width (hA : Plainly u Lazygit.Ascii) : (u.stringWidth (input u).prompt : Int) = 2 := by
  unfold Uniseg.stringWidth
  rw [prompt_graphemes hA]
  simp [hA.column ">" ⟨'>', by decide, by decide, rfl⟩, hA.column " " ⟨' ', by decide, by decide, rfl⟩]

theorem InputExample.field_room (hA : Plainly u Lazygit.Ascii) {e : Editor} {area : Rect} (h : Roomy e area) :
    Placed (input u) (fieldArea area) ∧ Room u (input u) (fieldArea area) e := by
  obtain ⟨hx, hy, hrows, hcols⟩ := h
  have hw : (popupArea area).width = (4 * area.width + 2) / 5 - (area.width + 2) / 5 := rfl
  have hpx : (popupArea area).x = area.x + (area.width + 2) / 5 := rfl
  have hpy : (popupArea area).y = area.y + (area.height - 2) / 2 := rfl
  have hfa : fieldArea area = ⟨(popupArea area).x + 1, (popupArea area).y + 1, (popupArea area).width - 2, 1⟩ := rfl
  have hct : content (input u) (fieldArea area) = fieldArea area := rfl
  refine ⟨⟨by show Flex.legacy ≠ .spaceAround; decide, ?_, ?_, fun k hk => (by cases hk), ?_⟩, ?_⟩
  · rw [hfa]; simp only; omega
  · rw [hct, hfa]; simp only; omega
  · rw [hct, hfa]
  · unfold Room
    rw [hct, prompt_width hA, hfa]
    simp only
    omega

/-- A run of the program is a session of its field, with a visible cursor. -/
theorem InputExample.session_typing (hS : Plainly u S) (hsym : ∀ s, Symbols s → S s) {s : State} {e : Editor}
    (h : Session u S s e) : TypingSession u S s e ∧ s.showCursor = true := by
  have hA := symbols_plainly hS hsym
  induction h with
  | start => exact ⟨.start true, rfl⟩
  | @read s e _ reads hr hlast s' hs ih =>
    rw [InputExample.reads_handle] at hs
    obtain ⟨s2, h1, h2, _⟩ := (C104_typed hS ih.1).2.2 reads hr hlast
    rw [hs] at h1
    cases h1
    exact ⟨.read ih.1 reads hr hlast s' hs, h2.trans ih.2⟩
  | @draw s e _ area hroom ω fuel b b' s' hd ih =>
    obtain ⟨hplaced, hroom'⟩ := field_room hA hroom
    obtain ⟨hx, hy, hrows, hcols⟩ := hroom
    have hw : (popupArea area).width = (4 * area.width + 2) / 5 - (area.width + 2) / 5 := rfl
    have hw0 : 0 ≤ area.width := by omega
    have hd' : ∃ b2, (input u).render (ω 4) fuel u (fieldArea area) b2 s = some (b', s') := by
      unfold InputExample.render at hd
      simp only [Option.bind_eq_bind, Option.bind_eq_some_iff] at hd
      obtain ⟨b1, _, hd⟩ := hd
      cases hp : popup.render (ω 0) (ω 1) fuel u area b1 with
      | ok b2 =>
        rw [hp] at hd
        simp only at hd
        rcases place_eq (ω 2) (ω 3) fuel area hy hw0 hrows with hq | hq
        · have hi : popup.inner (ω 2) (ω 3) fuel area = .running := by unfold Popup.inner; rw [hq]
          rw [hi] at hd
          cases hd
        · have hi : popup.inner (ω 2) (ω 3) fuel area = .ok (fieldArea area) := by
            unfold Popup.inner
            rw [hq]
            show Popup.Result.ok (block.inner (popupArea area)) = _
            rw [inner_eq area (by omega)]
          rw [hi] at hd
          exact ⟨b2, hd⟩
      | panics => rw [hp] at hd; cases hd
      | running => rw [hp] at hd; cases hd
    obtain ⟨b2, hd'⟩ := hd'
    have := draw_keeps hS hplaced (session_tidy hS ih.1) hroom' hd'
    exact ⟨.draw ih.1 (input u) (fieldArea area) hplaced hroom' (ω 4) fuel b2 b' s' hd', by rw [this]; exact ih.2⟩

/-- **C119**, the keyboard: whatever is typed, pasted or clicked (without ctrl+w), the program does not panic, and its text
and its cursor are those of a plain editor. -/
theorem C119_typed (hS : Plainly u S) (hsym : ∀ s, Symbols s → S s) {s : State} {e : Editor} (h : Session u S s e) :
    s.string = String.join (e.before ++ e.after) ∧ s.cursor = e.before.length ∧
    ∀ reads : List (List Gesture), (∀ gs ∈ reads, TypedTogether S gs) →
      (∀ gs, reads.getLast? = some gs → (gs.flatMap Gesture.bytes).length ≠ 256) →
      ∃ s', InputExample.handleReads u reads s = some s' ∧
        Session u S s' ((reads.flatten.filterMap Gesture.edit).foldl (Editor.step u) e) := by
  obtain ⟨h1, h2, h3⟩ := C104_typed hS (session_typing hS hsym h).1
  refine ⟨h1, h2, fun reads hr hlast => ?_⟩
  obtain ⟨s', k1, _, _⟩ := h3 reads hr hlast
  rw [← InputExample.reads_handle] at k1
  exact ⟨s', k1, .read h reads hr hlast s' k1⟩

/-- What a field does not handle. -/
theorem InputExample.update_ok {s s' : State} {k : Key} {ok : Bool} (h : s.update u k = some (s', ok)) :
    (ok = false → k.type ≠ keyRunes ∧ s' = s) ∧ (k.type = 3 → ok = false) := by
  constructor
  · intro hok
    subst hok
    unfold State.update at h
    split_ifs at h with c1 c2 c3 c4 c5 c6 c7 c8 c9
    case neg =>
      simp only [Option.some.injEq, Prod.mk.injEq, and_true] at h
      exact ⟨fun h => c9 (.inl h), h.symm⟩
    all_goals simp at h
  · intro h3
    unfold State.update at h
    rw [h3] at h
    simp only [keyLeft, keyShiftLeft, keyRight, keyShiftRight, keyDelete, keyRunes, keySpace] at h
    simp at h
    exact h.2

/-- **C119**, the end: the program gives the command to quit exactly at the key ctrl+c; a text that reads "ctrl+c" is
typed into the field. -/
theorem C119_quits (s s' : State) (g : App.Msg Input.Msg) (c : Option App.Cmd)
    (h : (program u).update s g = some (s', c)) :
    (c ≠ none ↔ ∃ k : Key, g = .user (.key k) ∧ k.type = 3 ∧ k.alt = false) ∧
    (c ≠ none → s' = s ∧ ∃ q, c = some q ∧ ∀ n, (program u).call q n = .returns (some .quit)) := by
  have hnone : ∀ g : App.Msg Input.Msg, (∀ k, g ≠ .user (.key k)) → InputExample.update u s g = some (s, none) := by
    intro g hg
    unfold InputExample.update
    split
    · rename_i k
      exact absurd rfl (hg k)
    · rfl
  by_cases hk : ∃ k, g = .user (.key k)
  · obtain ⟨k, rfl⟩ := hk
    have hu : (program u).update s (.user (.key k)) = InputExample.update u s (.user (.key k)) := rfl
    rw [hu] at h
    unfold InputExample.update at h
    simp only [Option.bind_eq_bind, Option.bind_eq_some_iff] at h
    obtain ⟨⟨s1, ok⟩, h1, h2⟩ := h
    simp only at h2
    have hc3 : ∀ t : Int, (match keyNames.lookup t with
        | some s => s.toList.map Char.toNat
        | none => []) = "ctrl+c".toList.map Char.toNat ↔ t = 3 := by
      intro t
      constructor
      · intro ht
        cases hl : keyNames.lookup t with
        | none => rw [hl] at ht; exact absurd ht (by decide)
        | some n =>
          rw [hl] at ht
          have : ∀ p ∈ keyNames, p.2.toList.map Char.toNat = "ctrl+c".toList.map Char.toNat → p.1 = 3 := by decide +kernel
          exact this (t, n) (mem_of_lookup hl) ht
      · rintro rfl
        decide +kernel
    have hkey : k.type ≠ keyRunes → (Lazygit.named k "ctrl+c" = true ↔ k.type = 3 ∧ k.alt = false) := by
      intro hr
      unfold Lazygit.named keyString
      simp only [hr, if_false, decide_eq_true_eq]
      cases hal : k.alt with
      | true =>
        simp only [if_true, Bool.true_eq_false, and_false, iff_false]
        cases hl : keyNames.lookup k.type with
        | none => decide
        | some n =>
          simp only
          intro h
          have := congrArg List.head? h
          exact absurd this (by simp)
      | false =>
        simp only [Bool.false_eq_true, if_false, and_true, List.nil_append]
        exact hc3 k.type
    have hh := update_ok h1
    have hq : ∀ n, (program u).call Lazygit.quitCmd n = .returns (some .quit) := fun n => rfl
    have hex : (∃ k' : Key, (App.Msg.user (.key k) : App.Msg Input.Msg) = .user (.key k') ∧ k'.type = 3 ∧ k'.alt = false) ↔
        k.type = 3 ∧ k.alt = false := by
      constructor
      · rintro ⟨k', e, h⟩
        cases e
        exact h
      · exact fun h => ⟨k, rfl, h⟩
    rw [hex]
    by_cases hok : ok = true
    · rw [if_pos hok] at h2
      cases h2
      refine ⟨⟨fun h => absurd rfl h, fun h => ?_⟩, fun h => absurd rfl h⟩
      exact absurd hok (by rw [hh.2 h.1]; decide)
    · have hko : k.type ≠ keyRunes ∧ s1 = s := hh.1 (by simpa using hok)
      rw [if_neg hok] at h2
      by_cases hn : Lazygit.named k "ctrl+c" = true
      · rw [if_pos hn] at h2
        cases h2
        exact ⟨⟨fun _ => (hkey hko.1).1 hn, fun _ => by simp⟩, fun _ => ⟨hko.2, _, rfl, hq⟩⟩
      · rw [if_neg hn] at h2
        cases h2
        exact ⟨⟨fun h => absurd rfl h, fun h => absurd ((hkey hko.1).2 h) hn⟩, fun h => absurd rfl h⟩
  · have hn := hnone g (fun k hk' => hk ⟨k, hk'⟩)
    have hu : (program u).update s g = InputExample.update u s g := rfl
    rw [hu, hn] at h
    cases h
    refine ⟨⟨fun h => absurd rfl h, ?_⟩, fun h => absurd rfl h⟩
    rintro ⟨k, rfl, _⟩
    exact absurd ⟨k, rfl⟩ hk

/-- The cursor of a field is a position of its text. -/
def InputExample.Positioned (s : State) : Prop := 0 ≤ s.cursor ∧ s.cursor ≤ s.graphemes.length

theorem InputExample.positioned_split {s : State} (h : Positioned s) :
    ∃ b a : List Grapheme, s.graphemes = b ++ a ∧ s.cursor = b.length := by
  obtain ⟨h1, h2⟩ := h
  refine ⟨s.graphemes.take s.cursor.toNat, s.graphemes.drop s.cursor.toNat, (List.take_append_drop ..).symm, ?_⟩
  rw [List.length_take]
  omega

theorem InputExample.split_positioned {s : State} {b a : List Grapheme} (hg : s.graphemes = b ++ a)
    (hc : s.cursor = b.length) : Positioned s := by
  unfold Positioned
  rw [hg, hc, List.length_append]
  omega

theorem InputExample.deleteWhile_positioned (cond : Grapheme → Bool) {s : State} (h : Positioned s) (h0 : s.cursor ≠ 0) :
    ∃ s', s.deleteWhile cond = some s' ∧ Positioned s' ∧ s'.cursor ≠ 0 := by
  obtain ⟨b, a, hg, hc⟩ := positioned_split h
  rcases List.eq_nil_or_concat b with hb | ⟨b', c, hb⟩
  · subst hb
    exact absurd hc h0
  rw [List.concat_eq_append] at hb
  have hg' : s.graphemes = (c :: b'.reverse).reverse ++ a := by rw [hg, hb]; simp
  have hc' : s.cursor = (b'.reverse.length : Int) + 1 := by rw [hc, hb]; simp
  refine ⟨_, deleteWhile_spec cond hg' hc', ?_⟩
  cases (c :: b'.reverse).dropWhile cond with
  | nil => exact ⟨split_positioned (b := [Grapheme.empty]) (a := a) rfl rfl, by simp⟩
  | cons d ds =>
    refine ⟨split_positioned (b := (d :: ds).reverse) (a := a) rfl (by simp), ?_⟩
    simp only
    omega

theorem InputExample.deleteWord_positioned {s : State} (h : Positioned s) :
    ∃ s', s.deleteWordUnderCursor = some s' ∧ Positioned s' := by
  by_cases h0 : s.cursor = 0
  · refine ⟨s, ?_, h⟩
    unfold State.deleteWordUnderCursor State.underCursor
    rw [if_pos (.inr h0)]
    rfl
  · obtain ⟨h1, h2⟩ := id h
    obtain ⟨c, hcur⟩ : ∃ c, s.underCursor = some c := by
      unfold State.underCursor
      by_cases hc : s.graphemes.length = 0 ∨ s.cursor = 0
      · exact ⟨_, if_pos hc⟩
      · rw [if_neg hc, if_neg (by omega), List.getElem?_eq_getElem (by omega)]
        exact ⟨_, rfl⟩
    unfold State.deleteWordUnderCursor
    simp only [hcur, Option.bind_eq_bind, Option.bind_some]
    by_cases he : c.isEmpty = true
    · exact ⟨s, if_pos he, h⟩
    · simp only [he]
      by_cases hw : c.isWhitespace = true
      · obtain ⟨s1, e1, p1, n1⟩ := deleteWhile_positioned Grapheme.isWhitespace h h0
        obtain ⟨s2, e2, p2, _⟩ := deleteWhile_positioned (fun g => !g.isEmpty && !g.isWhitespace) p1 n1
        refine ⟨s2, ?_, p2⟩
        simp only [hw, if_true, e1, Option.bind_some, Bool.false_eq_true, if_false]
        exact e2
      · obtain ⟨s2, e2, p2, _⟩ := deleteWhile_positioned (fun g => !g.isEmpty && !g.isWhitespace) h h0
        refine ⟨s2, ?_, p2⟩
        simp only [hw, Option.bind_some, Bool.false_eq_true, if_false]
        exact e2

theorem InputExample.update_positioned {s : State} (h : Positioned s) (k : Key) :
    ∃ s' ok, s.update u k = some (s', ok) ∧ Positioned s' := by
  by_cases hw : k.type = 23
  · obtain ⟨s', e, p⟩ := deleteWord_positioned h
    refine ⟨s', true, ?_, p⟩
    unfold State.update
    simp [hw, keyLeft, keyShiftLeft, keyRight, keyShiftRight, keyDelete, e]
  · obtain ⟨b, a, hg, hc⟩ := positioned_split h
    have hsh := State.Shows.of_split hg hc
    have hd : (Op.key k).edit ≠ none := by
      show keyEdit k ≠ none
      unfold keyEdit
      split_ifs <;> simp
    obtain ⟨d, hd⟩ := Option.ne_none_iff_exists'.1 hd
    obtain ⟨s', e, p⟩ := step_spec u hsh (.key k) hd
    simp only [Op.run, Option.map_eq_some_iff] at e
    obtain ⟨⟨s1, ok⟩, e1, rfl⟩ := e
    exact ⟨s1, ok, e1, (C37_text p).2⟩

/-- **C119**, no panic: whatever messages arrive, in whatever order, `Update` does not panic. -/
theorem C119_no_panic (msgs : List (App.Msg Input.Msg)) :
    ∃ s, msgs.foldlM (fun s m => ((program u).update s m).map Prod.fst) (program u).start = some s := by
  suffices h : ∀ (msgs : List (App.Msg Input.Msg)) (s : State), Positioned s →
      ∃ s', msgs.foldlM (fun s m => ((program u).update s m).map Prod.fst) s = some s' from
    h msgs _ (show Positioned State.new from ⟨by decide, by decide⟩)
  intro msgs
  induction msgs with
  | nil => exact fun s _ => ⟨s, rfl⟩
  | cons m msgs ih =>
    intro s hs
    have : ∃ r, (program u).update s m = some r ∧ Positioned r.1 := by
      show ∃ r, InputExample.update u s m = some r ∧ Positioned r.1
      unfold InputExample.update
      split
      · rename_i k
        obtain ⟨s', ok, e, p⟩ := update_positioned (u := u) hs k
        simp only [e, Option.bind_eq_bind, Option.bind_some]
        split_ifs <;> exact ⟨_, rfl, p⟩
      · exact ⟨_, rfl, hs⟩
    obtain ⟨r, e, p⟩ := this
    obtain ⟨s', hs'⟩ := ih r.1 p
    refine ⟨s', ?_⟩
    rw [List.foldlM_cons, e]
    exact hs'

/-- **C119**, the picture: the program draws the popup with the text and the cursor that a plain editor would have, and
nothing outside of its area changes. -/
theorem C119_frame (ω : Nat → Nat → Nat) (fuel : Nat) (hu : u.Lawful) (hs : u.Suffix) (hS : Plainly u S)
    (hsym : ∀ s, Symbols s → S s) (hvis : ∀ s, S s → s.toList.any isControlRune = false) {s : State} {e : Editor}
    (h : Session u S s e) (area : Rect) (hroom : Roomy e area) (b : Buffer) (wf : b.WF) (hin : Inside b area) :
    Running ω fuel area ∨ ∃ b', InputExample.render ω fuel u s area b = some (b', s) ∧ b'.WF ∧ b'.area = b.area ∧
      ∀ q, b'.cellAt q = if area.contains q = true then some (pictureCell e area q) else b.cellAt q := by
  obtain ⟨h1, h2⟩ := session_typing hS hsym h
  exact frame_cells ω fuel hu hs hS hsym hvis (session_tidy hS h1) h2 area hroom b wf hin

theorem InputExample.shown_modifier (T : Termenv) (md : Modifier)
    (hmd : md = Modifier.dim ∨ md = Modifier.reversed ∨ md = Modifier.dim ||| Modifier.italic) :
    (⟨none, none, md, 0⟩ : Style).Shown T := by
  refine ⟨fun c hc => (by cases hc), fun c hc => (by cases hc), fun i hi => ?_⟩
  show md.getLsbD i = false
  by_cases h16 : i < 16
  · have : ∀ i < 16, i = 5 ∨ i = 7 ∨ 9 ≤ i → Modifier.dim.getLsbD i = false ∧ Modifier.reversed.getLsbD i = false ∧
        (Modifier.dim ||| Modifier.italic).getLsbD i = false := by decide
    obtain ⟨k1, k2, k3⟩ := this i h16 hi
    rcases hmd with rfl | rfl | rfl <;> assumption
  · exact BitVec.getLsbD_of_ge _ _ (by omega)

theorem InputExample.plain_symbols (hS : Plainly u S) (hsym : ∀ s, Symbols s → S s) {s : String}
    (h : Lazygit.Plain s.toList) : u.MadeOf S s := by
  intro c hc
  have := h.graphemes (symbols_plainly hS hsym)
  rw [String.ofList_toList] at this
  rw [this] at hc
  obtain ⟨ch, hch, rfl⟩ := List.mem_map.1 hc
  exact hsym _ (.inl ⟨ch, (h ch hch).1, (h ch hch).2, rfl⟩)

theorem InputExample.drawing (ω : Nat → Nat → Nat) (fuel : Nat) (hS : Plainly u S) (hsym : ∀ s, Symbols s → S s)
    {s : State} (hs : ∀ g ∈ s.graphemes, S g.symbol) (area : Rect) (inner : Rect)
    (hin : popup.inner (ω 2) (ω 3) fuel area = .ok inner) :
    Drawing u S (Style.Shown T) fun b => (InputExample.render ω fuel u s area b).map Prod.fst := by
  have hA := symbols_plainly hS hsym
  have hinput : (input u).MadeOf u S (Style.Shown T) := by
    refine ⟨Lazygit.shown_new T, shown_modifier T _ (.inr (.inl rfl)), Lazygit.shown_new T,
      shown_modifier T _ (.inr (.inr rfl)),
      (show u.MadeOf S "> " from plain_symbols hS hsym (plain_text (by decide))), ?_, fun k hk => (by cases hk)⟩
    intro g hg
    have h : g.symbol ∈ (input u).placeholder.map Grapheme.symbol := List.mem_map_of_mem hg
    rw [placeholder_graphemes hA] at h
    obtain ⟨ch, hch, he⟩ := List.mem_map.1 h
    have hp : Lazygit.Plain "Placeholder...".toList := plain_text (by decide)
    rw [← he]
    exact hsym _ (.inl ⟨ch, (hp ch hch).1, (hp ch hch).2, rfl⟩)
  have hpopup : popup.MadeOf u S (Style.Shown T) := by
    refine ⟨Lazygit.shown_new T, fun k hk => ?_⟩
    have hk : k = block := by
      have : popup.block = some block := rfl
      rw [this] at hk
      exact (Option.some.inj hk).symm
    rw [hk, block_eq]
    refine ⟨Lazygit.shown_new T, Lazygit.shown_new T, Lazygit.shown_new T, fun c hc => hsym c (.inr ?_), fun t ht => ?_⟩
    · revert c
      show ∀ c ∈ ["┏", "┓", "┗", "┛", "┃", "┃", "━", "━"], c ∈ ["┏", "┓", "┗", "┛", "━", "┃", "╲"]
      decide
    · have ht : t = ⟨.none, .none, Lazygit.textLine .none "Input".toList⟩ := by simpa [boxBlock] using ht
      subst ht
      refine ⟨Lazygit.shown_new T, fun sp hsp => ?_⟩
      have hsp : sp = Span.new (String.ofList "Input".toList) := by simpa [Lazygit.textLine] using hsp
      subst hsp
      exact ⟨Lazygit.shown_new T, plain_symbols hS hsym (plain_text (by decide))⟩
  have hfill : Drawing u S (Style.Shown T) (fill.render area) :=
    .fill (hsym _ (.inr (by decide))) (shown_modifier T _ (.inl rfl)) area
  have := Drawing.both hfill (.both (.popup (ω 0) (ω 1) fuel hpopup area) (.input (ω 4) fuel hinput inner hs))
  refine cast (congrArg _ ?_) this
  funext b
  unfold InputExample.render
  rw [hin]
  cases h1 : fill.render area b with
  | none => simp
  | some b1 =>
    simp only [Option.bind_some, Option.bind_eq_bind]
    cases popup.render (ω 0) (ω 1) fuel u area b1 <;> rfl

/-- **C119**, on the screen: after a frame of the program the terminal shows the popup with the text and the cursor, and
the background on the rest of the viewport. -/
theorem C119_screen {j : Junk} (ω : Nat → Nat → Nat) (fuel : Nat) (hu : u.Lawful) (hs : u.Suffix)
    (hc : T.convert .reset = some .reset) (hS : Plainly u S) (hsym : ∀ s, Symbols s → S s)
    (hvis : ∀ s, S s → s.toList.any isControlRune = false) {t : Terminal} {sc : Screen}
    (h : History j u T S t sc true) {s : State} {e : Editor} (hses : Session u S s e) (hroom : Roomy e t.viewportArea)
    (w : Widget) (hw : ∀ b, w t.viewportArea b = (InputExample.render ω fuel u s t.viewportArea b).map fun r => (r.1, none)) :
    Running ω fuel t.viewportArea ∨ ∃ t' out, t.draw u T w noFault = some (t', out, true) ∧
      t'.viewportArea = t.viewportArea ∧ History j u T S t' (sc.feed j u out) true ∧
      ∀ q, t.viewportArea.contains q = true → (sc.feed j u out).grid q =
        .glyph (pictureCell e t.viewportArea q).symbol false (penOf T (pictureCell e t.viewportArea q)) := by
  obtain ⟨ht, _, _⟩ := history_inv (env_of_plainly hu hc hS) h
  have hty := (session_typing hS hsym hses).1
  obtain ⟨_, _, _, _, _, _, hsy⟩ := tidy_split (session_tidy hS hty)
  have hroom' := hroom
  obtain ⟨hx, hy, hrows, hcols⟩ := hroom'
  have hw0 : 0 ≤ t.viewportArea.width := by
    have hw : (popupArea t.viewportArea).width =
      (4 * t.viewportArea.width + 2) / 5 - (t.viewportArea.width + 2) / 5 := rfl
    omega
  have hinb : Inside t.cur t.viewportArea := by
    unfold Inside
    rw [ht.cur.area_eq]
    omega
  rcases C119_frame ω fuel hu hs hS hsym hvis hses t.viewportArea hroom t.cur ht.cur.wf hinb with
    hr | ⟨frame, e1, _, _, hcell⟩
  · exact .inl hr
  rcases place_eq (ω 2) (ω 3) fuel t.viewportArea hy hw0 hrows with hq | hq
  · exact .inl (.inr (.inl hq))
  right
  have hi : popup.inner (ω 2) (ω 3) fuel t.viewportArea = .ok (block.inner (popupArea t.viewportArea)) := by
    unfold Popup.inner
    rw [hq]
    rfl
  have hdr := InputExample.drawing (T := T) ω fuel hS hsym hsy t.viewportArea _ hi
  have hframe : (InputExample.render ω fuel u s t.viewportArea t.cur).map Prod.fst = some frame := by rw [e1]; rfl
  obtain ⟨t', out, h1, h2, h3, h4, _⟩ := C102_screen hu hc hS h hdr ht.cur hframe w (by
    intro b
    rw [hw, Option.map_map]
    rfl)
  refine ⟨t', out, h1, h2, h3, fun q hq => ?_⟩
  exact h4 q _ (by rw [hcell q, if_pos hq])

theorem InputExample.simple_plainly : Plainly Uniseg.simple Symbols where
  space := .inl ⟨' ', by decide, by decide, rfl⟩
  column := by
    rintro s (⟨c, h1, h2, rfl⟩ | hs)
    · exact Lazygit.simple_plainly.column _ (.inl ⟨c, h1, h2, rfl⟩)
    · revert s
      decide
  single := by
    rintro s (⟨c, h1, h2, rfl⟩ | hs)
    · exact Lazygit.simple_plainly.single _ (.inl ⟨c, h1, h2, rfl⟩)
    · revert s
      decide
  printable := by
    rintro s (⟨c, h1, h2, rfl⟩ | hs)
    · exact Lazygit.simple_plainly.printable _ (.inl ⟨c, h1, h2, rfl⟩)
    · revert s
      unfold Printable
      decide
  apart := simple_separable _

theorem InputExample.symbols_visible : ∀ s, Symbols s → s.toList.any isControlRune = false := by
  rintro s (⟨c, h1, h2, rfl⟩ | hs)
  · simp only [String.toList_ofList, List.any_cons, List.any_nil, Bool.or_false]
    unfold isControlRune
    simp
    omega
  · revert s
    decide

/-- The hypotheses of `C119_frame` are met, and the picture is not trivial: "ab" is typed in one read and the cursor moved
to the left, on a screen of 30 columns and 5 rows. -/
example : (∃ s, Session Uniseg.simple Symbols s ⟨["a"], ["b"]⟩) ∧ Roomy ⟨["a"], ["b"]⟩ ⟨0, 0, 30, 5⟩ ∧
    popupArea ⟨0, 0, 30, 5⟩ = ⟨6, 1, 18, 3⟩ ∧
    (List.range 18).map (fun i : Nat => (popupCell ⟨["a"], ["b"]⟩ 18 i 0).1) =
      ["┏", "I", "n", "p", "u", "t", "━", "━", "━", "━", "━", "━", "━", "━", "━", "━", "━", "┓"] ∧
    (List.range 18).map (fun i : Nat => (popupCell ⟨["a"], ["b"]⟩ 18 i 1).1) =
      ["┃", ">", " ", "a", "b", " ", " ", " ", " ", " ", " ", " ", " ", " ", " ", " ", " ", "┃"] ∧
    popupCell ⟨["a"], ["b"]⟩ 18 4 1 = ("b", Modifier.reversed) ∧
    (List.range 18).map (fun i : Nat => (popupCell ⟨[], []⟩ 18 i 1).1) =
      ["┃", ">", " ", "P", "l", "a", "c", "e", "h", "o", "l", "d", "e", "r", ".", ".", ".", "┃"] ∧
    (pictureCell ⟨["a"], ["b"]⟩ ⟨0, 0, 30, 5⟩ ⟨5, 2⟩) = ⟨"╲", .reset, .reset, Modifier.dim, false⟩ := by
  refine ⟨?_, ⟨by decide, by decide, by decide, by decide⟩, by decide +kernel⟩
  let reads : List (List Gesture) := [[.char 97, .char 98, .key [27, 91, 68] ⟨keyLeft, [], false, false⟩]]
  have hl : Known [27, 91, 68] ⟨keyLeft, [], false, false⟩ := .seq (by decide +kernel)
  have hr : ∀ gs ∈ reads, TypedTogether Symbols gs := by
    intro gs hgs
    simp only [reads, List.mem_cons, List.not_mem_nil, or_false] at hgs
    subst hgs
    refine ⟨?_, ?_, ?_, ?_⟩
    · simp only [List.mem_cons, List.not_mem_nil, or_false, forall_eq_or_imp, forall_eq, Gesture.Valid, hl]
      exact ⟨by decide, by decide⟩
    · intro before after e
      have : Gesture.escape ∈ [Gesture.char 97, .char 98, .key [27, 91, 68] ⟨keyLeft, [], false, false⟩] := by
        rw [e]; simp
      simp at this
    · simp only [List.mem_cons, List.not_mem_nil, or_false, forall_eq_or_imp, forall_eq, Gesture.Made]
      exact ⟨.inl ⟨'a', by decide, by decide, by decide⟩, .inl ⟨'b', by decide, by decide, by decide⟩, fun _ h => h.elim⟩
    · simp only [List.mem_cons, List.not_mem_nil, or_false, forall_eq_or_imp, forall_eq]
      refine ⟨?_, ?_, ?_⟩ <;> simp [Gesture.edit, keyEdit, keyLeft]
  obtain ⟨_, _, h3⟩ := C119_typed InputExample.simple_plainly (fun _ h => h) Session.start
  obtain ⟨s, _, h⟩ := h3 reads hr (by decide +kernel)
  have he : (reads.flatten.filterMap Gesture.edit).foldl (Editor.step Uniseg.simple) ⟨[], []⟩ = ⟨["a"], ["b"]⟩ := by
    decide +kernel
  rw [he] at h
  exact ⟨s, h⟩

/-- The bytes of ctrl+c make the program quit, and the letters of "ctrl+c" do not. -/
example : ((program Uniseg.simple).update State.new (.user (.key ⟨3, [], false, false⟩))).map Prod.snd =
      some (some Lazygit.quitCmd) ∧
    ((program Uniseg.simple).update State.new (.user (.key ⟨keyRunes, "ctrl+c".toList.map Char.toNat, false, false⟩))).map
      (fun r => (r.1.string, r.2)) = some ("ctrl+c", none) ∧
    (readAll [] [[3]]).1.map Prod.snd = [.key ⟨3, [], false, false⟩] := by
  decide +kernel

end Bento
