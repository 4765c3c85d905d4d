import Verif.Spec.Typing
import Verif.Props.Gestures
import Verif.Props.InputRow
import Verif.Props.Palette

/-!
# From the keyboard to the screen
-/

namespace Bento

open Input InputField

variable {u : Uniseg} {S : String → Prop} {T : Termenv}

namespace InputField

/-- The state of a field that shows all of its text. -/
structure Tidy (u : Uniseg) (S : String → Prop) (s : State) (e : Editor) : Prop where
  shows : s.Shows e
  made : ∀ c ∈ e.before ++ e.after, S c
  proper : ∀ g ∈ s.graphemes, g = Grapheme.new u g.symbol
  offset : s.offset = 0

theorem tidy_new (sh : Bool) : Tidy u S { State.new with showCursor := sh } ⟨[], []⟩ :=
  ⟨⟨rfl, rfl⟩, by simp, by simp [State.new], rfl⟩

theorem step_made (e : Editor) (d : Edit) (he : ∀ c ∈ e.before ++ e.after, S c)
    (hd : ∀ x, d = .type x → ∀ c ∈ u.graphemes x, S c) : ∀ c ∈ (e.step u d).before ++ (e.step u d).after, S c := by
  intro c hc
  cases d with
  | type x =>
    simp only [Editor.step, List.mem_append] at hc
    rcases hc with (hc | hc) | hc
    · exact he c (List.mem_append_left _ hc)
    · exact hd x rfl c hc
    · exact he c (List.mem_append_right _ hc)
  | left =>
    unfold Editor.step at hc
    rcases List.eq_nil_or_concat e.before with hn | ⟨b, x, hn⟩
    · rw [hn] at hc
      simp only [List.getLast?_nil] at hc
      exact he c hc
    · rw [List.concat_eq_append] at hn
      rw [hn] at hc
      simp only [List.getLast?_append, List.getLast?_singleton, Option.some_or, List.dropLast_concat, List.mem_append,
        List.mem_cons] at hc
      apply he
      rw [hn]
      simp only [List.mem_append, List.mem_singleton]
      tauto
  | right =>
    unfold Editor.step at hc
    cases hn : e.after with
    | nil => rw [hn] at hc; simp only at hc; exact he c hc
    | cons x a =>
      rw [hn] at hc
      simp only [List.mem_append, List.mem_singleton] at hc
      apply he
      rw [hn]
      simp only [List.mem_append, List.mem_cons]
      tauto
  | home => exact he c (by simpa [Editor.step] using hc)
  | fin => exact he c (by simpa [Editor.step] using hc)
  | backspace =>
    simp only [Editor.step, List.mem_append] at hc
    rcases hc with hc | hc
    · exact he c (List.mem_append_left _ (List.dropLast_subset _ hc))
    · exact he c (List.mem_append_right _ hc)
  | clear => simp [Editor.step] at hc
  | nothing => exact he c hc

/-- A key other than Ctrl+W keeps the rest of a tidy state. -/
theorem update_tidy {s s' : State} {e : Editor} (k : Key) (hsh : s.Shows e) (hk : k.type ≠ 23)
    (hp : ∀ g ∈ s.graphemes, g = Grapheme.new u g.symbol) (ho : s.offset = 0)
    (h : (s.update u k).map (·.1) = some s') :
    (∀ g ∈ s'.graphemes, g = Grapheme.new u g.symbol) ∧ s'.offset = 0 ∧ s'.showCursor = s.showCursor := by
  obtain ⟨b, a, hg, hb, ha, hc⟩ := hsh.split
  unfold State.update at h
  split_ifs at h with h1 h2 h3 h4 h5 h6 h7 h8 h9
  all_goals simp only [Option.map_some, Option.some.injEq, Option.map_map] at h
  · subst h; exact ⟨hp, ho, rfl⟩
  · subst h; exact ⟨hp, ho, rfl⟩
  · subst h; exact ⟨hp, ho, rfl⟩
  · subst h; exact ⟨hp, ho, rfl⟩
  · rw [deleteUnderCursor_spec hg hc] at h
    simp only [Option.map_some, Function.comp, Option.some.injEq] at h
    subst h
    refine ⟨fun g hg' => hp g ?_, ho, rfl⟩
    rw [hg]
    simp only [List.mem_append] at hg' ⊢
    exact hg'.imp (fun h => List.dropLast_subset _ h) id
  · subst h; exact ⟨hp, rfl, rfl⟩
  · subst h; exact ⟨hp, ho, rfl⟩
  · unfold State.append at h
    rw [appendLoop_spec u _ s b a hg hc] at h
    simp only [Option.map_some, Function.comp, Option.some.injEq] at h
    subst h
    refine ⟨fun g hg' => ?_, ho, rfl⟩
    simp only [List.mem_append, List.mem_map] at hg'
    rcases hg' with (h | ⟨c, _, rfl⟩) | h
    · exact hp g (by rw [hg]; exact List.mem_append_left _ h)
    · rfl
    · exact hp g (by rw [hg]; exact List.mem_append_right _ h)
  · subst h; exact ⟨hp, ho, rfl⟩

theorem keyEdit_type {k : Key} {d : Edit} (h : keyEdit k = some d) : k.type ≠ 23 := by
  unfold keyEdit at h
  by_cases h1 : k.type = 23
  · rw [if_pos h1] at h; cases h
  · exact h1

/-- A key message keeps the state tidy and does to the text what it means. -/
theorem key_tidy {s : State} {e : Editor} (h : Tidy u S s e) (k : Key) {d : Edit} (hd : keyEdit k = some d)
    (hS : ∀ x, d = .type x → ∀ c ∈ u.graphemes x, S c) :
    ∃ s', handle u s (.key k) = some s' ∧ Tidy u S s' (e.step u d) ∧ s'.showCursor = s.showCursor := by
  obtain ⟨s', e1, h1⟩ := step_spec u h.shows (.key k) hd
  obtain ⟨p1, p2, p3⟩ := update_tidy k h.shows (keyEdit_type hd) h.proper h.offset e1
  exact ⟨s', e1, ⟨h1, step_made e d h.made hS, p1, p2⟩, p3⟩

end InputField

theorem join_runes (rs : List Rune) : String.ofList (rs.map Char.ofNat) = String.join (rs.map runeText) := by
  apply String.toList_injective
  rw [String.toList_join, String.toList_ofList]
  induction rs with
  | nil => rfl
  | cons r rs ih =>
    simp only [List.map_cons, List.flatMap_cons, runeText, String.toList_ofList, List.singleton_append]
    rw [ih]

/-- The text of a key whose characters are in `S`. -/
theorem keyText_made (hS : Plainly u S) (k : Key) (h : ∀ r ∈ k.runes, S (runeText r)) :
    keyText k = String.join (k.runes.map runeText) := by
  rw [← join_runes]
  unfold keyText
  congr 1
  refine List.map_congr_left fun r hr => ?_
  split
  · rfl
  · rename_i hn
    exfalso
    have h1 := hS.printable _ (h r hr) (Char.ofNat r) (by simp [runeText])
    have : ¬ Nat.isValidChar r := by
      unfold Nat.isValidChar
      omega
    unfold Char.ofNat at h1
    rw [dif_neg this] at h1
    revert h1
    decide

/-- The clusters of typed characters are the characters. -/
theorem graphemes_runes (hS : Plainly u S) {rs : List Rune} (h : ∀ r ∈ rs, S (runeText r)) :
    u.graphemes (String.join (rs.map runeText)) = rs.map runeText := by
  rw [hS.apart _ (by
    intro s hs
    obtain ⟨r, hr, rfl⟩ := List.mem_map.1 hs
    exact h r hr), List.flatMap_map]
  induction rs with
  | nil => rfl
  | cons r rs ih =>
    rw [List.flatMap_cons, List.map_cons, hS.single _ (h r List.mem_cons_self),
      ih fun x hx => h x (List.mem_cons_of_mem _ hx)]
    rfl

/-- Characters typed one by one or at once. -/
theorem type_runes (hS : Plainly u S) (rs : List Rune) (e : Editor) (h : ∀ r ∈ rs, S (runeText r)) :
    e.step u (.type (String.join (rs.map runeText))) =
      (rs.map fun r => Edit.type (runeText r)).foldl (Editor.step u) e := by
  have key : ∀ (rs : List Rune) (e : Editor), (∀ r ∈ rs, S (runeText r)) →
      (rs.map fun r => Edit.type (runeText r)).foldl (Editor.step u) e = ⟨e.before ++ rs.map runeText, e.after⟩ := by
    intro rs
    induction rs with
    | nil => intro e _; simp
    | cons r rs ih =>
      intro e h
      rw [List.map_cons, List.foldl_cons, ih _ fun x hx => h x (List.mem_cons_of_mem _ hx)]
      simp [Editor.step, hS.single _ (h r List.mem_cons_self)]
  rw [key rs e h]
  simp only [Editor.step, graphemes_runes hS h]

/-- What typed characters look like among the gestures. -/
theorem gesture_rune (hS : Plainly u S) {g : Gesture} {r : Rune} (hg : g.msg = .key ⟨keyRunes, [r], false, false⟩)
    (hm : g.Made S) : S (runeText r) ∧ g.edit = some (.type (runeText r)) := by
  cases g with
  | char r' =>
    simp only [Gesture.msg, Msg.key.injEq, Key.mk.injEq, List.cons.injEq, and_true] at hg
    obtain ⟨_, rfl⟩ := hg
    exact ⟨hm, rfl⟩
  | key s k =>
    simp only [Gesture.msg, Msg.key.injEq] at hg
    subst hg
    have h1 : S (runeText r) := hm r (by simp)
    refine ⟨h1, ?_⟩
    show keyEdit _ = _
    have := keyText_made hS ⟨keyRunes, [r], false, false⟩ hm
    simp only [List.map_cons, List.map_nil] at this
    have hj : String.join [runeText r] = runeText r := by
      apply String.toList_injective
      simp
    rw [hj] at this
    rw [← this]
    rfl
  | alt _ => simp [Gesture.msg] at hg
  | escape => simp [Gesture.msg] at hg
  | mouse _ => simp [Gesture.msg] at hg
  | paste _ => simp [Gesture.msg] at hg

/-- The meaning of the message of a gesture. -/
theorem gesture_edit (hS : Plainly u S) {g : Gesture} {k : Key} (hg : g.msg = .key k) (hm : g.Made S) :
    g.edit = keyEdit k ∧ ∀ x, g.edit = some (.type x) → ∀ c ∈ u.graphemes x, S c := by
  have one : ∀ r, S (runeText r) → ∀ t alt paste, (t = keyRunes ∨ t = keySpace) →
      keyEdit ⟨t, [r], alt, paste⟩ = some (.type (runeText r)) := by
    intro r h1 t alt paste ht
    have := keyText_made hS ⟨t, [r], alt, paste⟩ (by simpa using h1)
    have hj : String.join [runeText r] = runeText r := by
      apply String.toList_injective
      simp
    simp only [List.map_cons, List.map_nil, hj] at this
    rcases ht with rfl | rfl <;> (rw [← this]; rfl)
  cases g with
  | char r =>
    simp only [Gesture.msg, Msg.key.injEq] at hg
    subst hg
    have h1 : S (runeText r) := hm
    constructor
    · rw [one r h1]
      · rfl
      · split <;> simp
    · intro x hx c hc
      cases hx
      rw [hS.single _ h1] at hc
      simp only [List.mem_singleton] at hc
      rw [hc]
      exact h1
  | alt r =>
    simp only [Gesture.msg, Msg.key.injEq] at hg
    subst hg
    have h1 : S (runeText r) := hm
    constructor
    · rw [one r h1 _ _ _ (.inl rfl)]
      rfl
    · intro x hx c hc
      cases hx
      rw [hS.single _ h1] at hc
      simp only [List.mem_singleton] at hc
      rw [hc]
      exact h1
  | key s k' =>
    simp only [Gesture.msg, Msg.key.injEq] at hg
    subst hg
    refine ⟨rfl, fun x hx c hc => ?_⟩
    have hx' : keyEdit k' = some (.type x) := hx
    have hxt : x = keyText k' := by
      unfold keyEdit at hx'
      split_ifs at hx' <;> simp_all
    rw [hxt, keyText_made hS k' hm, graphemes_runes hS hm] at hc
    obtain ⟨r, hr, rfl⟩ := List.mem_map.1 hc
    exact hm r hr
  | escape =>
    simp only [Gesture.msg, Msg.key.injEq] at hg
    subst hg
    exact ⟨rfl, fun x hx => by cases hx⟩
  | mouse _ => simp [Gesture.msg] at hg
  | paste t =>
    simp only [Gesture.msg, Msg.key.injEq] at hg
    subst hg
    have h1 : ∀ r ∈ t, S (runeText r) := hm
    constructor
    · have := keyText_made hS ⟨keyRunes, t, false, true⟩ h1
      show some (Edit.type (String.join (t.map runeText))) = _
      rw [← this]
      rfl
    · intro x hx c hc
      cases hx
      rw [graphemes_runes hS h1] at hc
      obtain ⟨r, hr, rfl⟩ := List.mem_map.1 hc
      exact h1 r hr

/-- The meaning of a message that stands for some gestures. -/
theorem handle_pieces (hS : Plainly u S) {m : Msg} {gs : List Gesture} (hm : m.pieces = gs.map Gesture.msg)
    (hmade : ∀ g ∈ gs, g.Made S) (hed : ∀ g ∈ gs, g.edit ≠ none) {s : State} {e : Editor} (h : Tidy u S s e) :
    ∃ s', handle u s m = some s' ∧ Tidy u S s' ((gs.filterMap Gesture.edit).foldl (Editor.step u) e) ∧
      s'.showCursor = s.showCursor := by
  have single : ∀ m', m.pieces = [m'] → ∃ g, gs = [g] ∧ g.msg = m' := by
    intro m' hm'
    rw [hm'] at hm
    match gs, hm with
    | [g], hm => exact ⟨g, rfl, by simpa using hm.symm⟩
  by_cases hk : ∃ k, m = .key k
  · obtain ⟨k, rfl⟩ := hk
    by_cases hr : k.type = keyRunes ∧ k.alt = false ∧ k.paste = false
    · have hp : (Msg.key k).pieces = k.runes.map fun r => .key ⟨keyRunes, [r], false, false⟩ := by
        simp only [Msg.pieces]
        rw [if_pos hr]
      rw [hp] at hm
      have all : ∀ (rs : List Rune) (gs : List Gesture),
          (rs.map fun r => Msg.key ⟨keyRunes, [r], false, false⟩) = gs.map Gesture.msg → (∀ g ∈ gs, g.Made S) →
          (∀ r ∈ rs, S (runeText r)) ∧ gs.filterMap Gesture.edit = rs.map fun r => Edit.type (runeText r) := by
        intro rs
        induction rs with
        | nil =>
          intro gs hgs _
          have : gs = [] := by simpa using hgs.symm
          subst this
          simp
        | cons r rs ih =>
          intro gs hgs hmade
          cases gs with
          | nil => simp at hgs
          | cons g gs =>
            simp only [List.map_cons, List.cons.injEq] at hgs
            obtain ⟨a, b⟩ := gesture_rune hS hgs.1.symm (hmade g List.mem_cons_self)
            obtain ⟨c, d⟩ := ih gs hgs.2 fun g hg => hmade g (List.mem_cons_of_mem _ hg)
            refine ⟨fun x hx => ?_, ?_⟩
            · rcases List.mem_cons.1 hx with rfl | hx
              · exact a
              · exact c x hx
            · rw [List.filterMap_cons, b, d]
              rfl
      obtain ⟨h1, h2⟩ := all _ _ hm hmade
      rw [h2, ← type_runes hS _ _ h1]
      refine key_tidy h k ?_ ?_
      · rw [← keyText_made hS k h1]
        simp [keyEdit, hr.1, keyRunes]
      · intro x hx c hc
        cases hx
        rw [graphemes_runes hS h1] at hc
        obtain ⟨r, hr, rfl⟩ := List.mem_map.1 hc
        exact h1 r hr
    · have hp : (Msg.key k).pieces = [.key k] := by
        simp only [Msg.pieces]
        rw [if_neg hr]
      obtain ⟨g, rfl, hg⟩ := single _ hp
      obtain ⟨h1, h2⟩ := gesture_edit hS hg (hmade g (by simp))
      cases hd : g.edit with
      | none => exact absurd hd (hed g (by simp))
      | some d =>
        have hf : [g].filterMap Gesture.edit = [d] := by simp [hd]
        rw [hf]
        exact key_tidy h k (by rw [← h1, hd]) fun x hx => h2 x (by rw [hd, hx])
  · have hp : m.pieces = [m] := by
      cases m with
      | key k => exact absurd ⟨k, rfl⟩ hk
      | _ => rfl
    obtain ⟨g, rfl, hg⟩ := single _ hp
    have hs : handle u s m = some s := by
      cases m with
      | key k => exact absurd ⟨k, rfl⟩ hk
      | _ => rfl
    refine ⟨s, hs, ?_, rfl⟩
    have hed' : g.edit = some .nothing := by
      cases g with
      | mouse _ => rfl
      | _ => exact absurd ⟨_, hg.symm⟩ hk
    have hf : [g].filterMap Gesture.edit = [.nothing] := by simp [hed']
    rw [hf]
    exact h

/-- All messages, one after the other. -/
theorem handle_all (hS : Plainly u S) : ∀ (ms : List Msg) (gs : List Gesture),
    ms.flatMap Msg.pieces = gs.map Gesture.msg → (∀ g ∈ gs, g.Made S) → (∀ g ∈ gs, g.edit ≠ none) →
    ∀ {s : State} {e : Editor}, Tidy u S s e →
    ∃ s', ms.foldlM (handle u) s = some s' ∧ Tidy u S s' ((gs.filterMap Gesture.edit).foldl (Editor.step u) e) ∧
      s'.showCursor = s.showCursor
  | [], gs, hm, _, _, s, e, h => by
    have : gs = [] := by simpa using hm.symm
    subst this
    exact ⟨s, rfl, h, rfl⟩
  | m :: ms, gs, hm, h1, h2, s, e, h => by
    rw [List.flatMap_cons] at hm
    obtain ⟨g1, g2, e0, e1, e2⟩ := List.append_eq_map_iff.1 hm
    subst e0
    obtain ⟨s1, a1, a2, a3⟩ := handle_pieces hS e1.symm (fun g hg => h1 g (List.mem_append_left _ hg))
      (fun g hg => h2 g (List.mem_append_left _ hg)) h
    obtain ⟨s2, b1, b2, b3⟩ := handle_all hS ms g2 e2.symm (fun g hg => h1 g (List.mem_append_right _ hg))
      (fun g hg => h2 g (List.mem_append_right _ hg)) a2
    refine ⟨s2, ?_, ?_, b3.trans a3⟩
    · rw [List.foldlM_cons, a1]
      exact b1
    · rw [List.filterMap_append, List.foldl_append]
      exact b2

theorem reads_tidy (hS : Plainly u S) {s : State} {e : Editor} (h : Tidy u S s e) (reads : List (List Gesture))
    (hr : ∀ gs ∈ reads, TypedTogether S gs)
    (hlast : ∀ gs, reads.getLast? = some gs → (gs.flatMap Gesture.bytes).length ≠ 256) :
    ∃ s', handleReads u reads s = some s' ∧
      Tidy u S s' ((reads.flatten.filterMap Gesture.edit).foldl (Editor.step u) e) ∧ s'.showCursor = s.showCursor := by
  obtain ⟨held, _, h2, _, h4⟩ := C103_mixed reads fun gs hg => ⟨(hr gs hg).valid, (hr gs hg).together⟩
  have h0 : held = [] := by
    rcases hl : reads.getLast? with _ | gs
    · have hnil : reads = [] := List.getLast?_eq_none_iff.1 hl
      subst hnil
      have := congrArg List.length h2
      simp only [List.length_append, List.length_map, List.flatten_nil, List.map_nil, List.length_nil] at this
      exact List.length_eq_zero_iff.1 (by omega)
    · exact h4 gs hl (hlast gs hl)
  subst h0
  rw [List.map_nil, List.append_nil] at h2
  refine handle_all hS _ _ ?_ ?_ ?_ h
  · rw [List.flatMap_map]
    exact h2
  · intro g hg
    obtain ⟨gs, hgs, hg⟩ := List.mem_flatten.1 hg
    exact (hr gs hgs).made g hg
  · intro g hg
    obtain ⟨gs, hgs, hg⟩ := List.mem_flatten.1 hg
    exact (hr gs hgs).edits g hg

/-! ### Drawing -/

theorem tidy_split {s : State} {e : Editor} (h : Tidy u S s e) :
    ∃ b a, s.graphemes = b ++ a ∧ b.map Grapheme.symbol = e.before ∧ a.map Grapheme.symbol = e.after ∧
      s.cursor = b.length ∧ ∀ g ∈ s.graphemes, S g.symbol := by
  obtain ⟨b, a, hg, hb, ha, hc⟩ := h.shows.split
  refine ⟨b, a, hg, hb, ha, hc, fun g hg' => h.made _ ?_⟩
  rw [← hb, ← ha, ← List.map_append, ← hg]
  exact List.mem_map_of_mem hg'

/-- Everything is visible when there is room for it. -/
theorem bounds_fit {s : State} {m : Int} (ho : s.offset = 0) (h1 : ∀ g ∈ s.graphemes, g.width = 1)
    (hm : (s.graphemes.length : Int) ≤ m) (hc0 : 0 ≤ s.cursor) (hc : s.cursor ≤ s.graphemes.length) :
    s.getBounds m = some (0, (s.graphemes.length : Int)) := by
  unfold State.getBounds
  by_cases hn : s.graphemes.length = 0
  · rw [if_pos hn, hn]
    rfl
  rw [if_neg hn, ho]
  have hfit : ∀ (gs : List Grapheme) (w l : Int), (∀ g ∈ gs, g.width = 1) → w + gs.length ≤ m →
      State.fitLoop m gs w l = (w + gs.length, l + gs.length) := by
    intro gs
    induction gs with
    | nil => intro w l _ _; simp [State.fitLoop]
    | cons g gs ih =>
      intro w l hg hw
      simp only [List.length_cons] at hw
      push_cast at hw
      simp only [State.fitLoop]
      rw [hg g List.mem_cons_self, if_neg (by push_cast; omega),
        ih _ _ (fun x hx => hg x (List.mem_cons_of_mem _ hx)) (by push_cast; omega)]
      simp only [List.length_cons, Prod.mk.injEq]
      push_cast
      omega
  have hmin : min (0 : Int) (max 0 ((s.graphemes.length : Int) - 1)) = 0 := by omega
  simp only [hmin]
  rw [if_neg (by omega), show (0 : Int).toNat = 0 from rfl, List.drop_zero, hfit _ _ _ h1 (by omega)]
  simp only [Option.bind_eq_bind, zero_add]
  have hg0 : ((if s.cursor ≠ 0 then min (s.cursor - 1) (s.graphemes.length : Int) else 0) -
      (s.graphemes.length : Int) + 1).toNat = 0 := by
    split <;> omega
  have hb0 : (0 - (if s.cursor ≠ 0 then min (s.cursor - 1) (s.graphemes.length : Int) else 0)).toNat = 0 := by
    split <;> omega
  rw [hg0]
  simp only [State.growLoop, Option.bind_some]
  rw [hb0]
  simp only [State.backLoop, Option.bind_some]
  split
  · simp only [Option.some.injEq, Prod.mk.injEq]
    omega
  · rfl

theorem graphemes_symbols (hS : Plainly u S) {gs : List Grapheme} (h : ∀ g ∈ gs, S g.symbol) :
    u.graphemes (graphemesString gs) = gs.map Grapheme.symbol := by
  unfold graphemesString
  rw [hS.apart _ (by
    intro s hs
    obtain ⟨r, hr, rfl⟩ := List.mem_map.1 hs
    exact h r hr), List.flatMap_map]
  induction gs with
  | nil => rfl
  | cons r rs ih =>
    rw [List.flatMap_cons, List.map_cons, hS.single _ (h r List.mem_cons_self),
      ih fun x hx => h x (List.mem_cons_of_mem _ hx)]
    rfl

/-- The line of a field with room for all of its text. -/
theorem line_fits (hu : u.Lawful) (hS : Plainly u S) {i : InputField.Widget}
    (hpl : ∀ g ∈ i.placeholder, S g.symbol) {s : State} {e : Editor} (h : Tidy u S s e) {width : Int}
    (hw : (u.stringWidth i.prompt : Int) + (e.before ++ e.after).length + 1 ≤ width) :
    ∃ l, i.line u width s = some (l, s) ∧ l.alignment = i.alignment ∧ l.clusters u = fieldText u i s.showCursor e := by
  obtain ⟨b, a, hg, hb, ha, hc, hsym⟩ := tidy_split h
  have hone : ∀ g ∈ s.graphemes, g.width = 1 := by
    intro g hg'
    rw [h.proper g hg']
    simp [Grapheme.new, Uniseg.stringWidth, hS.single _ (hsym g hg'), hS.column _ (hsym g hg')]
  have hlen : (e.before ++ e.after).length = s.graphemes.length := by
    rw [← hb, ← ha, ← List.map_append, List.length_map, hg]
  have hbl : b.length ≤ s.graphemes.length := by rw [hg]; simp
  have hbounds := bounds_fit (m := width - u.stringWidth i.prompt - 1) h.offset hone (by omega)
    (by rw [hc]; omega) (by rw [hc]; exact_mod_cast hbl)
  have he : u.graphemes "" = [] := by
    have h1 := hS.apart [] (by simp)
    simpa using h1
  have hsp : u.graphemes " " = [" "] := hS.single _ hS.space
  have hne : ∀ x, S x → x ≠ "" := by
    intro x hx h0
    have := hS.single x hx
    rw [h0, he] at this
    cases this
  have hpr : ∀ sp : Span, sp = (if i.prompt ≠ "" then ⟨i.promptStyle, i.prompt⟩ else ⟨Style.new, ""⟩) →
      u.graphemes sp.content = u.graphemes i.prompt := by
    intro sp hsp
    subst hsp
    split
    · rfl
    · rename_i hn
      rw [not_not.1 hn]
  have hline : ∀ x y z, i.split ⟨s.cursor, false, s.graphemes, 0⟩ = some (x, y, z) → i.line u width s =
      some (⟨Style.new, [if i.prompt ≠ "" then ⟨i.promptStyle, i.prompt⟩ else ⟨Style.new, ""⟩, x, i.cursorSpan s y, z],
        i.alignment⟩, s) := by
    intro x y z hxyz
    obtain ⟨cu, sh, gs, off⟩ := s
    have ho : off = 0 := h.offset
    subst ho
    simp only at *
    unfold InputField.Widget.line
    rw [hbounds]
    simp only [Option.bind_eq_bind, Option.bind_some, skip, take]
    rw [if_neg (by omega)]
    simp only [Option.bind_some]
    rw [if_neg (by omega)]
    simp only [Option.bind_some, Int.toNat_zero, List.drop_zero, Int.sub_zero, Int.toNat_natCast, List.take_length]
    rw [hxyz]
    rfl
  have hcur : ∀ y : Span, u.graphemes (i.cursorSpan s y).content =
      if y.content = "" then (if s.showCursor then [" "] else []) else u.graphemes y.content := by
    intro y
    unfold InputField.Widget.cursorSpan
    cases s.showCursor
    · simp only [Bool.false_eq_true, if_false]
      split
      · rename_i h0; rw [h0, he]
      · rfl
    · simp only [if_true]
      split
      · rw [hsp]
      · rfl
  by_cases hempty : s.graphemes = []
  · have hbe : e.before ++ e.after = [] := by
      apply List.length_eq_zero_iff.1
      rw [hlen, hempty]
      rfl
    have hsplit : i.split ⟨s.cursor, false, s.graphemes, 0⟩ = (match i.placeholder with
        | [] => some (Span.new "", Span.new "", Span.new "")
        | p :: rest =>
          some (Span.new "", ⟨i.placeholderStyle, p.symbol⟩, ⟨i.placeholderStyle, graphemesString rest⟩)) := by
      unfold InputField.Widget.split
      rw [hempty]
      rfl
    cases hp : i.placeholder with
    | nil =>
      rw [hp] at hsplit
      refine ⟨_, hline _ _ _ hsplit, rfl, ?_⟩
      simp only [Line.clusters, List.flatMap_cons, List.flatMap_nil, List.append_nil]
      rw [hpr _ rfl, hcur]
      unfold fieldText
      rw [if_pos hbe, if_pos hp]
      simp [Span.new, he]
    | cons p rest =>
      rw [hp] at hsplit
      refine ⟨_, hline _ _ _ hsplit, rfl, ?_⟩
      simp only [Line.clusters, List.flatMap_cons, List.flatMap_nil, List.append_nil]
      have hSp := hpl p (by rw [hp]; simp)
      rw [hpr _ rfl, hcur, if_neg (hne _ hSp)]
      unfold fieldText
      rw [if_pos hbe, if_neg (by rw [hp]; simp)]
      simp only [Span.new, he, List.nil_append, hS.single _ hSp, hp, List.map_cons]
      rw [graphemes_symbols hS fun g hg' => hpl g (by rw [hp]; exact List.mem_cons_of_mem _ hg')]
      rfl
  · have hbe : e.before ++ e.after ≠ [] := by
      intro h0
      apply hempty
      apply List.length_eq_zero_iff.1
      rw [← hlen, h0]
      rfl
    obtain ⟨x, y, z, hsplit, hxyz⟩ := split_spec i ⟨s.cursor, false, s.graphemes, 0⟩ b a hg hc
    obtain ⟨rfl, rfl, rfl⟩ := hxyz hempty fun g hg' => hne _ (hsym g hg')
    refine ⟨_, hline _ _ _ hsplit, rfl, ?_⟩
    simp only [Line.clusters, List.flatMap_cons, List.flatMap_nil, List.append_nil]
    rw [hpr _ rfl, hcur]
    unfold fieldText
    rw [if_neg hbe]
    congr 1
    have hSb : ∀ g ∈ b, S g.symbol := fun g hg' => hsym g (by rw [hg]; exact List.mem_append_left _ hg')
    have hSa : ∀ g ∈ a, S g.symbol := fun g hg' => hsym g (by rw [hg]; exact List.mem_append_right _ hg')
    rw [graphemes_symbols hS hSb, hb, List.append_assoc]
    congr 1
    rw [← ha]
    cases a with
    | nil =>
      simp only [List.head?_nil, Option.map_none, Option.getD_none, List.tail_nil, List.map_nil, if_true, true_and,
        List.nil_append]
      rw [graphemes_symbols hS (gs := []) (by simp)]
      simp
    | cons g t =>
      have hSg := hSa g List.mem_cons_self
      simp only [List.head?_cons, Option.map_some, Option.getD_some, List.tail_cons, List.map_cons, hne _ hSg, if_false,
        hS.single _ hSg, reduceCtorEq, false_and, List.append_nil]
      rw [graphemes_symbols hS fun x hx => hSa x (List.mem_cons_of_mem _ hx)]
      rfl

theorem field_narrow (hS : Plainly u S) (hvis : ∀ s, S s → s.toList.any isControlRune = false) {i : InputField.Widget}
    (hpr : u.MadeOf S i.prompt) (hpl : ∀ g ∈ i.placeholder, S g.symbol) {s : State} {e : Editor} (h : Tidy u S s e)
    {sh : Bool} {c : String} (hc : c ∈ fieldText u i sh e) : u.width c = 1 ∧ c.toList.any isControlRune = false := by
  suffices hSc : S c from ⟨hS.column c hSc, hvis c hSc⟩
  unfold fieldText at hc
  rcases List.mem_append.1 hc with hc | hc
  · exact hpr c hc
  split_ifs at hc with h1 h2 h3 h4
  · simp only [List.mem_singleton] at hc
    rw [hc]
    exact hS.space
  · exact absurd hc List.not_mem_nil
  · obtain ⟨g, hg, rfl⟩ := List.mem_map.1 hc
    exact hpl g hg
  · rcases List.mem_append.1 hc with hc | hc
    · exact h.made c hc
    · simp only [List.mem_singleton] at hc
      rw [hc]
      exact hS.space
  · rw [List.append_nil] at hc
    exact h.made c hc

/-- What a tidy field draws. -/
theorem field_drawn (ω : Nat → Nat) (fuel : Nat) (hu : u.Lawful) (hs : u.Suffix) (hS : Plainly u S)
    (hvis : ∀ s, S s → s.toList.any isControlRune = false) {i : InputField.Widget} (hpr : u.MadeOf S i.prompt)
    (hpl : ∀ g ∈ i.placeholder, S g.symbol) {area : Rect} (hp : Placed i area) {s : State} {e : Editor}
    (h : Tidy u S s e) (hroom : Room u i area e) (b : Buffer) (wf : b.WF) (hin : Inside b area) :
    Layout.splitWithSpacers ω fuel (lineLayout i.vertical) (content i area) = .running ∨
    ∃ b', i.render ω fuel u area b s = some (b', s) ∧
      (∀ q, area.contains q = false → b'.symbolAt q = b.symbolAt q) ∧
      ∀ q, (content i area).contains q = true → b'.symbolAt q =
        if q.y = (content i area).y + rowOf i.vertical (content i area).height then
          (i.alignment.shown (content i area).width.toNat (fieldText u i s.showCursor e)
            (q.x - (content i area).x).toNat).or (b.symbolAt q)
        else b.symbolAt q := by
  have hh := hp.row
  have hx := hp.left
  unfold Room at hroom
  rcases C99_row ω fuel u i hp.vertical area (by omega) hp.top hp.row b s with hr | ⟨row, r1, r2, r3, r4, r5, hr⟩
  · exact .inl hr
  right
  obtain ⟨b1, e1, a1, wf1, c1⟩ := setStyle_cells wf area i.style
  have s1 := setStyle_symbols c1
  have hin1 : Inside b1 area := by unfold Inside at *; rw [a1]; exact hin
  obtain ⟨b2, e2, a2, wf2, o2, s2, hsub⟩ : ∃ b2 : Buffer, (i.block.elim (some b1) fun k => k.render u area b1) = some b2 ∧
      b2.area = b.area ∧ b2.WF ∧ (∀ q, area.contains q = false → b2.symbolAt q = b.symbolAt q) ∧
      (∀ q, (content i area).contains q = true → b2.symbolAt q = b.symbolAt q) ∧
      (∀ q, (content i area).contains q = true → area.contains q = true) := by
    cases hb : i.block with
    | none =>
      have hc : content i area = area := by unfold content; rw [hb]; rfl
      rw [hc]
      exact ⟨b1, rfl, a1, wf1, fun q _ => s1 q, fun q _ => s1 q, fun q h => h⟩
    | some k =>
      have hc : content i area = k.inner area := by unfold content; rw [hb]; rfl
      rw [hc]
      obtain ⟨b2, e2, a2, wf2, o2, i2⟩ := C43_frame_only_partial u k area b1 wf1 hin1 hx
      have hsub : ∀ q, (k.inner area).contains q = true → area.contains q = true ∧ ¬ k.OnFrame area q :=
        fun q hq => C42_inner_inside k area hin.2.2.2.2.1 hin.2.2.2.2.2 (hp.padding k hb) q hq
      refine ⟨b2, e2, a2.trans a1, wf2, ?_, ?_, fun q hq => (hsub q hq).1⟩
      · intro q hq
        rw [← s1 q]
        unfold Buffer.symbolAt
        rw [o2 q hq]
      · intro q hq
        rw [← s1 q]
        unfold Buffer.symbolAt
        rw [i2 q (hsub q hq).1 (hsub q hq).2]
        cases b1.cellAt q <;> rfl
  have hinc : Inside b2 (content i area) :=
    ListWidget.inside_of_sub (by unfold Inside at *; rw [a2]; exact hin) (by omega) (by omega) hsub
  have hro : 0 ≤ rowOf i.vertical (content i area).height := by
    unfold rowOf
    split <;> omega
  have hrow : Inside b2 row := by
    unfold Inside at *
    omega
  obtain ⟨l, hl, hla, hlc⟩ := line_fits hu hS hpl h (width := row.width) (by rw [r2]; exact hroom)
  have hln : l.NarrowText u := by
    intro sp hsp c hc
    refine field_narrow hS hvis hpr hpl h (sh := s.showCursor) (c := c) ?_
    rw [← hlc]
    exact List.mem_flatMap.2 ⟨sp, hsp, hc⟩
  obtain ⟨b', g1, g2⟩ := C33_line_shown hu hs l hln row b2 wf2 hrow (by omega)
  refine ⟨b', ?_, ?_, ?_⟩
  · rw [hr, e1]
    simp only [Option.bind_eq_bind, Option.bind_some, e2]
    unfold InputField.Widget.renderRow
    rw [hl]
    simp only [Option.bind_eq_bind, Option.bind_some, g1]
  · intro q hq
    rw [g2 q, if_neg, o2 q hq]
    rintro ⟨t1, t2, t3⟩
    have := hsub q (by
      rw [Rect.contains_iff]
      unfold Rect.Mem
      omega)
    rw [this] at hq
    cases hq
  · intro q hq
    rw [g2 q, s2 q hq, r1, r2, r3, hla, hlc]
    rw [Rect.contains_iff] at hq
    unfold Rect.Mem at hq
    by_cases hy : q.y = (content i area).y + rowOf i.vertical (content i area).height
    · rw [if_pos ⟨hy, by omega, by omega⟩, if_pos hy]
    · rw [if_neg (fun h => hy h.1), if_neg hy]

/-- Drawing a tidy field with room for its text does not change its state. -/
theorem draw_keeps (hS : Plainly u S) {i : InputField.Widget} {area : Rect} (hp : Placed i area) {s : State} {e : Editor}
    (h : Tidy u S s e) (hroom : Room u i area e) {ω : Nat → Nat} {fuel : Nat} {b b' : Buffer} {s' : State}
    (hd : i.render ω fuel u area b s = some (b', s')) : s' = s := by
  unfold Room at hroom
  obtain ⟨x, y, hg, hb, ha, hc, hsym⟩ := tidy_split h
  have hlen : (e.before ++ e.after).length = s.graphemes.length := by
    rw [← hb, ← ha, ← List.map_append, List.length_map, hg]
  have hone : ∀ g ∈ s.graphemes, g.width = 1 := by
    intro g hg'
    rw [h.proper g hg']
    simp [Grapheme.new, Uniseg.stringWidth, hS.single _ (hsym g hg'), hS.column _ (hsym g hg')]
  have hbl : x.length ≤ s.graphemes.length := by rw [hg]; simp
  have hbounds := bounds_fit (m := (content i area).width - u.stringWidth i.prompt - 1) h.offset hone (by omega)
    (by rw [hc]; omega) (by rw [hc]; exact_mod_cast hbl)
  have hrr : ∀ (row : Rect) (b : Buffer), row.width = (content i area).width →
      i.renderRow u row b s = some (b', s') → s' = s := by
    intro row b hw hrow
    unfold InputField.Widget.renderRow InputField.Widget.line at hrow
    rw [hw, hbounds] at hrow
    simp only [Option.bind_eq_bind, Option.bind_some, Option.bind_eq_some_iff, Option.some.injEq, Prod.mk.injEq] at hrow
    obtain ⟨⟨l, t⟩, ⟨rest, _, vis, _, ⟨p1, p2, p3⟩, _, h1⟩, b2, _, _, h2⟩ := hrow
    simp only [Prod.mk.injEq] at h1
    rw [← h2, ← h1.2]
    obtain ⟨cu, sh, gs, off⟩ := s
    have ho : off = 0 := h.offset
    subst ho
    rfl
  rcases C99_row ω fuel u i hp.vertical area (by omega) hp.top hp.row b s with hr | ⟨row, r1, r2, r3, r4, r5, hr⟩
  · exfalso
    unfold InputField.Widget.render at hd
    have hl : i.rowLayout = lineLayout i.vertical := rfl
    unfold content at hr
    cases hb : i.block with
    | none =>
      rw [hb] at hr
      simp only [Option.map_none, Option.getD_none] at hr
      simp [hb, hl, hr] at hd
    | some k =>
      rw [hb] at hr
      simp only [Option.map_some, Option.getD_some] at hr
      simp only [hb, hl, Option.bind_eq_bind, Option.bind_eq_some_iff, Option.map_eq_some_iff] at hd
      obtain ⟨b1, _, ⟨a2, b2⟩, ⟨b3, _, h3⟩, h4⟩ := hd
      simp only [Prod.mk.injEq] at h3
      rw [← h3.1, hr] at h4
      cases h4
  · rw [hr] at hd
    simp only [Option.bind_eq_bind, Option.bind_eq_some_iff] at hd
    obtain ⟨b1, _, b2, _, h3⟩ := hd
    exact hrr row b2 r2 h3

/-- The text of a field is what was typed into it. -/
theorem session_tidy (hS : Plainly u S) {s : State} {e : Editor} (h : TypingSession u S s e) : Tidy u S s e := by
  induction h with
  | start sh => exact tidy_new sh
  | read h reads hr hlast s' hs ih =>
    obtain ⟨s2, h1, h2, _⟩ := reads_tidy hS ih reads hr hlast
    rw [hs] at h1
    cases h1
    exact h2
  | draw h i area hp hroom ω fuel b b' s' hd ih => rw [draw_keeps hS hp ih hroom hd]; exact ih

/-- **C104**, from the keyboard to the state: whatever is typed, pasted, clicked or pressed, the program that passes on
its key messages to the field does not panic; the text and the cursor of the field are those of a plain editor. -/
theorem C104_typed (hS : Plainly u S) {s : State} {e : Editor} (h : TypingSession u S s e) :
    s.string = String.join (e.before ++ e.after) ∧ s.cursor = e.before.length ∧
    ∀ reads : List (List Gesture), (∀ gs ∈ reads, TypedTogether S gs) →
      (∀ gs, reads.getLast? = some gs → (gs.flatMap Gesture.bytes).length ≠ 256) →
      ∃ s', handleReads u reads s = some s' ∧ s'.showCursor = s.showCursor ∧
        TypingSession u S s' ((reads.flatten.filterMap Gesture.edit).foldl (Editor.step u) e) := by
  have ht := session_tidy hS h
  obtain ⟨b, a, hg, hb, ha, hc, _⟩ := tidy_split ht
  refine ⟨?_, ?_, fun reads hr hlast => ?_⟩
  · unfold State.string graphemesString
    rw [hg, List.map_append, hb, ha]
  · rw [hc, ← hb, List.length_map]
  · obtain ⟨s', h1, _, h3⟩ := reads_tidy hS ht reads hr hlast
    exact ⟨s', h1, h3, .read h reads hr hlast s' h1⟩

/-- **C104**, from the state to the screen: when the field is drawn, its row shows the prompt and the text that was
typed, or the placeholder, at the alignment of the field; the rest of its content area and of the viewport is blank. -/
theorem C104_screen {j : Junk} (ω : Nat → Nat) (fuel : Nat) (hu : u.Lawful) (hs : u.Suffix)
    (hc : T.convert .reset = some .reset) (hS : Plainly u S) (hvis : ∀ s, S s → s.toList.any isControlRune = false)
    {t : Terminal} {sc : Screen} (h : History j u T S t sc true) {s : State} {e : Editor} (hses : TypingSession u S s e)
    {i : InputField.Widget} (hi : i.MadeOf u S (Style.Shown T)) {area : Rect} (hp : Placed i area)
    (hroom : Room u i area e)
    (hin : t.viewportArea.x ≤ area.x ∧ area.x + area.width ≤ t.viewportArea.x + t.viewportArea.width ∧
      t.viewportArea.y ≤ area.y ∧ area.y + area.height ≤ t.viewportArea.y + t.viewportArea.height ∧
      0 ≤ area.width ∧ 0 ≤ area.height)
    (w : Widget) (hw : ∀ b, w t.viewportArea b = (i.render ω fuel u area b s).map fun r => (r.1, none)) :
    Layout.splitWithSpacers ω fuel (lineLayout i.vertical) (content i area) = .running ∨
    ∃ frame t' out, i.render ω fuel u area t.cur s = some (frame, s) ∧ t.draw u T w noFault = some (t', out, true) ∧
      t'.viewportArea = t.viewportArea ∧ History j u T S t' (sc.feed j u out) true ∧
      (∀ q, t.viewportArea.contains q = true → area.contains q = false →
        ∃ pen, (sc.feed j u out).grid q = .glyph " " false pen) ∧
      ∀ q, (content i area).contains q = true → ∃ pen, (sc.feed j u out).grid q = .glyph
        (if q.y = (content i area).y + rowOf i.vertical (content i area).height then
          (i.alignment.shown (content i area).width.toNat (fieldText u i s.showCursor e)
            (q.x - (content i area).x).toNat).getD " "
        else " ") false pen := by
  have hti := session_tidy hS hses
  obtain ⟨_, _, _, _, _, _, hsym⟩ := tidy_split hti
  obtain ⟨ht, _, _⟩ := history_inv (env_of_plainly hu hc hS) h
  have hinb : Inside t.cur area := by unfold Inside; rw [ht.cur.area_eq]; exact hin
  rcases field_drawn ω fuel hu hs hS hvis hi.prompt hi.placeholder hp hti hroom t.cur ht.cur.wf hinb with
    hr | ⟨frame, e1, out1, in1⟩
  · exact .inl hr
  right
  have hdr : Drawing u S (Style.Shown T) fun b => (i.render ω fuel u area b s).map Prod.fst := .input ω fuel hi area hsym
  have hframe : (i.render ω fuel u area t.cur s).map Prod.fst = some frame := by rw [e1]; rfl
  obtain ⟨t', out, h1, h2, h3, h4, _⟩ := C102_screen hu hc hS h hdr ht.cur hframe w (by
    intro b
    rw [hw, Option.map_map]
    rfl)
  obtain ⟨hgood, _⟩ := C102_frame hu hc hS hdr ht.cur hframe
  have hcell : ∀ q, t.viewportArea.contains q = true → ∃ c, frame.cellAt q = some c ∧ frame.symbolAt q = some c.symbol ∧
      t.cur.symbolAt q = some " " := by
    intro q hq
    obtain ⟨c, hcq⟩ := hgood.wf.cellAt_isSome (p := q) (by rw [hgood.area_eq]; exact hq)
    refine ⟨c, hcq, ?_, ?_⟩
    · unfold Buffer.symbolAt
      rw [hcq]
      rfl
    · unfold Buffer.symbolAt
      rw [ht.cur.cells q hq]
      rfl
  refine ⟨frame, t', out, e1, h1, h2, h3, ?_, ?_⟩
  · intro q hq ha
    obtain ⟨c, c1, c2, c3⟩ := hcell q hq
    refine ⟨penOf T c, ?_⟩
    rw [h4 q c c1]
    have := out1 q ha
    rw [c2, c3, Option.some.injEq] at this
    rw [this]
  · intro q hq
    have hqa : area.contains q = true := by
      unfold content at hq
      cases hb : i.block with
      | none => rw [hb] at hq; exact hq
      | some k =>
        rw [hb] at hq
        exact (C42_inner_inside k area hin.2.2.2.2.1 hin.2.2.2.2.2 (hp.padding k hb) q hq).1
    have hqv : t.viewportArea.contains q = true := by
      rw [Rect.contains_iff] at hqa ⊢
      unfold Rect.Mem at *
      omega
    obtain ⟨c, c1, c2, c3⟩ := hcell q hqv
    refine ⟨penOf T c, ?_⟩
    rw [h4 q c c1]
    have := in1 q hq
    rw [c2, c3] at this
    congr 1
    split
    · rename_i hy
      rw [if_pos hy] at this
      cases ho : i.alignment.shown (content i area).width.toNat (fieldText u i s.showCursor e)
          (q.x - (content i area).x).toNat with
      | none => rw [ho] at this; simpa using this
      | some v => rw [ho] at this; simpa using this
    · rename_i hy
      rw [if_neg hy] at this
      simpa using this

/-- "a" is typed, then the left arrow, a click and "b"; then "ab" is pasted: the field holds "baba", with the cursor
before the last "a". The framed field of `boxedInput` has room for it. -/
example : ∃ s : State, TypingSession Uniseg.simple (· ∈ fewSymbols) s ⟨["b", "a", "b"], ["a"]⟩ ∧
    s.string = "baba" ∧ s.cursor = 3 ∧ Placed boxedInput ⟨0, 0, 8, 5⟩ ∧
    Room Uniseg.simple boxedInput ⟨0, 0, 8, 5⟩ ⟨["b", "a", "b"], ["a"]⟩ ∧
    fieldText Uniseg.simple boxedInput s.showCursor ⟨["b", "a", "b"], ["a"]⟩ = [">", "b", "a", "b", "a"] := by
  let reads : List (List Gesture) :=
    [[.char 97, .key [27, 91, 68] ⟨keyLeft, [], false, false⟩, .mouse ⟨3, 4, false, false, false, .press, 1⟩, .char 98],
     [.paste [97, 98]]]
  have hl : Known [27, 91, 68] ⟨keyLeft, [], false, false⟩ := .seq (by decide +kernel)
  have htog : ∀ gs : List Gesture, (∀ g ∈ gs, g ≠ .escape) → Together gs := by
    intro gs hg before after e
    exact absurd rfl (hg .escape (by rw [e]; simp))
  have hr : ∀ gs ∈ reads, TypedTogether (· ∈ fewSymbols) gs := by
    intro gs hgs
    simp only [reads, List.mem_cons, List.not_mem_nil, or_false] at hgs
    rcases hgs with rfl | rfl
    · refine ⟨?_, htog _ (by simp), ?_, ?_⟩
      · simp only [List.mem_cons, List.not_mem_nil, or_false, forall_eq_or_imp, forall_eq, Gesture.Valid, hl, true_and]
        refine ⟨by decide, by decide, ⟨by decide, by decide, by decide⟩, by decide⟩
      · simp only [List.mem_cons, List.not_mem_nil, or_false, forall_eq_or_imp, forall_eq, Gesture.Made]
        exact ⟨by decide, fun _ h => h.elim, trivial, by decide⟩
      · simp only [List.mem_cons, List.not_mem_nil, or_false, forall_eq_or_imp, forall_eq]
        refine ⟨?_, ?_, ?_, ?_⟩ <;> simp [Gesture.edit, keyEdit, keyLeft]
    · refine ⟨?_, htog _ (by simp), ?_, ?_⟩
      · simp only [List.mem_cons, List.not_mem_nil, or_false, forall_eq, Gesture.Valid]
        exact ⟨by rintro r (rfl | rfl) <;> decide, by decide +kernel⟩
      · simp only [List.mem_cons, List.not_mem_nil, or_false, forall_eq, Gesture.Made]
        rintro r (rfl | rfl) <;> decide
      · simp [Gesture.edit]
  obtain ⟨_, _, h3⟩ := C104_typed few_plainly (TypingSession.start (u := Uniseg.simple) (S := (· ∈ fewSymbols)) true)
  obtain ⟨s, _, h1, h2⟩ := h3 reads hr (by decide +kernel)
  have he : (reads.flatten.filterMap Gesture.edit).foldl (Editor.step Uniseg.simple) ⟨[], []⟩ = ⟨["b", "a", "b"], ["a"]⟩ := by
    decide +kernel
  rw [he] at h2
  obtain ⟨g1, g2, _⟩ := C104_typed few_plainly h2
  refine ⟨s, h2, by rw [g1]; decide +kernel, g2, ⟨by decide, by decide, by decide +kernel, ?_, by decide +kernel⟩,
    by unfold Room; decide +kernel, by rw [h1]; decide +kernel⟩
  intro k hk
  cases hk
  decide

end Bento
