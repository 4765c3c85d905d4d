import Verif.Spec.Menu
import Verif.Props.Gestures
import Verif.Props.ListWidget
import Verif.Props.Palette

/-!
# A list, from the keyboard to the screen
-/

namespace Bento

open Input ListWidget

variable {u : Uniseg} {S : String → Prop} {T : Termenv}

namespace ListWidget

/-! ### Keys and moves -/

theorem keyString_congr {k k' : Key} (h : Special k ∨ Typed k) (h' : Special k' ∨ Typed k') :
    keyString k = keyString k' ↔
      k.type = k'.type ∧ k.alt = k'.alt ∧ (k.type = keyRunes → k.runes = k'.runes) := by
  refine ⟨C30_names_partial k k' h h', fun ⟨h1, h2, h3⟩ => ?_⟩
  unfold keyString
  by_cases hr : k.type = keyRunes
  · have p1 : k.paste = false := h.elim (fun h => absurd hr h.1) fun h => h.2.1
    have p2 : k'.paste = false := h'.elim (fun h => absurd (h1 ▸ hr) h.1) fun h => h.2.1
    simp only [h2, h3 hr, if_pos hr, if_pos (h1 ▸ hr : k'.type = keyRunes), p1, p2]
  · have hr' : ¬ k'.type = keyRunes := h1 ▸ hr
    simp only [h2, if_neg hr', h1]

theorem keyMove_of {k : Key} (h : Special k ∨ Typed k) :
    keyMove (keyString k) =
      if k.alt = true then none
      else if k.type = keyRunes then
        (if k.runes = [106] then some .next else if k.runes = [107] then some .previous
          else if k.runes = [103] then some .first else if k.runes = [71] then some .last else none)
      else if k.type = keyDown then some .next else if k.type = keyUp then some .previous
      else if k.type = 4 then some (.down 8) else if k.type = 21 then some (.up 8) else none := by
  have name : ∀ {k' : Key} {s : List Rune}, Special k' ∨ Typed k' → keyString k' = s →
      (keyString k = s ↔ k.type = k'.type ∧ k.alt = k'.alt ∧ (k.type = keyRunes → k.runes = k'.runes)) := by
    rintro k' s h' rfl
    exact keyString_congr h h'
  have n1 := name (k' := ⟨21, [], false, false⟩) (s := "ctrl+u".toList.map Char.toNat)
    (.inl ⟨by decide, by decide +kernel⟩) (by decide +kernel)
  have n2 := name (k' := ⟨4, [], false, false⟩) (s := "ctrl+d".toList.map Char.toNat)
    (.inl ⟨by decide, by decide +kernel⟩) (by decide +kernel)
  have n3 := name (k' := ⟨keyRunes, [71], false, false⟩) (s := "G".toList.map Char.toNat)
    (.inr ⟨rfl, rfl, 71, rfl, by decide⟩) (by decide +kernel)
  have n4 := name (k' := ⟨keyRunes, [103], false, false⟩) (s := "g".toList.map Char.toNat)
    (.inr ⟨rfl, rfl, 103, rfl, by decide⟩) (by decide +kernel)
  have n5 := name (k' := ⟨keyRunes, [106], false, false⟩) (s := "j".toList.map Char.toNat)
    (.inr ⟨rfl, rfl, 106, rfl, by decide⟩) (by decide +kernel)
  have n6 := name (k' := ⟨keyDown, [], false, false⟩) (s := "down".toList.map Char.toNat)
    (.inl ⟨by decide, by decide +kernel⟩) (by decide +kernel)
  have n7 := name (k' := ⟨keyRunes, [107], false, false⟩) (s := "k".toList.map Char.toNat)
    (.inr ⟨rfl, rfl, 107, rfl, by decide⟩) (by decide +kernel)
  have n8 := name (k' := ⟨keyUp, [], false, false⟩) (s := "up".toList.map Char.toNat)
    (.inl ⟨by decide, by decide +kernel⟩) (by decide +kernel)
  unfold keyMove
  simp only [List.findSome?_cons, List.findSome?_nil, n1, n2, n3, n4, n5, n6, n7, n8]
  by_cases ha : k.alt = true
  · simp [ha]
  · have ha' : k.alt = false := by simpa using ha
    simp only [ha', true_and, Bool.false_eq_true, if_false]
    by_cases hr : k.type = keyRunes
    · simp only [hr, keyRunes, keyDown, keyUp, true_and, forall_const]
      by_cases h1 : k.runes = [106]
      · simp [h1]
      by_cases h2 : k.runes = [107]
      · simp [h2]
      by_cases h3 : k.runes = [103]
      · simp [h3]
      by_cases h4 : k.runes = [71]
      · simp [h4]
      simp [h1, h2, h3, h4]
    · simp only [hr, false_implies, and_true, if_false]
      by_cases h1 : k.type = keyDown
      · simp [h1, keyDown]
      by_cases h2 : k.type = keyUp
      · simp [h2, keyDown, keyUp]
      by_cases h3 : k.type = 4
      · simp [h3, keyDown, keyUp]
      by_cases h4 : k.type = 21
      · simp [h4, keyDown, keyUp]
      simp [h1, h2, h3, h4]

theorem known_special {s : List Byte} {k : Key} (h : Known s k) : Special k ∧ k.paste = false := by
  induction h with
  | @seq s k h =>
    have all : ∀ p ∈ sequences, (p.2.type ≠ keyRunes ∧ (keyNames.lookup p.2.type).isSome = true) ∧ p.2.paste = false := by
      decide +kernel
    exact all _ h
  | @control c h _ =>
    have all : ∀ c ∈ List.range 128, (1 ≤ c ∧ c ≤ 31 ∨ c = 127) → (keyNames.lookup (c : Int)).isSome = true := by
      decide +kernel
    refine ⟨⟨?_, all c (by simp; omega) h⟩, rfl⟩
    show (c : Int) ≠ -1
    omega
  | space => exact ⟨⟨by decide, by decide +kernel⟩, rfl⟩
  | alt _ _ ih => exact ih
  | escape => exact ⟨⟨by decide, by decide +kernel⟩, rfl⟩

/-- What the list does with the message of a gesture is what the gesture means. -/
theorem handle_gesture {g : Gesture} (hv : g.Valid) (s : State) :
    handle s g.msg = g.move.elim s fun m => m.run s := by
  have key : ∀ k : Key, (State.update k s).1 = (keyMove (keyString k)).elim s fun m => m.run s := by
    intro k
    rw [C41_keys]
    cases keyMove (keyString k) <;> rfl
  cases g with
  | char r =>
    simp only [Gesture.msg, handle]
    rw [key]
    by_cases h32 : r = 32
    · subst h32
      rw [keyMove_of (.inl ⟨by decide, by decide +kernel⟩)]
      rfl
    · rw [if_neg h32, keyMove_of (.inr ⟨rfl, rfl, r, rfl, h32⟩)]
      simp [Gesture.move]
  | alt r =>
    simp only [Gesture.msg, handle]
    rw [key, keyMove_of (.inr ⟨rfl, rfl, r, rfl, hv.2.1⟩)]
    rfl
  | key b k =>
    simp only [Gesture.msg, handle]
    have hk := (known_special hv.1).1
    rw [key, keyMove_of (.inl hk)]
    simp only [Gesture.move, if_neg hk.1]
  | escape =>
    simp only [Gesture.msg, handle]
    rw [key, keyMove_of (.inl ⟨by decide, by decide +kernel⟩)]
    rfl
  | mouse m => rfl
  | paste t =>
    simp only [Gesture.msg, handle]
    rw [key]
    have hp : ∀ (k : Key), Special k ∨ Typed k → keyString ⟨keyRunes, t, false, true⟩ ≠ keyString k :=
      fun k hk he => C30_paste_partial k ⟨keyRunes, t, false, true⟩ hk rfl rfl rfl he.symm
    have name : ∀ (k : Key) (s : List Rune), Special k ∨ Typed k → keyString k = s →
        keyString ⟨keyRunes, t, false, true⟩ ≠ s := by
      rintro k s hk rfl
      exact hp k hk
    have n1 := name ⟨21, [], false, false⟩ ("ctrl+u".toList.map Char.toNat)
      (.inl ⟨by decide, by decide +kernel⟩) (by decide +kernel)
    have n2 := name ⟨4, [], false, false⟩ ("ctrl+d".toList.map Char.toNat)
      (.inl ⟨by decide, by decide +kernel⟩) (by decide +kernel)
    have n3 := name ⟨keyRunes, [71], false, false⟩ ("G".toList.map Char.toNat)
      (.inr ⟨rfl, rfl, 71, rfl, by decide⟩) (by decide +kernel)
    have n4 := name ⟨keyRunes, [103], false, false⟩ ("g".toList.map Char.toNat)
      (.inr ⟨rfl, rfl, 103, rfl, by decide⟩) (by decide +kernel)
    have n5 := name ⟨keyRunes, [106], false, false⟩ ("j".toList.map Char.toNat)
      (.inr ⟨rfl, rfl, 106, rfl, by decide⟩) (by decide +kernel)
    have n6 := name ⟨keyDown, [], false, false⟩ ("down".toList.map Char.toNat)
      (.inl ⟨by decide, by decide +kernel⟩) (by decide +kernel)
    have n7 := name ⟨keyRunes, [107], false, false⟩ ("k".toList.map Char.toNat)
      (.inr ⟨rfl, rfl, 107, rfl, by decide⟩) (by decide +kernel)
    have n8 := name ⟨keyUp, [], false, false⟩ ("up".toList.map Char.toNat)
      (.inl ⟨by decide, by decide +kernel⟩) (by decide +kernel)
    unfold keyMove
    simp only [List.findSome?_cons, List.findSome?_nil, if_neg n1, if_neg n2, if_neg n3, if_neg n4, if_neg n5,
      if_neg n6, if_neg n7, if_neg n8]
    rfl

/-! ### Messages -/

/-- A message is that of one gesture, or it is no key that the list knows. -/
theorem message_alone {m : Msg} {gs : List Gesture} (hm : m.pieces = gs.map Gesture.msg) (hv : ∀ g ∈ gs, g.Valid)
    (ha : ∀ before r r' after, gs = before ++ .char r :: .char r' :: after → r = 32 ∨ r' = 32) (s : State) :
    (∃ g, gs = [g] ∧ g.msg = m) ∨ gs = [] ∧ handle s m = s := by
  have single : m.pieces = [m] → ∃ g, gs = [g] ∧ g.msg = m := by
    intro h
    rw [h] at hm
    match gs, hm with
    | [g], hm => exact ⟨g, rfl, by simpa using hm.symm⟩
  have typed : ∀ g : Gesture, g.Valid → ∀ r, g.msg = .key ⟨keyRunes, [r], false, false⟩ → g = .char r ∧ r ≠ 32 := by
    intro g hg r h
    cases g with
    | char r' =>
      simp only [Gesture.msg, Msg.key.injEq, Key.mk.injEq, List.cons.injEq, and_true] at h
      obtain ⟨h1, rfl⟩ := h
      refine ⟨rfl, ?_⟩
      rintro rfl
      simp [keySpace, keyRunes] at h1
    | alt r' => simp [Gesture.msg] at h
    | key b k =>
      simp only [Gesture.msg, Msg.key.injEq] at h
      exact absurd (by rw [h]) (known_special hg.1).1.1
    | escape => simp [Gesture.msg] at h
    | mouse m => simp [Gesture.msg] at h
    | paste t => simp [Gesture.msg] at h
  cases m with
  | key k =>
    by_cases hk : k.type = keyRunes ∧ k.alt = false ∧ k.paste = false
    · have hp : (Msg.key k).pieces = k.runes.map fun r => .key ⟨keyRunes, [r], false, false⟩ := by
        simp only [Msg.pieces]
        rw [if_pos hk]
      have hk' : k = ⟨keyRunes, k.runes, false, false⟩ := by
        cases k
        simp_all
      match hr : k.runes with
      | [] =>
        right
        rw [hp, hr] at hm
        refine ⟨by simpa using hm.symm, ?_⟩
        rw [hk', hr]
        simp only [handle, C41_keys]
        have : keyMove (keyString ⟨keyRunes, [], false, false⟩) = none := by decide +kernel
        rw [this]
      | [r] =>
        left
        refine single ?_
        rw [hp, hr]
        rw [hk', hr]
        rfl
      | r :: r' :: rs =>
        exfalso
        rw [hp, hr] at hm
        match gs, hm, hv, ha with
        | [], hm, _, _ => simp at hm
        | [_], hm, _, _ => simp at hm
        | g :: g' :: gs, hm, hv, ha =>
          simp only [List.map_cons, List.cons.injEq] at hm
          obtain ⟨e1, n1⟩ := typed g (hv g (by simp)) r hm.1.symm
          obtain ⟨e2, n2⟩ := typed g' (hv g' (by simp)) r' hm.2.1.symm
          rcases ha [] r r' gs (by rw [e1, e2]; rfl) with h | h
          · exact n1 h
          · exact n2 h
    · left
      refine single ?_
      simp only [Msg.pieces]
      rw [if_neg hk]
  | mouse m => exact .inl (single rfl)
  | _ => exact .inl (single rfl)

/-- Drawing keeps the state within the list. -/
theorem render_offset {l : ListWidget} {area : Rect} {b b' : Buffer} {s s' : State} (hn : l.items ≠ [])
    (ha : (content l area).isEmpty = false) (h : render u l area b s = some (b', s')) : 0 ≤ s'.offset := by
  have hlen : 0 < l.items.length := List.length_pos_of_ne_nil hn
  have key : ∀ (ar : Rect) (b1 : Buffer), ar.isEmpty = false → renderItems u l ar b1 s = some (b', s') →
      0 ≤ s'.offset := by
    intro ar b1 har h
    unfold renderItems at h
    rw [har, if_neg (by simp; omega)] at h
    simp only [Option.bind_eq_bind, Option.bind_eq_some_iff] at h
    obtain ⟨⟨f, l0⟩, -, h⟩ := h
    simp only at h
    split at h
    · simp at h
    · rename_i hf
      simp only [Option.bind_eq_some_iff, Option.some.injEq, Prod.mk.injEq] at h
      obtain ⟨b2, -, -, h⟩ := h
      rw [← h]
      simp only
      omega
  unfold render at h
  unfold content at ha
  simp only [Option.bind_eq_bind, Option.bind_eq_some_iff] at h
  obtain ⟨b1, -, h⟩ := h
  cases hb : l.block with
  | none =>
    rw [hb] at h ha
    exact key area b1 ha h
  | some k =>
    rw [hb] at h ha
    simp only [Option.bind_eq_some_iff] at h
    obtain ⟨b2, -, h⟩ := h
    exact key _ b2 ha h

/-- One gesture, and the list drawn after it. -/
theorem gesture_step {l : ListWidget} (hn : l.items ≠ []) (hmax : l.items.length ≤ 2 ^ 62) {area : Rect}
    {b b' : Buffer} (ha : (content l area).isEmpty = false) {s s' : State} (hs : s.Within l) (m : Option Move)
    (hm : ∀ m' ∈ m, m'.Small) (hd : render u l area b (m.elim s fun m => m.run s) = some (b', s')) :
    s'.Within l ∧ s'.selected = m.elim s.selected fun m => m.target l.items.length s.selected := by
  have ho := render_offset hn ha hd
  cases m with
  | none =>
    have hr := C41_render u l area b b' _ s' hn ha hd
    have hsame : s'.selected = s.selected := by
      rw [hr]
      cases hsel : s.selected with
      | none => simp [hsel]
      | some i =>
        have := hs.selected i hsel
        simp only [Option.elim_none, hsel, Option.map_some, Option.some.injEq]
        omega
    refine ⟨⟨ho, ?_⟩, hsame⟩
    rw [hsame]
    exact hs.selected
  | some m =>
    obtain ⟨h1, h2⟩ := C41_session_partial u l hn hmax [(m, area, b)] s s' (by
      intro st hst
      rw [List.mem_singleton] at hst
      subst hst
      exact ⟨hm m rfl, ha⟩) hs.selected (by
      simp only [session, Option.bind_eq_bind]
      simp only [Option.elim_some] at hd
      rw [hd]
      rfl)
    exact ⟨⟨ho, h2⟩, h1⟩

theorem move_small (g : Gesture) : ∀ m ∈ g.move, m.Small := by
  intro m hm
  cases g with
  | char r =>
    simp only [Gesture.move] at hm
    split_ifs at hm <;> cases hm <;> trivial
  | key b k =>
    simp only [Gesture.move] at hm
    split_ifs at hm <;> cases hm <;> trivial
  | _ => cases hm

theorem handled_all {l : ListWidget} (hn : l.items ≠ []) (hmax : l.items.length ≤ 2 ^ 62) :
    ∀ (ms : List Msg) (gs : List Gesture), ms.flatMap Msg.pieces = gs.map Gesture.msg → (∀ g ∈ gs, g.Valid) →
    (∀ before r r' after, gs = before ++ .char r :: .char r' :: after → r = 32 ∨ r' = 32) →
    ∀ {s s' : State}, s.Within l → Handled u l ms s s' →
    s'.Within l ∧ s'.selected = (gs.filterMap Gesture.move).foldl (fun sel m => m.target l.items.length sel) s.selected
  | [], gs, hm, _, _, s, s', hs, h => by
    have : gs = [] := by simpa using hm.symm
    subst this
    cases h
    exact ⟨hs, rfl⟩
  | m :: ms, gs, hm, hv, ha, s, s', hs, h => by
    rw [List.flatMap_cons] at hm
    obtain ⟨g1, g2, e0, e1, e2⟩ := List.append_eq_map_iff.1 hm
    subst e0
    cases h with
    | @message _ _ _ s1 _ area b b' hne hd h =>
    have hstep : s1.Within l ∧
        s1.selected = (g1.filterMap Gesture.move).foldl (fun sel m => m.target l.items.length sel) s.selected := by
      rcases message_alone e1.symm (fun g hg => hv g (List.mem_append_left _ hg)) (by
        intro before r r' after e
        refine ha before r r' (after ++ g2) ?_
        rw [e]
        simp) s with ⟨g, rfl, hgm⟩ | ⟨rfl, hh⟩
      · rw [← hgm, handle_gesture (hv g (by simp))] at hd
        obtain ⟨a1, a2⟩ := gesture_step hn hmax hne hs g.move (move_small g) hd
        refine ⟨a1, a2.trans ?_⟩
        cases hgv : g.move with
        | none => simp [hgv]
        | some m => simp [hgv]
      · rw [hh] at hd
        obtain ⟨a1, a2⟩ := gesture_step hn hmax hne hs none (fun _ h => by cases h) hd
        exact ⟨a1, a2⟩
    obtain ⟨i1, i2⟩ := handled_all hn hmax ms g2 e2.symm (fun g hg => hv g (List.mem_append_right _ hg)) (by
      intro before r r' after e
      refine ha (g1 ++ before) r r' after ?_
      rw [e]
      simp) hstep.1 h
    refine ⟨i1, ?_⟩
    rw [i2, hstep.2, List.filterMap_append, List.foldl_append]

theorem Handled.append {l : ListWidget} : ∀ {ms ms' : List Msg} {s s' : State}, Handled u l (ms ++ ms') s s' →
    ∃ s1, Handled u l ms s s1 ∧ Handled u l ms' s1 s'
  | [], _, s, _, h => ⟨s, .done s, h⟩
  | _ :: _, _, _, _, h => by
    cases h with
    | message area b b' hne hd h =>
    obtain ⟨s1, h1, h2⟩ := h.append
    exact ⟨s1, .message area b b' hne hd h1, h2⟩

end ListWidget

/-- **C106**, from the bytes to the selection: when somebody moves about in a list and the program draws it after
every message, the selection moves as the keys say, one after the other, within the list; the mouse, pastes and other
keys do not move it. -/
theorem C106_selection {l : ListWidget} (hn : l.items ≠ []) (hmax : l.items.length ≤ 2 ^ 62)
    (reads : List (List Gesture)) (hr : ∀ gs ∈ reads, MenuRead gs) {s s' : State} (hs : s.Within l)
    (h : Handled u l ((readAll [] (reads.map fun gs => gs.flatMap Gesture.bytes)).1.map Prod.snd) s s') :
    s'.Within l ∧ s'.selected =
      (reads.flatten.filterMap Gesture.move).foldl (fun sel m => m.target l.items.length sel) s.selected := by
  induction reads generalizing s with
  | nil =>
    cases h
    exact ⟨hs, rfl⟩
  | cons gs reads ih =>
    have hgs := hr gs List.mem_cons_self
    obtain ⟨held, h1, h2, _, h4⟩ := C103_mixed [gs] (by
      intro gs' hg
      rw [List.mem_singleton] at hg
      subst hg
      exact ⟨hgs.valid, hgs.together⟩)
    obtain rfl := h4 gs rfl hgs.room
    have e1 : readAll [] ([gs].map fun gs => gs.flatMap Gesture.bytes) =
        ((readStep [] (gs.flatMap Gesture.bytes)).1 ++ [], (readStep [] (gs.flatMap Gesture.bytes)).2) := rfl
    rw [e1] at h1 h2
    have e2 : readAll [] ((gs :: reads).map fun gs => gs.flatMap Gesture.bytes) =
        ((readStep [] (gs.flatMap Gesture.bytes)).1 ++
            (readAll (readStep [] (gs.flatMap Gesture.bytes)).2 (reads.map fun gs => gs.flatMap Gesture.bytes)).1,
          (readAll (readStep [] (gs.flatMap Gesture.bytes)).2 (reads.map fun gs => gs.flatMap Gesture.bytes)).2) := rfl
    have h1' : (readStep [] (gs.flatMap Gesture.bytes)).2 = [] := h1
    rw [e2, h1', List.map_append] at h
    obtain ⟨s1, a1, a2⟩ := h.append
    obtain ⟨b1, b2⟩ := handled_all hn hmax _ gs (by
      rw [List.flatMap_map]
      simpa using h2) hgs.valid hgs.alone hs a1
    obtain ⟨c1, c2⟩ := ih (fun g hg => hr g (List.mem_cons_of_mem _ hg)) b1 a2
    refine ⟨c1, ?_⟩
    rw [c2, b2, List.flatten_cons, List.filterMap_append, List.foldl_append]

/-- **C106**, from the selection to the screen: when the list is drawn, each of the items that are shown stands in its
rows, with the highlight symbol if it is the selected one; the selected item is among them if it fits; the rest of the
area for the items and the viewport around the list is blank. -/
theorem C106_screen {j : Junk} (hu : u.Lawful) (hs : u.Suffix) (hsp : Blanks u) (hc : T.convert .reset = some .reset)
    (hS : Plainly u S) (hvis : ∀ s, S s → s.toList.any isControlRune = false)
    {t : Terminal} {sc : Screen} (h : History j u T S t sc true) {l : ListWidget} (hl : l.MadeOf u S (Style.Shown T))
    (hn : l.items ≠ []) (hp : 0 ≤ l.scrollPadding) {s : State} (hst : s.Within l) {area : Rect} (hx : 0 ≤ area.x)
    (hpad : ∀ k ∈ l.block, 0 ≤ k.padding.left ∧ 0 ≤ k.padding.right ∧ 0 ≤ k.padding.top ∧ 0 ≤ k.padding.bottom)
    (hw : 0 < (content l area).width) (hh : 0 < (content l area).height)
    (hin : t.viewportArea.x ≤ area.x ∧ area.x + area.width ≤ t.viewportArea.x + t.viewportArea.width ∧
      t.viewportArea.y ≤ area.y ∧ area.y + area.height ≤ t.viewportArea.y + t.viewportArea.height ∧
      0 ≤ area.width ∧ 0 ≤ area.height)
    (w : Widget) (hwd : ∀ b, w t.viewportArea b = (render u l area b s).map fun r => (r.1, none)) :
    ∃ (f n : Nat) (frame : Buffer) (t' : Terminal) (out : List Char),
      render u l area t.cur s = some (frame, ⟨f, s.selected⟩) ∧ t.draw u T w noFault = some (t', out, true) ∧
      t'.viewportArea = t.viewportArea ∧ History j u T S t' (sc.feed j u out) true ∧
      State.Within l ⟨f, s.selected⟩ ∧
      (∀ i : Nat, s.selected = some (i : Int) → (∀ x, l.items[i]? = some x → (x.lines.length : Int) ≤ (content l area).height) →
        f ≤ i ∧ i < f + n) ∧
      (∀ q, t.viewportArea.contains q = true → area.contains q = false →
        ∃ pen, (sc.feed j u out).grid q = .glyph " " false pen) ∧
      (∀ q, (content l area).contains q = true → (∀ (k : Nat) (x : Text), ((l.items.drop f).take n)[k]? = some x →
          (rowsOf l (content l area) ((l.items.drop f).take n) k x).contains q = false) →
        ∃ pen, (sc.feed j u out).grid q = .glyph " " false pen) ∧
      (∀ (k : Nat) (x : Text), ((l.items.drop f).take n)[k]? = some x → ∀ q,
        (rowsOf l (content l area) ((l.items.drop f).take n) k x).contains q = true →
        ∃ pen, (sc.feed j u out).grid q = .glyph
          ((shownSymbol u l (l.highlightSpacing.shouldAdd s.selected.isSome) (s.selected == some ((f + k : Nat) : Int))
            (content l area).width.toNat x
            (q.y - (rowsOf l (content l area) ((l.items.drop f).take n) k x).y).toNat
            (q.x - (content l area).x).toNat).getD " ") false pen) := by
  obtain ⟨ht, _, _⟩ := history_inv (env_of_plainly hu hc hS) h
  have hinb : Inside t.cur area := by unfold Inside; rw [ht.cur.area_eq]; exact hin
  have hvt : ∀ x ∈ l.items, ∀ line ∈ x.lines, line.VisibleText u := by
    intro x hx' line hline sp hsp' c hc'
    have hSc := (((hl.items x hx').lines line hline).spans sp hsp').text c hc'
    have := hS.column c hSc
    exact ⟨by omega, harmless_of_any (hvis c hSc)⟩
  obtain ⟨f, n, frame, sel, hsel, hb, hr, _, _, hout, hrest, hrows⟩ := C72_list_partial hu hs hsp l
    (fun c hc' => hS.column c (hl.symbol c hc')) hn hvt hp area hx hpad hw hh t.cur ht.cur.wf hinb s
    ⟨hst.offset, fun i hi => (hst.selected i hi).1⟩
  have hsel' : sel = s.selected := by
    rw [hsel]
    cases hss : s.selected with
    | none => rfl
    | some i =>
      have := hst.selected i hss
      simp only [Option.map_some, Option.some.injEq]
      omega
  subst hsel'
  have hdr : Drawing u S (Style.Shown T) fun b => (render u l area b s).map Prod.fst := .list hl area s
  have hframe : (render u l area t.cur s).map Prod.fst = some frame := by rw [hr]; rfl
  obtain ⟨t', out, h1, h2, h3, h4, _⟩ := C102_screen hu hc hS h hdr ht.cur hframe w (by
    intro b
    rw [hwd, Option.map_map]
    rfl)
  obtain ⟨hgood, _⟩ := C102_frame hu hc hS hdr ht.cur hframe
  have hcell : ∀ q, t.viewportArea.contains q = true → ∃ c, frame.cellAt q = some c ∧ frame.symbolAt q = some c.symbol ∧
      t.cur.symbolAt q = some " " ∧ t.cur.cellAt q = some Cell.empty := by
    intro q hq
    obtain ⟨c, hcq⟩ := hgood.wf.cellAt_isSome (p := q) (by rw [hgood.area_eq]; exact hq)
    refine ⟨c, hcq, ?_, ?_, ht.cur.cells q hq⟩
    · unfold Buffer.symbolAt
      rw [hcq]
      rfl
    · unfold Buffer.symbolAt
      rw [ht.cur.cells q hq]
      rfl
  have hview : ∀ q, (content l area).contains q = true → t.viewportArea.contains q = true := by
    intro q hq
    have hqa : area.contains q = true := by
      unfold content at hq
      cases hb : l.block with
      | none => rw [hb] at hq; exact hq
      | some k =>
        rw [hb] at hq
        exact (C42_inner_inside k area hin.2.2.2.2.1 hin.2.2.2.2.2 (hpad k hb) q hq).1
    rw [Rect.contains_iff] at hqa ⊢
    unfold Rect.Mem at *
    omega
  refine ⟨f, n, frame, t', out, hr, h1, h2, h3, ⟨by simp, hst.selected⟩, ?_, ?_, ?_, ?_⟩
  · intro i hi hfit
    have hlt : i < l.items.length := by
      have := (hst.selected _ hi).2
      omega
    obtain ⟨f', l', e1, e2, e3⟩ := C40_selected_visible (l.items.map fun x => x.lines.length) l.scrollPadding
      (content l area).height s.offset i (by simpa using hlt) hp (by omega) hst.offset 0 (by omega) (by
        have hx' := hfit _ (List.getElem?_eq_getElem hlt)
        simp only [heightOf, List.length_map, Nat.sub_zero, Nat.add_zero]
        rw [show min l.items.length (i + 1) = i + 1 by omega, List.take_add_one, List.drop_append]
        simp only [List.length_take, List.length_map, show i - min i l.items.length = 0 by omega, List.drop_zero]
        rw [List.drop_eq_nil_of_le (by simp)]
        simp only [List.getElem?_map, List.getElem?_eq_getElem hlt, List.nil_append, Option.map_some,
          Option.toList_some, List.sum_cons, List.sum_nil, Nat.add_zero]
        exact hx')
    rw [← hi, hb, Option.some.injEq, Prod.mk.injEq] at e1
    simp only [List.length_map, Nat.sub_zero, Nat.add_zero] at e2 e3
    omega
  · intro q hq ha
    obtain ⟨c, c1, c2, _, c3⟩ := hcell q hq
    refine ⟨penOf T c, ?_⟩
    rw [h4 q c c1]
    have := hout q ha
    rw [c1, c3, Option.some.injEq] at this
    rw [this]
    rfl
  · intro q hq ha
    obtain ⟨c, c1, c2, _, c3⟩ := hcell q (hview q hq)
    refine ⟨penOf T c, ?_⟩
    rw [h4 q c c1]
    have := hrest q hq ha
    rw [c1, c3, Option.map_some, Option.some.injEq] at this
    rw [this]
    cases l.block <;> rfl
  · intro k x hx' q hq
    obtain ⟨r1, r2, _⟩ := hrows k x hx' q hq
    obtain ⟨c, c1, c2, c3, _⟩ := hcell q (hview q r1)
    refine ⟨penOf T c, ?_⟩
    rw [h4 q c c1]
    rw [c2, c3] at r2
    congr 1
    generalize ho : shownSymbol u l _ _ _ x _ _ = o
    have r2' : some c.symbol = o.or (some " ") := by
      rw [← ho]
      exact r2
    cases o with
    | none => simpa using r2'
    | some v => simpa using r2'

/-- Letters that arrive in one read are one message, and the list does not know its name: of two quick steps down,
none is made. -/
theorem C106_letters_false :
    (∀ s : State, ((readAll [] [[.char 106, .char 106].flatMap Gesture.bytes]).1.map Prod.snd).foldl handle s = s) ∧
    [Gesture.char 106, .char 106].filterMap Gesture.move = [.next, .next] := by
  refine ⟨fun s => ?_, by decide +kernel⟩
  have : (readAll [] [[.char 106, .char 106].flatMap Gesture.bytes]).1.map Prod.snd =
      [.key ⟨keyRunes, [106, 106], false, false⟩] := by decide +kernel
  rw [this]
  simp only [List.foldl_cons, List.foldl_nil, handle, C41_keys]
  have : keyMove (keyString ⟨keyRunes, [106, 106], false, false⟩) = none := by decide +kernel
  rw [this]

/-- And the letters of the word "up" that arrive in one read are taken for the arrow key. -/
theorem C106_word_false :
    ((readAll [] [[.char 117, .char 112].flatMap Gesture.bytes]).1.map Prod.snd).foldl handle ⟨0, some 2⟩ =
      ⟨0, some 1⟩ ∧ [Gesture.char 117, .char 112].filterMap Gesture.move = [] := by
  decide +kernel

/-- The symbols of `sampleList`. -/
def listSymbols : List String := [" ", "a", "b", "c", "d", "e", "f", ">"]

theorem listSymbols_plainly : Plainly Uniseg.simple (· ∈ listSymbols) where
  space := by decide
  column := by decide
  single := by decide
  printable := by unfold Printable; decide
  apart := simple_separable _

/-- Two steps down in reads of their own, then the last item, a click, a step up and a paste in one read: the second
of the three items is selected in the end. -/
example : ∃ (reads : List (List Gesture)) (s : State), (∀ gs ∈ reads, MenuRead gs) ∧
    Handled Uniseg.simple sampleList
      ((readAll [] (reads.map fun gs => gs.flatMap Gesture.bytes)).1.map Prod.snd) State.new s ∧
    State.new.Within sampleList ∧ s.selected = some 1 ∧ reads.flatten.length = 7 := by
  let reads : List (List Gesture) := [[.char 106], [.char 106],
    [.char 71, .mouse ⟨3, 4, false, false, false, .press, 1⟩, .key [27, 91, 65] ⟨keyUp, [], false, false⟩,
      .paste [106], .escape]]
  have hup : Known [27, 91, 65] ⟨keyUp, [], false, false⟩ := .seq (by decide +kernel)
  have hr : ∀ gs ∈ reads, MenuRead gs := by
    have one : ∀ r : Rune, Input.Printable r → (encodeRune r).length ≠ 256 → MenuRead [.char r] := by
      intro r h1 h2
      refine ⟨by simpa [Gesture.Valid] using h1, ?_, by simpa [Gesture.bytes] using h2, ?_⟩
      · intro before after e
        match before, e with
        | [], e => simp at e
        | _ :: before, e => simp at e
      · intro before r r' after e
        match before, e with
        | [], e => simp at e
        | [_], e => simp at e
        | _ :: _ :: before, e => simp at e
    intro gs hgs
    simp only [reads, List.mem_cons, List.not_mem_nil, or_false] at hgs
    rcases hgs with rfl | rfl | rfl
    · exact one 106 (by decide) (by decide)
    · exact one 106 (by decide) (by decide)
    · refine ⟨?_, ?_, by decide +kernel, ?_⟩
      · simp only [List.mem_cons, List.not_mem_nil, or_false, forall_eq_or_imp, forall_eq, Gesture.Valid, hup, true_and]
        refine ⟨by decide, ⟨by decide, by decide, by decide⟩, by decide, ⟨by decide, by decide +kernel⟩, trivial⟩
      · intro before after e
        refine ⟨?_, by decide +kernel⟩
        match before, e with
        | [], e => simp at e
        | [_], e => simp at e
        | [_, _], e => simp at e
        | [_, _, _], e => simp at e
        | [_, _, _, _], e => simp only [List.cons_append, List.cons.injEq, List.nil_append] at e; exact e.2.2.2.2.2.symm
        | _ :: _ :: _ :: _ :: _ :: before, e => simp at e
      · intro before r r' after e
        match before, e with
        | [], e => simp at e
        | [_], e => simp at e
        | [_, _], e => simp at e
        | [_, _, _], e => simp at e
        | [_, _, _, _], e => simp at e
        | _ :: _ :: _ :: _ :: _ :: before, e => simp at e
  have hms : (readAll [] (reads.map fun gs => gs.flatMap Gesture.bytes)).1.map Prod.snd =
      [.key ⟨keyRunes, [106], false, false⟩, .key ⟨keyRunes, [106], false, false⟩, .key ⟨keyRunes, [71], false, false⟩,
        .mouse ⟨3, 4, false, false, false, .press, 1⟩, .key ⟨keyUp, [], false, false⟩,
        .key ⟨keyRunes, [106], false, true⟩, .key ⟨27, [], false, false⟩] := by decide +kernel
  have hd : ∀ (s s' : State), (render Uniseg.simple sampleList ⟨0, 0, 4, 3⟩
      ⟨⟨0, 0, 4, 3⟩, List.replicate 12 Cell.empty⟩ s).map Prod.snd = some s' →
      ∃ b', render Uniseg.simple sampleList ⟨0, 0, 4, 3⟩ ⟨⟨0, 0, 4, 3⟩, List.replicate 12 Cell.empty⟩ s = some (b', s') := by
    intro s s' h
    obtain ⟨⟨b', s1⟩, h1, h2⟩ := Option.map_eq_some_iff.1 h
    cases h2
    exact ⟨b', h1⟩
  have step : ∀ {m ms} {s s' s'' : State}, (render Uniseg.simple sampleList ⟨0, 0, 4, 3⟩
      ⟨⟨0, 0, 4, 3⟩, List.replicate 12 Cell.empty⟩ (handle s m)).map Prod.snd = some s' →
      Handled Uniseg.simple sampleList ms s' s'' → Handled Uniseg.simple sampleList (m :: ms) s s'' := by
    intro m ms s s' s'' h1 h2
    obtain ⟨b', hb⟩ := hd _ _ h1
    exact .message _ _ b' (by decide) hb h2
  have hh : Handled Uniseg.simple sampleList
      ((readAll [] (reads.map fun gs => gs.flatMap Gesture.bytes)).1.map Prod.snd) State.new ⟨1, some 1⟩ := by
    rw [hms]
    exact step (s' := ⟨0, some 0⟩) (by decide +kernel) (step (s' := ⟨0, some 1⟩) (by decide +kernel)
      (step (s' := ⟨1, some 2⟩) (by decide +kernel) (step (s' := ⟨1, some 2⟩) (by decide +kernel)
        (step (s' := ⟨1, some 1⟩) (by decide +kernel) (step (s' := ⟨1, some 1⟩) (by decide +kernel)
          (step (s' := ⟨1, some 1⟩) (by decide +kernel) (.done _)))))))
  have hw : State.new.Within sampleList := ⟨by decide, fun _ h => (by cases h)⟩
  refine ⟨reads, ⟨1, some 1⟩, hr, hh, hw, ?_, rfl⟩
  have := (C106_selection (by decide) (by decide) reads hr hw hh).2
  rw [this]
  decide +kernel

/-- The hypotheses about the list are met by `sampleList`, drawn to an area of four columns and three rows. -/
example : sampleList.MadeOf Uniseg.simple (· ∈ listSymbols) (Style.Shown simpleEnv) ∧ sampleList.items ≠ [] ∧
    State.Within sampleList ⟨1, some 1⟩ ∧ 0 < (content sampleList ⟨0, 0, 4, 3⟩).width := by
  have hnew : Style.Shown simpleEnv Style.new :=
    ⟨by simp [Style.new], by simp [Style.new], by simp [Style.new, Modifier.none]⟩
  have item : ∀ (a : Alignment) (ls : List String), (∀ v ∈ ls, Uniseg.simple.MadeOf (· ∈ listSymbols) v) →
      (sampleItem a ls).MadeOf Uniseg.simple (· ∈ listSymbols) (Style.Shown simpleEnv) := by
    intro a ls h
    refine ⟨hnew, fun l hl => ?_⟩
    obtain ⟨v, hv, rfl⟩ := List.mem_map.1 hl
    refine ⟨hnew, fun sp hsp => ?_⟩
    rw [List.mem_singleton] at hsp
    subst hsp
    exact ⟨hnew, h v hv⟩
  refine ⟨⟨hnew, hnew, by unfold Uniseg.MadeOf; decide, ?_, fun k hk => (by cases hk)⟩, by decide,
    ⟨by decide, fun i hi => ?_⟩, by decide⟩
  · intro x hx
    simp only [sampleList, List.mem_cons, List.not_mem_nil, or_false] at hx
    rcases hx with rfl | rfl | rfl <;> refine item _ _ ?_ <;> unfold Uniseg.MadeOf <;> decide
  · cases hi
    decide

end Bento
