import Verif.Lemmas.ListExample
import Verif.Props.InputExample

/-!
# C124: the example program with a list
-/

namespace Bento

open Input ListWidget ListExample

variable {u : Uniseg} {S : String → Prop} {T : Termenv}

theorem ListExample.moved {s : ListWidget.State} (mv : Move) (hs : mv.Small) (hr : ∀ i ∈ s.selected, 0 ≤ i ∧ i < 100) :
    drawnSelection list (mv.run s) = mv.target 100 s.selected ∧ (mv.run s).Good ∧
      (∀ i ∈ mv.target 100 s.selected, 0 ≤ i ∧ i < 100) ∨ s.offset < 0 := by
  by_cases ho : s.offset < 0
  · exact .inr ho
  left
  have hlen : (list.items.length : Int) = 100 := by
    have : list.items = items := rfl
    rw [this, items_length]; rfl
  have hM : Buffer.maxInt = 9223372036854775807 := rfl
  unfold drawnSelection State.Good
  rw [hlen]
  cases hsel : s.selected with
  | none =>
    cases mv <;> simp only [Move.run, Move.target, State.selectNext, State.selectPrevious, State.selectFirst,
      State.selectLast, State.scrollDownBy, State.scrollUpBy, State.select, State.unselect, hsel, Option.mem_def,
      Option.map_some, Option.map_none, Option.getD_none, Option.some.injEq, Move.Small, forall_eq', reduceCtorEq,
      false_implies, implies_true, and_true, true_and] at hs ⊢
    any_goals omega
    all_goals rw [wrap64_id (by omega) (by omega)]; omega
  | some i =>
    have := hr i hsel
    cases mv <;> simp only [Move.run, Move.target, State.selectNext, State.selectPrevious, State.selectFirst,
      State.selectLast, State.scrollDownBy, State.scrollUpBy, State.select, State.unselect, hsel, Option.mem_def,
      Option.map_some, Option.map_none, Option.getD_some, Option.some.injEq, Move.Small, forall_eq', reduceCtorEq,
      false_implies, implies_true, and_true, true_and] at hs ⊢
    any_goals omega
    all_goals rw [wrap64_id (by omega) (by omega)]; omega

theorem ListExample.keyMove_small {name : List Nat} {mv : Move} (h : keyMove name = some mv) : mv.Small ∧ mv ≠ .unselect := by
  unfold keyMove at h
  simp only [List.findSome?_cons, List.findSome?_nil] at h
  split_ifs at h <;> simp only [Option.some.injEq, reduceCtorEq] at h <;> subst h <;>
    (refine ⟨?_, by simp⟩; unfold Move.Small; first | trivial | decide)

theorem ListExample.moved_offset {mv : Move} (h : mv ≠ .unselect) (s : ListWidget.State) : (mv.run s).offset = s.offset := by
  cases mv <;> first | rfl | exact absurd rfl h

/-- A state after drawing. -/
structure ListExample.Settled (m : ListExample.Model) (e : Ideal) : Prop where
  selected : m.list.selected = e.selected
  range : ∀ i ∈ e.selected, 0 ≤ i ∧ i < 100
  offset : m.list.offset = e.top
  top : e.top < 100
  popup : m.popup = e.popup

theorem ListExample.Settled.agrees {m : ListExample.Model} {e : Ideal} (h : Settled m e) : Agrees m e := by
  obtain ⟨h1, h2, h3, h4, h5⟩ := h
  have hlen : (list.items.length : Int) = 100 := by
    have : list.items = items := rfl
    rw [this, items_length]; rfl
  refine ⟨?_, ⟨by omega, fun i hi => (h2 i (by rw [← h1]; exact hi)).1⟩, h2, h3, h4, h5⟩
  unfold drawnSelection
  rw [h1, hlen]
  cases he : e.selected with
  | none => rfl
  | some i =>
    have := h2 i he
    simp only [Option.map_some, Option.some.injEq]
    omega

/-- What a key means. -/
theorem ListExample.Settled.after {m : ListExample.Model} {e : Ideal} (h : Settled m e) (msg : Option Msg) :
    Agrees (ListExample.after m msg) (e.after msg) := by
  cases msg with
  | none => exact h.agrees
  | some g =>
    cases g with
    | key k =>
      obtain ⟨h1, h2, h3, h4, h5⟩ := id h
      show Agrees (update m (.user (.key k))).1 (e.handle (.key k))
      unfold ListExample.update Ideal.handle
      simp only [C41_keys]
      cases hk : keyMove (keyString k) with
      | some mv =>
        simp only [if_true]
        obtain ⟨hs, hne⟩ := ListExample.keyMove_small hk
        rcases ListExample.moved (s := m.list) mv hs (by rw [h1]; exact h2) with ⟨k1, k2, k3⟩ | k
        · rw [h1] at k1 k3
          exact ⟨k1, k2, k3, (ListExample.moved_offset hne _).trans h3, h4, h5⟩
        · omega
      | none =>
        simp only [Bool.false_eq_true, if_false]
        have hsp : Lazygit.named k " " = true ↔ keyString k = [32] := by
          unfold Lazygit.named
          rw [decide_eq_true_eq]
          exact Iff.rfl
        have hag := h.agrees
        by_cases hspace : keyString k = [32]
        · rw [if_pos (hsp.2 hspace), if_pos hspace]
          exact ⟨hag.selected, hag.good, hag.range, hag.offset, hag.top, by simp only [h5]⟩
        · rw [if_neg (fun h => hspace (hsp.1 h)), if_neg hspace]
          split_ifs <;> exact hag
    | _ => exact h.agrees

/-- The state that drawing leaves. -/
theorem ListExample.render_state {ω : Nat → Nat → Nat} {fuel : Nat} {m m' : ListExample.Model} {e : Ideal} (h : Agrees m e)
    {area : Rect} (hroom : Roomy area) {b b' : Buffer} (hd : ListExample.render ω fuel u m area b = some (b', m')) :
    m' = ⟨⟨(e.draw area).top, e.selected⟩, e.popup⟩ := by
  obtain ⟨h1, h2, h3, h4, h5, h6⟩ := h
  obtain ⟨hx, hy, hrows, hcols⟩ := hroom
  unfold ListExample.render at hd
  simp only [Option.bind_eq_bind, Option.bind_eq_some_iff] at hd
  obtain ⟨⟨b1, s⟩, e1, hd⟩ := hd
  have hm : m' = { m with list := s } := by
    simp only at hd
    split_ifs at hd
    · cases hp : popup.render (ω 0) (ω 1) fuel u area b1 with
      | ok b2 =>
        rw [hp] at hd
        simp only at hd
        cases hi : popup.inner (ω 2) (ω 3) fuel area with
        | ok inner =>
          rw [hi] at hd
          simp only [Option.map_eq_some_iff, Prod.mk.injEq] at hd
          obtain ⟨_, _, _, rfl⟩ := hd
          rfl
        | panics => rw [hi] at hd; cases hd
        | running => rw [hi] at hd; cases hd
      | panics => rw [hp] at hd; cases hd
      | running => rw [hp] at hd; cases hd
    · cases hd
      rfl
  rw [hm, h6]
  congr 1
  -- the list
  have hlen : list.items.length = 100 := items_length
  have hinner := frame_inner area (by omega) (by omega)
  obtain ⟨b2, e2⟩ : ∃ b2, renderItems u list (block.inner area) b2 m.list = some (b1, s) := by
    unfold ListWidget.render at e1
    have hb : list.block = some block := rfl
    rw [hb] at e1
    simp only [Option.bind_eq_bind, Option.bind_eq_some_iff] at e1
    obtain ⟨_, -, b2, -, h⟩ := e1
    exact ⟨b2, h⟩
  have hmap : list.items.map itemHeight = List.replicate 100 2 := by
    rw [List.eq_replicate_iff]
    refine ⟨by rw [List.length_map]; exact items_length, fun x hx => ?_⟩
    obtain ⟨t, ht, rfl⟩ := List.mem_map.1 hx
    exact item_lines ht
  have hselN : e.selected = (e.selected.map Int.toNat).map Int.ofNat := by
    cases he : e.selected with
    | none => rfl
    | some i =>
      have := h3 i he
      simp only [Option.map_some, Option.some.injEq]
      show i = ((i.toNat : Nat) : Int)
      omega
  have hwin := C123_window 100 2 e.top (e.selected.map Int.toNat) (block.inner area).height (by decide) (by decide)
    (by rw [hinner]; simp only; omega) (by
      intro i hi
      simp only [Option.mem_def, Option.map_eq_some_iff] at hi
      obtain ⟨j, hj, rfl⟩ := hi
      have := h3 j hj
      omega)
  rw [← hselN, ← hmap, show min e.top (100 - 1) = e.top by omega] at hwin
  have hshown : (block.inner area).height.toNat / 2 = shownItems area := by rw [hinner]; rfl
  have hd' : (e.draw area).top = scrolled (shownItems area) e.top (e.selected.map Int.toNat) := by
    unfold Ideal.draw
    cases e.selected <;> rfl
  rw [hshown, ← hd'] at hwin
  have hclamp : clampSelection list.items.length m.list = (⟨m.list.offset, e.selected⟩ : State) := by
    rw [← h1]
    unfold clampSelection drawnSelection
    obtain ⟨o, sel⟩ := m.list
    cases sel with
    | none => rfl
    | some i =>
      simp only [Option.map_some]
      split_ifs with hi
      · unfold State.select
        simp only [State.mk.injEq, Option.some.injEq, true_and]
        omega
      · simp only [State.mk.injEq, Option.some.injEq, true_and]
        omega
  unfold renderItems at e2
  have hempty : (block.inner area).isEmpty = false := by rw [hinner]; simp [Rect.isEmpty]; omega
  have hpad : list.scrollPadding = 0 := rfl
  rw [hempty, if_neg (by rw [hlen]; simp)] at e2
  simp only [hclamp, h4, hpad, hwin, Option.bind_eq_bind, Option.bind_some] at e2
  split_ifs at e2
  simp only [Option.bind_eq_some_iff] at e2
  obtain ⟨b3, -, e3⟩ := e2
  simp only [Option.some.injEq, Prod.mk.injEq] at e3
  exact e3.2.symm

theorem ListExample.draw_settled {m : ListExample.Model} {e : Ideal} (h : Agrees m e) (area : Rect) (hroom : Roomy area) :
    Settled ⟨⟨(e.draw area).top, e.selected⟩, e.popup⟩ (e.draw area) := by
  obtain ⟨h1, h2, h3, h4, h5, h6⟩ := h
  refine ⟨rfl, h3, rfl, ?_, rfl⟩
  obtain ⟨hx, hy, hrows, hcols⟩ := hroom
  have hn : 1 ≤ shownItems area := by unfold shownItems; omega
  unfold Ideal.draw
  cases he : e.selected with
  | none => simpa [he] using h5
  | some i =>
    have := h3 i he
    simp only [he]
    omega

/-- **C124**, the keyboard: after every frame the model holds the selection and the first item that the keys lead to, and the
selection is one of the hundred items. -/
theorem C124_state {m : ListExample.Model} {e : Ideal} (h : Session u m e) :
    m.list.selected = e.selected ∧ m.list.offset = e.top ∧ m.popup = e.popup ∧ e.top < 100 ∧
    ∀ i ∈ e.selected, 0 ≤ i ∧ i < 100 := by
  suffices h : Settled m e from ⟨h.selected, h.offset, h.popup, h.top, h.range⟩
  induction h with
  | start => exact ⟨rfl, fun i hi => (by cases hi), rfl, by decide, rfl⟩
  | @frame m e _ msg area hroom ω fuel b b' m' hd ih =>
    have hag := ih.after msg
    rw [render_state hag hroom hd]
    exact draw_settled hag area hroom

theorem ListExample.session_settled {m : ListExample.Model} {e : Ideal} (h : Session u m e) : Settled m e := by
  obtain ⟨h1, h2, h3, h4, h5⟩ := C124_state h
  exact ⟨h1, h5, h2, h4, h3⟩

/-- **C124**, the picture: after a message, or after none, the program draws the list from the first item that keeps the
selected one on the screen, with the selected one highlighted, and the popup above it if it was asked for. Nothing outside of
the area changes, and the session goes on. -/
theorem C124_frame (ω : Nat → Nat → Nat) (fuel : Nat) (hu : u.Lawful) (hs : u.Suffix) (hS : Plainly u S)
    (hsym : ∀ s, Symbols s → S s) {m : ListExample.Model} {e : Ideal} (h : Session u m e) (msg : Option Msg) (area : Rect)
    (hroom : Roomy area) (b : Buffer) (wf : b.WF) (hin : Inside b area)
    (hblank : ∀ q, area.contains q = true → b.cellAt q = some Cell.empty) :
    ((e.after msg).popup = true ∧ Running ω fuel area) ∨
    ∃ b' m', ListExample.render ω fuel u (ListExample.after m msg) area b = some (b', m') ∧
      Session u m' ((e.after msg).draw area) ∧ b'.WF ∧ b'.area = b.area ∧
      ∀ q, b'.cellAt q = if area.contains q = true then some (pictureCell ((e.after msg).draw area) area q)
        else b.cellAt q := by
  have hA : Plainly u Lazygit.Ascii := Lazygit.plainly_ascii hS fun s hs => hsym s (.inl hs)
  have hag := (session_settled h).after msg
  rcases ListExample.frame_cells ω fuel hu hs hA hag area hroom b wf hin hblank with hr | ⟨b', e1, wf', a', c'⟩
  · exact .inl hr
  · exact .inr ⟨b', _, e1, .frame h msg area hroom ω fuel b b' _ e1, wf', a', c'⟩

/-- **C124**, the end: the program gives the command to quit exactly at the keys named `q` and `ctrl+c`, and no other
command. -/
theorem C124_quits (m : ListExample.Model) (g : App.Msg Msg) :
    ∃ m' c, ListExample.program.update m g = some (m', c) ∧
      (c = none ∨ c = some Lazygit.quitCmd) ∧
      (c ≠ none ↔ ∃ k, g = .user (.key k) ∧
        (keyString k = "q".toList.map Char.toNat ∨ keyString k = "ctrl+c".toList.map Char.toNat)) ∧
      (c ≠ none → m' = m) ∧ ∀ n, ListExample.program.call Lazygit.quitCmd n = .returns (some .quit) := by
  refine ⟨(ListExample.update m g).1, (ListExample.update m g).2, rfl, ?_⟩
  by_cases hk : ∃ k, g = .user (.key k)
  · obtain ⟨k, rfl⟩ := hk
    have hex : (∃ k', (App.Msg.user (.key k) : App.Msg Msg) = .user (.key k') ∧
        (keyString k' = "q".toList.map Char.toNat ∨ keyString k' = "ctrl+c".toList.map Char.toNat)) ↔
        (keyString k = "q".toList.map Char.toNat ∨ keyString k = "ctrl+c".toList.map Char.toNat) := by
      constructor
      · rintro ⟨k', e, h⟩
        cases e
        exact h
      · exact fun h => ⟨k, rfl, h⟩
    rw [hex]
    unfold ListExample.update
    simp only [C41_keys, Lazygit.named, Bool.or_eq_true, decide_eq_true_eq]
    generalize keyString k = name
    by_cases hq : name = "q".toList.map Char.toNat
    · subst hq
      rw [show keyMove ("q".toList.map Char.toNat) = none by decide]
      simp only [Bool.false_eq_true, if_false, true_or, if_true]
      rw [if_neg (by decide)]
      exact ⟨.inr rfl, by simp, fun _ => rfl, fun n => rfl⟩
    by_cases hc : name = "ctrl+c".toList.map Char.toNat
    · subst hc
      rw [show keyMove ("ctrl+c".toList.map Char.toNat) = none by decide]
      simp only [Bool.false_eq_true, if_false, or_true, if_true]
      rw [if_neg (by decide)]
      exact ⟨.inr rfl, by simp, fun _ => rfl, fun n => rfl⟩
    · cases keyMove name with
      | some mv =>
        simp only [if_true]
        exact ⟨.inl trivial, ⟨fun h => absurd rfl h, fun h => h.elim (absurd · hq) (absurd · hc)⟩, fun h => absurd rfl h, fun n => rfl⟩
      | none =>
        simp only [Bool.false_eq_true, if_false, hq, hc, or_self]
        split_ifs <;> exact ⟨.inl rfl, by simp, fun h => absurd rfl h, fun n => rfl⟩
  · have hn : ListExample.update m g = (m, none) := by
      unfold ListExample.update
      split
      · rename_i k
        exact absurd ⟨k, rfl⟩ hk
      · rfl
    rw [hn]
    refine ⟨.inl rfl, ⟨fun h => absurd rfl h, ?_⟩, fun h => absurd rfl h, fun n => rfl⟩
    rintro ⟨k, rfl, _⟩
    exact absurd ⟨k, rfl⟩ hk

/-! ### On the screen -/

theorem ListExample.shown_styles (hT : Colours T) (md : Modifier)
    (hmd : md = 0 ∨ md = Modifier.bold ∨ md = Modifier.italic ||| Modifier.dim) :
    (⟨none, none, md, 0⟩ : Style).Shown T ∧ (⟨some (.ansi 0), some (.ansi 4), 0, 0⟩ : Style).Shown T := by
  refine ⟨⟨fun c hc => (by cases hc), fun c hc => (by cases hc), fun i hi => ?_⟩, ⟨fun c hc => ?_, fun c hc => ?_, fun i hi => ?_⟩⟩
  · show md.getLsbD i = false
    by_cases h16 : i < 16
    · have : ∀ i < 16, i = 5 ∨ i = 7 ∨ 9 ≤ i → (0 : Modifier).getLsbD i = false ∧ Modifier.bold.getLsbD i = false ∧
          (Modifier.italic ||| Modifier.dim).getLsbD i = false := by decide
      obtain ⟨k1, k2, k3⟩ := this i h16 hi
      rcases hmd with rfl | rfl | rfl <;> assumption
    · exact BitVec.getLsbD_of_ge _ _ (by omega)
  · obtain rfl : c = .ansi 0 := by simpa using hc.symm
    exact hT.black
  · obtain rfl : c = .ansi 4 := by simpa using hc.symm
    exact hT.blue
  · show (0 : Modifier).getLsbD i = false
    simp

theorem ListExample.plain_madeOf (hS : Plainly u S) (hsym : ∀ s, Symbols s → S s) {cs : List Char} (h : Lazygit.Plain cs) :
    u.MadeOf S (String.ofList cs) := by
  intro c hc
  rw [h.graphemes (Lazygit.plainly_ascii hS fun s hs => hsym s (.inl hs))] at hc
  obtain ⟨ch, hch, rfl⟩ := List.mem_map.1 hc
  exact hsym _ (.inl ⟨ch, (h ch hch).1, (h ch hch).2, rfl⟩)

theorem ListExample.drawing (ω : Nat → Nat → Nat) (fuel : Nat) (hS : Plainly u S) (hsym : ∀ s, Symbols s → S s)
    (hT : Colours T) (m : ListExample.Model) (area inner : Rect)
    (hin : m.popup = true → popup.inner (ω 2) (ω 3) fuel area = .ok inner) :
    Drawing u S (Style.Shown T) fun b => (ListExample.render ω fuel u m area b).map Prod.fst := by
  have hnew : Style.new.Shown T := (shown_styles hT 0 (.inl rfl)).1
  have hspan : ∀ {cs : List Char}, Lazygit.Plain cs → (Span.new (String.ofList cs)).MadeOf u S (Style.Shown T) :=
    fun h => ⟨hnew, plain_madeOf hS hsym h⟩
  have hline : ∀ {cs : List Char} (al : Alignment), Lazygit.Plain cs → (Lazygit.textLine al cs).MadeOf u S (Style.Shown T) := by
    intro cs al h
    refine ⟨hnew, fun sp hsp => ?_⟩
    obtain rfl : sp = Span.new (String.ofList cs) := by simpa [Lazygit.textLine] using hsp
    exact hspan h
  have hlist : list.MadeOf u S (Style.Shown T) := by
    refine ⟨hnew, (shown_styles hT 0 (.inl rfl)).2, ?_, fun t ht => ?_, fun k hk => ?_⟩
    · have := plain_madeOf hS hsym (InputExample.plain_text (s := "> ") (by decide))
      rw [String.ofList_toList] at this
      exact this
    · have ht : t ∈ items := ht
      unfold items at ht
      obtain ⟨i, hi, rfl⟩ := List.mem_map.1 ht
      have hi : i < 100 := by simpa using hi
      rw [item_eq hi]
      refine ⟨hnew, fun l hl => ?_⟩
      simp only [List.mem_cons, List.not_mem_nil, or_false] at hl
      rcases hl with rfl | rfl
      · refine ⟨(shown_styles hT Modifier.bold (.inr (.inl rfl))).1, fun sp hsp => ?_⟩
        obtain rfl : sp = Span.new (String.ofList (itemText i 0)) := by simpa using hsp
        exact hspan (itemText_plain hi 0)
      · refine ⟨(shown_styles hT (Modifier.italic ||| Modifier.dim) (.inr (.inr rfl))).1, fun sp hsp => ?_⟩
        obtain rfl : sp = Span.new (String.ofList (itemText i 1)) := by simpa using hsp
        exact hspan (itemText_plain hi 1)
    · have hk : k = block := by
        have : list.block = some block := rfl
        rw [this] at hk
        exact (Option.some.inj hk).symm
      rw [hk, block_eq]
      refine ⟨hnew, hnew, hnew, fun c hc => hsym c (.inr ?_), fun t ht => ?_⟩
      · revert c
        show ∀ c ∈ ["╭", "╮", "╰", "╯", "│", "│", "─", "─"],
          c ∈ ["╭", "╮", "╰", "╯", "│", "─", "┏", "┓", "┗", "┛", "━", "┃"]
        decide
      · have ht : t = ⟨.none, none, Lazygit.textLine .none "List".toList⟩ ∨
            t = ⟨.right, some .bottom, Lazygit.textLine .right "100 items".toList⟩ := by
          simpa [listBlock] using ht
        rcases ht with rfl | rfl
        · exact hline _ (InputExample.plain_text (by decide))
        · exact hline _ (InputExample.plain_text (by decide))
  have hL : Drawing u S (Style.Shown T) fun b => (list.render u area b m.list).map Prod.fst := .list hlist area m.list
  by_cases hp : m.popup = true
  case neg =>
    refine cast (congrArg _ ?_) hL
    funext b
    unfold ListExample.render
    cases list.render u area b m.list with
    | none => rfl
    | some r => simp [hp]
  have hpopup : popup.MadeOf u S (Style.Shown T) := by
    refine ⟨hnew, fun k hk => ?_⟩
    have hk : k = popupBlock := by
      have : popup.block = some popupBlock := rfl
      rw [this] at hk
      exact (Option.some.inj hk).symm
    rw [hk, popupBlock_eq]
    refine ⟨hnew, hnew, hnew, fun c hc => hsym c (.inr ?_), fun t ht => ?_⟩
    · revert c
      show ∀ c ∈ ["┏", "┓", "┗", "┛", "┃", "┃", "━", "━"],
        c ∈ ["╭", "╮", "╰", "╯", "│", "─", "┏", "┓", "┗", "┛", "━", "┃"]
      decide
    · obtain rfl : t = ⟨.none, .none, Lazygit.textLine .none "Popup".toList⟩ := by simpa [boxBlock] using ht
      exact hline _ (InputExample.plain_text (by decide))
  have hpar : paragraph.MadeOf u S (Style.Shown T) := by
    refine ⟨hnew, ?_, fun k hk => (by cases hk)⟩
    rw [paragraph_text]
    refine ⟨hnew, fun l hl => ?_⟩
    obtain rfl : l = Lazygit.textLine .none "Hello, world!".toList := by simpa using hl
    exact hline _ (InputExample.plain_text (by decide))
  have := Drawing.both hL (.both (.popup (ω 0) (ω 1) fuel hpopup area) (.paragraph hpar inner))
  refine cast (congrArg _ ?_) this
  funext b
  unfold ListExample.render
  cases list.render u area b m.list with
  | none => rfl
  | some r =>
    simp only [Option.map_some, Option.bind_some, Option.bind_eq_bind, hp, if_true, hin hp]
    cases popup.render (ω 0) (ω 1) fuel u area r.1 with
    | ok b2 =>
      show paragraph.render u inner b2 =
        ((paragraph.render u inner b2).map fun b => (b, (⟨r.2, true⟩ : ListExample.Model))).map Prod.fst
      cases paragraph.render u inner b2 <;> rfl
    | panics => rfl
    | running => rfl

/-- **C124**, on the screen: after every frame the terminal shows the picture. -/
theorem C124_screen {j : Junk} (ω : Nat → Nat → Nat) (fuel : Nat) (hu : u.Lawful) (hs : u.Suffix) (hT : Colours T)
    (hS : Plainly u S) (hsym : ∀ s, Symbols s → S s) {t : Terminal} {sc : Screen} (h : History j u T S t sc true)
    {m : ListExample.Model} {e : Ideal} (hses : Session u m e) (msg : Option Msg) (hroom : Roomy t.viewportArea) (w : Widget)
    (hw : ∀ b, w t.viewportArea b =
      (ListExample.render ω fuel u (ListExample.after m msg) t.viewportArea b).map fun r => (r.1, none)) :
    ((e.after msg).popup = true ∧ Running ω fuel t.viewportArea) ∨
    ∃ t' out m', t.draw u T w noFault = some (t', out, true) ∧ t'.viewportArea = t.viewportArea ∧
      History j u T S t' (sc.feed j u out) true ∧ Session u m' ((e.after msg).draw t.viewportArea) ∧
      ∀ q, t.viewportArea.contains q = true → (sc.feed j u out).grid q =
        .glyph (pictureCell ((e.after msg).draw t.viewportArea) t.viewportArea q).symbol false
          (penOf T (pictureCell ((e.after msg).draw t.viewportArea) t.viewportArea q)) := by
  obtain ⟨ht, _, _⟩ := history_inv (env_of_plainly hu hT.reset hS) h
  have hroom' := hroom
  obtain ⟨hx, hy, hrows, hcols⟩ := hroom'
  have hinb : Inside t.cur t.viewportArea := by
    unfold Inside
    rw [ht.cur.area_eq]
    omega
  rcases C124_frame ω fuel hu hs hS hsym hses msg t.viewportArea hroom t.cur ht.cur.wf hinb (fun q hq => ht.cur.cells q hq) with
    hr | ⟨frame, m', e1, hses', _, _, hcell⟩
  · exact .inl hr
  by_cases hrun : popup.place (ω 2) (ω 3) fuel t.viewportArea = .running ∧ (e.after msg).popup = true
  · exact .inl ⟨hrun.2, .inr hrun.1⟩
  right
  have hpop : (ListExample.after m msg).popup = (e.after msg).popup := ((session_settled hses).after msg).popup
  have hin : (ListExample.after m msg).popup = true →
      popup.inner (ω 2) (ω 3) fuel t.viewportArea = .ok (popupBlock.inner (popupArea t.viewportArea)) := by
    intro hp
    rcases ListExample.place_eq (ω 2) (ω 3) fuel t.viewportArea hx hy hcols (by omega) with hq | hq
    · exact absurd ⟨hq, by rw [← hpop]; exact hp⟩ hrun
    · unfold Popup.inner
      rw [hq]
      rfl
  have hdr := ListExample.drawing ω fuel hS hsym hT (ListExample.after m msg) t.viewportArea _ hin
  have hframe : (ListExample.render ω fuel u (ListExample.after m msg) t.viewportArea t.cur).map Prod.fst = some frame := by
    rw [e1]; rfl
  obtain ⟨t', out, h1, h2, h3, h4, _⟩ := C102_screen hu hT.reset hS h hdr ht.cur hframe w (by
    intro b
    rw [hw, Option.map_map]
    rfl)
  refine ⟨t', out, m', h1, h2, h3, hses', fun q hq => ?_⟩
  exact h4 q _ (by rw [hcell q, if_pos hq])

/-! ### Examples -/

/-- The simple segmentation of `Verif.Spec.Uniseg` and the symbols of the program. -/
theorem ListExample.simple_plainly : Plainly Uniseg.simple Symbols where
  space := .inl ⟨' ', by decide, by decide, rfl⟩
  column := by
    rintro s (⟨c, h1, h2, rfl⟩ | hs)
    · exact Lazygit.simple_plainly.column _ (.inl ⟨c, h1, h2, rfl⟩)
    · revert s
      decide
  single := by
    rintro s (⟨c, h1, h2, rfl⟩ | hs)
    · exact Lazygit.simple_plainly.single _ (.inl ⟨c, h1, h2, rfl⟩)
    · revert s
      decide
  printable := by
    rintro s (⟨c, h1, h2, rfl⟩ | hs)
    · exact Lazygit.simple_plainly.printable _ (.inl ⟨c, h1, h2, rfl⟩)
    · revert s
      unfold Printable
      decide
  apart := simple_separable _

example : Colours simpleEnv := by constructor <;> decide

/-- The hypotheses of `C124_frame` are met, and the picture is not trivial: after `G` the last of the hundred items is
selected, and a screen of 30 columns and 6 rows shows the last two. -/
example : (∃ m, Session Uniseg.simple m ⟨some 99, 98, false⟩) ∧ Roomy ⟨0, 0, 30, 6⟩ ∧
    (List.range 6).map (fun j : Nat => String.join ((List.range 30).map fun i : Nat =>
      (pictureCell ⟨some 99, 98, false⟩ ⟨0, 0, 30, 6⟩ ⟨i, j⟩).symbol)) =
      ["╭List────────────────────────╮",
       "│  Item #99                  │",
       "│  Description               │",
       "│> Item #100                 │",
       "│  Description               │",
       "╰───────────────────100 items╯"] ∧
    (List.range 6).map (fun j : Nat => String.join ((List.range 30).map fun i : Nat =>
      (pictureCell ⟨some 99, 98, true⟩ ⟨0, 0, 30, 6⟩ ⟨i, j⟩).symbol)) =
      ["╭List────────────────────────╮",
       "│  Item #99                  │",
       "┏Popup━━━━━━━━━━━━━━━━━━━━━━━┓",
       "┃        Hello, world!       ┃",
       "┗━━━━━━━━━━━━━━━━━━━━━━━━━━━━┛",
       "╰───────────────────100 items╯"] := by
  refine ⟨?_, by constructor <;> decide, by decide +kernel, by decide +kernel⟩
  have hroom : Roomy ⟨0, 0, 30, 6⟩ := by constructor <;> decide
  have hb : Buffer.Blank ⟨0, 0, 30, 6⟩ ⟨⟨0, 0, 30, 6⟩, List.replicate 180 Cell.empty⟩ :=
    blank_of_content 180 (by decide) (by decide) (by decide)
  rcases C124_frame (fun _ => id) 0 Uniseg.simple_lawful simple_suffix ListExample.simple_plainly (fun _ h => h)
    Session.start (some (.key ⟨keyRunes, [71], false, false⟩)) ⟨0, 0, 30, 6⟩ hroom _ hb.wf
    (by unfold Inside; decide) hb.cells
    with h | ⟨b', m', _, h, _⟩
  · exact absurd h.1 (by decide +kernel)
  · exact ⟨m', h⟩

end Bento
