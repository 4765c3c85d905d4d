import Verif.Lemmas.LazygitFrame
import Verif.Props.Live
import Verif.Props.Termination

/-!
# A whole program: the panels of `examples/lazygitlike`

C112 — the program from its keys to the cells of the screen.
-/

namespace Bento

open Lazygit

namespace Lazygit

theorem named_unique {k : Key} {a b : String} (h : named k a = true) (hab : a.toList.map Char.toNat ≠ b.toList.map Char.toNat) :
    named k b = false := by
  unfold named at *
  simp only [decide_eq_true_eq, decide_eq_false_iff_not] at *
  rw [h]
  exact hab

theorem next_mod {p : Int} (h : 0 ≤ p ∧ p ≤ 4) : Panel.next p = (p + 1) % 5 ∧ 0 ≤ Panel.next p ∧ Panel.next p ≤ 4 := by
  have : Panel.next p = (p + 1) % 5 := by
    unfold Panel.next panelInfo
    rw [Int.tmod_eq_emod_of_nonneg (by omega)]
  rw [this]
  refine ⟨rfl, ?_⟩
  show @LE.le Int _ 0 _ ∧ @LE.le Int _ _ 4
  omega

theorem prev_mod {p : Int} (h : 0 ≤ p ∧ p ≤ 4) : Panel.prev p = (p - 1) % 5 ∧ 0 ≤ Panel.prev p ∧ Panel.prev p ≤ 4 := by
  have : Panel.prev p = (p - 1) % 5 := by
    unfold Panel.prev panelStash
    by_cases hp : @LT.lt Int _ (p - 1) 0
    · rw [if_pos hp]
      show (4 : Int) = _
      omega
    · rw [if_neg hp]
      show (p - 1 : Int) = _
      omega
  rw [this]
  refine ⟨rfl, ?_⟩
  show @LE.le Int _ 0 _ ∧ @LE.le Int _ _ 4
  omega

/-- One message. -/
theorem update_moves (m : Model) (h : 0 ≤ m.activePanel ∧ m.activePanel ≤ 4) (g : App.Msg Input.Msg) :
    (update m g).1.activePanel = (m.activePanel + moves [some g]) % 5 ∧
    0 ≤ (update m g).1.activePanel ∧ (update m g).1.activePanel ≤ 4 ∧
    ((update m g).1.width, (update m g).1.height) = lastSize (m.width, m.height) [some g] := by
  have same : ∀ z : Int, z = 0 → m.activePanel = (m.activePanel + z) % 5 := by
    intro z hz
    have h1 : @LE.le Int _ 0 m.activePanel := h.1
    have h2 : @LE.le Int _ m.activePanel 4 := h.2
    subst hz
    show @Eq Int _ _
    omega
  cases g with
  | user i =>
    cases i with
    | key k =>
      have hk : moves [some (.user (.key k))] =
          (if named k "tab" then 1 else 0) - (if named k "shift+tab" then 1 else 0) := by
        unfold moves keyed
        simp [List.countP_cons]
      rw [hk]
      unfold update
      by_cases hq : (named k "ctrl+c" || named k "q") = true
      · have ht : named k "tab" = false ∧ named k "shift+tab" = false := by
          rcases Bool.or_eq_true _ _ ▸ hq with hq | hq
          · exact ⟨named_unique hq (by decide), named_unique hq (by decide)⟩
          · exact ⟨named_unique hq (by decide), named_unique hq (by decide)⟩
        simp only [hq, if_true, ht]
        exact ⟨same _ rfl, h.1, h.2, rfl⟩
      · simp only [hq, if_false]
        by_cases hst : named k "shift+tab" = true
        · have ht := named_unique (b := "tab") hst (by decide)
          obtain ⟨e1, e2, e3⟩ := prev_mod h
          simp only [hst, if_true, ht]
          exact ⟨e1.trans rfl, e2, e3, rfl⟩
        · simp only [hst, if_false]
          by_cases ht : named k "tab" = true
          · obtain ⟨e1, e2, e3⟩ := next_mod h
            simp only [ht, if_true]
            exact ⟨e1.trans rfl, e2, e3, rfl⟩
          · simp only [ht]
            exact ⟨same _ rfl, h.1, h.2, rfl⟩
    | _ => exact ⟨same _ rfl, h.1, h.2, rfl⟩
  | _ => exact ⟨same _ rfl, h.1, h.2, rfl⟩

theorem moves_cons (g : Option (App.Msg Input.Msg)) (msgs : List (Option (App.Msg Input.Msg))) :
    moves (g :: msgs) = moves [g] + moves msgs := by
  unfold moves
  simp only [List.countP_cons, List.countP_nil]
  push_cast
  ring

theorem model_moves : ∀ (msgs : List (Option (App.Msg Input.Msg))) (start m : Model),
    0 ≤ start.activePanel ∧ start.activePanel ≤ 4 → App.model program start msgs = some m →
    m.activePanel = (start.activePanel + moves msgs) % 5 ∧ 0 ≤ m.activePanel ∧ m.activePanel ≤ 4 ∧
    (m.width, m.height) = lastSize (start.width, start.height) msgs := by
  intro msgs
  induction msgs with
  | nil =>
    intro start m h e
    cases e
    have h1 : @LE.le Int _ 0 start.activePanel := h.1
    have h2 : @LE.le Int _ start.activePanel 4 := h.2
    refine ⟨?_, h.1, h.2, rfl⟩
    show @Eq Int _ _
    have : moves [] = 0 := rfl
    omega
  | cons g msgs ih =>
    intro start m h e
    have some_msg : ∀ g : App.Msg Input.Msg, App.model program (update start g).1 msgs = some m →
        m.activePanel = (start.activePanel + moves (some g :: msgs)) % 5 ∧ 0 ≤ m.activePanel ∧ m.activePanel ≤ 4 ∧
        (m.width, m.height) = lastSize (start.width, start.height) (some g :: msgs) := by
      intro g e
      obtain ⟨k1, k2, k3, k4⟩ := update_moves start h g
      obtain ⟨i1, i2, i3, i4⟩ := ih _ m ⟨k2, k3⟩ e
      refine ⟨?_, i2, i3, ?_⟩
      · rw [i1, k1, moves_cons (some g) msgs]
        generalize moves [some g] = a
        generalize moves msgs = b
        generalize start.activePanel = c
        show @Eq Int (((c + a) % 5 + b) % 5) ((c + (a + b)) % 5)
        omega
      · rw [i4, k4]
        rfl
    cases g with
    | none =>
      obtain ⟨i1, i2, i3, i4⟩ := ih start m h e
      refine ⟨?_, i2, i3, i4⟩
      rw [i1, moves_cons, show moves [none] = 0 from rfl, Int.zero_add]
    | some g =>
      cases g with
      | quit => cases e
      | user i => exact some_msg (.user i) e
      | size w h => exact some_msg (.size w h) e
      | batch c => exact some_msg (.batch c) e
      | sequence c => exact some_msg (.sequence c) e

end Lazygit

/-- **C112.** Whatever messages arrive, in whatever order: the active panel is always one of the five panels of the left
side, namely the one that the keys `tab` and `shift+tab` lead to from "Files", going around the ends, and the size is the
last one told. -/
theorem C112_panels (msgs : List (Option (App.Msg Input.Msg))) (m : Model)
    (h : App.model program program.start msgs = some m) :
    m.activePanel = (1 + moves msgs) % 5 ∧ (m.width, m.height) = lastSize (0, 0) msgs := by
  obtain ⟨h1, _, _, h2⟩ := model_moves msgs program.start m (by decide) h
  exact ⟨h1, h2⟩

/-- **C112.** The program quits at the keys `q` and `ctrl+c`, and has no other commands. -/
theorem C112_quits (m : Model) (g : App.Msg Input.Msg) :
    (∃ m' c, program.update m g = some (m', c) ∧
      (c = if keyed "q" (some g) || keyed "ctrl+c" (some g) then some quitCmd else none)) ∧
    ∀ n, program.call quitCmd n = .returns (some .quit) := by
  refine ⟨⟨_, _, rfl, ?_⟩, fun n => rfl⟩
  cases g with
  | user i =>
    cases i with
    | key k =>
      show (update m (.user (.key k))).2 = if named k "q" || named k "ctrl+c" then some quitCmd else none
      rw [Bool.or_comm]
      unfold update
      simp only
      by_cases hq : (named k "ctrl+c" || named k "q") = true
      · rw [if_pos hq, if_pos hq]
      · rw [if_neg hq, if_neg hq]
        split_ifs <;> rfl
    | _ => rfl
  | _ => rfl

/-- **C112.** The bytes that terminals send for these keys, each read by itself. -/
theorem C112_bytes : (Input.readAll [] [[9], [27, 91, 90], [113], [3], [27, 9]]).1.map
      (fun g => ["tab", "shift+tab", "q", "ctrl+c"].map fun name => keyed name (some (.user g.2))) =
    [[true, false, false, false], [false, true, false, false], [false, false, true, false], [false, false, false, true],
      [false, false, false, false]] := by
  decide +kernel

/-- **C112.** The frame of the program, cell by cell: seven panels with their titles, footers and frames, the active one in
bold green, the size of the screen in the status panel, and the footnote; on every screen of at least five rows. -/
theorem C112_frame {u : Uniseg} (hu : u.Lawful) (hs : u.Suffix) (hS : Plainly u Symbols) {split : Split} (hsp : Splits split)
    (m : Model) (hm : m.Sized) (ha : 0 ≤ m.activePanel ∧ m.activePanel ≤ 4) (area : Rect) (hx : 0 ≤ area.x)
    (hh : area.height = m.height) (h5 : 5 ≤ m.height) (b : Buffer) (hb : b.Blank area) :
    ∃ b', view split u m area b = some (b', none) ∧ b'.area = area ∧ Pictured m area b' := by
  have hw : 0 ≤ area.width := by rw [← hb.area_eq]; exact hb.wf.width_nonneg
  obtain ⟨b', e, _, a, p⟩ := frame_cells hu hs hS hsp m hm ha area hx hw hh h5 b hb
  exact ⟨b', by unfold view; rw [e]; rfl, a, p⟩

/-- **C112.** The panels and the footnote cover the screen, without overlaps: every cell of the area is in exactly one of
them. So the picture tells every cell. -/
theorem C112_cover (active : Panel) (ha : 0 ≤ active ∧ active ≤ 4) (area : Rect) (hw : 0 ≤ area.width) (h5 : 5 ≤ area.height)
    (q : Position) (hq : area.contains q = true) :
    (q.y = area.y + area.height - 1 ∧ ∀ p < 7, (panelArea active area p).contains q = false) ∨
    (q.y ≠ area.y + area.height - 1 ∧ ∃ p < 7, (panelArea active area p).contains q = true ∧
      ∀ p' < 7, (panelArea active area p').contains q = true → p' = p) := by
  obtain ⟨a0, a1, a2, a3, a4, hl, n0, n1, n2, n3, n4, hsum⟩ := sideHeights_rows active area.height h5 ha
  have hsw : 0 ≤ sideWidth area.width ∧ sideWidth area.width ≤ area.width := by unfold sideWidth; omega
  have hlog : logHeight area.height ≤ area.height - 1 ∧ 0 ≤ logHeight area.height := by
    unfold logHeight; split_ifs <;> omega
  have hmem : ∀ p, (panelArea active area p).contains q = true ↔
      (panelArea active area p).x ≤ q.x ∧ q.x < (panelArea active area p).x + (panelArea active area p).width ∧
      (panelArea active area p).y ≤ q.y ∧ q.y < (panelArea active area p).y + (panelArea active area p).height := by
    intro p
    rw [Rect.contains_iff]
    unfold Rect.Mem
    omega
  have hq' : area.x ≤ q.x ∧ q.x < area.x + area.width ∧ area.y ≤ q.y ∧ q.y < area.y + area.height := by
    rw [Rect.contains_iff] at hq
    unfold Rect.Mem at hq
    omega
  simp only [← Bool.not_eq_true, hmem]
  clear hmem hq
  unfold panelArea
  rw [hl]
  generalize logHeight area.height = n at *
  generalize sideWidth area.width = w at *
  by_cases hf : q.y = area.y + area.height - 1
  · refine .inl ⟨hf, fun p hp => ?_⟩
    interval_cases p <;> simp <;> omega
  · refine .inr ⟨hf, ?_⟩
    have cases7 : (q.x < area.x + w ∧ q.y < area.y + a0) ∨ (q.x < area.x + w ∧ area.y + a0 ≤ q.y ∧ q.y < area.y + a0 + a1) ∨
        (q.x < area.x + w ∧ area.y + a0 + a1 ≤ q.y ∧ q.y < area.y + a0 + a1 + a2) ∨
        (q.x < area.x + w ∧ area.y + a0 + a1 + a2 ≤ q.y ∧ q.y < area.y + a0 + a1 + a2 + a3) ∨
        (q.x < area.x + w ∧ area.y + a0 + a1 + a2 + a3 ≤ q.y) ∨
        (area.x + w ≤ q.x ∧ q.y < area.y + (area.height - 1 - n)) ∨
        (area.x + w ≤ q.x ∧ area.y + (area.height - 1 - n) ≤ q.y) := by omega
    rcases cases7 with h | h | h | h | h | h | h
    · refine ⟨0, by decide, by simp; omega, fun p' hp' hc => ?_⟩
      interval_cases p' <;> simp at hc <;> omega
    · refine ⟨1, by decide, by simp; omega, fun p' hp' hc => ?_⟩
      interval_cases p' <;> simp at hc <;> omega
    · refine ⟨2, by decide, by simp; omega, fun p' hp' hc => ?_⟩
      interval_cases p' <;> simp at hc <;> omega
    · refine ⟨3, by decide, by simp; omega, fun p' hp' hc => ?_⟩
      interval_cases p' <;> simp at hc <;> omega
    · refine ⟨4, by decide, by simp; omega, fun p' hp' hc => ?_⟩
      interval_cases p' <;> simp at hc <;> omega
    · refine ⟨5, by decide, by simp; omega, fun p' hp' hc => ?_⟩
      interval_cases p' <;> simp at hc <;> omega
    · refine ⟨6, by decide, by simp; omega, fun p' hp' hc => ?_⟩
      interval_cases p' <;> simp at hc <;> omega


open App in
/-- **C112.** The program on the screen: whenever it waits for a message, and the last size it was told is that of the
screen, every cell of the screen shows the picture of the panels, with the panel active that the keys lead to; the cursor is
hidden, and the screen of the shell is untouched. -/
theorem C112_screen {split : Split} (hsp : Splits split) (d : Display Model) (hv : d.view = view split d.uniseg)
    (hu : d.uniseg.Lawful) (hs : d.uniseg.Suffix) (hS : Plainly d.uniseg Symbols) (hT : Colours d.termenv)
    (s : App.State Model Input.Msg) (y : Tty) (g : Grid) (h : Live program d s y g) (hk : y.known = true)
    (m : Model) (hm : s.main = .select m)
    (hsize : lastSize (0, 0) (taken s.trace) = (y.screen.cols, y.screen.rows)) (h5 : 5 ≤ y.screen.rows)
    (hmax : y.screen.cols < 2 ^ 63 ∧ y.screen.rows < 2 ^ 63) :
    ∃ frame : Buffer, frame.area = ⟨0, 0, y.screen.cols, y.screen.rows⟩ ∧
      Pictured ⟨y.screen.cols, y.screen.rows, (1 + moves (taken s.trace)) % 5⟩ ⟨0, 0, y.screen.cols, y.screen.rows⟩ frame ∧
      Shows d.uniseg (penOf d.termenv) y.screen.grid frame ∧
      y.screen.visible = false ∧ y.screen.alt = true ∧ y.screen.other = g := by
  have hgood : ∀ m, (d.view m).Good d.uniseg d.termenv Symbols := by
    intro m
    rw [hv]
    exact view_good hu hs hS hT hsp m
  obtain ⟨h1, blank, frame, cur, h2, h3, h4, h6, _, h7, h8⟩ :=
    C105_waiting program d Symbols (env_of_plainly hu hT.1 hS) hgood s y g h hk
      (.inr fun c k => by unfold program; simp) m hm
  obtain ⟨k1, k2, k3, k4⟩ := model_moves _ program.start m (by decide) h1
  have k4' : (m.width, m.height) = (y.screen.cols, y.screen.rows) := k4.trans hsize
  obtain ⟨k5, k6⟩ := Prod.mk.inj k4'
  have hcols : 0 ≤ y.screen.cols := by
    have := h2.wf.width_nonneg
    rw [h2.area_eq] at this
    exact this
  obtain ⟨b', e, a', hp⟩ := C112_frame hu hs hS hsp m ⟨⟨by omega, by omega⟩, ⟨by omega, by omega⟩⟩ ⟨k2, k3⟩
    ⟨0, 0, y.screen.cols, y.screen.rows⟩ (Int.le_refl 0) k6.symm (by omega) blank h2
  rw [hv, e] at h3
  obtain ⟨rfl, rfl⟩ := Prod.mk.inj (Option.some.inj h3)
  have hmod : m = ⟨y.screen.cols, y.screen.rows, (1 + moves (taken s.trace)) % 5⟩ := by
    cases m
    simp only at k5 k6 k1
    subst k5 k6 k1
    rfl
  rw [hmod] at hp
  exact ⟨b', a', hp, h4, h6, h7, h8⟩

/-! ### The hypotheses can be met -/

/-- There is always a result that `Split` may return. -/
theorem Lazygit.splits_exist : ∃ split : Split, Splits split := by
  have : ∀ (l : Layout) (area : Rect), ∃ r : List Rect, Layout.Few l → ∃ ω fuel spacers,
      Layout.splitWithSpacers ω fuel l area = .ok r spacers := by
    intro l area
    by_cases h : Layout.Few l
    · obtain ⟨ω, _, n, hn⟩ := C80_split_never_trapped l area h (fun _ => 0) 0
      obtain ⟨r, sp, e⟩ := hn n (Nat.le_refl n)
      exact ⟨r, fun _ => ⟨ω, n, sp, e⟩⟩
    · exact ⟨[], fun k => absurd k h⟩
  choose f hf using this
  exact ⟨f, hf⟩

theorem Lazygit.simple_plainly : Plainly Uniseg.simple Symbols where
  space := .inl ⟨' ', by decide, by decide, rfl⟩
  column := by
    rintro s (⟨c, h1, h2, rfl⟩ | hs)
    · unfold Uniseg.simple
      simp only
      rw [if_neg, if_neg]
      · simp only [String.toList_ofList, List.all_cons, List.all_nil, Bool.and_true, Bool.or_eq_true, decide_eq_true_eq]
        omega
      · rintro (h | h)
        · have := congrArg String.toList h
          rw [String.toList_ofList] at this
          have := congrArg (fun l => (l.map Char.toNat).head?) this
          simp at this
          omega
        · have := congrArg String.toList h
          rw [String.toList_ofList] at this
          have := congrArg (fun l => (l.map Char.toNat).head?) this
          simp at this
          omega
    · revert s
      decide
  single := by
    rintro s (⟨c, h1, h2, rfl⟩ | hs)
    · unfold Uniseg.simple
      simp
    · revert s
      decide
  printable := by
    rintro s (⟨c, h1, h2, rfl⟩ | hs)
    · unfold Printable
      simp only [String.toList_ofList, List.mem_singleton, forall_eq]
      omega
    · revert s
      unfold Printable
      decide
  apart := simple_separable _

theorem Lazygit.simple_colours : Colours simpleEnv := ⟨rfl, by decide⟩

/-- No output changes the size of the screen. -/
theorem feed_size (j : Junk) (u : Uniseg) (sc : Screen) (out : List Char) :
    (sc.feed j u out).cols = sc.cols ∧ (sc.feed j u out).rows = sc.rows := by
  unfold Screen.feed
  generalize parse (.ground []) out = toks
  induction toks generalizing sc with
  | nil => exact ⟨rfl, rfl⟩
  | cons t toks ih =>
    rw [List.foldl_cons]
    obtain ⟨h1, h2⟩ := ih (sc.tok j u t)
    rw [h1, h2]
    cases t with
    | text s => exact ⟨(putText_keeps j u sc s).cols, (putText_keeps j u sc s).rows⟩
    | csi priv ps final =>
      show (sc.control j priv ps final).cols = _ ∧ (sc.control j priv ps final).rows = _
      unfold Screen.control
      split <;> first | exact ⟨rfl, rfl⟩ | (split <;> exact ⟨rfl, rfl⟩)
    | unknown => exact ⟨rfl, rfl⟩

/-- The example on a terminal. -/
def Lazygit.display (split : Split) : App.Display Model :=
  ⟨default, Uniseg.simple, simpleEnv, view split Uniseg.simple⟩

theorem Lazygit.view_hides {split : Split} {m : Model} {t t' : Terminal} {out : List Char}
    (h : t.draw Uniseg.simple simpleEnv (view split Uniseg.simple m) noFault = some (t', out, true)) :
    t'.hiddenCursor = true := by
  simp only [Terminal.draw, view, Option.bind_eq_bind, noFault, Option.bind_eq_some_iff, Option.map_eq_some_iff] at h
  obtain ⟨_, ⟨_, _, rfl⟩, _, _, _, _, h⟩ := h
  injection h with h
  injection h with h
  subst h
  rfl

open App in
theorem Lazygit.live_draw {split : Split} (hsp : Splits split) {s : State Model Input.Msg} {y : Tty} {g : Grid}
    (h : Live program (display split) s y g) (m : Model)
    (hm : program.drawing s.main = some m) (s' : State Model Input.Msg)
    (hs : step program s (.main (.drawn (.ok true))) = some s') :
    ∃ y', Live program (display split) s' y' g ∧ y'.known = y.known ∧ y'.screen.cols = y.screen.cols ∧
      y'.screen.rows = y.screen.rows := by
  obtain ⟨t, out, ht⟩ := (C105_succeeds program (display split) Symbols
    (env_of_plainly Uniseg.simple_lawful simple_colours.1 simple_plainly)
    (fun m => view_good Uniseg.simple_lawful simple_suffix simple_plainly simple_colours hsp m) s y g h
    (.inr fun c k => by unfold program; simp)).1 m hm
  exact ⟨_, .step h _ s' hs _ ⟨m, t, out, hm, ht, (view_hides ht).symm, rfl⟩, rfl, (feed_size ..).1, (feed_size ..).2⟩

open App in
/-- The program waits on a screen of 40 columns and 12 rows, after it was told the size and the key `tab` was pressed
twice. -/
theorem Lazygit.waits {split : Split} (hsp : Splits split) : ∃ s y g, Live program (display split) s y g ∧ y.known = true ∧
    s.main = .select ⟨40, 12, 3⟩ ∧ lastSize (0, 0) (taken s.trace) = (y.screen.cols, y.screen.rows) ∧
    5 ≤ y.screen.rows ∧ y.screen.cols < 2 ^ 63 ∧ y.screen.rows < 2 ^ 63 ∧ (1 + moves (taken s.trace)) % 5 = 3 := by
  have h0 : Live program (display split) (.start Model Input.Msg) _ _ := .start
    ⟨40, 12, Grid.blank, 0, 0, Pen.neutral, true, false, Grid.blank, false⟩ _ rfl (by decide) (by decide) rfl rfl
  have h1 := Live.step h0 (.main (.op true)) _ rfl _ rfl
  obtain ⟨o2, e2⟩ := writes_one (T := simpleEnv) (c := .hideCursor) rfl
  have h2 := Live.step h1 (.main (.op true)) _ rfl _ ⟨_, ⟨o2, e2, rfl⟩, rfl⟩
  obtain ⟨o3, e3⟩ := writes_one (T := simpleEnv) (c := .enterAlternateScreen) rfl
  have h3 := Live.step h2 (.main (.op true)) _ rfl _ ⟨_, ⟨o3, e3, rfl⟩, rfl⟩
  have h4 := Live.step h3 (.main (.op true)) _ rfl _ rfl
  obtain ⟨y5, h5, k5, c5, r5⟩ := live_draw hsp h4 ⟨0, 0, 1⟩ rfl _ rfl
  have h6 := Live.step h5 (.main (.op true)) _ rfl _ rfl
  have h7 := Live.step h6 (.main (.op true)) _ rfl _ rfl
  have h8 := Live.step h7 (.main (.op true)) _ rfl _ rfl
  have w2 := Live.step h8 (.thread 2 (.sized 40 12)) _ rfl _ rfl
  obtain ⟨tw, ow, hw⟩ := (C105_succeeds program (display split) Symbols
    (env_of_plainly Uniseg.simple_lawful simple_colours.1 simple_plainly)
    (fun m => view_good Uniseg.simple_lawful simple_suffix simple_plainly simple_colours hsp m) _ _ _ w2
    (.inr fun c k => by unfold program; simp)).2 ⟨0, 0, 1⟩ rfl 40 12 (by decide) (by decide)
  have w3 := Live.step w2 (.message 2 0 true) _ rfl _ ⟨by decide, by decide, tw, ow, hw, rfl⟩
  have w4 := Live.step w3 (.fromMain 3) _ rfl _ rfl
  obtain ⟨y13, w5, k13, c13, r13⟩ := live_draw hsp w4 ⟨40, 12, 1⟩ rfl _ rfl
  have h9 := Live.step w5 (.thread 0 (.input (.key ⟨9, [], false, false⟩))) _ rfl _ rfl
  have h10 := Live.step h9 (.message 0 0 true) _ rfl _ rfl
  have h11 := Live.step h10 (.fromMain 3) _ rfl _ rfl
  obtain ⟨y14, w6, k14, c14, r14⟩ := live_draw hsp h11 ⟨40, 12, 2⟩ rfl _ rfl
  have h12 := Live.step w6 (.thread 0 (.input (.key ⟨9, [], false, false⟩))) _ rfl _ rfl
  have h13 := Live.step h12 (.message 0 0 true) _ rfl _ rfl
  have h14 := Live.step h13 (.fromMain 3) _ rfl _ rfl
  obtain ⟨y15, w7, k15, c15, r15⟩ := live_draw hsp h14 ⟨40, 12, 3⟩ rfl _ rfl
  have hc5 : y5.screen.cols = 40 := by
    rw [c5]
    show (Screen.feed _ _ (Screen.feed _ _ _ _) _).cols = 40
    rw [(feed_size ..).1, (feed_size ..).1]
  have hr5 : y5.screen.rows = 12 := by
    rw [r5]
    show (Screen.feed _ _ (Screen.feed _ _ _ _) _).rows = 12
    rw [(feed_size ..).2, (feed_size ..).2]
  have hc : y15.screen.cols = 40 := by
    rw [c15, c14, c13]
    show (Screen.feed _ _ _ _).cols = 40
    rw [(feed_size ..).1]
    exact hc5
  have hr : y15.screen.rows = 12 := by
    rw [r15, r14, r13]
    show (Screen.feed _ _ _ _).rows = 12
    rw [(feed_size ..).2]
    exact hr5
  refine ⟨_, _, _, w7, ?_, rfl, ?_, by omega, by omega, by omega, rfl⟩
  · rw [k15, k14, k13]
    show decide (40 = y5.screen.cols ∧ 12 = y5.screen.rows) = true
    rw [hc5, hr5]
    rfl
  · rw [hc, hr]
    rfl

open App in
/-- The hypotheses of `C112_screen` are met. -/
example : ∃ split : Split, Splits split ∧ (display split).view = view split (display split).uniseg ∧
    (display split).uniseg.Lawful ∧ (display split).uniseg.Suffix ∧ Plainly (display split).uniseg Symbols ∧
    Colours (display split).termenv ∧ ∃ s y g, Live program (display split) s y g ∧ y.known = true ∧
    s.main = .select ⟨40, 12, 3⟩ ∧ lastSize (0, 0) (taken s.trace) = (y.screen.cols, y.screen.rows) ∧
    5 ≤ y.screen.rows ∧ y.screen.cols < 2 ^ 63 ∧ y.screen.rows < 2 ^ 63 ∧ (1 + moves (taken s.trace)) % 5 = 3 := by
  obtain ⟨split, hsp⟩ := splits_exist
  exact ⟨split, hsp, rfl, Uniseg.simple_lawful, simple_suffix, simple_plainly, simple_colours, waits hsp⟩

/-- The pictures are not trivial: a screen of 40 columns and 24 rows, with the panel "Branches" active. -/
example : (List.range 7).map (panelArea 2 ⟨0, 0, 40, 24⟩) =
    [⟨0, 0, 13, 3⟩, ⟨0, 3, 13, 3⟩, ⟨0, 6, 13, 11⟩, ⟨0, 17, 13, 3⟩, ⟨0, 20, 13, 3⟩, ⟨13, 0, 27, 20⟩, ⟨13, 20, 27, 3⟩] ∧
    (List.range 13).map (fun i : Nat => (panelCell true "Branches" "1 of 2" "" 13 11 i 0).symbol) =
      ["╭", "B", "r", "a", "n", "c", "h", "e", "s", "─", "─", "─", "╮"] ∧
    (List.range 13).map (fun i : Nat => (panelCell true "Branches" "1 of 2" "" 13 11 i 10).symbol) =
      ["╰", "─", "─", "─", "─", "─", "1", " ", "o", "f", " ", "2", "╯"] ∧
    panelCell true "Branches" "1 of 2" "" 13 11 0 5 = ⟨"│", .ansi 2, .reset, Modifier.bold, false⟩ ∧
    (panelCell false "Status" "" "40x24" 13 3 3 1).symbol = "x" ∧
    footCell 40 27 = ⟨"F", .ansi 5, .reset, Modifier.underlined, false⟩ := by
  decide +kernel

/-- The keys: three times `tab`, once `shift+tab`; and going around the ends. -/
example : (App.model program program.start [some (.size 40 24), some (.user (.key ⟨9, [], false, false⟩)), none,
      some (.user (.key ⟨9, [], false, false⟩)), some (.user (.key ⟨9, [], false, false⟩)),
      some (.user (.key ⟨9, [], false, false⟩))]) = some ⟨40, 24, 0⟩ := by
  decide +kernel

end Bento
