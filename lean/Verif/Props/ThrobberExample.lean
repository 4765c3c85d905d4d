import Verif.Lemmas.ThrobberExample
import Verif.Props.Reached
import Verif.Props.Animated
import Verif.Props.Lazygit

/-!
# The example program with throbbers, on the screen

Property C121.
-/

namespace Bento

open ThrobberExample
open Lazygit (Split Splits named named_unique)

variable {u : Uniseg} {S : String → Prop}

/-- **C121.** The frame of the program, cell by cell: the speed in the first row, nine boxes with the names of the throbbers
and their current pictures in the middle, and the help in the last row; on every screen of at least 15 columns and 11 rows. -/
theorem C121_frame (hu : u.Lawful) (hs : u.Suffix) (hS : Plainly u S) (hsym : ∀ s, Symbols s → S s)
    (hvis : ∀ s, S s → s.toList.any isControlRune = false) {split : Split} (hsp : Splits split) {throb : Throb}
    (ht : Throbs u throb) {duration : Int → String} (hd : Writes S duration) (m : ThrobberExample.Model) (frame : Nat)
    (hf : m.throbber.frame = frame) (area : Rect) (hx : 0 ≤ area.x) (hy : 0 ≤ area.y) (hw : 15 ≤ area.width)
    (hh : 11 ≤ area.height) (b : Buffer) (hb : b.Blank area) :
    ∃ b', view split throb u duration m area b = some (b', none) ∧ b'.area = area ∧
      Pictured (duration m.fps) frame area b' := by
  obtain ⟨b', e, a, p⟩ := frame_cells hu hs hS hsym hvis hsp ht hd m frame hf area hx hy hw hh b hb
  exact ⟨b', by unfold view; rw [e]; rfl, a, p⟩

/-- **C121.** The two rows and the boxes cover the screen, without overlaps: every cell is in exactly one of them. So the
picture tells every cell. -/
theorem C121_cover (area : Rect) (hw : 15 ≤ area.width) (hh : 11 ≤ area.height) (q : Position)
    (hq : area.contains q = true) :
    ((q.y = area.y ∨ q.y = area.y + area.height - 1) ∧ ∀ i < 9, (boxArea area i).contains q = false) ∨
    (q.y ≠ area.y ∧ q.y ≠ area.y + area.height - 1 ∧ ∃ i < 9, (boxArea area i).contains q = true ∧
      ∀ j < 9, (boxArea area j).contains q = true → j = i) := by
  rw [Rect.contains_iff] at hq
  unfold Rect.Mem at hq
  by_cases hrow : q.y = area.y ∨ q.y = area.y + area.height - 1
  · refine .inl ⟨hrow, fun i hi => ?_⟩
    have := boxes_between area hw hh hi
    rw [← Bool.not_eq_true, Rect.contains_iff]
    unfold Rect.Mem
    omega
  · refine .inr ⟨fun h => hrow (.inl h), fun h => hrow (.inr h), ?_⟩
    have key : ∀ n k : Int, 0 ≤ k → k < n → ∃ i < 3, third n (i : Nat) ≤ k ∧ k < third n ((i : Nat) + 1) := by
      intro n k h0 h1
      have t0 : third n 0 = 0 := by unfold third; simp
      have t3 : third n 3 = n := by unfold third; omega
      by_cases k1 : k < third n 1
      · exact ⟨0, by decide, by simpa [t0] using h0, by simpa using k1⟩
      · by_cases k2 : k < third n 2
        · exact ⟨1, by decide, by push_cast; omega, by push_cast; exact k2⟩
        · exact ⟨2, by decide, by push_cast; omega, by push_cast; rw [← t3] at h1; exact h1⟩
    obtain ⟨c, hc, c1, c2⟩ := key area.width (q.x - area.x) (by omega) (by omega)
    obtain ⟨r, hr, r1, r2⟩ := key (area.height - 2) (q.y - area.y - 1) (by omega) (by omega)
    have hin : (boxArea area (3 * r + c)).contains q = true := by
      have e1 : (3 * r + c) % 3 = c := by omega
      have e2 : (3 * r + c) / 3 = r := by omega
      rw [Rect.contains_iff]
      unfold Rect.Mem boxArea
      simp only [e1, e2]
      omega
    exact ⟨3 * r + c, by omega, hin, fun j _ h => boxes_apart area (by omega) (by omega) q h hin⟩

namespace ThrobberExample

/-- The change of the speed by a message. -/
def change (g : Option (App.Msg Message)) : Int :=
  match g with
  | some (.user (.input (.key k))) => (if named k "+" then 1000000 else 0) - (if named k "-" then 1000000 else 0)
  | _ => 0

theorem speedOf_cons (g : Option (App.Msg Message)) (msgs : List (Option (App.Msg Message))) :
    speedOf (g :: msgs) = speedOf msgs + change g := by
  unfold speedOf change
  rw [List.filter_cons, List.filter_cons]
  split
  · rename_i k
    by_cases h1 : named k "+" = true <;> by_cases h2 : named k "-" = true <;> simp [h1, h2] <;> ring
  · rename_i h
    split_ifs with h1 h2 h2
    all_goals first
      | simp
      | (exfalso; revert h2; split <;> simp_all)

theorem update_frame (m : ThrobberExample.Model) (g : App.Msg Message) :
    (0 ≤ m.throbber.frame → 0 ≤ (update m g).1.throbber.frame) ∧ (update m g).1.fps = m.fps + change (some g) := by
  cases g with
  | user i =>
    cases i with
    | tick t =>
      show (0 ≤ m.throbber.frame → 0 ≤ (match m.throbber.tryUpdate t with
        | some (s, t) => (({ m with throbber := s }, some (tickCmd t)) : ThrobberExample.Model × Option App.Cmd)
        | none => (m, none)).1.throbber.frame) ∧ _ = m.fps + 0
      unfold update
      simp only
      unfold Throbber.State.tryUpdate
      split_ifs <;> simp <;> omega
    | input i =>
      cases i with
      | key k =>
        unfold update change
        simp only
        by_cases hp : named k "+" = true
        · have := named_unique (b := "-") hp (by decide)
          simp [hp, this]
        · by_cases hq : named k "-" = true
          · simp [hp, hq]
            omega
          · simp only [hp, hq, if_false]
            by_cases hc : named k "ctrl+c" = true <;> simp [hc]
      | _ => exact ⟨fun h => h, (Int.add_zero _).symm⟩
  | _ => exact ⟨fun h => h, (Int.add_zero _).symm⟩

theorem model_frame (id : Int) : ∀ (msgs : List (Option (App.Msg Message))) (start m : ThrobberExample.Model),
    0 ≤ start.throbber.frame → App.model (program id) start msgs = some m →
    0 ≤ m.throbber.frame ∧ m.fps = start.fps - 111111111 + speedOf msgs := by
  intro msgs
  induction msgs with
  | nil =>
    intro start m h e
    cases e
    refine ⟨h, ?_⟩
    have : speedOf [] = 111111111 := rfl
    omega
  | cons g msgs ih =>
    intro start m h e
    have some_msg : ∀ g : App.Msg Message, App.model (program id) (update start g).1 msgs = some m →
        0 ≤ m.throbber.frame ∧ m.fps = start.fps - 111111111 + speedOf (some g :: msgs) := by
      intro g e
      obtain ⟨k1, k2⟩ := update_frame start g
      obtain ⟨i1, i2⟩ := ih _ m (k1 h) e
      refine ⟨i1, ?_⟩
      rw [i2, k2, speedOf_cons]
      ring
    cases g with
    | none =>
      obtain ⟨i1, i2⟩ := ih start m h e
      refine ⟨i1, ?_⟩
      rw [i2, speedOf_cons, show change none = 0 from rfl, Int.add_zero]
    | some g =>
      cases g with
      | quit => cases e
      | user i => exact some_msg (.user i) e
      | size w h => exact some_msg (.size w h) e
      | batch c => exact some_msg (.batch c) e
      | sequence c => exact some_msg (.sequence c) e

end ThrobberExample

/-- **C121.** Whatever the size of the screen, nothing panics, and everything drawn can be shown, as long as the count of the
frames is not negative, which it never is. -/
theorem C121_any_size {T : Termenv} (hu : u.Lawful) (hc : T.convert .reset = some .reset) (hS : Plainly u S)
    (hsym : ∀ s, Symbols s → S s) (hvis : ∀ s, S s → s.toList.any isControlRune = false) {split : Split}
    (hsp : Splits split) {throb : Throb} (ht : Throbs u throb) {duration : Int → String} (hd : Writes S duration) (id : Int)
    (msgs : List (Option (App.Msg Message))) (m : ThrobberExample.Model)
    (h : App.model (program id) (program id).start msgs = some m) : (view split throb u duration m).Good u T S := by
  refine view_good hu hc hS hsym hvis hsp ht hd m ?_
  exact (model_frame id msgs (program id).start m (Int.le_refl 0) h).1

open App in
/-- **C121.** The program on the screen: whenever it waits for a message, every cell of the screen shows the picture; the
throbbers show the frame that has the number of the ticks taken so far, and the speed is the one that the keys lead to. -/
theorem C121_screen {split : Split} (hsp : Splits split) {throb : Throb} {duration : Int → String} (d : Display ThrobberExample.Model)
    (hv : d.view = view split throb d.uniseg duration) (hu : d.uniseg.Lawful) (hs : d.uniseg.Suffix)
    (hS : Plainly d.uniseg S) (hsym : ∀ s, Symbols s → S s) (hvis : ∀ s, S s → s.toList.any isControlRune = false)
    (hc : d.termenv.convert .reset = some .reset) (ht : Throbs d.uniseg throb) (hd : Writes S duration) (id : Int)
    (hid : 0 < id) (s : App.State ThrobberExample.Model Message) (y : Tty) (g : Grid) (h : Live (program id) d s y g)
    (hk : y.known = true) (cs : List (Choice Message)) (hrun : run (program id) cs = some s)
    (hin : (ticks id).NotTyped cs) (m : ThrobberExample.Model) (hm : s.main = .select m)
    (hcols : 15 ≤ y.screen.cols) (hrows : 11 ≤ y.screen.rows) :
    ∃ frame : Buffer, frame.area = ⟨0, 0, y.screen.cols, y.screen.rows⟩ ∧
      Pictured (duration (speedOf (taken s.trace))) ((ticks id).taken s.trace) ⟨0, 0, y.screen.cols, y.screen.rows⟩ frame ∧
      Shows d.uniseg (penOf d.termenv) y.screen.grid frame ∧
      y.screen.visible = false ∧ y.screen.alt = true ∧ y.screen.other = g := by
  obtain ⟨h1, blank, frame, cur, h2, h3, h4, h6, _, h7, h8⟩ :=
    C105_waiting_reached (program id) d S (env_of_plainly hu hc hS)
      (fun t m hm => by rw [hv]; exact C121_any_size hu hc hS hsym hvis hsp ht hd id t m hm) s y g h hk
      (.inr fun c k => by unfold program; simp) m hm
  have hfr := (C120_one_tick (C120_example id hid) hin hrun (m := m) (by rw [hm]; rfl)).1
  have hsp' : m.fps = speedOf (taken s.trace) :=
    (model_frame id _ (program id).start m (Int.le_refl 0) h1).2.trans (by show (111111111 - 111111111 + _ : Int) = _; omega)
  obtain ⟨b', e, a', hp⟩ := C121_frame hu hs hS hsym hvis hsp ht hd m _ hfr
    ⟨0, 0, y.screen.cols, y.screen.rows⟩ (Int.le_refl 0) (Int.le_refl 0) hcols hrows blank h2
  rw [hv, e] at h3
  obtain ⟨rfl, rfl⟩ := Prod.mk.inj (Option.some.inj h3)
  rw [hsp'] at hp
  exact ⟨b', a', hp, h4, h6, h7, h8⟩

/-! ### The hypotheses can be met -/

/-- There is always a result that drawing a throbber may have. -/
theorem ThrobberExample.throbs_exist (u : Uniseg) : ∃ throb : Throb, Throbs u throb := by
  have one : ∀ l : Layout, l.constraints.length = 1 → ∀ area, ∃ ω n, ∀ fuel, n ≤ fuel → ∃ seg sp,
      Layout.splitWithSpacers ω fuel l area = .ok seg sp := by
    intro l hl area
    obtain ⟨ω, _, n, hn⟩ := C80_split_never_trapped l area (Layout.few_of_small (.inl (by omega))) (fun _ => 0) 0
    exact ⟨ω, n, hn⟩
  have : ∀ (t : Throbber) (area : Rect) (s : Throbber.State), ∃ ω ω' fuel, ∀ b,
      Throbber.render ω ω' fuel u t area b s ≠ .running := by
    intro t area s
    cases hf : Throbber.frameOf t.set s.frame with
    | none =>
      refine ⟨fun _ => 0, fun _ => 0, 0, fun b => ?_⟩
      unfold Throbber.render
      rw [hf]
      simp
    | some cs =>
      obtain ⟨ω, n, hn⟩ := one ⟨.vertical, [.len (newLinesStr cs).length], t.padding, t.vertical, .space 0⟩ rfl area
      rcases Popup.unwrap_split ω n ⟨.vertical, [.len (newLinesStr cs).length], t.padding, t.vertical, .space 0⟩ rfl area with
        hr | ⟨r, hr, _⟩
      · obtain ⟨seg, sp, e⟩ := hn n (Nat.le_refl n)
        rw [e] at hr
        cases seg <;> cases hr
      · obtain ⟨ω', n', hn'⟩ := one ⟨.horizontal, [.len (((newLinesStr cs).map (Line.width u)).foldl max 0 : Nat)], t.padding,
          t.horizontal, .space 0⟩ rfl r
        refine ⟨ω, ω', max n n', fun b => ?_⟩
        unfold Throbber.render
        rw [hf]
        dsimp only
        have hr' : Popup.unwrap (Layout.splitWithSpacers ω (max n n')
            ⟨.vertical, [.len (newLinesStr cs).length], t.padding, t.vertical, .space 0⟩ area) = .ok r := by
          obtain ⟨seg, sp, e⟩ := hn n (Nat.le_refl n)
          rw [Layout.split_more (Nat.le_max_left n n') (by rw [e]; exact fun h => nomatch h)]
          exact hr
        rw [hr']
        dsimp only
        obtain ⟨seg, sp, e⟩ := hn' (max n n') (Nat.le_max_right ..)
        rw [e]
        have hne : Popup.unwrap (Layout.Outcome.ok seg sp) ≠ .running := by
          cases seg <;> exact fun h => nomatch h
        revert hne
        generalize Popup.unwrap (Layout.Outcome.ok seg sp) = o
        intro hne
        cases o with
        | running => exact absurd rfl hne
        | panics => simp
        | ok r => dsimp only; split <;> simp
  choose ω ω' fuel h using this
  exact ⟨fun t area s b => (Throbber.render (ω t area s) (ω' t area s) (fuel t area s) u t area b s).value,
    fun t area s => ⟨ω t area s, ω' t area s, fuel t area s, fun b => ⟨h t area s b, rfl⟩⟩⟩

theorem ThrobberExample.simple_plainly : Plainly Uniseg.simple Symbols where
  space := .inl ⟨' ', by decide, by decide, rfl⟩
  column := by
    rintro s (⟨c, h1, h2, rfl⟩ | hs | ⟨act, ha, f, hf, c, hc, rfl⟩)
    · exact Lazygit.simple_plainly.column _ (.inl ⟨c, h1, h2, rfl⟩)
    · revert s
      decide
    · revert c f act
      decide +kernel
  single := by
    rintro s (⟨c, h1, h2, rfl⟩ | hs | ⟨act, ha, f, hf, c, hc, rfl⟩)
    · exact Lazygit.simple_plainly.single _ (.inl ⟨c, h1, h2, rfl⟩)
    · revert s
      decide
    · revert c f act
      decide +kernel
  printable := by
    rintro s (⟨c, h1, h2, rfl⟩ | hs | ⟨act, ha, f, hf, c, hc, rfl⟩)
    · exact Lazygit.simple_plainly.printable _ (.inl ⟨c, h1, h2, rfl⟩)
    · revert s
      unfold Printable
      decide
    · revert c f act
      unfold Printable
      decide +kernel
  apart := simple_separable _

theorem ThrobberExample.symbols_visible : ∀ s, Symbols s → s.toList.any isControlRune = false := by
  rintro s (⟨c, h1, h2, rfl⟩ | hs | ⟨act, ha, f, hf, c, hc, rfl⟩)
  · simp only [String.toList_ofList, List.any_cons, List.any_nil, Bool.or_false]
    unfold isControlRune
    simp
    omega
  · revert s
    decide
  · revert c f act
    decide +kernel

theorem ThrobberExample.simple_writes : Writes Symbols (fun _ => "111.111111ms") := by
  have h : (∀ c ∈ "111.111111ms".toList, 32 ≤ c.toNat ∧ c.toNat < 127 ∧ String.ofList [c] = String.ofList [c]) ∧
      byteSize "111.111111ms".toList < 60000 := by decide
  exact fun _ => ⟨fun c hc => .inl ⟨c, h.1 c hc⟩, h.2⟩

/-- The hypotheses of `C121_frame` are met, and the picture is not trivial: the fifth frame on a screen of 30 columns and 14
rows. -/
example : ∃ (split : Split) (throb : Throb) (b' : Buffer),
    view split throb Uniseg.simple (fun _ => "111.111111ms") ⟨⟨5, 1, 5⟩, 111111111⟩ ⟨0, 0, 30, 14⟩
      ⟨⟨0, 0, 30, 14⟩, List.replicate 420 Cell.empty⟩ = some (b', none) ∧
    b'.cellAt ⟨4, 0⟩ = some (plain "1") ∧ b'.cellAt ⟨5, 3⟩ = some (plain "/") ∧ b'.cellAt ⟨1, 1⟩ = some (plain "L") := by
  obtain ⟨split, hsp⟩ := Lazygit.splits_exist
  obtain ⟨throb, ht⟩ := throbs_exist Uniseg.simple
  obtain ⟨b', e, _, p⟩ := C121_frame Uniseg.simple_lawful simple_suffix ThrobberExample.simple_plainly (fun _ h => h)
    ThrobberExample.symbols_visible hsp ht ThrobberExample.simple_writes ⟨⟨5, 1, 5⟩, 111111111⟩ 5 rfl ⟨0, 0, 30, 14⟩
    (by decide) (by decide) (by decide) (by decide)
    ⟨⟨0, 0, 30, 14⟩, List.replicate 420 Cell.empty⟩ (blank_of_content 420 (by decide) (by decide) (by decide))
  refine ⟨split, throb, b', e, ?_, ?_, ?_⟩
  · rw [p.first ⟨4, 0⟩ (by decide) rfl]; decide +kernel
  · rw [p.boxes 0 _ _ _ rfl rfl ⟨5, 3⟩ (by decide)]; decide +kernel
  · rw [p.boxes 0 _ _ _ rfl rfl ⟨1, 1⟩ (by decide)]; decide +kernel

/-- A box of ten columns and four rows. -/
example : (List.range 4).map (fun j : Nat => String.join ((List.range 10).map fun i : Nat => boxSymbol "Line" "/" 10 4 i j)) =
    ["┌Line────┐", "│        │", "│    /   │", "└────────┘"] := by decide +kernel

/-- The hypotheses of `C121_screen` about the program's environment can be met all together. -/
example : ∃ (split : Split) (throb : Throb) (d : App.Display ThrobberExample.Model), Splits split ∧ Throbs d.uniseg throb ∧
    d.view = view split throb d.uniseg (fun _ => "111.111111ms") ∧ d.uniseg.Lawful ∧ d.uniseg.Suffix ∧
    Plainly d.uniseg Symbols ∧ d.termenv.convert .reset = some .reset := by
  obtain ⟨split, hsp⟩ := Lazygit.splits_exist
  obtain ⟨throb, ht⟩ := throbs_exist Uniseg.simple
  exact ⟨split, throb, ⟨default, Uniseg.simple, simpleEnv, view split throb Uniseg.simple (fun _ => "111.111111ms")⟩, hsp, ht, rfl,
    Uniseg.simple_lawful, simple_suffix, ThrobberExample.simple_plainly, rfl⟩

end Bento
