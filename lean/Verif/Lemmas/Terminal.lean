import Verif.Lemmas.Draw
import Verif.Props.Buffer

/-! # Helper lemmas about terminal histories -/

namespace Bento

open Buffer Diff

theorem blank_content {a : Rect} {b : Buffer} (h : b.Blank a) :
    b.content = List.replicate b.content.length Cell.empty := by
  rw [List.eq_replicate_iff]
  refine ⟨rfl, fun c hc => ?_⟩
  obtain ⟨i, hi, rfl⟩ := List.mem_iff_getElem.1 hc
  have hp := pos_spec h.wf hi
  have := h.cells (pos b.area i) (by rw [← h.area_eq]; exact hp.1)
  rw [hp.2.2] at this
  injection this with this
  rw [← fn_eq hi, this]

theorem blank_of_content {a : Rect} (n : Nat) (hn : (n : Int) = a.area) (hw : 0 ≤ a.width)
    (hh : 0 ≤ a.height) : Buffer.Blank a ⟨a, List.replicate n Cell.empty⟩ := by
  refine ⟨rfl, ⟨by simpa using hn, hw, hh⟩, ?_⟩
  intro p hp
  rw [cellAt_eq (b := ⟨a, List.replicate n Cell.empty⟩) hp]
  have h1 := Rect.idx_nonneg hp
  have h2 := Rect.idx_lt_area hp
  simp only [List.getElem?_replicate]
  rw [if_pos (by omega)]

theorem blank_reset {b : Buffer} (wf : b.WF) : b.reset.Blank b.area := by
  have := C07_reset b wf
  exact ⟨this.1, this.2.1, this.2.2⟩

theorem resize_wf {b : Buffer} {a : Rect} (hw : 0 ≤ a.width) (hh : 0 ≤ a.height) :
    ∃ b', b.resize a = some b' ∧ b'.area = a ∧ b'.WF := by
  have ha : 0 ≤ a.area := Int.mul_nonneg hw hh
  by_cases hl : (b.content.length : Int) > a.area
  · refine ⟨⟨a, b.content.take a.area.toNat⟩, ?_, rfl, ⟨?_, hw, hh⟩⟩
    · simp only [Buffer.resize]; rw [if_pos hl, if_neg (by omega)]
    · simp only [List.length_take]; omega
  · refine ⟨⟨a, b.content ++ List.replicate (a.area - b.content.length).toNat Cell.empty⟩, ?_, rfl,
      ⟨?_, hw, hh⟩⟩
    · simp only [Buffer.resize]; rw [if_neg hl]
    · simp only [List.length_append, List.length_replicate]; omega

theorem blank_resize {b : Buffer} {a a' : Rect} (h : b.Blank a) (hw : 0 ≤ a'.width)
    (hh : 0 ≤ a'.height) : ∃ b', b.resize a' = some b' ∧ b'.Blank a' := by
  have ha : 0 ≤ a'.area := Int.mul_nonneg hw hh
  have hc := blank_content h
  by_cases hl : (b.content.length : Int) > a'.area
  · refine ⟨⟨a', b.content.take a'.area.toNat⟩, ?_, ?_⟩
    · simp only [Buffer.resize]; rw [if_pos hl, if_neg (by omega)]
    · rw [hc, List.take_replicate]
      exact blank_of_content _ (by omega) hw hh
  · refine ⟨⟨a', b.content ++ List.replicate (a'.area - b.content.length).toNat Cell.empty⟩, ?_, ?_⟩
    · simp only [Buffer.resize]; rw [if_neg hl]
    · rw [hc, List.replicate_append_replicate, List.length_replicate]
      exact blank_of_content _ (by omega) hw hh

theorem empty_displayable {u : Uniseg} {T : Termenv} {S : String → Prop} (env : Env u T S) :
    Cell.empty.Displayable T S := by
  refine ⟨?_, ?_, env.blank, ?_, plain_zero⟩
  · simp [Cell.empty, Cell.new, env.colours, Color.shown]
  · simp [Cell.empty, Cell.new, env.colours, Color.shown]
  · intro c hc
    simp [Cell.empty, Cell.new] at hc
    subst hc; decide

theorem penOf_empty {u : Uniseg} {T : Termenv} {S : String → Prop} (env : Env u T S) :
    penOf T Cell.empty = Pen.neutral := by
  simp [penOf, penOf', Cell.empty, Cell.new, env.colours, Color.shown, Pen.neutral,
    Modifier.none]

theorem blank_good {u : Uniseg} {T : Termenv} {S : String → Prop} (env : Env u T S) {a : Rect}
    {b : Buffer} (h : b.Blank a) : b.Good u T S a := by
  have hc : ∀ p c, b.cellAt p = some c → c = Cell.empty := by
    intro p c hpc
    have := h.cells p (by rw [← h.area_eq]; exact cellAt_some_contains hpc)
    rw [hpc] at this
    injection this
  have hw : u.width Cell.empty.symbol = 1 := env.lawful.space.2
  refine ⟨h.area_eq, h.wf, ⟨?_, ?_, ?_, ?_⟩, ?_⟩
  · intro p c hpc; rw [hc p c hpc]; exact env.lawful.space.1
  · intro p c hpc; rw [hc p c hpc]; exact Or.inl hw
  · intro p c hpc; rw [hc p c hpc]; rfl
  · intro p c hpc h2; rw [hc p c hpc, hw] at h2; omega
  · intro p c hpc; rw [hc p c hpc]; exact empty_displayable env

/-- Blank cells of the emulator show a blank buffer. -/
theorem shows_blank {u : Uniseg} {T : Termenv} {S : String → Prop} (env : Env u T S) {a : Rect}
    {b : Buffer} (h : b.Blank a) {g : Grid}
    (hg : ∀ p, a.contains p = true → g p = .glyph " " false Pen.neutral) :
    Shows u (penOf T) g b := by
  intro p c hpc
  have hin : a.contains p = true := by rw [← h.area_eq]; exact cellAt_some_contains hpc
  have hce := h.cells p hin
  rw [hpc] at hce
  injection hce with hce
  have hw : u.width " " = 1 := env.lawful.space.2
  have hcov : b.covered u p = false := by
    unfold Buffer.covered
    cases hl : b.cellAt ⟨p.x - 1, p.y⟩ with
    | none => rfl
    | some c' =>
      have := h.cells ⟨p.x - 1, p.y⟩ (by rw [← h.area_eq]; exact cellAt_some_contains hl)
      rw [hl] at this
      injection this with this
      rw [this]
      simp [Cell.empty, Cell.new, hw]
  rw [hg p hin, hcov, hce, penOf_empty env]
  simp [Cell.empty, Cell.new, hw]

theorem writeAll_append (T : Termenv) (a b : List Command) :
    writeAll T (a ++ b) =
      (writeAll T b).bind (fun y => (writeAll T a).bind (fun x => some (x ++ y))) := by
  induction a with
  | nil =>
    rw [List.nil_append]
    cases writeAll T b <;> simp [writeAll]
  | cons c cs ih =>
    have hc : ∀ l, writeAll T (c :: l) =
        (writeAll T l).bind (fun out => (c.write T).map (· ++ out)) := by
      intro l; simp [writeAll, List.foldrM_cons]
    rw [List.cons_append, hc, ih]
    cases hb : writeAll T b with
    | none => simp
    | some y =>
      rw [hc]
      cases writeAll T cs with
      | none => simp
      | some x => cases c.write T <;> simp

theorem feed_commands (j : Junk) {u : Uniseg} {T : Termenv} {S : String → Prop} (env : Env u T S)
    (cmds : List Command) (hok : ∀ c ∈ cmds, c.Ok T ∧ ∀ s, c = .print s → S s) (sc : Screen) :
    ∃ out, writeAll T cmds = some out ∧ sc.feed j u out = cmds.foldl (Command.effect j u T) sc := by
  apply C16_commands_decode_partial j u T cmds (fun c hc => (hok c hc).1)
  intro l hl
  exact env.sep l (fun s hs => (hok _ (hl s hs)).2 s rfl)

/-- Cursor commands of `Draw`. -/
def cursorCommands : Option Position → List Command
  | none => [.hideCursor]
  | some p => [.showCursor, .moveTo p.x p.y]

/-- The state invariant of the terminal. -/
structure PInv (u : Uniseg) (T : Termenv) (S : String → Prop) (t : Terminal) : Prop where
  prev : t.prev.Good u T S t.viewportArea
  x : 0 ≤ t.viewportArea.x
  y : 0 ≤ t.viewportArea.y
  vp : ∀ n, t.viewport ≠ .inline n

/-- … and the current buffer is blank. -/
structure TInv (u : Uniseg) (T : Termenv) (S : String → Prop) (t : Terminal) : Prop
    extends PInv u T S t where
  cur : t.cur.Blank t.viewportArea

theorem TInv.width {u T S t} (h : TInv u T S t) : 0 ≤ t.viewportArea.width := by
  have := h.cur.wf.width_nonneg; rwa [h.cur.area_eq] at this

theorem TInv.height {u T S t} (h : TInv u T S t) : 0 ≤ t.viewportArea.height := by
  have := h.cur.wf.height_nonneg; rwa [h.cur.area_eq] at this

theorem diff_some {u : Uniseg} {b o : Buffer} (wf : b.WF) (wf' : o.WF) (ha : b.area = o.area) :
    ∃ ups, b.diff u o = some ups := ⟨_, diff_sublist u b o wf wf' ha⟩

/-- What `Draw` does when nothing fails. -/
theorem draw_spec {u T S t} (env : Env u T S) (ht : PInv u T S t) {w : Widget} {b : Buffer}
    {cur : Option Position} (hw : w t.viewportArea t.cur = some (b, cur))
    (hb : b.Good u T S t.viewportArea) (hcur : ∀ p, cur = some p → 0 ≤ p.x ∧ 0 ≤ p.y) :
    ∃ t' ups out,
      t.draw u T w noFault = some (t', out, true) ∧
      t.prev.diff u b = some ups ∧
      (∀ pc ∈ ups, b.cellAt pc.pos = some pc.cell) ∧
      (∀ c ∈ drawCommands T ups ++ cursorCommands cur, c.Ok T ∧ ∀ s, c = .print s → S s) ∧
      writeAll T (drawCommands T ups ++ cursorCommands cur) = some out ∧
      t'.prev = b ∧ t'.cur = t.prev.reset ∧ t'.viewportArea = t.viewportArea ∧
      t'.viewport = t.viewport ∧ t'.hiddenCursor = cur.isNone ∧
      t'.frameCount = t.frameCount + 1 := by
  obtain ⟨ups, hups⟩ := diff_some (u := u) ht.prev.wf hb.wf
    (by rw [ht.prev.area_eq, hb.area_eq])
  have hcells := (C11_reported_once_in_order u t.prev b ht.prev.wf hb.wf
    (by rw [ht.prev.area_eq, hb.area_eq]) ups hups).1
  have hok : ∀ pc ∈ ups, pc.cell.Displayable T S ∧ 0 ≤ pc.pos.x ∧ 0 ≤ pc.pos.y := by
    intro pc hpc
    refine ⟨hb.cells _ _ (hcells pc hpc), ?_⟩
    have := cellAt_some_contains (hcells pc hpc)
    rw [hb.area_eq, Rect.contains_iff] at this
    unfold Rect.Mem at this
    have := ht.x
    have := ht.y
    omega
  have hokc : ∀ c ∈ drawCommands T ups ++ cursorCommands cur,
      c.Ok T ∧ ∀ s, c = .print s → S s := by
    intro c hc
    rcases List.mem_append.1 hc with hc | hc
    · exact drawCommands_ok T S ups hok c hc
    · cases cur with
      | none => simp only [cursorCommands, List.mem_singleton] at hc; subst hc; exact ⟨trivial, by simp⟩
      | some p =>
        simp only [cursorCommands, List.mem_cons, List.not_mem_nil, or_false] at hc
        rcases hc with rfl | rfl
        · exact ⟨trivial, by simp⟩
        · exact ⟨hcur p rfl, by simp⟩
  obtain ⟨out1, ho1, _⟩ := feed_commands default env (drawCommands T ups)
    (drawCommands_ok T S ups hok) (Screen.mk 0 0 Grid.blank 0 0 Pen.neutral true true Grid.blank true)
  have hfl : ({ t with cur := b } : Terminal).flush u = some
      (match ups.getLast? with
        | some last => { t with cur := b, lastKnownCursorPos := last.pos }
        | none => { t with cur := b }, ups) := by
    simp only [Terminal.flush, hups, Option.bind_eq_bind, Option.bind_some]
    rfl
  have hd0 : t.draw u T w noFault = t.draw u T w noFault := rfl
  simp only [Terminal.draw, hw, Option.bind_eq_bind, Option.bind_some, hfl, ho1, noFault] at hd0 ⊢
  generalize ht1 : (match ups.getLast? with
        | some last => ({ t with cur := b, lastKnownCursorPos := last.pos } : Terminal)
        | none => { t with cur := b }) = t1
  have f1 : t1.cur = b ∧ t1.prev = t.prev ∧ t1.viewportArea = t.viewportArea ∧
      t1.viewport = t.viewport ∧ t1.frameCount = t.frameCount := by
    subst ht1
    cases ups.getLast? <;> exact ⟨rfl, rfl, rfl, rfl, rfl⟩
  cases cur with
  | none =>
    refine ⟨_, ups, _, rfl, hups, hcells, hokc, ?_, ?_, ?_, ?_, ?_, ?_, ?_⟩
    · rw [writeAll_append, ho1]; rfl
    · exact f1.1
    · exact congrArg Buffer.reset f1.2.1
    · exact f1.2.2.1
    · exact f1.2.2.2.1
    · rfl
    · exact congrArg (· + 1) f1.2.2.2.2
  | some p =>
    refine ⟨_, ups, _, rfl, hups, hcells, hokc, ?_, ?_, ?_, ?_, ?_, ?_, ?_⟩
    · rw [writeAll_append, ho1]
      simp [cursorCommands, writeAll, Command.write]
    · exact f1.1
    · exact congrArg Buffer.reset f1.2.1
    · exact f1.2.2.1
    · exact f1.2.2.2.1
    · rfl
    · exact congrArg (· + 1) f1.2.2.2.2

theorem draw_tinv {u T S t} (ht : PInv u T S t) {t' : Terminal} {b : Buffer}
    (hb : b.Good u T S t.viewportArea) (h1 : t'.prev = b) (h2 : t'.cur = t.prev.reset)
    (h3 : t'.viewportArea = t.viewportArea) (h4 : t'.viewport = t.viewport) : TInv u T S t' := by
  refine ⟨⟨?_, ?_, ?_, ?_⟩, ?_⟩
  · rw [h1, h3]; exact hb
  · rw [h3]; exact ht.x
  · rw [h3]; exact ht.y
  · rw [h4]; exact ht.vp
  · rw [h2, h3, ← ht.prev.area_eq]; exact blank_reset ht.prev.wf

/-- The screen after the cursor commands. -/
theorem cursor_effect (j : Junk) (u : Uniseg) (T : Termenv) (cur : Option Position) (sc : Screen) :
    (cursorCommands cur).foldl (Command.effect j u T) sc =
      match cur with
      | none => { sc with visible := false }
      | some p => { sc with
          visible := true, cx := clampInt 0 (sc.cols - 1) p.x, cy := clampInt 0 (sc.rows - 1) p.y } := by
  cases cur <;> rfl

/-- Draw on a screen that shows the previous frame. -/
theorem draw_shows (j : Junk) {u T S t} (env : Env u T S) (ht : PInv u T S t) {b : Buffer}
    (hb : b.Good u T S t.viewportArea) {ups : List PositionedCell}
    (hups : t.prev.diff u b = some ups) (hcells : ∀ pc ∈ ups, b.cellAt pc.pos = some pc.cell)
    (sc : Screen) (hfit : sc.Fits t.viewportArea) (hpen : sc.pen = Pen.neutral)
    (hs : Shows u (penOf T) sc.grid t.prev) :
    ∃ cx cy g, (drawCommands T ups).foldl (Command.effect j u T) sc =
      { sc with grid := g, cx := cx, cy := cy } ∧ Shows u (penOf T) g b ∧
      ((∀ y, sc.grid ⟨t.viewportArea.x + t.viewportArea.width, y⟩ ≠ .cont) →
        ∀ q, t.viewportArea.contains q = false → g q = sc.grid q) := by
  have ha : t.prev.area = b.area := by rw [ht.prev.area_eq, hb.area_eq]
  have hok : ∀ pc ∈ ups, pc.cell.Displayable T S ∧ OnScreen u sc.cols sc.rows pc := by
    intro pc hpc
    have hc := hcells pc hpc
    refine ⟨hb.cells _ _ hc, ?_⟩
    have hin := cellAt_some_contains hc
    have hin' := hin
    rw [hb.area_eq, Rect.contains_iff] at hin
    unfold Rect.Mem at hin
    have h1 := hfit.x
    have h2 := hfit.y
    have h3 := hfit.right
    have h4 := hfit.bottom
    have hwd := hb.drawable.width _ _ hc
    refine ⟨by omega, by omega, ?_, by omega, hb.drawable.single _ _ hc, hwd⟩
    rcases hwd with hw | hw
    · rw [hw]; omega
    · obtain ⟨c', hc', _⟩ := hb.drawable.follow _ _ hc hw
      have := cellAt_some_contains hc'
      rw [hb.area_eq, Rect.contains_iff] at this
      unfold Rect.Mem at this
      simp only at this
      rw [hw]; omega
  have hchain : ∀ p ∈ ups, ∀ q ∈ ups, q.pos = ⟨p.pos.x + 1, p.pos.y⟩ → u.width p.cell.symbol = 1 := by
    intro p hp q hq hpq
    rcases hb.drawable.width _ _ (hcells p hp) with h | h
    · exact h
    · exfalso
      have hcq := hcells q hq
      obtain ⟨cb, hcb⟩ := ht.prev.wf.cellAt_isSome (p := q.pos) (by
        rw [ha]; exact cellAt_some_contains hcq)
      have := (C11_reported_only_if_needed u env.lawful t.prev b ht.prev.wf hb.wf ha
        ht.prev.drawable hb.drawable ups hups q.pos cb q.cell hcb hcq).1 ⟨q, hq, rfl⟩
      have hcov := this.1
      unfold Buffer.covered at hcov
      have hp' : (⟨q.pos.x - 1, q.pos.y⟩ : Position) = p.pos := by
        rw [hpq]; ext <;> simp
      rw [hp', hcells p hp] at hcov
      simp [h] at hcov
  obtain ⟨cx, cy, he⟩ := drawCommands_effect j u T S env.colours ups sc hok hchain hpen
  obtain ⟨ups', hu', hsh, hout⟩ := C10_diff_is_correct_patch u env.lawful j (penOf T) sc.grid t.prev b
    ht.prev.wf hb.wf ha ht.prev.drawable hb.drawable hs
  rw [hups] at hu'
  injection hu' with hu'
  subst hu'
  refine ⟨cx, cy, _, he, hsh, ?_⟩
  rw [ht.prev.area_eq] at hout
  exact hout

theorem new_tinv {u T S} (env : Env u T S) {vp : Viewport} {w h : Int} {t : Terminal}
    (hnew : Terminal.new vp w h = some t) (hx : 0 ≤ t.viewportArea.x) (hy : 0 ≤ t.viewportArea.y)
    (hw : 0 ≤ t.viewportArea.width) (hh : 0 ≤ t.viewportArea.height) :
    TInv u T S t ∧ t.prev.Blank t.viewportArea := by
  have key : ∀ a b, Buffer.newEmpty a = some b → 0 ≤ a.width → 0 ≤ a.height → b.Blank a := by
    intro a b hb h1 h2
    obtain ⟨b', e1, e2, e3, e4⟩ := newFilled_some (area := a) (c := Cell.empty) h1 h2
    rw [Buffer.newEmpty, e1] at hb
    injection hb with hb
    subst hb
    exact ⟨e2, e3, e4⟩
  cases vp with
  | inline n => simp [Terminal.new] at hnew
  | fullscreen =>
    simp only [Terminal.new, Option.bind_eq_bind, Option.bind_eq_some_iff] at hnew
    obtain ⟨b, hb, ht⟩ := hnew
    injection ht with ht
    subst ht
    have := key _ _ hb hw hh
    exact ⟨⟨⟨blank_good env this, hx, hy, by simp⟩, this⟩, this⟩
  | fixed r =>
    simp only [Terminal.new, Option.bind_eq_bind, Option.bind_eq_some_iff] at hnew
    obtain ⟨b, hb, ht⟩ := hnew
    injection ht with ht
    subst ht
    have := key _ _ hb hw hh
    exact ⟨⟨⟨blank_good env this, hx, hy, by simp⟩, this⟩, this⟩

/-- What `Clear` does when nothing fails. -/
theorem clear_spec (T : Termenv) {t t' : Terminal} {out : List Char} {fault ok}
    (h : t.clear T fault = some (t', out, ok)) (hf : fault = none) :
    ok = true ∧ t' = { t with prev := t.prev.reset } ∧
    ∃ cmds, t.clearCommands = some cmds ∧ writeAll T cmds = some out := by
  subst hf
  simp only [Terminal.clear, Option.bind_eq_bind, Option.bind_eq_some_iff] at h
  obtain ⟨cmds, h1, o, h2, h3⟩ := h
  injection h3 with h3
  injection h3 with h3 h4
  injection h4 with h4 h5
  subst h4
  exact ⟨h5.symm, h3.symm, cmds, h1, h2⟩

/-- A blank cell. -/
def blankCell : SCell := .glyph " " false Pen.neutral

theorem erase_blank {j : Junk} {g : Grid} {r : Position → Bool} {p : Position}
    (h : g p = blankCell ∨ r p = true) : g.erase j .default r p = blankCell := by
  unfold Grid.erase
  by_cases hr : r p = true
  · rw [if_pos hr]; rfl
  · rw [if_neg hr]
    rcases h with h | h
    · simp [h, blankCell, SCell.isWide]
    · exact absurd h hr

/-- The effect of the commands of `Clear`: the pen stays, the viewport is blank. -/
theorem clear_effect (j : Junk) (u : Uniseg) (T : Termenv) {t : Terminal} {cmds : List Command}
    (hvp : ∀ n, t.viewport ≠ .inline n) (hc : t.clearCommands = some cmds) (sc : Screen)
    (hpen : sc.pen = Pen.neutral) :
    ∃ g cx cy, cmds.foldl (Command.effect j u T) sc = { sc with grid := g, cx := cx, cy := cy } ∧
      (sc.Fits t.viewportArea → ∀ p, t.viewportArea.contains p = true → g p = blankCell) := by
  have hbg : sc.pen.bg = .default := by rw [hpen]; rfl
  cases hv : t.viewport with
  | inline n => exact absurd hv (hvp n)
  | fullscreen =>
    simp only [Terminal.clearCommands, hv, Option.some.injEq] at hc
    subst hc
    refine ⟨sc.grid.erase j sc.pen.bg (fun _ => true), sc.cx, sc.cy, rfl, ?_⟩
    intro _ p _
    rw [hbg]; exact erase_blank (Or.inr rfl)
  | fixed r =>
    simp only [Terminal.clearCommands, hv, Option.some.injEq] at hc
    subst hc
    -- generalise over the rows
    have key : ∀ (ys : List Int) (sc : Screen), sc.pen = Pen.neutral →
        ∃ g cx cy, (ys.flatMap (fun y => [Command.moveTo 0 y, .clearAfterCursor])).foldl
          (Command.effect j u T) sc = { sc with grid := g, cx := cx, cy := cy } ∧
        (∀ p, sc.grid p = blankCell → g p = blankCell) ∧
        (∀ y ∈ ys, ∀ p : Position, 0 ≤ y → y < sc.rows → p.y = y → 0 ≤ p.x → p.x < sc.cols →
          g p = blankCell) := by
      intro ys
      induction ys with
      | nil => intro sc _; exact ⟨sc.grid, sc.cx, sc.cy, rfl, fun _ h => h, by simp⟩
      | cons y ys ih =>
        intro sc hpen
        have hbg : sc.pen.bg = .default := by rw [hpen]; rfl
        simp only [List.flatMap_cons, List.foldl_append, List.foldl_cons, List.foldl_nil,
          Command.effect, Screen.eraseWhere]
        obtain ⟨g, cx, cy, e, h1, h2⟩ := ih { sc with
          cx := clampInt 0 (sc.cols - 1) 0, cy := clampInt 0 (sc.rows - 1) y
          grid := sc.grid.erase j sc.pen.bg (fun q =>
            decide (q.y > clampInt 0 (sc.rows - 1) y) || (q.y == clampInt 0 (sc.rows - 1) y &&
              decide (q.x ≥ min (clampInt 0 (sc.cols - 1) 0) (sc.cols - 1)))) } hpen
        refine ⟨g, cx, cy, e, ?_, ?_⟩
        · intro p hp
          apply h1
          dsimp only
          rw [hbg]
          exact erase_blank (Or.inl hp)
        · intro y' hy' p hy0 hyr hpy hx0 hx
          rcases List.mem_cons.1 hy' with rfl | hy'
          · apply h1
            dsimp only
            rw [hbg]
            apply erase_blank
            right
            rw [clampInt_id hy0 (by omega)]
            simp only [Bool.or_eq_true, Bool.and_eq_true, decide_eq_true_eq, beq_iff_eq]
            right
            refine ⟨hpy, ?_⟩
            unfold clampInt
            omega
          · exact h2 y' hy' p hy0 hyr hpy hx0 hx
    obtain ⟨g, cx, cy, e, _, h2⟩ := key (intRange t.viewportArea.top t.viewportArea.bottom) sc hpen
    refine ⟨g, cx, cy, e, ?_⟩
    intro hfit p hp
    rw [Rect.contains_iff] at hp
    unfold Rect.Mem at hp
    have := hfit.x
    have := hfit.y
    have := hfit.right
    have := hfit.bottom
    refine h2 p.y (by rw [mem_intRange]; simp only [Rect.top, Rect.bottom]; omega) p (by omega)
      (by omega) rfl (by omega) (by omega)

theorem clear_ok (T : Termenv) (S : String → Prop) {t : Terminal} {cmds : List Command}
    (hvp : ∀ n, t.viewport ≠ .inline n) (hy : 0 ≤ t.viewportArea.y)
    (hc : t.clearCommands = some cmds) : ∀ c ∈ cmds, c.Ok T ∧ ∀ s, c = .print s → S s := by
  intro c hcm
  cases hv : t.viewport with
  | inline n => exact absurd hv (hvp n)
  | fullscreen =>
    simp only [Terminal.clearCommands, hv, Option.some.injEq] at hc
    subst hc
    simp only [List.mem_singleton] at hcm
    subst hcm
    exact ⟨trivial, by simp⟩
  | fixed r =>
    simp only [Terminal.clearCommands, hv, Option.some.injEq] at hc
    subst hc
    simp only [List.mem_flatMap, List.mem_cons, List.not_mem_nil, or_false] at hcm
    obtain ⟨y, hym, rfl | rfl⟩ := hcm
    · rw [mem_intRange] at hym
      simp only [Rect.top] at hym
      exact ⟨⟨by omega, by omega⟩, by simp⟩
    · exact ⟨trivial, by simp⟩

/-- `Clear` always succeeds when nothing fails. -/
theorem clear_some (j : Junk) {u T S} {t : Terminal} (env : Env u T S) (hvp : ∀ n, t.viewport ≠ .inline n)
    (hy : 0 ≤ t.viewportArea.y) :
    ∃ out, t.clear T none = some ({ t with prev := t.prev.reset }, out, true) := by
  have : ∃ cmds, t.clearCommands = some cmds := by
    cases hv : t.viewport <;> simp [Terminal.clearCommands, hv]
  obtain ⟨cmds, hc⟩ := this
  obtain ⟨out, ho, _⟩ := feed_commands j env cmds (clear_ok T S hvp hy hc)
    (Screen.mk 0 0 Grid.blank 0 0 Pen.neutral true true Grid.blank true)
  exact ⟨out, by simp [Terminal.clear, hc, ho]⟩

/-- `setViewportArea` on a terminal satisfying the invariant. -/
theorem setViewport_spec {u T S t} (ht : TInv u T S t) {a : Rect} (hw : 0 ≤ a.width)
    (hh : 0 ≤ a.height) : ∃ t1, t.setViewportArea a = some t1 ∧ t1.cur.Blank a ∧ t1.prev.WF ∧
      t1.prev.area = a ∧ t1.viewportArea = a ∧ t1.viewport = t.viewport := by
  obtain ⟨c, h1, h2⟩ := blank_resize ht.cur hw hh
  obtain ⟨p, h3, h4, h5⟩ := resize_wf (b := t.prev) hw hh
  refine ⟨{ t with cur := c, prev := p, viewportArea := a }, ?_, h2, h5, h4, rfl, rfl⟩
  simp [Terminal.setViewportArea, h1, h3]

theorem resize_spec (T : Termenv) {t t' t1 : Terminal} {a : Rect} {out : List Char}
    (hvp : ∀ n, t.viewport ≠ .inline n) (h1 : t.setViewportArea a = some t1)
    (h : t.resize T a none = some (t', out, true)) :
    t1.clear T none = some ({ t1 with prev := t1.prev.reset }, out, true) ∧
    t' = { t1 with prev := t1.prev.reset, lastKnownArea := a } := by
  have h' : t.resize T a none = (do
      let t ← t.setViewportArea a
      let (t, out, ok) ← t.clear T none
      if ok then some ({ t with lastKnownArea := a }, out, true)
      else some (t, out, false)) := by
    cases hv : t.viewport with
    | inline n => exact absurd hv (hvp n)
    | _ => simp [Terminal.resize, hv]
  rw [h'] at h
  simp only [h1, Option.bind_eq_bind, Option.bind_some, Option.bind_eq_some_iff] at h
  obtain ⟨⟨t2, o, ok⟩, h2, h3⟩ := h
  obtain ⟨rfl, rfl, _⟩ := clear_spec T h2 rfl
  simp only [if_true, Option.some.injEq, Prod.mk.injEq, and_true] at h3
  obtain ⟨rfl, rfl⟩ := h3
  exact ⟨h2, rfl⟩

/-- What a failed `Draw` leaves behind: either the drawn frame in the current buffer and the old
previous buffer, or (failure of the last backend call) the state of a successful draw. -/
theorem draw_failed {u T} {t : Terminal} {w : Widget} {faults : Nat → Option Nat} {t' : Terminal}
    {out : List Char} {b : Buffer} {cur : Option Position}
    (hw : w t.viewportArea t.cur = some (b, cur))
    (h : t.draw u T w faults = some (t', out, false)) :
    ((t'.cur = b ∧ t'.prev = t.prev) ∨ (t'.prev = b ∧ t'.cur = t.prev.reset)) ∧
      t'.viewportArea = t.viewportArea ∧ t'.viewport = t.viewport ∧
      t'.frameCount = t.frameCount := by
  simp only [Terminal.draw, hw, Option.bind_eq_bind, Option.bind_some,
    Option.bind_eq_some_iff] at h
  obtain ⟨⟨t1, ups⟩, h1, out1, h2, h3⟩ := h
  have f1 : t1.cur = b ∧ t1.prev = t.prev ∧ t1.viewportArea = t.viewportArea ∧
      t1.viewport = t.viewport ∧ t1.frameCount = t.frameCount := by
    simp only [Terminal.flush, Option.bind_eq_bind, Option.bind_eq_some_iff] at h1
    obtain ⟨ups', _, h1⟩ := h1
    injection h1 with h1
    injection h1 with h1 _
    subst h1
    cases ups'.getLast? <;> exact ⟨rfl, rfl, rfl, rfl, rfl⟩
  have fin : ∀ (o : List Char) (tt : Terminal) (k : Nat),
      some ({ tt with frameCount := k }, o, true) ≠ some (t', out, false) := by
    intro o tt k he
    injection he with he
    injection he with _ he
    injection he with _ he
    cases he
  cases hf0 : faults 0 with
  | some n =>
    simp only [hf0, Option.some.injEq, Prod.mk.injEq, and_true] at h3
    obtain ⟨rfl, _⟩ := h3
    exact ⟨Or.inl ⟨f1.1, f1.2.1⟩, f1.2.2⟩
  | none =>
    simp only [hf0] at h3
    cases cur with
    | none =>
      simp only [Option.bind_eq_some_iff] at h3
      obtain ⟨o1, _, h3⟩ := h3
      cases hf1 : faults 1 with
      | some n =>
        simp only [hf1, Option.some.injEq, Prod.mk.injEq, and_true] at h3
        obtain ⟨rfl, _⟩ := h3
        exact ⟨Or.inl ⟨f1.1, f1.2.1⟩, f1.2.2⟩
      | none =>
        simp only [hf1] at h3
        cases hf2 : faults 2 with
        | some n =>
          simp only [hf2, Option.some.injEq, Prod.mk.injEq, and_true] at h3
          obtain ⟨rfl, _⟩ := h3
          exact ⟨Or.inr ⟨f1.1, congrArg Buffer.reset f1.2.1⟩, f1.2.2⟩
        | none =>
          simp only [hf2] at h3
          exact absurd h3 (fin _ _ _)
    | some p =>
      simp only [Option.bind_eq_some_iff] at h3
      obtain ⟨o1, _, h3⟩ := h3
      cases hf1 : faults 1 with
      | some n =>
        simp only [hf1, Option.some.injEq, Prod.mk.injEq, and_true] at h3
        obtain ⟨rfl, _⟩ := h3
        exact ⟨Or.inl ⟨f1.1, f1.2.1⟩, f1.2.2⟩
      | none =>
        simp only [hf1, Option.bind_eq_some_iff] at h3
        obtain ⟨o2, _, h3⟩ := h3
        cases hf2 : faults 2 with
        | some n =>
          simp only [hf2, Option.some.injEq, Prod.mk.injEq, and_true] at h3
          obtain ⟨rfl, _⟩ := h3
          exact ⟨Or.inl ⟨f1.1, f1.2.1⟩, f1.2.2⟩
        | none =>
          simp only [hf2] at h3
          cases hf3 : faults 3 with
          | some n =>
            simp only [hf3, Option.some.injEq, Prod.mk.injEq, and_true] at h3
            obtain ⟨rfl, _⟩ := h3
            exact ⟨Or.inr ⟨f1.1, congrArg Buffer.reset f1.2.1⟩, f1.2.2⟩
          | none =>
            simp only [hf3] at h3
            exact absurd h3 (fin _ _ _)

/-- The invariant of all histories. -/
theorem history_inv {j u T S} (env : Env u T S) {t sc s} (h : History j u T S t sc s) :
    TInv u T S t ∧ sc.pen = Pen.neutral ∧
      (s = true → sc.Fits t.viewportArea ∧ Shows u (penOf T) sc.grid t.prev) := by
  induction h with
  | start vp sc t hnew hfit hg hp =>
    obtain ⟨h1, h2⟩ := new_tinv env hnew hfit.x hfit.y hfit.width hfit.height
    refine ⟨h1, hp, fun _ => ⟨hfit, shows_blank env h2 (fun p _ => by rw [hg]; rfl)⟩⟩
  | @draw t sc s _ w hw t' out hd ih =>
    obtain ⟨ht, hpen, hs⟩ := ih
    obtain ⟨b, cur, hwb, hb, hcur⟩ := hw t.viewportArea t.cur ht.x ht.y ht.cur
    obtain ⟨t2, ups, out2, e1, e2, e3, e4, e5, e6, e7, e8, e9, _⟩ := draw_spec env ht.toPInv hwb hb hcur
    rw [e1] at hd
    injection hd with hd
    injection hd with hd1 hd2
    injection hd2 with hd2 _
    subst hd1
    subst hd2
    have ht' := draw_tinv ht.toPInv hb e6 e7 e8 e9
    obtain ⟨o, ho, hf⟩ := feed_commands j env _ e4 sc
    rw [e5] at ho
    injection ho with ho
    subst ho
    rw [hf, List.foldl_append, cursor_effect]
    refine ⟨ht', ?_, ?_⟩
    · cases cur <;> exact drawCommands_pen j u T ups sc
    · intro hst
      obtain ⟨hfit, hsh⟩ := hs hst
      obtain ⟨cx, cy, g, he, hsh', _⟩ := draw_shows j env ht.toPInv hb e2 e3 sc hfit hpen hsh
      rw [he, e8, e6]
      cases cur <;> exact ⟨⟨hfit.x, hfit.y, hfit.width, hfit.height, hfit.right, hfit.bottom⟩, hsh'⟩
  | @resize t sc s _ area hfit t' out hd ih =>
    obtain ⟨ht, hpen, _⟩ := ih
    obtain ⟨t1, h1, h2, h3, h4, h5, h6⟩ := setViewport_spec ht hfit.width hfit.height
    obtain ⟨hc, rfl⟩ := resize_spec T ht.vp h1 hd
    obtain ⟨_, _, cmds, hcm, ho⟩ := clear_spec T hc rfl
    have hvp : ∀ n, t1.viewport ≠ .inline n := by rw [h6]; exact ht.vp
    obtain ⟨o, ho', hf⟩ := feed_commands j env cmds
      (clear_ok T S hvp (by rw [h5]; exact hfit.y) hcm) sc
    rw [ho] at ho'
    injection ho' with ho'
    subst ho'
    obtain ⟨g, cx, cy, he, hbl⟩ := clear_effect j u T hvp hcm sc hpen
    have hbk : t1.prev.reset.Blank area := by have := blank_reset h3; rwa [h4] at this
    rw [hf, he]
    refine ⟨⟨⟨?_, ?_, ?_, hvp⟩, ?_⟩, hpen, fun _ => ⟨?_, ?_⟩⟩
    · simp only [h5]; exact blank_good env hbk
    · simp only [h5]; exact hfit.x
    · simp only [h5]; exact hfit.y
    · simp only [h5]; exact h2
    · simp only [h5]
      exact ⟨hfit.x, hfit.y, hfit.width, hfit.height, hfit.right, hfit.bottom⟩
    · refine shows_blank env hbk (fun p hp => ?_)
      exact hbl (by rw [h5]; exact hfit) p (by rw [h5]; exact hp)
  | @clear t sc s _ hfit t' out hd ih =>
    obtain ⟨ht, hpen, _⟩ := ih
    obtain ⟨_, rfl, cmds, hcm, ho⟩ := clear_spec T hd rfl
    obtain ⟨o, ho', hf⟩ := feed_commands j env cmds (clear_ok T S ht.vp ht.y hcm) sc
    rw [ho] at ho'
    injection ho' with ho'
    subst ho'
    obtain ⟨g, cx, cy, he, hbl⟩ := clear_effect j u T ht.vp hcm sc hpen
    have hbk : t.prev.reset.Blank t.viewportArea := by
      have := blank_reset ht.prev.wf; rwa [ht.prev.area_eq] at this
    rw [hf, he]
    refine ⟨⟨⟨blank_good env hbk, ht.x, ht.y, ht.vp⟩, ht.cur⟩, hpen, fun _ => ⟨?_, ?_⟩⟩
    · exact ⟨hfit.x, hfit.y, hfit.width, hfit.height, hfit.right, hfit.bottom⟩
    · exact shows_blank env hbk (fun p hp => hbl hfit p hp)
  | disturb _ cols rows g cx cy ih => exact ⟨ih.1, ih.2.1, fun h => by cases h⟩

end Bento
