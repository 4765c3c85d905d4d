import Verif.Model.App
import Verif.Spec.Terminal

/-!
# A running app and the screen it runs on

The steps of the event loop (`Model/App`) together with what they do to the `Terminal` (`Model/Terminal`) and what
the terminal emulator (`Spec/Screen`) makes of the bytes.

Simplification: an operation of the terminal is one step. When it fails, or when a draw panics half way, nothing is
assumed about what it leaves behind.
-/

namespace Bento

namespace App

/-- The surroundings of an app: what the screen does to halves of wide characters, the segmentation of text, the
colour profile, and how a model is drawn (`/repo/app.go:36-41`: a `Model` is a `Widget`). -/
structure Display (σ : Type) where
  junk : Junk
  uniseg : Uniseg
  termenv : Termenv
  view : σ → Widget

/-- The terminal of the app, the screen, and whether the app knows the size of the screen: the screen was not
disturbed since the app started, or since it resized the terminal to the size of the screen. -/
structure Tty where
  term : Terminal
  screen : Screen
  known : Bool

section

variable {σ μ : Type}

/-- A command is written successfully. -/
def Display.Sends (d : Display σ) (c : Command) (sc sc' : Screen) : Prop :=
  ∃ out, writeAll d.termenv [c] = some out ∧ sc' = sc.feed d.junk d.uniseg out

/-- `/repo/app.go:388-398`, `/repo/tty.go:26-51`, `/repo/terminal.go:108-118`, `178-185` — a stage of
`shutdown`. -/
def Display.Closes (d : Display σ) (stage : Stage) (ok : Bool) (y y' : Tty) : Prop :=
  match stage, ok with
  | .paste, true => ∃ sc, d.Sends .disableBracketedPaste y.screen sc ∧ y' = { y with screen := sc }
  | .cursor, true => ∃ sc, d.Sends .showCursor y.screen sc ∧
      y' = { y with screen := sc, term := { y.term with hiddenCursor := false } }
  | .alt, true => ∃ sc, d.Sends .leaveAlternateScreen y.screen sc ∧ y' = { y with screen := sc }
  | .cancel, _ | .wait, _ | .raw, true => y' = y
  | _, false => True

/-- The model that `Run` is about to draw. -/
def Program.drawing (p : Program σ μ) : Main σ → Option σ
  | .draw0 => some p.start
  | .draw m => some m
  | .lastDraw m => some m
  | _ => none

/-- `/repo/app.go:190-235`, `305-316`, `353-398`, `/repo/tty.go:12-51`, `/repo/terminal.go:104-185`, `225-244` — what
a step does to the terminal and the screen. -/
def Display.Touches (p : Program σ μ) (d : Display σ) (s : State σ μ) (c : Choice μ) (y y' : Tty) : Prop :=
  match c with
  | .main (.op ok) =>
    match s.main, ok with
    | .cursor, true => ∃ sc, d.Sends .hideCursor y.screen sc ∧
        y' = { y with screen := sc, term := { y.term with hiddenCursor := true } }
    | .alt, true => ∃ sc, d.Sends .enterAlternateScreen y.screen sc ∧ y' = { y with screen := sc }
    | .cursor, false | .alt, false => True
    | .closing _ stage, ok => d.Closes stage ok y y'
    | _, _ => y' = y
  | .main (.drawn (.ok hidden)) => ∃ m t out, p.drawing s.main = some m ∧
      y.term.draw d.uniseg d.termenv (d.view m) noFault = some (t, out, true) ∧ hidden = t.hiddenCursor ∧
      y' = { y with term := t, screen := y.screen.feed d.junk d.uniseg out }
  | .main (.drawn .panics) => y'.screen = y.screen
  | .main (.drawn .error) => True
  | .message i j ok =>
    match (s.threads[i]?).bind (offer · j), ok with
    | some (some (.size w h), _), true => 0 ≤ w ∧ 0 ≤ h ∧ ∃ t out,
        y.term.resize d.termenv (Rect.new w h) none = some (t, out, true) ∧
        y' = ⟨t, y.screen.feed d.junk d.uniseg out, decide (w = y.screen.cols ∧ h = y.screen.rows)⟩
    | some (some (.size _ _), _), false => True
    | _, _ => y' = y
  | .thread i (.op ok) =>
    match s.threads[i]? with
    | some (.rescue stage) => d.Closes stage ok y y'
    | _ => y' = y
  | _ => y' = y

/-- A running app. The grid is what the screen of the shell holds. -/
inductive Live (p : Program σ μ) (d : Display σ) : State σ μ → Tty → Grid → Prop
  /-- The app starts on a terminal with the default rendition that shows the screen of the shell. -/
  | start (sc : Screen) (t : Terminal) (hnew : Terminal.new .fullscreen sc.cols sc.rows = some t)
      (hc : 0 ≤ sc.cols) (hr : 0 ≤ sc.rows) (hp : sc.pen = Pen.neutral) (ha : sc.alt = false) :
      Live p d (.start σ μ) ⟨t, sc, true⟩ sc.grid
  /-- The window changes its size; nothing is assumed about what becomes of the contents. -/
  | window {s y g} (h : Live p d s y g) (cols rows cx cy : Int) (grid other : Grid) :
      Live p d s { y with
        screen := { y.screen with cols := cols, rows := rows, cx := cx, cy := cy, grid := grid, other := other }
        known := false } (if y.screen.alt then other else grid)
  /-- The app takes a step. -/
  | step {s y g} (h : Live p d s y g) (c : Choice μ) (s' : State σ μ) (hs : step p s c = some s') (y' : Tty)
      (hy : d.Touches p s c y y') : Live p d s' y' g

end

end App

end Bento
