import Verif.Spec.Commands
import Verif.Spec.Frame
import Verif.Lemmas.Buffer
import Verif.Model.Terminal

/-!
# Specification: terminal histories and what the screen must show
-/

namespace Bento

/-- The rendition in which a cell with these colours and modifiers is to be shown. -/
def penOf' (T : Termenv) (fg bg : Color) (m : Modifier) : Pen :=
  ⟨((T.convert fg).bind (Color.shown T)).getD .default,
   ((T.convert bg).bind (Color.shown T)).getD .default, m⟩

/-- The rendition of a cell. -/
def penOf (T : Termenv) (c : Cell) : Pen := penOf' T c.fg c.bg c.modifier

/-- Modifier sets the backend supports: no `hidden`, not both blinks, only defined bits. -/
def Modifier.Plain (m : Modifier) : Prop :=
  m.getLsbD 7 = false ∧ (∀ i, 9 ≤ i → m.getLsbD i = false) ∧
    ¬ (m.getLsbD 4 = true ∧ m.getLsbD 5 = true)

/-- Cells that can be displayed: the colour profile converts the colours to colours the terminal can
show, the symbol is printable and belongs to the set `S` of symbols in use. -/
structure Cell.Displayable (T : Termenv) (S : String → Prop) (c : Cell) : Prop where
  fg : ((T.convert c.fg).bind (Color.shown T)).isSome = true
  bg : ((T.convert c.bg).bind (Color.shown T)).isSome = true
  sym : S c.symbol
  printable : Printable c.symbol
  plain : Modifier.Plain c.modifier

/-- Assumptions about the environment: `uniseg` is lawful, the colour profile supports colours (so
that the default colour is passed through), the symbols in use include the blank and do not join with
one another. -/
structure Env (u : Uniseg) (T : Termenv) (S : String → Prop) : Prop where
  lawful : u.Lawful
  colours : T.convert .reset = some .reset
  blank : S " "
  sep : Separable u S

/-- Frames that can be displayed. -/
structure Buffer.Good (u : Uniseg) (T : Termenv) (S : String → Prop) (area : Rect) (b : Buffer) :
    Prop where
  area_eq : b.area = area
  wf : b.WF
  drawable : b.Drawable u
  cells : ∀ p c, b.cellAt p = some c → c.Displayable T S

/-- A buffer with the given area and only empty cells. -/
structure Buffer.Blank (area : Rect) (b : Buffer) : Prop where
  area_eq : b.area = area
  wf : b.WF
  cells : ∀ p, area.contains p = true → b.cellAt p = some Cell.empty

/-- Widgets that draw displayable frames (when they start from a blank buffer of an area without negative
coordinates, as those of a terminal are), without panicking, and ask for the cursor at non-negative positions
only. Otherwise arbitrary. -/
def Widget.Good (u : Uniseg) (T : Termenv) (S : String → Prop) (w : Widget) : Prop :=
  ∀ area b, 0 ≤ area.x → 0 ≤ area.y → b.Blank area → ∃ b' cur, w area b = some (b', cur) ∧ b'.Good u T S area ∧
    ∀ p, cur = some p → 0 ≤ p.x ∧ 0 ≤ p.y

/-- The area lies on the screen. -/
structure Screen.Fits (sc : Screen) (a : Rect) : Prop where
  x : 0 ≤ a.x
  y : 0 ≤ a.y
  width : 0 ≤ a.width
  height : 0 ≤ a.height
  right : a.x + a.width ≤ sc.cols
  bottom : a.y + a.height ≤ sc.rows

/-- No call of the backend fails. -/
def noFault : Nat → Option Nat := fun _ => none

/-- Histories: everything the program did so far to the terminal `t`, and the screen `sc` that
received all the output.  The flag says whether the screen is known to be undisturbed since the last
`Resize`, `Clear` or start. -/
inductive History (j : Junk) (u : Uniseg) (T : Termenv) (S : String → Prop) :
    Terminal → Screen → Bool → Prop
  /-- `NewTerminal` on a blank screen with default rendition -/
  | start (vp : Viewport) (sc : Screen) (t : Terminal)
      (hnew : Terminal.new vp sc.cols sc.rows = some t) (hfit : sc.Fits t.viewportArea)
      (hg : sc.grid = Grid.blank) (hp : sc.pen = Pen.neutral) : History j u T S t sc true
  /-- a successful `Draw` -/
  | draw {t sc s} (h : History j u T S t sc s) (w : Widget) (hw : w.Good u T S) (t' : Terminal)
      (out : List Char) (hd : t.draw u T w noFault = some (t', out, true)) :
      History j u T S t' (sc.feed j u out) s
  /-- `Resize` to an area on the screen -/
  | resize {t sc s} (h : History j u T S t sc s) (area : Rect) (hfit : sc.Fits area) (t' : Terminal)
      (out : List Char) (hd : t.resize T area none = some (t', out, true)) :
      History j u T S t' (sc.feed j u out) true
  /-- `Clear` while the viewport is on the screen -/
  | clear {t sc s} (h : History j u T S t sc s) (hfit : sc.Fits t.viewportArea) (t' : Terminal)
      (out : List Char) (hd : t.clear T none = some (t', out, true)) :
      History j u T S t' (sc.feed j u out) true
  /-- something else changes the screen: its size, its contents, the cursor -/
  | disturb {t sc s} (h : History j u T S t sc s) (cols rows : Int) (g : Grid) (cx cy : Int) :
      History j u T S t { sc with cols := cols, rows := rows, grid := g, cx := cx, cy := cy } false

end Bento
