import Verif.Spec.AppLive
import Verif.Spec.Live

/-!
# The screen of an execution that goes on for ever
-/

namespace Bento

namespace App

section

variable {σ μ : Type}

/-- The screen on which an execution (`Spec/AppLive`) takes place: at first it is that of the shell (as in
`Spec/Live`); each step does to it what it does; while the app rests the window may change its size. -/
structure Watched (p : Program σ μ) (d : Display σ) (e : Execution p) where
  tty : Nat → Tty
  /-- What the screen of the shell holds. -/
  shell : Nat → Grid
  start : ∃ sc t, Terminal.new .fullscreen sc.cols sc.rows = some t ∧ 0 ≤ sc.cols ∧ 0 ≤ sc.rows ∧
    sc.pen = Pen.neutral ∧ sc.alt = false ∧ tty 0 = ⟨t, sc, true⟩ ∧ shell 0 = sc.grid
  moves : ∀ n c, e.choice n = some c → d.Touches p (e.state n) c (tty n) (tty (n + 1)) ∧ shell (n + 1) = shell n
  rests : ∀ n, e.choice n = none → (tty (n + 1) = tty n ∧ shell (n + 1) = shell n) ∨
    ∃ cols rows cx cy grid other,
      tty (n + 1) = { tty n with
        screen := { (tty n).screen with cols := cols, rows := rows, cx := cx, cy := cy, grid := grid, other := other }
        known := false } ∧
      shell (n + 1) = if (tty n).screen.alt then other else grid

/-- The screen shows a model: its contents are those of the frame that `Draw` of the model makes of a blank buffer of
the size of the screen, and the cursor is as the frame wants it. -/
def Display.Presents (d : Display σ) (sc : Screen) (m : σ) : Prop :=
  ∃ (blank frame : Buffer) (cur : Option Position), blank.Blank ⟨0, 0, sc.cols, sc.rows⟩ ∧
    d.view m ⟨0, 0, sc.cols, sc.rows⟩ blank = some (frame, cur) ∧
    Shows d.uniseg (penOf d.termenv) sc.grid frame ∧ sc.visible = cur.isSome ∧
    ∀ q, cur = some q → q.x < sc.cols → q.y < sc.rows → sc.cx = q.x ∧ sc.cy = q.y

/-- From moment `N` on the event loop runs and the context is not done. -/
def Execution.RunsFrom {p : Program σ μ} (e : Execution p) (N : Nat) : Prop :=
  ∀ m, N ≤ m → (e.state m).done = false ∧
    ((∃ md, (e.state m).main = .select md) ∨ (∃ md c, (e.state m).main = .command md c) ∨
      ∃ md, (e.state m).main = .draw md)

/-- From moment `N` on the window does not change any more, and the sizes that the app is told are its size. -/
structure Watched.Calm {p : Program σ μ} {d : Display σ} {e : Execution p} (w : Watched p d e) (N : Nat) : Prop where
  still : ∀ n, N ≤ n → e.choice n = none → w.tty (n + 1) = w.tty n
  told : ∀ n i j ok a b, N ≤ n → e.choice n = some (.message i j ok) →
    (((e.state n).threads[i]?).bind (offer · j)).map (·.1) = some (some (.size a b)) →
    a = (w.tty n).screen.cols ∧ b = (w.tty n).screen.rows

end

end App

end Bento
