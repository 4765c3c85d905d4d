import Verif.Model.Backend

/-!
# Terminal: double buffering

Models `/repo/terminal.go`, `/repo/frame.go`, `/repo/viewport.go` on top of the default backend.
The two buffers and the index `current` are modelled by naming the buffers by their role: `cur` is
`buffers[current]` and `prev` is `buffers[1-current]`; flipping `current` swaps them.

Output and failures: an operation makes a sequence of backend calls.  `faults k = none` means that the
`k`-th call of the operation succeeds; `faults k = some n` means that it returns an error and that
only the first `n` characters of the output produced so far by the operation reached the terminal.
(The buffering by `bufio.Writer` is not modelled: output of successful operations is delivered in
full.)  A panic is `none`.
-/

namespace Bento

/-- `/repo/viewport.go:3-11`; the inline viewport panics ("unimplemented") everywhere. -/
inductive Viewport where
  | fullscreen
  | inline (n : Int)
  | fixed (r : Rect)
  deriving DecidableEq, Repr

/-- `/repo/terminal.go:16-30` — `type Terminal struct`. -/
structure Terminal where
  viewport : Viewport
  viewportArea : Rect
  cur : Buffer
  prev : Buffer
  lastKnownArea : Rect
  lastKnownCursorPos : Position
  hiddenCursor : Bool
  frameCount : Nat
  deriving DecidableEq, Repr

/-- `/repo/widget.go`: a widget draws into a buffer; through `Frame` it may also ask for a cursor
position (`/repo/frame.go`; in this version of the code nothing sets `Frame.cursorPosition`, so the
second component is nil in all real runs, but `Draw` handles both cases).  Arbitrary, `none` = panic. -/
abbrev Widget := Rect → Buffer → Option (Buffer × Option Position)

namespace Terminal

/-- `/repo/terminal.go:32-77` — `NewTerminal`, for a terminal of the given size. -/
def new (viewport : Viewport) (width height : Int) : Option Terminal :=
  match viewport with
  | .inline _ => none
  | .fullscreen => do
    let area := Rect.new width height
    let b ← Buffer.newEmpty area
    some ⟨viewport, area, b, b, area, ⟨0, 0⟩, false, 0⟩
  | .fixed r => do
    let b ← Buffer.newEmpty r
    some ⟨viewport, r, b, b, r, ⟨r.x, r.y⟩, false, 0⟩

/-- `/repo/terminal.go:279-282` — `SwapBuffers`. -/
def swapBuffers (t : Terminal) : Terminal := { t with cur := t.prev.reset, prev := t.cur }

/-- `/repo/terminal.go:189-206` — `Flush` up to the backend call: the updates and the new state. -/
def flush (u : Uniseg) (t : Terminal) : Option (Terminal × List PositionedCell) := do
  let updates ← t.prev.diff u t.cur
  let t := match updates.getLast? with
    | some last => { t with lastKnownCursorPos := last.pos }
    | none => t
  some (t, updates)

/-- `/repo/terminal.go:120-158` — `Draw`.  Result: new state, output that reached the terminal, and
whether `Draw` succeeded. -/
def draw (u : Uniseg) (T : Termenv) (t : Terminal) (w : Widget) (faults : Nat → Option Nat) :
    Option (Terminal × List Char × Bool) := do
  let (buffer, cursorPosition) ← w t.viewportArea t.cur
  let t := { t with cur := buffer }
  let (t, updates) ← t.flush u
  let out ← writeAll T (drawCommands T updates)
  match faults 0 with
  | some n => some (t, out.take n, false)
  | none =>
  match cursorPosition with
  | none => do
    let out ← (writeAll T [.hideCursor]).map (out ++ ·)
    match faults 1 with
    | some n => some (t, out.take n, false)
    | none =>
      let t := { t with hiddenCursor := true }
      let t := t.swapBuffers
      match faults 2 with
      | some n => some (t, out.take n, false)
      | none => some ({ t with frameCount := t.frameCount + 1 }, out, true)
  | some p => do
    let out ← (writeAll T [.showCursor]).map (out ++ ·)
    match faults 1 with
    | some n => some (t, out.take n, false)
    | none =>
      let t := { t with hiddenCursor := false }
      let out ← (writeAll T [.moveTo p.x p.y]).map (out ++ ·)
      match faults 2 with
      | some n => some (t, out.take n, false)
      | none =>
        let t := { t with lastKnownCursorPos := p }
        let t := t.swapBuffers
        match faults 3 with
        | some n => some (t, out.take n, false)
        | none => some ({ t with frameCount := t.frameCount + 1 }, out, true)

/-- `/repo/terminal.go:246-272` — the commands sent by `Clear`, one backend call each. -/
def clearCommands (t : Terminal) : Option (List Command) :=
  match t.viewport with
  | .fullscreen => some [.clearAll]
  | .inline _ => some [.moveTo t.viewportArea.x t.viewportArea.y, .clearAfterCursor]
  | .fixed _ =>
    some ((intRange t.viewportArea.top t.viewportArea.bottom).flatMap
      (fun y => [.moveTo 0 y, .clearAfterCursor]))

/-- `/repo/terminal.go:246-277` — `Clear`; on an error of any backend call the previous buffer is not
reset.  `fault = some n`: some call failed after `n` characters. -/
def clear (T : Termenv) (t : Terminal) (fault : Option Nat) :
    Option (Terminal × List Char × Bool) := do
  let cmds ← t.clearCommands
  let out ← writeAll T cmds
  match fault with
  | some n => some (t, out.take n, false)
  | none => some ({ t with prev := t.prev.reset }, out, true)

/-- `/repo/terminal.go:288-293` — `setViewportArea`. -/
def setViewportArea (t : Terminal) (area : Rect) : Option Terminal := do
  let c ← t.cur.resize area
  let p ← t.prev.resize area
  some { t with cur := c, prev := p, viewportArea := area }

/-- `/repo/terminal.go:225-244` — `Resize`. -/
def resize (T : Termenv) (t : Terminal) (area : Rect) (fault : Option Nat) :
    Option (Terminal × List Char × Bool) := do
  match t.viewport with
  | .inline _ => none
  | _ =>
    let t ← t.setViewportArea area
    let (t, out, ok) ← t.clear T fault
    if ok then some ({ t with lastKnownArea := area }, out, true)
    else some (t, out, false)

end Terminal

end Bento
