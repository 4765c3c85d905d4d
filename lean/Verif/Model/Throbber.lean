import Verif.Model.Popup

/-!
# Throbbers

Models `/repo/widget/throbberwidget/state.go`, `msg.go` and the rendering in `throbber.go` and `set.go`. The
counters are unbounded; the time of a tick is left out, as nothing reads it.
-/

namespace Bento

namespace Throbber

/-- `/repo/widget/throbberwidget/msg.go:14-19` — `TickMsg`. -/
structure Tick where
  tag : Int
  id : Int
  deriving DecidableEq, Repr

/-- `/repo/widget/throbberwidget/state.go:11-16` — `State`, without the speed. -/
structure State where
  frame : Int
  id : Int
  tag : Int
  deriving DecidableEq, Repr

/-- `/repo/widget/throbberwidget/state.go:18-25` — `NewState`, after `nextID`
(`/repo/widget/throbberwidget/msg.go:10-12`) increased the last ID to `id`. -/
def State.new (id : Int) : State := ⟨0, id, 0⟩

/-- `/repo/widget/throbberwidget/state.go:34-52` — `TryUpdate` for a `TickMsg`: the new state and the message
that the returned command produces, if the tick is accepted. -/
def State.tryUpdate (s : State) (m : Tick) : Option (State × Tick) :=
  if m.id > 0 ∧ m.id ≠ s.id then none
  else if m.tag > 0 ∧ m.tag ≠ s.tag then none
  else
    let s := { s with frame := s.frame + 1, tag := s.tag + 1 }
    some (s, ⟨s.tag, s.id⟩)

/-- `/repo/widget/throbberwidget/state.go:56-62` — `Tick`. -/
def State.tick (s : State) : Tick := ⟨s.tag, s.id⟩

/-- `/repo/widget/throbberwidget/set.go:87-89` — `Set.Frame`; panics for an empty set and negative frames. -/
def frameOf (set : List (List Char)) (frame : Int) : Option (List Char) :=
  if set = [] then none
  else
    let i := frame.tmod set.length
    if i < 0 then none else set[i.toNat]?

end Throbber

/-- `/repo/widget/throbberwidget/throbber.go:10-16` — `Throbber`. -/
structure Throbber where
  style : Style
  set : List (List Char)
  vertical : Flex
  horizontal : Flex
  padding : Padding

namespace Throbber

/-- `/repo/widget/throbberwidget/set.go:9-21` — `Type`; `other` is any other integer. -/
inductive Kind
  | line | horizontalBlock | verticalBlock | brailleEight | parenthesis | canadian | ellipsis | meter | pulse | other
  deriving DecidableEq, Repr

/-- `/repo/widget/throbberwidget/set.go:48-71,91-101` — `Type.Set`, with the tables of frames. -/
def Kind.set : Kind → List (List Char)
  | .line | .other => [['|'], ['/'], ['-'], ['\\']]
  | .horizontalBlock => [['▏'], ['▎'], ['▍'], ['▌'], ['▋'], ['▊'], ['▉'], ['█']]
  | .verticalBlock => [['▁'], ['▂'], ['▃'], ['▄'], ['▅'], ['▆'], ['▇'], ['█']]
  | .brailleEight => [['⣷'], ['⣯'], ['⣟'], ['⡿'], ['⢿'], ['⣻'], ['⣽'], ['⣾']]
  | .parenthesis => [['⎛'], ['⎜'], ['⎝'], ['⎞'], ['⎟'], ['⎠']]
  | .canadian => [['ᔐ'], ['ᯇ'], ['ᔑ'], ['ᯇ']]
  | .ellipsis => [[], ['.'], ['.', '.'], ['.', '.', '.']]
  | .meter => [['▱', '▱', '▱'], ['▰', '▱', '▱'], ['▰', '▰', '▱'], ['▰', '▰', '▰'], ['▰', '▰', '▱'],
      ['▰', '▱', '▱'], ['▱', '▱', '▱']]
  | .pulse => [['█'], ['▓'], ['▒'], ['░']]

/-- `/repo/widget/throbberwidget/throbber.go:18-26` — `New`. -/
def new : Throbber := ⟨Style.new, Kind.line.set, .center, .center, Padding.none'⟩

/-- `/repo/widget/throbberwidget/throbber.go:28-31` — `WithType`. -/
def withType (k : Kind) (t : Throbber) : Throbber := { t with set := k.set }

/-- `/repo/widget/throbberwidget/throbber.go:33-47` — `RenderStateful`, with the dimensions of
`/repo/widget/throbberwidget/set.go:81-85`. Each of the two nested layouts has a map order of its own. -/
def render (ω ω' : Nat → Nat) (fuel : Nat) (u : Uniseg) (t : Throbber) (area : Rect) (b : Buffer) (s : State) :
    Popup.Result Buffer :=
  match frameOf t.set s.frame with
  | none => .panics
  | some frame =>
    let lines := newLinesStr frame
    let width : Nat := (lines.map (Line.width u)).foldl max 0
    match Popup.unwrap (Layout.splitWithSpacers ω fuel
        ⟨.vertical, [.len lines.length], t.padding, t.vertical, .space 0⟩ area) with
    | .panics => .panics
    | .running => .running
    | .ok area =>
      match Popup.unwrap (Layout.splitWithSpacers ω' fuel
          ⟨.horizontal, [.len width], t.padding, t.horizontal, .space 0⟩ area) with
      | .panics => .panics
      | .running => .running
      | .ok area =>
        match ({ newTextStr frame with style := t.style } : Text).render u area b with
        | some b => .ok b
        | none => .panics

end Throbber

end Bento
