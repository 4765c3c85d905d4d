import Verif.Model.Throbber
import Verif.Model.Lazygit

/-!
# The example program with throbbers

Models `/repo/examples/throbber/main.go`. All nine throbbers show the frame of one state. The duration between two frames
is kept without bounds, in nanoseconds.

The commands are told apart by numbers: `0` quits, and `n + 1` sends the tick with the tag `n`. The first command is the
method value `m.throbber.Tick`, which reads the tag only when it is called; until its tick has been accepted the tag does
not change (see C120), so that it is `0` then.

`Split` is a parameter, as in `Model/Lazygit.lean`, and so is `RenderStateful` of a throbber, which splits twice;
`Spec/ThrobberExample.lean` says what is assumed about them. How Go writes a duration is a parameter as well.
-/

namespace Bento.ThrobberExample

/-- The messages other than those of the event loop: the input of the terminal, and ticks. -/
inductive Message where
  | input (m : Input.Msg)
  | tick (t : Throbber.Tick)

/-- `/repo/examples/throbber/main.go:16-18`, `/repo/widget/throbberwidget/state.go:11-16` — `Model`, with the `FPS` of its
throbber. -/
structure Model where
  throbber : Throbber.State
  fps : Int

/-- `/repo/widget/throbberwidget/state.go:69-80`, `/repo/cmd.go:60-70` — the command for a tick, once the timer has
fired. -/
def tickCmd (t : Throbber.Tick) : App.Cmd := t.tag.toNat + 1

/-- `/repo/examples/throbber/main.go:115-135` — `Update`. -/
def update (m : Model) (msg : App.Msg Message) : Model × Option App.Cmd :=
  match msg with
  | .user (.tick t) =>
    match m.throbber.tryUpdate t with
    | some (s, t) => ({ m with throbber := s }, some (tickCmd t))
    | none => (m, none)
  | .user (.input (.key k)) =>
    if Lazygit.named k "+" then ({ m with fps := m.fps + 1000000 }, none)
    else if Lazygit.named k "-" then ({ m with fps := m.fps - 1000000 }, none)
    else if Lazygit.named k "ctrl+c" then (m, some Lazygit.quitCmd)
    else (m, none)
  | _ => (m, none)

/-- `/repo/examples/throbber/main.go:20-22`, `137-148`, `/repo/widget/throbberwidget/state.go:18-25` — the program that
`run` gives to `NewApp`; its throbber is the `id`-th one of the process. -/
def program (id : Int) : App.Program Model Message where
  start := ⟨Throbber.State.new id, 111111111⟩
  init := some (some (tickCmd (Throbber.State.new id).tick))
  update m msg := some (update m msg)
  call c _ := .returns (some (if c = Lazygit.quitCmd then .quit else .user (.tick ⟨(c : Int) - 1, id⟩)))

/-- `/repo/widget/throbberwidget/set.go:23-46` — `Type.String`; it panics for other numbers. -/
def nameOf : Throbber.Kind → Option String
  | .brailleEight => some "BrailleEight"
  | .canadian => some "Canadian"
  | .ellipsis => some "Ellipsis"
  | .horizontalBlock => some "HorizontalBlock"
  | .line => some "Line"
  | .meter => some "Meter"
  | .parenthesis => some "Parenthesis"
  | .pulse => some "Pulse"
  | .verticalBlock => some "VerticalBlock"
  | .other => none

/-- `/repo/examples/throbber/main.go:28-35` — the layout of `Render`. -/
def screenLayout : Layout := Layout.Call.vertical.apply (Layout.new [.len 1, .fill 1, .len 1])

/-- `/repo/examples/throbber/main.go:85-94` — the layout of the rows of the grid. -/
def rowsLayout (itemsCount : Nat) : Layout :=
  Layout.Call.vertical.apply (Layout.new (List.replicate (itemsCount / 3 + itemsCount % 3) (.fill 1)))

/-- `/repo/examples/throbber/main.go:99-105` — the layout of a row of the grid. -/
def columnsLayout : Layout := Layout.Call.horizontal.apply (Layout.new (List.replicate 3 (.fill 1)))

/-- `/repo/examples/throbber/main.go:84-113` — `getGrid`. -/
def getGrid (split : Lazygit.Split) (area : Rect) (itemsCount : Nat) : List Rect :=
  (split (rowsLayout itemsCount) area).flatMap (split columnsLayout)

/-- `/repo/examples/throbber/main.go:56-66` — the types that are shown. -/
def types : List Throbber.Kind :=
  [.line, .horizontalBlock, .verticalBlock, .brailleEight, .parenthesis, .canadian, .ellipsis, .meter, .pulse]

/-- What `/repo/widget/throbberwidget/throbber.go:33-47` — `RenderStateful` does. -/
abbrev Throb := Throbber → Rect → Throbber.State → Buffer → Option Buffer

/-- `/repo/examples/throbber/main.go:71` — the block around a throbber. -/
def block (name : String) : Block :=
  Block.Call.apply (Block.Call.apply Block.new .bordered) (.withTitleStr name)

/-- `/repo/examples/throbber/main.go:70-81` — the body of the loop of `renderThrobbers`. -/
def renderThrobber (throb : Throb) (u : Uniseg) (m : Model) (grid : List Rect) (i : Nat) (b : Buffer) : Option Buffer := do
  let t ← types[i]?
  let name ← nameOf t
  let area ← grid[i]?
  let a := (block name).inner area
  let b ← (block name).render u area b
  throb (Throbber.new.withType t) a m.throbber b

/-- `/repo/examples/throbber/main.go:55-82` — `renderThrobbers`. -/
def renderThrobbers (split : Lazygit.Split) (throb : Throb) (u : Uniseg) (m : Model) (area : Rect) (b : Buffer) :
    Option Buffer :=
  let grid := getGrid split area types.length
  (List.range types.length).foldlM (fun b i => renderThrobber throb u m grid i b) b

/-- `/repo/examples/throbber/main.go:50` — the text of the first row; `duration` writes a duration. -/
def info (duration : Int → String) (m : Model) : String := "FPS " ++ duration m.fps

/-- `/repo/examples/throbber/main.go:44` — the text of the last row. -/
def footer : String := "\"+\" - increment FPS | \"-\" - decrement FPS"

/-- `/repo/examples/throbber/main.go:24-53` — `Render`, with `renderInfo` and `renderFooter`. -/
def render (split : Lazygit.Split) (throb : Throb) (u : Uniseg) (duration : Int → String) (m : Model) (area : Rect)
    (b : Buffer) : Option Buffer := do
  let areas := split screenLayout area
  let infoArea ← areas[0]?
  let throbbersArea ← areas[1]?
  let footerArea ← areas[2]?
  let b ← (newTextStr (info duration m).toList).render u infoArea b
  let b ← renderThrobbers split throb u m throbbersArea b
  (newTextStr footer.toList).render u footerArea b

/-- `/repo/examples/throbber/main.go:24-41` — the model as the widget that the app draws. It asks for no cursor. -/
def view (split : Lazygit.Split) (throb : Throb) (u : Uniseg) (duration : Int → String) (m : Model) : Bento.Widget :=
  fun area b => (render split throb u duration m area b).map fun b => (b, none)

end Bento.ThrobberExample
