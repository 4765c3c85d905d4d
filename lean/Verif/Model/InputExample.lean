import Verif.Model.Lazygit
import Verif.Model.InputField
import Verif.Model.Popup
import Verif.Model.Clear

/-!
# The example program with an input field

Models `/repo/examples/input/main.go`. The program draws three widgets and splits five times; `ω` has a map order for each
of these splits, as in `Model/Layout.lean`.
-/

namespace Bento.InputExample

/-- `/repo/examples/input/main.go:21` — the block of the popup. -/
def block : Block := Block.Call.apply (Block.Call.apply (Block.Call.apply Block.new .bordered) .thick) (.withTitleStr "Input")

/-- `/repo/examples/input/main.go:22` — the input field. -/
def input (u : Uniseg) : InputField.Widget :=
  InputField.Call.apply u (InputField.Call.apply u InputField.Widget.new (.withPlaceholder "Placeholder...")) (.withPrompt "> ")

/-- `/repo/examples/input/main.go:24` — the popup. -/
def popup : Popup := Popup.Call.apply (Popup.Call.apply Popup.new (.withBlock block)) (.withHeight (.len 3))

/-- `/repo/examples/input/main.go:26` — the background. -/
def fill : Fill := { Fill.new "╲" with style := Style.new.withModifier Modifier.dim }

/-- `/repo/examples/input/main.go:20-31` — `Render`; `none` is a panic, or a solver that has not come to an end. The model
of the program is the state of its field. -/
def render (ω : Nat → Nat → Nat) (fuel : Nat) (u : Uniseg) (s : InputField.State) (area : Rect) (b : Buffer) :
    Option (Buffer × InputField.State) := do
  let b ← fill.render area b
  match popup.render (ω 0) (ω 1) fuel u area b with
  | .ok b =>
    match popup.inner (ω 2) (ω 3) fuel area with
    | .ok inner => (input u).render (ω 4) fuel u inner b s
    | _ => none
  | _ => none

/-- `/repo/examples/input/main.go:39-54` — `Update`, with `TryUpdate` of `/repo/widget/inputwidget/state.go:122-129`; `none`
is a panic. -/
def update (u : Uniseg) (s : InputField.State) (msg : App.Msg Input.Msg) : Option (InputField.State × Option App.Cmd) :=
  match msg with
  | .user (.key k) => do
    let (s, ok) ← s.update u k
    if ok then some (s, none)
    else if Lazygit.named k "ctrl+c" then some (s, some Lazygit.quitCmd)
    else some (s, none)
  | _ => some (s, none)

/-- `/repo/examples/input/main.go:33-36`, `56-65` — the program that `run` gives to `NewApp`. -/
def program (u : Uniseg) : App.Program InputField.State Input.Msg where
  start := InputField.State.new
  init := some none
  update s msg := update u s msg
  call c _ := .returns (if c = Lazygit.quitCmd then some .quit else none)

end Bento.InputExample
