import Verif.Model.InputExample
import Verif.Model.ListWidget
import Verif.Model.Paragraph

/-!
# The example program with a list

Models `/repo/examples/list/main.go`. The program splits four times when it shows its popup; `ω` has a map order for each of
these splits, as in `Model/Layout.lean`.
-/

namespace Bento.ListExample

/-- `/repo/examples/list/main.go:18-24` — `Model`, without the items, which never change, and without `currentItem`, which is
never set. -/
structure Model where
  list : ListWidget.State
  popup : Bool
  deriving DecidableEq, Repr

/-- `/repo/examples/list/main.go:30-35` — `Item.Text`. -/
def item (id : Nat) : Text :=
  Text.new [Line.Call.apply (newLineStr ("Item #" ++ toString (id + 1)).toList) (.withStyle (Style.new.withModifier Modifier.bold)),
    Line.Call.apply (newLineStr "Description".toList)
      (.withStyle ((Style.new.withModifier Modifier.italic).withModifier Modifier.dim))]

/-- `/repo/examples/list/main.go:37-45`, `62-65`, `119` — the items. -/
def items : List Text := (List.range 100).map item

/-- `/repo/examples/list/main.go:48-53` — the title at the bottom; there is no current item. -/
def bottomTitle : String := toString items.length ++ " items"

/-- `/repo/examples/list/main.go:55-60` — the block of the list. -/
def block : Block :=
  ((Block.Call.rounded.apply (Block.new.withBorderSides [])).withTitle (Lazygit.newTitleStr "List")).withTitle
    (Title.Call.right.apply (Title.Call.bottom.apply (Lazygit.newTitleStr bottomTitle)))

/-- `/repo/examples/list/main.go:67-71` — the list. -/
def list : ListWidget :=
  [ListWidget.Call.withHighlightSymbol "> ", .withHighlightSpacing .always, .withBlock block,
    .withHighlightStyle ((Style.new.withForeground (.ansi 0)).withBackground (.ansi 4))].foldl ListWidget.Call.apply
      (ListWidget.new items)

/-- `/repo/examples/list/main.go:80` — the block of the popup. -/
def popupBlock : Block := Block.Call.apply (Block.Call.apply (Block.new.withBorderSides []) .thick) (.withTitleStr "Popup")

/-- `/repo/examples/list/main.go:78-84` — the popup. -/
def popup : Popup :=
  [Popup.Call.withBlock popupBlock, .middle, .center, .withHeight (.len 3), .withWidth (.len 30)].foldl Popup.Call.apply Popup.new

/-- `/repo/examples/list/main.go:76` — the text in the popup, with `/repo/widget/paragraphwidget/paragraph.go:23-25` —
`NewStr`. -/
def paragraph : Paragraph := Paragraph.Call.apply (Paragraph.new (newTextStr "Hello, world!".toList)) .center

/-- `/repo/examples/list/main.go:47-89` — `Render`; `none` is a panic, or a solver that has not come to an end. -/
def render (ω : Nat → Nat → Nat) (fuel : Nat) (u : Uniseg) (m : Model) (area : Rect) (b : Buffer) :
    Option (Buffer × Model) := do
  let (b, s) ← list.render u area b m.list
  if m.popup then
    match popup.render (ω 0) (ω 1) fuel u area b with
    | .ok b =>
      match popup.inner (ω 2) (ω 3) fuel area with
      | .ok inner => (paragraph.render u inner b).map fun b => (b, { m with list := s })
      | _ => none
    | _ => none
  else some (b, { m with list := s })

/-- `/repo/examples/list/main.go:95-114` — `Update`, with `TryUpdate` of `/repo/widget/listwidget/state.go:27-34`. -/
def update (m : Model) (msg : App.Msg Input.Msg) : Model × Option App.Cmd :=
  match msg with
  | .user (.key k) =>
    let (s, ok) := ListWidget.State.update k m.list
    if ok then ({ m with list := s }, none)
    else if Lazygit.named k " " then ({ m with popup := !m.popup }, none)
    else if Lazygit.named k "q" || Lazygit.named k "ctrl+c" then (m, some Lazygit.quitCmd)
    else (m, none)
  | _ => (m, none)

/-- `/repo/examples/list/main.go:91-93`, `116-128` — the program that `run` gives to `NewApp`. -/
def program : App.Program Model Input.Msg where
  start := ⟨ListWidget.State.new, false⟩
  init := some none
  update m msg := some (update m msg)
  call c _ := .returns (if c = Lazygit.quitCmd then some .quit else none)

end Bento.ListExample
