import Verif.Model.App
import Verif.Model.Builders
import Verif.Model.Input
import Verif.Model.Layout
import Verif.Model.Terminal

/-!
# An example program: panels like those of lazygit

Models `/repo/examples/lazygitlike/main.go`. A Go panic is `none`.

`Split` may run forever, and its result may depend on the iteration order of Go maps (see C80, C81). Here it is a
parameter: `Split` stands for the results of the calls. That it returns the same for the same layout and area each time
is a simplification; nothing is assumed about which of the possible results it is.
-/

namespace Bento.Lazygit

/-- `/repo/examples/lazygitlike/main.go:14` — `Panel`. -/
abbrev Panel := Int

/-- `/repo/examples/lazygitlike/main.go:17` — `PanelStatus`. -/
def panelStatus : Panel := 0
/-- `/repo/examples/lazygitlike/main.go:18` — `PanelFiles`. -/
def panelFiles : Panel := 1
/-- `/repo/examples/lazygitlike/main.go:19` — `PanelBranches`. -/
def panelBranches : Panel := 2
/-- `/repo/examples/lazygitlike/main.go:20` — `PanelCommits`. -/
def panelCommits : Panel := 3
/-- `/repo/examples/lazygitlike/main.go:21` — `PanelStash`. -/
def panelStash : Panel := 4
/-- `/repo/examples/lazygitlike/main.go:22` — `PanelInfo`. -/
def panelInfo : Panel := 5
/-- `/repo/examples/lazygitlike/main.go:23` — `PanelCommandLog`. -/
def panelCommandLog : Panel := 6

/-- `/repo/examples/lazygitlike/main.go:26-28` — `Next`. -/
def Panel.next (p : Panel) : Panel := Int.tmod (p + 1) panelInfo

/-- `/repo/examples/lazygitlike/main.go:30-36` — `Prev`. -/
def Panel.prev (p : Panel) : Panel := if p - 1 < 0 then panelStash else p - 1

/-- `/repo/examples/lazygitlike/main.go:38-57` — `Title`. -/
def Panel.title (p : Panel) : Option String :=
  if p = panelBranches then some "Branches"
  else if p = panelCommits then some "Commits"
  else if p = panelFiles then some "Files"
  else if p = panelStash then some "Stash"
  else if p = panelStatus then some "Status"
  else if p = panelCommandLog then some "Command log"
  else if p = panelInfo then some "Info"
  else none

/-- `/repo/examples/lazygitlike/main.go:59-62` — `Model`. -/
structure Model where
  width : Int
  height : Int
  activePanel : Panel
  deriving DecidableEq, Repr

/-- What `/repo/layout.go:115-119` — `Split` returns. -/
abbrev Split := Layout → Rect → List Rect

/-- `/repo/examples/lazygitlike/main.go:115-118` — `HeightMedium`. -/
def heightMedium : Int := 30
/-- `/repo/examples/lazygitlike/main.go:115-118` — `HeightSmall`. -/
def heightSmall : Int := 22

/-- `/repo/examples/lazygitlike/main.go:120-130` — `filesConstraint`. -/
def filesConstraint (m : Model) : Constraint :=
  if m.height > heightMedium ∨ m.activePanel = panelFiles then .fill 1
  else if m.height > heightSmall then .len 3
  else .len 1

/-- `/repo/examples/lazygitlike/main.go:132-142` — `branchesConstraint`. -/
def branchesConstraint (m : Model) : Constraint :=
  if m.height > heightMedium ∨ m.activePanel = panelBranches then .fill 1
  else if m.height > heightSmall then .len 3
  else .len 1

/-- `/repo/examples/lazygitlike/main.go:144-154` — `commitsConstraint`. -/
def commitsConstraint (m : Model) : Constraint :=
  if m.height > heightMedium ∨ m.activePanel = panelCommits then .fill 1
  else if m.height > heightSmall then .len 3
  else .len 1

/-- `/repo/examples/lazygitlike/main.go:156-170` — `statusConstraint`. -/
def statusConstraint (m : Model) : Constraint :=
  if m.height > heightMedium then .len 3
  else if m.activePanel = panelStatus then .fill 1
  else if m.height > heightSmall then .len 3
  else .len 1

/-- `/repo/examples/lazygitlike/main.go:172-184` — `stashConstraint`. -/
def stashConstraint (m : Model) : Constraint :=
  let isActive : Bool := m.activePanel = panelStash
  if m.height > heightMedium ∨ (m.height > heightSmall ∧ isActive = false) then .len 3
  else if isActive then .fill 1
  else .len 1

/-- `/repo/examples/lazygitlike/main.go:271-277` — `commandLogHeight`. -/
def commandLogHeight (m : Model) : Int := if m.height ≤ 40 then 3 else 10

/-- `/repo/widget/blockwidget/title.go:27-29` — `NewTitleStr`. -/
def newTitleStr (s : String) : Title := Title.new (newLineStr s.toList)

/-- `/repo/examples/lazygitlike/main.go:291-307` — `newBlock`. -/
def newBlock (m : Model) (panel : Panel) (footer : String) : Option Block := do
  let title ← panel.title
  let block := (Block.Call.rounded.apply (Block.new.withBorderSides [])).withTitle
    (Title.Call.left.apply (Title.Call.top.apply (newTitleStr title)))
  let block : Block := if m.activePanel = panel then
    { block with borderStyle := (Style.new.withModifier Modifier.bold).withForeground (.ansi 2) } else block
  if footer = "" then some block
  else some (block.withTitle (Title.Call.right.apply (Title.Call.bottom.apply (newTitleStr footer))))

/-- `/repo/examples/lazygitlike/main.go:230-234` and the like — drawing a panel that is only a block. -/
def drawPanel (u : Uniseg) (m : Model) (panel : Panel) (footer : String) (area : Rect) (b : Buffer) : Option Buffer := do
  let block ← newBlock m panel footer
  block.render u area b

/-- `/repo/examples/lazygitlike/main.go:224` — the text of the status panel: `fmt.Sprintf("%dx%d", …)`. -/
def statusText (m : Model) : String := toString m.width ++ "x" ++ toString m.height

/-- `/repo/examples/lazygitlike/main.go:219-228` — `drawStatus`. -/
def drawStatus (u : Uniseg) (m : Model) (area : Rect) (b : Buffer) : Option Buffer := do
  let block ← newBlock m panelStatus ""
  let innerArea := block.inner area
  let status := newLineStr (statusText m).toList
  let b ← block.render u area b
  status.render u innerArea b

/-- `/repo/examples/lazygitlike/main.go:193-210` — the layout of `drawSidebar`. -/
def sidebarLayout (m : Model) : Layout :=
  Layout.new [statusConstraint m, filesConstraint m, branchesConstraint m, commitsConstraint m, stashConstraint m]

/-- `/repo/examples/lazygitlike/main.go:186-217` — `drawSidebar`, with `drawFiles` (230-234), `drawBranches` (236-240),
`drawCommits` (242-246) and `drawStash` (248-252). -/
def drawSidebar (split : Split) (u : Uniseg) (m : Model) (area : Rect) (b : Buffer) : Option Buffer := do
  let areas := split (sidebarLayout m) area
  let statusArea ← areas[0]?
  let filesArea ← areas[1]?
  let branchesArea ← areas[2]?
  let commitsArea ← areas[3]?
  let stashArea ← areas[4]?
  let b ← drawStatus u m statusArea b
  let b ← drawPanel u m panelFiles "1 of 10" filesArea b
  let b ← drawPanel u m panelBranches "1 of 2" branchesArea b
  let b ← drawPanel u m panelCommits "1 of 42" commitsArea b
  drawPanel u m panelStash "1 of 1" stashArea b

/-- `/repo/examples/lazygitlike/main.go:257-265` — the layout of `drawRight`. -/
def rightLayout (m : Model) : Layout := Layout.new [.fill 1, .len (commandLogHeight m)]

/-- `/repo/examples/lazygitlike/main.go:254-269` — `drawRight`, with `renderInfoArea` (279-283) and `renderCommandLog`
(285-289). -/
def drawRight (split : Split) (u : Uniseg) (m : Model) (area : Rect) (b : Buffer) : Option Buffer := do
  let areas := split (rightLayout m) area
  let infoArea ← areas[0]?
  let commandLogArea ← areas[1]?
  let b ← drawPanel u m panelInfo "" infoArea b
  drawPanel u m panelCommandLog "" commandLogArea b

/-- `/repo/examples/lazygitlike/main.go:101-109` — the layout of `drawPrimary`. -/
def primaryLayout : Layout := Layout.Call.horizontal.apply (Layout.new [.fill 1, .fill 2])

/-- `/repo/examples/lazygitlike/main.go:98-113` — `drawPrimary`. -/
def drawPrimary (split : Split) (u : Uniseg) (m : Model) (area : Rect) (b : Buffer) : Option Buffer := do
  let areas := split primaryLayout area
  let sidebarArea ← areas[0]?
  let rightArea ← areas[1]?
  let b ← drawSidebar split u m sidebarArea b
  drawRight split u m rightArea b

/-- `/repo/examples/lazygitlike/main.go:82-84` — the left line of `drawFootnote`. -/
def footLeft : Line :=
  { Line.new [{ Span.new "Quit: q / ctrl+c" with style := Style.new.withForeground (.ansi 4) }] with alignment := .left }

/-- `/repo/examples/lazygitlike/main.go:86-92` — the right line of `drawFootnote`. -/
def footRight : Line :=
  { Line.new [
      { Span.new "Foo" with style := (Style.new.withModifier Modifier.underlined).withForeground (.ansi 5) },
      Span.new " ",
      { Span.new "Bar" with style := (Style.new.withModifier Modifier.underlined).withForeground (.ansi 3) },
      Span.new " ",
      Span.new "0.0.1"] with alignment := .right }

/-- `/repo/examples/lazygitlike/main.go:81-96` — `drawFootnote`. -/
def drawFootnote (u : Uniseg) (area : Rect) (b : Buffer) : Option Buffer := do
  let b ← footLeft.render u area b
  footRight.render u area b

/-- `/repo/examples/lazygitlike/main.go:67-74` — the layout of `Render`. -/
def screenLayout : Layout := Layout.new [.fill 1, .len 1]

/-- `/repo/examples/lazygitlike/main.go:64-79` — `Render`. -/
def render (split : Split) (u : Uniseg) (m : Model) (area : Rect) (b : Buffer) : Option Buffer := do
  let areas := split screenLayout area
  let primaryArea ← areas[0]?
  let footnoteArea ← areas[1]?
  let b ← drawPrimary split u m primaryArea b
  drawFootnote u footnoteArea b

/-- The name of a key as `String` gives it. -/
def named (k : Key) (name : String) : Bool := Input.keyString k = name.toList.map Char.toNat

/-- `/repo/cmd.go:23-26` — `Quit`, the only command of the program. -/
def quitCmd : App.Cmd := 0

/-- `/repo/examples/lazygitlike/main.go:315-331` — `Update`. -/
def update (m : Model) (msg : App.Msg Input.Msg) : Model × Option App.Cmd :=
  match msg with
  | .size w h => ({ m with width := w, height := h }, none)
  | .user (.key k) =>
    if named k "ctrl+c" || named k "q" then (m, some quitCmd)
    else if named k "shift+tab" then ({ m with activePanel := m.activePanel.prev }, none)
    else if named k "tab" then ({ m with activePanel := m.activePanel.next }, none)
    else (m, none)
  | _ => (m, none)

/-- `/repo/examples/lazygitlike/main.go:310-331`, `333-340` — the program that `run` gives to `NewApp`. -/
def program : App.Program Model Input.Msg where
  start := ⟨0, 0, panelFiles⟩
  init := some none
  update m msg := some (update m msg)
  call c _ := .returns (if c = quitCmd then some .quit else none)

/-- `/repo/examples/lazygitlike/main.go:64-79` — the model as the widget that the app draws. It asks for no cursor. -/
def view (split : Split) (u : Uniseg) (m : Model) : Bento.Widget := fun area b => (render split u m area b).map fun b => (b, none)

end Bento.Lazygit
