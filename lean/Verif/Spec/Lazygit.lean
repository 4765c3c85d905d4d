import Verif.Model.Lazygit
import Verif.Spec.Layout
import Verif.Spec.Palette

/-!
# What the example program shows

The picture that `examples/lazygitlike` shows: where the panels are, and what every cell of them holds. Nothing here
uses the functions that draw.
-/

namespace Bento.Lazygit

/-- The symbols of the program: the printable characters of ASCII and the lines of its frames. -/
def Symbols (s : String) : Prop :=
  (∃ c : Char, 32 ≤ c.toNat ∧ c.toNat < 127 ∧ s = String.ofList [c]) ∨ s ∈ ["╭", "╮", "╰", "╯", "─", "│"]

/-- Each result is one that `Split` may return. -/
def Splits (split : Split) : Prop :=
  ∀ l area, Layout.Few l → ∃ ω fuel spacers, Layout.splitWithSpacers ω fuel l area = .ok (split l area) spacers

/-- The titles and the footers of the panels. -/
def captions : List (String × String) :=
  [("Status", ""), ("Files", "1 of 10"), ("Branches", "1 of 2"), ("Commits", "1 of 42"), ("Stash", "1 of 1"),
    ("Info", ""), ("Command log", "")]

/-- The character at a place of a text, as a symbol. -/
def charAt (text : String) (i : Int) : Option String :=
  if 0 ≤ i then (text.toList[i.toNat]?).map fun c => String.ofList [c] else none

/-- A rounded box of `w` columns and `h` rows: the symbol in column `i` of row `j`. -/
def boxSymbol (w h i j : Int) : String :=
  if j = 0 then if i = 0 then "╭" else if i = w - 1 then "╮" else "─"
  else if j = h - 1 then if i = 0 then "╰" else if i = w - 1 then "╯" else "─"
  else if i = 0 ∨ i = w - 1 then "│" else " "

/-- A panel of `w` columns and `h` rows: between the corners the title begins at the left of the first row, the footer
ends at the right of the last row, and the text begins in the row below the first. -/
def panelSymbol (title footer text : String) (w h i j : Int) : String :=
  if 1 ≤ i ∧ i ≤ w - 2 then
    (((if j = h - 1 then charAt footer (i - 1 - (w - 2 - footer.toList.length)) else none).or
      (if j = 0 then charAt title (i - 1) else none)).or
      (if j = 1 ∧ j ≤ h - 2 then charAt text (i - 1) else none)).getD (boxSymbol w h i j)
  else boxSymbol w h i j

/-- The rim of a box. -/
def onRim (w h i j : Int) : Bool := i = 0 || j = 0 || i = w - 1 || j = h - 1

/-- The rim of the active panel is bold and green. -/
def panelCell (active : Bool) (title footer text : String) (w h i j : Int) : Cell where
  symbol := panelSymbol title footer text w h i j
  fg := if active && onRim w h i j then .ansi 2 else .reset
  bg := .reset
  modifier := if active && onRim w h i j then Modifier.bold else 0
  skip := false

/-- The columns of the left side: a third, rounded. -/
def sideWidth (w : Int) : Int := (w + 1) / 3

/-- The rows of the five panels of the left side of a screen of `h` rows. -/
def sideHeights (active : Panel) (h : Int) : List Int :=
  if 30 < h then
    let n := h - 7
    [3, (n + 1) / 3, (2 * n + 1) / 3 - (n + 1) / 3, n - (2 * n + 1) / 3, 3]
  else
    let k : Int := if 22 < h then 3 else 1
    [0, 1, 2, 3, 4].map fun p : Int => if p = active then h - 1 - 4 * k else k

/-- The rows of the command log. -/
def logHeight (h : Int) : Int := if h ≤ 40 then 3 else 10

/-- Where the panels are. -/
def panelArea (active : Panel) (area : Rect) (p : Nat) : Rect :=
  let s := sideWidth area.width
  let n := logHeight area.height
  if p < 5 then
    ⟨area.x, area.y + ((sideHeights active area.height).take p).sum, s, (sideHeights active area.height)[p]?.getD 0⟩
  else if p = 5 then ⟨area.x + s, area.y, area.width - s, area.height - 1 - n⟩
  else ⟨area.x + s, area.y + (area.height - 1 - n), area.width - s, n⟩

/-- The text of the footnote at the left and at the right. -/
def footTexts : String × String := ("Quit: q / ctrl+c", "Foo Bar 0.0.1")

/-- Column `i` of the footnote of `w` columns: the text at the left is blue, that at the right ends at the last column and
covers the other. -/
def footCell (w i : Int) : Cell :=
  let k := i - (w - 13)
  let foo : Bool := 0 ≤ k && k < 3
  let bar : Bool := 4 ≤ k && k < 7
  { symbol := ((charAt "Foo Bar 0.0.1" k).or (charAt "Quit: q / ctrl+c" i)).getD " "
    fg := if foo then .ansi 5 else if bar then .ansi 3 else if i < 16 then .ansi 4 else .reset
    bg := .reset
    modifier := if foo || bar then Modifier.underlined else 0
    skip := false }

/-- The screen, if its size is that of the last size message. -/
structure Pictured (m : Model) (area : Rect) (b : Buffer) : Prop where
  panels : ∀ (p : Nat) c, captions[p]? = some c → ∀ q, (panelArea m.activePanel area p).contains q = true →
    b.cellAt q = some (panelCell (m.activePanel = p) c.1 c.2
      (if p = 0 then s!"{m.width}x{m.height}" else "") (panelArea m.activePanel area p).width
      (panelArea m.activePanel area p).height (q.x - (panelArea m.activePanel area p).x)
      (q.y - (panelArea m.activePanel area p).y))
  foot : ∀ q, area.contains q = true → q.y = area.y + area.height - 1 →
    b.cellAt q = some (footCell area.width (q.x - area.x))

/-- A key with this name. -/
def keyed (name : String) : Option (App.Msg Input.Msg) → Bool
  | some (.user (.key k)) => named k name
  | _ => false

/-- What the keys do to the active panel: `tab` goes to the next of the five panels of the left side, `shift+tab` to the
previous one, around the ends. -/
def moves (msgs : List (Option (App.Msg Input.Msg))) : Int :=
  (msgs.countP (keyed "tab") : Nat) - (msgs.countP (keyed "shift+tab") : Nat)

/-- The last size message, or nothing yet. -/
def lastSize (start : Int × Int) (msgs : List (Option (App.Msg Input.Msg))) : Int × Int :=
  msgs.foldl (fun s g => match g with | some (.size w h) => (w, h) | _ => s) start

end Bento.Lazygit
