import Verif.Model.Block

/-!
# Printing lines, and tabs

Models `Print` of `/repo/widget/textwidget/span.go` and `line.go`, `Lines.NewBuffer`, and
`/repo/widget/tabswidget/tabs.go`. A Go panic is `none`.
-/

namespace Bento

/-- `/repo/widget/textwidget/span.go:43-45` — `Span.Print`: the buffer and the new column. -/
def Span.print (u : Uniseg) (s : Span) (x y maxWidth : Int) (b : Buffer) : Option (Buffer × Int) :=
  b.setStringN u x y s.content maxWidth s.style

namespace Line

/-- `/repo/widget/textwidget/line.go:188-206` — the loop of `Line.Print`. -/
def printLoop (u : Uniseg) (l : Line) (y : Int) : List Span → Int → Int → Buffer →
    Option (Buffer × Int)
  | [], x, _, b => some (b, x)
  | s :: rest, x, remainingWidth, b =>
    if remainingWidth = 0 then some (b, x)
    else do
      let (b, newX) ← b.setStringN u x y s.content remainingWidth (l.style.patched s.style)
      let w := max 0 (newX - x)
      printLoop u l y rest newX (max 0 (remainingWidth - w)) b

/-- `/repo/widget/textwidget/line.go:184-208` — `Line.Print`: the buffer and the new column. -/
def print (u : Uniseg) (l : Line) (x y maxWidth : Int) (b : Buffer) : Option (Buffer × Int) :=
  printLoop u l y l.spans x maxWidth b

/-- `/repo/widget/textwidget/line.go:302-314` — the loop of `setLine`; the remaining width is never
made smaller. -/
def setLoop (u : Uniseg) (l : Line) (y : Int) : List Span → Int → Int → Buffer → Option Buffer
  | [], _, _, b => some b
  | s :: rest, x, remainingWidth, b =>
    if remainingWidth = 0 then some b
    else do
      let (b, newX) ← b.setStringN u x y s.content remainingWidth (l.style.patched s.style)
      let w := max 0 (newX - x)
      setLoop u l y rest newX (max (max 0 remainingWidth) w) b

end Line

namespace Lines

/-- `/repo/widget/textwidget/line.go:75-83` — `Lines.Width`. -/
def width (u : Uniseg) (ls : List Line) : Int := ls.foldl (fun w l => max w (l.width u : Int)) 0

/-- `/repo/widget/textwidget/line.go:64-66` — the loop of `NewBuffer`. -/
def setAll (u : Uniseg) (width : Int) : List Line → Int → Buffer → Option Buffer
  | [], _, b => some b
  | l :: rest, y, b => do
    let b ← l.setLoop u y l.spans 0 width b
    setAll u width rest (y + 1) b

/-- `/repo/widget/textwidget/line.go:55-69` — `Lines.NewBuffer`. -/
def newBuffer (u : Uniseg) (ls : List Line) : Option Buffer := do
  let w := width u ls
  let b ← Buffer.newEmpty ⟨0, 0, w, ls.length⟩
  setAll u w ls 0 b

end Lines

/-- `/repo/widget/tabswidget/tabs.go:12-21` — `Tabs`. -/
structure Tabs where
  block : Option Block
  titles : List Line
  selected : Option Int
  style : Style
  highlightStyle : Style
  divider : Span
  paddingLeft : Line
  paddingRight : Line

namespace Tabs

/-- `/repo/widget/tabswidget/tabs.go:23-34` — `New`. -/
def new (titles : List Line) : Tabs :=
  { block := none
    titles := titles
    selected := none
    style := Style.new
    highlightStyle := Style.new.withModifier Modifier.reversed
    divider := Span.new "│"
    paddingLeft := newLineStr [' ']
    paddingRight := newLineStr [' '] }

/-- `/repo/widget/tabswidget/tabs.go:83-86` — `Select`. -/
def select (t : Tabs) (index : Int) : Tabs := { t with selected := some index }

/-- `/repo/widget/tabswidget/tabs.go:88-91` — `Unselect`. -/
def unselect (t : Tabs) : Tabs := { t with selected := none }

/-- `/repo/widget/tabswidget/tabs.go:130-139` — the highlight of the selected title. -/
def highlight (t : Tabs) (i : Nat) (x newX y : Int) (b : Buffer) : Option Buffer :=
  if t.selected = some (i : Int) then b.setStyle ⟨x, y, max 0 (newX - x), 1⟩ t.highlightStyle
  else some b

/-- `/repo/widget/tabswidget/tabs.go:112-157` — the loop of `render` from title `i` on; `isLast` is
`rest = []`. -/
def loop (u : Uniseg) (t : Tabs) (area : Rect) : List Line → Nat → Int → Buffer → Option Buffer
  | [], _, _, b => some b
  | title :: rest, i, x, b =>
    if max 0 (area.right - x) = 0 then some b
    else do
      let (b, x) ← t.paddingLeft.print u x area.top (max 0 (area.right - x)) b
      if max 0 (area.right - x) = 0 then some b
      else do
        let (b, newX) ← title.print u x area.top (max 0 (area.right - x)) b
        let b ← t.highlight i x newX area.top b
        let x := newX
        if max 0 (area.right - x) = 0 then some b
        else do
          let (b, x) ← t.paddingRight.print u x area.top (max 0 (area.right - x)) b
          if max 0 (area.right - x) = 0 ∨ rest = [] then some b
          else do
            let (b, x) ← t.divider.print u x area.top (max 0 (area.right - x)) b
            loop u t area rest (i + 1) x b

/-- `/repo/widget/tabswidget/tabs.go:104-158` — `render`. -/
def renderTabs (u : Uniseg) (t : Tabs) (area : Rect) (b : Buffer) : Option Buffer :=
  if area.isEmpty then some b else t.loop u area t.titles 0 area.left b

/-- `/repo/widget/tabswidget/tabs.go:93-102` — `Render`. -/
def render (u : Uniseg) (t : Tabs) (area : Rect) (b : Buffer) : Option Buffer := do
  let b ← b.setStyle area t.style
  match t.block with
  | none => t.renderTabs u area b
  | some block => do
    let b ← block.render u area b
    t.renderTabs u (block.inner area) b

end Tabs

end Bento
