import Verif.Model.Reflow
import Verif.Model.Block

/-!
# Paragraphs

Models `/repo/widget/paragraphwidget`.
-/

namespace Bento

/-- `/repo/widget/paragraphwidget/paragraph.go:14-21` — `Paragraph`; `wrap` is the `Trim` flag of
`/repo/widget/paragraphwidget/wrap.go:4-7` — `Wrap`, if there is one. -/
structure Paragraph where
  block : Option Block
  style : Style
  wrap : Option Bool
  text : Text
  scroll : Position
  alignment : Alignment

namespace Paragraph

/-- `/repo/widget/paragraphwidget/paragraph.go:27-36` — `New`. -/
def new (t : Text) : Paragraph := ⟨none, Style.new, none, t, ⟨0, 0⟩, .left⟩

/-- `/repo/widget/paragraphwidget/paragraph.go:177-188` — `getLineOffset`; Go's panic is `none`. -/
def lineOffset (lineWidth areaWidth : Int) : Alignment → Option Int
  | .center => some (max 0 (areaWidth.tdiv 2 - lineWidth.tdiv 2))
  | .left => some 0
  | .right => some (max 0 (areaWidth - lineWidth))
  | .none => none

/-- `/repo/widget/paragraphwidget/paragraph.go:145-166` — the loop over the graphemes of a row. A cell
outside the buffer is a panic. -/
def rowLoop (y : Int) : List StyledGrapheme → Int → Buffer → Option Buffer
  | [], _, b => some b
  | g :: rest, x, b =>
    if g.g.width = 0 then rowLoop y rest x b
    else do
      let symbol := if g.g.symbol = "" then " " else g.g.symbol
      let b ← b.modifyCell ⟨x, y⟩ (fun c => (c.setSymbol symbol).setStyle g.style)
      rowLoop y rest (x + g.g.width) b

/-- `/repo/widget/paragraphwidget/paragraph.go:142-167` — one row. -/
def row (scrollY : Int) (area : Rect) (y : Int) (l : WrappedLine) (b : Buffer) : Option Buffer :=
  if y ≥ scrollY then do
    let x ← lineOffset l.width area.width l.alignment
    rowLoop (area.y + y - scrollY) l.line (area.x + x) b
  else some b

/-- `/repo/widget/paragraphwidget/paragraph.go:136-174` — the loop of `renderText` over the rows a line
composer delivers. The counter is the number of further iterations the check in lines 171-173 can let
through; `renderText` starts it high enough. -/
def textLoop {S : Type} (next : S → Option (WrappedLine × S)) (scrollY : Int) (area : Rect) :
    Nat → Int → S → Buffer → Option Buffer
  | 0, _, _, b => some b
  | n + 1, y, s, b =>
    match next s with
    | none => some b
    | some (l, s) => do
      let b ← row scrollY area y l b
      if y + 1 ≥ area.height + scrollY then some b
      else textLoop next scrollY area n (y + 1) s b

/-- `/repo/widget/paragraphwidget/paragraph.go:133-175` — `renderText`. -/
def renderText {S : Type} (next : S → Option (WrappedLine × S)) (scrollY : Int) (area : Rect) (s : S)
    (b : Buffer) : Option Buffer :=
  textLoop next scrollY area ((area.height + scrollY).toNat + 1) 0 s b

/-- `/repo/widget/paragraphwidget/paragraph.go:103-117` — the lines handed to the composer. -/
def inputLines (u : Uniseg) (p : Paragraph) : List InputLine :=
  p.text.lines.map fun l =>
    ⟨l.styledGraphemes u p.text.style, if l.alignment = .none then p.alignment else l.alignment⟩

/-- `/repo/widget/paragraphwidget/paragraph.go:96-131` — `Paragraph.render`. -/
def renderIn (u : Uniseg) (p : Paragraph) (area : Rect) (b : Buffer) : Option Buffer :=
  if area.isEmpty then some b
  else do
    let b ← b.setStyle area p.style
    match p.wrap with
    | some trim =>
      renderText WordWrapper.nextLine p.scroll.y area (WordWrapper.new (p.inputLines u) area.width trim) b
    | none =>
      renderText (LineTruncator.nextLine u) p.scroll.y area
        (LineTruncator.new (p.inputLines u) area.width p.scroll.x) b

/-- `/repo/widget/paragraphwidget/paragraph.go:85-94` — `Paragraph.Render`. -/
def render (u : Uniseg) (p : Paragraph) (area : Rect) (b : Buffer) : Option Buffer := do
  let b ← b.setStyle area p.style
  match p.block with
  | none => p.renderIn u area b
  | some block => do
    let b ← block.render u area b
    p.renderIn u (block.inner area) b

end Paragraph

end Bento
