import Verif.Model.Ansi
import Verif.Model.Buffer

/-!
# The default backend's drawing

Models `/repo/terminal_backend.go`.  Commands are collected in a list; encoding is in `Model/Ansi`.
-/

namespace Bento

/-- `/repo/terminal_backend.go:304-380` — `_StyleModifierDiff.queue`: the attribute commands that
turn `from` into `to`. -/
def modifierDiff (fr to : Modifier) : List Command :=
  let removed := Modifier.difference fr to
  let added := Modifier.difference to fr
  let when (b : Bool) (a : Attr) : List Command := if b then [.setAttribute a] else []
  when (removed.contains Modifier.reversed) .noReverse ++
  (if removed.contains Modifier.bold || removed.contains Modifier.dim then
    [.setAttribute .normalIntensity] ++
    when (to.contains Modifier.dim) .dim ++
    when (to.contains Modifier.bold) .bold
   else []) ++
  when (removed.contains Modifier.italic) .noItalic ++
  when (removed.contains Modifier.underlined) .noUnderline ++
  when (removed.contains Modifier.crossedOut) .notCrossedOut ++
  when (removed.contains Modifier.slowBlink || removed.contains Modifier.rapidBlink) .noBlink ++
  when (added.contains Modifier.reversed) .reverse ++
  when (added.contains Modifier.bold) .bold ++
  when (added.contains Modifier.italic) .italic ++
  when (added.contains Modifier.underlined) .underlined ++
  when (added.contains Modifier.dim) .dim ++
  when (added.contains Modifier.crossedOut) .crossedOut ++
  when (added.contains Modifier.slowBlink) .slowBlink ++
  when (added.contains Modifier.rapidBlink) .rapidBlink

/-- `/repo/terminal_backend.go:148-156` — the condition for a cursor movement. -/
def needMove (lastPos : Option Position) (x y : Int) : Bool :=
  match lastPos with
  | none => true
  | some p => p.x + 1 ≠ x || p.y ≠ y

/-- `/repo/terminal_backend.go:144-187` — the loop of `DefaultBackend.Draw`, with its local
variables `lastPos`, `modifier`, `fg`, `bg`. -/
def drawLoop (T : Termenv) : List PositionedCell → Option Position → Modifier → Color → Color →
    List Command
  | [], _, _, _, _ => []
  | pc :: rest, lastPos, modifier, fg, bg =>
    let x := pc.pos.x
    let y := pc.pos.y
    let cell := pc.cell
    (if needMove lastPos x y then [.moveTo x y] else []) ++
    (if cell.modifier ≠ modifier then modifierDiff modifier cell.modifier else []) ++
    (if cell.fg ≠ fg ∨ cell.bg ≠ bg then [.setColors (T.convert cell.fg) (T.convert cell.bg)]
     else []) ++
    [.print cell.symbol] ++
    drawLoop T rest (some ⟨x, y⟩) cell.modifier cell.fg cell.bg

/-- `/repo/terminal_backend.go:133-200` — `DefaultBackend.Draw`. -/
def drawCommands (T : Termenv) (cells : List PositionedCell) : List Command :=
  drawLoop T cells none 0 .reset .reset ++
    [.setColors (some .reset) (some .reset), .setAttribute .reset]

end Bento
