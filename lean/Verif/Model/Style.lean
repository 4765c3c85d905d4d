/-!
# Modifiers, styles and cells

Models `/repo/style.go`, `/repo/cell.go`, `/repo/color.go`, `/repo/internal/bit/bit.go`.
-/

namespace Bento

/-- Colours.  `/repo/color.go:5-18` (`ResetColor`) and the concrete implementations of the external
interface `termenv.Color` (`NoColor`, `ANSIColor`, `ANSI256Color`, `RGBColor`).  User-defined
implementations of the interface are not modelled. -/
inductive Color where
  | reset
  | noColor
  | ansi (n : Nat)
  | ansi256 (n : Nat)
  | rgb (hex : String)
  deriving DecidableEq, Repr, Inhabited

/-- `/repo/style.go:10` — `type Modifier uint16`. -/
abbrev Modifier := BitVec 16

namespace Modifier
/-- `/repo/style.go:13`. -/
def none : Modifier := 0
/-- `/repo/style.go:14`. -/
def bold : Modifier := 0b000000001
/-- `/repo/style.go:15`. -/
def dim : Modifier := 0b000000010
/-- `/repo/style.go:16`. -/
def italic : Modifier := 0b000000100
/-- `/repo/style.go:17`. -/
def underlined : Modifier := 0b000001000
/-- `/repo/style.go:18`. -/
def slowBlink : Modifier := 0b000010000
/-- `/repo/style.go:19`. -/
def rapidBlink : Modifier := 0b000100000
/-- `/repo/style.go:20`. -/
def reversed : Modifier := 0b001000000
/-- `/repo/style.go:21`. -/
def hidden : Modifier := 0b010000000
/-- `/repo/style.go:22`. -/
def crossedOut : Modifier := 0b100000000
/-- `/repo/style.go:23-31`. -/
def all : Modifier :=
  bold ||| dim ||| italic ||| underlined ||| slowBlink ||| rapidBlink ||| reversed ||| hidden |||
    crossedOut

/-- `/repo/internal/bit/bit.go:7-9` — `bit.Difference`. -/
def difference (a b : Modifier) : Modifier := a &&& ~~~b
/-- `/repo/internal/bit/bit.go:11-13` — `bit.Intersects`. -/
def intersects (a b : Modifier) : Bool := (a &&& b) != 0
/-- `/repo/internal/bit/bit.go:15-17` and `/repo/style.go:34-36` — `bit.Contains`. -/
def contains (a b : Modifier) : Bool := (a &&& b) == b
/-- `/repo/internal/bit/bit.go:19-21` — `bit.Union`. -/
def union (a b : Modifier) : Modifier := a ||| b
end Modifier

/-- `/repo/style.go:62-66` with `/repo/style.go:38-40`: a `StyleColor` is an optional colour
(`nil` = not set). -/
@[ext] structure Style where
  fg : Option Color
  bg : Option Color
  addModifier : Modifier
  subModifier : Modifier
  deriving DecidableEq, Repr, Inhabited

/-- `/repo/cell.go:8-13` — `type Cell struct`.  `nil` colours (only possible through
`SetFg(nil)`/`Cell{}`) are not modelled. -/
@[ext] structure Cell where
  symbol : String
  fg : Color
  bg : Color
  modifier : Modifier
  skip : Bool
  deriving DecidableEq, Repr, Inhabited

namespace Style

/-- `/repo/style.go:68-76` — `NewStyle`. -/
def new : Style := ⟨none, none, Modifier.none, Modifier.none⟩

/-- `/repo/style.go:238-243` — `Style.WithModifier`. -/
def withModifier (s : Style) (m : Modifier) : Style :=
  { s with
    subModifier := Modifier.difference s.subModifier m
    addModifier := Modifier.union s.addModifier m }

/-- `/repo/style.go:245-250` — `Style.WithoutModifier`. -/
def withoutModifier (s : Style) (m : Modifier) : Style :=
  { s with
    addModifier := Modifier.difference s.addModifier m
    subModifier := Modifier.union s.subModifier m }

/-- `/repo/style.go:252-256` — `Style.WithBackground`. -/
def withBackground (s : Style) (c : Color) : Style := { s with bg := some c }

/-- `/repo/style.go:258-262` — `Style.WithForeground`. -/
def withForeground (s : Style) (c : Color) : Style := { s with fg := some c }

/-- `/repo/style.go:264-280` — `Style.Patched`. -/
def patched (s patch : Style) : Style :=
  { fg := if patch.fg.isSome then patch.fg else s.fg
    bg := if patch.bg.isSome then patch.bg else s.bg
    addModifier :=
      Modifier.union (Modifier.difference s.addModifier patch.subModifier) patch.addModifier
    subModifier :=
      Modifier.union (Modifier.difference s.subModifier patch.addModifier) patch.subModifier }

/-- `/repo/style.go:78-80` — `Style.Reversed`. -/
def reversed (s : Style) : Style := s.withModifier Modifier.reversed

/-- `fmt.Sprintf("%x", n)` for one hexadecimal digit. -/
def hexDigit (n : Nat) : Char := if n < 10 then Char.ofNat (48 + n) else Char.ofNat (87 + n)

/-- `fmt.Sprintf("#%02x%02x%02x", r, g, b)` for bytes. -/
def hexColor (r g b : Fin 256) : String :=
  String.ofList ['#', hexDigit (r / 16), hexDigit (r % 16), hexDigit (g / 16), hexDigit (g % 16),
    hexDigit (b / 16), hexDigit (b % 16)]

/-- `/repo/style.go:102-104` — `Style.RGB`. -/
def rgb (s : Style) (r g b : Fin 256) : Style := s.withForeground (.rgb (hexColor r g b))

/-- `/repo/style.go:106-108` — `Style.OnRGB`. -/
def onRGB (s : Style) (r g b : Fin 256) : Style := s.withBackground (.rgb (hexColor r g b))

/-- `/repo/style.go:78-100`, `110-236` — the helpers by name (`termenv.ANSIBlack` … `ANSIBrightWhite` are
`ANSIColor` 0 … 15). -/
def helpers : List (String × (Style → Style)) :=
  [("Reversed", reversed),
   ("CrossedOut", (·.withModifier Modifier.crossedOut)),
   ("Italic", (·.withModifier Modifier.italic)),
   ("Bold", (·.withModifier Modifier.bold)),
   ("Underlined", (·.withModifier Modifier.underlined)),
   ("Dim", (·.withModifier Modifier.dim)),
   ("Black", (·.withForeground (.ansi 0))), ("OnBlack", (·.withBackground (.ansi 0))),
   ("Red", (·.withForeground (.ansi 1))), ("OnRed", (·.withBackground (.ansi 1))),
   ("Green", (·.withForeground (.ansi 2))), ("OnGreen", (·.withBackground (.ansi 2))),
   ("Yellow", (·.withForeground (.ansi 3))), ("OnYellow", (·.withBackground (.ansi 3))),
   ("Blue", (·.withForeground (.ansi 4))), ("OnBlue", (·.withBackground (.ansi 4))),
   ("Magenta", (·.withForeground (.ansi 5))), ("OnMagenta", (·.withBackground (.ansi 5))),
   ("Cyan", (·.withForeground (.ansi 6))), ("OnCyan", (·.withBackground (.ansi 6))),
   ("White", (·.withForeground (.ansi 7))), ("OnWhite", (·.withBackground (.ansi 7))),
   ("BrightBlack", (·.withForeground (.ansi 8))), ("OnBrightBlack", (·.withBackground (.ansi 8))),
   ("BrightRed", (·.withForeground (.ansi 9))), ("OnBrightRed", (·.withBackground (.ansi 9))),
   ("BrightGreen", (·.withForeground (.ansi 10))), ("OnBrightGreen", (·.withBackground (.ansi 10))),
   ("BrightYellow", (·.withForeground (.ansi 11))), ("OnBrightYellow", (·.withBackground (.ansi 11))),
   ("BrightBlue", (·.withForeground (.ansi 12))), ("OnBrightBlue", (·.withBackground (.ansi 12))),
   ("BrightMagenta", (·.withForeground (.ansi 13))), ("OnBrightMagenta", (·.withBackground (.ansi 13))),
   ("BrightCyan", (·.withForeground (.ansi 14))), ("OnBrightCyan", (·.withBackground (.ansi 14))),
   ("BrightWhite", (·.withForeground (.ansi 15))), ("OnBrightWhite", (·.withBackground (.ansi 15)))]

end Style

namespace Cell

/-- `/repo/cell.go:19-26` — `NewCell`. -/
def new (symbol : String) : Cell := ⟨symbol, .reset, .reset, Modifier.none, false⟩

/-- `/repo/cell.go:15-17` — `NewEmptyCell`. -/
def empty : Cell := new " "

/-- `/repo/cell.go:28-32` — `Cell.SetSymbol`. -/
def setSymbol (symbol : String) (c : Cell) : Cell := { c with symbol := symbol }

/-- `/repo/cell.go:34-38` — `Cell.AppendSymbol`. -/
def appendSymbol (symbol : String) (c : Cell) : Cell := { c with symbol := c.symbol ++ symbol }

/-- `/repo/cell.go:40-43` — `Cell.SetFg`. -/
def setFg (color : Color) (c : Cell) : Cell := { c with fg := color }

/-- `/repo/cell.go:45-48` — `Cell.SetBg`. -/
def setBg (color : Color) (c : Cell) : Cell := { c with bg := color }

/-- `/repo/cell.go:50-63` — `Cell.SetStyle`. -/
def setStyle (style : Style) (c : Cell) : Cell :=
  { c with
    fg := match style.fg with | some f => f | none => c.fg
    bg := match style.bg with | some b => b | none => c.bg
    modifier :=
      Modifier.difference (Modifier.union c.modifier style.addModifier) style.subModifier }

/-- `/repo/cell.go:65-71` — `Cell.Reset`. -/
def reset (c : Cell) : Cell :=
  { c with symbol := " ", skip := false, fg := .reset, bg := .reset, modifier := 0 }

end Cell

end Bento
