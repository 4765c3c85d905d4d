import Verif.Model.Style

/-!
# Terminal commands and their encodings

Models `/repo/internal/ansi/command.go`, `/repo/internal/ansi/attr.go`, `/repo/color.go` and the
`Sequence` methods of `termenv` colours.  Output is a list of characters (code points); the UTF-8
encoding of the characters is not modelled.
-/

namespace Bento

/-- The part of the external library `termenv` that the code uses: `Profile.Convert` of the output's
colour profile (`none` = a nil colour) and the parsing of an RGB colour by `colorful.Hex`. -/
structure Termenv where
  convert : Color → Option Color
  hex : String → Option (Nat × Nat × Nat)

/-- `strconv.Itoa` on a natural number: decimal digits, least significant last. -/
def natDigits (n : Nat) : List Char :=
  if n < 10 then [Char.ofNat (48 + n)] else natDigits (n / 10) ++ [Char.ofNat (48 + n % 10)]
termination_by n
decreasing_by omega

/-- `strconv.Itoa`. -/
def itoa (i : Int) : List Char :=
  if i < 0 then '-' :: natDigits i.natAbs else natDigits i.toNat

/-- `/repo/color.go:12-18` — `ResetColor.Sequence`, and `termenv`'s `NoColor.Sequence` (empty),
`ANSIColor.Sequence` (30+n / 90+n-8, +10 for the background), `ANSI256Color.Sequence`
(`38;5;n`/`48;5;n`) and `RGBColor.Sequence` (`38;2;r;g;b`/`48;2;r;g;b`, empty if the string is not
a hex colour). -/
def Color.sequence (T : Termenv) (bg : Bool) : Color → List Char
  | .reset => natDigits (if bg then 49 else 39)
  | .noColor => []
  | .ansi n =>
    if n < 8 then natDigits (n + (if bg then 40 else 30))
    else natDigits (n - 8 + (if bg then 100 else 90))
  | .ansi256 n => natDigits (if bg then 48 else 38) ++ ';' :: '5' :: ';' :: natDigits n
  | .rgb h =>
    match T.hex h with
    | none => []
    | some (r, g, b) =>
      natDigits (if bg then 48 else 38) ++ ';' :: '2' :: ';' :: natDigits r ++ ';' :: natDigits g ++
        ';' :: natDigits b

/-- `/repo/internal/ansi/attr.go:7` — the table `_sgr`. -/
def sgrTable : List Nat :=
  [0, 1, 2, 3, 4, 2, 3, 4, 5, 5, 6, 7, 8, 9, 20, 21, 22, 23, 24, 25, 27, 28, 29, 51, 52, 53, 54, 55]

/-- `/repo/internal/ansi/attr.go:9-38` — the attribute constants. -/
inductive Attr where
  | reset | bold | dim | italic | underlined | doubleUnderlined | undercurled | underdotted
  | underdashed | slowBlink | rapidBlink | reverse | hidden | crossedOut | fraktur | noBold
  | normalIntensity | noItalic | noUnderline | noBlink | noReverse | noHidden | notCrossedOut
  | framed | encircled | overLined | notFramedOrEncircled | notOverLined
  deriving DecidableEq, Repr

/-- `/repo/internal/ansi/attr.go:9-38` — `iota` values of the constants. -/
def Attr.index : Attr → Nat
  | .reset => 0 | .bold => 1 | .dim => 2 | .italic => 3 | .underlined => 4
  | .doubleUnderlined => 5 | .undercurled => 6 | .underdotted => 7 | .underdashed => 8
  | .slowBlink => 9 | .rapidBlink => 10 | .reverse => 11 | .hidden => 12 | .crossedOut => 13
  | .fraktur => 14 | .noBold => 15 | .normalIntensity => 16 | .noItalic => 17 | .noUnderline => 18
  | .noBlink => 19 | .noReverse => 20 | .noHidden => 21 | .notCrossedOut => 22 | .framed => 23
  | .encircled => 24 | .overLined => 25 | .notFramedOrEncircled => 26 | .notOverLined => 27

/-- `/repo/internal/ansi/attr.go:44-50` — `Attr.SGR`. -/
def Attr.sgr (a : Attr) : List Char :=
  let n := natDigits (sgrTable.getD a.index 0)
  if a.index > 4 ∧ a.index < 9 then '4' :: ':' :: n else n

/-- `/repo/internal/ansi/command.go:24-151` — the commands. -/
inductive Command where
  | moveTo (column row : Int)
  | setAttribute (a : Attr)
  | setColors (fg bg : Option Color)
  | print (s : String)
  | showCursor | hideCursor
  | clearAll | clearAfterCursor | clearBeforeCursor | clearCurrentLine | clearUntilNewLine
  | enterAlternateScreen | leaveAlternateScreen
  | enableBracketedPaste | disableBracketedPaste
  deriving DecidableEq, Repr

/-- `/repo/internal/ansi/command.go:11-20` — `CSI`. -/
def csi (rest : List Char) : List Char := '\x1b' :: '[' :: rest

/-- The `WriteANSI` methods, `/repo/internal/ansi/command.go:32-151`.  `none` is a panic: in
`SetColors` (62-73) the two cases with exactly one nil colour call a method of the nil one. -/
def Command.write (T : Termenv) : Command → Option (List Char)
  | .moveTo column row => some (csi (itoa (row + 1) ++ ';' :: itoa (column + 1) ++ ['H']))
  | .setAttribute a => some (csi (a.sgr ++ ['m']))
  | .setColors fg bg =>
    match fg, bg with
    | some f, some b => some (csi (f.sequence T false ++ ';' :: b.sequence T true ++ ['m']))
    | none, some _ => none
    | some _, none => none
    | none, none => some []
  | .print s => some s.toList
  | .showCursor => some (csi ['?', '2', '5', 'h'])
  | .hideCursor => some (csi ['?', '2', '5', 'l'])
  | .clearAll => some (csi ['2', 'J'])
  | .clearAfterCursor => some (csi ['J'])
  | .clearBeforeCursor => some (csi ['1', 'J'])
  | .clearCurrentLine => some (csi ['2', 'K'])
  | .clearUntilNewLine => some (csi ['K'])
  | .enterAlternateScreen => some (csi ['?', '1', '0', '4', '9', 'h'])
  | .leaveAlternateScreen => some (csi ['?', '1', '0', '4', '9', 'l'])
  | .enableBracketedPaste => some (csi ['?', '2', '0', '0', '4', 'h'])
  | .disableBracketedPaste => some (csi ['?', '2', '0', '0', '4', 'l'])

/-- `/repo/terminal_backend.go:382-390` — `queue`: the concatenated output of a list of commands. -/
def writeAll (T : Termenv) (cmds : List Command) : Option (List Char) :=
  cmds.foldrM (fun c out => (c.write T).map (· ++ out)) []

end Bento
