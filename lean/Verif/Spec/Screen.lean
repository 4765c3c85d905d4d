import Verif.Model.Uniseg
import Verif.Model.Geometry
import Verif.Model.Style

/-!
# Specification: a terminal emulator

This file is *not* a model of code in `/repo`; it is the specification side of the terminal
properties: what a terminal following ECMA-48 / xterm does with the characters it receives.
Idealisation: the terminal segments text like `uniseg` and uses its widths.
-/

namespace Bento

/-- Colours a terminal can show. -/
inductive TColor where
  | default
  | idx (n : Nat)
  | rgb (r g b : Nat)
  deriving DecidableEq, Repr, Inhabited

/-- The graphic rendition ("pen"): colours and the set of active attributes, as the same nine bits
as `Modifier`. -/
@[ext] structure Pen where
  fg : TColor
  bg : TColor
  attrs : BitVec 16
  deriving DecidableEq, Repr, Inhabited

/-- The default rendition. -/
def Pen.neutral : Pen := ⟨.default, .default, 0⟩

/-- What one screen cell holds: a glyph (one or two columns wide, the latter occupying also the next
cell), or the right half of a wide glyph. -/
inductive SCell where
  | glyph (s : String) (wide : Bool) (pen : Pen)
  | cont
  deriving DecidableEq, Repr, Inhabited

abbrev Grid := Position → SCell

/-- The emulator's state.  `cx = cols` means that the last column has just been written
("pending wrap"). -/
structure Screen where
  cols : Int
  rows : Int
  grid : Grid
  cx : Int
  cy : Int
  pen : Pen
  visible : Bool
  alt : Bool
  other : Grid
  paste : Bool

/-- The glyph a terminal leaves behind for the remaining half of a wide character when its other half
is overwritten; terminals differ here, so it is a parameter: any narrow glyph. -/
structure Junk where
  sym : String
  pen : Pen
  deriving Inhabited

def Junk.cell (j : Junk) : SCell := .glyph j.sym false j.pen

/-- Writing a glyph of width 1 or 2 at `p`. -/
def Grid.put (j : Junk) (g : Grid) (p : Position) (s : String) (wide : Bool) (pen : Pen) : Grid :=
  fun q =>
    if q.y ≠ p.y then g q
    else if q.x = p.x then .glyph s wide pen
    else if wide ∧ q.x = p.x + 1 then .cont
    else if q.x = p.x - 1 ∧ g p = .cont then j.cell
    else if q.x = p.x + (if wide then 2 else 1) ∧ g q = .cont then j.cell
    else g q

/-- Whether a cell holds a wide glyph. -/
def SCell.isWide : SCell → Bool
  | .glyph _ w _ => w
  | .cont => false

/-- Erasing a set of cells with a background colour. -/
def Grid.erase (j : Junk) (g : Grid) (bg : TColor) (region : Position → Bool) : Grid :=
  fun q =>
    if region q then .glyph " " false ⟨.default, bg, 0⟩
    else if g q = .cont ∧ region ⟨q.x - 1, q.y⟩ then j.cell
    else if (g q).isWide ∧ region ⟨q.x + 1, q.y⟩ then j.cell
    else g q

/-- A blank grid. -/
def Grid.blank : Grid := fun _ => .glyph " " false Pen.neutral

/-- Auto-wrap: continue at the start of the next line, scrolling at the bottom. -/
def Screen.wrap (sc : Screen) : Screen :=
  if sc.cy + 1 < sc.rows then { sc with cx := 0, cy := sc.cy + 1 }
  else { sc with
    cx := 0
    grid := fun q => if q.y + 1 < sc.rows then sc.grid ⟨q.x, q.y + 1⟩
      else .glyph " " false ⟨.default, sc.pen.bg, 0⟩ }

/-- Displaying one grapheme cluster of the given width.  Zero-width clusters change nothing. -/
def Screen.putCluster (j : Junk) (width : String → Nat) (sc : Screen) (s : String) : Screen :=
  if width s = 0 then sc
  else
    let wide : Bool := width s ≥ 2
    let w : Int := if wide then 2 else 1
    let sc := if sc.cx + w > sc.cols then sc.wrap else sc
    { sc with grid := sc.grid.put j ⟨sc.cx, sc.cy⟩ s wide sc.pen, cx := sc.cx + w }

/-- Displaying a run of text. -/
def Screen.putText (j : Junk) (u : Uniseg) (sc : Screen) (s : String) : Screen :=
  (u.graphemes s).foldl (Screen.putCluster j u.width) sc

/-- A control sequence `CSI [?] p1;p2;… final` or a run of text. -/
inductive Tok where
  | text (s : String)
  | csi (priv : Bool) (params : List Nat) (final : Char)
  | unknown
  deriving DecidableEq, Repr

/-- States of the input parser. -/
inductive PState where
  /-- text collected so far (reversed) -/
  | ground (acc : List Char)
  | esc
  /-- finished parameters, current parameter -/
  | csi (priv : Bool) (done : List Nat) (cur : Nat) (bad : Bool)

/-- Emit collected text as one token. -/
def flushText (acc : List Char) : List Tok :=
  if acc = [] then [] else [.text (String.ofList acc.reverse)]

/-- The parser of the terminal: text, and control sequences introduced by `ESC [`.  An omitted
parameter counts as 0.  Other control characters and sequences yield `unknown`. -/
def parse : PState → List Char → List Tok
  | .ground acc, [] => flushText acc
  | .esc, [] => [.unknown]
  | .csi .., [] => [.unknown]
  | .ground acc, c :: cs =>
    if c = '\x1b' then flushText acc ++ parse .esc cs
    else if c.toNat < 32 ∨ c.toNat = 127 then flushText acc ++ .unknown :: parse (.ground []) cs
    else parse (.ground (c :: acc)) cs
  | .esc, c :: cs =>
    if c = '[' then parse (.csi false [] 0 false) cs else .unknown :: parse (.ground []) cs
  | .csi priv done cur bad, c :: cs =>
    if '0' ≤ c ∧ c ≤ '9' then parse (.csi priv done (cur * 10 + (c.toNat - 48)) bad) cs
    else if c = ';' then parse (.csi priv (done ++ [cur]) 0 bad) cs
    else if c = '?' then parse (.csi true done cur bad) cs
    else if '@' ≤ c ∧ c ≤ '~' then
      (if bad then .unknown else .csi priv (done ++ [cur]) c) :: parse (.ground []) cs
    else parse (.csi priv done cur true) cs

/-- Set/clear a set of attribute bits. -/
def Pen.on (p : Pen) (m : BitVec 16) : Pen := { p with attrs := p.attrs ||| m }
def Pen.off (p : Pen) (m : BitVec 16) : Pen := { p with attrs := p.attrs &&& ~~~m }

/-- Select Graphic Rendition (ECMA-48 8.3.117 and the usual colour extensions). -/
def sgr : List Nat → Pen → Pen
  | [], p => p
  | 38 :: 5 :: n :: rest, p => sgr rest { p with fg := .idx n }
  | 48 :: 5 :: n :: rest, p => sgr rest { p with bg := .idx n }
  | 38 :: 2 :: r :: g :: b :: rest, p => sgr rest { p with fg := .rgb r g b }
  | 48 :: 2 :: r :: g :: b :: rest, p => sgr rest { p with bg := .rgb r g b }
  | n :: rest, p =>
    sgr rest <|
      if n = 0 then Pen.neutral
      else if n = 1 then p.on 1          -- bold
      else if n = 2 then p.on 2          -- faint
      else if n = 3 then p.on 4          -- italic
      else if n = 4 then p.on 8          -- underlined
      else if n = 5 then p.on 16         -- slow blink
      else if n = 6 then p.on 32         -- rapid blink
      else if n = 7 then p.on 64         -- negative image
      else if n = 8 then p.on 128        -- concealed
      else if n = 9 then p.on 256        -- crossed out
      else if n = 22 then p.off 3        -- neither bold nor faint
      else if n = 23 then p.off 4
      else if n = 24 then p.off 8
      else if n = 25 then p.off 48       -- steady (not blinking)
      else if n = 27 then p.off 64
      else if n = 28 then p.off 128
      else if n = 29 then p.off 256
      else if 30 ≤ n ∧ n ≤ 37 then { p with fg := .idx (n - 30) }
      else if n = 39 then { p with fg := .default }
      else if 40 ≤ n ∧ n ≤ 47 then { p with bg := .idx (n - 40) }
      else if n = 49 then { p with bg := .default }
      else if 90 ≤ n ∧ n ≤ 97 then { p with fg := .idx (n - 90 + 8) }
      else if 100 ≤ n ∧ n ≤ 107 then { p with bg := .idx (n - 100 + 8) }
      else p

/-- Clamp into `[lo, hi]`. -/
def clampInt (lo hi x : Int) : Int := max lo (min hi x)

/-- Erase a set of cells with the current background. -/
def Screen.eraseWhere (j : Junk) (sc : Screen) (region : Position → Bool) : Screen :=
  { sc with grid := sc.grid.erase j sc.pen.bg region }

/-- Effect of a control sequence. -/
def Screen.control (j : Junk) (sc : Screen) (priv : Bool) (ps : List Nat) (final : Char) : Screen :=
  match priv, final, ps with
  | false, 'H', [r, c] =>
    { sc with
      cy := clampInt 0 (sc.rows - 1) (max 1 (r : Int) - 1)
      cx := clampInt 0 (sc.cols - 1) (max 1 (c : Int) - 1) }
  | false, 'm', ps => { sc with pen := sgr ps sc.pen }
  | false, 'J', [0] =>
    sc.eraseWhere j (fun q => q.y > sc.cy || (q.y == sc.cy && q.x ≥ min sc.cx (sc.cols - 1)))
  | false, 'J', [1] =>
    sc.eraseWhere j (fun q => q.y < sc.cy || (q.y == sc.cy && q.x ≤ min sc.cx (sc.cols - 1)))
  | false, 'J', [2] => sc.eraseWhere j (fun _ => true)
  | false, 'K', [0] =>
    sc.eraseWhere j (fun q => q.y == sc.cy && q.x ≥ min sc.cx (sc.cols - 1))
  | false, 'K', [2] => sc.eraseWhere j (fun q => q.y == sc.cy)
  | true, 'h', [25] => { sc with visible := true }
  | true, 'l', [25] => { sc with visible := false }
  | true, 'h', [1049] =>
    if sc.alt then sc else { sc with alt := true, other := sc.grid, grid := Grid.blank }
  | true, 'l', [1049] => if sc.alt then { sc with alt := false, grid := sc.other } else sc
  | true, 'h', [2004] => { sc with paste := true }
  | true, 'l', [2004] => { sc with paste := false }
  | _, _, _ => sc

/-- Effect of one token. -/
def Screen.tok (j : Junk) (u : Uniseg) (sc : Screen) : Tok → Screen
  | .text s => sc.putText j u s
  | .csi priv ps final => sc.control j priv ps final
  | .unknown => sc

/-- What the terminal does with a chunk of output. -/
def Screen.feed (j : Junk) (u : Uniseg) (sc : Screen) (out : List Char) : Screen :=
  (parse (.ground []) out).foldl (Screen.tok j u) sc

end Bento
