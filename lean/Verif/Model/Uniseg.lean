/-!
# The external text-segmentation library

`github.com/rivo/uniseg` is not part of `/repo`; it is modelled by its interface.  Every theorem
about text quantifies over an arbitrary `Uniseg`, and states which of the laws it needs.
Go strings are modelled by Lean `String` (sequences of Unicode scalar values); invalid UTF-8 inside
cell symbols is not modelled.
-/

namespace Bento

/-- `uniseg.NewGraphemes(s)` as the list of clusters, and `Graphemes.Width()` of a cluster. -/
structure Uniseg where
  /-- the grapheme clusters of a string, in order (`Graphemes.Next/Str`) -/
  graphemes : String → List String
  /-- monospace width of one cluster (`Graphemes.Width`) -/
  width : String → Nat

namespace Uniseg

/-- `uniseg.StringWidth(s)`: the sum of the widths of the clusters. -/
def stringWidth (u : Uniseg) (s : String) : Nat := ((u.graphemes s).map u.width).sum

/-- The laws of `uniseg` that some theorems assume:
clusters concatenate to the string, are non-empty, segmenting a cluster yields just itself, and
a single space is one cluster of width one. -/
structure Lawful (u : Uniseg) : Prop where
  join : ∀ s, String.join (u.graphemes s) = s
  nonempty : ∀ s, ∀ c ∈ u.graphemes s, c ≠ ""
  idem : ∀ s, ∀ c ∈ u.graphemes s, u.graphemes c = [c]
  space : u.graphemes " " = [" "] ∧ u.width " " = 1

/-- A concrete instance used for the non-vacuity examples: one cluster per character; the
characters `世` and `界` have width 2, U+0301 (combining acute) and control characters have width 0,
all others 1 (as in `uniseg`). -/
def simple : Uniseg where
  graphemes s := s.toList.map (fun c => String.ofList [c])
  width s :=
    if s = "世" ∨ s = "界" then 2
    else if s.toList.all (fun c => c.toNat < 32 || c.toNat = 0x301) then 0 else 1

end Uniseg

/-- `/repo/internal/grapheme/grapheme.go:20-23` — `type Grapheme struct { symbol string; width int }`. -/
@[ext] structure Grapheme where
  symbol : String
  width : Nat
  deriving DecidableEq, Repr, Inhabited

namespace Grapheme

/-- `/repo/internal/grapheme/grapheme.go:9-11` — `Empty()`, the Go zero value. -/
def empty : Grapheme := ⟨"", 0⟩

/-- `/repo/internal/grapheme/grapheme.go:33-35` — `IsEmpty`. -/
def isEmpty (g : Grapheme) : Bool := g.symbol == ""

/-- The runes for which Go's `unicode.IsSpace` is true: the Latin-1 set
`\t \n \v \f \r ' ' U+0085 U+00A0` and the other code points of category Z / property
White_Space. -/
def isSpaceRune (c : Char) : Bool :=
  let n := c.toNat
  (0x09 ≤ n && n ≤ 0x0d) || n == 0x20 || n == 0x85 || n == 0xa0 || n == 0x1680 ||
    (0x2000 ≤ n && n ≤ 0x200a) || n == 0x2028 || n == 0x2029 || n == 0x202f || n == 0x205f ||
    n == 0x3000

/-- `/repo/internal/grapheme/grapheme.go:37-56` — `IsWhitespace`. -/
def isWhitespace (g : Grapheme) : Bool :=
  if g.symbol = "\u200b" then true
  else if g.symbol.toList.all isSpaceRune then g.symbol != "\u00a0" else false

/-- `/repo/internal/grapheme/grapheme.go:13-18` — `New(symbol)`. -/
def new (u : Uniseg) (symbol : String) : Grapheme := ⟨symbol, u.stringWidth symbol⟩

end Grapheme

/-- `/repo/internal/grapheme/graphemes.go:11-24` — `NewGraphemes`. -/
def newGraphemes (u : Uniseg) (s : String) : List Grapheme :=
  (u.graphemes s).map (fun c => ⟨c, u.width c⟩)

/-- `/repo/internal/grapheme/graphemes.go:26-34` — `Graphemes.Width`. -/
def graphemesWidth (gs : List Grapheme) : Nat := (gs.map Grapheme.width).sum

/-- `/repo/internal/grapheme/graphemes.go:36-48` — `Graphemes.String`. -/
def graphemesString (gs : List Grapheme) : String := String.join (gs.map Grapheme.symbol)

end Bento
