import Verif.Spec.Paragraph

/-!
# How words fill rows
-/

namespace Bento

/-- A line of words: the first one, and for each of the others the blank before it and the word. -/
structure Words where
  first : List StyledGrapheme
  rest : List (StyledGrapheme × List StyledGrapheme)

/-- The words as one text. -/
def Words.text (w : Words) : List StyledGrapheme := w.first ++ w.rest.flatMap fun p => p.1 :: p.2

/-- A word of single columns that is no wider than a row. -/
structure FitsRow (max : Int) (word : List StyledGrapheme) : Prop where
  some_ : word ≠ []
  solid : ∀ g ∈ word, g.g.isWhitespace = false ∧ g.g.width = 1
  fits : (word.length : Int) ≤ max

/-- All words fit, and there is one blank of one column between them. -/
structure Words.Fit (max : Int) (w : Words) : Prop where
  first : FitsRow max w.first
  rest : ∀ p ∈ w.rest, p.1.g.isWhitespace = true ∧ p.1.g.width = 1 ∧ FitsRow max p.2

/-- Rows are filled as on a page: a word goes behind the others on its row if there is room for it and for the blank before
it, and else it begins the next row, without the blank. -/
def fillRows (max : Int) (row : List StyledGrapheme) : List (StyledGrapheme × List StyledGrapheme) → List (List StyledGrapheme)
  | [] => [row]
  | (blank, word) :: rest =>
    if (row.length + 1 + word.length : Int) ≤ max then fillRows max (row ++ blank :: word) rest
    else row :: fillRows max word rest

/-- The rows of a line; an empty line has one. -/
def lineRows (max : Int) : Option Words → List (List StyledGrapheme)
  | none => [[]]
  | some w => fillRows max w.first w.rest

/-- The text of a line. -/
def lineText : Option Words → List StyledGrapheme
  | none => []
  | some w => w.text

/-- What takes a column of a row. -/
def WrappedLine.seen (l : WrappedLine) : List StyledGrapheme := l.line.filter fun g => g.g.width ≠ 0

/-- The grapheme that the rows show at a position: `lead` columns are left free before a row. -/
def pageShows (rows : List (List StyledGrapheme × Alignment)) (scrollY : Int) (area : Rect) (q : Position) :
    Option StyledGrapheme :=
  match (if 0 ≤ q.y - area.y + scrollY then rows[(q.y - area.y + scrollY).toNat]? else none) with
  | some (row, a) =>
    let lead := a.lead area.width.toNat row.length
    if lead ≤ (q.x - area.x).toNat then row[(q.x - area.x).toNat - lead]? else none
  | none => none

/-! ### Plain text -/

/-- The same for words of characters. -/
def fillWords (max : Int) (row : List Char) : List (List Char) → List (List Char)
  | [] => [row]
  | word :: rest =>
    if (row.length + 1 + word.length : Int) ≤ max then fillWords max (row ++ ' ' :: word) rest
    else row :: fillWords max word rest

/-- The rows of a line of words; a line without words has one, which is empty. -/
def wordRows (max : Int) : List (List Char) → List (List Char)
  | [] => [[]]
  | word :: rest => fillWords max word rest

/-- A line of words as it is written. -/
def written (words : List (List Char)) : List Char := List.intercalate [' '] words

/-- Words of visible ASCII characters that are no wider than a row, on a line of less than 64 KiB. -/
structure PlainWords (max : Int) (words : List (List Char)) : Prop where
  some_ : ∀ w ∈ words, w ≠ []
  visible : ∀ w ∈ words, ∀ c ∈ w, 33 ≤ c.toNat ∧ c.toNat < 127
  fits : ∀ w ∈ words, (w.length : Int) ≤ max
  short : byteSize (written words) < 65536

/-- The character that the rows show at a position. -/
def pageChar (rows : List (List Char)) (a : Alignment) (scrollY : Int) (area : Rect) (q : Position) : Option Char :=
  (rows[(q.y - area.y + scrollY).toNat]?).bind fun row =>
    let lead := a.lead area.width.toNat row.length
    if lead ≤ (q.x - area.x).toNat then row[(q.x - area.x).toNat - lead]? else none

end Bento
