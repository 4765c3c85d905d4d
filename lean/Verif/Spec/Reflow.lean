import Verif.Model.Reflow

/-!
# What a line composer is for
-/

namespace Bento

/-- A line composer that is asked for rows until it has none left delivers exactly these. -/
inductive Yields {S : Type} (next : S → Option (WrappedLine × S)) : S → List WrappedLine → Prop
  | done {s} : next s = none → Yields next s []
  | more {s l s' ls} : next s = some (l, s') → Yields next s' ls → Yields next s (l :: ls)

/-- The graphemes that are not whitespace. -/
def visible (l : List StyledGrapheme) : List StyledGrapheme := l.filter fun g => !g.g.isWhitespace

/-- The graphemes that have a symbol. -/
def symbols (l : List StyledGrapheme) : List StyledGrapheme := l.filter fun g => g.g.symbol ≠ ""

/-- The columns a row of graphemes takes. -/
def columns (l : List StyledGrapheme) : Int := (l.map fun g => (g.g.width : Int)).sum

/-- No stretch without whitespace is wider than `max`. -/
def WordsFit (max : Int) (l : List StyledGrapheme) : Prop :=
  ∀ before word after, before ++ word ++ after = l → (∀ g ∈ word, g.g.isWhitespace = false) →
    columns word ≤ max

/-- No grapheme takes more than one column. -/
def AtMostSingle (l : List StyledGrapheme) : Prop := ∀ g ∈ l, g.g.width ≤ 1

end Bento

namespace Bento

/-- In a text that is made of three parts, the middle one is a word: it has no whitespace, and whitespace
or an end of the text before and after it. -/
structure IsWord (text before word after : List StyledGrapheme) : Prop where
  parts : text = before ++ word ++ after
  some_ : word ≠ []
  solid : ∀ g ∈ word, g.g.isWhitespace = false
  left : ∀ g ∈ before.getLast?, g.g.isWhitespace = true
  right : ∀ g ∈ after.head?, g.g.isWhitespace = true

/-- The word is on one row, with nothing shown inside of it; before it are the visible graphemes that are
before it in the text, and after it those after it. -/
def OnOneRow (rows : List (List StyledGrapheme)) (before word after : List StyledGrapheme) : Prop :=
  ∃ rows₁ rows₂ a m b, rows = rows₁ ++ (a ++ m ++ b) :: rows₂ ∧ symbols m = word ∧
    visible (rows₁.flatten ++ a) = visible before ∧ visible (b ++ rows₂.flatten) = visible after

end Bento

namespace Bento

/-- The code points that Unicode calls white space (its property White_Space). -/
def blankCodes : List Nat :=
  [9, 10, 11, 12, 13, 0x20, 0x85, 0xa0, 0x1680, 0x2000, 0x2001, 0x2002, 0x2003, 0x2004, 0x2005, 0x2006, 0x2007, 0x2008,
    0x2009, 0x200a, 0x2028, 0x2029, 0x202f, 0x205f, 0x3000]

/-- Those of them that do not allow a line break. -/
def unbreakable : List Nat := [0xa0, 0x2007, 0x202f]

end Bento

namespace Bento

/-- In a text that is made of parts, `done` ends with something visible, then there is whitespace, then the next word (or
what is left of a word), as a whole; if there is no next word, the text ends with the whitespace. -/
structure NextWord (text done gap next rest : List StyledGrapheme) : Prop where
  parts : text = done ++ gap ++ next ++ rest
  last : ∀ g ∈ done.getLast?, g.g.isWhitespace = false
  blank : ∀ g ∈ gap, g.g.isWhitespace = true
  solid : ∀ g ∈ next, g.g.isWhitespace = false
  whole : ∀ g ∈ rest.head?, g.g.isWhitespace = true
  all : next = [] → rest = []

end Bento
