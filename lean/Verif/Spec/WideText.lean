import Verif.Spec.Text
import Verif.Spec.Control

/-!
# Lines of symbols that take one or more columns
-/

namespace Bento

/-- A cluster that takes at least one column and is shown. -/
def Uniseg.Visible (u : Uniseg) (c : String) : Prop := 1 ≤ u.width c ∧ Harmless c

/-- A line of visible text. -/
def Line.VisibleText (u : Uniseg) (l : Line) : Prop := ∀ s ∈ l.spans, ∀ c ∈ u.graphemes s.content, u.Visible c

/-- The columns of a list of clusters. -/
def Uniseg.columns (u : Uniseg) (cs : List String) : Nat := (cs.map u.width).sum

/-- The column, counted from the first one of a row of `w` columns, in which a text of `total` columns
begins; it is negative if columns are cut off on the left. -/
def Alignment.origin (a : Alignment) (w total : Nat) : Int :=
  if total ≤ w then (a.before (w - total) : Nat) else -((a.before (total - w) : Nat) : Int)

/-- Cluster `j` of the text, which begins in column `x` of a row of `w` columns, takes column `k` and is shown,
because all of its columns are in the row. -/
def Uniseg.ShownAt (u : Uniseg) (cs : List String) (origin : Int) (w : Nat) (j : Nat) (c : String) (x k : Int) : Prop :=
  cs[j]? = some c ∧ x = origin + u.columns (cs.take j) ∧ 0 ≤ x ∧ x + u.width c ≤ w ∧ x ≤ k ∧ k < x + u.width c

/-- What column `k` of a row of `w` columns shows of a text that begins in column `x`, if it shows any of it: the
symbol that begins there, or a blank in its other columns, provided that all of its columns are in the row. -/
def Uniseg.columnText (u : Uniseg) (w : Nat) : List String → Int → Int → Option String
  | [], _, _ => none
  | c :: cs, x, k =>
    if k < x + u.width c then
      if 0 ≤ x ∧ x ≤ k ∧ x + u.width c ≤ w then some (if k = x then c else " ") else none
    else u.columnText w cs (x + u.width c) k

/-- What column `k` of a row of `w` columns shows of a text of visible symbols at the alignment, if it shows any of
it. -/
def Uniseg.aligned (u : Uniseg) (a : Alignment) (w : Nat) (cs : List String) (k : Nat) : Option String :=
  u.columnText w cs (a.origin w (u.columns cs)) k

/-- The text stands in row `y` from column `x` on: each symbol in its first column, with blanks in its other ones. -/
def Uniseg.Spelled (u : Uniseg) (cs : List String) (x y : Int) (b : Buffer) : Prop :=
  ∀ (j : Nat) (c : String), cs[j]? = some c → ∀ i : Nat, i < u.width c →
    b.symbolAt ⟨x + u.columns (cs.take j) + i, y⟩ = some (if i = 0 then c else " ")

end Bento
