import Verif.Spec.Control

/-!
# Text with clusters that have no width
-/

namespace Bento

/-- A symbol that takes columns, and the clusters without width that follow it. -/
structure Marked where
  base : String
  marks : List String

/-- The clusters of a marked symbol. -/
def Marked.clusters (m : Marked) : List String := m.base :: m.marks

/-- The symbol has a width, what follows has none. -/
def Marked.Ok (u : Uniseg) (m : Marked) : Prop := 1 ≤ u.width m.base ∧ ∀ c ∈ m.marks, u.width c = 0

/-- What the columns of a marked symbol hold: the first one the symbol, the others a blank, and the last one the
clusters without width too. -/
def Marked.cells (u : Uniseg) (m : Marked) : List String :=
  (List.range (u.width m.base)).map fun k =>
    (if k = 0 then m.base else " ") ++ (if k + 1 = u.width m.base then String.join m.marks else "")

/-- The columns of a list of symbols. -/
def markedColumns (u : Uniseg) (ms : List Marked) : Nat := (ms.map fun m => u.width m.base).sum

/-- The text is cut behind the symbols `ms`, because there is no room for what follows. -/
def CutBehind (u : Uniseg) (w : Int) (ms : List Marked) (rest : List String) : Prop :=
  (markedColumns u ms : Int) ≤ w ∧ ∀ c, rest.head? = some c → w < markedColumns u ms + u.width c

end Bento
