import Verif.Spec.Paragraph
import Verif.Spec.Text

/-!
# The single row of a paragraph that is not wrapped
-/

namespace Bento

/-- Lines run together: the first `k` items of the lines that scroll are left out. -/
def runTogether {α : Type} : List (Bool × List α) → Nat → List α
  | [], _ => []
  | (true, items) :: rest, k => items.drop k ++ runTogether rest (k - items.length)
  | (false, items) :: rest, k => items ++ runTogether rest k

/-- The symbols of the row a paragraph without wrapping shows in `width` columns. -/
def Paragraph.runOn (u : Uniseg) (p : Paragraph) (width : Nat) : List String :=
  (runTogether (p.text.lines.map fun l =>
    (decide ((if l.alignment = .none then p.alignment else l.alignment) = .left), l.clusters u))
      p.scroll.x.toNat).take width

end Bento
