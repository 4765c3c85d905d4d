import Verif.Model.Layout
import Verif.Spec.Layout
import Mathlib.Algebra.Order.Group.Unbundled.Int

/-!
# Layouts inside layouts
-/

namespace Bento.Layout

/-- No padding is negative. -/
def PaddingNonneg (p : Padding) : Prop := 0 ≤ p.left ∧ 0 ≤ p.right ∧ 0 ≤ p.top ∧ 0 ≤ p.bottom

/-- Every segment ends, with the gap after it, no later than any later segment begins. -/
def InRow (d : Direction) (gap : Int) (rs : List Rect) : Prop :=
  rs.Pairwise fun r s => lo d r + extent d r + gap ≤ lo d s

/-- Every segment is followed by the next after exactly the gap. -/
def InExactRow (d : Direction) (gap : Int) (rs : List Rect) : Prop :=
  ∀ (i : Nat) (r s : Rect), rs[i]? = some r → rs[i + 1]? = some s → lo d r + extent d r + gap = lo d s

/-- Where the room goes that the segments leave, in a flex mode. The area reaches from `a` to `b`, the segments from
`first` to `last`; `several` says that there are at least two of them. -/
def RestGoes (flex : Flex) (several : Prop) (a b first last : Int) : Prop :=
  match flex with
  | .start => first = a
  | .end' => last = b
  | .center => |(first - a) - (b - last)| ≤ 1
  | .spaceBetween => several → first = a ∧ last = b
  | _ => True

/-- Any two gaps between neighbours differ by at most one cell. -/
def EvenGaps (d : Direction) (rs : List Rect) : Prop :=
  ∀ (i j : Nat) (r s r' s' : Rect), rs[i]? = some r → rs[i + 1]? = some s → rs[j]? = some r' → rs[j + 1]? = some s' →
    |(lo d s - (lo d r + extent d r)) - (lo d s' - (lo d r' + extent d r'))| ≤ 1

mutual
/-- `Nested area leaves`: the areas left after splitting `area` with some layout, the segments again with others, and
so on, as often as one likes; every split with its own order of the solver's maps. -/
inductive Nested : Rect → List Rect → Prop
  | leaf (area : Rect) : Nested area [area]
  | split (ω : Nat → Nat) (fuel : Nat) (l : Layout) (area : Rect) (segments spacers leaves : List Rect) :
      Few l → 0 ≤ gapOf l.spacing → PaddingNonneg l.padding →
      splitWithSpacers ω fuel l area = .ok segments spacers → NestedAll segments leaves → Nested area leaves
/-- The same for several areas, one after the other. -/
inductive NestedAll : List Rect → List Rect → Prop
  | nil : NestedAll [] []
  | cons (r : Rect) (rs leaves more : List Rect) :
      Nested r leaves → NestedAll rs more → NestedAll (r :: rs) (leaves ++ more)
end

end Bento.Layout
