import Verif.Model.Slices

/-!
# What builders are to return

Without any arrays: a value holds the elements it was made with, or those of the value it was derived from and the
added ones.
-/

namespace Bento

namespace Slices

section

variable {α : Type}

def expectedStep (vs : List (List α)) : Op α → Option (List (List α))
  | .new xs => some (vs ++ [xs])
  | .extend i xs _ =>
    match vs[i]? with
    | none => none
    | some v => some (vs ++ [v ++ xs])

/-- What all values of a history are to hold. -/
def expected (ops : List (Op α)) : Option (List (List α)) := ops.foldlM expectedStep []

/-- Every value is extended at most once, unless it comes straight from a constructor; and something is added each
time. -/
structure Linear (ops : List (Op α)) : Prop where
  once : ∀ (j k i : Nat) xs ys a b, j < k → ops[j]? = some (.extend i xs a) → ops[k]? = some (.extend i ys b) →
    ∃ zs, ops[i]? = some (.new zs)
  added : ∀ i xs a, .extend i xs a ∈ ops → xs ≠ []

end

end Slices

end Bento
