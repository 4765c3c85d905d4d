import Verif.Model.Layout

/-!
# The areas of a layout, handed out

Models `Splitted` (`/repo/layout.go:28-52`). Variables of type `Rect` are numbered; a pointer is the number of a
variable or nil.
-/

namespace Bento

namespace Splitted

/-- The variables. -/
abbrev Memory := Nat → Rect

/-- `/repo/layout.go:33` — `*areas[i] = s[i]`. -/
def store (mem : Memory) (v : Nat) (r : Rect) : Memory := fun u => if u = v then r else mem u

/-- `/repo/layout.go:30-36` — `Assign`, from index `i` on: the variables afterwards, and whether it ends without the
panic of an index out of range. -/
def assignFrom (s : List Rect) (i : Nat) (mem : Memory) : List (Option Nat) → Memory × Bool
  | [] => (mem, true)
  | none :: areas => assignFrom s (i + 1) mem areas
  | some v :: areas =>
    match s[i]? with
    | none => (mem, false)
    | some r => assignFrom s (i + 1) (store mem v r) areas

/-- `/repo/layout.go:30-36` — `Assign`. -/
def assign (s : List Rect) (mem : Memory) (areas : List (Option Nat)) : Memory × Bool := assignFrom s 0 mem areas

/-- `/repo/layout.go:38-40` — `Unwrap`; `none` is a panic. -/
def unwrap (s : List Rect) : Option Rect := s[0]?

/-- `/repo/layout.go:42-44` — `Unwrap2`. -/
def unwrap2 (s : List Rect) : Option (Rect × Rect) := do return (← s[0]?, ← s[1]?)

/-- `/repo/layout.go:46-48` — `Unwrap3`. -/
def unwrap3 (s : List Rect) : Option (Rect × Rect × Rect) := do return (← s[0]?, ← s[1]?, ← s[2]?)

/-- `/repo/layout.go:50-52` — `Unwrap4`. -/
def unwrap4 (s : List Rect) : Option (Rect × Rect × Rect × Rect) := do return (← s[0]?, ← s[1]?, ← s[2]?, ← s[3]?)

end Splitted

end Bento
