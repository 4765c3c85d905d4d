import Verif.Model.Text

/-!
# The lines of a text

What C31 is stated with.
-/

namespace Bento

/-- The lines of a text: none contains a newline, and each but possibly the last is followed by one. -/
def LinesOf (cs : List Char) (ls : List (List Char)) : Prop :=
  (∀ l ∈ ls, '\n' ∉ l) ∧
  (ls.flatMap (· ++ ['\n']) = cs ∨
    cs ≠ [] ∧ cs.getLast? ≠ some '\n' ∧ ls.flatMap (· ++ ['\n']) = cs ++ ['\n'])

/-- A line without the last of its characters if that is a carriage return. -/
def withoutReturn (l : List Char) : List Char :=
  match l.reverse with
  | '\r' :: r => r.reverse
  | _ => l

end Bento
