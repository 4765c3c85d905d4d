import Verif.Model.Casso

/-!
# What a linear constraint means

Independent of the solver: the value of an expression under an assignment of the variables, when a
constraint holds, how far it is violated, and the weighted violation of a list of constraints.
-/

namespace Bento.Casso

/-- The value of an expression under the assignment `x`. -/
def Expr.eval (e : Expr) (x : Var → ℚ) : ℚ :=
  e.constant + (e.terms.map fun t => t.2 * x t.1).sum

/-- The constraint `expression op 0` holds under the assignment `x`. -/
def Constr.Holds (c : Constr) (x : Var → ℚ) : Prop :=
  match c.op with
  | .le => c.expr.eval x ≤ 0
  | .eq => c.expr.eval x = 0
  | .ge => 0 ≤ c.expr.eval x

/-- How far the constraint is from holding. -/
def Constr.violation (c : Constr) (x : Var → ℚ) : ℚ :=
  match c.op with
  | .le => max 0 (c.expr.eval x)
  | .eq => |c.expr.eval x|
  | .ge => max 0 (-c.expr.eval x)

/-- A constraint of strength `Required` or more must hold; the others may be violated. -/
def Constr.IsRequired (c : Constr) : Prop := required ≤ c.strength

instance (c : Constr) : Decidable c.IsRequired := inferInstanceAs (Decidable (_ ≤ _))

/-- All required constraints hold. -/
def Feasible (cs : List Constr) (x : Var → ℚ) : Prop :=
  ∀ c ∈ cs, c.IsRequired → c.Holds x

/-- The weighted sum of the violations of the constraints that are not required. -/
def weightedViolation (cs : List Constr) (x : Var → ℚ) : ℚ :=
  (cs.map fun c => if c.IsRequired then 0 else c.strength * c.violation x).sum

/-- The variables of a constraint, one for each term. -/
def Constr.vars (c : Constr) : List Var := c.expr.terms.map Prod.fst

/-- A constraint that brings in a variable: one that occurs in a single term, with a factor other
than 0, and in no earlier constraint. -/
def Constr.Introduces (seen : List Var) (c : Constr) : Prop :=
  ∃ t ∈ c.expr.terms, t.2 ≠ 0 ∧ t.1 ∉ seen ∧ c.vars.count t.1 = 1

instance (seen : List Var) (c : Constr) : Decidable (c.Introduces seen) :=
  inferInstanceAs (Decidable (∃ t ∈ c.expr.terms, _))

/-- How many symbols, apart from those of the variables, a list of constraints may take: two for each
constraint, but only one for a required constraint that brings in a variable.  `seen` are the variables
of the constraints before. -/
def symbolsFor (seen : List Var) : List Constr → Nat
  | [] => 0
  | c :: cs =>
    (if c.IsRequired ∧ c.Introduces seen then 1 else 2) + symbolsFor (seen ++ c.vars) cs

end Bento.Casso
