/-
Model of `placo::problem::ProblemConstraint` and of the comparison operators.
  /repo/src/placo/problem/constraint.{h,cpp}
  /repo/src/placo/problem/expression.cpp 280-371
-/
import Mathlib.Algebra.Order.Ring.Defs
import Verif.Problem.Expression

namespace Verif.Problem

/-- `ProblemConstraint::Type`, constraint.h 34-44. -/
inductive CType where
  | equality
  | inequality
  deriving DecidableEq, Repr

/-- `ProblemConstraint::Priority`, constraint.h 18-29. -/
inductive Priority where
  | soft
  | hard
  deriving DecidableEq, Repr

/-- `ProblemConstraint`, constraint.h. `brows` is `expression.b.rows()`: `A` and
`b` are public members, so `Problem::solve` checks it against `A.rows()`; the
operators always produce `brows = expr.rows`. `is_active` lives in the result
of the solve model. Lines 13-87 of constraint.h. -/
structure Constr (K : Type) where
  expr : Expr K
  ty : CType := .equality
  priority : Priority := .hard
  weight : K
  brows : Nat := expr.rows

section
variable {K : Type} [Field K]

/-- `ProblemConstraint::configure(std::string, double)`, constraint.cpp 5-9. -/
def Constr.configure (c : Constr K) (type : String) (w : K) : Constr K :=
  { c with priority := if type = "hard" then .hard else .soft, weight := w }

/-- `ProblemConstraint::configure(Priority, double)`, constraint.cpp 11-15. -/
def Constr.configureP (c : Constr K) (p : Priority) (w : K) : Constr K :=
  { c with priority := p, weight := w }

namespace Expr

/-- `Expression::operator>=(const Expression&)`, expression.cpp 280-288. -/
def ge (e o : Expr K) : Except Err (Constr K) := do
  let d ← e.sub o
  pure { expr := d, ty := .inequality, weight := 1 }

/-- `Expression::operator<=(const Expression&)`, expression.cpp 290-298. -/
def le (e o : Expr K) : Except Err (Constr K) := do
  let d ← e.sub o
  pure { expr := d.neg, ty := .inequality, weight := 1 }

/-- `Expression::operator==(const Expression&)`, expression.cpp 345-351. -/
def eq (e o : Expr K) : Except Err (Constr K) := do
  let d ← e.sub o
  pure { expr := d, weight := 1 }

/-- `Expression::operator>=(double)`, expression.cpp 305-308. -/
def geDouble (e : Expr K) (f : K) := e.ge (fromDouble f)
/-- `operator>=(double, Expression)`, expression.cpp 310-313. -/
def doubleGe (f : K) (e : Expr K) := (fromDouble f).ge e
/-- `Expression::operator<=(double)`, expression.cpp 315-318. -/
def leDouble (e : Expr K) (f : K) := e.le (fromDouble f)
/-- `operator<=(double, Expression)`, expression.cpp 320-323. -/
def doubleLe (f : K) (e : Expr K) := (fromDouble f).le e
/-- `Expression::operator>=(VectorXd)`, expression.cpp 325-328. -/
def geVec (e : Expr K) (v : Vec K) := e.ge (fromVector v)
/-- `operator>=(VectorXd, Expression)`, expression.cpp 330-333. -/
def vecGe (v : Vec K) (e : Expr K) := (fromVector v).ge e
/-- `Expression::operator<=(VectorXd)`, expression.cpp 335-338. -/
def leVec (e : Expr K) (v : Vec K) := e.le (fromVector v)
/-- `operator<=(VectorXd, Expression)`, expression.cpp 340-343. -/
def vecLe (v : Vec K) (e : Expr K) := (fromVector v).le e
/-- `Expression::operator==(VectorXd)`, expression.cpp 353-356. -/
def eqVec (e : Expr K) (v : Vec K) := e.eq (fromVector v)
/-- `operator==(VectorXd, Expression)`, expression.cpp 358-361. -/
def vecEq (v : Vec K) (e : Expr K) := e.eqVec v
/-- `Expression::operator==(double)`, expression.cpp 363-366. -/
def eqDouble (e : Expr K) (f : K) := e.eq (fromDouble f)
/-- `operator==(double, Expression)`, expression.cpp 368-371. -/
def doubleEq (f : K) (e : Expr K) := e.eqDouble f

end Expr

/-- Documented meaning of a constraint (constraint.h 36-43): `Ax + b = 0` resp.
`Ax + b >= 0`, row by row. This is specification, not code. -/
def Constr.Sat [LinearOrder K] (c : Constr K) (x : Nat → K) : Prop :=
  match c.ty with
  | .equality => ∀ i, i < c.expr.rows → c.expr.rowVal x i = 0
  | .inequality => ∀ i, i < c.expr.rows → 0 ≤ c.expr.rowVal x i

end
end Verif.Problem
