/-
Model of the arithmetic of expressions in Python: the overloads that the bindings register for the operators of `Expression`, and how Boost.Python
chooses one of them.
  /repo/bindings/expose-problem.cpp 131-188
Not modelled: operators whose left operand is a numpy array (numpy computes them), the overload for matrices (line 163) and infinities.
-/
import Mathlib.Data.Real.Basic
import Verif.Problem.Constraint

namespace Verif.Bindings
open Verif.Problem

/-- An operand of Python: an `Expression`, a Python `float` or `int`, a one-dimensional numpy array. -/
inductive PyVal where
  | expr (e : Expr ℝ)
  | num (x : ℝ)
  | vec (v : Vec ℝ)

/-- What an operator returns. -/
inductive Answer where
  | expr (e : Expr ℝ)
  | constr (c : Constr ℝ)

/-- One `.def(...)` of an operator, expose-problem.cpp 147-183: the type of the other operand (`self`, `float()` or
`other<Eigen::VectorXd>()`) and the operator of C++ that is called. -/
inductive Overload where
  | self (run : Expr ℝ → Expr ℝ → Except Err Answer)
  | float (run : Expr ℝ → ℝ → Except Err Answer)
  | vector (run : Expr ℝ → Vec ℝ → Except Err Answer)

/-- The special methods of the Python class, expose-problem.cpp 147-183. -/
inductive Method where
  | add | radd | sub | rsub | mul | rmul | truediv | ge | le | eq

/-- An expression as an answer (the to-python converter of `Expression`). expose-problem.cpp 131. -/
def anExpr (r : Except Err (Expr ℝ)) : Except Err Answer := r.map .expr

/-- A constraint as an answer (the to-python converter of `ProblemConstraint`). expose-problem.cpp 60. -/
def aConstr (r : Except Err (Constr ℝ)) : Except Err Answer := r.map .constr

/-- The overloads of a method, in the order of the file, expose-problem.cpp 147-183. A comparison whose left operand is not `self`, such as
`float() <= self`, is registered under the reflected name, here `__ge__`. -/
noncomputable def overloads : Method → List Overload
  | .truediv => [.self fun e o => anExpr (.ok (e.stack o))]
  | .add => [.self fun e o => anExpr (e.add o), .vector fun e v => anExpr (e.addVec v), .float fun e x => anExpr (e.addDouble x)]
  | .radd => [.vector fun e v => anExpr (e.addVec v), .float fun e x => anExpr (e.addDouble x)]
  | .sub => [.self fun e o => anExpr (e.sub o), .vector fun e v => anExpr (e.subVec v), .float fun e x => anExpr (e.subDouble x)]
  | .rsub => [.vector fun e v => anExpr (Expr.vecSub v e), .float fun e x => anExpr (Expr.doubleSub x e)]
  | .mul => [.float fun e x => anExpr (.ok (e.smul x)), .self fun e o => anExpr (e.mul o)]
  | .rmul => [.float fun e x => anExpr (.ok (e.smul x))]
  | .ge => [.self fun e o => aConstr (e.ge o), .float fun e x => aConstr (Expr.doubleLe x e), .float fun e x => aConstr (e.geDouble x),
      .vector fun e v => aConstr (Expr.vecLe v e), .vector fun e v => aConstr (e.geVec v)]
  | .le => [.self fun e o => aConstr (e.le o), .float fun e x => aConstr (e.leDouble x), .float fun e x => aConstr (Expr.doubleGe x e),
      .vector fun e v => aConstr (e.leVec v), .vector fun e v => aConstr (Expr.vecGe v e)]
  | .eq => [.self fun e o => aConstr (e.eq o), .vector fun e v => aConstr (e.eqVec v), .vector fun e v => aConstr (Expr.vecEq v e),
      .float fun e x => aConstr (e.eqDouble x), .float fun e x => aConstr (Expr.doubleEq x e)]

/-- One overload on an operand, if the operand has a converter to its type. The type written `float()` in the bindings is the `float` of C++, of
single precision: the number of Python goes through it before it reaches the `double` of the operator. `toFloat` is that conversion. A numpy vector is
also an `Expression`, line 187. expose-problem.cpp 147-187. -/
noncomputable def Overload.call (toFloat : ℝ → Except Err ℝ) (e : Expr ℝ) : Overload → PyVal → Option (Except Err Answer)
  | .self run, .expr o => some (run e o)
  | .self run, .vec v => some (run e (Expr.fromVector v))
  | .float run, .num x => some (toFloat x >>= run e)
  | .vector run, .vec v => some (run e v)
  | _, _ => none

/-- A call of a special method: the last overload of the file that accepts the operand (Boost.Python tries them in the reverse order of their
registration); none is `NotImplemented`. expose-problem.cpp 147-187. -/
noncomputable def dispatch (toFloat : ℝ → Except Err ℝ) (m : Method) (e : Expr ℝ) (a : PyVal) : Option (Except Err Answer) :=
  (overloads m).reverse.findSome? fun o => o.call toFloat e a

/-- The operators of Python. -/
inductive PyOp where
  | add | sub | mul | ge | le | eq

/-- The method of the left operand. Python data model; expose-problem.cpp 147-183. -/
def PyOp.method : PyOp → Method
  | .add => .add
  | .sub => .sub
  | .mul => .mul
  | .ge => .ge
  | .le => .le
  | .eq => .eq

/-- The method of the right operand, when the left one does not know how to answer. Python data model; expose-problem.cpp 147-183. -/
def PyOp.reflected : PyOp → Method
  | .add => .radd
  | .sub => .rsub
  | .mul => .rmul
  | .ge => .le
  | .le => .ge
  | .eq => .eq

/-- `a op b` in Python, where one of the operands is an `Expression` and the left one is not an array; none is a `TypeError`.
expose-problem.cpp 131-188. -/
noncomputable def python (toFloat : ℝ → Except Err ℝ) (op : PyOp) : PyVal → PyVal → Option (Except Err Answer)
  | .expr e, b => dispatch toFloat op.method e b
  | .num x, .expr e => dispatch toFloat op.reflected e (.num x)
  | _, _ => none

end Verif.Bindings
