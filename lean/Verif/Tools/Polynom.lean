/-
Model of `placo::tools::Polynom` and `placo::problem::ProblemPolynom`.
  /repo/src/placo/tools/polynom.{h,cpp}
  /repo/src/placo/problem/problem_polynom.{h,cpp}
-/
import Verif.Problem.Expression
import Verif.Problem.Problem

namespace Verif.Tools
open Finset Verif.Problem

/-- Largest value of a C++ `int`. C++, used in polynom.cpp 9-26. -/
def intMax : Int := 2147483647

/-- Loop of `Polynom::derivative_coefficient`, polynom.cpp 18-23. `coefficient`
and `degree` are `int`: a product above `intMax` is a signed overflow, which is
undefined. The recursion is on `derivative`. -/
def derivLoop (coefficient degree : Int) : Nat → Except Err Int
  | 0 => .ok coefficient
  | derivative + 1 =>
    if intMax < coefficient * degree then .error .ub
    else derivLoop (coefficient * degree) (degree - 1) derivative

/-- `Polynom::derivative_coefficient`, polynom.cpp 9-26 (non-negative arguments,
the only ones produced by the callers for a non-negative derivative order). -/
def derivativeCoefficient (degree derivative : Nat) : Except Err Int :=
  if degree < derivative then .ok 0 else derivLoop 1 degree derivative

section
variable {K : Type} [Field K]

/-- State `(p, x_pow)` of the loop of `Polynom::value`, polynom.cpp 33-37. -/
def valueStep (coefficients : Vec K) (x : K) (differentiate : Nat) (st : K × K) (order : Nat) : Except Err (K × K) := do
  let d ← derivativeCoefficient order differentiate
  pure (st.1 + (d : K) * coefficients.v (coefficients.size - order - 1) * st.2, st.2 * x)

/-- `Polynom::value`, polynom.cpp 28-40. `differentiate` is a natural number: a
negative order reads outside of the coefficients. -/
def polynomValue (coefficients : Vec K) (x : K) (differentiate : Nat) : Except Err K := do
  let r ← (List.range' differentiate (coefficients.size - differentiate)).foldlM
    (valueStep coefficients x differentiate) (0, 1)
  pure r.1

/-- State `(coefficients, x_pow)` of the loop of `ProblemPolynom::expr`,
problem_polynom.cpp 15-20. -/
def exprStep (size : Nat) (x : K) (derivative : Nat) (st : (Nat → K) × K) (order : Nat) : Except Err ((Nat → K) × K) := do
  let d ← derivativeCoefficient order derivative
  pure (fun j => if j = size - order - 1 then (d : K) * st.2 else st.1 j, st.2 * x)

/-- `ProblemPolynom::expr`, problem_polynom.cpp 10-24. -/
def problemPolynomExpr (variable' : Var) (x : K) (derivative : Nat) : Except Err (Expr K) := do
  let r ← (List.range' derivative (variable'.size - derivative)).foldlM
    (exprStep variable'.size x derivative) (fun _ => 0, 1)
  let e ← variable'.expr (-1) (-1)
  Expr.matMul ⟨1, variable'.size, fun _ j => r.1 j⟩ e

/-- `ProblemPolynom::get_polynom`, problem_polynom.cpp 26-29: the coefficients are
the value of the variable. -/
def getPolynom (v : VarState K) : Vec K := ⟨v.value.length, fun i => v.value.getD i 0⟩

end
end Verif.Tools
