/-
Model of `placo::problem::Expression` and `Variable`.
  /repo/src/placo/problem/expression.{h,cpp}
  /repo/src/placo/problem/variable.{h,cpp}
-/
import Mathlib.Algebra.Order.Field.Basic
import Mathlib.Algebra.BigOperators.Group.Finset.Basic
import Mathlib.Algebra.BigOperators.Ring.Finset
import Verif.Base

namespace Verif.Problem

open Finset

/-- `Expression` (expression.h): the affine map `A x + b`.
The Eigen matrix `A` is `rows × cols`; entries of `A`, `b` outside these
dimensions are never read by the model (accesses outside are `Err.ub`).
Simplification: `A.rows()` and `b.rows()` are one field here, every operator
of the class keeps them equal. Lines 14-29 of expression.h. -/
structure Expr (K : Type) where
  rows : Nat
  cols : Nat
  A : Nat → Nat → K
  b : Nat → K

/-- An Eigen `VectorXd`: a size and its entries. Eigen. -/
structure Vec (K : Type) where
  size : Nat
  v : Nat → K

/-- An Eigen `MatrixXd`. Eigen. -/
structure Mat (K : Type) where
  rows : Nat
  cols : Nat
  m : Nat → Nat → K

/-- `Variable` (variable.h): the half-open range `[kStart, kEnd)` of the
decision vector. Lines 13-54 of variable.h. -/
structure Var where
  kStart : Nat
  kEnd : Nat
  deriving DecidableEq, Repr

/-- `Variable::size`, variable.cpp 30-33. -/
def Var.size (v : Var) : Nat := v.kEnd - v.kStart

section
variable {K : Type} [Field K]

namespace Expr

/-- `Expression::from_double`, expression.cpp 18-26. -/
def fromDouble (f : K) : Expr K := ⟨1, 0, fun _ _ => 0, fun _ => f⟩

/-- `Expression::from_vector` / the `VectorXd` constructor, expression.cpp 13-16, 34-38. -/
def fromVector (v : Vec K) : Expr K := ⟨v.size, 0, fun _ _ => 0, v.v⟩

/-- `Expression::is_scalar`, expression.cpp 40-43. -/
def isScalar (e : Expr K) : Bool := e.rows == 1

/-- `Expression::is_constant`, expression.cpp 45-48. -/
def isConstant (e : Expr K) : Bool := e.cols == 0

/-- `Expression::slice`, expression.cpp 50-63. `A.block` outside of the matrix
is undefined behaviour. -/
def slice (e : Expr K) (start rows : Int) : Except Err (Expr K) :=
  let r : Int := if rows < 0 then (e.rows : Int) - start else rows
  if 0 ≤ start ∧ 0 ≤ r ∧ start + r ≤ (e.rows : Int) then
    .ok ⟨r.toNat, e.cols, fun i j => e.A (start.toNat + i) j, fun i => e.b (start.toNat + i)⟩
  else .error .ub

/-- `Expression::piecewise_add`, expression.cpp 75-86. -/
def piecewiseAdd (e : Expr K) (f : K) : Expr K :=
  { e with b := fun k => e.b k + f }

/-- `Expression::operator+(const Expression&)`, expression.cpp 88-119. The
result matrix is zero-initialised, then both blocks are added. -/
def add (e o : Expr K) : Except Err (Expr K) :=
  if e.isScalar && e.isConstant then .ok (o.piecewiseAdd (e.b 0))
  else if o.isScalar && o.isConstant then .ok (e.piecewiseAdd (o.b 0))
  else if e.rows ≠ o.rows then .error .runtimeError
  else .ok ⟨e.rows, max e.cols o.cols,
    fun i j => (if j < e.cols then e.A i j else 0) + (if j < o.cols then o.A i j else 0),
    fun i => e.b i + o.b i⟩

/-- `Expression::operator*(double)` and `double * Expression`, expression.cpp 131-143. -/
def smul (e : Expr K) (f : K) : Expr K :=
  { e with A := fun i j => e.A i j * f, b := fun i => e.b i * f }

/-- `Expression::operator-(const Expression&)`, expression.cpp 121-124. -/
def sub (e o : Expr K) : Except Err (Expr K) := e.add (o.smul (-1))

/-- `Expression::operator-()`, expression.cpp 126-129. -/
def neg (e : Expr K) : Expr K := e.smul (-1)

/-- `Expression::operator*(const Expression&)`, expression.cpp 145-168. -/
def mul (e o : Expr K) : Except Err (Expr K) :=
  if e.isScalar && o.isConstant then
    .ok ⟨o.rows, e.cols, fun k j => e.A 0 j * o.b k, fun k => e.b 0 * o.b k⟩
  else if o.isScalar && e.isConstant then
    .ok ⟨e.rows, o.cols, fun k j => o.A 0 j * e.b k, fun k => o.b 0 * e.b k⟩
  else .error .runtimeError

/-- `Expression::operator+(VectorXd)` and `VectorXd + Expression`,
expression.cpp 170-181. Adding Eigen vectors of different sizes is undefined. -/
def addVec (e : Expr K) (v : Vec K) : Except Err (Expr K) :=
  if v.size = e.rows then .ok { e with b := fun i => e.b i + v.v i } else .error .ub

/-- `Expression::operator-(VectorXd)`, expression.cpp 183-189. -/
def subVec (e : Expr K) (v : Vec K) : Except Err (Expr K) :=
  if v.size = e.rows then .ok { e with b := fun i => e.b i - v.v i } else .error .ub

/-- `operator-(VectorXd, const Expression&)`, expression.cpp 191-194:
`return e - v;` (sic). -/
def vecSub (v : Vec K) (e : Expr K) : Except Err (Expr K) := e.subVec v

/-- `Expression::operator+(double)` and `double + Expression`, expression.cpp 196-207. -/
def addDouble (e : Expr K) (f : K) : Except Err (Expr K) := e.addVec ⟨e.rows, fun _ => f⟩

/-- `Expression::operator-(double)`, expression.cpp 209-215: subtracts a vector
of size **one**. -/
def subDouble (e : Expr K) (f : K) : Except Err (Expr K) := e.subVec ⟨1, fun _ => f⟩

/-- `operator-(double, const Expression&)`, expression.cpp 217-220. -/
def doubleSub (f : K) (e : Expr K) : Except Err (Expr K) := e.neg.addDouble f

/-- `operator*(MatrixXd, const Expression&)`, `left_multiply`, expression.cpp 222-234. -/
def matMul (M : Mat K) (e : Expr K) : Except Err (Expr K) :=
  if M.cols = e.rows then
    .ok ⟨M.rows, e.cols, fun i j => ∑ k ∈ range e.rows, M.m i k * e.A k j,
      fun i => ∑ k ∈ range e.rows, M.m i k * e.b k⟩
  else .error .ub

/-- `Expression::sum`, expression.cpp 236-251. -/
def sum (e : Expr K) : Expr K :=
  ⟨1, e.cols, fun _ j => ∑ k ∈ range e.rows, e.A k j, fun _ => ∑ k ∈ range e.rows, e.b k⟩

/-- `Expression::mean`, expression.cpp 253-260: divides by `cols()`.
(With no column the C++ divides by 0.0; here `x / 0 = 0`, so theorems about
`mean` treat `cols = 0` separately.) -/
def mean (e : Expr K) : Expr K :=
  { e.sum with A := fun i j => e.sum.A i j / (e.cols : K), b := fun i => e.sum.b i / (e.cols : K) }

/-- `Expression::operator/` (stacking), expression.cpp 262-278. -/
def stack (e o : Expr K) : Expr K :=
  ⟨e.rows + o.rows, max e.cols o.cols,
    fun i j => if i < e.rows then (if j < e.cols then e.A i j else 0)
               else (if j < o.cols then o.A (i - e.rows) j else 0),
    fun i => if i < e.rows then e.b i else o.b (i - e.rows)⟩

/-- One row of `Expression::value`, expression.cpp 300-303. -/
def rowVal (e : Expr K) (x : Nat → K) (i : Nat) : K :=
  (∑ j ∈ range e.cols, e.A i j * x j) + e.b i

/-- `Expression::value`, expression.cpp 300-303, as the list of its rows. `x`
is any assignment of (at least `cols`) decision variables. -/
def value (e : Expr K) (x : Nat → K) : List K := (List.range e.rows).map (e.rowVal x)

end Expr

/-- `Variable::expr(start, rows)`, variable.cpp 5-28: writes a 1 at column
`k_start + start + k` of row `k`, for a matrix with `k_end` columns. Writing
outside of the matrix (or asking for a negative number of rows) is undefined. -/
def Var.expr (v : Var) (start rows : Int) : Except Err (Expr K) :=
  let s : Int := if start = -1 then 0 else start
  let r : Int := if rows = -1 then (v.kEnd : Int) - v.kStart - s else rows
  if 0 ≤ r ∧ (r = 0 ∨ (0 ≤ (v.kStart : Int) + s ∧ (v.kStart : Int) + s + r ≤ v.kEnd)) then
    .ok ⟨r.toNat, v.kEnd, fun k j => if j = ((v.kStart : Int) + s).toNat + k then 1 else 0, fun _ => 0⟩
  else .error .ub

end
end Verif.Problem
