/-
Model of `optimal_transformation` and of the sampled directions.
  /repo/src/placo/tools/utils.cpp 119-169
  /repo/src/placo/tools/directions.cpp

The singular value decomposition of Eigen is a parameter.
-/
import Mathlib.Algebra.BigOperators.Fin
import Mathlib.Algebra.Order.Floor.Ring
import Mathlib.Analysis.SpecialFunctions.Trigonometric.Inverse
import Mathlib.LinearAlgebra.Matrix.Determinant.Basic
import Verif.Problem.Expression
import Verif.Tools.Utils

namespace Verif.Tools
open Finset Verif.Problem

/-- The points given to `optimal_transformation`: a matrix of any size. The coefficients beyond the third column are not read.
Arguments of utils.cpp 119. -/
structure Points where
  rows : Nat
  cols : Nat
  row : Nat → V3

/-- `points.colwise().mean()`. utils.cpp 137-138. -/
noncomputable def Points.mean (p : Points) : V3 := fun k => (∑ i ∈ range p.rows, p.row i k) / p.rows

/-- `points.rowwise() - barycenter.transpose()`. utils.cpp 141-142. -/
noncomputable def Points.centered (p : Points) (i : Nat) : V3 := p.row i - p.mean

/-- `H`, utils.cpp 145: `centered_B.transpose() * centered_A`. -/
noncomputable def covariance (a b : Points) : M3 := Matrix.of fun l k => ∑ i ∈ range a.rows, b.centered i l * a.centered i k

/-- `optimal_transformation`, utils.cpp 119-169. `svd H` is the pair of `matrixU()` and `matrixV()`. -/
noncomputable def optimalTransformation (svd : M3 → M3 × M3) (points_in_A points_in_B : Points) : Except Err Affine :=
  if points_in_A.cols ≠ 3 ∨ points_in_B.cols ≠ 3 then .error .runtimeError
  else if points_in_A.rows ≠ points_in_B.rows then .error .runtimeError
  else if points_in_A.rows < 3 then .error .runtimeError
  else
    let H := covariance points_in_A points_in_B
    let U := (svd H).1
    let V := (svd H).2
    let R := V * U.transpose
    let R := if R.det < 0 then V * Matrix.diagonal ![1, 1, -1] * U.transpose else R
    .ok ⟨R, points_in_A.mean - R.mulVec points_in_B.mean⟩

/-- `directions_2d`, directions.cpp 5-17: row `i`. -/
noncomputable def directions2d (n i : Nat) : Fin 2 → ℝ :=
  let angle := 2 * Real.pi * i / n
  ![Real.cos angle, Real.sin angle]

/-- `directions_3d`, directions.cpp 19-40: row `i`. `fmod(x, 1)` of a nonnegative `x` is its fractional part. `none` stands for
coefficients that are not numbers: a division of 0 by 0, or an arc cosine outside `[-1, 1]`. -/
noncomputable def directions3d (n : Nat) (epsilon : ℝ) (i : Nat) : Option V3 :=
  let phi := (1 + Real.sqrt 5) / 2
  let x := Int.fract ((i : ℝ) / phi)
  if (n : ℝ) - 1 + 2 * epsilon = 0 then none
  else
    let y := ((i : ℝ) + epsilon) / ((n : ℝ) - 1 + 2 * epsilon)
    if 1 - 2 * y < -1 ∨ 1 < 1 - 2 * y then none
    else
      let alpha := 2 * Real.pi * x
      let beta := Real.arccos (1 - 2 * y)
      some ![Real.sin beta * Real.cos alpha, Real.sin beta * Real.sin alpha, Real.cos beta]

end Verif.Tools
