/-
Model of `placo::problem::PolygonConstraint`.
  /repo/src/placo/problem/polygon_constraint.cpp
-/
import Mathlib.Analysis.Real.Sqrt
import Verif.Problem.Constraint

namespace Verif.Problem
open Finset

/-- A point of the plane (`Eigen::Vector2d`).
Eigen, argument of `in_polygon_xy`, polygon_constraint.cpp 6-38. -/
abbrev P2 := ℝ × ℝ

/-- Eigen's `normalize()`: divides by the norm when it is positive, otherwise
leaves the vector unchanged. Used in polygon_constraint.cpp 6-38. -/
noncomputable def normalize2 (n : P2) : P2 :=
  let z := n.1 * n.1 + n.2 * n.2
  if 0 < z then (n.1 / Real.sqrt z, n.2 / Real.sqrt z) else n

/-- The expression `value` of the loop body, polygon_constraint.cpp 26-32. -/
noncomputable def edgeValue (e : Expr ℝ) (A B : P2) (margin : ℝ) : Except Err (Expr ℝ) := do
  let n := normalize2 (B.2 - A.2, A.1 - B.1)
  let d ← e.subVec ⟨2, fun i => if i = 0 then A.1 else A.2⟩
  let p ← Expr.matMul ⟨1, 2, fun _ j => if j = 0 then n.1 else n.2⟩ d
  p.subDouble margin

/-- `polygon[i]`. polygon_constraint.cpp 20-22. -/
noncomputable def vertex (polygon : List P2) (i : Nat) : P2 := polygon.getD i (0, 0)

/-- `PolygonConstraint::in_polygon_xy`, polygon_constraint.cpp 6-38. The rows of
`values` are the rows of the loop's `value`s. -/
noncomputable def inPolygonXY (e : Expr ℝ) (polygon : List P2) (margin : ℝ) : Except Err (Constr ℝ) :=
  if e.rows ≠ 2 then .error .runtimeError
  else do
    let rows ← (List.range polygon.length).mapM fun i =>
      edgeValue e (vertex polygon i) (vertex polygon ((i + 1) % polygon.length)) margin
    let values : Expr ℝ := ⟨polygon.length, e.cols,
      fun i j => ((rows.map fun r => r.A 0).getD i (fun _ => 0)) j,
      fun i => (rows.map fun r => r.b 0).getD i 0⟩
    values.geDouble 0

/-- `PolygonConstraint::in_polygon`, polygon_constraint.cpp 40-45. -/
noncomputable def inPolygon (ex ey : Expr ℝ) (polygon : List P2) (margin : ℝ) : Except Err (Constr ℝ) :=
  inPolygonXY (ex.stack ey) polygon margin

end Verif.Problem
