/-
Model of `placo/tools/utils`.
  /repo/src/placo/tools/utils.{h,cpp}

Over the reals: `atan2(y, x)` is the argument of the complex number `x + i y`
(this is the C function except for signed zeros and NaN).
-/
import Mathlib.Analysis.SpecialFunctions.Complex.Arg
import Mathlib.Analysis.SpecialFunctions.Trigonometric.Inverse
import Mathlib.LinearAlgebra.Matrix.Notation
import Mathlib.LinearAlgebra.Matrix.Determinant.Basic
import Verif.Base

namespace Verif.Tools

/-- `Eigen::Vector3d`. -/
abbrev V3 := Fin 3 → ℝ
/-- `Eigen::Matrix3d`. -/
abbrev M3 := Matrix (Fin 3) (Fin 3) ℝ

/-- C's `atan2`. libm, used in utils.cpp 22-32. -/
noncomputable def atan2 (y x : ℝ) : ℝ := Complex.arg ⟨x, y⟩

/-- `wrap_angle`, utils.cpp 22-25. -/
noncomputable def wrapAngle (angle : ℝ) : ℝ := atan2 (Real.sin angle) (Real.cos angle)

/-- `frame_yaw`, utils.cpp 27-32: `rotation * UnitX` is the first column. -/
noncomputable def frameYaw (rotation : M3) : ℝ :=
  let xInNewFrame := rotation.mulVec ![1, 0, 0]
  atan2 (xInNewFrame 1) (xInNewFrame 0)

/-- A transform: linear part and translation (`Eigen::Affine3d`). Eigen. -/
@[ext] structure Affine where
  linear : M3
  translation : V3

/-- `Eigen::AngleAxisd(angle, UnitZ).toRotationMatrix()`. Eigen, used in utils.cpp 76-88. -/
noncomputable def rotZ (angle : ℝ) : M3 :=
  !![Real.cos angle, -Real.sin angle, 0; Real.sin angle, Real.cos angle, 0; 0, 0, 1]

/-- `flatten_on_floor`, utils.cpp 76-88. `transformation.rotation()` (the rotation part
of the polar decomposition) is taken to be the linear part, which holds for
rigid transforms. -/
noncomputable def flattenOnFloor (transformation : Affine) : Affine :=
  ⟨rotZ (frameYaw transformation.linear), ![transformation.translation 0, transformation.translation 1, 0]⟩

/-- `safe_acos`, utils.cpp 99-111. -/
noncomputable def safeAcos (v : ℝ) : ℝ :=
  let v := if v ≤ -1 then -1 else if v ≥ 1 then 1 else v
  Real.arccos v

/-- Euclidean norm. Eigen. -/
noncomputable def norm3 (v : V3) : ℝ := Real.sqrt (v 0 * v 0 + v 1 * v 1 + v 2 * v 2)

/-- Eigen `dot`. -/
def dot3 (a b : V3) : ℝ := a 0 * b 0 + a 1 * b 1 + a 2 * b 2

/-- Eigen `cross`. -/
def cross3 (a b : V3) : V3 := ![a 1 * b 2 - a 2 * b 1, a 2 * b 0 - a 0 * b 2, a 0 * b 1 - a 1 * b 0]

/-- Eigen's `normalize()`: divides by the norm when it is positive. Used in utils.cpp 34-74. -/
noncomputable def normalize3 (v : V3) : V3 :=
  if 0 < norm3 v then ![v 0 / norm3 v, v 1 / norm3 v, v 2 / norm3 v] else v

/-- `pinocchio::exp3` (external): Rodrigues' formula. The series used by pinocchio for
tiny angles is replaced by its exact sum. Used in the orientation tasks. -/
noncomputable def exp3 (v : V3) : M3 :=
  let t := norm3 v
  if t = 0 then 1
  else
    let a := (1 - Real.cos t) / (t * t)
    let b := Real.sin t / t
    let c := Real.cos t
    !![c + a * v 0 * v 0, a * v 0 * v 1 - b * v 2, a * v 0 * v 2 + b * v 1;
       a * v 1 * v 0 + b * v 2, c + a * v 1 * v 1, a * v 1 * v 2 - b * v 0;
       a * v 2 * v 0 - b * v 1, a * v 2 * v 1 + b * v 0, c + a * v 2 * v 2]

/-- `rotation_from_axis`, utils.cpp 34-74. -/
noncomputable def rotationFromAxis (axis : String) (vector : V3) : Except Err M3 := do
  let vector := normalize3 vector
  let vectorId ← (if axis = "x" then .ok ![1, 0, 0]
    else if axis = "y" then .ok ![0, 1, 0]
    else if axis = "z" then .ok ![0, 0, 1]
    else .error .runtimeError : Except Err V3)
  let w := cross3 vectorId vector
  let theta := safeAcos (dot3 vectorId vector)
  let w : V3 :=
    if norm3 w = 0 then
      (let w := if axis = "x" then ![0, 1, 0] else w
       let w := if axis = "y" then ![0, 0, 1] else w
       if axis = "z" then ![1, 0, 0] else w)
    else normalize3 w
  pure (exp3 ![w 0 * theta, w 1 * theta, w 2 * theta])

end Verif.Tools
