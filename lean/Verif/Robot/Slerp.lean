/-
Model of `tools::interpolate_frames` with the spherical interpolation of Eigen's quaternions.
  /repo/src/placo/tools/utils.cpp 7-20
-/
import Mathlib.Analysis.SpecialFunctions.Trigonometric.Inverse
import Verif.Robot.Wrapper

namespace Verif.Robot
open Verif.Tools

/-- `quaternionA.dot(quaternionB)`. Eigen, called by `slerp`, not code of the library. -/
def Quat.dot (a b : Quat) : ℝ := a.x * b.x + a.y * b.y + a.z * b.z + a.w * b.w

/-- `scale0 * a.coeffs() + scale1 * b.coeffs()`.
Eigen, called by `slerp`, not code of the library. -/
def Quat.comb (s : ℝ) (a : Quat) (r : ℝ) (b : Quat) : Quat :=
  ⟨s * a.x + r * b.x, s * a.y + r * b.y, s * a.z + r * b.z, s * a.w + r * b.w⟩

open Classical in
/-- Eigen's `QuaternionBase::slerp`; `eps` is `NumTraits<double>::epsilon()`.
Called in utils.cpp 7-20. -/
noncomputable def Quat.slerp (eps : ℝ) (a : Quat) (t : ℝ) (b : Quat) : Quat :=
  let d := a.dot b
  let absD := |d|
  let scales : ℝ × ℝ :=
    if 1 - eps ≤ absD then (1 - t, t)
    else
      let theta := Real.arccos absD
      let sinTheta := Real.sin theta
      (Real.sin ((1 - t) * theta) / sinTheta, Real.sin (t * theta) / sinTheta)
  let scale1 := if d < 0 then -scales.2 else scales.2
  Quat.comb scales.1 a scale1 b

/-- The orientation of `interpolate_frames`, utils.cpp 11-14. For rotations `frame.rotation()` is `frame.linear()`. -/
noncomputable def slerp (eps : ℝ) (A B : M3) (t : ℝ) : M3 :=
  ((Quat.ofMatrix A).slerp eps t (Quat.ofMatrix B)).toMatrix

end Verif.Robot
