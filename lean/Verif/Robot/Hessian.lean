/-
Model of the Hessians and Jacobians of `RobotWrapper`.
  /repo/src/placo/model/robot_wrapper.cpp 323-340, 555-584, 640-644, 776-786
  /repo/bindings/expose-robot-wrapper.cpp 56-60
Pinocchio's functions are parameters: the tensor of the Hessians of a joint, the columns of the Jacobian of a frame, the centroidal map.
-/
import Verif.Robot.Wrapper
import Verif.Tools.Utils

namespace Verif.Robot
open Verif.Problem Verif.Tools

/-- The rows of a velocity: the linear part, then the angular part. `Eigen::Map<MatrixXd>(…, 6, nv)`, robot_wrapper.cpp 337. -/
abbrev Row6 := Fin 3 ⊕ Fin 3

/-- The index of a row among six. robot_wrapper.cpp 337. -/
def Row6.index : Row6 → Nat
  | .inl i => i
  | .inr i => 3 + i

/-- A frame of the model: `model.frames[frame]`. robot_wrapper.cpp 331-332. -/
structure BodyFrame where
  name : String
  parent : Nat
  placement : Affine

/-- `SE3::inverse()` of pinocchio, which transposes the rotation. Used in robot_wrapper.cpp 339. -/
def se3Inverse (T : Affine) : Affine := ⟨T.linear.transpose, -(T.linear.transpose.mulVec T.translation)⟩

/-- The matrix of the cross product by `t`, in `toActionMatrix` of pinocchio. Used in robot_wrapper.cpp 339. -/
def skew (t : V3) : M3 := !![0, -t 2, t 1; t 2, 0, -t 0; -t 1, t 0, 0]

/-- `SE3::toActionMatrix()` of pinocchio. Used in robot_wrapper.cpp 339. -/
def actionMatrix (T : Affine) : Matrix Row6 Row6 ℝ := Matrix.fromBlocks T.linear (skew T.translation * T.linear) 0 T.linear

/-- The 6 × nv matrix mapped at `H.data() + joint_v_index * matrix_offset`; Eigen stores it by columns. robot_wrapper.cpp 335-337. -/
def mappedHessian (data : Nat → ℝ) (nv k : Nat) : Matrix Row6 (Fin nv) ℝ :=
  fun r j => data (k * (6 * nv) + (r.index + 6 * j))

/-- `get_frame_hessian(frame, joint_v_index)` for a frame of the model. `tensors` gives the memory of the tensor of
each joint. An index out of the tensor is undefined. robot_wrapper.cpp 328-340. -/
noncomputable def getFrameHessian (tensors : Nat → Nat → ℝ) (nv : Nat) (frame : BodyFrame) (k : Int) :
    Except Err (Matrix Row6 (Fin nv) ℝ) :=
  if 0 ≤ k ∧ k < nv then
    .ok (actionMatrix (se3Inverse frame.placement) * mappedHessian (tensors frame.parent) nv k.toNat)
  else .error .ub

/-- `get_frame_hessian` of Python: `model.getFrameId` returns the number of frames for an unknown name, which is not checked.
expose-robot-wrapper.cpp 56-60. -/
noncomputable def pyGetFrameHessian (tensors : Nat → Nat → ℝ) (nv : Nat) (frames : List BodyFrame) (joints : List Kinematics.Joint)
    (frame joint : String) : Except Err (Matrix Row6 (Fin nv) ℝ) := do
  let j ← jointUnchecked joints joint
  match frames.find? (fun f => f.name = frame) with
  | some f => getFrameHessian tensors nv f j.idxV
  | none => .error .ub

/-- What `getFrameJacobian` of pinocchio writes: the columns of the joints between the root and the frame, and no other.
Used in robot_wrapper.cpp 566 and 581. -/
def fillColumns {nv : Nat} (moves : Fin nv → Bool) (columns : Matrix Row6 (Fin nv) ℝ) (J : Matrix Row6 (Fin nv) ℝ) : Matrix Row6 (Fin nv) ℝ :=
  fun r j => if moves j then columns r j else J r j

/-- `frame_jacobian` and `frame_jacobian_time_variation`: the matrix is put to zero first. robot_wrapper.cpp 562-569 and 576-584. -/
def frameJacobianFill {nv : Nat} (moves : Fin nv → Bool) (columns : Matrix Row6 (Fin nv) ℝ) : Matrix Row6 (Fin nv) ℝ :=
  fillColumns moves columns 0

/-- The loop of `total_mass`, robot_wrapper.cpp 780-783. -/
def massLoop : List ℝ → ℝ → ℝ
  | [], mass => mass
  | m :: rest, mass => massLoop rest (mass + m)

/-- `total_mass`, robot_wrapper.cpp 776-786. -/
def totalMass (masses : List ℝ) : ℝ := massLoop masses 0

open Classical in
/-- `com_jacobian_time_variation`, robot_wrapper.cpp 640-644: `dAg` is the matrix of `computeCentroidalMapTimeVariation`. `none` stands
for the division by a mass of zero. -/
noncomputable def comJacobianVariation {nv : Nat} (dAg : Matrix Row6 (Fin nv) ℝ) (masses : List ℝ) : Option (Matrix (Fin 3) (Fin nv) ℝ) :=
  if totalMass masses = 0 then none else some fun i j => dAg (.inl i) j / totalMass masses

end Verif.Robot
