/-
Models of the tasks of the kinematics solver that use the placement and the Jacobian of frames.
  /repo/src/placo/kinematics/position_task.cpp
  /repo/src/placo/kinematics/orientation_task.cpp
  /repo/src/placo/kinematics/relative_position_task.cpp
  /repo/src/placo/kinematics/relative_orientation_task.cpp
  /repo/src/placo/kinematics/com_task.cpp
  /repo/src/placo/kinematics/axis_align_task.cpp
  /repo/src/placo/kinematics/wheel_task.cpp
  /repo/src/placo/kinematics/centroidal_momentum_task.cpp
  /repo/src/placo/kinematics/kinetic_energy_regularization_task.cpp
  /repo/src/placo/kinematics/manipulability_task.cpp
  /repo/src/placo/model/robot_wrapper.cpp 614-629 (relative_position_jacobian)

The placements, Jacobians and Hessians computed by pinocchio are parameters; so are `pinocchio::log3` and the square
root of a matrix.
-/
import Verif.Dynamics.Tasks
import Verif.Kinematics.Constraints
import Verif.Robot.Wrapper

namespace Verif.Kinematics
open Finset Verif.Problem Verif.Tools Verif.Robot Verif.Dynamics

/-! ## Frames -/

/-- `PositionTask::update`, position_task.cpp 11-20. `J` are the linear rows of the local-world-aligned Jacobian. -/
noncomputable def positionTask (N : Nat) (mask : Mask ℝ) (target : V3) (T_world_frame : Affine) (J : J3) : TaskMat ℝ :=
  maskedTask N { mask with rLocalWorld := T_world_frame.linear.transpose } J (target - T_world_frame.translation)

/-- `CoMTask::update`, com_task.cpp 10-14. -/
noncomputable def comTask (N : Nat) (mask : Mask ℝ) (target com : V3) (J : J3) : TaskMat ℝ :=
  maskedTask N mask J (target - com)

/-- `OrientationTask::update`, orientation_task.cpp 12-24. `J` are the angular rows of the world Jacobian. -/
noncomputable def orientationTask (log3 : M3 → V3) (N : Nat) (mask : Mask ℝ) (R_world_target : M3) (T_world_frame : Affine)
    (J : J3) : TaskMat ℝ :=
  maskedTask N { mask with rLocalWorld := R_world_target.transpose } J
    (log3 (R_world_target * T_world_frame.linear.transpose))

/-- What is read of two frames: placements and Jacobians (local-world-aligned; their angular rows are also those of the
world Jacobians).
Read in kinematics/relative_position_task.cpp and kinematics/relative_orientation_task.cpp (`update`). -/
structure TwoFrames where
  Ta : Affine
  Tb : Affine
  JaLin : J3
  JaAng : J3
  JbLin : J3
  JbAng : J3

/-- `T_a_b`. robot_wrapper.cpp 436-439. -/
noncomputable def TwoFrames.Tab (f : TwoFrames) : Affine := f.Ta.inv.mul f.Tb

/-- `RobotWrapper::relative_position_jacobian`, robot_wrapper.cpp 614-628, column by column. -/
noncomputable def relativePositionJacobian (f : TwoFrames) : J3 := fun i j =>
  f.Ta.linear.transpose.mulVec (fun r => f.JbLin r j - f.JaLin r j) i +
    cross3 f.Tab.translation (f.Ta.linear.transpose.mulVec fun r => f.JaAng r j) i

/-- `RelativePositionTask::update`, relative_position_task.cpp 12-20. -/
noncomputable def relativePositionTask (N : Nat) (mask : Mask ℝ) (target : V3) (f : TwoFrames) : TaskMat ℝ :=
  maskedTask N mask (relativePositionJacobian f) (target - f.Tab.translation)

/-- `RelativeOrientationTask::update`, relative_orientation_task.cpp 12-28 (`Jlog` is computed but not used). -/
noncomputable def relativeOrientationTask (log3 : M3 → V3) (N : Nat) (mask : Mask ℝ) (R_a_b : M3) (f : TwoFrames) : TaskMat ℝ :=
  maskedTask N mask (fun i j => f.Ta.linear.transpose.mulVec (fun r => f.JbAng r j - f.JaAng r j) i)
    (log3 (R_a_b * f.Tab.linear.transpose))

/-! ## Axis alignment -/

/-- The columns of `R_world_axisframe`, axis_align_task.cpp 22-25. -/
noncomputable def axisFrame (R_world_frame : M3) (axis_frame targetAxis_world : V3) : V3 × V3 × V3 :=
  let x := normalize3 (R_world_frame.mulVec axis_frame)
  let z := normalize3 (cross3 x (normalize3 targetAxis_world))
  (x, cross3 z x, z)

/-- The matrix with the given columns.
Eigen, used in wheel_task.cpp 26-28 and axis_align_task.cpp 22-25. -/
def ofColumns (x y z : V3) : M3 := !![x 0, y 0, z 0; x 1, y 1, z 1; x 2, y 2, z 2]

/-- `AxisAlignTask::update`, axis_align_task.cpp 12-36. `R_world_axisframe.inverse()` divides by the determinant: `none`
stands for a matrix `A` without finite coefficients. -/
noncomputable def axisAlignTask (N : Nat) (axis_frame targetAxis_world : V3) (R_world_frame : M3) (J : J3) :
    Option (TaskMat ℝ) :=
  let f := axisFrame R_world_frame axis_frame targetAxis_world
  let R_world_axisframe := ofColumns f.1 f.2.1 f.2.2
  let error_angle := safeAcos (dot3 f.1 (normalize3 targetAxis_world))
  if R_world_axisframe.det = 0 then none
  else some ⟨2, N,
    fun i j => R_world_axisframe⁻¹.mulVec (fun r => J r j) (if i = 0 then 1 else 2),
    fun i => if i = 0 then 0 else error_angle⟩

/-! ## Wheel -/

/-- `downAxis_surface`, wheel_task.cpp 17-21. -/
noncomputable def downAxis (T_surface_wheel : Affine) : V3 :=
  T_surface_wheel.linear.mulVec
    (normalize3 ![-T_surface_wheel.linear 2 0, -T_surface_wheel.linear 2 1, 0])

/-- `T_surface_contact`, wheel_task.cpp 23-29. -/
noncomputable def surfaceContact (radius : ℝ) (T_surface_wheel : Affine) : Affine :=
  let x := normalize3 (cross3 (fun i => T_surface_wheel.linear i 2) ![0, 0, 1])
  ⟨ofColumns x (cross3 ![0, 0, 1] x) ![0, 0, 1],
    fun i => T_surface_wheel.translation i + radius * downAxis T_surface_wheel i⟩

/-- The first three rows of `SE3(T).toActionMatrix() * J`: `R v + p × R ω`.
pinocchio, used in wheel_task.cpp 34-35. -/
noncomputable def actionTop (T : Affine) (JLin JAng : J3) : J3 := fun i j =>
  T.linear.mulVec (fun r => JLin r j) i + cross3 T.translation (T.linear.mulVec fun r => JAng r j) i

/-- `WheelTask::update`, wheel_task.cpp 12-47. `JLin` and `JAng` are the rows of the local Jacobian of the joint. `none`
stands for a matrix without finite coefficients (`T_surface_contact.inverse()` of a singular matrix). -/
noncomputable def wheelTask (N : Nat) (radius : ℝ) (omniwheel : Bool) (T_world_surface T_world_wheel : Affine) (JLin JAng : J3) :
    Option (TaskMat ℝ) :=
  let T_surface_wheel := T_world_surface.inv.mul T_world_wheel
  let T_surface_contact := surfaceContact radius T_surface_wheel
  let T_contact_wheel := T_surface_contact.inv.mul T_surface_wheel
  let A := actionTop T_contact_wheel JLin JAng
  let b : V3 := ![0, 0, -T_surface_contact.translation 2]
  if T_surface_contact.linear.det = 0 then none
  else if omniwheel then some ⟨2, N, fun i => if i = 0 then A 0 else A 2, fun i => if i = 0 then b 0 else b 2⟩
  else some ⟨3, N, fun i => if i = 0 then A 0 else if i = 1 then A 1 else A 2,
    fun i => if i = 0 then b 0 else if i = 1 then b 1 else b 2⟩

/-! ## Momentum and energy -/

/-- `CentroidalMomentumTask::update`, centroidal_momentum_task.cpp 11-23. `Ag` are the angular rows of the centroidal map. -/
noncomputable def centroidalTask (N : Nat) (dt : ℝ) (mask : Mask ℝ) (L_world : V3) (Ag : J3) : Except Err (TaskMat ℝ) :=
  if dt = 0 then .error .runtimeError
  else
    let M := maskedTask N mask Ag L_world
    .ok { M with A := fun i j => M.A i j / dt }

/-- `KineticEnergyRegularizationTask::update`, kinetic_energy_regularization_task.cpp 8-27. `sqrtM` is `mass_matrix().sqrt()`. -/
noncomputable def kineticTask (N : Nat) (dt : ℝ) (sqrtM : Nat → Nat → ℝ) : Except Err (TaskMat ℝ) :=
  if dt = 0 then .error .runtimeError
  else .ok ⟨N, N, fun i j => sqrtM i j / (Real.sqrt 2 * dt), fun _ => 0⟩

/-! ## Manipulability -/

/-- `ManipulabilityTask::Type`. manipulability_task.h 10-15. -/
inductive ManipType where
  | position | orientation | both
  deriving DecidableEq

/-- The number of rows kept and the first one, manipulability_task.cpp 12-23. -/
def ManipType.rows : ManipType → Nat
  | .position => 3
  | .orientation => 3
  | .both => 6

/-- The first row kept, manipulability_task.cpp 12-23. -/
def ManipType.first : ManipType → Nat
  | .position => 0
  | .orientation => 3
  | .both => 0

/-- `mask_matrix`, manipulability_task.cpp 11-25: the rows chosen by the type, without the six columns of the base. -/
def ManipType.maskMatrix (type : ManipType) (N : Nat) (M : Nat → Nat → ℝ) : Matrix (Fin type.rows) (Fin (N - 6)) ℝ :=
  fun i j => M (type.first + i) (6 + j)

/-- `manipulability`, manipulability_task.cpp 34. -/
noncomputable def manipulability {m n : Nat} (J : Matrix (Fin m) (Fin n) ℝ) : ℝ :=
  Real.sqrt (max 0 (J * J.transpose).det)

/-- One entry of `manipulability_gradient`, manipulability_task.cpp 42-46. -/
noncomputable def manipulabilityGradient {m n : Nat} (J H_dof : Matrix (Fin m) (Fin n) ℝ) : ℝ :=
  manipulability J * ∑ i, ∑ j, (J * H_dof.transpose) i j * (J * J.transpose)⁻¹ i j

/-- `ManipulabilityTask::update`, manipulability_task.cpp 27-62. `J_unmasked` is the local Jacobian and `H_unmasked dof`
the matrix of `get_frame_hessian`. `none` stands for coefficients that are not finite (singular `J Jᵀ`, or
`lambda = 0`). -/
noncomputable def manipulabilityTask (N : Nat) (type : ManipType) (lambda : ℝ) (minimize : Bool)
    (J_unmasked : Nat → Nat → ℝ) (H_unmasked : Nat → Nat → Nat → ℝ) : Option (TaskMat ℝ) :=
  let J := type.maskMatrix N J_unmasked
  if (J * J.transpose).det = 0 ∨ lambda = 0 then none
  else
    let b : Nat → ℝ := fun i => 1 / (2 * lambda) * manipulabilityGradient J (type.maskMatrix N (H_unmasked (i + 6)))
    some ⟨N - 6, N, fun i j => (if i + 6 = j then 1 else 0) * lambda, if minimize then fun i => -b i else b⟩

end Verif.Kinematics
