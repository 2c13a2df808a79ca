/-
Model of `placo::model::RobotWrapper`: base placement, joint accessors, torques, noise.
  /repo/src/placo/model/robot_wrapper.{h,cpp}
  /repo/src/placo/humanoid/humanoid_robot.cpp (ensure_on_floor, update_support_side, get_torques)

Pinocchio is external. What is used of it: the placement of a frame is
`jointPlacements[1] * SE3(q[0..6]) * (a transform that depends on the other coordinates only)`, for the frames
attached to the robot.
-/
import Mathlib.LinearAlgebra.Matrix.NonsingularInverse
import Verif.Tools.Utils
import Verif.Kinematics.Solver

namespace Verif.Robot
open Finset Verif.Tools Verif.Problem

/-! ## Transforms (Eigen) -/

/-- `Eigen::Affine3d` product. Eigen. -/
def _root_.Verif.Tools.Affine.mul (a b : Affine) : Affine :=
  ⟨a.linear * b.linear, a.linear.mulVec b.translation + a.translation⟩

/-- `Eigen::Affine3d::inverse()`. Eigen; exact for rigid transforms. -/
noncomputable def _root_.Verif.Tools.Affine.inv (a : Affine) : Affine :=
  ⟨a.linear⁻¹, -(a.linear⁻¹.mulVec a.translation)⟩

/-- `Eigen::Affine3d::Identity()`. Eigen. -/
def _root_.Verif.Tools.Affine.one : Affine := ⟨1, 0⟩

/-- `Eigen::Quaterniond`. Eigen. -/
@[ext] structure Quat where
  x : ℝ
  y : ℝ
  z : ℝ
  w : ℝ

/-- Eigen's `Quaternion::toRotationMatrix`. Used in robot_wrapper.cpp 278-290. -/
def Quat.toMatrix (p : Quat) : M3 :=
  !![1 - (2 * p.y * p.y + 2 * p.z * p.z), 2 * p.x * p.y - 2 * p.w * p.z, 2 * p.x * p.z + 2 * p.w * p.y;
     2 * p.x * p.y + 2 * p.w * p.z, 1 - (2 * p.x * p.x + 2 * p.z * p.z), 2 * p.y * p.z - 2 * p.w * p.x;
     2 * p.x * p.z - 2 * p.w * p.y, 2 * p.y * p.z + 2 * p.w * p.x, 1 - (2 * p.x * p.x + 2 * p.y * p.y)]

/-- Eigen's `Quaternion(const Matrix3&)` (`quaternionbase_assign_impl<Other, 3, 3>`): the trace when it is positive,
otherwise the largest diagonal coefficient. Used in robot_wrapper.cpp 292-306. -/
noncomputable def Quat.ofMatrix (m : M3) : Quat :=
  if 0 < m 0 0 + m 1 1 + m 2 2 then
    let t := Real.sqrt (m 0 0 + m 1 1 + m 2 2 + 1)
    ⟨(m 2 1 - m 1 2) * (1 / 2 / t), (m 0 2 - m 2 0) * (1 / 2 / t), (m 1 0 - m 0 1) * (1 / 2 / t), 1 / 2 * t⟩
  else
    let i : Fin 3 := if m 0 0 < m 1 1 then 1 else 0
    let i : Fin 3 := if m i i < m 2 2 then 2 else i
    if i = 0 then
      let t := Real.sqrt (m 0 0 - m 1 1 - m 2 2 + 1)
      ⟨1 / 2 * t, (m 1 0 + m 0 1) * (1 / 2 / t), (m 2 0 + m 0 2) * (1 / 2 / t), (m 2 1 - m 1 2) * (1 / 2 / t)⟩
    else if i = 1 then
      let t := Real.sqrt (m 1 1 - m 2 2 - m 0 0 + 1)
      ⟨(m 0 1 + m 1 0) * (1 / 2 / t), 1 / 2 * t, (m 2 1 + m 1 2) * (1 / 2 / t), (m 0 2 - m 2 0) * (1 / 2 / t)⟩
    else
      let t := Real.sqrt (m 2 2 - m 0 0 - m 1 1 + 1)
      ⟨(m 0 2 + m 2 0) * (1 / 2 / t), (m 1 2 + m 2 1) * (1 / 2 / t), 1 / 2 * t, (m 1 0 - m 0 1) * (1 / 2 / t)⟩

/-! ## Base and frames -/

/-- The kinematic model: `jointPlacements[1]`, the placement of each frame of the robot with respect to the base as a
function of the coordinates after the seventh, and the frames attached to the world (`universe`), which do not move.
pinocchio, used in robot_wrapper.cpp 278-321. -/
structure KinModel where
  placement : Affine
  world : Nat → Option Affine := fun _ => none
  rel : Nat → (Nat → ℝ) → Affine

/-- `state.q`, and `data->oMf` as last computed. robot_wrapper.h 78 and 701. -/
structure RW where
  q : Nat → ℝ
  oMf : Nat → Affine

/-- `SE3(q)`: the transform encoded by the first seven coordinates. robot_wrapper.cpp 278-290. -/
def baseOf (q : Nat → ℝ) : Affine := ⟨(⟨q 3, q 4, q 5, q 6⟩ : Quat).toMatrix, ![q 0, q 1, q 2]⟩

/-- The placement of a frame (pinocchio's `framesForwardKinematics`).
Called in robot_wrapper.cpp 315-321. -/
def KinModel.fk (m : KinModel) (q : Nat → ℝ) (f : Nat) : Affine :=
  match m.world f with
  | some T => T
  | none => (m.placement.mul (baseOf q)).mul (m.rel f fun k => q (k + 7))

/-- `update_kinematics`, robot_wrapper.cpp 315-321: the frame placements. -/
def KinModel.updateKinematics (m : KinModel) (s : RW) : RW := { s with oMf := m.fk s.q }

/-- `get_T_world_frame`, robot_wrapper.cpp 421-424. -/
def RW.getTWorldFrame (s : RW) (f : Nat) : Affine := s.oMf f

/-- `get_T_a_b`, robot_wrapper.cpp 431-434. -/
noncomputable def RW.getTab (s : RW) (a b : Nat) : Affine := (s.getTWorldFrame a).inv.mul (s.getTWorldFrame b)

/-- `get_T_world_fbase`, robot_wrapper.cpp 278-290. -/
def KinModel.getTWorldFbase (m : KinModel) (s : RW) : Affine := m.placement.mul (baseOf s.q)

/-- `set_T_world_fbase`, robot_wrapper.cpp 292-306. -/
noncomputable def KinModel.setTWorldFbase (m : KinModel) (s : RW) (T : Affine) : RW :=
  let T := m.placement.inv.mul T
  let p := Quat.ofMatrix T.linear
  { s with
    q := fun k => match k with
      | 0 => T.translation 0
      | 1 => T.translation 1
      | 2 => T.translation 2
      | 3 => p.x
      | 4 => p.y
      | 5 => p.z
      | 6 => p.w
      | k => s.q k }

/-- `set_T_world_frame`, robot_wrapper.cpp 446-453: the placement of the frame is the one last computed. -/
noncomputable def KinModel.setTWorldFrame (m : KinModel) (s : RW) (f : Nat) (target : Affine) : RW :=
  let T_frame_fbase := (s.getTWorldFrame f).inv.mul (m.getTWorldFbase s)
  m.setTWorldFbase s (target.mul T_frame_fbase)

/-! ## Humanoid support -/

/-- The members of `HumanoidRobot` that concern the support. humanoid_robot.h 122-142. -/
structure HR where
  rw : RW
  supportFrame : Nat
  worldSupport : Affine

/-- `ensure_on_floor`, humanoid_robot.cpp 106-112. -/
noncomputable def KinModel.ensureOnFloor (m : KinModel) (s : HR) : HR :=
  { s with rw := m.updateKinematics (m.setTWorldFrame (m.updateKinematics s.rw) s.supportFrame s.worldSupport) }

/-- `update_support_side(side, frame)`, humanoid_robot.cpp 90-98 (the side itself is not used by the other functions modelled here). -/
noncomputable def HR.updateSupport (s : HR) (frame : Nat) : HR :=
  if frame ≠ s.supportFrame then
    { s with supportFrame := frame, worldSupport := flattenOnFloor (s.rw.getTWorldFrame frame) }
  else s

/-- `ensure_on_floor_oriented` and `update_from_imu` (same body), humanoid_robot.cpp 112-135. -/
noncomputable def KinModel.ensureOriented (m : KinModel) (s : HR) (trunk : Nat) (R_world_trunk : M3) : HR :=
  let rw := m.updateKinematics s.rw
  let T_trunk_support := rw.getTab trunk s.supportFrame
  let worldSupport : Affine := ⟨R_world_trunk * T_trunk_support.linear, s.worldSupport.translation⟩
  { s with
    rw := m.updateKinematics (m.setTWorldFrame rw s.supportFrame worldSupport)
    worldSupport := worldSupport }

/-! ## Joint accessors -/

/-- Functions of `RobotWrapper` taking the name of a joint. robot_wrapper.h 126-234 and 596-601. -/
inductive Accessor where
  | getJoint | setJoint | getJointOffset | setJointLimits | getJointLimits
  | getJointSize | getJointVOffset | getJointVSize
  | getJointVelocity | setJointVelocity | getJointAcceleration | setJointAcceleration
  | setVelocityLimit | setTorqueLimit | setRotorInertia | setGearRatio
  deriving DecidableEq

/-- `get_joint_offset`, robot_wrapper.cpp 196-207. -/
def jointOffset (joints : List Kinematics.Joint) (name : String) : Except Err Nat :=
  match joints.find? (fun j => j.name = name) with
  | some j => .ok j.idxQ
  | none => .error .runtimeError

/-- `model.joints[model.getJointId(name)]` as in `get_joint_size`, `get_joint_v_offset` and `get_joint_v_size`, robot_wrapper.cpp 209-225:
`getJointId` returns the number of joints for an unknown name, and the access is out of range. -/
def jointUnchecked (joints : List Kinematics.Joint) (name : String) : Except Err Kinematics.Joint :=
  match joints.find? (fun j => j.name = name) with
  | some j => .ok j
  | none => .error .ub

/-- The index that each accessor computes from the name, robot_wrapper.cpp 186-276 and 663-671 (for the sizes: the size). -/
def Accessor.index (joints : List Kinematics.Joint) (name : String) : Accessor → Except Err Nat
  | .getJoint | .setJoint | .getJointOffset | .setJointLimits | .getJointLimits => jointOffset joints name
  | .getJointSize => (jointUnchecked joints name).map (·.nQ)
  | .getJointVSize => (jointUnchecked joints name).map (·.nV)
  | .getJointVOffset | .getJointVelocity | .setJointVelocity | .getJointAcceleration | .setJointAcceleration
  | .setVelocityLimit | .setTorqueLimit | .setRotorInertia | .setGearRatio =>
    (jointUnchecked joints name).map (·.idxV)

/-- The Jacobians kept by pinocchio, per joint index. Read in robot_wrapper.cpp 586-612. -/
structure JointData (K : Type) where
  J : Nat → Nat → Nat → K
  dJ : Nat → Nat → Nat → K

/-- `joint_jacobian(index)`, robot_wrapper.cpp 591-598. -/
def JointData.jacobian {K : Type} (d : JointData K) (joint : Nat) : Nat → Nat → K := d.J joint

/-- `joint_jacobian_time_variation(index)`, robot_wrapper.cpp 605-612. -/
def JointData.timeVariation {K : Type} (d : JointData K) (joint : Nat) : Nat → Nat → K := d.dJ joint

/-- `joint_jacobian_time_variation(name)`, robot_wrapper.cpp 600-603: calls `joint_jacobian` (sic). `getJointId` is a parameter. -/
def JointData.timeVariationByName {K : Type} (d : JointData K) (getJointId : String → Nat) (joint : String) :
    Nat → Nat → K := d.jacobian (getJointId joint)

/-! ## Torques -/

section
variable {K : Type} [Field K]

/-- The six first rows of a vector. robot_wrapper.cpp 712-748. -/
def head6 (v : Nat → K) : Fin 6 → K := fun i => v i

/-- `J.block(0, 0, 6, 6)`. robot_wrapper.cpp 712-748. -/
def base66 (J : Nat → Nat → K) : Matrix (Fin 6) (Fin 6) K := fun i j => J i j

/-- `mass_matrix`, robot_wrapper.cpp 673-687, from the matrix computed by `crba` (of which only the upper part is used). -/
def massMatrix (crba : Nat → Nat → K) (gearRatio rotorInertia : Nat → K) : Nat → Nat → K := fun i j =>
  let M := if j < i then crba j i else crba i j
  if i = j then M + gearRatio i * gearRatio i * rotorInertia i else M

/-- `static_gravity_compensation_torques`, robot_wrapper.cpp 712-726, from the gravity `g` and the Jacobian `J` (6 rows) of the frame.
`inverse()` of a singular matrix is not modelled faithfully (Mathlib's inverse is 0 there, Eigen's has no meaning). -/
noncomputable def gravityTorques (g : Nat → K) (J : Nat → Nat → K) : Nat → K :=
  let f := (base66 J).transpose⁻¹.mulVec (head6 g)
  fun i => g i - ∑ k : Fin 6, J k i * f k

/-- `torques_from_acceleration_with_fixed_frame`, robot_wrapper.cpp 733-748: entry `i` is for coordinate `i + 6`. -/
noncomputable def fixedFrameTorques (nv : Nat) (M : Nat → Nat → K) (h : Nat → K) (J : Nat → Nat → K) (qdd_a : Nat → K) : Nat → K :=
  let f := (base66 J).transpose⁻¹.mulVec (head6 h)
  fun i => (∑ j ∈ range (nv - 6), M (i + 6) (j + 6) * qdd_a j) + h (i + 6) - ∑ k : Fin 6, J k (i + 6) * f k

/-- `HumanoidRobot::get_torques`, humanoid_robot.cpp 164-195: `Jc i k` is row `i`, column `k` of `J_c`; `nf` columns (8 in the
code). Returns the full acceleration `acc` and the torques. -/
noncomputable def getTorques (nv nf : Nat) (M : Nat → Nat → K) (h : Nat → K) (Jc : Nat → Nat → K) (acc_a forces : Nat → K) :
    (Nat → K) × (Nat → K) :=
  let rhs : Fin 6 → K := fun i => (∑ k ∈ range nf, Jc i k * forces k) - h i - ∑ j ∈ range (nv - 6), M i (j + 6) * acc_a j
  let acc_bf := (base66 M)⁻¹.mulVec rhs
  let acc : Nat → K := fun i => if h : i < 6 then acc_bf ⟨i, h⟩ else acc_a (i - 6)
  (acc, fun i => (∑ j ∈ range nv, M i j * acc j) + h i - ∑ k ∈ range nf, Jc i k * forces k)

end

/-! ## Limits and noise -/

section
variable {K : Type} [Field K] [LinearOrder K]

/-- The loading of the limits, robot_wrapper.cpp 132-141: `lowest` and `max` are those of `double`. -/
def loadLimits (lowest max : K) (lower upper : Nat → K) : (Nat → K) × (Nat → K) :=
  (fun k => if lower k = 0 ∧ upper k = 0 then lowest else lower k,
   fun k => if lower k = 0 ∧ upper k = 0 then max else upper k)

/-- `add_q_noise`, robot_wrapper.cpp 788-803: `random` is `pinocchio::randomConfiguration(model)`. -/
def addQNoise (nq : Nat) (lowest max : K) (lower upper random : Nat → K) (noise : K) (q : Nat → K) : Nat → K := fun k =>
  if 7 ≤ k ∧ k < nq then
    if lower k = lowest ∨ upper k = max then q k else q k + (random k - q k) * noise
  else q k

end
end Verif.Robot
