/-
Models of tasks of the dynamics solver.
  /repo/src/placo/dynamics/task.cpp
  /repo/src/placo/dynamics/joints_task.cpp
  /repo/src/placo/dynamics/gear_task.cpp
  /repo/src/placo/dynamics/torque_task.cpp
  /repo/src/placo/dynamics/position_task.cpp
  /repo/src/placo/dynamics/com_task.cpp
  /repo/src/placo/dynamics/relative_position_task.cpp
-/
import Verif.StdMap
import Verif.Tools.Mask
import Verif.Tools.Utils
import Verif.Kinematics.Tasks
import Verif.Dynamics.Solver

namespace Verif.Dynamics
open Finset Verif.Problem Verif.Kinematics

section
variable {K : Type} [Field K] [LinearOrder K]

/-- `Task::get_kd`, task.cpp 5-15. -/
def getKd (sqrt : K → K) (kp kd : K) : K := if kd < 0 then 2 * sqrt kp else kd

/-! ## Joints task -/

/-- Members of `JointsTask`, joints_task.h: `joints`, `djoints`, `ddjoints`, and the gains.
dynamics/joints_task.h 11-53, dynamics/task.h 65-70. -/
structure JointsTask (K : Type) where
  kp : K
  kd : K
  joints : SMap String K := []
  djoints : SMap String K := []
  ddjoints : SMap String K := []

/-- `JointsTask::set_joint`, joints_task.cpp 10-15. -/
def JointsTask.setJoint (t : JointsTask K) (joint : String) (target velocity acceleration : K) : JointsTask K :=
  { t with
    joints := SMap.set joint target t.joints
    djoints := SMap.set joint velocity t.djoints
    ddjoints := SMap.set joint acceleration t.ddjoints }

/-- `JointsTask::get_joint`, joints_task.cpp 17-25. -/
def JointsTask.getJoint (t : JointsTask K) (joint : String) : Except Err K :=
  match SMap.find? t.joints joint with
  | some v => .ok v
  | none => .error .runtimeError

/-- One row, joints_task.cpp 38-48: the column of the `1` and the value of `b`. `get_joint` of an unknown
joint throws (robot_wrapper.cpp 196-207), before `get_joint_v_offset` is called. -/
def JointsTask.row (sqrt : K → K) (r : Robot K) (t : JointsTask K) (s : RState K) (p : String × K) :
    Except Err (Nat × K) :=
  match r.joints.find? (fun j => j.name = p.1) with
  | none => .error .runtimeError
  | some j =>
    .ok (j.idxV, t.kp * (p.2 - s.q j.idxQ) +
      getKd sqrt t.kp t.kd * ((SMap.find? t.djoints p.1).getD 0 - s.qd j.idxV) + (SMap.find? t.ddjoints p.1).getD 0)

/-- `JointsTask::update`, joints_task.cpp 27-52. -/
def JointsTask.update (sqrt : K → K) (r : Robot K) (t : JointsTask K) (s : RState K) : Except Err (TaskMat K) := do
  let rows ← t.joints.mapM (t.row sqrt r s)
  pure ⟨rows.length, r.nv, fun k j => if j = (rows.getD k (0, 0)).1 then 1 else 0, fun k => (rows.getD k (0, 0)).2⟩

/-! ## Gear task -/

/-- `GearTask::set_gear`, gear_task.cpp 10-14: forgets the gears of **all** the targets. -/
def dynSetGear (r : Robot K) (target source : String) (ratio : K) : Gears K × Option Err :=
  addGear r [] target source ratio

/-- `GearTask::update`, gear_task.cpp 24-63. `gearRow` and `gearB` are the loops (lines 45-53), the same
as in the kinematics task; `gearB` is `q_target - desired_q` with the position of a joint read at its velocity
offset plus one, and the velocity version reads `qd` at the offset itself. -/
def dynGearUpdate (sqrt : K → K) (r : Robot K) (kp kd : K) (g : Gears K) (s : RState K) : Except Err (TaskMat K) :=
  .ok ⟨g.length, r.nv, fun k => gearRow (g.getD k (0, [])).1 (g.getD k (0, [])).2,
    fun k => kp * gearB s.q (g.getD k (0, [])).1 (g.getD k (0, [])).2 +
      getKd sqrt kp kd * gearB (fun i => s.qd (i - 1)) (g.getD k (0, [])).1 (g.getD k (0, [])).2⟩

/-! ## Torque task -/

/-- `TorqueTask::TargetTau`. torque_task.h 14-30. -/
structure TargetTau (K : Type) where
  torque : K
  kp : K
  kd : K

/-- One row, torque_task.cpp 37-40. `get_joint_v_offset` is called first: an unknown joint is undefined behaviour. -/
def torqueRow (r : Robot K) (s : RState K) (p : String × TargetTau K) : Except Err (Nat × K) := do
  let j ← r.vJoint p.1
  pure (j.idxV, p.2.torque + p.2.kp * s.q j.idxQ - p.2.kd * s.qd j.idxV)

/-- `TorqueTask::update`, torque_task.cpp 23-43. -/
def torqueUpdate (r : Robot K) (m : SMap String (TargetTau K)) (s : RState K) : Except Err (TaskMat K) := do
  let rows ← m.mapM (torqueRow r s)
  pure ⟨rows.length, r.nv, fun k j => if j = (rows.getD k (0, 0)).1 then 1 else 0, fun k => (rows.getD k (0, 0)).2⟩

/-! ## Tasks on points -/

/-- The end of the updates of `PositionTask`, `CoMTask` and `RelativePositionTask`: `A = mask(J)`, `b = mask(v)`.
dynamics/position_task.cpp 33-36, dynamics/com_task.cpp 28-31, dynamics/relative_position_task.cpp 57-60. -/
def maskedTask (N : Nat) (mask : Tools.Mask K) (J : Fin 3 → Nat → K) (v : Fin 3 → K) : TaskMat K :=
  ⟨mask.indices.length, N, fun i => (mask.apply J).getD i (fun _ => 0),
    fun i => (mask.apply (fun k _ => v k)).getD i (fun _ => 0) 0⟩

/-- `PositionTask::update`, position_task.cpp 12-37, and `CoMTask::update`, com_task.cpp 11-32: `p` is the position
of the point, `J` and `dJ` the linear parts of its Jacobian and of the time variation of its Jacobian. For a
position task the caller sets `mask.rLocalWorld` to `Rᵀ` first (line 23). -/
def pointTaskUpdate (sqrt : K → K) (N : Nat) (mask : Tools.Mask K) (kp kd : K) (target dtarget ddtarget p : Fin 3 → K)
    (J dJ : Fin 3 → Nat → K) (s : RState K) : TaskMat K :=
  let vel : Fin 3 → K := fun i => ∑ j ∈ range N, J i j * s.qd j
  let desired : Fin 3 → K := fun i => kp * (target i - p i) + getKd sqrt kp kd * (dtarget i - vel i) + ddtarget i
  maskedTask N mask J fun i => desired i - ∑ j ∈ range N, dJ i j * s.qd j

end

/-! ## Relative position task -/

open Tools

/-- A matrix with `N` columns applied to a vector. Eigen product. -/
noncomputable def app (N : Nat) (J : Fin 3 → Nat → ℝ) (x : Nat → ℝ) : V3 := fun i => ∑ j ∈ range N, J i j * x j

/-- What `RelativePositionTask::update` reads from the robot: the placements, and the linear and angular parts of the
Jacobians (`LOCAL_WORLD_ALIGNED`) and of their time variations.
dynamics/relative_position_task.cpp 18-33. -/
structure RelKin where
  Ra : M3
  pa : V3
  pb : V3
  JaLin : Fin 3 → Nat → ℝ
  JaAng : Fin 3 → Nat → ℝ
  JbLin : Fin 3 → Nat → ℝ
  dJaLin : Fin 3 → Nat → ℝ
  dJaAng : Fin 3 → Nat → ℝ
  dJbLin : Fin 3 → Nat → ℝ
  dJbAng : Fin 3 → Nat → ℝ

/-- `a_AB`, relative_position_task.cpp 22-25. -/
noncomputable def RelKin.ab (k : RelKin) : V3 := k.Ra.transpose.mulVec (k.pb - k.pa)

/-- `a_omega_w`, dynamics/relative_position_task.cpp 36-37. -/
noncomputable def RelKin.omega (N : Nat) (k : RelKin) (qd : Nat → ℝ) : V3 := -k.Ra.transpose.mulVec (app N k.JaAng qd)

/-- `a_R_w * w_dAB`, dynamics/relative_position_task.cpp 40-41. -/
noncomputable def RelKin.dab (N : Nat) (k : RelKin) (qd : Nat → ℝ) : V3 :=
  k.Ra.transpose.mulVec (app N k.JbLin qd - app N k.JaLin qd)

/-- `desired_acceleration`, dynamics/relative_position_task.cpp 44-46. -/
noncomputable def RelKin.desired (N : Nat) (k : RelKin) (kp kd : ℝ) (target dtarget ddtarget : V3) (qd : Nat → ℝ) : V3 :=
  let a_dAB := cross3 (k.omega N qd) k.ab + k.dab N qd
  kp • (target - k.ab) + getKd Real.sqrt kp kd • (dtarget - a_dAB) + ddtarget

/-- `J`, dynamics/relative_position_task.cpp 49-50: `skew(a_AB) a_R_w Ja_ang + a_R_w (Jb - Ja)`, column by column. -/
noncomputable def RelKin.J (k : RelKin) (i : Fin 3) (j : Nat) : ℝ :=
  cross3 k.ab (k.Ra.transpose.mulVec fun r => k.JaAng r j) i +
    k.Ra.transpose.mulVec (fun r => k.JbLin r j - k.JaLin r j) i

/-- `e`, dynamics/relative_position_task.cpp 52-55: coefficient 2 on the centrifugal term, and the angular blocks (rows 3 to 5) in the difference
of the time variations (sic). -/
noncomputable def RelKin.e (N : Nat) (k : RelKin) (qd : Nat → ℝ) : V3 :=
  (2 : ℝ) • cross3 (k.omega N qd) (k.dab N qd)
  + (2 : ℝ) • cross3 (k.omega N qd) (cross3 (k.omega N qd) k.ab)
  + k.Ra.transpose.mulVec (app N k.dJbAng qd - app N k.dJaAng qd)
  + cross3 k.ab (k.Ra.transpose.mulVec (app N k.dJaAng qd))

/-- `RelativePositionTask::update`, relative_position_task.cpp 15-61. -/
noncomputable def relPosUpdate (N : Nat) (mask : Mask ℝ) (kp kd : ℝ) (target dtarget ddtarget : V3) (k : RelKin)
    (s : RState ℝ) : TaskMat ℝ :=
  maskedTask N mask k.J fun i => -k.e N s.qd i + k.desired N kp kd target dtarget ddtarget s.qd i

end Verif.Dynamics
