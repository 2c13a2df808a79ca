/-
Models of the orientation tasks, the frame tasks and the self-collision constraint of the dynamics solver.
  /repo/src/placo/dynamics/orientation_task.cpp
  /repo/src/placo/dynamics/relative_orientation_task.cpp
  /repo/src/placo/dynamics/avoid_self_collisions_constraint.cpp

The placements and Jacobians computed by pinocchio are parameters; so are `pinocchio::log3` and `pinocchio::Jlog3`.
-/
import Verif.Dynamics.Tasks
import Verif.Kinematics.Constraints

namespace Verif.Dynamics
open Finset Verif.Problem Verif.Tools Verif.Kinematics

/-! ## Orientations -/

/-- `OrientationTask::update`, orientation_task.cpp 12-39. `R` is the orientation of the frame, `J` and `dJ` are the
angular rows of its world Jacobian and of the time variation of this Jacobian. -/
noncomputable def orientationUpdate (log3 : M3 → V3) (N : Nat) (mask : Mask ℝ) (kp kd : ℝ) (R_world_frame : M3)
    (omega_world domega_world : V3) (R : M3) (J dJ : J3) (s : RState ℝ) : TaskMat ℝ :=
  let orientation_error := log3 (R_world_frame * R.transpose)
  let velocity_error := omega_world - app N J s.qd
  let desired := kp • orientation_error + getKd Real.sqrt kp kd • velocity_error + domega_world
  maskedTask N { mask with rLocalWorld := R_world_frame.transpose } J (desired - app N dJ s.qd)

/-- `RelativeOrientationTask::update`, relative_orientation_task.cpp 15-52: the Jacobians are the angular rows of the
world Jacobians of the two frames. -/
noncomputable def relOrientationUpdate (log3 : M3 → V3) (Jlog3 : M3 → M3) (N : Nat) (mask : Mask ℝ) (kp kd : ℝ)
    (R_a_b : M3) (omega_a_b domega_a_b : V3) (Ra Rb : M3) (Ja dJa Jb dJb : J3) (s : RState ℝ) : TaskMat ℝ :=
  let M := R_a_b * (Ra.transpose * Rb).transpose
  let orientation_error_world := Ra.mulVec (log3 M)
  let world_omega_a_b_real := app N Jb s.qd - app N Ja s.qd
  let velocity_error_world := Ra.mulVec omega_a_b - world_omega_a_b_real
  let desired := kp • orientation_error_world + getKd Real.sqrt kp kd • velocity_error_world + domega_a_b
  maskedTask N mask (fun i j => (Jlog3 M).mulVec (fun k => Jb k j - Ja k j) i)
    (desired - (Jlog3 M).mulVec (app N dJb s.qd - app N dJa s.qd))

/-! ## Self-collisions -/

/-- `RobotWrapper::Distance`, with the linear and angular rows of the world Jacobians of the two parent joints and of
their time variations.
robot_wrapper.h 392-430; the Jacobians of dynamics/avoid_self_collisions_constraint.cpp 47-56. -/
structure DynPair where
  pointA : V3
  pointB : V3
  minDistance : ℝ
  ALin : J3
  AAng : J3
  dALin : J3
  dAAng : J3
  BLin : J3
  BAng : J3
  dBLin : J3
  dBAng : J3

/-- The linear rows of `SE3(Identity, -p).toActionMatrix() * J`, avoid_self_collisions_constraint.cpp 47-55. -/
def atPoint (p : V3) (Lin Ang : J3) : J3 := fun i j => Lin i j + cross3 (-p) (fun k => Ang k j) i

/-- `n`, dynamics/avoid_self_collisions_constraint.cpp 38-45. -/
noncomputable def DynPair.normal (d : DynPair) : V3 :=
  let n := normalize3 (d.pointB - d.pointA)
  if d.minDistance < 0 then -n else n

/-- `J`, dynamics/avoid_self_collisions_constraint.cpp 58. -/
noncomputable def DynPair.J (d : DynPair) (j : Nat) : ℝ :=
  dot3 d.normal fun k => atPoint d.pointB d.BLin d.BAng k j - atPoint d.pointA d.ALin d.AAng k j

/-- `dJ[0]`, dynamics/avoid_self_collisions_constraint.cpp 59. -/
noncomputable def DynPair.drift (d : DynPair) (N : Nat) (qd : Nat → ℝ) : ℝ :=
  ∑ j ∈ range N, (dot3 d.normal fun k => atPoint d.pointB d.dBLin d.dBAng k j - atPoint d.pointA d.dALin d.dAAng k j) * qd j

/-- `xdd_safe`, dynamics/avoid_self_collisions_constraint.cpp 62-67. -/
noncomputable def DynPair.xddSafe (d : DynPair) (N : Nat) (qddSafe : Nat → ℝ) : ℝ :=
  0.5 * ∑ k ∈ Ico 6 N, |d.J k| * qddSafe k

/-- The row of a pair, dynamics/avoid_self_collisions_constraint.cpp 69-84. -/
noncomputable def DynPair.row (d : DynPair) (margin : ℝ) (N : Nat) (s : DState ℝ) : (Nat → ℝ) × ℝ :=
  let xdd_safe := d.xddSafe N s.qddSafe
  if margin ≤ d.minDistance then
    let error := d.minDistance - margin
    let xd := ∑ j ∈ range N, d.J j * s.robot.qd j
    let xd_max := Real.sqrt (2 * error * xdd_safe)
    (fun j => s.dt * d.J j, s.dt * d.drift N s.robot.qd + xd + xd_max)
  else (d.J, -xdd_safe)

/-- `AvoidSelfCollisionsConstraint::add_constraint`, avoid_self_collisions_constraint.cpp 6-93. -/
noncomputable def selfCollisions (p : SelfCollisions) (N : Nat) (distances : RState ℝ → List DynPair) : DConstraint ℝ where
  add s _ := do
    if s.dt = 0 then throw .runtimeError
    let near := (distances s.robot).filter fun d => d.minDistance < p.trigger
    if near.length = 0 then return []
    let e : Expr ℝ := ⟨near.length, N,
      fun i j => (near[i]?.map fun d => (d.row p.margin N s).1 j).getD 0,
      fun i => (near[i]?.map fun d => (d.row p.margin N s).2).getD 0⟩
    let c ← e.geDouble 0
    pure [c.configureP (if p.priority = .soft then .soft else .hard) p.weight]

end Verif.Dynamics
