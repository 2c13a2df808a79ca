/-
Model of the construction of a humanoid robot and of the calls that change its support.
  /repo/src/placo/humanoid/humanoid_robot.{h,cpp}
-/
import Verif.Humanoid.Camera
import Verif.Humanoid.Footsteps
import Verif.Robot.Wrapper

namespace Verif.Humanoid
open Verif.Tools Verif.Robot

/-- The members of `HumanoidRobot`, humanoid_robot.h 118-147: `hr` holds the robot, `support_frame` and `T_world_support`; the distances
that are not written by the constructor are `none`. `support_is_both` is only written by the constructor. -/
structure Biped where
  hr : HR
  supportSide : Side
  supportIsBoth : Bool
  leftFoot : Nat
  rightFoot : Nat
  trunk : Nat
  distYTrunkFoot : Option ℝ
  head : Option Head

/-- `get_frame_index`, robot_wrapper.cpp 174-184: `frame` is the index of the frame with that name, if the model has one. -/
def frameNamed (frame : String → Option Nat) (name : String) : Except Err Nat :=
  match frame name with
  | some i => .ok i
  | none => .error .runtimeError

/-- `HumanoidRobot::string_to_side`, humanoid_robot.cpp 54-57. -/
def stringToSide (s : String) : Side := if s = "right" then .right else .left

/-- `HumanoidRobot::HumanoidRobot`, `initialize` and `init_config`, humanoid_robot.cpp 8-52, on the robot that was loaded. -/
noncomputable def Biped.construct (m : KinModel) (frame : String → Option Nat) (rw : RW) : Except Err Biped := do
  let supportFrame ← frameNamed frame "left_foot"
  let leftFoot ← frameNamed frame "left_foot"
  let rightFoot ← frameNamed frame "right_foot"
  let trunk ← frameNamed frame "trunk"
  let hr := m.ensureOnFloor ⟨rw, supportFrame, Affine.one⟩
  .ok
    { hr := hr, supportSide := .left, supportIsBoth := false, leftFoot := leftFoot, rightFoot := rightFoot, trunk := trunk
      distYTrunkFoot := match frame "trunk", frame "left_hip_yaw" with
        | some a, some b => some |(hr.rw.getTab a b).translation 1|
        | _, _ => none
      head := match frame "head_base", frame "head_pitch", frame "camera" with
        | some a, some b, some c => some (Head.measure (hr.rw.getTab a b) (hr.rw.getTab a c))
        | _, _, _ => none }

/-- `update_support_side(Side, FrameIndex)`, humanoid_robot.cpp 90-98. -/
noncomputable def Biped.updateSide (h : Biped) (side : Side) (frame : Nat) : Biped :=
  { h with
    hr := h.hr.updateSupport frame
    supportSide := if frame ≠ h.hr.supportFrame then side else h.supportSide }

/-- `camera_look_at`, humanoid_robot.cpp 209-234: the distances are read after the placement of "head_base"; reading those that were
never written is undefined. -/
noncomputable def Biped.cameraLookAt (frame : String → Option Nat) (h : Biped) (P_world_target : V3) : Except Err Look := do
  let headBase ← frameNamed frame "head_base"
  match h.head with
  | none => .error .ub
  | some head => .ok (head.lookAt (h.hr.rw.getTWorldFrame headBase) P_world_target)

/-- The calls that concern the support, humanoid_robot.cpp 79-135 (with a side, with the name of a side, with both a side and a frame, by
index or by name), and any other change of the robot by its user (`move`: the state reached). -/
inductive BipedOp where
  | side (s : Side)
  | sideName (s : String)
  | sideFrame (s : Side) (f : Nat)
  | names (s frame : String)
  | onFloor
  | oriented (R_world_trunk : M3)
  | move (rw : RW)

/-- One call: the state reached and the exception. humanoid_robot.cpp 79-135. -/
noncomputable def Biped.step (m : KinModel) (frame : String → Option Nat) (h : Biped) : BipedOp → Biped × Option Err
  | .side s => (h.updateSide s (if s = .left then h.leftFoot else h.rightFoot), none)
  | .sideName n =>
    let s := stringToSide n
    (h.updateSide s (if s = .left then h.leftFoot else h.rightFoot), none)
  | .sideFrame s f => (h.updateSide s f, none)
  | .names n f =>
    match frameNamed frame f with
    | .error e => (h, some e)
    | .ok i => (h.updateSide (stringToSide n) i, none)
  | .onFloor => ({ h with hr := m.ensureOnFloor h.hr }, none)
  | .oriented R => ({ h with hr := m.ensureOriented h.hr h.trunk R }, none)
  | .move rw => ({ h with hr := { h.hr with rw := rw } }, none)

/-- `HumanoidRobot::dcm`, humanoid_robot.cpp 197-201. -/
noncomputable def humanoidDcm (comWorld : V3) (omega : ℝ) (comVelocity : Fin 2 → ℝ) : Fin 2 → ℝ :=
  ![comWorld 0, comWorld 1] + (1 / omega) • comVelocity

/-- `HumanoidRobot::zmp`, humanoid_robot.cpp 203-207. -/
noncomputable def humanoidZmp (comWorld : V3) (omega : ℝ) (comAcceleration : Fin 2 → ℝ) : Fin 2 → ℝ :=
  ![comWorld 0, comWorld 1] - (1 / omega ^ 2) • comAcceleration

end Verif.Humanoid
