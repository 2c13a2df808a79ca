/-
Models of `HumanoidRobot::get_com_velocity` and of `HumanoidRobot::read_from_histories`.
  /repo/src/placo/humanoid/humanoid_robot.cpp 79-98, 138-162, 237-303
  /repo/src/placo/model/robot_wrapper.cpp 755-764 (joint_names)

The Jacobians computed by pinocchio are parameters.
-/
import Verif.Humanoid.Queries
import Verif.Robot.BaseProps

namespace Verif.Humanoid
open Finset Verif.Tools Verif.Problem Verif.Robot Verif.Kinematics

/-- `J << J_contact.topRows(3), J_IMU.bottomRows(3)`, humanoid_robot.cpp 151-152 and 291-293. -/
def stackedJ (Jc Ji : Nat → Nat → ℝ) : Nat → Nat → ℝ := fun i j => if i < 3 then Jc i j else Ji i j

/-- The vector `(0, 0, 0, omega)`, humanoid_robot.cpp 158-159 and 288-289. -/
def gyroVector (omega : V3) : Fin 6 → ℝ := ![0, 0, 0, omega 0, omega 1, omega 2]

/-- `get_com_velocity`, humanoid_robot.cpp 138-162. `JC` is `com_jacobian()`, `Jc` the local Jacobian of `support_frame` and `Ji`
the one of the trunk. The argument `support` is not read by the code. The last 20 columns are taken, and multiplied by a vector of
`nv - 6` rows: this is only defined for `nv = 26`. The inverse of a singular matrix is reported as undefined. -/
noncomputable def comVelocity (nv : Nat) (JC Jc Ji : Nat → Nat → ℝ) (omega : V3) (qd : Nat → ℝ) : Except Err V3 :=
  if nv < 20 ∨ nv - 6 ≠ 20 then .error .ub
  else
    let J := stackedJ Jc Ji
    if (base66 J).det = 0 then .error .ub
    else
      let Jinv := (base66 J)⁻¹
      .ok fun k => (∑ i : Fin 6, JC k i * Jinv.mulVec (gyroVector omega) i) +
        ∑ j ∈ range 20, (JC k (nv - 20 + j) - ∑ i : Fin 6, JC k i * Jinv.mulVec (fun r => J r (nv - 20 + j)) i) * qd (6 + j)

/-- `joint_names()`, robot_wrapper.cpp 755-764. -/
def jointNames (joints : List Joint) : List String :=
  ((joints.map (·.name)).filter (· ≠ "universe")).filter (· ≠ "root_joint")

/-- The histories at the timestamp: numbers and angles by name.
Read in humanoid_robot.cpp 237-303. -/
structure Histories where
  number : String → ℝ
  angle : String → ℝ

/-- The robot: the joints of the model, the frames of the feet and of the trunk, the local Jacobians of frames.
Read in humanoid_robot.cpp 138-162 and 237-303. -/
structure ReplayModel where
  kin : KinModel
  joints : List Joint
  nv : Nat
  left : Nat
  right : Nat
  trunk : Nat
  jac : (Nat → ℝ) → Nat → Nat → Nat → ℝ

/-- The members of `HumanoidRobot` that `read_from_histories` changes. humanoid_robot.h 122-137. -/
structure Replay where
  hr : HR
  side : Side
  qd : Nat → ℝ

/-- `update_support_side(side, frame)`, humanoid_robot.cpp 90-98 (and 100-104 by names). -/
noncomputable def Replay.updateSupport (s : Replay) (side : Side) (frame : Nat) : Replay :=
  if frame ≠ s.hr.supportFrame then { s with hr := s.hr.updateSupport frame, side := side } else s

/-- `update_support_side(side)`, humanoid_robot.cpp 79-83. -/
noncomputable def ReplayModel.updateSupportSide (m : ReplayModel) (s : Replay) (side : Side) : Replay :=
  s.updateSupport side (if side = .left then m.left else m.right)

/-- `if (qd_joints.size() > 1) set_joint_velocity(...)`, humanoid_robot.cpp 244-247. -/
def ReplayModel.readVelocity (m : ReplayModel) (qdJoints : Vec ℝ) (name : String) (s : Replay) : Except Err Replay :=
  if 1 < qdJoints.size then do
    let j ← jointUnchecked m.joints name
    if j.idxV < 6 ∨ qdJoints.size ≤ j.idxV - 6 then .error .ub
    else .ok { s with qd := fun i => if i = j.idxV then qdJoints.v (j.idxV - 6) else s.qd i }
  else .ok s

/-- The loop on the joints, humanoid_robot.cpp 241-248. -/
def ReplayModel.readJoints (m : ReplayModel) (h : Histories) (source : String) (qdJoints : Vec ℝ) :
    List String → Replay → Except Err Replay
  | [], s => .ok s
  | name :: rest, s => do
    let k ← jointOffset m.joints name
    let s : Replay := { s with hr := { s.hr with rw := { s.hr.rw with
      q := fun i => if i = k then h.number (source ++ ":" ++ name) else s.hr.rw.q i } } }
    let s ← m.readVelocity qdJoints name s
    m.readJoints h source qdJoints rest s

/-- The sum of the four pressures of a foot, humanoid_robot.cpp 251-259. -/
def Histories.pressure (h : Histories) (foot : String) : ℝ :=
  h.number (foot ++ "_pressure_0") + h.number (foot ++ "_pressure_1") + h.number (foot ++ "_pressure_2") +
    h.number (foot ++ "_pressure_3")

/-- `pinocchio::rpy::rpyToMatrix` of the angles of the IMU, humanoid_robot.cpp 274-278. -/
noncomputable def Histories.imu (h : Histories) : M3 :=
  rotZ (h.angle "imu_yaw") * turnY (h.angle "imu_pitch") * turnX (h.angle "imu_roll")

/-- The velocity of the base, humanoid_robot.cpp 283-302. -/
noncomputable def ReplayModel.baseVelocity (m : ReplayModel) (h : Histories) (qdJoints : Vec ℝ) (s : Replay) : Except Err Replay :=
  let J := stackedJ (m.jac s.hr.rw.q s.hr.supportFrame) (m.jac s.hr.rw.q m.trunk)
  if qdJoints.size ≠ m.nv - 6 then .error .ub
  else if (base66 J).det = 0 then .error .ub
  else
    let b := gyroVector ![h.number "gyro_x", h.number "gyro_y", h.number "gyro_z"]
    let qd_bf := (base66 J)⁻¹.mulVec fun i => b i - ∑ j ∈ range (m.nv - 6), J i (j + 6) * qdJoints.v j
    .ok { s with qd := fun i => if h : i < 6 then qd_bf ⟨i, h⟩ else s.qd i }

/-- `read_from_histories`, humanoid_robot.cpp 237-303. All the histories read are assumed to exist. -/
noncomputable def ReplayModel.read (m : ReplayModel) (h : Histories) (source : String) (useImu : Bool) (qdJoints : Vec ℝ)
    (s : Replay) : Except Err Replay := do
  let s ← m.readJoints h source qdJoints (jointNames m.joints) s
  let s := m.updateSupportSide s (if h.pressure "right" < h.pressure "left" then .left else .right)
  let s := { s with hr := m.kin.ensureOnFloor s.hr }
  let s := if useImu then { s with hr := m.kin.ensureOriented s.hr m.trunk h.imu } else s
  if 1 < qdJoints.size then m.baseVelocity h qdJoints s else .ok s

/-- `init_config`, humanoid_robot.cpp 39-52, on a robot just constructed. -/
noncomputable def ReplayModel.init (m : ReplayModel) : Replay :=
  { hr := m.kin.ensureOnFloor ⟨Robot.initial m.kin, m.left, Affine.one⟩, side := .left, qd := fun _ => 0 }

/-- Calls made on a humanoid robot. `robot` stands for the calls of `RobotWrapper` that change `state.q`.
humanoid_robot.h 25-58 and 116. -/
inductive HumanoidOp where
  | robot (op : Robot.Op)
  | support (side : Side)
  | supportFrame (side : Side) (frame : Nat)
  | onFloor
  | oriented (R_world_trunk : M3)
  | read (h : Histories) (source : String) (useImu : Bool) (qdJoints : Vec ℝ)

/-- One call, humanoid_robot.cpp 79-136 and 237-303. -/
noncomputable def ReplayModel.step (m : ReplayModel) (s : Replay) : HumanoidOp → Except Err Replay
  | .robot op => .ok { s with hr := { s.hr with rw := Robot.step m.kin s.hr.rw op } }
  | .support side => .ok (m.updateSupportSide s side)
  | .supportFrame side frame => .ok (s.updateSupport side frame)
  | .onFloor => .ok { s with hr := m.kin.ensureOnFloor s.hr }
  | .oriented R => .ok { s with hr := m.kin.ensureOriented s.hr m.trunk R }
  | .read h source useImu qdJoints => m.read h source useImu qdJoints s

/-- A session: it stops at the first error.
Not a function of the library: a program that calls it. -/
noncomputable def ReplayModel.session (m : ReplayModel) : List HumanoidOp → Replay → Except Err Replay
  | [], s => .ok s
  | op :: ops, s => do
    let s ← m.step s op
    m.session ops s

end Verif.Humanoid
