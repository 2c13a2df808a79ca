/-
Model of the setters and getters of `RobotWrapper` by joint name, and of `integrate`.
  /repo/src/placo/model/robot_wrapper.cpp 186-276, 661-669, 694-710, 755-764
-/
import Verif.Robot.Wrapper

namespace Verif.Robot
open Verif.Problem

/-- The vectors of `state` and `model` reached by the name of a joint.
robot_wrapper.cpp 186-276 and 663-671. -/
inductive Param where
  | q | lower | upper
  | qd | qdd | velocityLimit | torqueLimit | rotorInertia | gearRatio
  deriving DecidableEq

/-- `get_joint_offset` for the vectors of size `nq`, `get_joint_v_offset` for those of size `nv`.
robot_wrapper.cpp 196-219. -/
def Param.index (joints : List Kinematics.Joint) (name : String) : Param → Except Err Nat
  | .q | .lower | .upper => jointOffset joints name
  | _ => (jointUnchecked joints name).map (·.idxV)

/-- The values. robot_wrapper.h 59-73 and 686. -/
abbrev Params (K : Type) := Param → Nat → K

/-- `get_joint`, `get_joint_velocity`, `get_joint_acceleration`, `get_joint_limits`; and the reading of the entry of `model` for the
others. robot_wrapper.cpp 191-194, 227-230, 237-240, 272-276. -/
def Params.get {K : Type} (s : Params K) (joints : List Kinematics.Joint) (f : Param) (name : String) : Except Err K :=
  (f.index joints name).map (s f)

/-- Assignment of one entry. robot_wrapper.cpp 188, 234, 244, 249, 254, 665, 670. -/
def Params.write {K : Type} (s : Params K) (f : Param) (k : Nat) (v : K) : Params K :=
  fun f' i => if f' = f ∧ i = k then v else s f' i

/-- `set_joint`, `set_joint_velocity`, `set_joint_acceleration`, `set_velocity_limit`, `set_torque_limit`, `set_rotor_inertia`,
`set_gear_ratio`. robot_wrapper.cpp 186-189, 232-235, 242-255, 663-671. -/
def Params.set {K : Type} (s : Params K) (joints : List Kinematics.Joint) (f : Param) (name : String) (v : K) : Except Err (Params K) :=
  (f.index joints name).map fun k => s.write f k v

/-- `set_joint_limits`, robot_wrapper.cpp 265-270. -/
def Params.setJointLimits {K : Type} (s : Params K) (joints : List Kinematics.Joint) (name : String) (lower upper : K) :
    Except Err (Params K) :=
  (jointOffset joints name).map fun k => (s.write .lower k lower).write .upper k upper

/-- `joint_names()`, robot_wrapper.cpp 755-764. -/
def namesOf (joints : List Kinematics.Joint) : List String :=
  ((joints.map (·.name)).filter (· ≠ "universe")).filter (· ≠ "root_joint")

/-- The loop of `set_velocity_limits`, robot_wrapper.cpp 257-263. -/
def Params.setVelocityLimitsOn {K : Type} (joints : List Kinematics.Joint) (v : K) : List String → Params K → Except Err (Params K)
  | [], s => .ok s
  | name :: rest, s => do
    let s ← s.set joints .velocityLimit name v
    setVelocityLimitsOn joints v rest s

/-- `set_velocity_limits`. robot_wrapper.cpp 257-263. -/
def Params.setVelocityLimits {K : Type} (s : Params K) (joints : List Kinematics.Joint) (v : K) : Except Err (Params K) :=
  Params.setVelocityLimitsOn joints v (namesOf joints) s

/-- Calls by name. robot_wrapper.cpp 186-276. -/
inductive ParamCall (K : Type) where
  | set (f : Param) (name : String) (v : K)
  | limits (name : String) (lower upper : K)
  | velocities (v : K)

/-- One call, robot_wrapper.cpp 186-276. -/
def Params.step {K : Type} (joints : List Kinematics.Joint) (s : Params K) : ParamCall K → Except Err (Params K)
  | .set f name v => s.set joints f name v
  | .limits name lower upper => s.setJointLimits joints name lower upper
  | .velocities v => s.setVelocityLimits joints v

/-- A sequence of calls, stopped by an exception. A program that calls the library. -/
def Params.run {K : Type} (joints : List Kinematics.Joint) : List (ParamCall K) → Params K → Except Err (Params K)
  | [], s => .ok s
  | c :: cs, s => do
    let s ← s.step joints c
    Params.run joints cs s

/-! ## Integration -/

/-- The state, with the number of rows of `qd` and `qdd` (0 when they are not set).
robot_wrapper.h 59-73. -/
structure Motion (K : Type) where
  q : Nat → K
  qd : Vec K
  qdd : Vec K

/-- `integrate`, robot_wrapper.cpp 694-710, on the joints with one coordinate: `k` is the velocity of coordinate `pos k`; pinocchio's `integrate` adds
`qd * dt` there. The floating base and the other joints are not modelled. A vector with a number of rows that is neither 0 nor `nv`
is an error of sizes. -/
def Motion.integrate {K : Type} [Field K] (nv : Nat) (vel : Nat → Option Nat) (dt : K) (s : Motion K) : Except Err (Motion K) :=
  let qd : Vec K := if s.qd.size = 0 then ⟨nv, fun _ => 0⟩ else s.qd
  if s.qdd.size ≠ 0 ∧ s.qdd.size ≠ qd.size then .error .ub
  else
    let qd : Vec K := if s.qdd.size ≠ 0 then ⟨qd.size, fun i => qd.v i + dt * s.qdd.v i⟩ else qd
    if qd.size ≠ nv then .error .ub
    else .ok { s with
      qd := qd
      q := fun i => match vel i with
        | some k => s.q i + qd.v k * dt
        | none => s.q i }

/-- Several steps. A program that calls `integrate`, robot_wrapper.cpp 694-710. -/
def Motion.steps {K : Type} [Field K] (nv : Nat) (vel : Nat → Option Nat) (dt : K) : Nat → Motion K → Except Err (Motion K)
  | 0, s => .ok s
  | n + 1, s => do
    let s ← s.integrate nv vel dt
    Motion.steps nv vel dt n s

end Verif.Robot
