/-
Model of the kinematic walk and of the kick.
  /repo/src/placo/humanoid/dummy_walk.{h,cpp}
  /repo/src/placo/humanoid/kick.{h,cpp}

The robot and the inverse kinematics (`solve`, `robot.reset`, `robot.update_kinematics`) are not modelled: the targets that are given to the
solver, and the frame on which the robot is placed, are.
-/
import Verif.Humanoid.Footsteps
import Verif.Tools.CubicSpline

namespace Verif.Humanoid
open Verif.Tools

/-- The parameters that are read besides those of the planner: `walk_foot_rise_ratio`, `walk_foot_height`, `walk_com_height`,
`walk_trunk_pitch`; `trunk_x_offset`, the clipping of the planner, Eigen's slerp.
humanoid_parameters.h 80-95, dummy_walk.h 60. -/
structure WalkConfig where
  params : Params
  clipping : Clipping
  riseRatio : ℝ
  footHeight : ℝ
  comHeight : ℝ
  trunkPitch : ℝ
  trunkXOffset : ℝ := 5 / 100
  slerp : M3 → M3 → ℝ → M3

/-- The members of `DummyWalk`, dummy_walk.h 60-115: `tLeft`, `tRight` and `tTrunk` are the targets of the frame tasks, and `placed`
is the last frame on which the robot was placed. -/
structure DummyWalk where
  supportLeft : Bool
  lift : SplineSt ℝ
  left : Affine
  right : Affine
  next : Affine
  dx : ℝ
  dy : ℝ
  dtheta : ℝ
  tLeft : Affine
  tRight : Affine
  tTrunk : Affine
  placed : Option (Side × Affine)

/-- `translation`, dummy_walk.cpp 121-126. -/
def translation (x y z : ℝ) : Affine := ⟨1, ![x, y, z]⟩

/-- `Eigen::AngleAxisd(angle, UnitY)`. Eigen, used in dummy_walk.cpp 60-106. -/
noncomputable def pitchY (angle : ℝ) : M3 :=
  !![Real.cos angle, 0, Real.sin angle; 0, 1, 0; -Real.sin angle, 0, Real.cos angle]

/-- Successive calls to `add_point`: the spline reached and the exception. dummy_walk.cpp 28-31. -/
noncomputable def addPoints (s : SplineSt ℝ) : List (SPoint ℝ) → SplineSt ℝ × Option Err
  | [] => (s, none)
  | p :: l =>
    match s.addPoint wrapAngle p.t p.x p.dx with
    | .error e => (s, some e)
    | .ok s => addPoints s l

/-- The points of `lift_spline`, dummy_walk.cpp 28-31. -/
noncomputable def WalkConfig.liftPoints (c : WalkConfig) : List (SPoint ℝ) :=
  [⟨0, 0, 0⟩, ⟨1 / 2 - c.riseRatio / 2, c.footHeight, 0⟩, ⟨1 / 2 + c.riseRatio / 2, c.footHeight, 0⟩, ⟨1, 0, 0⟩]

/-- `compute_next_support`, dummy_walk.cpp 108-119: the state reached and the exception. -/
noncomputable def DummyWalk.computeNextSupport (c : WalkConfig) (s : DummyWalk) (dx dy dtheta : ℝ) : DummyWalk × Option Err :=
  let s := { s with dx := dx, dy := dy, dtheta := dtheta }
  match c.params.planRepetitive c.clipping dx dy dtheta 2 (if s.supportLeft then .right else .left) s.left s.right with
  | .error e => (s, some e)
  | .ok fs =>
    match at' fs 2 with
    | .error e => (s, some e)
    | .ok f => ({ s with next := f.frame }, none)

/-- `update`, dummy_walk.cpp 60-86. -/
noncomputable def DummyWalk.update (c : WalkConfig) (s : DummyWalk) (t : ℝ) : DummyWalk × Option Err :=
  let r := s.lift.interpolation t .value
  let s := { s with lift := r.1 }
  match r.2 with
  | .error e => (s, some e)
  | .ok z =>
    let fly : Affine → Affine := fun T =>
      let T := interpolateFrames c.slerp T s.next t
      ⟨T.linear, ![T.translation 0, T.translation 1, z]⟩
    let T_world_left := if s.supportLeft then s.left else fly s.left
    let T_world_right := if s.supportLeft then fly s.right else s.right
    let T_world_mid := interpolateFrames c.slerp (flattenOnFloor T_world_left) (flattenOnFloor T_world_right) (1 / 2)
    let T_world_trunk := (T_world_mid.mul (translation c.trunkXOffset 0 c.comHeight)).mul ⟨pitchY c.trunkPitch, 0⟩
    ({ s with tLeft := T_world_left, tRight := T_world_right, tTrunk := T_world_trunk }, none)

/-- `reset`, dummy_walk.cpp 24-43. -/
noncomputable def DummyWalk.reset (c : WalkConfig) (s : DummyWalk) (supportLeft : Bool) : DummyWalk × Option Err :=
  match addPoints s.lift.clear c.liftPoints with
  | (l, some e) => ({ s with lift := l }, some e)
  | (l, none) =>
    let s := { s with
      lift := l, supportLeft := supportLeft
      left := translation 0 (c.params.feetSpacing / 2) 0, right := translation 0 (-c.params.feetSpacing / 2) 0 }
    match s.computeNextSupport c 0 0 0 with
    | (s, some e) => (s, some e)
    | (s, none) => s.update c 0

/-- `next_step`, dummy_walk.cpp 45-58. -/
noncomputable def DummyWalk.nextStep (c : WalkConfig) (s : DummyWalk) (dx dy dtheta : ℝ) : DummyWalk × Option Err :=
  let s := if s.supportLeft then { s with right := s.next } else { s with left := s.next }
  let s := { s with supportLeft := !s.supportLeft }
  s.computeNextSupport c dx dy dtheta

/-- `update_T_world_support`, dummy_walk.cpp 88-106. -/
noncomputable def DummyWalk.updateTWorldSupport (s : DummyWalk) (T_world_support : Affine) : DummyWalk :=
  let current := if s.supportLeft then s.left else s.right
  let T := (flattenOnFloor T_world_support).mul current.inv
  let s := { s with
    left := flattenOnFloor (T.mul s.left), right := flattenOnFloor (T.mul s.right), next := flattenOnFloor (T.mul s.next) }
  { s with placed := some (if s.supportLeft then (.left, s.left) else (.right, s.right)) }

/-- The public calls. dummy_walk.h 14-40. -/
inductive DummyOp where
  | reset (supportLeft : Bool)
  | nextStep (dx dy dtheta : ℝ)
  | update (t : ℝ)
  | updateTWorldSupport (T : Affine)

/-- One call: the state reached and the exception. dummy_walk.h 20-40. -/
noncomputable def DummyWalk.step (c : WalkConfig) (s : DummyWalk) : DummyOp → DummyWalk × Option Err
  | .reset b => s.reset c b
  | .nextStep dx dy dtheta => s.nextStep c dx dy dtheta
  | .update t => s.update c t
  | .updateTWorldSupport T => (s.updateTWorldSupport T, none)

/-! ## Kick -/

/-- `Kick::KickTrajectory`: the times and the spline of the foot.
kick.h 12-18, foot_trajectory.h 15. -/
structure KickTrajectory where
  tStart : ℝ
  tEnd : ℝ
  foot : Spline3 ℝ

/-- `Kick::make_trajectory`, kick.cpp 16-43: the points are commented out. -/
def kickMake (tStart tEnd : ℝ) (_start _target : V3) (_opposite : Affine) : KickTrajectory :=
  ⟨tStart, tEnd, ⟨.init false, .init false, .init false⟩⟩

/-- `KickTrajectory::pos` and `vel`, kick.cpp 6-14: the components of the spline. -/
noncomputable def KickTrajectory.read (k : KickTrajectory) (t : ℝ) (ty : ValueType) : Except Err V3 := do
  let x ← (k.foot.x.interpolation t ty).2
  let y ← (k.foot.y.interpolation t ty).2
  let z ← (k.foot.z.interpolation t ty).2
  .ok ![x, y, z]

end Verif.Humanoid
