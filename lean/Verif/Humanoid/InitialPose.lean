/-
Model of `WalkTasks::reach_initial_pose`.
  /repo/src/placo/humanoid/walk_tasks.cpp 57-84
  /repo/src/placo/model/robot_wrapper.cpp 788-803
-/
import Verif.Humanoid.WalkTasks
import Verif.Humanoid.Queries
import Verif.Robot.Wrapper
import Verif.Kinematics.Solver

namespace Verif.Humanoid
open Verif.Tools Verif.Problem Verif.Robot

/-- The targets computed by `reach_initial_pose`, walk_tasks.cpp 57-68. `T_world_left.rotation()` is taken to be the linear
part, which holds for rigid transforms. `yaw` is the third angle of `pinocchio::rpy::matrixToRpy`, and `rpyToMatrix` of the
angles `(0, pitch, yaw)` is written as the product of rotations it is. -/
noncomputable def initialTargets (slerp : M3 → M3 → ℝ → M3) (yaw : M3 → ℝ) (left : Affine) (spacing height pitch : ℝ) :
    Targets :=
  let right : Affine := ⟨left.linear, left.translation + left.linear.mulVec ![0, -spacing, 0]⟩
  let com := (interpolateFrames slerp left right (1 / 2)).translation
  { left := left, right := right, com := ![com 0, com 1, height], trunk := rotZ (yaw left.linear) * turnY pitch * turnX 0 }

/-- The writes of `reach_initial_pose` before its loop, walk_tasks.cpp 69-71: `trunk_orientation_task` is dereferenced before
`update_tasks` is called. -/
noncomputable def WalkSt.aimAtInitialPose (slerp : M3 → M3 → ℝ → M3) (yaw : M3 → ℝ) (r : RobotView) (left : Affine)
    (spacing height pitch : ℝ) (s : WalkSt) : Except Err WalkSt := do
  let T := initialTargets slerp yaw left spacing height pitch
  let tr ← deref s.t.trunkOrientation
  let w ← s.w.write tr fun o => { o with rotation := T.trunk }
  WalkSt.updateTasks r T { s with w := w }

section
variable {K : Type} [Field K] [LinearOrder K]

/-- The solving loop of `reach_initial_pose`, walk_tasks.cpp 73-83, from iteration `i`, with `n` iterations left. `random i` is
the configuration drawn by `add_q_noise` in iteration `i`, robot_wrapper.cpp 788-803; `lowest` and `max` are the values which
stand for no limit. `robot->update_kinematics()` recomputes what the tasks read from the robot state: a task is a function of
that state here. A raised exception ends the loop. -/
def reachLoop (env : Kinematics.QPEnv K) (r : Kinematics.Robot K) (lowest max noise : K) (random : Nat → Nat → K)
    (tasks : List (Kinematics.Task K)) (cons : List (Kinematics.KConstraint K)) :
    Nat → Nat → Kinematics.KState K → Kinematics.KState K × Option Err
  | _, 0, s => (s, none)
  | i, n + 1, s =>
    let s1 : Kinematics.KState K :=
      if i ≤ 10 then
        { s with robot := { s.robot with q := addQNoise r.nq lowest max r.lower r.upper (random i) noise s.robot.q } }
      else s
    match Kinematics.solve env r tasks cons true s1 with
    | (s2, .error e) => (s2, some e)
    | (s2, .ok _) => reachLoop env r lowest max noise random tasks cons (i + 1) n s2

end

/-- What `reach_initial_pose` reads and calls: the robot as seen by the walking tasks, the tasks and constraints of the solver,
and the random configurations. walk_tasks.cpp 57-84. -/
structure ReachEnv where
  env : Kinematics.QPEnv ℝ
  robot : Kinematics.Robot ℝ
  lowest : ℝ
  max : ℝ
  random : Nat → Nat → ℝ
  slerp : M3 → M3 → ℝ → M3
  yaw : M3 → ℝ
  look : Kinematics.RState ℝ → RobotView
  tasksOf : World → List (Kinematics.Task ℝ)
  cons : List (Kinematics.KConstraint ℝ)

/-- `reach_initial_pose`, walk_tasks.cpp 57-84: 100 iterations, with a noise of 0.01. -/
noncomputable def reachInitialPose (e : ReachEnv) (left : Affine) (spacing height pitch : ℝ) (s : WalkSt)
    (k : Kinematics.KState ℝ) : WalkSt × Kinematics.KState ℝ × Option Err :=
  match s.aimAtInitialPose e.slerp e.yaw (e.look k.robot) left spacing height pitch with
  | .error err => (s, k, some err)
  | .ok s' =>
    let res := reachLoop e.env e.robot e.lowest e.max (1 / 100) e.random (e.tasksOf s'.w) e.cons 0 100 k
    (s', res.1, res.2)

end Verif.Humanoid
