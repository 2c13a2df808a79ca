/-
Model of the frame tasks and relative frame tasks of both solvers: a position task and an orientation task handled together.
  /repo/src/placo/kinematics/frame_task.cpp
  /repo/src/placo/kinematics/relative_frame_task.cpp
  /repo/src/placo/dynamics/frame_task.cpp
  /repo/src/placo/dynamics/relative_frame_task.cpp
  /repo/src/placo/kinematics/kinematics_solver.cpp: add_frame_task, add_relative_frame_task
The four classes have the same methods, except for the names of the members.
-/
import Verif.Tools.Mask
import Verif.Tools.Utils

namespace Verif.Kinematics
open Verif.Tools

/-- What the pair reads and writes of the two tasks: their name, priority and weight, and their targets.
kinematics/frame_task.h 8, kinematics/relative_frame_task.h 10. -/
structure FramePair where
  position : Prioritized ℝ
  orientation : Prioritized ℝ
  target : V3
  R : M3

/-- `Prioritized::Prioritized()`, prioritized.cpp 25-29. -/
def prioritizedInit : Prioritized ℝ := ⟨"", .soft, 1⟩

/-- `add_frame_task` and `add_relative_frame_task`, kinematics_solver.cpp; dynamics_solver.cpp 113-121, 161-167.
`rotation` stands for `Affine3d::rotation()`, the closest rotation to the linear part. -/
def FramePair.create (rotation : M3 → M3) (T : Affine) : FramePair :=
  ⟨prioritizedInit, prioritizedInit, T.translation, rotation T.linear⟩

/-- `FrameTask::configure` and `RelativeFrameTask::configure`, frame_task.cpp 14-18: the state reached and the exception. -/
def FramePair.configure (p : FramePair) (name priority : String) (positionWeight orientationWeight : ℝ) :
    FramePair × Option Err :=
  match p.position.configureStr (name ++ "_position") priority positionWeight with
  | (pos, some e) => ({ p with position := pos }, some e)
  | (pos, none) =>
    match p.orientation.configureStr (name ++ "_orientation") priority orientationWeight with
    | (ori, e) => ({ p with position := pos, orientation := ori }, e)

/-- `get_T_world_frame`, frame_task.cpp 20-26, and `get_T_a_b`, relative_frame_task.cpp 18-25. -/
def FramePair.getT (p : FramePair) : Affine := ⟨p.R, p.target⟩

/-- `set_T_world_frame`, frame_task.cpp 28-32, and `set_T_a_b`, relative_frame_task.cpp 27-31. -/
def FramePair.setT (p : FramePair) (T : Affine) : FramePair := { p with target := T.translation, R := T.linear }

end Verif.Kinematics
