/-
Model of the robot moved by the kinematic walk.
  /repo/src/placo/humanoid/dummy_walk.{h,cpp}
  /repo/src/placo/model/robot_wrapper.cpp 169-172, 315-321, 342-352, 446-453, 788-803
-/
import Verif.Humanoid.DummyWalk
import Verif.Robot.Wrapper

namespace Verif.Humanoid
open Verif.Tools Verif.Robot

/-- What the walk calls: the robot and its feet, its neutral configuration (pinocchio's, robot_wrapper.cpp 345), the `k`-th call of
`robot.add_q_noise(1e-3)` (robot_wrapper.cpp 788-803) and `solver.solve(true)`, which reads the robot (its configuration and the
placements last computed) and the targets of the tasks of the left foot, of the right foot and of the trunk, and raises or gives the new
configuration (kinematics_solver.cpp 392-484; it does not update the kinematics). The tasks are made by the constructor,
dummy_walk.cpp 5-22. -/
structure DummyEnv where
  model : KinModel
  leftFoot : Nat
  rightFoot : Nat
  neutral : Nat → ℝ
  noise : Nat → (Nat → ℝ) → Nat → ℝ
  ik : RW → Affine → Affine → Affine → Except Err (Nat → ℝ)

/-- The walk, the robot, and the number of calls of `add_q_noise` so far. dummy_walk.h 42-100. -/
structure DummySession where
  walk : DummyWalk
  rw : RW
  draws : Nat

/-- `robot.reset()` then `robot.update_kinematics()`, dummy_walk.cpp 33-34. -/
def DummyEnv.resetRobot (e : DummyEnv) (rw : RW) : RW := e.model.updateKinematics { rw with q := e.neutral }

/-- The loop of `DummyWalk::solve`, with `n` iterations left, dummy_walk.cpp 128-136. -/
def DummySession.solveLoop (e : DummyEnv) : Nat → DummySession → DummySession × Option Err
  | 0, s => (s, none)
  | n + 1, s =>
    let rw := e.model.updateKinematics { s.rw with q := e.noise s.draws s.rw.q }
    match e.ik rw s.walk.tLeft s.walk.tRight s.walk.tTrunk with
    | .error err => ({ s with rw := rw, draws := s.draws + 1 }, some err)
    | .ok q => solveLoop e n { s with rw := { rw with q := q }, draws := s.draws + 1 }

/-- `update`, dummy_walk.cpp 60-86. -/
noncomputable def DummySession.update (e : DummyEnv) (c : WalkConfig) (s : DummySession) (t : ℝ) : DummySession × Option Err :=
  match s.walk.update c t with
  | (w, some err) => ({ s with walk := w }, some err)
  | (w, none) => solveLoop e 4 { s with walk := w }

/-- `reset`, dummy_walk.cpp 24-43: the robot is reset once the points of `lift_spline` are added. -/
noncomputable def DummySession.reset (e : DummyEnv) (c : WalkConfig) (s : DummySession) (b : Bool) : DummySession × Option Err :=
  let rw := match (addPoints s.walk.lift.clear c.liftPoints).2 with
    | some _ => s.rw
    | none => e.resetRobot s.rw
  match s.walk.reset c b with
  | (w, some err) => ({ s with walk := w, rw := rw }, some err)
  | (w, none) => solveLoop e 4 { s with walk := w, rw := rw }

/-- `update_T_world_support`, dummy_walk.cpp 88-106: the robot is placed from the placements last computed. -/
noncomputable def DummySession.updateTWorldSupport (e : DummyEnv) (s : DummySession) (T : Affine) : DummySession :=
  let w := s.walk.updateTWorldSupport T
  { s with
    walk := w
    rw := e.model.updateKinematics (if w.supportLeft then e.model.setTWorldFrame s.rw e.leftFoot w.left
      else e.model.setTWorldFrame s.rw e.rightFoot w.right) }

/-- One public call. dummy_walk.h 14-40. -/
noncomputable def DummySession.step (e : DummyEnv) (c : WalkConfig) (s : DummySession) : DummyOp → DummySession × Option Err
  | .reset b => s.reset e c b
  | .nextStep dx dy dtheta => let r := s.walk.nextStep c dx dy dtheta; ({ s with walk := r.1 }, r.2)
  | .update t => s.update e c t
  | .updateTWorldSupport T => (s.updateTWorldSupport e T, none)

/-- `DummyWalk::DummyWalk`, dummy_walk.cpp 5-22: the last call is `reset()`, with the right foot on the ground. -/
noncomputable def DummySession.construct (e : DummyEnv) (c : WalkConfig) (rw : RW) : DummySession × Option Err :=
  DummySession.reset e c ⟨⟨false, .init false, .one, .one, .one, 0, 0, 0, .one, .one, .one, none⟩, rw, 0⟩ false

end Verif.Humanoid
