/-
Model of the construction and of the configuration of the dynamics solver.
  /repo/src/placo/dynamics/dynamics_solver.{h,cpp}
-/
import Verif.Dynamics.Solver

namespace Verif.Dynamics
open Finset Verif.Problem Verif.Kinematics

section
variable {K : Type} [Field K]

/-- The members before the loop of the constructor, dynamics_solver.h 394-434 and 507-525 and dynamics_solver.cpp 174-179. `qdd_safe` is
empty: its `operator[]` gives 0. -/
def DState.fresh (robot : RState K) : DState K :=
  { robot := robot, dt := 0, damping := 0, torqueCost := 1 / 1000, qddSafe := fun _ => 0 }

/-- `DynamicsSolver::DynamicsSolver`, dynamics_solver.cpp 174-185: one call of `set_qdd_safe` for each name of `joint_names()`
(robot_wrapper.cpp 755-764: without the universe and the floating base). -/
def DState.construct (r : DynRobot K) (robot : RState K) : DState K :=
  r.joints.foldl (fun s j => (setQddSafe r s j.name 1).1) (DState.fresh robot)

/-- The calls that configure the solver, and the members that its user writes (`setDt` … `setExtraForce`, dynamics_solver.h 394-434);
`move` is any change of the robot. -/
inductive ConfigOp (K : Type) where
  | enableJointLimits (b : Bool)
  | enableVelocityLimits (b : Bool)
  | enableVelocityVsTorque (b : Bool)
  | enableTorqueLimits (b : Bool)
  | maskFbase (b : Bool)
  | setQddSafe (joint : String) (qdd : K)
  | setTorqueLimit (joint : String) (limit : K)
  | setDt (dt : K)
  | setDamping (damping : K)
  | setTorqueCost (cost : K)
  | setGravityOnly (b : Bool)
  | setExtraForce (f : Option (Vec K))
  | move (robot : RState K)
  | solve (tasks : List (DTask K)) (contacts : List (Contact K)) (cons : List (DConstraint K)) (integrate : Bool)

/-- One call; a raised exception leaves the state reached. dynamics_solver.cpp 192-210, 387-563, 615-627. -/
def DState.config [LinearOrder K] (env : DEnv K) (r : DynRobot K) (s : DState K) : ConfigOp K → DState K
  | .enableJointLimits b => { s with jointLimits := b }
  | .enableVelocityLimits b => { s with velocityLimits := b }
  | .enableVelocityVsTorque b => { s with velocityVsTorque := b }
  | .enableTorqueLimits b => { s with torqueLimits := b }
  | .maskFbase b => { s with maskedFbase := b }
  | .setQddSafe joint qdd => (Dynamics.setQddSafe r s joint qdd).1
  | .setTorqueLimit joint limit => (Dynamics.setTorqueLimit r s joint limit).1
  | .setDt dt => { s with dt := dt }
  | .setDamping damping => { s with damping := damping }
  | .setTorqueCost cost => { s with torqueCost := cost }
  | .setGravityOnly b => { s with gravityOnly := b }
  | .setExtraForce f => { s with extraForce := f }
  | .move robot => { s with robot := robot }
  | .solve tasks contacts cons integrate => { s with robot := (Dynamics.solve env r tasks contacts cons integrate s).1 }

end
end Verif.Dynamics
