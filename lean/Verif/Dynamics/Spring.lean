/-
The calls that change the targets of a torque task.
/repo/src/placo/dynamics/torque_task.cpp
-/
import Verif.Dynamics.Tasks

namespace Verif.Dynamics
open Finset Verif.Problem Verif.Kinematics

section
variable {K : Type}

/-- A call on a torque task: `set_torque` or `reset_torque`. torque_task.h 41-53. -/
inductive TorqueCall (K : Type) where
  | set (joint : String) (torque kp kd : K)
  | reset (joint : String)

/-- `TorqueTask::set_torque`, torque_task.cpp 11-16: the three assignments create or overwrite the entry of the joint. -/
def setTorque (m : SMap String (TargetTau K)) (joint : String) (torque kp kd : K) : SMap String (TargetTau K) :=
  SMap.set joint ⟨torque, kp, kd⟩ m

/-- `TorqueTask::reset_torque`, torque_task.cpp 18-21. -/
def resetTorque (m : SMap String (TargetTau K)) (joint : String) : SMap String (TargetTau K) := SMap.erase m joint

/-- One call. torque_task.cpp 11-21. -/
def TorqueCall.run (m : SMap String (TargetTau K)) : TorqueCall K → SMap String (TargetTau K)
  | .set joint torque kp kd => setTorque m joint torque kp kd
  | .reset joint => resetTorque m joint

/-- The targets of a new task (torque_task.cpp 6-9, torque_task.h 40) after a sequence of calls. -/
def torquesAfter (calls : List (TorqueCall K)) : SMap String (TargetTau K) := calls.foldl TorqueCall.run []

end

end Verif.Dynamics
