/-
Models of tasks of the kinematics solver that only use the joint layout.
  /repo/src/placo/kinematics/gear_task.cpp
  /repo/src/placo/kinematics/joints_task.cpp
  /repo/src/placo/kinematics/regularization_task.cpp
-/
import Mathlib.Analysis.Real.Sqrt
import Verif.StdMap
import Verif.Kinematics.Solver

namespace Verif.Kinematics
open Verif.Problem

section
variable {K : Type} [Field K]

/-! ## Gear task -/

/-- `GearTask::gears`, gear_task.h: target index to (source index to ratio).
Line 20 of kinematics/gear_task.h. -/
abbrev Gears (K : Type) := SMap Nat (SMap Nat K)

/-- `gears[target_id][source_id] = ratio` (creating the inner map if needed), gear_task.cpp 23. -/
def Gears.put (g : Gears K) (t s : Nat) (ratio : K) : Gears K :=
  SMap.set t (SMap.set s ratio ((SMap.find? g t).getD [])) g

/-- `GearTask::add_gear`, gear_task.cpp 18-24. -/
def addGear (r : Robot K) (g : Gears K) (target source : String) (ratio : K) : Gears K × Option Err :=
  match r.vJoint target, r.vJoint source with
  | .ok t, .ok s => (g.put t.idxV s.idxV ratio, none)
  | _, _ => (g, some .ub)

/-- `GearTask::set_gear`, gear_task.cpp 10-16. -/
def setGear (r : Robot K) (g : Gears K) (target source : String) (ratio : K) : Gears K × Option Err :=
  match r.vJoint target with
  | .ok t => addGear r (SMap.set t.idxV [] g) target source ratio
  | .error e => (g, some e)

/-- One row of `A`, gear_task.cpp 36-48: `-1` at the target, then the assignments of the loop. -/
def gearRow (target : Nat) (sources : SMap Nat K) : Nat → K :=
  sources.foldl (fun row p => fun j => if j = p.1 then p.2 else row j) (fun j => if j = target then -1 else 0)

/-- One entry of `b`, gear_task.cpp 37-49. The position of a joint is read at its velocity
offset plus one. -/
def gearB (q : Nat → K) (target : Nat) (sources : SMap Nat K) : K :=
  sources.foldl (fun b p => b - q (p.1 + 1) * p.2) (q (target + 1))

/-- `GearTask::update`, gear_task.cpp 26-53. -/
def gearUpdate (r : Robot K) (g : Gears K) (s : RState K) : Except Err (TaskMat K) :=
  .ok ⟨g.length, r.nv, fun k => gearRow (g.getD k (0, [])).1 (g.getD k (0, [])).2,
    fun k => gearB s.q (g.getD k (0, [])).1 (g.getD k (0, [])).2⟩

/-- Calls on a gear task. kinematics/gear_task.cpp 10-24. -/
inductive GearOp (K : Type) where
  | add (target source : String) (ratio : K)
  | set (target source : String) (ratio : K)

/-- One call, kinematics/gear_task.cpp 10-24. -/
def gearStep (r : Robot K) (g : Gears K) : GearOp K → Gears K
  | .add t s ρ => (addGear r g t s ρ).1
  | .set t s ρ => (setGear r g t s ρ).1

/-! ## Joints task -/

/-- `JointsTask::set_joint`, joints_task.cpp 10-13. -/
def setJointTarget (m : SMap String K) (joint : String) (target : K) : SMap String K := SMap.set joint target m

/-- One row of `JointsTask::update`, joints_task.cpp 33-34: the column of the `1` and the value of
`b`. `get_joint` is `q[idx_q]`. -/
def jointsRow (r : Robot K) (s : RState K) (p : String × K) : Except Err (Nat × K) := do
  let j ← r.vJoint p.1
  pure (j.idxV, p.2 - s.q j.idxQ)

/-- `JointsTask::update`, joints_task.cpp 25-39. -/
def jointsUpdate (r : Robot K) (m : SMap String K) (s : RState K) : Except Err (TaskMat K) := do
  let rows ← m.mapM (jointsRow r s)
  pure ⟨rows.length, r.nv, fun k j => if j = (rows.getD k (0, 0)).1 then 1 else 0, fun k => (rows.getD k (0, 0)).2⟩

end

/-! ## Regularization task -/

/-- Members of `RegularizationTask`, regularization_task.h 31-46. -/
structure RegTask where
  defaultWeight : ℝ := 1
  jointWeights : SMap String ℝ := []
  dirty : Bool := true
  W : Nat → Nat → ℝ := fun _ _ => 0

/-- `set_weight`, regularization_task.cpp 6-10. -/
def RegTask.setWeight (t : RegTask) (w : ℝ) : RegTask := { t with defaultWeight := w, dirty := true }

/-- `set_joint_weight`, regularization_task.cpp 12-16. -/
def RegTask.setJointWeight (t : RegTask) (joint : String) (w : ℝ) : RegTask :=
  { t with jointWeights := SMap.set joint w t.jointWeights, dirty := true }

/-- Body of the loop of regularization_task.cpp 30-38: `W(j + i, j + i) = sqrt(weight)`. -/
noncomputable def regOverride (j : Joint) (w : ℝ) (W : Nat → Nat → ℝ) : Nat → Nat → ℝ :=
  (List.range j.nV).foldl (fun W i => fun a b => if a = j.idxV + i ∧ b = j.idxV + i then Real.sqrt w else W a b) W

/-- The loop over the per-joint overrides, regularization_task.cpp 30-38. -/
noncomputable def regOverrides (r : Robot ℝ) : SMap String ℝ → (Nat → Nat → ℝ) → Except Err (Nat → Nat → ℝ)
  | [], W => .ok W
  | (name, w) :: m, W =>
    match r.vJoint name with
    | .error e => .error e
    | .ok j => regOverrides r m (regOverride j w W)

/-- `update`, regularization_task.cpp 18-47. -/
noncomputable def RegTask.update (r : Robot ℝ) (t : RegTask) : RegTask × Except Err (TaskMat ℝ) :=
  let out (t : RegTask) : RegTask × Except Err (TaskMat ℝ) :=
    if 6 ≤ r.nv then (t, .ok ⟨r.nv - 6, r.nv, fun i j => t.W (6 + i) j, fun _ => 0⟩) else (t, .error .ub)
  if t.dirty then
    match regOverrides r t.jointWeights (fun a b => if a = b then Real.sqrt t.defaultWeight else 0) with
    | .error e => (t, .error e)
    | .ok W => out { t with W := W, dirty := false }
  else out t

/-- Calls on a regularization task. regularization_task.cpp 6-47. -/
inductive RegOp where
  | setWeight (w : ℝ)
  | setJointWeight (joint : String) (w : ℝ)
  | update

/-- One call, regularization_task.cpp 6-47. -/
noncomputable def regStep (r : Robot ℝ) (t : RegTask) : RegOp → RegTask
  | .setWeight w => t.setWeight w
  | .setJointWeight j w => t.setJointWeight j w
  | .update => (t.update r).1

end Verif.Kinematics
