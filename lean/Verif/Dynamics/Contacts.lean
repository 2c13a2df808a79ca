/-
Model of the contacts of the dynamics solver.
  /repo/src/placo/dynamics/contacts.{h,cpp}
-/
import Verif.Kinematics.Solver

namespace Verif.Dynamics
open Finset Verif.Problem Verif.Kinematics

/-- The classes deriving from `Contact` (contacts.h), with their own members. Jacobians and task
matrices (computed by pinocchio or by `Task::update`, which `solve` calls before the contacts are
updated) are functions of the robot state. contacts.h 91-242. -/
inductive ContactKind (K : Type) where
  /-- `PointContact`: `position_task->A`, `R_world_surface`, `unilateral`. -/
  | point (posA : RState K → Mat K) (R : Nat → Nat → K) (unilateral : Bool)
  /-- `Contact6D`: the `LOCAL` frame Jacobian, `unilateral`, `length`, `width`. -/
  | planar (jac : RState K → Nat → Nat → K) (unilateral : Bool) (length width : K)
  /-- `LineContact`: the frame Jacobian, `orientation_task->A`, `R_world_surface`, `unilateral`, `length`. -/
  | line (jac : RState K → Nat → Nat → K) (oriA : RState K → Mat K) (R : Nat → Nat → K) (unilateral : Bool)
      (length : K)
  /-- `ExternalWrenchContact`: the frame Jacobian and `w_ext`. -/
  | external (jac : RState K → Nat → Nat → K) (w : Vec K)
  /-- `PuppetContact`. -/
  | puppet
  /-- `TaskContact`: `task->A`. -/
  | task (A : RState K → Mat K)

/-- `Contact`, contacts.h 20-85, with the members set by the user. -/
structure Contact (K : Type) where
  kind : ContactKind K
  active : Bool := true
  mu : K
  weightForces : K
  weightTangentials : K
  weightMoments : K

section
variable {K : Type} [Field K]

/-- The various `update()`: the contact Jacobian. contacts.cpp 48-57 (point), 96-103 (planar),
162-175 (line), 235-238 (external), 249-253 (puppet), 260-263 (task). -/
def Contact.update (N : Nat) (robot : RState K) (c : Contact K) : Except Err (Mat K) :=
  match c.kind with
  | .point posA _ _ => if (posA robot).rows ≠ 3 then .error .logicError else .ok (posA robot)
  | .planar jac _ _ _ => .ok ⟨6, N, jac robot⟩
  | .line jac oriA _ _ _ =>
    if (oriA robot).rows ≠ 2 then .error .logicError
    else if (oriA robot).cols ≠ N then .error .ub
    else .ok ⟨5, N, fun i j => if i < 3 then jac robot i j else (oriA robot).m (i - 3) j⟩
  | .external jac _ => .ok ⟨6, N, jac robot⟩
  | .puppet => .ok ⟨N, N, fun i j => if i = j then 1 else 0⟩
  | .task A => .ok (A robot)

/-- `R_world_surface.transpose()` as a 3 × 3 matrix. contacts.cpp 64, 84, 187, 209, 214. -/
def rotT (R : Nat → Nat → K) : Mat K := ⟨3, 3, fun i j => R j i⟩

/-- `-s * z <= u` and `u <= s * z`: the pairs of constraints of contacts.cpp 70-74, 120-131, 195-203. -/
def bandConstraints (s : K) (u z : Expr K) : Except Err (List (Constr K)) := do
  let c1 ← u.le (z.smul s)
  let c2 ← (z.smul (-s)).le u
  pure [c1, c2]

/-- `problem.add_constraint(e.slice(start, rows) == 0).configure(Soft, w)` under `if (w > 0)`.
contacts.cpp 78-86, 135-146, 207-221. -/
def softZero [LinearOrder K] (w : K) (e : Except Err (Expr K)) : Except Err (List (Constr K)) :=
  if 0 < w then do
    let e ← e
    let c ← e.eqDouble 0
    pure [c.configureP .soft w]
  else pure []

/-- `if (b) { ... }` around the addition of constraints. contacts.cpp 61, 107, 179. -/
def addIf (b : Bool) (l : Except Err (List (Constr K))) : Except Err (List (Constr K)) := if b then l else .ok []

/-- `PointContact::add_constraints`, contacts.cpp 61-75. -/
def pointUnilateral (mu : K) (R : Nat → Nat → K) (f : Expr K) : Except Err (List (Constr K)) := do
  let fs ← Expr.matMul (rotT R) f
  let z ← fs.slice 2 1
  let x ← fs.slice 0 1
  let y ← fs.slice 1 1
  let c0 ← z.geDouble 0
  let bx ← bandConstraints mu x z
  let by' ← bandConstraints mu y z
  pure (c0 :: (bx ++ by'))

/-- `PointContact::add_constraints`, contacts.cpp 59-87. -/
def pointConstraints [LinearOrder K] (c : Contact K) (R : Nat → Nat → K) (unilateral : Bool) (f : Expr K) :
    Except Err (List (Constr K)) := do
  let uni ← addIf unilateral (pointUnilateral c.mu R f)
  let o1 ← softZero c.weightForces (f.slice 0 3)
  let o2 ← softZero c.weightTangentials (Expr.matMul (rotT R) f >>= fun fs => fs.slice 0 2)
  pure (uni ++ o1 ++ o2)

/-- `Contact6D::add_constraints`, contacts.cpp 107-132. -/
def planarUnilateral [LinearOrder K] (mu length width : K) (f : Expr K) : Except Err (List (Constr K)) :=
  if length = 0 ∨ width = 0 then .error .logicError
  else do
    let z ← f.slice 2 1
    let x ← f.slice 0 1
    let y ← f.slice 1 1
    let mx ← f.slice 3 1
    let my ← f.slice 4 1
    let c0 ← z.geDouble 0
    let bmy ← bandConstraints (length / 2) my z
    let bmx ← bandConstraints (width / 2) mx z
    let bx ← bandConstraints mu x z
    let by' ← bandConstraints mu y z
    pure (c0 :: (bmy ++ bmx ++ bx ++ by'))

/-- `Contact6D::add_constraints`, contacts.cpp 105-147. The tangential cost is on
`f.slice(F_Y, 2)` (sic). -/
def planarConstraints [LinearOrder K] (c : Contact K) (unilateral : Bool) (length width : K) (f : Expr K) :
    Except Err (List (Constr K)) := do
  let uni ← addIf unilateral (planarUnilateral c.mu length width f)
  let o1 ← softZero c.weightForces (f.slice 0 3)
  let o2 ← softZero c.weightTangentials (f.slice 1 2)
  let o3 ← softZero c.weightMoments (f.slice 3 3)
  pure (uni ++ o1 ++ o2 ++ o3)

/-- `LineContact::add_constraints`, contacts.cpp 179-204. -/
def lineUnilateral [LinearOrder K] (mu : K) (R : Nat → Nat → K) (length : K) (f : Expr K) :
    Except Err (List (Constr K)) :=
  if length = 0 then .error .logicError
  else do
    let fs ← Expr.matMul (rotT R) f
    let z ← fs.slice 2 1
    let c0 ← z.geDouble 0
    let my ← fs.slice 4 1
    let bmy ← bandConstraints (length / 2) my z
    let x ← fs.slice 0 1
    let bx ← bandConstraints mu x z
    let y ← fs.slice 1 1
    let by' ← bandConstraints mu y z
    pure (c0 :: (bmy ++ bx ++ by'))

/-- `LineContact::add_constraints`, contacts.cpp 177-222: the 3 × 3 rotation is applied to the whole
`f` (sic). -/
def lineConstraints [LinearOrder K] (c : Contact K) (R : Nat → Nat → K) (unilateral : Bool) (length : K) (f : Expr K) :
    Except Err (List (Constr K)) := do
  let uni ← addIf unilateral (lineUnilateral c.mu R length f)
  let o1 ← softZero c.weightForces (Expr.matMul (rotT R) f >>= fun fs => fs.slice 0 3)
  let o2 ← softZero c.weightTangentials (Expr.matMul (rotT R) f >>= fun fs => fs.slice 1 2)
  let o3 ← softZero c.weightMoments (f.slice 3 2)
  pure (uni ++ o1 ++ o2 ++ o3)

/-- The various `add_constraints(problem)`, on the expression `f` of the contact force:
contacts.cpp 32-39 (default), 59-87, 105-147, 177-222, 240-243. -/
def Contact.constraints [LinearOrder K] (c : Contact K) (f : Expr K) : Except Err (List (Constr K)) :=
  match c.kind with
  | .point _ R u => pointConstraints c R u f
  | .planar _ u l w => planarConstraints c u l w f
  | .line _ _ R u l => lineConstraints c R u l f
  | .external _ w => do
    let k ← f.eqVec w
    pure [k]
  | .puppet => softZero c.weightForces (.ok f)
  | .task _ => softZero c.weightForces (.ok f)

/-- `Contact6D::zmp`, contacts.cpp 149-152. -/
def zmpPlanar (w : Nat → K) : Fin 3 → K := ![-(w 4) / w 2, w 3 / w 2, 0]

/-- `LineContact::zmp`, contacts.cpp 224-227: `M_Y` is 4, but the wrench of a line contact is
`(fx, fy, fz, my, mz)`. -/
def zmpLine (w : Nat → K) : Fin 3 → K := ![-(w 4) / w 2, 0, 0]

end
end Verif.Dynamics
