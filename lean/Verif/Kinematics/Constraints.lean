/-
Model of the constraints of the kinematics solver.
  /repo/src/placo/kinematics/com_polygon_constraint.cpp
  /repo/src/placo/kinematics/distance_constraint.cpp
  /repo/src/placo/kinematics/distance_task.cpp
  /repo/src/placo/kinematics/joint_space_half_spaces_constraint.cpp
  /repo/src/placo/kinematics/yaw_constraint.cpp
  /repo/src/placo/kinematics/cone_constraint.cpp
  /repo/src/placo/kinematics/avoid_self_collisions_constraint.cpp

The positions, rotations and Jacobians computed by pinocchio are parameters (functions of the robot
state).
-/
import Verif.Kinematics.Solver
import Verif.Problem.Polygon
import Verif.Tools.Utils

namespace Verif.Kinematics
open Finset Verif.Problem Verif.Tools

/-- Three rows of a Jacobian (`solver->N` columns).
pinocchio, e.g. kinematics/com_polygon_constraint.cpp 12-39. -/
abbrev J3 := Fin 3 → Nat → ℝ

/-- `.configure(priority == Hard ? Hard : Soft, weight)`, e.g. com_polygon_constraint.cpp 37-39. -/
def configured {K : Type} [Field K] (p : Tools.Priority) (w : K) (c : Constr K) : Constr K :=
  c.configureP (if p = .hard then .hard else .soft) w

/-- Parameters of a `CoMPolygonConstraint` (com_polygon_constraint.h).
Lines 22-38 of com_polygon_constraint.h. -/
structure CoMPolygon where
  polygon : List P2
  margin : ℝ
  dcm : Bool := false
  omega : ℝ := 0
  priority : Tools.Priority
  weight : ℝ

/-- `CoMPolygonConstraint::add_constraint`, com_polygon_constraint.cpp 12-39. `com`, `J` are
`robot.com_world()`, `robot.com_jacobian()`; `nv` is `solver->N`. -/
noncomputable def CoMPolygon.toConstraint (p : CoMPolygon) (nv : Nat) (com : RState ℝ → V3) (J : RState ℝ → J3) :
    KConstraint ℝ where
  add s := do
    let base : Nat → Nat → ℝ := fun i j => if i = 0 then J s.robot 0 j else J s.robot 1 j
    if p.dcm ∧ (s.dt = 0 ∨ p.omega = 0) then throw .runtimeError
    let A := if p.dcm then fun i j => base i j * (1 + 1 / (s.dt * p.omega)) else base
    let e : Expr ℝ := ⟨2, nv, A, fun i => if i = 0 then com s.robot 0 else com s.robot 1⟩
    let c ← inPolygonXY e p.polygon p.margin
    pure [configured p.priority p.weight c]

/-- The row `direction.transpose() * (J_b - J_a).block(0, 0, 3, N)` with
`direction = ab_world.normalized()`, distance_constraint.cpp 18-25 and distance_task.cpp 19-26. -/
noncomputable def distanceRow (ab : V3) (Ja Jb : J3) (j : Nat) : ℝ :=
  dot3 (normalize3 ab) (fun k => Jb k j - Ja k j)

/-- Parameters of a `DistanceConstraint` (distance_constraint.h).
Lines 29-39 of distance_constraint.h. -/
structure DistanceC where
  distanceMax : ℝ
  priority : Tools.Priority
  weight : ℝ

/-- `DistanceConstraint::add_constraint`, distance_constraint.cpp 13-39. `pa`, `pb` are the translations
of the frames, `Ja`, `Jb` the linear rows of their local-world-aligned Jacobians. -/
noncomputable def DistanceC.toConstraint (p : DistanceC) (nv : Nat) (pa pb : RState ℝ → V3) (Ja Jb : RState ℝ → J3) :
    KConstraint ℝ where
  add s := do
    let ab : V3 := fun k => pb s.robot k - pa s.robot k
    let e : Expr ℝ := ⟨1, nv, fun _ j => distanceRow ab (Ja s.robot) (Jb s.robot) j, fun _ => norm3 ab⟩
    let c ← e.leDouble p.distanceMax
    pure [configured p.priority p.weight c]

/-- `DistanceTask::update`, distance_task.cpp 13-27. -/
noncomputable def distanceTask (distance : ℝ) (nv : Nat) (pa pb : RState ℝ → V3) (Ja Jb : RState ℝ → J3) (s : RState ℝ) :
    Except Err (TaskMat ℝ) :=
  let ab : V3 := fun k => pb s k - pa s k
  .ok ⟨1, nv, fun _ j => distanceRow ab (Ja s) (Jb s) j, fun _ => distance - norm3 ab⟩

/-- Parameters of a `JointSpaceHalfSpacesConstraint`: the matrix `A` and the vector `b`.
joint_space_half_spaces_constraint.h 23-28. -/
structure HalfSpaces (K : Type) where
  A : Mat K
  b : Vec K
  priority : Tools.Priority
  weight : K

/-- `JointSpaceHalfSpacesConstraint::add_constraint`, joint_space_half_spaces_constraint.cpp 11-41. The
block operations need `7 <= nq`, `6 <= N` and as many columns after the floating base in `A` as in the
expression; otherwise they are undefined (assertion or out-of-range write). -/
def HalfSpaces.toConstraint {K : Type} [Field K] (p : HalfSpaces K) (r : Robot K) : KConstraint K where
  add s := do
    if p.A.rows ≠ p.b.size then throw .runtimeError
    if p.A.cols ≠ r.nq then throw .runtimeError
    if ¬ (7 ≤ p.A.cols ∧ 6 ≤ r.nv ∧ p.A.cols - 7 = r.nv - 6) then throw .ub
    let e : Expr K := ⟨p.A.rows, r.nv, fun i j => if 6 ≤ j then p.A.m i (7 + (j - 6)) else 0,
      fun i => ∑ k ∈ range (r.nv - 6), p.A.m i (7 + k) * s.robot.q (7 + k)⟩
    let c ← e.leVec p.b
    pure [configured p.priority p.weight c]

/-- `J_relative` / `J_cone`: angular velocity of `b` relative to `a` expressed in `a`,
yaw_constraint.cpp 18-21, cone_constraint.cpp 21-24. `Ja`, `Jb` are the angular rows of the local
Jacobians. -/
noncomputable def relativeJac (Rab : M3) (Ja Jb : J3) : J3 :=
  fun k j => Rab.mulVec (fun l => Jb l j) k - Ja k j

/-- Parameters of a `YawConstraint` (yaw_constraint.h). Lines 28-38 of yaw_constraint.h. -/
structure YawC where
  angleMax : ℝ
  priority : Tools.Priority
  weight : ℝ

/-- `yaw_axis`, yaw_constraint.cpp 25-31, from B's x axis in A. -/
noncomputable def yawAxis (x : V3) : V3 :=
  normalize3 (cross3 x (normalize3 (cross3 ![0, 0, 1] x)))

/-- `YawConstraint::add_constraint`, yaw_constraint.cpp 13-50. -/
noncomputable def YawC.toConstraint (p : YawC) (nv : Nat) (Rab : RState ℝ → M3) (Ja Jb : RState ℝ → J3) : KConstraint ℝ where
  add s := do
    let J := relativeJac (Rab s.robot) (Ja s.robot) (Jb s.robot)
    let x : V3 := fun k => Rab s.robot k 0
    let alpha := atan2 (x 1) (x 0)
    let row : Nat → ℝ := fun j => dot3 (yawAxis x) (fun k => J k j)
    let e : Expr ℝ := ⟨2, nv, fun i j => if i = 0 then row j else -row j, fun i => if i = 0 then alpha else -alpha⟩
    let c ← e.leDouble p.angleMax
    pure [configured p.priority p.weight c]

/-- Parameters of a `ConeConstraint` (cone_constraint.h). Lines 29-50 of cone_constraint.h. -/
structure ConeC where
  angleMax : ℝ
  N : Nat := 8
  range : ℝ := 1 / 4
  priority : Tools.Priority
  weight : ℝ

/-- `slice_alpha`, cone_constraint.cpp 33-38. -/
noncomputable def ConeC.sliceAlpha (p : ConeC) (axis : V3) (k : Nat) : ℝ :=
  atan2 (axis 1) (axis 0) + (k * 2 * p.range / p.N) - p.range

/-- `ConeConstraint::add_constraint`, cone_constraint.cpp 13-57. `T_a_b.rotation()` is taken to be the
linear part. -/
noncomputable def ConeC.toConstraint (p : ConeC) (nv : Nat) (Rab : RState ℝ → M3) (Ja Jb : RState ℝ → J3) : KConstraint ℝ where
  add s := do
    let J := relativeJac (Rab s.robot) (Ja s.robot) (Jb s.robot)
    let axis : V3 := (Rab s.robot).mulVec ![0, 0, 1]
    let slice : Nat → M3 := fun k => rotZ (p.sliceAlpha axis k)
    let axisSlice : Nat → V3 := fun k => (slice k).transpose.mulVec axis
    let e : Expr ℝ := ⟨p.N, nv, fun k j => dot3 (fun l => slice k l 1) (fun l => J l j),
      fun k => atan2 (axisSlice k 0) (axisSlice k 2)⟩
    let c ← e.leDouble p.angleMax
    pure [configured p.priority p.weight c]

/-- `RobotWrapper::Distance`, with the linear rows of the Jacobians of the two points in the world
(`X_A_world * joint_jacobian(parentA)`, kinematics/avoid_self_collisions_constraint.cpp 45-49). -/
structure CollisionPair where
  pointA : V3
  pointB : V3
  minDistance : ℝ
  JA : J3
  JB : J3

/-- Parameters of an `AvoidSelfCollisionsConstraint`.
kinematics/avoid_self_collisions_constraint.h 15-20. -/
structure SelfCollisions where
  margin : ℝ
  trigger : ℝ
  priority : Tools.Priority
  weight : ℝ

/-- The normal used for a pair, kinematics/avoid_self_collisions_constraint.cpp 36-43. -/
noncomputable def CollisionPair.normal (d : CollisionPair) : V3 :=
  let n := normalize3 (fun k => d.pointB k - d.pointA k)
  if d.minDistance < 0 then fun k => -n k else n

/-- `AvoidSelfCollisionsConstraint::add_constraint`, avoid_self_collisions_constraint.cpp 6-59. -/
noncomputable def SelfCollisions.toConstraint (p : SelfCollisions) (nv : Nat) (distances : RState ℝ → List CollisionPair) :
    KConstraint ℝ where
  add s := do
    let near := (distances s.robot).filter fun d => d.minDistance < p.trigger
    if near.length = 0 then return []
    let e : Expr ℝ := ⟨near.length, nv,
      fun i j => (near[i]?.map fun d => dot3 d.normal (fun k => d.JB k j - d.JA k j)).getD 0,
      fun i => (near[i]?.map fun d => d.minDistance - p.margin).getD 0⟩
    let c ← e.geDouble 0
    pure [c.configureP (if p.priority = .soft then .soft else .hard) p.weight]

end Verif.Kinematics
