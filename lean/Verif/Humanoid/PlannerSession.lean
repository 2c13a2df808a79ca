/-
Model of the two footstep planners as objects: they keep a reference to the parameters, are configured by a call, and the naive one
copies the accessibility from the parameters when it is built. footsteps_planner.h, footsteps_planner_repetitive.{h,cpp},
footsteps_planner_naive.{h,cpp}.
-/
import Verif.Humanoid.Footsteps

namespace Verif.Humanoid
open Verif.Tools Verif.Robot

/-! ## Repetitive planner -/

/-- The members written by `configure`, footsteps_planner_repetitive.h 32-37. -/
structure RepConfig where
  dx : ℝ
  dy : ℝ
  dtheta : ℝ
  nbSteps : Int

/-- A `FootstepsPlannerRepetitive` and the parameters it refers to. footsteps_planner.h 137-140, footsteps_planner_repetitive.h 31-37. The four members
have no initial value: `none` until the first call to `configure`. -/
structure RepPlanner where
  params : Params
  clipping : Clipping
  config : Option RepConfig

/-- The constructor, footsteps_planner_repetitive.cpp 6-8, footsteps_planner.cpp 229-231, footsteps_planner.h 140. -/
def RepPlanner.make (p : Params) : RepPlanner := ⟨p, .conic, none⟩

/-- What can be done with a planner: the owner of the parameters changes them, `footstep_clipping` is assigned, `configure` is called,
footsteps are planned. footsteps_planner.h 137-140, footsteps_planner_repetitive.cpp 15-39. -/
inductive RepOp where
  | setParams (p : Params)
  | setClipping (c : Clipping)
  | configure (c : RepConfig)
  | plan (flying : Side) (T_left T_right : Affine)

/-- `plan`, footsteps_planner.cpp 352-371, footsteps_planner_repetitive.cpp 15-32: `nb_steps` is read in any case. -/
noncomputable def RepPlanner.plan (s : RepPlanner) (flying : Side) (T_left T_right : Affine) : Except Err (List Footstep) :=
  match s.config with
  | none => .error .ub
  | some c => s.params.planRepetitive s.clipping c.dx c.dy c.dtheta c.nbSteps flying T_left T_right

/-- One operation; `plan` writes no member. footsteps_planner_repetitive.cpp 15-39. -/
def RepPlanner.step (s : RepPlanner) : RepOp → RepPlanner
  | .setParams p => { s with params := p }
  | .setClipping c => { s with clipping := c }
  | .configure c => { s with config := some c }
  | .plan _ _ _ => s

/-! ## Naive planner -/

/-- `accessibility_length`, `accessibility_width`, `accessibility_yaw`. footsteps_planner_naive.h 37-39. -/
structure Access where
  length : ℝ
  width : ℝ
  yaw : ℝ

/-- What the constructor copies from the parameters. footsteps_planner_naive.cpp 18-23. -/
def Params.access (p : Params) : Access := ⟨p.maxDxForward, p.maxDy, p.maxDtheta⟩

/-- The body of the loop of `FootstepsPlannerNaive::plan_impl` with the accessibility that the object holds, footsteps_planner_naive.cpp 46-141.
(`Naive.step` is this one with the accessibility of the current parameters.) -/
noncomputable def Naive.stepWith (c : Naive) (a : Access) (support : Side) (T_world_support : Affine) : Affine × Bool :=
  let rel := T_world_support.inv.mul (c.targetOf support)
  let T_support_target : Affine := ⟨rel.linear, ![rel.translation 0, rel.translation 1, 0]⟩
  let ex := T_support_target.translation 0
  let ey := T_support_target.translation 1 - c.idleY support
  let ez := T_support_target.translation 2
  let r := rescaleAxis ey a.width (rescaleAxis ex a.length (1, true))
  let dist := norm3 ![ex, ey, ez]
  let center : V3 := fun i => c.targetLeft.translation i * (1 - 1 / 2) + c.targetRight.translation i * (1 / 2)
  let toCenter : V3 := T_world_support.inv.linear.mulVec center + T_world_support.inv.translation
    - ![0, c.idleY support / 2, 0]
  let yaw := c.errorYaw dist toCenter T_support_target.linear
  let y := clampYaw yaw a.yaw r.2
  let s := c.params.ellipsoidClip ⟨ex * r.1, ey * r.1, y.1⟩
  let new_step : Affine := ⟨rotZ s.z, ![s.x, c.idleY support + s.y, 0]⟩
  (T_world_support.mul new_step, y.2)

/-- One turn of the loop, footsteps_planner_naive.cpp 45-156. -/
noncomputable def Naive.turnWith (c : Naive) (a : Access) (s : NaiveSt) : NaiveSt × Footstep :=
  match s.support with
  | .left =>
    let r := c.stepWith a .left s.left
    ({ s with rightArrived := r.2, right := r.1, support := .right }, c.params.createFootstep .right r.1)
  | .right =>
    let r := c.stepWith a .right s.right
    ({ s with leftArrived := r.2, left := r.1, support := .left }, c.params.createFootstep .left r.1)

/-- The loop, footsteps_planner_naive.cpp 45-156, for at most `n` more turns. -/
noncomputable def Naive.loopWith (c : Naive) (a : Access) : Nat → NaiveSt → List Footstep
  | 0, _ => []
  | n + 1, s =>
    if s.leftArrived && s.rightArrived then []
    else (c.turnWith a s).2 :: c.loopWith a n (c.turnWith a s).1

/-- `plan` with the naive planner. footsteps_planner.cpp 352-371. -/
noncomputable def Naive.planWith (c : Naive) (a : Access) (flying : Side) (T_left T_right : Affine) : List Footstep :=
  c.params.initialFootsteps flying T_left T_right ++
    c.loopWith a c.maxSteps.toNat { left := T_left, right := T_right, support := flying.other }

/-- A `FootstepsPlannerNaive` and the parameters it refers to. footsteps_planner_naive.h 29-42. The two targets are uninitialised until
the first call to `configure`; `max_steps` and `place_threshold` cannot be changed. -/
structure NaivePlanner where
  params : Params
  access : Access
  targets : Option (Affine × Affine)

/-- The constructor, footsteps_planner_naive.cpp 18-23. -/
def NaivePlanner.make (p : Params) : NaivePlanner := ⟨p, p.access, none⟩

/-- What can be done with a planner (`footstep_clipping` is not read by this one). footsteps_planner.h 137, footsteps_planner_naive.cpp 30-163. -/
inductive NaiveOp where
  | setParams (p : Params)
  | configure (left right : Affine)
  | plan (flying : Side) (T_left T_right : Affine)

/-- `plan`: `T_world_target` is computed first, from the two targets. footsteps_planner_naive.cpp 30-157. -/
noncomputable def NaivePlanner.plan (s : NaivePlanner) (flying : Side) (T_left T_right : Affine) : Except Err (List Footstep) :=
  match s.targets with
  | none => .error .ub
  | some (l, r) => .ok (Naive.planWith { params := s.params, targetLeft := l, targetRight := r } s.access flying T_left T_right)

/-- One operation; `plan` writes no member. footsteps_planner_naive.cpp 30-163. -/
def NaivePlanner.step (s : NaivePlanner) : NaiveOp → NaivePlanner
  | .setParams p => { s with params := p }
  | .configure l r => { s with targets := some (l, r) }
  | .plan _ _ _ => s

end Verif.Humanoid
