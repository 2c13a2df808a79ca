/-
Model of `placo::humanoid::WalkPatternGenerator`: planned trajectories and their queries, planning of the CoM and of
the feet, replanning.
  /repo/src/placo/humanoid/walk_pattern_generator.{h,cpp}
  /repo/src/placo/humanoid/humanoid_parameters.cpp 8-36

Over the reals. External: the QP solver and the QR factorisation of `Problem::solve` (`qr`, `oracle`), boost's convex
hull and Eigen's slerp. The caches of the splines and of the support polygons do not change any answer (C31, C76): their
updates by reads are not kept.
-/
import Verif.Humanoid.Footsteps
import Verif.Humanoid.Lipm
import Verif.Humanoid.Swing
import Verif.Problem.Polygon

namespace Verif.Humanoid
open Verif.Problem Verif.Tools Verif.Robot

/-! ## Parameters -/

/-- The other fields of `HumanoidParameters` used by the generator, humanoid_parameters.h 70-160. -/
structure WpgParams extends Params where
  zmpMargin : ℝ := 25 / 1000
  walkFootHeight : ℝ := 5 / 100
  walkFootRiseRatio : ℝ := 2 / 10
  walkComHeight : ℝ := 35 / 100
  walkTrunkPitch : ℝ := 0
  footZmpTargetX : ℝ := 0
  footZmpTargetY : ℝ := 0
  zmpReferenceWeight : ℝ := 1 / 10

/-- `std::round`: to the nearest integer, halfway cases away from zero (values that do not fit an `int` are not
modelled). libstdc++, used in humanoid_parameters.cpp 13-21. -/
noncomputable def stdRound (x : ℝ) : Int := if 0 ≤ x then ⌊x + 1 / 2⌋ else ⌈x - 1 / 2⌉

/-- `dt`, humanoid_parameters.cpp 8-11. -/
noncomputable def Params.dt (p : Params) : ℝ := p.singleSupportDuration / p.singleSupportTimesteps

/-- `double_support_timesteps`, humanoid_parameters.cpp 13-16. -/
noncomputable def Params.doubleSupportTimesteps (p : Params) : Int :=
  stdRound (p.doubleSupportRatio * p.singleSupportTimesteps)

/-- `startend_double_support_timesteps`, humanoid_parameters.cpp 18-21. -/
noncomputable def Params.startendDoubleSupportTimesteps (p : Params) : Int :=
  stdRound (p.startendDoubleSupportRatio * p.singleSupportTimesteps)

/-- `double_support_duration`, humanoid_parameters.cpp 23-26. -/
noncomputable def Params.doubleSupportDuration (p : Params) : ℝ := p.doubleSupportTimesteps * p.dt

/-- `startend_double_support_duration`, humanoid_parameters.cpp 28-31. -/
noncomputable def Params.startendDoubleSupportDuration (p : Params) : ℝ := p.startendDoubleSupportTimesteps * p.dt

/-- `has_double_support`, humanoid_parameters.cpp 33-36. -/
noncomputable def Params.hasDoubleSupport (p : Params) : Bool := decide (0 < p.doubleSupportTimesteps)

/-- `support_default_timesteps`, walk_pattern_generator.cpp 645-656. -/
noncomputable def Params.supportTimesteps (p : Params) (s : Support) : Int :=
  if s.isBoth then
    if s.start || s.isEnd then p.startendDoubleSupportTimesteps else p.doubleSupportTimesteps
  else p.singleSupportTimesteps

/-- `support_default_duration`, walk_pattern_generator.cpp 658-669. -/
noncomputable def Params.supportDuration (p : Params) (s : Support) : ℝ :=
  if s.isBoth then
    if s.start || s.isEnd then p.startendDoubleSupportDuration else p.doubleSupportDuration
  else p.singleSupportDuration

/-! ## Trajectories -/

/-- `WalkPatternGenerator::TrajectoryPart`, walk_pattern_generator.h 23-35. -/
structure Part where
  tStart : ℝ
  tEnd : ℝ
  support : Support
  com : LTraj
  swing : CubicSwing ℝ

/-- `WalkPatternGenerator::Trajectory`, walk_pattern_generator.h 37-150. -/
structure Traj where
  tStart : ℝ
  tEnd : ℝ
  parts : List Part
  comTargetZ : ℝ
  trunkPitch : ℝ
  trunkRoll : ℝ
  replanSuccess : Bool := true
  leftYaw : SplineSt ℝ := SplineSt.init true
  rightYaw : SplineSt ℝ := SplineSt.init true
  trunkYaw : SplineSt ℝ := SplineSt.init true
  T : Affine := Affine.one

open Classical in
/-- The loop of `_findPart`, walk_pattern_generator.cpp 62-84. The first argument bounds the number of iterations: `.ub` stands for a loop that
goes on (and for an access out of the vector). -/
noncomputable def searchLoop (parts : List Part) (t : ℝ) : Nat → Nat → Nat → Except Err Nat
  | 0, _, _ => .error .ub
  | fuel + 1, low, high =>
    if low = high then .ok low
    else
      let mid := (low + high) / 2
      match parts[mid]? with
      | none => .error .ub
      | some part =>
        if t < part.tStart then searchLoop parts t fuel low mid
        else if part.tEnd < t then searchLoop parts t fuel (mid + 1) high
        else .ok mid

/-- `_findPart`, walk_pattern_generator.cpp 51-91: the index of the part returned. -/
noncomputable def findIndex (parts : List Part) (t : ℝ) : Except Err Nat :=
  if parts.length = 0 then .error .runtimeError
  else searchLoop parts t parts.length 0 (parts.length - 1)

/-- `_findPart`: the part returned. walk_pattern_generator.cpp 51-91. -/
noncomputable def findPart (parts : List Part) (t : ℝ) : Except Err Part := do
  let i ← findIndex parts t
  at' parts i

/-- `_buildFrame`, walk_pattern_generator.cpp 41-49. -/
noncomputable def buildFrame (position : V3) (orientation : ℝ) : Affine := ⟨rotZ orientation, position⟩

/-- `T * p`. Eigen. -/
def _root_.Verif.Tools.Affine.apply (T : Affine) (p : V3) : V3 := T.linear.mulVec p + T.translation

/-- `Support::is_both() ? … : side() == other_side(side)`, the test of `is_flying`, walk_pattern_generator.cpp 93-97. -/
noncomputable def Part.isFlying (p : Part) (side : Side) : Except Err Bool :=
  if p.support.isBoth then .ok false
  else do
    let s ← p.support.side
    .ok (decide (s = side.other))

/-- `is_flying`, walk_pattern_generator.cpp 93-97. -/
noncomputable def Traj.isFlying (tr : Traj) (side : Side) (t : ℝ) : Except Err Bool := do
  let part ← findPart tr.parts t
  part.isFlying side

/-- `foot_yaw`, walk_pattern_generator.cpp 244-254. -/
def Traj.footYaw (tr : Traj) : Side → SplineSt ℝ
  | .left => tr.leftYaw
  | .right => tr.rightYaw

/-- The position given to `_buildFrame` in `get_T_world_left`/`get_T_world_right`.
walk_pattern_generator.cpp 99-117. -/
noncomputable def Part.footPosition (p : Part) (side : Side) (t : ℝ) : Except Err V3 := do
  if ← p.isFlying side then p.swing.read t .value
  else do
    let f ← p.support.footstepFrame side
    .ok f.translation

/-- `get_T_world_foot`, walk_pattern_generator.cpp 99-122. -/
noncomputable def Traj.getTWorldFoot (tr : Traj) (side : Side) (t : ℝ) : Except Err Affine := do
  let part ← findPart tr.parts t
  let pos ← part.footPosition side t
  let yaw ← ((tr.footYaw side).interpolation t .value).2
  .ok (tr.T.mul (buildFrame pos yaw))

/-- `get_v_world_foot`, walk_pattern_generator.cpp 124-147: the side of the support is asked without testing for a double support. -/
noncomputable def Traj.getVWorldFoot (tr : Traj) (side : Side) (t : ℝ) : Except Err V3 := do
  let part ← findPart tr.parts t
  let s ← part.support.side
  if s = side.other then do
    let v ← part.swing.read t .speed
    .ok (tr.T.linear.mulVec v)
  else .ok 0

/-- `get_yaw_world_foot`, walk_pattern_generator.cpp 149-162. -/
noncomputable def Traj.getYawWorldFoot (tr : Traj) (side : Side) (t : ℝ) : Except Err ℝ := do
  let yaw ← ((tr.footYaw side).interpolation t .value).2
  .ok (frameYaw tr.T.linear + yaw)

/-- `get_yaw_world_trunk`, walk_pattern_generator.cpp 164-167. -/
noncomputable def Traj.getYawWorldTrunk (tr : Traj) (t : ℝ) : Except Err ℝ := do
  let yaw ← (tr.trunkYaw.interpolation t .value).2
  .ok (frameYaw tr.T.linear + yaw)

/-- `get_p_world_CoM`, walk_pattern_generator.cpp 169-174. -/
noncomputable def Traj.getPWorldCoM (tr : Traj) (t : ℝ) : Except Err V3 := do
  let part ← findPart tr.parts t
  let p ← part.com.pos t
  .ok (tr.T.apply ![p.x, p.y, tr.comTargetZ])

/-- `get_v_world_CoM` (`d = 1`), `get_a_world_CoM` (`d = 2`), `get_j_world_CoM` (`d = 3`), walk_pattern_generator.cpp 176-195. -/
noncomputable def Traj.getDWorldCoM (tr : Traj) (d : Int) (t : ℝ) : Except Err V3 := do
  let part ← findPart tr.parts t
  let v ← part.com.component t d
  .ok (tr.T.linear.mulVec ![v.x, v.y, 0])

/-- `get_support`, walk_pattern_generator.cpp 256-260. -/
noncomputable def Traj.getSupport (tr : Traj) (t : ℝ) : Except Err Support := do
  let part ← findPart tr.parts t
  .ok (part.support.moved tr.T)

/-- `remaining_supports`, walk_pattern_generator.cpp 262-268. -/
noncomputable def Traj.remainingSupports (tr : Traj) (t : ℝ) : Except Err Int := do
  let i ← findIndex tr.parts t
  .ok ((tr.parts.length : Int) - i - 1)

/-- `get_next_support`, walk_pattern_generator.cpp 270-279. A negative `n` that leaves the vector is undefined. -/
noncomputable def Traj.getNextSupport (tr : Traj) (t : ℝ) (n : Int) : Except Err Support := do
  let i ← findIndex tr.parts t
  if (tr.parts.length : Int) ≤ i + n then
    match tr.parts.getLast? with
    | none => .error .ub
    | some p => .ok (p.support.moved tr.T)
  else if (i : Int) + n < 0 then .error .ub
  else do
    let p ← at' tr.parts ((i : Int) + n).toNat
    .ok (p.support.moved tr.T)

/-- The loop of `get_prev_support`, walk_pattern_generator.cpp 284-287: `part` is a reference to `parts[idx]`, so the assignment overwrites that
element of the vector. -/
noncomputable def prevLoop (idx : Nat) : Nat → List Part → List Part × Option Err
  | 0, parts => (parts, none)
  | n + 1, parts =>
    match at' parts idx with
    | .error e => (parts, some e)
    | .ok part =>
      match findPart parts (part.tStart - 1 / 10000) with
      | .error e => (parts, some e)
      | .ok q => prevLoop idx n (parts.set idx q)

/-- `get_prev_support`, walk_pattern_generator.cpp 281-289: the trajectory after the call, and the result. -/
noncomputable def Traj.getPrevSupport (tr : Traj) (t : ℝ) (n : Int) : Traj × Except Err Support :=
  match findIndex tr.parts t with
  | .error e => (tr, .error e)
  | .ok idx =>
    match prevLoop idx n.toNat tr.parts with
    | (parts, some e) => ({ tr with parts := parts }, .error e)
    | (parts, none) => ({ tr with parts := parts }, do
        let p ← at' parts idx
        .ok (p.support.moved tr.T))

/-- `get_supports`, walk_pattern_generator.cpp 291-299. -/
def Traj.getSupports (tr : Traj) : List Support := tr.parts.map fun p => p.support.moved tr.T

/-- `apply_transform`, walk_pattern_generator.cpp 301-304. -/
def Traj.applyTransform (tr : Traj) (T : Affine) : Traj := { tr with T := T.mul tr.T }

/-- `get_part_t_start`, walk_pattern_generator.cpp 306-310. -/
noncomputable def Traj.getPartTStart (tr : Traj) (t : ℝ) : Except Err ℝ := do
  let part ← findPart tr.parts t
  .ok part.tStart

/-- `get_part_t_end`, walk_pattern_generator.cpp 312-316. -/
noncomputable def Traj.getPartTEnd (tr : Traj) (t : ℝ) : Except Err ℝ := do
  let part ← findPart tr.parts t
  .ok part.tEnd

/-! ## The CoM -/

/-- The generator: parameters, public weights (walk_pattern_generator.h 225-227) and external functions. -/
structure Wpg where
  p : WpgParams := {}
  soft : Bool := false
  zmpInSupportWeight : ℝ := 1000
  stopEndSupportWeight : ℝ := 1000
  hull : List V2 → List V2
  slerp : M3 → M3 → ℝ → M3
  qr : Nat → EqSt ℝ → QR ℝ
  oracle : QP ℝ → QPResult ℝ

/-- `omega`, walk_pattern_generator.cpp 34-39. -/
noncomputable def Wpg.omega (g : Wpg) : ℝ := computeOmega g.p.walkComHeight

/-- `omega_2`. walk_pattern_generator.cpp 38. -/
noncomputable def Wpg.omega2 (g : Wpg) : ℝ := g.omega ^ 2

/-- A `Vector2d`. Eigen, used in walk_pattern_generator.cpp 413-455. -/
noncomputable def vec2 (x y : ℝ) : Vec ℝ := ⟨2, fun i => if i = 0 then x else y⟩

/-- `if (soft) constraint.configure(Soft, weight)`. walk_pattern_generator.cpp 421 and 447. -/
def softenIf (soft : Bool) (w : ℝ) (c : Constr ℝ) : Constr ℝ := if soft then c.configureP .soft w else c

/-- `x_offset` and `y_offset`, walk_pattern_generator.cpp 427-432. -/
noncomputable def Wpg.zmpOffset (g : Wpg) (s : Support) : Except Err (ℝ × ℝ) :=
  if s.isBoth then .ok (0, 0)
  else do
    let side ← s.side
    .ok (g.p.footZmpTargetX, if side = .left then g.p.footZmpTargetY else -g.p.footZmpTargetY)

/-- The ZMP constraints of one timestep, walk_pattern_generator.cpp 418-437. -/
noncomputable def Wpg.constrainZmp (g : Wpg) (l : Lipm) (s : Support) (timestep : Nat) :
    Except Err (List (Constr ℝ)) := do
  let zmp ← l.zmp timestep g.omega2
  let c ← inPolygonXY zmp ((s.supportPolygon g.hull).2.map fun v => (v.x, v.y)) g.p.zmpMargin
  let off ← g.zmpOffset s
  let frame ← s.frame g.slerp
  let target := planar frame off.1 off.2
  let zmp' ← l.zmp timestep g.omega2
  let r ← zmp'.eqVec (vec2 target.x target.y)
  .ok [softenIf g.soft g.zmpInSupportWeight c, r.configureP .soft g.p.zmpReferenceWeight]

/-- The constraints that stop the CoM, walk_pattern_generator.cpp 442-452. -/
noncomputable def Wpg.constrainStop (g : Wpg) (l : Lipm) (s : Support) (timestep : Nat) :
    Except Err (List (Constr ℝ)) := do
  let frame ← s.frame g.slerp
  let pos ← l.pos timestep
  let a ← pos.eqVec (vec2 (frame.translation 0) (frame.translation 1))
  let vel ← l.vel timestep
  let b ← vel.eqVec (vec2 0 0)
  let acc ← l.acc timestep
  let c ← acc.eqVec (vec2 0 0)
  .ok [softenIf g.soft g.stopEndSupportWeight a, softenIf g.soft g.stopEndSupportWeight b,
    softenIf g.soft g.stopEndSupportWeight c]

/-- `if (support.end && timestep == lipm.timesteps)`, walk_pattern_generator.cpp 440-453. -/
noncomputable def Wpg.constrainEnd (g : Wpg) (l : Lipm) (s : Support) (timestep : Nat) : Except Err (List (Constr ℝ)) :=
  if s.isEnd = true ∧ timestep = l.timesteps then g.constrainStop l s timestep else .ok []

/-- The body of the loop of `constrain_lipm`, walk_pattern_generator.cpp 416-454. -/
noncomputable def Wpg.constrainStep (g : Wpg) (l : Lipm) (s : Support) (timestep : Nat) :
    Except Err (List (Constr ℝ)) := do
  let a ← g.constrainZmp l s timestep
  let b ← g.constrainEnd l s timestep
  .ok (a ++ b)

/-- The loop of `constrain_lipm` for `count` values of `timestep`, in order.
walk_pattern_generator.cpp 416-454. -/
noncomputable def Wpg.constrainLoop (g : Wpg) (l : Lipm) (s : Support) : Nat → Nat → Except Err (List (Constr ℝ))
  | 0, _ => .ok []
  | count + 1, timestep => do
    let a ← g.constrainStep l s timestep
    let b ← g.constrainLoop l s count (timestep + 1)
    .ok (a ++ b)

/-- `constrain_lipm`, walk_pattern_generator.cpp 413-455: timesteps `1` to `lipm.timesteps`. -/
noncomputable def Wpg.constrainLipm (g : Wpg) (l : Lipm) (s : Support) : Except Err (List (Constr ℝ)) :=
  g.constrainLoop l s l.timesteps 1

/-- What the loop of `plan_com` computes for one support: the part (before its trajectories) and its LIPM.
walk_pattern_generator.cpp 466-494. -/
structure Planned where
  tStart : ℝ
  tEnd : ℝ
  support : Support
  lipm : Lipm
  cs : List (Constr ℝ)

/-- `support_duration`, walk_pattern_generator.cpp 469. -/
noncomputable def Wpg.duration (g : Wpg) (s : Support) : ℝ :=
  (1 - s.elapsedRatio) * g.p.supportDuration s * s.timeRatio

/-- `lipm_timesteps`, walk_pattern_generator.cpp 470. -/
noncomputable def Wpg.timesteps (g : Wpg) (s : Support) : Nat :=
  (max 1 (truncZ ((1 - s.elapsedRatio) * g.p.supportTimesteps s))).toNat

open Classical in
/-- `if (support.t_start == -1) support.t_start = t`, walk_pattern_generator.cpp 472-475. -/
noncomputable def stamped (s : Support) (t : ℝ) : Support := if s.tStart = -1 then { s with tStart := t } else s

/-- The initial state of the CoM. walk_pattern_generator.cpp 457-459. -/
structure ComState where
  pos : V2
  vel : V2 := ⟨0, 0⟩
  acc : V2 := ⟨0, 0⟩

open Classical in
/-- The construction of the LIPM of a part, walk_pattern_generator.cpp 481-489 (`lipms.back()` of an empty vector is undefined). -/
noncomputable def makeLipm (t0 : ℝ) (init : ComState) (prev : Option Lipm) (n : Nat) (dt : ℝ) (timesteps : Nat)
    (t : ℝ) : Except Err (Lipm × Nat) :=
  if t = t0 then Lipm.fromState n dt timesteps t init.pos init.vel init.acc
  else match prev with
    | none => .error .ub
    | some l => Lipm.fromPrevious n dt timesteps t l

/-- The loop of `plan_com`, walk_pattern_generator.cpp 466-494: the planned parts, the number of variables and `t` at the end. -/
noncomputable def Wpg.planLoop (g : Wpg) (t0 : ℝ) (init : ComState) :
    List Support → ℝ → Nat → Option Lipm → Except Err (List Planned × Nat × ℝ)
  | [], t, n, _ => .ok ([], n, t)
  | s :: ss, t, n, prev => do
    let sup := stamped s t
    let d := g.duration s
    let m := g.timesteps s
    let r ← makeLipm t0 init prev n (d / m) m t
    let cs ← g.constrainLipm r.1 sup
    let rest ← g.planLoop t0 init ss (t + d) r.2 (some r.1)
    .ok (⟨t, t + d, sup, r.1, cs⟩ :: rest.1, rest.2)

/-- The settings of a new `Problem` (problem.h) with `n` variables. problem.h 62-121. -/
noncomputable def newProblem (n : Nat) : Settings ℝ :=
  ⟨n, 1 / 100000000, true, true, 1 / 1000000000000⟩

/-- The result of `problem.solve()`: the solution in the original variables. The variables' values are slices of it
(C16). walk_pattern_generator.cpp 499-506, problem.cpp 113-391. -/
noncomputable def Wpg.solveQP (g : Wpg) (n : Nat) (cs : List (Constr ℝ)) : Except Err (Nat → ℝ) :=
  match (Problem.solve (newProblem n) g.qr g.oracle (1 / 1000000) cs ⟨[], []⟩).2, assemble (newProblem n) g.qr cs with
  | .error e, _ => .error e
  | .ok _, .error e => .error e
  | .ok _, .ok qp => .ok (qp.recover n (g.oracle qp).x)

/-- `SwingFootCubic::Trajectory` by default: no point. swing_foot_cubic.h 16-27. -/
def emptySwing : CubicSwing ℝ := ⟨SplineSt.init false, SplineSt.init false, SplineSt.init false⟩

/-- The body of the last loop of `plan_com`, walk_pattern_generator.cpp 507-512. -/
noncomputable def Wpg.attach (g : Wpg) (sol : Nat → ℝ) (p : Planned) : Except Err Part := do
  let com := p.lipm.getTrajectory sol
  let dcm ← com.dcm p.tEnd g.omega
  .ok ⟨p.tStart, p.tEnd, { p.support with targetDcm := dcm }, com, emptySwing⟩

/-- `plan_com`, walk_pattern_generator.cpp 457-515: `none` when it returns false; otherwise the parts, `t_end`. The new `t_start` of the
supports given is that of the planned parts. -/
noncomputable def Wpg.planCom (g : Wpg) (t0 : ℝ) (supports : List Support) (init : ComState) :
    Except Err (Option (List Part × ℝ)) := do
  let r ← g.planLoop t0 init supports t0 0 none
  match g.solveQP r.2.1 (r.1.map Planned.cs).flatten with
  | .error .ub => .error .ub
  | .error _ => .ok none
  | .ok sol =>
    let parts ← r.1.mapM (g.attach sol)
    .ok (some (parts, r.2.2))

/-! ## The feet -/

/-- `foot_yaw(side).add_point(t, yaw, speed)`. walk_pattern_generator.cpp 324-380. -/
noncomputable def Traj.addYaw (tr : Traj) (side : Side) (t yaw speed : ℝ) : Except Err Traj := do
  let s ← (tr.footYaw side).addPoint wrapAngle t yaw speed
  match side with
  | .left => .ok { tr with leftYaw := s }
  | .right => .ok { tr with rightYaw := s }

/-- `trunk_yaw.add_point(t, yaw, speed)`. walk_pattern_generator.cpp 374-396. -/
noncomputable def Traj.addTrunkYaw (tr : Traj) (t yaw speed : ℝ) : Except Err Traj := do
  let s ← tr.trunkYaw.addPoint wrapAngle t yaw speed
  .ok { tr with trunkYaw := s }

/-- `add_supports`, walk_pattern_generator.cpp 324-331. -/
noncomputable def Traj.addSupports (tr : Traj) (t : ℝ) : List Footstep → Except Err Traj
  | [] => .ok tr
  | f :: fs => do
    let tr ← tr.addYaw f.side t (frameYaw f.frame.linear) 0
    tr.addSupports t fs

/-- `plan_dbl_support`, walk_pattern_generator.cpp 333-338. -/
noncomputable def Wpg.planDbl (g : Wpg) (tr : Traj) (i : Nat) : Except Err Traj := do
  let part ← at' tr.parts i
  let tr ← tr.addSupports part.tEnd part.support.footsteps
  let f ← part.support.frame g.slerp
  tr.addTrunkYaw part.tEnd (frameYaw f.linear) 0

/-- The swing trajectory and the first yaw of the flying foot, walk_pattern_generator.cpp 349-370. -/
noncomputable def Wpg.planSwing (g : Wpg) (tr : Traj) (i : Nat) (part : Part) (flying : Side) (target : V3)
    (old : Option Traj) : Except Err (Traj × CubicSwing ℝ) :=
  let virt := g.p.supportDuration part.support * part.support.timeRatio
  match i, old with
  | 0, some o => do
    let s ← o.getTWorldFoot flying tr.tStart
    let v ← o.getVWorldFoot flying tr.tStart
    let sw ← CubicSwing.make wrapAngle part.tStart virt g.p.walkFootHeight g.p.walkFootRiseRatio s.translation target
      part.support.elapsedRatio v
    let yaw ← o.getYawWorldFoot flying tr.tStart
    let speed ← ((o.footYaw flying).interpolation tr.tStart .speed).2
    let tr ← tr.addYaw flying tr.tStart yaw speed
    .ok (tr, sw)
  | 0, none => .error .ub
  | i + 1, _ => do
    let prev ← at' tr.parts i
    let s ← prev.support.footstepFrame flying
    let sw ← CubicSwing.make wrapAngle part.tStart virt g.p.walkFootHeight g.p.walkFootRiseRatio s.translation target 0 0
    .ok (tr, sw)

/-- `trunk_yaw` in single support, walk_pattern_generator.cpp 373-376. -/
noncomputable def Wpg.planTrunk (g : Wpg) (tr : Traj) (t yaw : ℝ) : Except Err Traj :=
  if g.p.hasDoubleSupport then .ok tr else tr.addTrunkYaw t yaw 0

/-- `plan_sgl_support`, walk_pattern_generator.cpp 340-380. `parts[part_index + 1]` and `parts[part_index - 1]` are not checked. -/
noncomputable def Wpg.planSgl (g : Wpg) (tr : Traj) (i : Nat) (old : Option Traj) : Except Err Traj := do
  let part ← at' tr.parts i
  let f ← at' part.support.footsteps 0
  let flying := f.side.other
  let next ← at' tr.parts (i + 1)
  let T_world_end ← next.support.footstepFrame flying
  let r ← g.planSwing tr i part flying T_world_end.translation old
  let tr := { r.1 with parts := r.1.parts.set i { part with swing := r.2 } }
  let tr ← tr.addYaw flying part.tEnd (frameYaw T_world_end.linear) 0
  let tr ← g.planTrunk tr part.tEnd (frameYaw T_world_end.linear)
  tr.addSupports part.tEnd part.support.footsteps

/-- The body of the loop of `plan_feet_trajectories`, walk_pattern_generator.cpp 398-410. -/
noncomputable def Wpg.planPart (g : Wpg) (old : Option Traj) (tr : Traj) (i : Nat) : Except Err Traj := do
  let part ← at' tr.parts i
  if part.support.footsteps.length = 1 then g.planSgl tr i old else g.planDbl tr i

/-- The loop of `plan_feet_trajectories`, walk_pattern_generator.cpp 398-410. -/
noncomputable def Wpg.planPartsLoop (g : Wpg) (old : Option Traj) : Nat → Nat → Traj → Except Err Traj
  | 0, _, tr => .ok tr
  | count + 1, i, tr => do
    let tr ← g.planPart old tr i
    g.planPartsLoop old count (i + 1) tr

/-- The first point of `trunk_yaw`, walk_pattern_generator.cpp 386-396. -/
noncomputable def Wpg.planTrunkStart (g : Wpg) (tr : Traj) (first : Part) : Option Traj → Except Err Traj
  | none => do
    let f ← first.support.frame g.slerp
    tr.addTrunkYaw tr.tStart (frameYaw f.linear) 0
  | some o => do
    let yaw ← o.getYawWorldTrunk tr.tStart
    let speed ← (o.trunkYaw.interpolation tr.tStart .speed).2
    tr.addTrunkYaw tr.tStart yaw speed

/-- `plan_feet_trajectories`, walk_pattern_generator.cpp 382-411. -/
noncomputable def Wpg.planFeet (g : Wpg) (tr : Traj) (old : Option Traj) : Except Err Traj := do
  let first ← at' tr.parts 0
  let tr ← tr.addSupports tr.tStart first.support.footsteps
  let tr ← g.planTrunkStart tr first old
  g.planPartsLoop old tr.parts.length 0 tr

/-! ## Planning -/

/-- `plan`, walk_pattern_generator.cpp 517-534. -/
noncomputable def Wpg.plan (g : Wpg) (supports : List Support) (com : V3) (tStart : ℝ) : Except Err Traj :=
  if supports.length = 0 then .error .runtimeError
  else do
    match ← g.planCom tStart supports ⟨⟨com 0, com 1⟩, ⟨0, 0⟩, ⟨0, 0⟩⟩ with
    | none => .error .runtimeError
    | some r => g.planFeet { tStart := tStart, tEnd := r.2, parts := r.1, comTargetZ := g.p.walkComHeight
                             trunkPitch := g.p.walkTrunkPitch, trunkRoll := 0 } none

open Classical in
/-- The part of `trim_old_trajectory` for one part, walk_pattern_generator.cpp 820-842. -/
noncomputable def Wpg.trimPart (g : Wpg) (old : Traj) (t : ℝ) (part : Part) : List Part :=
  if part.tStart ≤ t then
    if t < part.tEnd then
      let elapsed := t - max old.tStart part.support.tStart
      [{ part with
          tStart := t
          support := { part.support with
            elapsedRatio := part.support.elapsedRatio
              + elapsed / (g.p.supportDuration part.support * part.support.timeRatio) } }]
    else []
  else [part]

/-- `trim_old_trajectory`, walk_pattern_generator.cpp 812-846. -/
noncomputable def Wpg.trim (g : Wpg) (old : Traj) (t : ℝ) : Traj :=
  { old with tStart := t, replanSuccess := false, parts := (old.parts.map (g.trimPart old t)).flatten }

/-- `replan`, walk_pattern_generator.cpp 536-568. -/
noncomputable def Wpg.replan (g : Wpg) (supports : List Support) (old : Traj) (t : ℝ) : Except Err Traj :=
  if supports.length = 0 then .error .runtimeError
  else do
    let p ← old.getPWorldCoM t
    let v ← old.getDWorldCoM 1 t
    let a ← old.getDWorldCoM 2 t
    match ← g.planCom t supports ⟨⟨p 0, p 1⟩, ⟨v 0, v 1⟩, ⟨a 0, a 1⟩⟩ with
    | none => .ok (g.trim old t)
    | some r => g.planFeet { tStart := t, tEnd := r.2, parts := r.1, comTargetZ := g.p.walkComHeight
                             trunkPitch := g.p.walkTrunkPitch, trunkRoll := 0 } (some old)

/-- `can_replan_supports`, walk_pattern_generator.cpp 570-586. -/
noncomputable def Traj.canReplanSupports (tr : Traj) (t : ℝ) : Except Err Bool := do
  let s ← tr.getSupport t
  if s.isEnd || s.start then .ok false
  else do
    let n ← tr.getNextSupport t 1
    if n.isEnd then .ok false else .ok !s.isBoth

end Verif.Humanoid
