/-
Model of the footsteps: geometry, supports, step clipping, and the two planners.
  /repo/src/placo/humanoid/footsteps_planner.{h,cpp}
  /repo/src/placo/humanoid/footsteps_planner_repetitive.cpp
  /repo/src/placo/humanoid/footsteps_planner_naive.{h,cpp}
  /repo/src/placo/humanoid/humanoid_parameters.{h,cpp}

Over the reals. External: Eigen's `slerp` and boost's `convex_hull` are parameters.
-/
import Verif.Tools.Segment
import Verif.Tools.Utils
import Verif.Robot.Wrapper

namespace Verif.Humanoid
open Verif.Tools Verif.Robot

/-- `HumanoidRobot::Side`. humanoid_robot.h 16-20. -/
inductive Side where
  | left | right
  deriving DecidableEq, Repr

/-- `HumanoidRobot::other_side`, humanoid_robot.cpp 59-62. -/
def Side.other : Side → Side
  | .left => .right
  | .right => .left

/-! ## Parameters -/

/-- `HumanoidParameters::FootstepClipping`, humanoid_parameters.h.
Lines 164-169 of humanoid_parameters.h. -/
inductive Clipping where
  | ellipsoid | box | conic
  deriving DecidableEq

/-- The fields of `HumanoidParameters` used here. humanoid_parameters.h 25-135. -/
structure Params where
  singleSupportDuration : ℝ := 1
  singleSupportTimesteps : Int := 10
  doubleSupportRatio : ℝ := 1
  startendDoubleSupportRatio : ℝ := 1
  maxDxForward : ℝ := 8 / 100
  maxDxBackward : ℝ := 3 / 100
  maxDy : ℝ := 4 / 100
  maxDtheta : ℝ := 35 / 100
  dthetaSpacing : ℝ := 5 / 100
  feetSpacing : ℝ := 15 / 100
  footWidth : ℝ := 1 / 10
  footLength : ℝ := 15 / 100

/-- A step `(dx, dy, dtheta)` (`Eigen::Vector3d`).
Argument of `ellipsoid_clip` and others, humanoid_parameters.cpp 38-138. -/
@[ext] structure Step where
  x : ℝ
  y : ℝ
  z : ℝ

/-- `step * k`. humanoid_parameters.cpp 38-96. -/
def Step.scale (k : ℝ) (s : Step) : Step := ⟨k * s.x, k * s.y, k * s.z⟩

open Classical in
/-- `factor.x()` in the clipping functions, humanoid_parameters.cpp 40, 60, 80. -/
noncomputable def Params.factorX (p : Params) (s : Step) : ℝ := if 0 ≤ s.x then p.maxDxForward else p.maxDxBackward

open Classical in
/-- The body shared by `ellipsoid_clip`, `box_clip` and `conic_clip`, humanoid_parameters.cpp 38-96: the three functions
differ by the norm only, which is given the scaled step. -/
noncomputable def Params.clipWith (norm : Step → ℝ) (p : Params) (s : Step) : Step :=
  let fx := p.factorX s
  let s1 : Step := ⟨s.x / fx, s.y / p.maxDy, s.z / p.maxDtheta⟩
  let n := norm s1
  let s2 : Step := if 1 < n then ⟨s1.x / n, s1.y / n, s1.z / n⟩ else s1
  ⟨s2.x * fx, s2.y * p.maxDy, s2.z * p.maxDtheta⟩

/-- `ellipsoid_clip`, humanoid_parameters.cpp 38-56. -/
noncomputable def Params.ellipsoidClip : Params → Step → Step :=
  Params.clipWith fun s => Real.sqrt (s.x * s.x + s.y * s.y + s.z * s.z)

/-- `box_clip`, humanoid_parameters.cpp 58-76 (the norm is the sum of the absolute values). -/
noncomputable def Params.boxClip : Params → Step → Step :=
  Params.clipWith fun s => |s.x| + |s.y| + |s.z|

/-- `conic_clip`, humanoid_parameters.cpp 78-96. -/
noncomputable def Params.conicClip : Params → Step → Step :=
  Params.clipWith fun s => Real.sqrt (s.x * s.x + s.y * s.y) + |s.z|

/-- The choice of `clipped_opposite_footstep`, footsteps_planner.cpp 322-333. -/
noncomputable def Params.clip (p : Params) : Clipping → Step → Step
  | .conic => p.conicClip
  | .ellipsoid => p.ellipsoidClip
  | .box => p.boxClip

/-- `Affine3d::translate(v)`: `T * translation(v)`.
Eigen, used in humanoid_parameters.cpp 140-174. -/
def translate (T : Affine) (v : V3) : Affine := T.mul ⟨1, v⟩

/-- `Affine3d::rotate(AngleAxisd(a, UnitZ))`: `T * rotation`.
Eigen, used in humanoid_parameters.cpp 140-174. -/
noncomputable def rotateZ (T : Affine) (a : ℝ) : Affine := T.mul ⟨rotZ a, 0⟩

/-- `opposite_frame`, humanoid_parameters.cpp 140-156. -/
noncomputable def Params.oppositeFrame (p : Params) (side : Side) (T_world_foot : Affine) (dx dy dtheta : ℝ) : Affine :=
  let frame := match side with
    | .left => translate T_world_foot ![0, -p.feetSpacing, 0]
    | .right => translate T_world_foot ![0, p.feetSpacing, 0]
  rotateZ (translate frame ![dx, dy, 0]) dtheta

/-- `neutral_frame`, humanoid_parameters.cpp 158-174. -/
noncomputable def Params.neutralFrame (p : Params) (side : Side) (T_world_foot : Affine) (dx dy dtheta : ℝ) : Affine :=
  let frame := match side with
    | .left => translate T_world_foot ![0, -(p.feetSpacing / 2), 0]
    | .right => translate T_world_foot ![0, p.feetSpacing / 2, 0]
  rotateZ (translate frame ![dx, dy, 0]) dtheta

/-! ## Footsteps -/

/-- `FootstepsPlanner::Footstep`, footsteps_planner.h 17-38. -/
structure Footstep where
  width : ℝ
  length : ℝ
  side : Side
  frame : Affine
  polygon : List V2 := []
  computed : Bool := false

/-- `frame * Vector3d(x, y, 0)`, its first two coordinates. Used in footsteps_planner.cpp 60-94. -/
noncomputable def planar (T : Affine) (x y : ℝ) : V2 :=
  let v := T.linear.mulVec ![x, y, 0] + T.translation
  ⟨v 0, v 1⟩

/-- `Footstep::compute_polygon`, footsteps_planner.cpp 19-40. -/
noncomputable def Footstep.computePolygon (f : Footstep) (margin : ℝ) : List V2 :=
  [((-1 : ℝ), (1 : ℝ)), (1, 1), (1, -1), (-1, -1)].map fun s =>
    planar f.frame (s.1 * (margin + f.length / 2)) (s.2 * (margin + f.width / 2))

/-- `Footstep::support_polygon`, footsteps_planner.cpp 42-51: the footstep after the call, and the result. -/
noncomputable def Footstep.supportPolygon (f : Footstep) : Footstep × List V2 :=
  if f.computed then (f, f.polygon)
  else
    let f' := { f with polygon := f.computePolygon 0, computed := true }
    (f', f'.polygon)

open Classical in
/-- The loop of `polygon_contains`, footsteps_planner.cpp 57-68. -/
noncomputable def containsLoop (point : V2) : V2 → List V2 → Bool
  | _, [] => true
  | last, c :: cs =>
    let v := c.sub last
    let n : V2 := ⟨v.y, -v.x⟩
    if n.dot (point.sub last) < 0 then false else containsLoop point c cs

/-- `polygon_contains`, footsteps_planner.cpp 53-71: on an empty polygon the last point does not exist. -/
noncomputable def polygonContains (polygon : List V2) (point : V2) : Except Err Bool :=
  match polygon.getLast? with
  | none => .error .ub
  | some last => .ok (containsLoop point last polygon)

/-- A loop of `overlap`, footsteps_planner.cpp 78-91: is one of the points in the polygon? -/
noncomputable def anyIn (polygon : List V2) : List V2 → Except Err Bool
  | [] => .ok false
  | pt :: pts => do
    if ← polygonContains polygon pt then .ok true else anyIn polygon pts

/-- `Footstep::overlap`, footsteps_planner.cpp 73-94. -/
noncomputable def Footstep.overlap (f other : Footstep) (margin : ℝ) : Except Err Bool := do
  let support1 := f.computePolygon margin
  let support2 := other.computePolygon margin
  if ← anyIn support2 support1 then .ok true else anyIn support1 support2

/-! ## Supports -/

/-- `FootstepsPlanner::Support`, footsteps_planner.h 44-100. -/
structure Support where
  footsteps : List Footstep
  tStart : ℝ := -1
  elapsedRatio : ℝ := 0
  timeRatio : ℝ := 1
  targetDcm : V2 := ⟨0, 0⟩
  start : Bool := false
  isEnd : Bool := false
  polygon : List V2 := []
  computed : Bool := false

/-- The loop of `Support::support_polygon` over its footsteps: they are taken by reference, so their own cache is
filled, footsteps_planner.cpp 118-124. -/
noncomputable def readFootsteps : List Footstep → List Footstep × List V2
  | [] => ([], [])
  | f :: fs => (f.supportPolygon.1 :: (readFootsteps fs).1, f.supportPolygon.2 ++ (readFootsteps fs).2)

/-- `Support::support_polygon`, footsteps_planner.cpp 109-136. `hull` is the outer ring computed by boost, whose last point repeats the first
and is removed. -/
noncomputable def Support.supportPolygon (hull : List V2 → List V2) (s : Support) : Support × List V2 :=
  if s.computed then (s, s.polygon)
  else
    let r := readFootsteps s.footsteps
    let s' := { s with footsteps := r.1, polygon := (hull r.2).dropLast, computed := true }
    (s', s'.polygon)

/-- `tools::interpolate_frames`, tools/utils.cpp 7-20. `slerp` is Eigen's, between the two rotations. -/
noncomputable def interpolateFrames (slerp : M3 → M3 → ℝ → M3) (A B : Affine) (r : ℝ) : Affine :=
  ⟨slerp A.linear B.linear r, fun i => A.translation i * (1 - r) + B.translation i * r⟩

/-- The loop of `Support::frame` from the second footstep on, footsteps_planner.cpp 146-158. -/
noncomputable def frameLoop (slerp : M3 → M3 → ℝ → M3) (f : Affine) (n : Nat) : List Footstep → Affine
  | [] => f
  | g :: gs => frameLoop slerp (interpolateFrames slerp f g.frame (1 / (n : ℝ))) (n + 1) gs

/-- `Support::frame`, footsteps_planner.cpp 138-157: without footsteps the frame returned is not initialised. -/
noncomputable def Support.frame (slerp : M3 → M3 → ℝ → M3) (s : Support) : Except Err Affine :=
  match s.footsteps with
  | [] => .error .ub
  | f :: fs => .ok (frameLoop slerp f.frame 2 fs)

/-- `Support::footstep_frame`, footsteps_planner.cpp 159-170. -/
def Support.footstepFrame (s : Support) (side : Side) : Except Err Affine :=
  match s.footsteps.find? (fun f => f.side = side) with
  | some f => .ok f.frame
  | none => .error .logicError

/-- The body of the loop of `apply_offset`, footsteps_planner.cpp 174-179. -/
def Footstep.offset (f : Footstep) (o : V2) : Footstep :=
  { f with
    frame := ⟨f.frame.linear, ![f.frame.translation 0 + o.x, f.frame.translation 1 + o.y, f.frame.translation 2]⟩
    computed := false }

/-- `Support::apply_offset`, footsteps_planner.cpp 172-181. -/
def Support.applyOffset (s : Support) (o : V2) : Support :=
  { s with footsteps := s.footsteps.map (·.offset o), computed := false }

/-- `Support::side`, footsteps_planner.cpp 183-191. -/
def Support.side (s : Support) : Except Err Side :=
  if s.footsteps.length > 1 then .error .runtimeError
  else match s.footsteps with
    | [] => .error .ub
    | f :: _ => .ok f.side

/-- `Support::is_both`, footsteps_planner.cpp 193-196. -/
def Support.isBoth (s : Support) : Bool := s.footsteps.length == 2

/-- The body of the loop of `operator*`, footsteps_planner.cpp 202-206. -/
def Footstep.moved (f : Footstep) (T : Affine) : Footstep := { f with frame := T.mul f.frame, computed := false }

/-- `operator*(T, support)`, footsteps_planner.cpp 198-210. -/
def Support.moved (s : Support) (T : Affine) : Support :=
  { s with footsteps := s.footsteps.map (·.moved T), computed := false }

/-! ## `make_supports` -/

/-- `footsteps[i]`, unchecked. footsteps_planner.cpp 240-284. -/
def at' {α : Type} (l : List α) (i : Nat) : Except Err α :=
  match l[i]? with
  | some a => .ok a
  | none => .error .ub

/-- `Support({ footsteps[i] })`. footsteps_planner.cpp 240-284. -/
def single (fs : List Footstep) (i : Nat) : Except Err Support := do
  let f ← at' fs i
  .ok { footsteps := [f] }

/-- `Support({ footsteps[i], footsteps[i + 1] })`. footsteps_planner.cpp 240-284. -/
def double (fs : List Footstep) (i : Nat) : Except Err Support := do
  let f ← at' fs i
  let g ← at' fs (i + 1)
  .ok { footsteps := [f, g] }

/-- The supports pushed before the loop, footsteps_planner.cpp 240-261. -/
def supportsHead (fs : List Footstep) (tStart : ℝ) (start middle : Bool) : Except Err (List Support) :=
  if start then do
    let s ← double fs 0
    .ok [{ s with start := true, tStart := tStart }]
  else if middle then do
    let s ← single fs 0
    let d ← double fs 0
    .ok [{ s with tStart := tStart }, { d with tStart := tStart }]
  else do
    let s ← single fs 0
    .ok [{ s with tStart := tStart }]

/-- The body of the loop, footsteps_planner.cpp 265-274. -/
def supportsAt (fs : List Footstep) (middle : Bool) (step : Nat) : Except Err (List Support) :=
  if step ≠ fs.length - 2 ∧ middle then do
    let s ← single fs step
    let d ← double fs step
    .ok [s, d]
  else do
    let s ← single fs step
    .ok [s]

/-- The loop, footsteps_planner.cpp 263-275, for `count` values of `step`. -/
def supportsLoop (fs : List Footstep) (middle : Bool) : Nat → Nat → Except Err (List Support)
  | 0, _ => .ok []
  | count + 1, step => do
    let a ← supportsAt fs middle step
    let b ← supportsLoop fs middle count (step + 1)
    .ok (a ++ b)

/-- The supports pushed when there are more than two footsteps, footsteps_planner.cpp 238-276. -/
def supportsBody (fs : List Footstep) (tStart : ℝ) (start middle : Bool) : Except Err (List Support) :=
  if fs.length > 2 then do
    let a ← supportsHead fs tStart start middle
    let b ← supportsLoop fs middle (fs.length - 2) 1
    .ok (a ++ b)
  else .ok []

/-- The last support, footsteps_planner.cpp 278-284: the indices wrap around when there are fewer than two footsteps. -/
def supportsEnd (fs : List Footstep) (isEnd : Bool) : Except Err (List Support) :=
  if isEnd then
    if fs.length < 2 then .error .ub
    else do
      let s ← double fs (fs.length - 2)
      .ok [{ s with isEnd := true }]
  else .ok []

/-- `make_supports`, footsteps_planner.cpp 233-287. -/
def makeSupports (fs : List Footstep) (tStart : ℝ) (start middle isEnd : Bool) : Except Err (List Support) := do
  let a ← supportsBody fs tStart start middle
  let b ← supportsEnd fs isEnd
  .ok (a ++ b)

/-! ## Steps -/

/-- `create_footstep`, footsteps_planner.cpp 289-297. -/
def Params.createFootstep (p : Params) (side : Side) (T : Affine) : Footstep :=
  { width := p.footWidth, length := p.footLength, side := side, frame := T }

/-- `opposite_footstep`, footsteps_planner.cpp 299-306: a copy, whose cached polygon is left as it is. -/
noncomputable def Params.oppositeFootstep (p : Params) (f : Footstep) (dx dy dtheta : ℝ) : Footstep :=
  { f with frame := p.oppositeFrame f.side f.frame dx dy dtheta, side := f.side.other }

/-- The step of `clipped_opposite_footstep` before the shrinking, footsteps_planner.cpp 311-333. -/
noncomputable def Params.clippedStep (p : Params) (c : Clipping) (side : Side) (dx dy dtheta : ℝ) : Step :=
  p.clip c (match side with
    | .left => ⟨dx, dy - p.dthetaSpacing * |dtheta|, dtheta⟩
    | .right => ⟨dx, dy + p.dthetaSpacing * |dtheta|, dtheta⟩)

/-- The loop of `clipped_opposite_footstep`, footsteps_planner.cpp 335-349. -/
noncomputable def Params.shrinkLoop (p : Params) (f : Footstep) : Nat → Step → Except Err Footstep
  | 0, s => .ok (p.oppositeFootstep f s.x s.y s.z)
  | k + 1, s => do
    let g := p.oppositeFootstep f s.x s.y s.z
    if ← g.overlap f (1 / 100) then p.shrinkLoop f k (s.scale (9 / 10)) else .ok g

/-- `clipped_opposite_footstep`, footsteps_planner.cpp 308-350. -/
noncomputable def Params.clippedOppositeFootstep (p : Params) (c : Clipping) (f : Footstep) (dx dy dtheta : ℝ) :
    Except Err Footstep :=
  p.shrinkLoop f 32 (p.clippedStep c f.side dx dy dtheta)

/-! ## Planners -/

/-- The two initial footsteps of `plan`, footsteps_planner.cpp 352-365. -/
def Params.initialFootsteps (p : Params) (flying : Side) (T_left T_right : Affine) : List Footstep :=
  let frameOf : Side → Affine := fun s => match s with
    | .left => T_left
    | .right => T_right
  [p.createFootstep flying (frameOf flying), p.createFootstep flying.other (frameOf flying.other)]

/-- The loop of `FootstepsPlannerRepetitive::plan_impl`, footsteps_planner_repetitive.cpp 22-26: the footstep reached
and the footsteps pushed. -/
noncomputable def Params.repLoop (p : Params) (c : Clipping) (dx dy dtheta : ℝ) :
    Nat → Footstep → Except Err (Footstep × List Footstep)
  | 0, f => .ok (f, [])
  | n + 1, f => do
    let g ← p.clippedOppositeFootstep c f dx dy dtheta
    let r ← p.repLoop c dx dy dtheta n g
    .ok (r.1, g :: r.2)

/-- `FootstepsPlannerRepetitive::plan_impl`, footsteps_planner_repetitive.cpp 15-32: the footsteps pushed. -/
noncomputable def Params.repImpl (p : Params) (c : Clipping) (dx dy dtheta : ℝ) (nbSteps : Int) (fs : List Footstep) :
    Except Err (List Footstep) := do
  let f ← at' fs 1
  if nbSteps > 0 then do
    let r ← p.repLoop c dx dy dtheta (nbSteps - 1).toNat f
    let g ← p.clippedOppositeFootstep c r.1 0 0 0
    .ok (r.2 ++ [g])
  else .ok []

/-- `plan` with the repetitive planner. footsteps_planner.cpp 352-371. -/
noncomputable def Params.planRepetitive (p : Params) (c : Clipping) (dx dy dtheta : ℝ) (nbSteps : Int) (flying : Side)
    (T_left T_right : Affine) : Except Err (List Footstep) := do
  let fs := p.initialFootsteps flying T_left T_right
  let more ← p.repImpl c dx dy dtheta nbSteps fs
  .ok (fs ++ more)

/-- `overlap_clip`, humanoid_parameters.cpp 113-138. -/
noncomputable def Params.overlapClip (p : Params) (c : Clipping) (support : Side) (s : Step) : Except Err Step := do
  let T_left := translate .one ![0, p.feetSpacing / 2, 0]
  let T_right := translate .one ![0, -p.feetSpacing / 2, 0]
  let fs ← p.planRepetitive c s.x s.y s.z 3 support.other T_left T_right
  let f1 ← at' fs 1
  let f2 ← at' fs 2
  let T_support_target := f1.frame.inv.mul f2.frame
  let offset := match support with
    | .left => -p.feetSpacing
    | .right => p.feetSpacing
  .ok ⟨T_support_target.translation 0, T_support_target.translation 1 - offset, frameYaw T_support_target.linear⟩

/-- The configuration of `FootstepsPlannerNaive`, footsteps_planner_naive.h 29-45. The constructor takes the
accessibility from the parameters, footsteps_planner_naive.cpp 19-24. -/
structure Naive where
  params : Params
  maxSteps : Int := 100
  placeThreshold : ℝ := 1 / 2
  targetLeft : Affine
  targetRight : Affine

/-- `T_world_targetRight` or `T_world_targetLeft`: the target of the foot that flies when `support` is on the ground.
footsteps_planner_naive.cpp 62. -/
def Naive.targetOf (c : Naive) (support : Side) : Affine :=
  match support with
  | .left => c.targetRight
  | .right => c.targetLeft

/-- `T_support_floatingIdle.translation().y()`, footsteps_planner_naive.cpp 66-75. -/
def Naive.idleY (c : Naive) (support : Side) : ℝ :=
  match support with
  | .left => -c.params.feetSpacing
  | .right => c.params.feetSpacing

open Classical in
/-- The rescaling of the error on one axis, footsteps_planner_naive.cpp 82-101: the new `rescale` and whether `arrived` is kept. -/
noncomputable def rescaleAxis (e a : ℝ) (st : ℝ × Bool) : ℝ × Bool :=
  let st := if e < -a then (min st.1 (-a / e), false) else st
  if a < e then (min st.1 (a / e), false) else st

open Classical in
/-- The clamping of the yaw, footsteps_planner_naive.cpp 120-129. -/
noncomputable def clampYaw (y a : ℝ) (arrived : Bool) : ℝ × Bool :=
  let st := if y < -a then (-a, false) else (y, arrived)
  if a < st.1 then (a, false) else st

open Classical in
/-- `error_yaw`, footsteps_planner_naive.cpp 107-118: far from the target the robot looks at it, close to it the foot takes its orientation. -/
noncomputable def Naive.errorYaw (c : Naive) (dist : ℝ) (toCenter : V3) (target : M3) : ℝ :=
  if c.placeThreshold < dist then atan2 (toCenter 1) (toCenter 0) else frameYaw target

/-- The body of the loop of `FootstepsPlannerNaive::plan_impl`, footsteps_planner_naive.cpp 46-141: the new frame of the flying foot, and `arrived`.
The slerp of `T_world_target` is not used: only its translation is. -/
noncomputable def Naive.step (c : Naive) (support : Side) (T_world_support : Affine) : Affine × Bool :=
  let a := c.params
  let rel := T_world_support.inv.mul (c.targetOf support)
  let T_support_target : Affine := ⟨rel.linear, ![rel.translation 0, rel.translation 1, 0]⟩
  let ex := T_support_target.translation 0
  let ey := T_support_target.translation 1 - c.idleY support
  let ez := T_support_target.translation 2
  let r := rescaleAxis ey a.maxDy (rescaleAxis ex a.maxDxForward (1, true))
  let dist := norm3 ![ex, ey, ez]
  let center : V3 := fun i => c.targetLeft.translation i * (1 - 1 / 2) + c.targetRight.translation i * (1 / 2)
  let toCenter : V3 := T_world_support.inv.linear.mulVec center + T_world_support.inv.translation
    - ![0, c.idleY support / 2, 0]
  let yaw := c.errorYaw dist toCenter T_support_target.linear
  let y := clampYaw yaw a.maxDtheta r.2
  let s := a.ellipsoidClip ⟨ex * r.1, ey * r.1, y.1⟩
  let new_step : Affine := ⟨rotZ s.z, ![s.x, c.idleY support + s.y, 0]⟩
  (T_world_support.mul new_step, y.2)

/-- The variables of the loop of `FootstepsPlannerNaive::plan_impl`, footsteps_planner_naive.cpp 37-44. -/
structure NaiveSt where
  left : Affine
  right : Affine
  support : Side
  leftArrived : Bool := false
  rightArrived : Bool := false

/-- One turn of the loop, footsteps_planner_naive.cpp 45-156: the next state, and the footstep pushed. -/
noncomputable def Naive.turn (c : Naive) (s : NaiveSt) : NaiveSt × Footstep :=
  match s.support with
  | .left =>
    let r := c.step .left s.left
    ({ s with rightArrived := r.2, right := r.1, support := .right }, c.params.createFootstep .right r.1)
  | .right =>
    let r := c.step .right s.right
    ({ s with leftArrived := r.2, left := r.1, support := .left }, c.params.createFootstep .left r.1)

/-- The loop, footsteps_planner_naive.cpp 45-156, for at most `n` more turns. -/
noncomputable def Naive.loop (c : Naive) : Nat → NaiveSt → List Footstep
  | 0, _ => []
  | n + 1, s =>
    if s.leftArrived && s.rightArrived then []
    else (c.turn s).2 :: c.loop n (c.turn s).1

/-- `plan` with the naive planner. footsteps_planner.cpp 352-371. -/
noncomputable def Naive.plan (c : Naive) (flying : Side) (T_left T_right : Affine) : List Footstep :=
  c.params.initialFootsteps flying T_left T_right ++
    c.loop c.maxSteps.toNat { left := T_left, right := T_right, support := flying.other }

end Verif.Humanoid
