/-
Model of `WalkPatternGenerator::get_optimal_zmp` and `WalkPatternGenerator::update_supports`.
  /repo/src/placo/humanoid/walk_pattern_generator.cpp 678-810
-/
import Verif.Humanoid.Wpg

namespace Verif.Humanoid
open Verif.Tools Verif.Problem Verif.Robot

/-- The two parameters that only `update_supports` reads, humanoid_parameters.h 158-162. Both are empty by default. -/
structure StepArea where
  opSpacePolygon : List V2 := []
  dcmOffsetPolygon : List V2 := []

/-- The vertices given to `in_polygon_xy`. walk_pattern_generator.cpp 679-784. -/
def vertices (l : List V2) : List P2 := l.map fun v => (v.x, v.y)

/-- The right-hand side of the LIPM constraint of `get_optimal_zmp`, walk_pattern_generator.cpp 797-799. -/
noncomputable def lipmZmp (omega duration : ℝ) (dcmStart dcmEnd : V2) : V2 :=
  ⟨(dcmEnd.x - dcmStart.x * Real.exp (omega * duration)) / (1 - Real.exp (omega * duration)),
   (dcmEnd.y - dcmStart.y * Real.exp (omega * duration)) / (1 - Real.exp (omega * duration))⟩

/-- The two constraints of `get_optimal_zmp`, walk_pattern_generator.cpp 791-806. -/
noncomputable def Wpg.zmpConstraints (g : Wpg) (dcmStart dcmEnd : V2) (duration : ℝ) (support : Support) :
    Except Err (List (Constr ℝ)) := do
  let zmp ← (⟨0, 2⟩ : Var).expr (-1) (-1)
  let target := lipmZmp g.omega duration dcmStart dcmEnd
  let a ← zmp.eqVec (vec2 target.x target.y)
  let b ← inPolygonXY zmp (vertices (support.supportPolygon g.hull).2) g.p.zmpMargin
  .ok [a.configureP .soft 1, b.configureP .hard 1]

/-- `get_optimal_zmp`, walk_pattern_generator.cpp 786-810. The polygon that the call may store in `support` is not returned: `update_supports` gives
it a copy. A denominator of zero (a duration of zero) gives non-finite coefficients: this is reported as undefined. -/
noncomputable def Wpg.getOptimalZmp (g : Wpg) (dcmStart dcmEnd : V2) (duration : ℝ) (support : Support) : Except Err V2 :=
  open Classical in
  if Real.exp (g.omega * duration) = 1 then .error .ub
  else do
    let cs ← g.zmpConstraints dcmStart dcmEnd duration support
    let sol ← g.solveQP 2 cs
    .ok ⟨sol 0, sol 1⟩

/-- `R_world_support`, walk_pattern_generator.cpp 695 (`rotation()` is taken to be the linear part, which holds for rigid transforms). -/
def planarLinear (f : Affine) : Mat ℝ :=
  ⟨2, 2, fun i j => if i = 0 then (if j = 0 then f.linear 0 0 else f.linear 0 1)
    else (if j = 0 then f.linear 1 0 else f.linear 1 1)⟩

/-- The loops that negate the points of a polygon, walk_pattern_generator.cpp 737-741 and 748-752. -/
def negated (l : List V2) : List V2 := l.map fun v => ⟨-v.x, -v.y⟩

/-- The polygon of the next ZMP, walk_pattern_generator.cpp 731-754. -/
def StepArea.nextPolygon (a : StepArea) (side : Side) : List V2 :=
  match side with
  | .right => a.opSpacePolygon
  | .left => negated a.opSpacePolygon

/-- `elapsed_time`, walk_pattern_generator.cpp 694. -/
def elapsedTime (t : ℝ) (current : Support) : ℝ := t - current.tStart

/-- The constraints of `update_supports`, walk_pattern_generator.cpp 698-769: `frame` is that of the current support, `target` the position of the next
one and `zmp` the result of `get_optimal_zmp`. The copy of the DCM polygon that is negated for a right support, cpp 736-741, is
not used by the code: the polygon of the parameters is. `configure(Hard)` leaves the weight at 1. -/
noncomputable def Wpg.stepConstraints (g : Wpg) (a : StepArea) (elapsed : ℝ) (current : Support) (side : Side) (frame : Affine)
    (target dcm zmp : V2) : Except Err (List (Constr ℝ)) := do
  let T := g.p.supportDuration current
  let next ← (⟨0, 2⟩ : Var).expr (-1) (-1)
  let tau ← (⟨2, 3⟩ : Var).expr (-1) (-1)
  let offset ← (⟨3, 5⟩ : Var).expr (-1) (-1)
  let c1 ← tau.eqDouble (Real.exp (g.omega * T))
  let rotated ← Expr.matMul (planarLinear frame) next
  let worldNext ← rotated.addVec (vec2 (frame.translation 0) (frame.translation 1))
  let c2 ← worldNext.eqVec (vec2 target.x target.y)
  let worldOffset ← Expr.matMul (planarLinear frame) offset
  let c3 ← worldOffset.eqVec (vec2 (current.targetDcm.x - target.x) (current.targetDcm.y - target.y))
  let c4 ← tau.geDouble (Real.exp (g.omega * max (15 / 100) elapsed))
  let c5 ← tau.leDouble (Real.exp (g.omega * max 3 elapsed))
  let c6 ← inPolygonXY next (vertices (a.nextPolygon side)) 0
  let c7 ← inPolygonXY offset (vertices a.dcmOffsetPolygon) 0
  let sum ← worldNext.add worldOffset
  let free ← Expr.matMul ⟨2, 1, fun i _ => (if i = 0 then dcm.x - zmp.x else dcm.y - zmp.y) * Real.exp (-g.omega * elapsed)⟩ tau
  let pushed ← free.addVec (vec2 zmp.x zmp.y)
  let c8 ← sum.eq pushed
  .ok [c1.configureP .soft 5, c2.configureP .soft 100, c3.configureP .soft 1000, c4.configureP .hard 1, c5.configureP .hard 1,
    c6.configureP .hard 1, c7.configureP .soft 1000000, c8.configureP .hard 1]

/-- `world_next_zmp_val`, walk_pattern_generator.cpp 774: the rotation times the value, plus the position. -/
def planarPoint (f : Affine) (x y : ℝ) : V2 :=
  ⟨f.translation 0 + (f.linear 0 0 * x + f.linear 0 1 * y), f.translation 1 + (f.linear 1 0 * x + f.linear 1 1 * y)⟩

/-- `footsteps[0].frame.translation().x() = …; .y() = …`, walk_pattern_generator.cpp 775-776: the polygons already computed are kept. -/
def Support.moveFirst (s : Support) (p : V2) : Support :=
  match s.footsteps with
  | [] => s
  | f :: fs => { s with footsteps :=
      { f with frame := ⟨f.frame.linear, ![p.x, p.y, f.frame.translation 2]⟩ } :: fs }

/-- `supports[0].time_ratio = …`, walk_pattern_generator.cpp 779-781. Should the default duration be 0 or the elapsed ratio 1, the code divides by 0: the
model then gives 0, and the theorems on the duration exclude these cases. -/
noncomputable def Wpg.retime (g : Wpg) (elapsed tau : ℝ) (current : Support) : Support :=
  { current with timeRatio := max (1 / 1000) (Real.log tau / g.omega - elapsed) /
      (g.p.supportDuration current * (1 - current.elapsedRatio)) }

/-- `update_supports`, walk_pattern_generator.cpp 679-784. Without two supports, `supports[0]` or `supports[1]` does not exist. -/
noncomputable def Wpg.updateSupports (g : Wpg) (a : StepArea) (t : ℝ) (supports : List Support) (dcm : V2) :
    Except Err (List Support) :=
  match supports with
  | [] => .error .ub
  | current :: rest =>
    if current.isBoth then .error .runtimeError
    else do
      let frame ← current.frame g.slerp
      match rest with
      | [] => .error .ub
      | next :: later => do
        let nextFrame ← next.frame g.slerp
        let elapsed := elapsedTime t current
        let side ← current.side
        let zmp ← g.getOptimalZmp dcm current.targetDcm (max (1 / 100000) (g.p.supportDuration current - elapsed)) current
        let cs ← g.stepConstraints a elapsed current side frame ⟨nextFrame.translation 0, nextFrame.translation 1⟩ dcm zmp
        let sol ← g.solveQP 5 cs
        .ok (g.retime elapsed (sol 2) current :: next.moveFirst (planarPoint frame (sol 0) (sol 1)) :: later)

end Verif.Humanoid
