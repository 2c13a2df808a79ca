/-
`WalkPatternGenerator::replan_supports`, walk_pattern_generator.cpp 588-643.
-/
import Verif.Humanoid.Wpg

namespace Verif.Humanoid
open Verif.Problem Verif.Tools

/-- `flying_side`, walk_pattern_generator.cpp 600-608: the side of the current support, or, in double support, the foot that the next support
leaves. -/
def replanSide (current next : Support) : Except Err Side :=
  if current.isBoth then do
    let s ← next.side
    .ok s.other
  else current.side

/-- `T_world_left` and `T_world_right`, walk_pattern_generator.cpp 610-621. -/
def replanFrames (current next : Support) : Side → Except Err (Affine × Affine)
  | .left => do
    let l ← current.footstepFrame .left
    let r ← next.footstepFrame .right
    .ok (l, r)
  | .right => do
    let l ← next.footstepFrame .left
    let r ← current.footstepFrame .right
    .ok (l, r)

/-- `supports.erase(supports.begin())` in double support, walk_pattern_generator.cpp 624-635 (undefined on an empty vector). -/
def replanErase (current : Support) (supports : List Support) : Except Err (List Support) :=
  if current.isBoth then
    match supports with
    | [] => .error .ub
    | _ :: rest => .ok rest
  else .ok supports

/-- The update of `supports[0]`, walk_pattern_generator.cpp 637-641 (undefined on an empty vector). -/
noncomputable def Wpg.replanFirst (g : Wpg) (current : Support) (t tLast : ℝ) : List Support → Except Err (List Support)
  | [] => .error .ub
  | s :: rest => .ok ({ s with
      elapsedRatio := current.elapsedRatio
        + (t - max tLast current.tStart) / (g.p.supportDuration current * current.timeRatio)
      timeRatio := current.timeRatio } :: rest)

/-- `replan_supports`, walk_pattern_generator.cpp 588-643. `plan` is `planner.plan`. -/
noncomputable def Wpg.replanSupports (g : Wpg) (plan : Side → Affine → Affine → Except Err (List Footstep)) (tr : Traj)
    (t tLast : ℝ) : Except Err (List Support) := do
  let can ← tr.canReplanSupports t
  if can then do
    let current ← tr.getSupport t
    let next ← tr.getNextSupport t 1
    let flying ← replanSide current next
    let frames ← replanFrames current next flying
    let footsteps ← plan flying frames.1 frames.2
    let supports ← makeSupports footsteps current.tStart false g.p.hasDoubleSupport true
    let supports ← replanErase current supports
    g.replanFirst current t tLast supports
  else .error .runtimeError

end Verif.Humanoid
