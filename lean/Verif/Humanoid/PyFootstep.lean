/-
Model of the Python class `Footstep`.
  /repo/bindings/expose-footsteps.cpp 23-40
-/
import Verif.Humanoid.Footsteps

namespace Verif.Humanoid
open Verif.Tools Verif.Robot

/-- What a Python program can do with a `Footstep`, expose-footsteps.cpp 24-39. The value written in a copy of the frame is not
represented: line 28 returns a copy, which Python sees as a new array. -/
inductive PyStepOp where
  | setSide (s : Side)          -- line 24
  | setLength (x : ℝ)           -- line 25
  | setWidth (x : ℝ)            -- line 26
  | setFrame (T : Affine)       -- lines 27-29
  | setFrameXY (x y : ℝ)        -- lines 30-35
  | writeInFrame                -- `footstep.frame[i, j] = x`, line 28
  | supportPolygon              -- line 36
  | overlap (other : Footstep) (margin : ℝ)  -- line 37

/-- `set_frame_xy`, expose-footsteps.cpp 30-35. -/
noncomputable def Footstep.setFrameXY (f : Footstep) (x y : ℝ) : Footstep :=
  { f with frame := ⟨f.frame.linear, ![x, y, f.frame.translation 2]⟩ }

/-- The footstep after the operation. expose-footsteps.cpp 24-39. -/
noncomputable def pyStep (f : Footstep) : PyStepOp → Footstep
  | .setSide s => { f with side := s }
  | .setLength x => { f with length := x }
  | .setWidth x => { f with width := x }
  | .setFrame T => { f with frame := T }
  | .setFrameXY x y => f.setFrameXY x y
  | .writeInFrame => f
  | .supportPolygon => f.supportPolygon.1
  | .overlap _ _ => f

/-- A Python program using one footstep: the footstep at the end. expose-footsteps.cpp 24-39. -/
noncomputable def pyRun (f : Footstep) (ops : List PyStepOp) : Footstep := ops.foldl pyStep f

end Verif.Humanoid
