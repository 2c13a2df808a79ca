/-
Model of the swing foot trajectories.
  /repo/src/placo/humanoid/swing_foot.{h,cpp}, swing_foot_cubic.{h,cpp}
-/
import Mathlib.LinearAlgebra.Matrix.NonsingularInverse
import Mathlib.LinearAlgebra.Matrix.Notation
import Mathlib.Algebra.Order.Field.Basic
import Verif.Tools.CubicSpline

namespace Verif.Humanoid
open Verif.Tools

/-! ### SwingFoot -/

section
variable {K : Type} [Field K]

/-- `position_coefficients`, swing_foot.cpp 6-15. -/
def positionCoefficients (t : K) : Fin 4 → K := ![t * t * t, t * t, t, 1]

/-- `velocity_coefficients`, swing_foot.cpp 17-25. -/
def velocityCoefficients (t : K) : Fin 4 → K := ![3 * (t * t), 2 * t, 1, 0]

/-- Eigen's `A << v0, v1, v2, v3` with column vectors fills the columns of `A`.
Used in swing_foot.cpp 27-102. -/
def columns (v0 v1 v2 v3 : Fin 4 → K) : Matrix (Fin 4) (Fin 4) K :=
  Matrix.of fun i j => (![v0, v1, v2, v3] j) i

/-- `SwingFoot::Trajectory`, swing_foot.h. Lines 16-23 of swing_foot.h. -/
structure SwingFoot (K : Type) where
  tStart : K
  tEnd : K
  a : Fin 3 → K
  b : Fin 3 → K
  c : Fin 3 → K
  d : Fin 3 → K

/-- `SwingFoot::make_trajectory`, swing_foot.cpp 27-70. Eigen's `inverse()` is the exact
inverse of Mathlib. -/
noncomputable def SwingFoot.make (tStart tEnd height : K) (start target : Fin 3 → K) : SwingFoot K :=
  let A := (columns (positionCoefficients 0) (positionCoefficients (tEnd - tStart))
    (velocityCoefficients 0) (velocityCoefficients (tEnd - tStart))).transpose⁻¹
  let x := A.mulVec ![start 0, target 0, 0, 0]
  let y := A.mulVec ![start 1, target 1, 0, 0]
  let B := (columns (positionCoefficients 0) (positionCoefficients (1 / 4 * (tEnd - tStart)))
    (positionCoefficients (3 / 4 * (tEnd - tStart))) (positionCoefficients (tEnd - tStart))).transpose⁻¹
  let z := B.mulVec ![start 2, height, height, target 2]
  ⟨tStart, tEnd, ![x 0, y 0, z 0], ![x 1, y 1, z 1], ![x 2, y 2, z 2], ![x 3, y 3, z 3]⟩

/-- `SwingFoot::Trajectory::pos`, swing_foot.cpp 104-111. -/
def SwingFoot.pos (s : SwingFoot K) (t : K) : Fin 3 → K := fun i =>
  let t := t - s.tStart
  s.a i * (t * t * t) + s.b i * (t * t) + s.c i * t + s.d i

/-- `SwingFoot::Trajectory::vel`, swing_foot.cpp 113-119. -/
def SwingFoot.vel (s : SwingFoot K) (t : K) : Fin 3 → K := fun i =>
  let t := t - s.tStart
  3 * s.a i * (t * t) + 2 * s.b i * t + s.c i

/-- `SwingFoot::remake_trajectory`, swing_foot.cpp 72-102. -/
noncomputable def SwingFoot.remake (old : SwingFoot K) (t : K) (target : Fin 3 → K) : SwingFoot K :=
  let A := (columns (positionCoefficients (t - old.tStart)) (positionCoefficients (old.tEnd - old.tStart))
    (velocityCoefficients (t - old.tStart)) (velocityCoefficients (old.tEnd - old.tStart))).transpose⁻¹
  let x := A.mulVec ![old.pos t 0, target 0, old.vel t 0, 0]
  let y := A.mulVec ![old.pos t 1, target 1, old.vel t 1, 0]
  ⟨old.tStart, old.tEnd, ![x 0, y 0, old.a 2], ![x 1, y 1, old.b 2], ![x 2, y 2, old.c 2], ![x 3, y 3, old.d 2]⟩

end

/-! ### SwingFootCubic -/

section
variable {K : Type} [Field K] [LinearOrder K]

/-- `SwingFootCubic::Trajectory`: three splines, built with `angular = false`. The
inherited `t_start` and `t_end` are left unset by `make_trajectory` and not modelled.
swing_foot_cubic.h 16-27. -/
structure CubicSwing (K : Type) where
  x : SplineSt K
  y : SplineSt K
  z : SplineSt K

/-- The vector `t` of swing_foot_cubic.cpp 32-41. -/
def plateauTimes (tStart virtDuration riseRatio elapsedRatio : K) : List K :=
  let halfDuration := virtDuration / 2
  let virtTStart := tStart - elapsedRatio * virtDuration
  if 0 < riseRatio then
    [virtTStart + halfDuration - halfDuration * riseRatio, virtTStart + halfDuration + halfDuration * riseRatio]
  else [virtTStart + halfDuration]

/-- The loop swing_foot_cubic.cpp 43-49. -/
def addPlateau (wrap : K → K) (tStart height : K) : List K → SplineSt K → Except Err (SplineSt K)
  | [], s => .ok s
  | t :: ts, s =>
    if tStart < t then
      match s.addPoint wrap t height 0 with
      | .error e => .error e
      | .ok s => addPlateau wrap tStart height ts s
    else addPlateau wrap tStart height ts s

/-- `SwingFootCubic::make_trajectory`, swing_foot_cubic.cpp 17-56. The three splines are
independent, so the points of each are added axis by axis here; every exception is
`add_point`'s `runtime_error`. `wrap` is `tools::wrap_angle`, unused by these splines. -/
def CubicSwing.make (wrap : K → K) (tStart virtDuration height riseRatio : K) (start target : Fin 3 → K)
    (elapsedRatio : K) (startVel : Fin 3 → K) : Except Err (CubicSwing K) := do
  let tEnd := tStart + (1 - elapsedRatio) * virtDuration
  let x ← (SplineSt.init false).addPoint wrap tStart (start 0) (startVel 0)
  let x ← x.addPoint wrap tEnd (target 0) 0
  let y ← (SplineSt.init false).addPoint wrap tStart (start 1) (startVel 1)
  let y ← y.addPoint wrap tEnd (target 1) 0
  let z ← (SplineSt.init false).addPoint wrap tStart (start 2) (startVel 2)
  let z ← addPlateau wrap tStart height (plateauTimes tStart virtDuration riseRatio elapsedRatio) z
  let z ← z.addPoint wrap tEnd (target 2) 0
  pure ⟨x, y, z⟩

/-- `pos`/`vel`, swing_foot_cubic.cpp 7-15 (the refresh of the splines' cache does not
change any later answer, see C31). -/
noncomputable def CubicSwing.read (s : CubicSwing K) (t : K) (ty : ValueType) : Except Err (Fin 3 → K) := do
  let a ← (s.x.interpolation t ty).2
  let b ← (s.y.interpolation t ty).2
  let c ← (s.z.interpolation t ty).2
  pure ![a, b, c]

end
end Verif.Humanoid
