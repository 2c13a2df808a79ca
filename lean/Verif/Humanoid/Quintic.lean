/-
Model of the quintic swing foot trajectory and of the kick trajectory.
  /repo/src/placo/humanoid/swing_foot_quintic.{h,cpp}, kick.{h,cpp}
-/
import Mathlib.LinearAlgebra.Matrix.NonsingularInverse
import Mathlib.LinearAlgebra.Matrix.Notation
import Mathlib.Algebra.Order.Field.Basic
import Verif.Tools.CubicSpline
import Verif.Humanoid.Swing

namespace Verif.Humanoid
open Verif.Tools

section
variable {K : Type} [Field K]

/-- `quintic_pos_times`, swing_foot_quintic.cpp 6-13: the first 6 entries of a vector of 18, the others being left
unset. -/
def quinticPosTimes (t : K) : Fin 6 → K := ![t ^ 5, t ^ 4, t ^ 3, t ^ 2, t ^ 1, 1]

/-- `quintic_d_times`, swing_foot_quintic.cpp 15-22. -/
def quinticDTimes (t : K) : Fin 6 → K := ![5 * t ^ 4, 4 * t ^ 3, 3 * t ^ 2, 2 * t ^ 1, 1, 0]

/-- `quintic_dd_times`, swing_foot_quintic.cpp 24-31. -/
def quinticDdTimes (t : K) : Fin 6 → K := ![20 * t ^ 3, 12 * t ^ 2, 6 * t ^ 1, 2, 0, 0]

/-- `A.block(row, 6 * k, 1, 6) = times`, for a matrix filled with zeros: the row of 18 entries. The vectors of 18 entries
assigned to blocks of 6 columns are accepted when the assertions of Eigen are disabled (release builds): the first 6
entries are copied. swing_foot_quintic.cpp 33-89. -/
def blockRow (k : Nat) (times : Fin 6 → K) (j : Fin 18) : K :=
  if h : 6 * k ≤ j ∧ (j : Nat) - 6 * k < 6 then times ⟨j - 6 * k, h.2⟩ else 0

/-- The matrix `A` of `make_trajectory`, swing_foot_quintic.cpp 42-80. -/
def quinticA (t_start t_end : K) : Matrix (Fin 18) (Fin 18) K :=
  let t_a := t_start + (t_end - t_start) / 4
  let t_b := t_start + 3 * (t_end - t_start) / 4
  Matrix.of ![
    blockRow 0 (quinticPosTimes t_start), blockRow 1 (quinticPosTimes t_start), blockRow 2 (quinticPosTimes t_start),
    blockRow 0 (quinticPosTimes t_end), blockRow 1 (quinticPosTimes t_end), blockRow 2 (quinticPosTimes t_end),
    blockRow 0 (quinticDTimes t_start), blockRow 1 (quinticDTimes t_start), blockRow 2 (quinticDTimes t_start),
    blockRow 0 (quinticDTimes t_end), blockRow 1 (quinticDTimes t_end), blockRow 2 (quinticDTimes t_end),
    blockRow 0 (quinticDdTimes t_start), blockRow 1 (quinticDdTimes t_start),
    blockRow 0 (quinticDdTimes t_end), blockRow 1 (quinticDdTimes t_end),
    blockRow 2 (quinticPosTimes t_a), blockRow 2 (quinticPosTimes t_b)]

/-- The vector `b` of `make_trajectory`. swing_foot_quintic.cpp 33-89. -/
def quinticB (height : K) (start target : Fin 3 → K) : Fin 18 → K :=
  ![start 0, start 1, start 2, target 0, target 1, target 2, 0, 0, 0, 0, 0, 0, 0, 0, 0, 0, height, height]

/-- `SwingFootQuintic::Trajectory`, without the members `t_start` and `t_end`, which `make_trajectory` leaves unset.
swing_foot_quintic.h 14-23. -/
structure Quintic (K : Type) where
  a : Fin 3 → K
  b : Fin 3 → K
  c : Fin 3 → K
  d : Fin 3 → K
  e : Fin 3 → K
  f : Fin 3 → K

open Classical in
/-- `SwingFootQuintic::make_trajectory`, swing_foot_quintic.cpp 33-89. `none` stands for coefficients that are not finite
(the inverse of a singular matrix). -/
noncomputable def Quintic.make (t_start t_end height : K) (start target : Fin 3 → K) : Option (Quintic K) :=
  let A := quinticA t_start t_end
  if A.det = 0 then none
  else
    let coeffs := A⁻¹.mulVec (quinticB height start target)
    some ⟨![coeffs 0, coeffs 6, coeffs 12], ![coeffs 1, coeffs 7, coeffs 13], ![coeffs 2, coeffs 8, coeffs 14],
      ![coeffs 3, coeffs 9, coeffs 15], ![coeffs 4, coeffs 10, coeffs 16], ![coeffs 5, coeffs 11, coeffs 17]⟩

/-- `SwingFootQuintic::Trajectory::pos`, swing_foot_quintic.cpp 91-99. -/
def Quintic.pos (q : Quintic K) (t : K) : Fin 3 → K := fun i =>
  let t_2 := t * t
  let t_3 := t_2 * t
  let t_4 := t_3 * t
  let t_5 := t_4 * t
  q.a i * t_5 + q.b i * t_4 + q.c i * t_3 + q.d i * t_2 + q.e i * t + q.f i

/-- `SwingFootQuintic::Trajectory::vel`, swing_foot_quintic.cpp 101-108. -/
def Quintic.vel (q : Quintic K) (t : K) : Fin 3 → K := fun i =>
  let t_2 := t * t
  let t_3 := t_2 * t
  let t_4 := t_3 * t
  5 * q.a i * t_4 + 4 * q.b i * t_3 + 3 * q.c i * t_2 + 2 * q.d i * t + q.e i

end

end Verif.Humanoid
