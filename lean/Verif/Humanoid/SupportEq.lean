/-
Model of the equality of footsteps and of supports.
  /repo/src/placo/humanoid/footsteps_planner.cpp 96-99, 212-227
-/
import Verif.Humanoid.Footsteps

namespace Verif.Humanoid
open Verif.Tools

/-- `NumTraits<double>::dummy_precision()`. Eigen, used in footsteps_planner.cpp 98. -/
noncomputable def eigenPrecision : ℝ := 1 / 10 ^ 12

/-- The sum of the squares of the coefficients of the 4 × 4 matrix of a transformation, the last row being `bottom`. Eigen, used in
footsteps_planner.cpp 98. -/
noncomputable def squares (T : Affine) (bottom : ℝ) : ℝ := (∑ i, ∑ j, T.linear i j ^ 2) + (∑ i, T.translation i ^ 2) + bottom

/-- `Eigen::Affine3d::isApprox` with the default precision: that of the 4 × 4 matrices, relative to the smaller one.
Eigen, used in footsteps_planner.cpp 98. -/
def isApprox (a b : Affine) : Prop :=
  squares ⟨a.linear - b.linear, a.translation - b.translation⟩ 0 ≤ eigenPrecision ^ 2 * min (squares a 1) (squares b 1)

/-- `Footstep::operator==`, footsteps_planner.cpp 96-99. -/
def Footstep.eq (f g : Footstep) : Prop := f.side = g.side ∧ isApprox f.frame g.frame

/-- The loop of `Support::operator==`, footsteps_planner.cpp 218-224. -/
def footstepsEq : List Footstep → List Footstep → Prop
  | f :: fs, g :: gs => f.eq g ∧ footstepsEq fs gs
  | _, _ => True

/-- `Support::operator==`, footsteps_planner.cpp 212-227. -/
def Support.eq (a b : Support) : Prop := a.footsteps.length = b.footsteps.length ∧ footstepsEq a.footsteps b.footsteps

end Verif.Humanoid
