/-
The other queries of planned trajectories.
  /repo/src/placo/humanoid/walk_pattern_generator.cpp 197-243, 318-322
-/
import Verif.Humanoid.Wpg

namespace Verif.Humanoid
open Verif.Problem Verif.Tools Verif.Robot

/-- `get_p_world_DCM`, walk_pattern_generator.cpp 197-200. -/
noncomputable def Traj.getPWorldDCM (tr : Traj) (t omega : ℝ) : Except Err V2 := do
  let p ← tr.getPWorldCoM t
  let v ← tr.getDWorldCoM 1 t
  .ok ⟨p 0 + 1 / omega * v 0, p 1 + 1 / omega * v 1⟩

/-- `get_p_world_ZMP`, walk_pattern_generator.cpp 202-205. -/
noncomputable def Traj.getPWorldZMP (tr : Traj) (t omega : ℝ) : Except Err V2 := do
  let p ← tr.getPWorldCoM t
  let a ← tr.getDWorldCoM 2 t
  .ok ⟨p 0 - 1 / omega ^ 2 * a 0, p 1 - 1 / omega ^ 2 * a 1⟩

/-- `Eigen::AngleAxisd(angle, UnitY).matrix()`.
Eigen, used in walk_pattern_generator.cpp 207-213. -/
noncomputable def turnY (angle : ℝ) : M3 :=
  !![Real.cos angle, 0, Real.sin angle; 0, 1, 0; -Real.sin angle, 0, Real.cos angle]

/-- `Eigen::AngleAxisd(angle, UnitX).matrix()`. Eigen. -/
noncomputable def turnX (angle : ℝ) : M3 :=
  !![1, 0, 0; 0, Real.cos angle, -Real.sin angle; 0, Real.sin angle, Real.cos angle]

/-- `get_R_world_trunk`, walk_pattern_generator.cpp 207-213. -/
noncomputable def Traj.getRWorldTrunk (tr : Traj) (t : ℝ) : Except Err M3 := do
  let yaw ← (tr.trunkYaw.interpolation t .value).2
  .ok (tr.T.linear * (rotZ yaw * turnY tr.trunkPitch * turnX tr.trunkRoll))

/-- `flatten_on_floor(get_T_world_foot(part.support.side(), t)).inverse()`, walk_pattern_generator.cpp 217-218 and 224-225. -/
noncomputable def Traj.getTSupportWorld (tr : Traj) (t : ℝ) : Except Err Affine := do
  let part ← findPart tr.parts t
  let s ← part.support.side
  let T ← tr.getTWorldFoot s t
  .ok (flattenOnFloor T).inv

/-- `get_p_support_CoM`, walk_pattern_generator.cpp 215-220. -/
noncomputable def Traj.getPSupportCoM (tr : Traj) (t : ℝ) : Except Err V3 := do
  let T ← tr.getTSupportWorld t
  let p ← tr.getPWorldCoM t
  .ok (T.apply p)

/-- `get_v_support_CoM`, walk_pattern_generator.cpp 222-227. -/
noncomputable def Traj.getVSupportCoM (tr : Traj) (t : ℝ) : Except Err V3 := do
  let T ← tr.getTSupportWorld t
  let v ← tr.getDWorldCoM 1 t
  .ok (T.linear.mulVec v)

/-- `get_p_support_DCM`, walk_pattern_generator.cpp 229-232. -/
noncomputable def Traj.getPSupportDCM (tr : Traj) (t omega : ℝ) : Except Err V2 := do
  let p ← tr.getPSupportCoM t
  let v ← tr.getVSupportCoM t
  .ok ⟨p 0 + 1 / omega * v 0, p 1 + 1 / omega * v 1⟩

/-- `support_side`, walk_pattern_generator.cpp 234-237. -/
noncomputable def Traj.supportSide (tr : Traj) (t : ℝ) : Except Err Side := do
  let part ← findPart tr.parts t
  part.support.side

/-- `support_is_both`, walk_pattern_generator.cpp 239-242. -/
noncomputable def Traj.supportIsBoth (tr : Traj) (t : ℝ) : Except Err Bool := do
  let part ← findPart tr.parts t
  .ok part.support.isBoth

/-- `get_part_end_dcm`, walk_pattern_generator.cpp 318-322. -/
noncomputable def Traj.getPartEndDcm (tr : Traj) (t omega : ℝ) : Except Err V2 := do
  let part ← findPart tr.parts t
  tr.getPWorldDCM part.tEnd omega

end Verif.Humanoid
