/-
Model of `HumanoidRobot::camera_look_at`.
  /repo/src/placo/humanoid/humanoid_robot.cpp 21-27 (the distances) and 209-234
-/
import Verif.Humanoid.Wpg

namespace Verif.Humanoid
open Verif.Tools Verif.Robot

/-- The distances measured by the constructor, humanoid_robot.cpp 23-27, from the transforms of the tilt joint
("head_pitch") and of the camera in the pan frame ("head_base") in the initial configuration. -/
structure Head where
  distZPanTilt : ℝ
  distZPanCamera : ℝ

/-- The distances computed by `init_config`, humanoid_robot.cpp 39-52. -/
def Head.measure (T_headBase_headPitch T_headBase_camera : Affine) : Head :=
  ⟨T_headBase_headPitch.translation 2, T_headBase_camera.translation 2⟩

/-- What `camera_look_at` returns: `false`, `true` with the angles, or `true` with a tilt that is not a number.
humanoid_robot.cpp 209-234. -/
inductive Look where
  | tooClose
  | angles (pan tilt : ℝ)
  | nan (pan : ℝ)

/-- `camera_look_at`, humanoid_robot.cpp 209-234. The division by a null norm is an infinity, or NaN for `0 / 0`: both comparisons are
then false and `acos` returns NaN. -/
noncomputable def Head.lookAt (h : Head) (T_world_headBase : Affine) (P_world_target : V3) : Look :=
  let P_headBase_target := T_world_headBase.inv.apply P_world_target
  let pan := atan2 (P_headBase_target 1) (P_headBase_target 0)
  let px := Real.sqrt (P_headBase_target 0 ^ 2 + P_headBase_target 1 ^ 2)
  let py := P_headBase_target 2 - h.distZPanTilt
  let theta := Real.pi / 2 - atan2 py px
  let norm := Real.sqrt (px ^ 2 + py ^ 2)
  if norm = 0 then
    if h.distZPanCamera = 0 then .nan pan else .tooClose
  else
    let ratio := h.distZPanCamera / norm
    if 1 < ratio ∨ ratio < -1 then .tooClose
    else .angles pan (theta - Real.arccos ratio)

end Verif.Humanoid
