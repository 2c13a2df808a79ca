/-
Model of the program that shows a robot (`python -m placo_utils.view`).
  /repo/python/placo_utils/view.py 13-42
  /repo/src/placo/model/robot_wrapper.cpp 186-207 (set_joint), 315-321 (update_kinematics), 755-764 (joint_names)
The names of the frames are indices here, and an unknown frame is not modelled. The forward kinematics is a parameter: it is pinocchio's.
The loop of the program has no end: `view` gives its first `n` passes.
-/
import Mathlib.Analysis.SpecialFunctions.Trigonometric.Basic
import Verif.Robot.Accessors

namespace Verif.Robot
open Verif.Tools Verif.Problem

/-- The robot: `model.joints`, and the placements of the frames computed from a configuration (pinocchio).
Used in robot_wrapper.cpp 186-207 and 315-321. -/
structure ViewModel where
  joints : List Kinematics.Joint
  fk : (Nat → ℝ) → Nat → Affine

/-- One pass of the loop on the screen: the configuration given to `viz.display`, and the frames drawn by `robot_frame_viz`.
view.py 29-34. -/
structure Picture where
  q : Nat → ℝ
  frames : List Affine

/-- `update_kinematics`. robot_wrapper.cpp 315-321. -/
def ViewModel.update (m : ViewModel) (s : RW) : RW := { s with oMf := m.fk s.q }

/-- `set_joint`. robot_wrapper.cpp 186-189. -/
def ViewModel.setJoint (m : ViewModel) (name : String) (v : ℝ) (s : RW) : Except Err RW :=
  (jointOffset m.joints name).map fun k => { s with q := fun i => if i = k then v else s.q i }

/-- `for joint in robot.joint_names(): …`. view.py 37-39. -/
def ViewModel.animate (m : ViewModel) (v : ℝ) : List String → RW → Except Err RW
  | [], s => .ok s
  | name :: rest, s => do
    let s ← m.setJoint name v s
    ViewModel.animate m v rest (m.update s)

/-- What a pass shows. view.py 30-34. -/
def ViewModel.show (s : RW) (frames : List Nat) : Picture := ⟨s.q, frames.map s.getTWorldFrame⟩

/-- The first `n` passes of the loop from the time `t`. view.py 29-42. -/
noncomputable def ViewModel.loop (m : ViewModel) (frames : List Nat) (animated : Bool) : Nat → ℝ → RW → Except Err (List Picture)
  | 0, _, _ => .ok []
  | n + 1, t, s => do
    let s' ← if animated then m.animate (Real.sin t) (namesOf m.joints) s else .ok s
    let rest ← ViewModel.loop m frames animated n (t + 0.01) s'
    .ok (ViewModel.show s frames :: rest)

/-- The program, with the neutral configuration `q0` (`oMf0`: what the data contains before the first update). view.py 16-42. -/
noncomputable def ViewModel.view (m : ViewModel) (frames : List Nat) (animated : Bool) (q0 : Nat → ℝ) (oMf0 : Nat → Affine) (n : Nat) :
    Except Err (List Picture) :=
  m.loop frames animated n 0 (m.update ⟨q0, oMf0⟩)

end Verif.Robot
