/-
Concrete cases for the theorems of Dynamics, and the counterexample to C63.
-/
import Verif.Dynamics.ContactsProps
import Verif.Dynamics.LimitsProps
import Verif.Dynamics.TasksProps
import Verif.Kinematics.SolverExamples

namespace Verif.Dynamics
open Finset Verif.Problem Verif.Kinematics

/-- A base with one arm joint, unit masses, a gravity of 10 along `z`; the arm is limited to [-5/2, 0]. -/
def demo : DynRobot ℚ where
  nq := 8
  nv := 7
  joints := [⟨"arm", 7, 1, 6, 1⟩]
  lower := fun i => if i = 7 then -5 / 2 else 0
  upper := fun _ => 0
  vlim := fun _ => 2
  integrate := fun q v i => if i = 0 then q 0 else q i + v (i - 1)
  difference := fun q q' i => q' (i + 1) - q (i + 1)
  mass := fun _ i j => if i = j then 1 else 0
  gravity := fun _ i => if i = 2 then 10 else 0
  nle := fun _ i => if i = 2 then 10 else 0
  effort := fun _ => 3

/-- A rational square root, exact on the values met below. -/
def sqrtQ (x : ℚ) : ℚ := if x = 1 then 1 else if x = 4 then 2 else 0

theorem sqrtQ_ok : SqrtOK sqrtQ := by
  intro x hx
  unfold sqrtQ
  by_cases h1 : x = 1
  · rw [if_pos h1, h1]; norm_num
  · rw [if_neg h1]
    by_cases h4 : x = 4
    · rw [if_pos h4, h4]; norm_num
    · rw [if_neg h4]; simpa using hx

/-- The vertical force cancels gravity and the arm accelerates at 1. -/
def demoEnv : DEnv ℚ := ⟨fixedEnv fun k => if k = 6 then 1 else if k = 9 then 10 else 0, sqrtQ⟩

theorem demoEnv_sound : demoEnv.toQPEnv.Sound := fixedEnv_sound _

/-- The arm at -1/2, at rest, all limits enabled. -/
def demoState : DState ℚ where
  robot := ⟨fun i => if i = 6 then 1 else if i = 7 then -1 / 2 else 0, fun _ => 0, fun _ => 0⟩
  dt := 1
  damping := 0
  torqueCost := 0
  torqueLimits := true
  jointLimits := true
  velocityLimits := true
  qddSafe := fun _ => 1

/-- The first three rows, or six rows, of the identity. -/
def idJac : RState ℚ → Nat → Nat → ℚ := fun _ i j => if i = j then 1 else 0

/-- A unilateral planar contact under the base. -/
def foot : Contact ℚ := ⟨.planar idJac true (1 / 5) (1 / 10), true, 1, 0, 0, 0⟩

/-- A unilateral point contact under the base, without rotation of the surface. -/
def spike : Contact ℚ := ⟨.point (fun _ => ⟨3, 7, fun i j => if i = j then 1 else 0⟩) (fun i j => if i = j then 1 else 0) true,
  true, 1, 0, 0, 0⟩

/-- A hard joints task asking for an acceleration of 1, and a hard torque task asking for a torque of 1. -/
def demoTasks : List (DTask ℚ) :=
  [⟨.hard, 1, false, (jointsAfter 0 0 [⟨"arm", 0, 0, 1⟩]).update sqrtQ demo.toRobot⟩,
   ⟨.hard, 1, true, torqueUpdate demo.toRobot [("arm", ⟨1, 0, 0⟩)]⟩]

/-- What is observed of a solve: success, torque and acceleration of the arm, vertical force, angle of the arm. -/
def seenRes (r : RState ℚ × Except Err (Result ℚ)) : Option (Bool × ℚ × ℚ × Option ℚ × ℚ) :=
  match r.2 with
  | .ok res => some (res.success, res.tau 6, res.qdd 6, (res.wrenches.head?).map (· 2), r.1.q 7)
  | .error _ => none

theorem of_seenRes {r : RState ℚ × Except Err (Result ℚ)} {a b z f}
    (h : seenRes r = some (true, a, b, z, f)) :
    ∃ rs res, r = (rs, .ok res) ∧ res.success = true ∧ res.tau 6 = a ∧ res.qdd 6 = b ∧ rs.q 7 = f := by
  obtain ⟨rs, res⟩ := r
  cases res with
  | error e => cases h
  | ok res =>
    simp only [seenRes, Option.some.injEq, Prod.mk.injEq] at h
    exact ⟨rs, res, rfl, h.1, h.2.1, h.2.2.1, h.2.2.2.2⟩

/-- C57, C58, C59, C64, C102 and C103 are not vacuous: a solve with a unilateral planar contact, hard tasks and all the limits
succeeds, with a contact force of 10. -/
theorem demo_solve : seenRes (solve demoEnv demo demoTasks [foot] [] true demoState) = some (true, 1, 1, some 10, 1 / 2) := by
  decide +kernel

example : seenRes (solve demoEnv demo demoTasks [spike] [] true demoState) = some (true, 1, 1, some 10, 1 / 2) := by
  decide +kernel

/-- Torques above the limits and the velocity/torque relation are refused. -/
example : seenRes (solve demoEnv demo demoTasks [foot] [] true { demoState with overrides := fun _ => some (1 / 2) }) =
    some (false, 0, 0, none, -1 / 2) ∧
    seenRes (solve demoEnv demo demoTasks [foot] [] true { demoState with velocityVsTorque := true }) =
    some (true, 1, 1, some 10, 1 / 2) := by
  constructor <;> decide +kernel

/-- C62 on a concrete execution: the arm overshoots by 1/2 ≤ qdd_safe dt². -/
example : (runCalls demo demoState.robot [⟨demoEnv, demoTasks, [foot], [], demoState⟩]).q 7 = 1 / 2 := by
  decide +kernel

/-- **C63 is false**: an arm starting inside its limits, at rest, is taken out of them by one successful step with the limits
enabled. -/
theorem C63_refuted : ∃ (r : DynRobot ℚ) (env : DEnv ℚ) (tasks : List (DTask ℚ)) (contacts : List (Contact ℚ)) (s : DState ℚ),
    env.toQPEnv.Sound ∧ SqrtOK env.sqrt ∧ (∀ q v, r.integrate q v 7 = q 7 + v 6) ∧
    s.jointLimits = true ∧ 0 < s.dt ∧ 0 < s.qddSafe 6 ∧ (∀ i, s.robot.qd i = 0) ∧
    r.lower 7 < s.robot.q 7 ∧ s.robot.q 7 < r.upper 7 ∧
    ∃ rs res, solve env r tasks contacts [] true s = (rs, .ok res) ∧ res.success = true ∧ r.upper 7 < rs.q 7 := by
  obtain ⟨rs, res, h1, h2, -, -, h3⟩ := of_seenRes demo_solve
  refine ⟨demo, demoEnv, demoTasks, [foot], demoState, demoEnv_sound, sqrtQ_ok, fun q v => rfl, rfl, by norm_num [demoState],
    by norm_num [demoState], fun _ => rfl, by norm_num [demo, demoState], by norm_num [demo, demoState], rs, res, h1, h2, ?_⟩
  rw [h3]
  norm_num [demo]

/-- A limit of C63_partial: the arm starting in the middle of its limits, `2 qdd_safe dt²` away from both. -/
example : ∃ s : DState ℚ, s.jointLimits = true ∧ 0 < s.dt ∧ 0 < s.qddSafe 6 ∧
    s.robot.q 7 ≤ demo.upper 7 - 2 * s.qddSafe 6 * s.dt ^ 2 ∧ demo.lower 7 + 2 * s.qddSafe 6 * s.dt ^ 2 ≤ s.robot.q 7 := by
  refine ⟨{ demoState with dt := 1 / 2, robot := ⟨fun _ => -1, fun _ => 0, fun _ => 0⟩ }, rfl, ?_, ?_, ?_, ?_⟩ <;>
    norm_num [demo, demoState]

/-- C59_missing_size and C64_dt on concrete calls. -/
example : seenRes (solve demoEnv demo [] [{ foot with kind := .planar idJac true 0 1 }] [] true demoState) = none ∧
    seenRes (solve demoEnv demo [] [] [] true { demoState with dt := 0 }) = none := by
  constructor <;> decide +kernel

/-- C60_refuted: such a line contact exists and its update succeeds. -/
example : (⟨.line idJac (fun _ => ⟨2, 7, fun _ _ => 0⟩) (fun i j => if i = j then 1 else 0) true 1, true, 1, 0, 0, 0⟩ :
    Contact ℚ).update 7 demoState.robot |>.isOk := by decide +kernel

/-- C61: both kinds of contacts accept constraints with a positive tangential weight. -/
example : (Contact.constraints { foot with weightTangentials := 1 } ⟨6, 7, fun _ _ => 0, fun _ => 0⟩).isOk ∧
    (Contact.constraints { spike with weightTangentials := 1 } ⟨3, 7, fun _ _ => 0, fun _ => 0⟩).isOk := by
  constructor <;> decide +kernel

/-- C65_joints on a concrete motion: `q = exp(-t)` towards 0, `kp = 1`. -/
def oneJoint : Robot ℝ := ⟨2, 1, [⟨"arm", 1, 1, 0, 1⟩], fun _ => 0, fun _ => 0, fun _ => 0, fun q _ => q, fun q _ => q⟩

noncomputable def decay (t : ℝ) : RState ℝ := ⟨fun _ => Real.exp (-t), fun _ => -Real.exp (-t), fun _ => Real.exp (-t)⟩

example : ∀ t, ∃ M, (jointsAfter 1 (-1) [⟨"arm", 0, 0, 0⟩]).update Real.sqrt oneJoint (decay t) = .ok M ∧
    M.Met (decay t).qdd := by
  intro t
  refine ⟨_, rfl, ?_⟩
  refine (joints_met Real.sqrt oneJoint (by simp [oneJoint]) 1 (-1) [⟨"arm", 0, 0, 0⟩] (decay t) _ rfl _).2 ?_
  intro name c j hc hj
  have hname : name = "arm" := by
    by_contra hne
    simp [lastCall, hne] at hc
  subst hname
  cases hc
  cases hj
  norm_num [decay, getKd]
  ring

end Verif.Dynamics
