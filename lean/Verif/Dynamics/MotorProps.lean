/-
Property C188: the limits of DC motors.
-/
import Verif.Dynamics.OptimalProps

namespace Verif.Dynamics
open Finset Verif.Problem Verif.Kinematics

/-- Specification: a DC motor with its supply: torque constant, resistance and voltage. docs/dynamics/limits.rst 84-91. -/
structure DCMotor where
  kt : ℝ
  resistance : ℝ
  vin : ℝ
  kt_pos : 0 < kt
  resistance_pos : 0 < resistance
  vin_pos : 0 < vin

/-- Specification: the limits of the model for a joint driven by a motor: stall torque and no-load speed. docs/dynamics/limits.rst 93-97. -/
def DCMotor.Drives (m : DCMotor) (r : DynRobot ℝ) (i : Nat) : Prop :=
  r.effort i = m.kt * m.vin / m.resistance ∧ r.vlim i = m.vin / m.kt

/-- Specification: the current for a torque. docs/dynamics/limits.rst 107. -/
noncomputable def DCMotor.current (m : DCMotor) (torque : ℝ) : ℝ := torque / m.kt

/-- Specification: the voltage for a torque at a speed. docs/dynamics/limits.rst 108. -/
noncomputable def DCMotor.voltage (m : DCMotor) (torque speed : ℝ) : ℝ := m.resistance * m.current torque + m.kt * speed

/-- The constraint of the code is exactly that the voltage is available. -/
theorem DCMotor.mixed_iff (m : DCMotor) (r : DynRobot ℝ) (i : Nat) (h : m.Drives r i) (torque speed : ℝ) :
    |speed + r.vlim i / r.effort i * torque| ≤ r.vlim i ↔ |m.voltage torque speed| ≤ m.vin := by
  obtain ⟨h1, h2⟩ := h
  have hk := m.kt_pos
  have hr := m.resistance_pos
  have hv := m.vin_pos
  have e : m.voltage torque speed = m.kt * (speed + r.vlim i / r.effort i * torque) := by
    rw [h1, h2]
    unfold DCMotor.voltage DCMotor.current
    field_simp
    ring
  have e2 : m.vin = m.kt * r.vlim i := by
    rw [h2]
    field_simp
  rw [e, e2, abs_mul, abs_of_pos hk]
  exact ⟨fun h => mul_le_mul_of_nonneg_left h hk.le, fun h => le_of_mul_le_mul_left h hk⟩

/-- The voltage is available exactly when the torque is in the documented interval. docs/dynamics/limits.rst 99-103. -/
theorem DCMotor.voltage_iff (m : DCMotor) (torque speed : ℝ) : |m.voltage torque speed| ≤ m.vin ↔
    torque ∈ Set.Icc (-(m.kt / m.resistance * m.vin) - m.kt ^ 2 / m.resistance * speed) (m.kt / m.resistance * m.vin - m.kt ^ 2 / m.resistance * speed) := by
  have hk := m.kt_pos
  have hr := m.resistance_pos
  have hkr : 0 < m.kt / m.resistance := div_pos hk hr
  have e : torque = m.kt / m.resistance * m.voltage torque speed - m.kt ^ 2 / m.resistance * speed := by
    unfold DCMotor.voltage DCMotor.current
    field_simp
    ring
  rw [abs_le, Set.mem_Icc]
  constructor
  · rintro ⟨h1, h2⟩
    have h1 := mul_le_mul_of_nonneg_left h1 hkr.le
    have h2 := mul_le_mul_of_nonneg_left h2 hkr.le
    constructor <;> linarith
  · rintro ⟨h1, h2⟩
    constructor
    · refine le_of_mul_le_mul_left ?_ hkr
      linarith
    · refine le_of_mul_le_mul_left ?_ hkr
      linarith

/-- **C188, what is true.** With velocity vs torque limits, the voltage needed at the *end of the step* is available for each joint driven by
a DC motor; with torque limits and the documented override, the current is at most the given one. The voltage needed at the beginning of the step
exceeds the available one by at most the back-EMF of the change of speed. Missing for the full C188: the voltage at the velocity of the robot
(`C188_refuted`). -/
theorem C188_partial (env : DEnv ℝ) (hS : env.toQPEnv.Sound) (r : DynRobot ℝ) (tasks : List (DTask ℝ)) (contacts : List (Contact ℝ))
    (cons : List (DConstraint ℝ)) (integrate : Bool) (s : DState ℝ) (rs : RState ℝ) (res : Result ℝ)
    (h : solve env r tasks contacts cons integrate s = (rs, .ok res)) (hok : res.success = true) (i : Nat) (h6 : 6 ≤ i) (hi : i < r.nv)
    (m : DCMotor) (hm : m.Drives r i) :
    (s.velocityVsTorque = true → |m.voltage (res.tau i) (s.robot.qd i + s.dt * res.qdd i)| ≤ m.vin ∧
      |m.voltage (res.tau i) (s.robot.qd i)| ≤ m.vin + m.kt * |s.dt * res.qdd i|) ∧
    (∀ imax, s.torqueLimits = true → s.overrides i = some (m.kt * imax) → |m.current (res.tau i)| ≤ imax) := by
  have hk := m.kt_pos
  have hr := m.resistance_pos
  have hv := m.vin_pos
  obtain ⟨ht, -, hmix⟩ := C64 env hS r tasks contacts cons integrate s rs res h hok
  refine ⟨fun hvt => ?_, fun imax htl ho => ?_⟩
  · have hvl : 0 < r.vlim i := by rw [hm.2]; exact div_pos hv hk
    have hef : 0 < r.effort i := by rw [hm.1]; positivity
    have h1 := hmix hvt i h6 hi hvl hef
    have h2 : |s.robot.qd i + s.dt * res.qdd i + r.vlim i / r.effort i * res.tau i| ≤ r.vlim i := by
      have e : s.robot.qd i + s.dt * res.qdd i + r.vlim i / r.effort i * res.tau i =
          r.vlim i * ((s.robot.qd i + s.dt * res.qdd i) / r.vlim i + res.tau i / r.effort i) := by
        field_simp
      rw [e, abs_mul, abs_of_pos hvl]
      exact mul_le_of_le_one_right hvl.le h1
    have h3 := (m.mixed_iff r i hm _ _).1 h2
    refine ⟨h3, ?_⟩
    have e : m.voltage (res.tau i) (s.robot.qd i) = m.voltage (res.tau i) (s.robot.qd i + s.dt * res.qdd i) + -(m.kt * (s.dt * res.qdd i)) := by
      unfold DCMotor.voltage
      ring
    rw [e]
    refine (abs_add_le _ _).trans ?_
    rw [abs_neg, abs_mul m.kt, abs_of_pos hk]
    linarith
  · have h1 := ht htl i h6 hi
    rw [ho] at h1
    unfold DCMotor.current
    rw [abs_div, abs_of_pos hk, div_le_iff₀ hk]
    linarith

/-- **C188, exactly.** When all the joints are driven by DC motors, velocity vs torque limits allow exactly the motions that meet everything else
and for which the voltages at the end of the step are available. -/
theorem C188_exact (sqrt : ℝ → ℝ) (r : DynRobot ℝ) (tasks : List (DTask ℝ)) (contacts : List (Contact ℝ)) (s : DState ℝ) (m : Nat → DCMotor)
    (hm : ∀ i, 6 ≤ i → i < r.nv → (m i).Drives r i) (y tau : Nat → ℝ) (ws : List (Nat → ℝ)) :
    Motion sqrt r tasks contacts { s with velocityVsTorque := true } y tau ws ↔
      Motion sqrt r tasks contacts { s with velocityVsTorque := false, velocityLimits := false } y tau ws ∧
      ∀ i, 6 ≤ i → i < r.nv → |(m i).voltage (tau i) (s.robot.qd i + s.dt * y i)| ≤ (m i).vin := by
  constructor
  · intro M
    exact ⟨⟨M.dynamics, M.wrenches, M.base, M.fbase, M.tasks, ⟨M.limits.torque, fun h => (by cases h), fun h => (by cases h), M.limits.upper,
      M.limits.lower⟩⟩, fun i h6 hi => ((m i).mixed_iff r i (hm i h6 hi) _ _).1 (M.limits.mixed rfl i h6 hi)⟩
  · rintro ⟨M, H⟩
    exact ⟨M.dynamics, M.wrenches, M.base, M.fbase, M.tasks, ⟨M.limits.torque, fun _ h => (by cases h),
      fun _ i h6 hi => ((m i).mixed_iff r i (hm i h6 hi) _ _).2 (H i h6 hi), M.limits.upper, M.limits.lower⟩⟩

/-- A motor of 1 V, 1 Ω and 1 Nm/A. -/
def unitMotor : DCMotor := ⟨1, 1, 1, one_pos, one_pos, one_pos⟩

/-- The hinge with a load: 5/4 Nm hold it. -/
noncomputable def loadedHinge : DynRobot ℝ := { hingeDyn with nle := fun _ i => if i = 6 then 5 / 4 else 0 }

/-- The hinge raising its load at half of the no-load speed, with velocity vs torque limits and torque limits. -/
noncomputable def raisingState : DState ℝ :=
  { hingeDState with robot := ⟨fun _ => 0, fun i => if i = 6 then 1 / 2 else 0, fun _ => 0⟩, velocityVsTorque := true, torqueLimits := true }

/-- **C188 is false** at the velocity of the robot: with all the limits of the documentation, a joint that turns slower than the no-load speed
and slows down gets a torque smaller than the stall torque, but that takes a voltage greater than the one available. -/
theorem C188_refuted (env : DEnv ℝ) (hex : env.toQPEnv.Exact) (hS : env.toQPEnv.Sound) (hO : env.toQPEnv.Optimal) (hreg : 0 < env.regularization)
    (htol : 0 ≤ env.tol) : unitMotor.Drives loadedHinge 6 ∧ |raisingState.robot.qd 6| < loadedHinge.vlim 6 ∧
    ∃ res, (solve env loadedHinge [hingeDTask (-1 / 2)] [] [] false raisingState).2 = .ok res ∧ res.success = true ∧
      |res.tau 6| < loadedHinge.effort 6 ∧ unitMotor.vin < |unitMotor.voltage (res.tau 6) (raisingState.robot.qd 6)| := by
  have hmul : ∀ y : Nat → ℝ, ∀ i, i < 7 → ∑ j ∈ range loadedHinge.nv, loadedHinge.mass raisingState.robot i j * y j = y i :=
    fun y i hi => hinge_mass_mul raisingState.robot y i hi
  have ht : ∀ t ∈ [hingeDTask (-1 / 2)], DTaskReady loadedHinge.nv raisingState.robot t := by
    intro t ht
    rw [List.mem_singleton.1 ht]
    exact ⟨by simp [hingeDTask], _, rfl, rfl⟩
  have hmot : ∃ y tau ws, Motion env.sqrt loadedHinge [hingeDTask (-1 / 2)] [] raisingState y tau ws := by
    refine ⟨fun k => if k = 6 then -1 / 2 else 0, fun k => if k = 6 then 3 / 4 else 0, [], ⟨⟨[], rfl, fun i hi => ?_⟩, .nil, fun _ i hi => ?_,
      fun h => (by cases h), fun t ht _ M hM i hi => ?_, ⟨fun _ i h6 hi => ?_, fun h => (by cases h), fun _ i h6 hi => ?_,
        fun h => (by cases h), fun h => (by cases h)⟩⟩⟩
    · rw [hmul _ i hi]
      by_cases h6 : i = 6
      · subst h6
        norm_num [raisingState, hingeDState, loadedHinge, hingeDyn, generalised]
      · simp [raisingState, hingeDState, loadedHinge, hingeDyn, generalised, h6]
    · show (if i = 6 then (3 / 4 : ℝ) else 0) = 0
      rw [if_neg (by omega)]
    · rw [List.mem_singleton.1 ht] at hM ⊢
      cases hM
      simp [hingeDTask]
    · have hi : i < 7 := hi
      obtain rfl : i = 6 := by omega
      norm_num [raisingState, hingeDState, loadedHinge, hingeDyn]
    · have hi : i < 7 := hi
      obtain rfl : i = 6 := by omega
      norm_num [raisingState, hingeDState, loadedHinge, hingeDyn, hingeRobot]
  obtain ⟨res, h1, h2⟩ := (C166_partial env loadedHinge (by decide) [hingeDTask (-1 / 2)] [] false raisingState (by simp) ht
    (fun t ht h => by rw [List.mem_singleton.1 ht] at h; cases h) zero_le_one (fun f h => (by cases h)) (fun _ => one_ne_zero) hreg htol hex
    (fun _ => by
      intro rs es u hrs hes
      obtain ⟨q, rfl, hq⟩ := List.map_eq_singleton_iff.1 hrs
      have hes : es = [] := List.map_eq_nil_iff.1 hes
      subst hes
      refine ⟨fun k => if k = 6 then q.2 0 else u k, fun k => if k = 6 then q.2 0 else u k, [], [], rfl, fun i hi => ?_, .nil, fun _ i hi => ?_,
        fun h => (by cases h), fun p hp _ M hM i hi => ?_⟩
      · rw [hmul _ i hi]
        simp [generalised]
      · simp only
        rw [if_neg (by omega)]
      · rw [List.mem_singleton.1 hp] at hM ⊢
        rw [hq] at hM ⊢
        cases hM
        have hi : i < 1 := hi
        obtain rfl : i = 0 := by omega
        simp [hingeDTask, Finset.sum_range_succ])).1.2 hmot
  obtain ⟨M, -⟩ := C187 env hS hO loadedHinge (by decide) [hingeDTask (-1 / 2)] [] false raisingState (by simp) ht (fun f h => (by cases h)) _ res
    (Prod.ext rfl h1) h2
  have hq : res.qdd 6 = -1 / 2 := by
    have := M.tasks _ (List.mem_singleton.2 rfl) rfl _ rfl 0 (by decide)
    simpa [hingeDTask, Finset.sum_range_succ] using this
  have htau : res.tau 6 = 3 / 4 := by
    obtain ⟨Js, hJ, hd⟩ := M.dynamics
    cases hJ
    have := hd 6 (by decide)
    rw [hmul _ 6 (by decide), hq, List.reverse_nil] at this
    have hg : generalised ([] : List (Mat ℝ)) res.wrenches 6 = 0 := by
      have := M.wrenches
      cases hw : res.wrenches with
      | nil => rfl
      | cons w ws => rw [hw] at this; cases this
    rw [hg] at this
    norm_num [raisingState, hingeDState, loadedHinge, hingeDyn] at this
    linarith
  refine ⟨⟨by norm_num [loadedHinge, hingeDyn, unitMotor], by norm_num [loadedHinge, hingeDyn, hingeRobot, unitMotor]⟩,
    by norm_num [raisingState, loadedHinge, hingeDyn, hingeRobot, abs_of_pos], res, h1, h2, ?_, ?_⟩
  · rw [htau]
    norm_num [loadedHinge, hingeDyn, abs_of_pos]
  · rw [htau]
    norm_num [unitMotor, DCMotor.voltage, DCMotor.current, raisingState, abs_of_pos]

/-- The hypotheses of `C188_refuted` are met by exact solvers. -/
example : ∃ env : DEnv ℝ, env.toQPEnv.Exact ∧ env.toQPEnv.Sound ∧ env.toQPEnv.Optimal ∧ 0 < env.regularization ∧ 0 ≤ env.tol := by
  obtain ⟨env, hex, hS, hO, hreg, -, -, htol⟩ := exact_env_exists 1 0 0 true
  exact ⟨⟨env, Real.sqrt⟩, hex, hS, hO, by show 0 < env.regularization; rw [hreg]; exact one_pos, by show 0 ≤ env.tol; rw [htol]⟩

/-- A motor of 12 V, 2 Ω and 1/2 Nm/A: 3 Nm at stall, 24 rad/s without load. -/
example : (⟨1 / 2, 2, 12, by norm_num, by norm_num, by norm_num⟩ : DCMotor).Drives
    { hingeDyn with vlim := fun _ => 24, effort := fun _ => 3 } 6 := by
  constructor <;> norm_num

end Verif.Dynamics
