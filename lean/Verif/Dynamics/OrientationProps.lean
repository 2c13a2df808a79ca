/-
Properties C121 and C122: the orientation tasks of the dynamics solver.
-/
import Verif.Dynamics.FrameTasks
import Verif.Kinematics.FrameTasksProps

namespace Verif.Dynamics
open Finset Verif.Problem Verif.Tools Verif.Kinematics Verif.Robot

/-! ## Specification -/

/-- A frame that turns with the robot along a smooth motion: its angular velocity (in the world) is `J qd`, and the
derivative of the angular velocity is `J qdd + dJ qd`. -/
structure Turns (N : Nat) (R : ℝ → M3) (J dJ : ℝ → J3) (s : ℝ → RState ℝ) : Prop where
  rot : ∀ t, IsRotation (R t)
  ang : ∀ t i j, HasDerivAt (fun t => R t i j) (cross3 (app N (J t) (s t).qd) (fun k => R t k j) i) t
  acc : ∀ t, HasDerivAt (fun t => app N (J t) (s t).qd) (app N (J t) (s t).qdd + app N (dJ t) (s t).qd) t

/-! ## Lemmas -/

theorem dot3_add (u v w : V3) : dot3 u (v + w) = dot3 u v + dot3 u w := by
  simp only [dot3, Pi.add_apply]; ring

theorem dot3_sub (u v w : V3) : dot3 u (v - w) = dot3 u v - dot3 u w := by
  simp only [dot3, Pi.sub_apply]; ring

theorem deriv_iff_at {f : ℝ → ℝ} {a b t : ℝ} (h : HasDerivAt f a t) : a = b ↔ HasDerivAt f b t :=
  ⟨fun e => e ▸ h, fun h' => h.unique h'⟩

/-! ## C121 -/

/-- **C121.** Whatever the motion, the orientation task of the dynamics solver is met by the accelerations of the robot
exactly when, along each selected axis, the angular acceleration of the frame is the one of the proportional-derivative
law: `kp` times the rotation vector that takes the frame to its target, `kd` times the error of angular velocity, plus the
desired angular acceleration. -/
theorem C121 (log3 : M3 → V3) (hlog : LogOK log3) (N : Nat) (mask : Mask ℝ) (kp kd : ℝ) (R_target : M3)
    (hT : IsRotation R_target) (omega domega : V3) (R : ℝ → M3) (J dJ : ℝ → J3) (s : ℝ → RState ℝ)
    (h : Turns N R J dJ s) (t : ℝ) :
    ∃ e : V3, exp3 e * R t = R_target ∧
      ((orientationUpdate log3 N mask kp kd R_target omega domega (R t) (J t) (dJ t) (s t)).Met (s t).qdd ↔
        ∀ a ∈ mask.indices, HasDerivAt (fun τ => dot3 (maskAxis mask R_target a) (app N (J τ) (s τ).qd))
          (dot3 (maskAxis mask R_target a)
            (kp • e + (if kd < 0 then 2 * Real.sqrt kp else kd) • (omega - app N (J t) (s t).qd) + domega)) t) := by
  refine ⟨log3 (R_target * (R t).transpose), ?_, ?_⟩
  · rw [hlog _ (isRotation_mul hT (isRotation_transpose (h.rot t))), mul_assoc, (h.rot t).1, mul_one]
  · unfold orientationUpdate
    rw [maskedTask_met]
    refine forall_congr' fun a => forall_congr' fun _ => ?_
    rw [← deriv_iff_at (hasDerivAt_dot3 _ (h.acc t))]
    show maskFrame { mask with rLocalWorld := R_target.transpose } (app N (J t) (s t).qdd) a = _ ↔ _
    rw [maskFrame_axis, maskFrame_axis, dot3_sub, dot3_add _ (app N (J t) (s t).qdd)]
    unfold getKd
    constructor <;> intro h <;> linarith

/-! ## C122 -/

/-- The relative angular velocity of `b` seen from `a` (in the axes of `a`). -/
noncomputable def seenOmega (N : Nat) (Ra : M3) (Ja Jb : J3) (qd : Nat → ℝ) : V3 :=
  Ra.transpose.mulVec (app N Jb qd - app N Ja qd)

theorem mulVec_transpose (R : M3) (h : IsRotation R) (v : V3) : R.mulVec (R.transpose.mulVec v) = v := by
  rw [Matrix.mulVec_mulVec, mul_eq_one_comm.1 h.1, Matrix.one_mulVec]

/-- What the task imposes in every case, with `Jlog` the matrix given by `pinocchio::Jlog3`: it is on the difference of the
angular accelerations in the world, with the desired acceleration not rotated. -/
theorem C122_exact (log3 : M3 → V3) (Jlog3 : M3 → M3) (N : Nat) (mask : Mask ℝ) (kp kd : ℝ) (R_a_b : M3) (omega domega : V3)
    (Ra Rb : ℝ → M3) (Ja dJa Jb dJb : ℝ → J3) (s : ℝ → RState ℝ) (ha : Turns N Ra Ja dJa s) (hb : Turns N Rb Jb dJb s)
    (t : ℝ) :
    (relOrientationUpdate log3 Jlog3 N mask kp kd R_a_b omega domega (Ra t) (Rb t) (Ja t) (dJa t) (Jb t) (dJb t) (s t)).Met
        (s t).qdd ↔
      ∀ α : V3, HasDerivAt (fun τ => app N (Jb τ) (s τ).qd - app N (Ja τ) (s τ).qd) α t →
        ∀ a ∈ mask.indices, dot3 (maskAxis mask (fun i j => mask.rLocalWorld j i) a)
          ((Jlog3 (R_a_b * ((Ra t).transpose * Rb t).transpose)).mulVec α) =
        dot3 (maskAxis mask (fun i j => mask.rLocalWorld j i) a)
          (kp • (Ra t).mulVec (log3 (R_a_b * ((Ra t).transpose * Rb t).transpose)) +
            (if kd < 0 then 2 * Real.sqrt kp else kd) •
              (Ra t).mulVec (omega - seenOmega N (Ra t) (Ja t) (Jb t) (s t).qd) + domega) := by
  have hder := (hb.acc t).fun_sub (ha.acc t)
  have hu : ∀ α : V3, HasDerivAt (fun τ => app N (Jb τ) (s τ).qd - app N (Ja τ) (s τ).qd) α t ↔
      α = app N (Jb t) (s t).qdd + app N (dJb t) (s t).qd - (app N (Ja t) (s t).qdd + app N (dJa t) (s t).qd) :=
    fun α => ⟨fun h => h.unique hder, fun h => h ▸ hder⟩
  simp only [hu, forall_eq]
  unfold relOrientationUpdate
  rw [maskedTask_met]
  refine forall_congr' fun a => forall_congr' fun _ => ?_
  generalize hM : R_a_b * ((Ra t).transpose * Rb t).transpose = M
  have hJ : (fun i => ∑ j ∈ range N, (Jlog3 M).mulVec (fun k => Jb t k j - Ja t k j) i * (s t).qdd j) =
      (Jlog3 M).mulVec (app N (Jb t) (s t).qdd - app N (Ja t) (s t).qdd) := by
    have := app_mulVec N (Jlog3 M) (fun i j => Jb t i j - Ja t i j) (s t).qdd
    rw [app_sub] at this
    rw [← this]; rfl
  have hw : (Ra t).mulVec (omega - seenOmega N (Ra t) (Ja t) (Jb t) (s t).qd) =
      (Ra t).mulVec omega - (app N (Jb t) (s t).qd - app N (Ja t) (s t).qd) := by
    unfold seenOmega
    rw [Matrix.mulVec_sub, mulVec_transpose _ (ha.rot t)]
  have hsplit : (Jlog3 M).mulVec (app N (Jb t) (s t).qdd + app N (dJb t) (s t).qd -
      (app N (Ja t) (s t).qdd + app N (dJa t) (s t).qd)) =
      (Jlog3 M).mulVec (app N (Jb t) (s t).qdd - app N (Ja t) (s t).qdd) +
        (Jlog3 M).mulVec (app N (dJb t) (s t).qd - app N (dJa t) (s t).qd) := by
    rw [← Matrix.mulVec_add]
    congr 1
    funext i
    simp only [Pi.add_apply, Pi.sub_apply]; ring
  rw [maskFrame_axis', maskFrame_axis', hJ, dot3_sub, hw, hsplit, dot3_add _ ((Jlog3 M).mulVec (app N (Jb t) (s t).qdd - app N (Ja t) (s t).qdd))]
  unfold getKd
  constructor <;> intro h <;> linarith

/-- **C122** (the part that holds). When the current relative orientation is the target, the two angular velocities are
aligned and the desired acceleration is along the axis that the two frames share, the task is met exactly when the derivative
of the relative angular velocity, seen from `a`, is the one desired along each selected axis. -/
theorem C122_partial (log3 : M3 → V3) (Jlog3 : M3 → M3) (hJ : Jlog3 1 = 1) (N : Nat) (mask : Mask ℝ) (kp kd : ℝ)
    (omega domega : V3) (Ra Rb : ℝ → M3) (Ja dJa Jb dJb : ℝ → J3) (s : ℝ → RState ℝ)
    (ha : Turns N Ra Ja dJa s) (hb : Turns N Rb Jb dJb s) (t : ℝ)
    (hd : (Ra t).mulVec domega = domega) (hg : cross3 (app N (Ja t) (s t).qd) (app N (Jb t) (s t).qd) = 0) :
    (relOrientationUpdate log3 Jlog3 N mask kp kd ((Ra t).transpose * Rb t) omega domega (Ra t) (Rb t) (Ja t) (dJa t)
        (Jb t) (dJb t) (s t)).Met (s t).qdd ↔
      ∀ a ∈ mask.indices, HasDerivAt
        (fun τ => dot3 (maskAxis mask (fun i j => mask.rLocalWorld j i) a)
          ((Ra t).mulVec (seenOmega N (Ra τ) (Ja τ) (Jb τ) (s τ).qd)))
        (dot3 (maskAxis mask (fun i j => mask.rLocalWorld j i) a)
          ((Ra t).mulVec (kp • log3 1 + (if kd < 0 then 2 * Real.sqrt kp else kd) •
            (omega - seenOmega N (Ra t) (Ja t) (Jb t) (s t).qd) + domega))) t := by
  have hab : IsRotation ((Ra t).transpose * Rb t) := isRotation_mul (isRotation_transpose (ha.rot t)) (hb.rot t)
  have hM : (Ra t).transpose * Rb t * ((Ra t).transpose * Rb t).transpose = 1 := mul_eq_one_comm.1 hab.1
  rw [C122_exact log3 Jlog3 N mask kp kd _ omega domega Ra Rb Ja dJa Jb dJb s ha hb t, hM, hJ]
  have hder := (hb.acc t).fun_sub (ha.acc t)
  set α := app N (Jb t) (s t).qdd + app N (dJb t) (s t).qd - (app N (Ja t) (s t).qdd + app N (dJa t) (s t).qd) with hα
  have hu : ∀ α' : V3, HasDerivAt (fun τ => app N (Jb τ) (s τ).qd - app N (Ja τ) (s τ).qd) α' t ↔ α' = α :=
    fun α' => ⟨fun h => h.unique hder, fun h => h ▸ hder⟩
  simp only [hu, forall_eq, Matrix.one_mulVec]
  -- the derivative seen from `a`
  have hrot := hasDerivAt_rotating (ha.rot t) (ha.ang t) hder
  have hz : cross3 (-(Ra t).transpose.mulVec (app N (Ja t) (s t).qd))
      ((Ra t).transpose.mulVec (app N (Jb t) (s t).qd - app N (Ja t) (s t).qd)) = 0 := by
    have h1 : cross3 (app N (Ja t) (s t).qd) (app N (Jb t) (s t).qd - app N (Ja t) (s t).qd) = 0 := by
      rw [← hg]
      funext i; fin_cases i <;> simp [cross3] <;> ring
    have h2 := rotation_cross _ (ha.rot t) (app N (Ja t) (s t).qd) (app N (Jb t) (s t).qd - app N (Ja t) (s t).qd)
    rw [h1, Matrix.mulVec_zero] at h2
    have h3 : ∀ u v : V3, cross3 (-u) v = -cross3 u v := by
      intro u v; funext i; fin_cases i <;> simp [cross3] <;> ring
    rw [h3, ← h2, neg_zero]
  rw [hz, add_zero] at hrot
  have hvec : HasDerivAt (fun τ => (Ra t).mulVec (seenOmega N (Ra τ) (Ja τ) (Jb τ) (s τ).qd)) α t := by
    have hr := hasDerivAt_pi.1 hrot
    rw [← mulVec_transpose _ (ha.rot t) α]
    refine hasDerivAt_pi.2 fun i => ?_
    have := (((hr 0).const_mul (Ra t i 0)).fun_add ((hr 1).const_mul (Ra t i 1))).fun_add ((hr 2).const_mul (Ra t i 2))
    have e1 : ∀ v : V3, (Ra t).mulVec v i = Ra t i 0 * v 0 + Ra t i 1 * v 1 + Ra t i 2 * v 2 := by
      intro v; simp [Matrix.mulVec, dotProduct, Fin.sum_univ_three]
    simp only [e1]
    exact this
  refine forall_congr' fun a => forall_congr' fun _ => ?_
  rw [← deriv_iff_at (hasDerivAt_dot3 _ hvec)]
  rw [Matrix.mulVec_add, Matrix.mulVec_add, Matrix.mulVec_smul, Matrix.mulVec_smul, hd]

/-! ### Motions -/

/-- A frame that does not move. -/
theorem turns_fixed (N : Nat) (R : M3) (hR : IsRotation R) (s : ℝ → RState ℝ) :
    Turns N (fun _ => R) (fun _ _ _ => 0) (fun _ _ _ => 0) s := by
  have h0 : ∀ x, app N (fun _ _ => 0) x = 0 := by intro x; funext i; simp [app]
  refine ⟨fun _ => hR, fun t i j => ?_, fun t => ?_⟩
  · simp only [h0]
    refine (hasDerivAt_const t (R i j)).congr_deriv ?_
    fin_cases i <;> simp [cross3]
  · simp only [h0, add_zero]
    exact hasDerivAt_const t 0

/-- A frame carried by a joint of vertical axis, whose angle is `f`. -/
theorem turns_vertical (N k : Nat) (hk : k < N) (R : M3) (hR : IsRotation R) (s : ℝ → RState ℝ) (f : ℝ → ℝ)
    (hf : ∀ t, HasDerivAt f ((s t).qd k) t) (hf' : ∀ t, HasDerivAt (fun t => (s t).qd k) ((s t).qdd k) t) :
    Turns N (fun t => rotZ (f t) * R) (fun _ i j => if j = k ∧ i = 2 then 1 else 0) (fun _ _ _ => 0) s := by
  have h0 : ∀ x, app N (fun _ _ => 0) x = 0 := by intro x; funext i; simp [app]
  have h1 : ∀ x : Nat → ℝ, app N (fun i j => if j = k ∧ i = 2 then 1 else 0) x = ![0, 0, x k] := by
    intro x
    funext i
    fin_cases i <;> simp [app, hk]
  refine ⟨fun t => isRotation_mul (rotZ_isRotation _) hR, fun t i j => ?_, fun t => ?_⟩
  · rw [h1]
    have hc := (Real.hasDerivAt_cos (f t)).comp t (hf t)
    have hs := (Real.hasDerivAt_sin (f t)).comp t (hf t)
    have e : ∀ τ, (rotZ (f τ) * R) i j = rotZ (f τ) i 0 * R 0 j + rotZ (f τ) i 1 * R 1 j + rotZ (f τ) i 2 * R 2 j := by
      intro τ; rw [Matrix.mul_apply, Fin.sum_univ_three]
    simp only [e]
    fin_cases i
    · simp only [rotZ, cross3, Matrix.mul_apply, Fin.sum_univ_three, Matrix.of_apply, Matrix.cons_val', Matrix.cons_val_zero,
        Matrix.cons_val_one, Matrix.cons_val, Fin.zero_eta, Fin.isValue]
      refine (((hc.mul_const (R 0 j)).fun_add ((hs.fun_neg).mul_const (R 1 j))).fun_add
        (hasDerivAt_const t (0 * R 2 j))).congr_deriv ?_
      simp only [zero_mul]; ring
    · simp only [rotZ, cross3, Matrix.mul_apply, Fin.sum_univ_three, Matrix.of_apply, Matrix.cons_val', Matrix.cons_val_zero,
        Matrix.cons_val_one, Matrix.cons_val, Fin.mk_one, Fin.isValue]
      refine (((hs.mul_const (R 0 j)).fun_add (hc.mul_const (R 1 j))).fun_add
        (hasDerivAt_const t (0 * R 2 j))).congr_deriv ?_
      simp only [zero_mul]; ring
    · simp only [rotZ, cross3, Matrix.mul_apply, Fin.sum_univ_three, Matrix.of_apply, Matrix.cons_val', Matrix.cons_val_zero,
        Matrix.cons_val_one, Matrix.cons_val, Fin.reduceFinMk, Fin.isValue, zero_mul, one_mul, zero_add]
      exact (hasDerivAt_const t (R 2 j)).congr_deriv (by ring)
  · simp only [h1, h0, add_zero]
    refine hasDerivAt_pi.2 fun i => ?_
    fin_cases i
    · exact hasDerivAt_const t 0
    · exact hasDerivAt_const t 0
    · exact hf' t

/-- The rotation that permutes the axes. -/
def permuted : M3 := !![0, 0, 1; 1, 0, 0; 0, 1, 0]

theorem permuted_rotation : IsRotation permuted := by
  constructor
  · ext i j; fin_cases i <;> fin_cases j <;> simp [permuted, Matrix.mul_apply, Fin.sum_univ_three]
  · simp [permuted, Matrix.det_fin_three]

/-- The state of a single joint of angle `t² / 2`. -/
noncomputable def pushed (t : ℝ) : RState ℝ := ⟨fun _ => t ^ 2 / 2, fun _ => t, fun _ => 1⟩

/-- The frame `b` of a vertical joint, seen from a fixed frame `a`. -/
noncomputable def turned (t : ℝ) : M3 := rotZ (t ^ 2 / 2) * permuted

theorem turned_turns : Turns 1 turned (fun _ i j => if j = 0 ∧ i = 2 then 1 else 0) (fun _ _ _ => 0) pushed := by
  refine turns_vertical 1 0 one_pos permuted permuted_rotation pushed (fun t => t ^ 2 / 2) (fun t => ?_) (fun t => ?_)
  · refine ((hasDerivAt_pow 2 t).div_const 2).congr_deriv ?_
    simp [pushed]
  · exact hasDerivAt_id' t

theorem turned_zero : turned 0 = permuted := by
  have : rotZ 0 = 1 := by ext i j; fin_cases i <;> fin_cases j <;> simp [rotZ]
  unfold turned
  norm_num [this]

theorem app_zero (N : Nat) (x : Nat → ℝ) : app N (fun _ _ => 0) x = 0 := by funext i; simp [app]

theorem app_vertical (x : Nat → ℝ) : app 1 (fun i j => if j = 0 ∧ i = 2 then 1 else 0) x = ![0, 0, x 0] := by
  funext i
  fin_cases i <;> simp [app]

/-- **C122 is false: the desired acceleration is not taken to the world.** Frame `a` is fixed, with permuted axes; frame `b`
is on its target, at rest. The desired relative acceleration is along the third axis of `a`. Whatever the logarithm, the task
is met by an acceleration along the second axis of `a`. -/
theorem C122_refuted (log3 : M3 → V3) (Jlog3 : M3 → M3) (hJ : Jlog3 1 = 1) :
    ∃ (N : Nat) (omega domega : V3) (Ra Rb : ℝ → M3) (Ja dJa Jb dJb : ℝ → J3) (s : ℝ → RState ℝ),
      Turns N Ra Ja dJa s ∧ Turns N Rb Jb dJb s ∧ omega = seenOmega N (Ra 0) (Ja 0) (Jb 0) (s 0).qd ∧
      (relOrientationUpdate log3 Jlog3 N Mask.init 0 0 ((Ra 0).transpose * Rb 0) omega domega (Ra 0) (Rb 0) (Ja 0) (dJa 0)
        (Jb 0) (dJb 0) (s 0)).Met (s 0).qdd ∧
      domega = ![0, 0, 1] ∧ HasDerivAt (fun τ => seenOmega N (Ra τ) (Ja τ) (Jb τ) (s τ).qd) ![0, 1, 0] 0 := by
  refine ⟨1, 0, ![0, 0, 1], fun _ => permuted, turned, fun _ _ _ => 0, fun _ _ _ => 0,
    fun _ i j => if j = 0 ∧ i = 2 then 1 else 0, fun _ _ _ => 0, pushed, turns_fixed 1 _ permuted_rotation _, turned_turns,
    ?_, ?_, rfl, ?_⟩
  · unfold seenOmega
    rw [app_zero, app_vertical]
    have : (![0, 0, (pushed 0).qd 0] : V3) = 0 := by funext i; fin_cases i <;> simp [pushed]
    rw [this, sub_zero, Matrix.mulVec_zero]
  · have hM : permuted.transpose * turned 0 * (permuted.transpose * turned 0).transpose = 1 := by
      rw [turned_zero, permuted_rotation.1]; simp
    rw [C122_exact log3 Jlog3 1 Mask.init 0 0 _ 0 ![0, 0, 1] _ turned _ _ _ _ pushed
      (turns_fixed 1 _ permuted_rotation _) turned_turns 0, hM, hJ]
    intro α hα a _
    have h1 := (turned_turns.acc 0).fun_sub ((turns_fixed 1 _ permuted_rotation pushed).acc 0)
    have h2 := hα.unique h1
    have h3 : α = ![0, 0, 1] := by
      rw [h2, app_vertical]
      simp only [app_zero]
      funext i; fin_cases i <;> simp [pushed]
    rw [h3, Matrix.one_mulVec]
    congr 1
    simp
  · have h1 := (turned_turns.acc 0).fun_sub ((turns_fixed 1 _ permuted_rotation pushed).acc 0)
    have h2 := hasDerivAt_rotating (R := fun _ => permuted) (ω := 0) permuted_rotation (fun i j => by
      refine (hasDerivAt_const (0 : ℝ) (permuted i j)).congr_deriv ?_
      fin_cases i <;> simp [cross3]) h1
    refine h2.congr_deriv ?_
    rw [app_vertical]
    simp only [app_zero]
    funext i
    fin_cases i <;> simp [pushed, cross3, permuted, Matrix.mulVec, dotProduct, Fin.sum_univ_three]

/-! The term due to the rotation of `a`. -/

/-- Two joints in series that turn at unit rate: a vertical one that carries `a`, and one around the first axis of `a` that
carries `b`. -/
noncomputable def gimbal (t : ℝ) : RState ℝ := ⟨fun _ => t, fun _ => 1, fun _ => 0⟩

/-- The orientation of `b`. -/
noncomputable def gimbalB (t : ℝ) : M3 :=
  !![Real.cos t, -(Real.sin t * Real.cos t), Real.sin t * Real.sin t;
     Real.sin t, Real.cos t * Real.cos t, -(Real.cos t * Real.sin t);
     0, Real.sin t, Real.cos t]

/-- The Jacobian of `b`. -/
noncomputable def gimbalJ (t : ℝ) : J3 := fun i j => if j = 0 then (if i = 2 then 1 else 0) else ![Real.cos t, Real.sin t, 0] i

/-- The time variation of the Jacobian of `b`. -/
noncomputable def gimbalDJ (t : ℝ) : J3 := fun i j => if j = 0 then 0 else ![-Real.sin t, Real.cos t, 0] i

theorem app_gimbal (t : ℝ) : app 2 (gimbalJ t) (gimbal t).qd = ![Real.cos t, Real.sin t, 1] := by
  funext i; fin_cases i <;> simp [app, gimbalJ, gimbal, Finset.sum_range_succ]

theorem gimbal_turns : Turns 2 gimbalB gimbalJ gimbalDJ gimbal := by
  have hc := fun t => Real.hasDerivAt_cos t
  have hs := fun t => Real.hasDerivAt_sin t
  refine ⟨fun t => ?_, fun t i j => ?_, fun t => ?_⟩
  · have h := Real.sin_sq_add_cos_sq t
    constructor
    · ext i j
      fin_cases i <;> fin_cases j <;> simp [gimbalB, Matrix.mul_apply, Fin.sum_univ_three] <;> grind
    · simp [gimbalB, Matrix.det_fin_three]; grind
  · rw [app_gimbal]
    have h := Real.sin_sq_add_cos_sq t
    fin_cases i <;> fin_cases j <;>
      simp only [gimbalB, cross3, Matrix.of_apply, Matrix.cons_val', Matrix.cons_val_zero, Matrix.cons_val_one, Matrix.cons_val,
        Fin.zero_eta, Fin.mk_one, Fin.reduceFinMk, Fin.isValue]
    · exact (hc t).congr_deriv (by ring)
    · exact ((hs t).fun_mul (hc t)).fun_neg.congr_deriv (by grind)
    · exact ((hs t).fun_mul (hs t)).congr_deriv (by grind)
    · exact (hs t).congr_deriv (by ring)
    · exact ((hc t).fun_mul (hc t)).congr_deriv (by grind)
    · exact ((hc t).fun_mul (hs t)).fun_neg.congr_deriv (by grind)
    · exact (hasDerivAt_const t (0 : ℝ)).congr_deriv (by ring)
    · exact (hs t).congr_deriv (by grind)
    · exact (hc t).congr_deriv (by grind)
  · have h0 : app 2 (gimbalJ t) (gimbal t).qdd = 0 := by funext i; simp [app, gimbal]
    have h1 : app 2 (gimbalDJ t) (gimbal t).qd = ![-Real.sin t, Real.cos t, 0] := by
      funext i; fin_cases i <;> simp [app, gimbalDJ, gimbal, Finset.sum_range_succ]
    rw [h0, h1, zero_add]
    simp only [app_gimbal]
    refine hasDerivAt_pi.2 fun i => ?_
    fin_cases i
    · exact hc t
    · exact hs t
    · exact hasDerivAt_const t 1

theorem gimbal_turnsA : Turns 2 (fun t => rotZ t * 1) (fun _ i j => if j = 0 ∧ i = 2 then 1 else 0) (fun _ _ _ => 0) gimbal :=
  turns_vertical 2 0 two_pos 1 isRotation_one gimbal (fun t => t) (fun t => hasDerivAt_id' t) (fun t => hasDerivAt_const t 1)

/-- **C122 is false: the rotation of `a` is not taken into account.** Frame `b` turns at the desired rate around the first
axis of `a`, and this relative velocity is constant as desired: the motion follows the law exactly. Yet the task is not met,
because `a` itself turns. -/
theorem C122_refuted_rotation (log3 : M3 → V3) (Jlog3 : M3 → M3) (hJ : Jlog3 1 = 1) :
    ∃ (N : Nat) (omega : V3) (Ra Rb : ℝ → M3) (Ja dJa Jb dJb : ℝ → J3) (s : ℝ → RState ℝ),
      Turns N Ra Ja dJa s ∧ Turns N Rb Jb dJb s ∧ (∀ t, omega = seenOmega N (Ra t) (Ja t) (Jb t) (s t).qd) ∧
      ∀ kd, ¬ (relOrientationUpdate log3 Jlog3 N Mask.init 0 kd ((Ra 0).transpose * Rb 0) omega 0 (Ra 0) (Rb 0) (Ja 0) (dJa 0)
        (Jb 0) (dJb 0) (s 0)).Met (s 0).qdd := by
  have hA : ∀ t, app 2 (fun i j => if j = 0 ∧ i = 2 then 1 else 0) (gimbal t).qd = ![0, 0, 1] := by
    intro t; funext i; fin_cases i <;> simp [app, gimbal, Finset.sum_range_succ]
  have hseen : ∀ t, (![1, 0, 0] : V3) =
      seenOmega 2 (rotZ t * 1) (fun i j => if j = 0 ∧ i = 2 then 1 else 0) (gimbalJ t) (gimbal t).qd := by
    intro t
    unfold seenOmega
    rw [app_gimbal, hA]
    have h := Real.sin_sq_add_cos_sq t
    funext i
    fin_cases i <;> simp [rotZ, Matrix.mulVec, dotProduct, Fin.sum_univ_three] <;> grind
  refine ⟨2, ![1, 0, 0], _, _, _, _, _, _, _, gimbal_turnsA, gimbal_turns, hseen, fun kd hmet => ?_⟩
  have hab : IsRotation ((rotZ 0 * 1 : M3).transpose * gimbalB 0) :=
    isRotation_mul (isRotation_transpose (gimbal_turnsA.rot 0)) (gimbal_turns.rot 0)
  have hM := mul_eq_one_comm.1 hab.1
  rw [C122_exact log3 Jlog3 2 Mask.init 0 kd _ ![1, 0, 0] 0 _ _ _ _ _ _ gimbal gimbal_turnsA gimbal_turns 0, hM, hJ,
    ← hseen 0] at hmet
  have h1 := (gimbal_turns.acc 0).fun_sub (gimbal_turnsA.acc 0)
  have h2 := hmet _ h1 1 (by simp [Mask.init])
  simp only [app_zero] at h2
  simp [Mask.init, maskAxis, dot3, app, gimbal, gimbalJ, gimbalDJ, Finset.sum_range_succ] at h2

/-- A case of `C121` and `C122_partial`: a frame turning about a vertical joint, seen from a fixed frame. -/
example : Turns 1 turned (fun _ i j => if j = 0 ∧ i = 2 then 1 else 0) (fun _ _ _ => 0) pushed ∧
    Turns 1 (fun _ => 1) (fun _ _ _ => 0) (fun _ _ _ => 0) pushed ∧
    (1 : M3).mulVec ![0, 0, 1] = ![0, 0, 1] ∧
    (∀ t, cross3 (app 1 (fun _ _ => 0) (pushed t).qd) (app 1 (fun i j => if j = 0 ∧ i = 2 then 1 else 0) (pushed t).qd) = 0) :=
  ⟨turned_turns, turns_fixed 1 1 isRotation_one _, Matrix.one_mulVec _, fun t => by
    rw [app_zero]; funext i; fin_cases i <;> simp [cross3]⟩

end Verif.Dynamics
