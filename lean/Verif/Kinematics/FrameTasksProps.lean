/-
Properties of the tasks on frames of the kinematics solver: C111 to C114.
-/
import Mathlib.Analysis.Calculus.Deriv.Pi
import Mathlib.Analysis.SpecialFunctions.Trigonometric.Deriv
import Mathlib.Analysis.SpecialFunctions.Trigonometric.Inverse
import Verif.Kinematics.FrameTasks
import Verif.Dynamics.RelPosProps
import Verif.Robot.BaseProps

namespace Verif.Kinematics
open Finset Verif.Problem Verif.Tools Verif.Robot Verif.Dynamics

/-! ## Specification -/

/-- A frame `T` that moves when the robot is moved along `dq` (at unit rate, from the current configuration at `s = 0`):
`JLin` and `JAng` are its Jacobians, which give the velocity of its origin and its angular velocity, in the world. -/
structure Moves (N : Nat) (dq : Nat → ℝ) (JLin JAng : J3) (T : ℝ → Affine) : Prop where
  rot : ∀ s, IsRotation (T s).linear
  lin : HasDerivAt (fun s => (T s).translation) (app N JLin dq) 0
  ang : ∀ i j, HasDerivAt (fun s => (T s).linear i j) (cross3 (app N JAng dq) (fun k => (T 0).linear k j) i) 0

/-- The direction of axis `a` for a mask: an axis of the reference of the task, of the local frame (of orientation `R`), or
of the custom frame. -/
def maskAxis (mask : Mask ℝ) (R : M3) (a : Fin 3) : V3 :=
  match mask.frame with
  | .task => fun k => if k = a then 1 else 0
  | .loc => fun k => R k a
  | .custom => fun k => mask.rCustomWorld a k

/-- What is assumed of `pinocchio::log3`: a right inverse of the exponential on rotations. -/
def LogOK (log3 : M3 → V3) : Prop := ∀ R, IsRotation R → exp3 (log3 R) = R

/-! ## Lemmas -/

theorem maskFrame_axis (mask : Mask ℝ) (R : M3) (v : V3) (a : Fin 3) :
    maskFrame { mask with rLocalWorld := R.transpose } v a = dot3 (maskAxis mask R a) v := by
  unfold maskFrame maskAxis dot3
  cases mask.frame
  · fin_cases a <;> simp
  · simp [Fin.sum_univ_three, Matrix.transpose_apply]
  · simp [Fin.sum_univ_three]

theorem maskFrame_axis' (mask : Mask ℝ) (v : V3) (a : Fin 3) :
    maskFrame mask v a = dot3 (maskAxis mask (fun i j => mask.rLocalWorld j i) a) v := by
  unfold maskFrame maskAxis dot3
  cases mask.frame
  · fin_cases a <;> simp
  · simp [Fin.sum_univ_three]
  · simp [Fin.sum_univ_three]

theorem hasDerivAt_dot3 {v : ℝ → V3} {v' : V3} {t : ℝ} (u : V3) (h : HasDerivAt v v' t) :
    HasDerivAt (fun s => dot3 u (v s)) (dot3 u v') t := by
  have h := hasDerivAt_pi.1 h
  exact (((h 0).const_mul (u 0)).fun_add ((h 1).const_mul (u 1))).fun_add ((h 2).const_mul (u 2))

theorem deriv_iff {f : ℝ → ℝ} {a b : ℝ} (h : HasDerivAt f a 0) : a = b ↔ HasDerivAt f b 0 :=
  ⟨fun e => e ▸ h, fun h' => h.unique h'⟩

/-- Three orthonormal axes determine a vector. -/
theorem axes_eq (mask : Mask ℝ) (R : M3) (hR : IsRotation R) (hC : IsRotation (Matrix.of mask.rCustomWorld))
    (hall : ∀ a, a ∈ mask.indices) {u v : V3} (h : ∀ a ∈ mask.indices, dot3 (maskAxis mask R a) u = dot3 (maskAxis mask R a) v) :
    u = v := by
  have key : ∀ M : M3, M.transpose * M = 1 → (∀ a, dot3 (fun k => M a k) u = dot3 (fun k => M a k) v) → u = v := by
    intro M hM he
    have h1 : M.mulVec u = M.mulVec v := by
      funext a
      have := he a
      simpa [Matrix.mulVec, dotProduct, Fin.sum_univ_three, dot3] using this
    calc u = (M.transpose * M).mulVec u := by rw [hM, Matrix.one_mulVec]
      _ = M.transpose.mulVec (M.mulVec v) := by rw [← h1, Matrix.mulVec_mulVec]
      _ = v := by rw [Matrix.mulVec_mulVec, hM, Matrix.one_mulVec]
  have h := fun a => h a (hall a)
  unfold maskAxis at h
  cases hf : mask.frame <;> rw [hf] at h <;> simp only at h
  · refine key 1 (by simp) fun a => ?_
    have := h a
    simpa [dot3, Matrix.one_apply, eq_comm] using this
  · exact key R.transpose (by rw [Matrix.transpose_transpose]; exact mul_eq_one_comm.1 hR.1) fun a => h a
  · exact key (Matrix.of mask.rCustomWorld) hC.1 fun a => h a

theorem exp3_isRotation (v : V3) : IsRotation (exp3 v) := by
  by_cases h : v = 0
  · have : norm3 v = 0 := by rw [h]; simp [norm3]
    unfold exp3
    rw [if_pos this]
    exact isRotation_one
  · obtain ⟨hu, hn⟩ := normalize3_unit v h
    have hpos : norm3 v ≠ 0 := by
      intro h0
      have := norm3_sq v
      rw [h0] at this
      obtain ⟨a, b, c⟩ := three_squares this.symm
      exact h (by funext i; fin_cases i <;> assumption)
    have hv : v = ![normalize3 v 0 * norm3 v, normalize3 v 1 * norm3 v, normalize3 v 2 * norm3 v] := by
      funext i
      fin_cases i <;> simp [hn, hpos]
    rw [hv, exp3_unit _ hu _ (norm3_nonneg v)]
    exact rodrigues_isRotation _ hu _ _ (Real.sin_sq_add_cos_sq _)

/-- Every rotation is an exponential. -/
theorem exp3_surj (R : M3) (hR : IsRotation R) : ∃ v, exp3 v = R := by
  obtain ⟨hq, hm⟩ := ofMatrix_spec R hR
  set p := Quat.ofMatrix R with hp
  unfold Quat.Unit at hq
  by_cases h0 : p.x = 0 ∧ p.y = 0 ∧ p.z = 0
  · refine ⟨0, ?_⟩
    have : exp3 0 = 1 := by unfold exp3; rw [if_pos (by simp [norm3])]
    rw [this, ← hm]
    obtain ⟨hx, hy, hz⟩ := h0
    ext i j
    fin_cases i <;> fin_cases j <;> simp [Quat.toMatrix, hx, hy, hz]
  · let u : V3 := ![p.x, p.y, p.z]
    have hu0 : u ≠ 0 := by
      intro h
      exact h0 ⟨congrFun h 0, congrFun h 1, congrFun h 2⟩
    obtain ⟨hw, hn⟩ := normalize3_unit u hu0
    set w := normalize3 u
    set n := norm3 u with hnn
    have hn2 : n * n = 1 - p.w ^ 2 := by
      rw [hnn, norm3_sq]
      simp only [u, Matrix.cons_val_zero, Matrix.cons_val_one, Matrix.cons_val]
      linear_combination hq
    have hw1 : -1 ≤ p.w ∧ p.w ≤ 1 := by
      have h1 : p.w ^ 2 ≤ 1 := by nlinarith [mul_self_nonneg n]
      exact abs_le.1 ((sq_le_one_iff_abs_le_one _).1 h1)
    have hnpos : n ≠ 0 := by
      intro h
      have := norm3_sq u
      rw [← hnn, h] at this
      obtain ⟨a, b, c⟩ := three_squares this.symm
      exact hu0 (by funext i; fin_cases i <;> assumption)
    let h := Real.arccos p.w
    have hc : Real.cos h = p.w := Real.cos_arccos hw1.1 hw1.2
    have hs : Real.sin h = n := by
      rw [Real.sin_arccos, ← hn2, Real.sqrt_mul_self (norm3_nonneg u)]
    have hh : 0 ≤ 2 * h := by
      have := Real.arccos_nonneg p.w
      change 0 ≤ 2 * Real.arccos p.w
      linarith
    refine ⟨![w 0 * (2 * h), w 1 * (2 * h), w 2 * (2 * h)], ?_⟩
    rw [exp3_unit w hw _ hh, ← hm]
    have hcos : Real.cos (2 * h) = 1 - 2 * (n * n) := by rw [Real.cos_two_mul, hc, hn2]; ring
    have hsin : Real.sin (2 * h) = 2 * n * p.w := by rw [Real.sin_two_mul, hc, hs]
    have e0 : w 0 * n = p.x := by rw [hn]; simp [u, hnpos]
    have e1 : w 1 * n = p.y := by rw [hn]; simp [u, hnpos]
    have e2 : w 2 * n = p.z := by rw [hn]; simp [u, hnpos]
    have hw' := hw
    simp only [hcos, hsin]
    unfold Quat.toMatrix
    rw [← e0, ← e1, ← e2]
    apply matrix_eq <;> simp only [Matrix.of_apply, Matrix.cons_val', Matrix.cons_val_zero, Matrix.cons_val_one, Matrix.cons_val]
    · linear_combination 2 * (n * n) * hw
    · ring
    · ring
    · ring
    · linear_combination 2 * (n * n) * hw
    · ring
    · ring
    · ring
    · linear_combination 2 * (n * n) * hw

/-- The contract of `log3` can be met. -/
theorem logOK_exists : ∃ log3, LogOK log3 := by
  classical
  refine ⟨fun R => if h : IsRotation R then (exp3_surj R h).choose else 0, fun R h => ?_⟩
  simp only [dif_pos h]
  exact (exp3_surj R h).choose_spec

/-! ## C111 -/

/-- **C111**, position task: it is met exactly when, on every selected axis, the frame moves at the rate of its error (the
axis is one of the world, of the frame, or of the custom frame). -/
theorem C111_position (N : Nat) (mask : Mask ℝ) (target : V3) (dq : Nat → ℝ) (JLin JAng : J3) (T : ℝ → Affine)
    (h : Moves N dq JLin JAng T) :
    (positionTask N mask target (T 0) JLin).Met dq ↔ ∀ a ∈ mask.indices,
      HasDerivAt (fun s => dot3 (maskAxis mask (T 0).linear a) (T s).translation)
        (dot3 (maskAxis mask (T 0).linear a) (target - (T 0).translation)) 0 := by
  unfold positionTask
  rw [maskedTask_met]
  refine forall_congr' fun a => forall_congr' fun _ => ?_
  have e := maskFrame_axis mask (T 0).linear (app N JLin dq) a
  unfold app at e
  rw [e, maskFrame_axis]
  exact deriv_iff (hasDerivAt_dot3 _ h.lin)

/-- **C111**, with all the axes: a step of the linearised motion puts the frame on its target. -/
theorem C111_reach (N : Nat) (mask : Mask ℝ) (target : V3) (dq : Nat → ℝ) (JLin JAng : J3) (T : ℝ → Affine)
    (h : Moves N dq JLin JAng T) (hall : ∀ a, a ∈ mask.indices) (hC : IsRotation (Matrix.of mask.rCustomWorld))
    (hm : (positionTask N mask target (T 0) JLin).Met dq) :
    (T 0).translation + app N JLin dq = target := by
  have h1 := (C111_position N mask target dq JLin JAng T h).1 hm
  have h2 : app N JLin dq = target - (T 0).translation :=
    axes_eq mask (T 0).linear (h.rot 0) hC hall fun a ha => (deriv_iff (hasDerivAt_dot3 _ h.lin)).2 (h1 a ha)
  rw [h2]; abel

/-- **C111**, centre of mass. The local frame of the mask is the one last given (the identity when it was not). -/
theorem C111_com (N : Nat) (mask : Mask ℝ) (target : V3) (dq : Nat → ℝ) (J : J3) (com : ℝ → V3)
    (h : HasDerivAt com (app N J dq) 0) :
    (comTask N mask target (com 0) J).Met dq ↔ ∀ a ∈ mask.indices,
      HasDerivAt (fun s => dot3 (maskAxis mask (fun i j => mask.rLocalWorld j i) a) (com s))
        (dot3 (maskAxis mask (fun i j => mask.rLocalWorld j i) a) (target - com 0)) 0 := by
  unfold comTask
  rw [maskedTask_met]
  refine forall_congr' fun a => forall_congr' fun _ => ?_
  have e := maskFrame_axis' mask (app N J dq) a
  unfold app at e
  rw [e, maskFrame_axis']
  exact deriv_iff (hasDerivAt_dot3 _ h)

/-! ## C112 -/

/-- **C112.** The orientation task is met exactly when the angular velocity has, on every selected axis (of the world, of
the target, or of the custom frame), the component of a rotation vector `e` that brings the frame on its target. -/
theorem C112 (log3 : M3 → V3) (hlog : LogOK log3) (N : Nat) (mask : Mask ℝ) (R_world_target : M3)
    (hT : IsRotation R_world_target) (dq : Nat → ℝ) (JLin JAng : J3) (T : ℝ → Affine) (h : Moves N dq JLin JAng T) :
    ∃ e, exp3 e * (T 0).linear = R_world_target ∧
      ((orientationTask log3 N mask R_world_target (T 0) JAng).Met dq ↔ ∀ a ∈ mask.indices,
        dot3 (maskAxis mask R_world_target a) (app N JAng dq) = dot3 (maskAxis mask R_world_target a) e) := by
  refine ⟨log3 (R_world_target * (T 0).linear.transpose), ?_, ?_⟩
  · rw [hlog _ (isRotation_mul hT (isRotation_transpose (h.rot 0))), mul_assoc, (h.rot 0).1, mul_one]
  · unfold orientationTask
    rw [maskedTask_met]
    refine forall_congr' fun a => forall_congr' fun _ => ?_
    have e := maskFrame_axis mask R_world_target (app N JAng dq) a
    unfold app at e
    rw [e, maskFrame_axis]
    rfl

/-- **C112**, with all the axes: turning at the angular velocity for a unit of time puts the frame on its target. -/
theorem C112_reach (log3 : M3 → V3) (hlog : LogOK log3) (N : Nat) (mask : Mask ℝ) (R_world_target : M3)
    (hT : IsRotation R_world_target) (dq : Nat → ℝ) (JLin JAng : J3) (T : ℝ → Affine) (h : Moves N dq JLin JAng T)
    (hall : ∀ a, a ∈ mask.indices) (hC : IsRotation (Matrix.of mask.rCustomWorld))
    (hm : (orientationTask log3 N mask R_world_target (T 0) JAng).Met dq) :
    exp3 (app N JAng dq) * (T 0).linear = R_world_target := by
  obtain ⟨e, he, hiff⟩ := C112 log3 hlog N mask R_world_target hT dq JLin JAng T h
  rw [axes_eq mask R_world_target hT hC hall (hiff.1 hm), he]

/-! ## C113 -/

theorem Tab_translation {a b : Affine} (h : IsRotation a.linear) :
    (a.inv.mul b).translation = a.linear.transpose.mulVec (b.translation - a.translation) := by
  simp only [Affine.inv, Affine.mul]
  rw [isRotation_inv h, Matrix.mulVec_sub]
  abel

theorem app_mulVec (N : Nat) (R : M3) (J : J3) (x : Nat → ℝ) :
    (app N (fun i j => R.mulVec (fun r => J r j) i) x) = R.mulVec (app N J x) := by
  funext i
  simp only [Matrix.mulVec, dotProduct, app, sum_mul, mul_sum]
  rw [sum_comm]
  exact sum_congr rfl fun r _ => sum_congr rfl fun j _ => by ring

theorem app_cross (N : Nat) (u : V3) (J : J3) (x : Nat → ℝ) :
    (app N (fun i j => cross3 u (fun r => J r j) i) x) = cross3 u (app N J x) := by
  funext i
  fin_cases i <;> simp [app, cross3, mul_sum, sub_mul, sum_sub_distrib, mul_assoc]

theorem app_sub (N : Nat) (J J' : J3) (x : Nat → ℝ) : app N (fun i j => J i j - J' i j) x = app N J x - app N J' x := by
  funext i
  simp [app, sub_mul, sum_sub_distrib]

theorem app_plus (N : Nat) (J J' : J3) (x : Nat → ℝ) : app N (fun i j => J i j + J' i j) x = app N J x + app N J' x := by
  funext i
  simp [app, add_mul, sum_add_distrib]

theorem app_relative (N : Nat) (f : TwoFrames) (x : Nat → ℝ) :
    app N (relativePositionJacobian f) x = f.Ta.linear.transpose.mulVec (app N f.JbLin x - app N f.JaLin x) +
      cross3 f.Tab.translation (f.Ta.linear.transpose.mulVec (app N f.JaAng x)) := by
  unfold relativePositionJacobian
  rw [app_plus N (fun i j => f.Ta.linear.transpose.mulVec (fun r => f.JbLin r j - f.JaLin r j) i)
    (fun i j => cross3 f.Tab.translation (f.Ta.linear.transpose.mulVec fun r => f.JaAng r j) i)]
  rw [app_mulVec N f.Ta.linear.transpose (fun r j => f.JbLin r j - f.JaLin r j), app_sub]
  rw [app_cross N f.Tab.translation (fun r j => f.Ta.linear.transpose.mulVec (fun r => f.JaAng r j) r), app_mulVec]

/-- The two frames at a moment of their motion. -/
noncomputable def framesAt (Ta Tb : ℝ → Affine) (JaLin JaAng JbLin JbAng : J3) : TwoFrames :=
  ⟨Ta 0, Tb 0, JaLin, JaAng, JbLin, JbAng⟩

/-- `relative_position_jacobian` is the derivative of the position of frame b seen from frame a. -/
theorem relative_position_deriv (N : Nat) (dq : Nat → ℝ) (JaLin JaAng JbLin JbAng : J3) (Ta Tb : ℝ → Affine)
    (ha : Moves N dq JaLin JaAng Ta) (hb : Moves N dq JbLin JbAng Tb) :
    HasDerivAt (fun s => ((Ta s).inv.mul (Tb s)).translation)
      (app N (relativePositionJacobian (framesAt Ta Tb JaLin JaAng JbLin JbAng)) dq) 0 := by
  have h1 : (fun s => ((Ta s).inv.mul (Tb s)).translation) =
      fun s => (Ta s).linear.transpose.mulVec ((Tb s).translation - (Ta s).translation) := by
    funext s; exact Tab_translation (ha.rot s)
  rw [h1, app_relative]
  refine (hasDerivAt_rotating (R := fun s => (Ta s).linear) (ha.rot 0) ha.ang (hb.lin.sub ha.lin)).congr_deriv ?_
  have h2 : (framesAt Ta Tb JaLin JaAng JbLin JbAng).Tab.translation =
      (Ta 0).linear.transpose.mulVec ((Tb 0).translation - (Ta 0).translation) := Tab_translation (ha.rot 0)
  rw [h2]
  simp only [framesAt, Pi.sub_apply]
  congr 1
  generalize (Ta 0).linear.transpose.mulVec (app N JaAng dq) = u
  generalize (Ta 0).linear.transpose.mulVec ((Tb 0).translation - (Ta 0).translation) = v
  funext i
  fin_cases i <;> simp [cross3] <;> ring

/-- **C113.** The relative position task is met exactly when, on every selected axis, the position of frame b in frame a
moves at the rate of its error. -/
theorem C113 (N : Nat) (mask : Mask ℝ) (target : V3) (dq : Nat → ℝ) (JaLin JaAng JbLin JbAng : J3) (Ta Tb : ℝ → Affine)
    (ha : Moves N dq JaLin JaAng Ta) (hb : Moves N dq JbLin JbAng Tb) :
    (relativePositionTask N mask target (framesAt Ta Tb JaLin JaAng JbLin JbAng)).Met dq ↔ ∀ a ∈ mask.indices,
      HasDerivAt (fun s => dot3 (maskAxis mask (fun i j => mask.rLocalWorld j i) a) ((Ta s).inv.mul (Tb s)).translation)
        (dot3 (maskAxis mask (fun i j => mask.rLocalWorld j i) a) (target - ((Ta 0).inv.mul (Tb 0)).translation)) 0 := by
  unfold relativePositionTask
  rw [maskedTask_met]
  refine forall_congr' fun a => forall_congr' fun _ => ?_
  have e := maskFrame_axis' mask (app N (relativePositionJacobian (framesAt Ta Tb JaLin JaAng JbLin JbAng)) dq) a
  unfold app at e
  rw [e, maskFrame_axis']
  exact deriv_iff (hasDerivAt_dot3 _ (relative_position_deriv N dq JaLin JaAng JbLin JbAng Ta Tb ha hb))

/-! ## C114 -/

/-- The orientation of frame b in frame a turns at the angular velocity `R_aᵀ (ω_b - ω_a)`. -/
theorem relative_orientation_deriv (N : Nat) (dq : Nat → ℝ) (JaLin JaAng JbLin JbAng : J3) (Ta Tb : ℝ → Affine)
    (ha : Moves N dq JaLin JaAng Ta) (hb : Moves N dq JbLin JbAng Tb) (i j : Fin 3) :
    HasDerivAt (fun s => ((Ta s).inv.mul (Tb s)).linear i j)
      (cross3 ((Ta 0).linear.transpose.mulVec (app N JbAng dq - app N JaAng dq))
        (fun k => ((Ta 0).inv.mul (Tb 0)).linear k j) i) 0 := by
  have h1 : ∀ s, ∀ i, ((Ta s).inv.mul (Tb s)).linear i j = (Ta s).linear.transpose.mulVec (fun k => (Tb s).linear k j) i := by
    intro s i
    simp only [Affine.inv, Affine.mul]
    rw [isRotation_inv (ha.rot s)]
    rfl
  have h2 := hasDerivAt_rotating (R := fun s => (Ta s).linear) (u := fun s k => (Tb s).linear k j)
    (u' := cross3 (app N JbAng dq) (fun k => (Tb 0).linear k j)) (ha.rot 0) ha.ang (hasDerivAt_pi.2 fun k => hb.ang k j)
  have h3 := (hasDerivAt_pi.1 h2) i
  have h4 : (fun s => ((Ta s).inv.mul (Tb s)).linear i j) =
      fun s => (Ta s).linear.transpose.mulVec (fun k => (Tb s).linear k j) i := by
    funext s; exact h1 s i
  rw [h4]
  refine h3.congr_deriv ?_
  have h5 : (fun k => ((Ta 0).inv.mul (Tb 0)).linear k j) = (Ta 0).linear.transpose.mulVec (fun k => (Tb 0).linear k j) := by
    funext k; exact h1 0 k
  rw [h5, rotation_cross _ (ha.rot 0), Matrix.mulVec_sub]
  generalize (Ta 0).linear.transpose.mulVec (app N JbAng dq) = p
  generalize (Ta 0).linear.transpose.mulVec (app N JaAng dq) = q
  generalize (Ta 0).linear.transpose.mulVec (fun k => (Tb 0).linear k j) = r
  fin_cases i <;> simp [cross3] <;> ring

/-- **C114.** The relative orientation task is met exactly when the angular velocity `ω` of frame b relative to frame a
(expressed in a) has, on every selected axis, the component of a rotation vector `e` that brings the relative orientation
on its target. -/
theorem C114 (log3 : M3 → V3) (hlog : LogOK log3) (N : Nat) (mask : Mask ℝ) (R_a_b : M3) (hT : IsRotation R_a_b)
    (dq : Nat → ℝ) (JaLin JaAng JbLin JbAng : J3) (Ta Tb : ℝ → Affine)
    (ha : Moves N dq JaLin JaAng Ta) (hb : Moves N dq JbLin JbAng Tb) :
    ∃ ω e : V3, exp3 e * ((Ta 0).inv.mul (Tb 0)).linear = R_a_b ∧
      (∀ i j, HasDerivAt (fun s => ((Ta s).inv.mul (Tb s)).linear i j)
        (cross3 ω (fun k => ((Ta 0).inv.mul (Tb 0)).linear k j) i) 0) ∧
      ((relativeOrientationTask log3 N mask R_a_b (framesAt Ta Tb JaLin JaAng JbLin JbAng)).Met dq ↔ ∀ a ∈ mask.indices,
        dot3 (maskAxis mask (fun i j => mask.rLocalWorld j i) a) ω =
          dot3 (maskAxis mask (fun i j => mask.rLocalWorld j i) a) e) := by
  have hrot : IsRotation ((Ta 0).inv.mul (Tb 0)).linear := by
    simp only [Affine.inv, Affine.mul]
    rw [isRotation_inv (ha.rot 0)]
    exact isRotation_mul (isRotation_transpose (ha.rot 0)) (hb.rot 0)
  refine ⟨(Ta 0).linear.transpose.mulVec (app N JbAng dq - app N JaAng dq),
    log3 (R_a_b * ((Ta 0).inv.mul (Tb 0)).linear.transpose), ?_,
    relative_orientation_deriv N dq JaLin JaAng JbLin JbAng Ta Tb ha hb, ?_⟩
  · rw [hlog _ (isRotation_mul hT (isRotation_transpose hrot)), mul_assoc, hrot.1, mul_one]
  · unfold relativeOrientationTask
    rw [maskedTask_met]
    refine forall_congr' fun a => forall_congr' fun _ => ?_
    have e := maskFrame_axis' mask (app N (fun i j => (Ta 0).linear.transpose.mulVec (fun r => JbAng r j - JaAng r j) i) dq) a
    have e2 := app_mulVec N (Ta 0).linear.transpose (fun r j => JbAng r j - JaAng r j) dq
    rw [app_sub] at e2
    rw [← maskFrame_axis' mask (log3 _), ← e2, ← e]
    rfl

/-- **C114**, with all the axes: the rotation at the relative angular velocity for a unit of time brings the relative
orientation on its target. -/
theorem C114_reach (log3 : M3 → V3) (hlog : LogOK log3) (N : Nat) (mask : Mask ℝ) (R_a_b : M3) (hT : IsRotation R_a_b)
    (dq : Nat → ℝ) (JaLin JaAng JbLin JbAng : J3) (Ta Tb : ℝ → Affine)
    (ha : Moves N dq JaLin JaAng Ta) (hb : Moves N dq JbLin JbAng Tb) (hall : ∀ a, a ∈ mask.indices)
    (hL : IsRotation (fun i j => mask.rLocalWorld j i)) (hC : IsRotation (Matrix.of mask.rCustomWorld))
    (hm : (relativeOrientationTask log3 N mask R_a_b (framesAt Ta Tb JaLin JaAng JbLin JbAng)).Met dq) :
    ∃ ω : V3, (∀ i j, HasDerivAt (fun s => ((Ta s).inv.mul (Tb s)).linear i j)
        (cross3 ω (fun k => ((Ta 0).inv.mul (Tb 0)).linear k j) i) 0) ∧
      exp3 ω * ((Ta 0).inv.mul (Tb 0)).linear = R_a_b := by
  obtain ⟨ω, e, he, hd, hiff⟩ := C114 log3 hlog N mask R_a_b hT dq JaLin JaAng JbLin JbAng Ta Tb ha hb
  refine ⟨ω, hd, ?_⟩
  rw [axes_eq mask _ hL hC hall (hiff.1 hm), he]

/-! ## Concrete case -/

/-- A frame that slides along x and turns about z with one degree of freedom. -/
noncomputable def slider (s : ℝ) : Affine := ⟨rotZ (2 * s), ![s, 0, 0]⟩

theorem slider_moves : Moves 1 (fun _ => 1) (fun i _ => ![1, 0, 0] i) (fun i _ => ![0, 0, 2] i) slider := by
  refine ⟨fun s => rotZ_isRotation _, ?_, ?_⟩
  · refine hasDerivAt_pi.2 fun i => ?_
    fin_cases i
    · simpa [app, slider] using hasDerivAt_id' (0 : ℝ)
    · simpa [app, slider] using hasDerivAt_const (0 : ℝ) (0 : ℝ)
    · simpa [app, slider] using hasDerivAt_const (0 : ℝ) (0 : ℝ)
  · have h2 : HasDerivAt (fun s : ℝ => 2 * s) 2 0 := by simpa using (hasDerivAt_id (0 : ℝ)).const_mul 2
    have hc : HasDerivAt (fun s : ℝ => Real.cos (2 * s)) 0 0 := by
      have := h2.cos; simpa using this
    have hs : HasDerivAt (fun s : ℝ => Real.sin (2 * s)) 2 0 := by
      have := h2.sin; simpa using this
    have hm : HasDerivAt (fun s : ℝ => -Real.sin (2 * s)) (-2) 0 := hs.neg
    intro i j
    fin_cases i <;> fin_cases j <;>
      first
        | simpa [app, slider, rotZ, cross3] using hc
        | simpa [app, slider, rotZ, cross3] using hs
        | simpa [app, slider, rotZ, cross3] using hm
        | simpa [app, slider, rotZ, cross3] using hasDerivAt_const (0 : ℝ) (0 : ℝ)
        | simpa [app, slider, rotZ, cross3] using hasDerivAt_const (0 : ℝ) (1 : ℝ)

/-- Non-vacuity: the task with target `(1, 0, 0)` is met by the motion of the slider, and with target `(2, 0, 0)` it is not. -/
example : (positionTask 1 Mask.init ![1, 0, 0] (slider 0) (fun i _ => ![1, 0, 0] i)).Met (fun _ => 1) ∧
    ¬ (positionTask 1 Mask.init ![2, 0, 0] (slider 0) (fun i _ => ![1, 0, 0] i)).Met (fun _ => 1) := by
  unfold positionTask
  constructor
  · rw [maskedTask_met]
    intro a _
    fin_cases a <;> simp [maskFrame, Mask.init, slider]
  · rw [maskedTask_met]
    intro h
    have := h 0 (by simp [Mask.init])
    simp [maskFrame, Mask.init, slider] at this

end Verif.Kinematics
