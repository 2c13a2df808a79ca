/-
Property C66: the relative position task of the dynamics solver.
-/
import Mathlib.Analysis.Calculus.Deriv.Mul
import Mathlib.Analysis.Calculus.Deriv.Prod
import Mathlib.Analysis.SpecialFunctions.Trigonometric.Deriv
import Mathlib.LinearAlgebra.Matrix.Adjugate
import Mathlib.Tactic.FieldSimp
import Mathlib.Tactic.LinearCombination
import Verif.Tools.UtilsProps
import Verif.Dynamics.TasksProps

namespace Verif.Dynamics
open Finset Verif.Problem Verif.Kinematics Verif.Tools

/-! ## Rotating frames -/

theorem rotation_adjugate (R : M3) (h : IsRotation R) : R.adjugate = R.transpose := by
  have h1 : R * R.transpose = 1 := mul_eq_one_comm.1 h.1
  calc R.adjugate = R.adjugate * (R * R.transpose) := by rw [h1, mul_one]
    _ = R.transpose := by rw [← mul_assoc, Matrix.adjugate_mul, h.2, one_smul, one_mul]

theorem rotation_cross (R : M3) (h : IsRotation R) (a b : V3) :
    R.transpose.mulVec (cross3 a b) = cross3 (R.transpose.mulVec a) (R.transpose.mulVec b) := by
  have hadj := rotation_adjugate R h
  rw [Matrix.adjugate_fin_three] at hadj
  have e : ∀ i j, R.transpose i j = _ := fun i j => congrFun (congrFun hadj.symm i) j
  have e00 := e 0 0; have e01 := e 0 1; have e02 := e 0 2
  have e10 := e 1 0; have e11 := e 1 1; have e12 := e 1 2
  have e20 := e 2 0; have e21 := e 2 1; have e22 := e 2 2
  simp only [Matrix.transpose_apply, Matrix.of_apply, Matrix.cons_val', Matrix.cons_val_zero, Matrix.cons_val_one,
    Matrix.cons_val] at e00 e01 e02 e10 e11 e12 e20 e21 e22
  funext i
  fin_cases i <;>
    simp only [Matrix.mulVec, dotProduct, Fin.sum_univ_three, cross3, Matrix.transpose_apply, Matrix.cons_val_zero,
      Matrix.cons_val_one, Matrix.cons_val, Fin.zero_eta, Fin.mk_one, Fin.reduceFinMk]
  · linear_combination (a 1 * b 2 - a 2 * b 1) * e00 + (a 2 * b 0 - a 0 * b 2) * e01 + (a 0 * b 1 - a 1 * b 0) * e02
  · linear_combination (a 1 * b 2 - a 2 * b 1) * e10 + (a 2 * b 0 - a 0 * b 2) * e11 + (a 0 * b 1 - a 1 * b 0) * e12
  · linear_combination (a 1 * b 2 - a 2 * b 1) * e20 + (a 2 * b 0 - a 0 * b 2) * e21 + (a 0 * b 1 - a 1 * b 0) * e22

theorem hasDerivAt_cross {a b : ℝ → V3} {a' b' : V3} {t : ℝ} (ha : HasDerivAt a a' t) (hb : HasDerivAt b b' t) :
    HasDerivAt (fun t => cross3 (a t) (b t)) (cross3 a' (b t) + cross3 (a t) b') t := by
  have ha := hasDerivAt_pi.1 ha
  have hb := hasDerivAt_pi.1 hb
  refine hasDerivAt_pi.2 fun i => ?_
  fin_cases i
  · refine (((ha 1).fun_mul (hb 2)).fun_sub ((ha 2).fun_mul (hb 1))).congr_deriv ?_
    simp [cross3]; ring
  · refine (((ha 2).fun_mul (hb 0)).fun_sub ((ha 0).fun_mul (hb 2))).congr_deriv ?_
    simp [cross3]; ring
  · refine (((ha 0).fun_mul (hb 1)).fun_sub ((ha 1).fun_mul (hb 0))).congr_deriv ?_
    simp [cross3]; ring

/-- Derivative of the coordinates of a vector in a frame rotating at `ω` (in the world). -/
theorem hasDerivAt_rotating {R : ℝ → M3} {u : ℝ → V3} {ω u' : V3} {t : ℝ} (hR : IsRotation (R t))
    (hRd : ∀ i j, HasDerivAt (fun t => R t i j) (cross3 ω (fun k => R t k j) i) t) (hu : HasDerivAt u u' t) :
    HasDerivAt (fun t => (R t).transpose.mulVec (u t))
      ((R t).transpose.mulVec u' + cross3 (-(R t).transpose.mulVec ω) ((R t).transpose.mulVec (u t))) t := by
  have hu := hasDerivAt_pi.1 hu
  have hneg : cross3 (-(R t).transpose.mulVec ω) ((R t).transpose.mulVec (u t)) =
      -(R t).transpose.mulVec (cross3 ω (u t)) := by
    rw [rotation_cross _ hR]
    funext i; fin_cases i <;> simp [cross3] <;> ring
  rw [hneg]
  refine hasDerivAt_pi.2 fun i => ?_
  have hd := (((hRd 0 i).fun_mul (hu 0)).fun_add ((hRd 1 i).fun_mul (hu 1))).fun_add ((hRd 2 i).fun_mul (hu 2))
  have heq : (fun t => (R t).transpose.mulVec (u t) i) =
      fun t => R t 0 i * u t 0 + R t 1 i * u t 1 + R t 2 i * u t 2 := by
    funext t
    simp [Matrix.mulVec, dotProduct, Fin.sum_univ_three]
  rw [heq]
  refine hd.congr_deriv ?_
  simp only [Matrix.mulVec, dotProduct, Fin.sum_univ_three, cross3, Matrix.transpose_apply, Pi.add_apply, Pi.neg_apply,
    Matrix.cons_val_zero, Matrix.cons_val_one, Matrix.cons_val]
  ring

/-! ## C66 -/

/-- A smooth motion of the robot, seen by the task: the contract of the Jacobians and of their time variations (the
velocity of each frame is `J qd`, and its derivative is `J qdd + dJ qd`). -/
structure RelMotion (N : Nat) (k : ℝ → RelKin) (s : ℝ → RState ℝ) : Prop where
  rot : ∀ t, IsRotation (k t).Ra
  rotDeriv : ∀ t i j, HasDerivAt (fun t => (k t).Ra i j) (cross3 (app N (k t).JaAng (s t).qd) (fun r => (k t).Ra r j) i) t
  pa : ∀ t, HasDerivAt (fun t => (k t).pa) (app N (k t).JaLin (s t).qd) t
  pb : ∀ t, HasDerivAt (fun t => (k t).pb) (app N (k t).JbLin (s t).qd) t
  va : ∀ t, HasDerivAt (fun t => app N (k t).JaLin (s t).qd) (app N (k t).JaLin (s t).qdd + app N (k t).dJaLin (s t).qd) t
  vb : ∀ t, HasDerivAt (fun t => app N (k t).JbLin (s t).qd) (app N (k t).JbLin (s t).qdd + app N (k t).dJbLin (s t).qd) t
  wa : ∀ t, HasDerivAt (fun t => app N (k t).JaAng (s t).qd) (app N (k t).JaAng (s t).qdd + app N (k t).dJaAng (s t).qd) t

/-- Specification: the position of `b` seen from `a`. -/
noncomputable def seen (k : RelKin) : V3 := k.Ra.transpose.mulVec (k.pb - k.pa)

/-- Velocity of the position of `b` seen from `a`. -/
theorem seen_vel {N : Nat} {k : ℝ → RelKin} {s : ℝ → RState ℝ} (h : RelMotion N k s) (t : ℝ) :
    HasDerivAt (fun t => seen (k t)) (cross3 ((k t).omega N (s t).qd) (k t).ab + (k t).dab N (s t).qd) t := by
  have := hasDerivAt_rotating (h.rot t) (h.rotDeriv t) ((h.pb t).fun_sub (h.pa t))
  refine this.congr_deriv ?_
  unfold RelKin.omega RelKin.dab RelKin.ab
  rw [add_comm]

theorem app_add (N : Nat) (J : Fin 3 → Nat → ℝ) (x y : Nat → ℝ) : app N J (fun i => x i + y i) = app N J x + app N J y := by
  funext i
  simp only [app, Pi.add_apply, mul_add, sum_add_distrib]

theorem app_J (N : Nat) (k : RelKin) (x : Nat → ℝ) :
    app N k.J x = cross3 k.ab (k.Ra.transpose.mulVec (app N k.JaAng x)) +
      k.Ra.transpose.mulVec (app N k.JbLin x - app N k.JaLin x) := by
  have hlin : ∀ (A : Fin 3 → Nat → ℝ) (i : Fin 3), ∑ j ∈ range N, k.Ra.transpose.mulVec (fun r => A r j) i * x j =
      k.Ra.transpose.mulVec (app N A x) i := by
    intro A i
    simp only [Matrix.mulVec, dotProduct, app, sum_mul, mul_sum]
    rw [sum_comm]
    exact sum_congr rfl fun r _ => sum_congr rfl fun j _ => by ring
  have h2 : app N k.JbLin x - app N k.JaLin x = app N (fun r j => k.JbLin r j - k.JaLin r j) x := by
    funext i
    simp only [app, Pi.sub_apply, sub_mul, sum_sub_distrib]
  rw [h2]
  funext i
  have h0 := hlin k.JaAng 0
  have h1 := hlin k.JaAng 1
  have h2 := hlin k.JaAng 2
  have hd := hlin (fun r j => k.JbLin r j - k.JaLin r j) i
  rw [Pi.add_apply, ← hd]
  have hsplit : app N k.J x i = ∑ j ∈ range N, cross3 k.ab (k.Ra.transpose.mulVec fun r => k.JaAng r j) i * x j +
      ∑ j ∈ range N, k.Ra.transpose.mulVec (fun r => k.JbLin r j - k.JaLin r j) i * x j := by
    rw [← sum_add_distrib]
    exact sum_congr rfl fun j _ => by unfold RelKin.J; ring
  rw [hsplit]
  congr 1
  fin_cases i <;>
    simp only [cross3, Matrix.cons_val_zero, Matrix.cons_val_one, Matrix.cons_val, Fin.zero_eta, Fin.mk_one,
      Fin.reduceFinMk, ← h0, ← h1, ← h2, mul_sum, ← sum_sub_distrib] <;>
    exact sum_congr rfl fun j _ => by ring

/-- Acceleration of the position of `b` seen from `a`, in terms of the accelerations of the robot. -/
theorem seen_acc {N : Nat} {k : ℝ → RelKin} {s : ℝ → RState ℝ} (h : RelMotion N k s) (t : ℝ) :
    HasDerivAt (fun t => cross3 ((k t).omega N (s t).qd) (k t).ab + (k t).dab N (s t).qd)
      (app N (k t).J (s t).qdd
        + (2 : ℝ) • cross3 ((k t).omega N (s t).qd) ((k t).dab N (s t).qd)
        + cross3 ((k t).omega N (s t).qd) (cross3 ((k t).omega N (s t).qd) (k t).ab)
        + (k t).Ra.transpose.mulVec (app N (k t).dJbLin (s t).qd - app N (k t).dJaLin (s t).qd)
        + cross3 (k t).ab ((k t).Ra.transpose.mulVec (app N (k t).dJaAng (s t).qd))) t := by
  have hw := (hasDerivAt_rotating (h.rot t) (h.rotDeriv t) (h.wa t)).fun_neg
  have hv := hasDerivAt_rotating (h.rot t) (h.rotDeriv t) ((h.vb t).fun_sub (h.va t))
  have hc := hasDerivAt_cross hw (seen_vel h t)
  refine (hc.fun_add hv).congr_deriv ?_
  rw [app_J]
  have hself : cross3 (-(k t).Ra.transpose.mulVec (app N (k t).JaAng (s t).qd))
      ((k t).Ra.transpose.mulVec (app N (k t).JaAng (s t).qd)) = 0 := by
    funext i; fin_cases i <;> simp [cross3] <;> ring
  rw [hself]
  have hsplit : (k t).Ra.transpose.mulVec (app N (k t).JbLin (s t).qdd + app N (k t).dJbLin (s t).qd -
      (app N (k t).JaLin (s t).qdd + app N (k t).dJaLin (s t).qd)) =
      (k t).Ra.transpose.mulVec (app N (k t).JbLin (s t).qdd - app N (k t).JaLin (s t).qdd) +
      (k t).Ra.transpose.mulVec (app N (k t).dJbLin (s t).qd - app N (k t).dJaLin (s t).qd) := by
    rw [← Matrix.mulVec_add]; congr 1; abel
  have hsplit2 : (k t).Ra.transpose.mulVec (app N (k t).JaAng (s t).qdd + app N (k t).dJaAng (s t).qd) =
      (k t).Ra.transpose.mulVec (app N (k t).JaAng (s t).qdd) + (k t).Ra.transpose.mulVec (app N (k t).dJaAng (s t).qd) := by
    rw [Matrix.mulVec_add]
  rw [hsplit, hsplit2]
  show cross3 (-((k t).Ra.transpose.mulVec (app N (k t).JaAng (s t).qdd) +
        (k t).Ra.transpose.mulVec (app N (k t).dJaAng (s t).qd) + 0)) (k t).ab
      + cross3 ((k t).omega N (s t).qd) (cross3 ((k t).omega N (s t).qd) (k t).ab + (k t).dab N (s t).qd)
      + ((k t).Ra.transpose.mulVec (app N (k t).JbLin (s t).qdd - app N (k t).JaLin (s t).qdd) +
          (k t).Ra.transpose.mulVec (app N (k t).dJbLin (s t).qd - app N (k t).dJaLin (s t).qd)
        + cross3 ((k t).omega N (s t).qd) ((k t).dab N (s t).qd)) = _
  generalize (k t).Ra.transpose.mulVec (app N (k t).JaAng (s t).qdd) = w1
  generalize (k t).Ra.transpose.mulVec (app N (k t).dJaAng (s t).qd) = w2
  generalize (k t).omega N (s t).qd = Ω
  generalize (k t).dab N (s t).qd = d
  generalize (k t).ab = y
  generalize (k t).Ra.transpose.mulVec (app N (k t).JbLin (s t).qdd - app N (k t).JaLin (s t).qdd) = l1
  generalize (k t).Ra.transpose.mulVec (app N (k t).dJbLin (s t).qd - app N (k t).dJaLin (s t).qd) = l2
  funext i
  fin_cases i <;> simp [cross3] <;> ring

/-- The mask that selects the three axes of the task frame (the default one). -/
theorem relPos_met (N : Nat) (kp kd : ℝ) (target dtarget ddtarget : V3) (k : RelKin) (s : RState ℝ) (x : Nat → ℝ) :
    (relPosUpdate N Mask.init kp kd target dtarget ddtarget k s).Met x ↔
      app N k.J x + k.e N s.qd = k.desired N kp kd target dtarget ddtarget s.qd := by
  unfold relPosUpdate
  rw [maskedTask_met]
  unfold maskFrame Mask.init
  simp only [List.mem_cons, List.not_mem_nil, or_false]
  constructor
  · intro h
    funext i
    have := h i (by fin_cases i <;> simp)
    rw [Pi.add_apply]
    show ∑ j ∈ range N, k.J i j * x j + _ = _
    rw [this]; ring
  · intro h a _
    have := congrFun h a
    rw [Pi.add_apply] at this
    have hx : app N k.J x a = ∑ j ∈ range N, k.J a j * x j := rfl
    rw [hx] at this
    linarith

/-- **C66, what is true.** If the task (with the default mask) is met along a motion, the second derivative of the position
of `b` seen from `a` is the desired acceleration `kp error + kd derror + ddtarget` minus
`Ω × (Ω × y) + Rᵀ ((dJb - dJa)_angular - (dJb - dJa)_linear) qd`, where `Ω` is the opposite of the angular velocity of `a`
in `a` and `y` the position. Missing for the full C66: this difference is not zero (`C66_refuted`). -/
theorem C66_partial {N : Nat} {k : ℝ → RelKin} {s : ℝ → RState ℝ} (h : RelMotion N k s) (kp kd : ℝ)
    (target dtarget ddtarget : V3) (t : ℝ)
    (hmet : (relPosUpdate N Mask.init kp kd target dtarget ddtarget (k t) (s t)).Met (s t).qdd) :
    ∃ v : ℝ → V3, (∀ t, HasDerivAt (fun t => seen (k t)) (v t) t) ∧
      HasDerivAt v
        (kp • (target - seen (k t)) + (if kd < 0 then 2 * Real.sqrt kp else kd) • (dtarget - v t) + ddtarget
          - (cross3 ((k t).omega N (s t).qd) (cross3 ((k t).omega N (s t).qd) (seen (k t)))
            + (k t).Ra.transpose.mulVec ((app N (k t).dJbAng (s t).qd - app N (k t).dJaAng (s t).qd)
                - (app N (k t).dJbLin (s t).qd - app N (k t).dJaLin (s t).qd)))) t := by
  refine ⟨fun t => cross3 ((k t).omega N (s t).qd) (k t).ab + (k t).dab N (s t).qd, seen_vel h, ?_⟩
  refine (seen_acc h t).congr_deriv ?_
  have hm := (relPos_met N kp kd target dtarget ddtarget (k t) (s t) (s t).qdd).1 hmet
  have hJ : app N (k t).J (s t).qdd = (k t).desired N kp kd target dtarget ddtarget (s t).qd - (k t).e N (s t).qd := by
    rw [← hm]; abel
  rw [hJ]
  have hdes : (k t).desired N kp kd target dtarget ddtarget (s t).qd =
      kp • (target - seen (k t)) + (if kd < 0 then 2 * Real.sqrt kp else kd) •
        (dtarget - (cross3 ((k t).omega N (s t).qd) (k t).ab + (k t).dab N (s t).qd)) + ddtarget := rfl
  rw [hdes]
  unfold RelKin.e
  simp only [Matrix.mulVec_sub]
  show _ = _ - (cross3 ((k t).omega N (s t).qd) (cross3 ((k t).omega N (s t).qd) (k t).ab) + _)
  module

/-- C66 when the frame `a` does not rotate and the linear and angular time variations agree on `qd` (for example when
both vanish). -/
theorem C66_fixed_partial {N : Nat} {k : ℝ → RelKin} {s : ℝ → RState ℝ} (h : RelMotion N k s) (kp kd : ℝ)
    (target dtarget ddtarget : V3) (t : ℝ)
    (hmet : (relPosUpdate N Mask.init kp kd target dtarget ddtarget (k t) (s t)).Met (s t).qdd)
    (hrot : app N (k t).JaAng (s t).qd = 0)
    (hd : app N (k t).dJbAng (s t).qd - app N (k t).dJaAng (s t).qd =
      app N (k t).dJbLin (s t).qd - app N (k t).dJaLin (s t).qd) :
    ∃ v : ℝ → V3, (∀ t, HasDerivAt (fun t => seen (k t)) (v t) t) ∧
      HasDerivAt v (kp • (target - seen (k t)) + (if kd < 0 then 2 * Real.sqrt kp else kd) • (dtarget - v t) + ddtarget) t := by
  obtain ⟨v, h1, h2⟩ := C66_partial h kp kd target dtarget ddtarget t hmet
  refine ⟨v, h1, h2.congr_deriv ?_⟩
  have hΩ : (k t).omega N (s t).qd = 0 := by unfold RelKin.omega; rw [hrot]; simp
  have hc : ∀ u : V3, cross3 0 u = 0 := by
    intro u; funext i; fin_cases i <;> simp [cross3]
  rw [hΩ, hc, hd, sub_self, Matrix.mulVec_zero]
  simp

/-- The motion used to refute C66: `a` turns at unit speed around its vertical axis, `b` is fixed in the world at
`(1, 0, 0)`; one degree of freedom, the angle. -/
noncomputable def turnKin (t : ℝ) : RelKin where
  Ra := rotZ t
  pa := 0
  pb := ![1, 0, 0]
  JaLin := fun _ _ => 0
  JaAng := fun i _ => if i = 2 then 1 else 0
  JbLin := fun _ _ => 0
  dJaLin := fun _ _ => 0
  dJaAng := fun _ _ => 0
  dJbLin := fun _ _ => 0
  dJbAng := fun _ _ => 0

noncomputable def turnState (t : ℝ) : RState ℝ := ⟨fun _ => t, fun _ => 1, fun _ => 0⟩

theorem turn_zero (x : Nat → ℝ) : app 1 (fun _ _ => 0) x = 0 := by funext i; simp [app]

theorem turn_motion : RelMotion 1 turnKin turnState := by
  have hz : ∀ t x, app 1 (turnKin t).JaLin x = 0 := fun t x => turn_zero x
  have hz2 : ∀ t x, app 1 (turnKin t).JbLin x = 0 := fun t x => turn_zero x
  have hd1 : ∀ t x, app 1 (turnKin t).dJaLin x = 0 := fun t x => turn_zero x
  have hd2 : ∀ t x, app 1 (turnKin t).dJbLin x = 0 := fun t x => turn_zero x
  have hd3 : ∀ t x, app 1 (turnKin t).dJaAng x = 0 := fun t x => turn_zero x
  have hw : ∀ t, app 1 (turnKin t).JaAng (turnState t).qd = ![0, 0, 1] := by
    intro t; funext i; fin_cases i <;> simp [app, turnKin, turnState]
  have hw2 : ∀ t, app 1 (turnKin t).JaAng (turnState t).qdd = 0 := by
    intro t; funext i; simp [app, turnState]
  refine ⟨fun t => ?_, fun t i j => ?_, fun t => ?_, fun t => ?_, fun t => ?_, fun t => ?_, fun t => ?_⟩
  · exact rotZ_isRotation t
  · rw [hw]
    have hs := Real.hasDerivAt_sin t
    have hc := Real.hasDerivAt_cos t
    fin_cases i <;> fin_cases j <;> simp [turnKin, rotZ, cross3, hasDerivAt_const]
    · exact hc
    · exact hs.fun_neg
    · exact hs
    · exact hc
  · rw [hz]; exact hasDerivAt_const t _
  · rw [hz2]; exact hasDerivAt_const t _
  · simp only [hz, hd1, add_zero]; exact hasDerivAt_const t _
  · simp only [hz2, hd2, add_zero]; exact hasDerivAt_const t _
  · simp only [hw, hw2, hd3, add_zero]; exact hasDerivAt_const t _

theorem turn_seen (t : ℝ) : seen (turnKin t) = ![Real.cos t, -Real.sin t, 0] := by
  funext i
  fin_cases i <;> simp [seen, turnKin, rotZ, Matrix.mulVec, dotProduct, Fin.sum_univ_three]

/-- **C66 is false**: along this motion the task with null gains and `ddtarget = (-2, 0, 0)` is met at time 0, while the
acceleration of `b` seen from `a` is `(-1, 0, 0)`. -/
theorem C66_refuted :
    RelMotion 1 turnKin turnState ∧
    (relPosUpdate 1 Mask.init 0 0 0 0 ![-2, 0, 0] (turnKin 0) (turnState 0)).Met (turnState 0).qdd ∧
    ∃ v : ℝ → V3, (∀ t, HasDerivAt (fun t => seen (turnKin t)) (v t) t) ∧ HasDerivAt v ![-1, 0, 0] 0 := by
  refine ⟨turn_motion, ?_, fun t => ![-Real.sin t, -Real.cos t, 0], fun t => ?_, ?_⟩
  · rw [relPos_met]
    have hab : (turnKin 0).ab = ![1, 0, 0] := by
      have := turn_seen 0
      simp only [Real.cos_zero, Real.sin_zero, neg_zero] at this
      exact this
    have hom : (turnKin 0).omega 1 (turnState 0).qd = ![0, 0, -1] := by
      funext i
      fin_cases i <;> simp [RelKin.omega, turnKin, turnState, rotZ, Matrix.mulVec, dotProduct, Fin.sum_univ_three, app]
    have hJ : app 1 (turnKin 0).J (turnState 0).qdd = 0 := by
      funext i; simp [app, turnState]
    rw [hJ]
    unfold RelKin.desired RelKin.e
    rw [hab, hom]
    have hdab : (turnKin 0).dab 1 (turnState 0).qd = 0 := by
      unfold RelKin.dab
      rw [show app 1 (turnKin 0).JbLin (turnState 0).qd = 0 from turn_zero _,
        show app 1 (turnKin 0).JaLin (turnState 0).qd = 0 from turn_zero _]
      simp
    rw [hdab, show app 1 (turnKin 0).dJbAng (turnState 0).qd = 0 from turn_zero _,
      show app 1 (turnKin 0).dJaAng (turnState 0).qd = 0 from turn_zero _]
    funext i
    fin_cases i <;> simp [cross3, getKd]
  · simp only [turn_seen]
    refine hasDerivAt_pi.2 fun i => ?_
    fin_cases i
    · exact Real.hasDerivAt_cos t
    · exact (Real.hasDerivAt_sin t).fun_neg
    · exact hasDerivAt_const t _
  · refine hasDerivAt_pi.2 fun i => ?_
    fin_cases i
    · refine (Real.hasDerivAt_sin 0).fun_neg.congr_deriv ?_; simp
    · refine (Real.hasDerivAt_cos 0).fun_neg.congr_deriv ?_; simp
    · exact hasDerivAt_const 0 _

end Verif.Dynamics
