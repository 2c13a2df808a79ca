/-
Properties of the yaw and cone constraints (C99, C100), and concrete cases for the constraint properties.
-/
import Verif.Kinematics.ConstraintsProps2

namespace Verif.Kinematics
open Finset Verif.Problem Verif.Tools

/-! ## Derivative of `atan2` -/

theorem hasDerivAt_atan2 {y x : ℝ → ℝ} {y' x' : ℝ} (hy : HasDerivAt y y' 0) (hx : HasDerivAt x x' 0)
    (h : 0 < x 0 ∨ y 0 ≠ 0) :
    HasDerivAt (fun t => atan2 (y t) (x t)) ((x 0 * y' - y 0 * x') / (x 0 ^ 2 + y 0 ^ 2)) 0 := by
  have hf : HasDerivAt (fun t => (⟨x t, y t⟩ : ℂ)) ⟨x', y'⟩ 0 := by
    have h1 : HasDerivAt (fun t => ((x t : ℝ) : ℂ)) (x' : ℂ) 0 := hx.ofReal_comp
    have h2 : HasDerivAt (fun t => ((y t : ℝ) : ℂ)) (y' : ℂ) 0 := hy.ofReal_comp
    have := h1.add (h2.mul_const Complex.I)
    have e1 : (fun t => (⟨x t, y t⟩ : ℂ)) = (fun t => ((x t : ℝ) : ℂ)) + fun t => ((y t : ℝ) : ℂ) * Complex.I := by
      funext t; apply Complex.ext <;> simp
    have e2 : (⟨x', y'⟩ : ℂ) = (x' : ℂ) + (y' : ℂ) * Complex.I := by apply Complex.ext <;> simp
    rw [e1, e2]; exact this
  have hs : (⟨x 0, y 0⟩ : ℂ) ∈ Complex.slitPlane := by
    rw [Complex.mem_slitPlane_iff]; exact h
  have hl := hf.clog_real hs
  have him := Complex.imCLM.hasFDerivAt.comp_hasDerivAt (0 : ℝ) hl
  refine HasDerivAt.congr_deriv (f := fun t => atan2 (y t) (x t)) (f' := (⟨x', y'⟩ / ⟨x 0, y 0⟩ : ℂ).im) ?_ ?_
  · refine him.congr_of_eventuallyEq ?_
    exact Filter.Eventually.of_forall fun t => by
      show atan2 (y t) (x t) = (Complex.log ⟨x t, y t⟩).im
      rw [Complex.log_im]; rfl
  · have hne : x 0 * x 0 + y 0 * y 0 ≠ 0 := by
      rcases h with h | h
      · nlinarith [mul_self_nonneg (y 0)]
      · have := mul_self_pos.2 h
        nlinarith [mul_self_nonneg (x 0)]
    rw [Complex.div_im]
    simp only [Complex.normSq_mk]
    field_simp

/-! ## C99: yaw -/

/-- Angular velocity of `b` relative to `a` in `a` for a step. -/
noncomputable def relVel (nv : Nat) (Rab : M3) (Ja Jb : J3) (dq : Nat → ℝ) : V3 := jvel nv (relativeJac Rab Ja Jb) dq

theorem norm3_smul_unit (x : V3) (h : norm3 x = 1) : x 0 * x 0 + x 1 * x 1 + x 2 * x 2 = 1 := by
  unfold norm3 at h
  have := Real.sqrt_eq_one.1 h
  exact this

/-- `yaw_axis` in closed form. -/
theorem yawAxis_eq (x : V3) (h : norm3 x = 1) (hr : 0 < x 0 * x 0 + x 1 * x 1) :
    yawAxis x = ![-(x 0 * x 2) / Real.sqrt (x 0 * x 0 + x 1 * x 1), -(x 1 * x 2) / Real.sqrt (x 0 * x 0 + x 1 * x 1),
      Real.sqrt (x 0 * x 0 + x 1 * x 1)] := by
  have hu := norm3_smul_unit x h
  set ρ := Real.sqrt (x 0 * x 0 + x 1 * x 1) with hρ
  have hρ0 : 0 < ρ := Real.sqrt_pos.2 hr
  have hρ2 : ρ * ρ = x 0 * x 0 + x 1 * x 1 := Real.mul_self_sqrt hr.le
  have hperp : normalize3 (cross3 ![0, 0, 1] x) = ![-x 1 / ρ, x 0 / ρ, 0] := by
    have hc : cross3 ![0, 0, 1] x = ![-x 1, x 0, 0] := by
      funext i; fin_cases i <;> simp [cross3]
    have hn : norm3 ![-x 1, x 0, 0] = ρ := by
      rw [hρ]; unfold norm3; congr 1; simp; ring
    rw [hc]; unfold normalize3; rw [hn, if_pos hρ0]
    funext i; fin_cases i <;> simp
  have hc2 : cross3 x ![-x 1 / ρ, x 0 / ρ, 0] = ![-(x 0 * x 2) / ρ, -(x 1 * x 2) / ρ, ρ] := by
    funext i
    fin_cases i
    · simp [cross3]; ring
    · simp [cross3]; ring
    · simp only [cross3]
      show x 0 * (x 0 / ρ) - x 1 * (-x 1 / ρ) = ρ
      field_simp
      nlinarith
  have hn2 : norm3 ![-(x 0 * x 2) / ρ, -(x 1 * x 2) / ρ, ρ] = 1 := by
    unfold norm3
    rw [Real.sqrt_eq_one]
    show -(x 0 * x 2) / ρ * (-(x 0 * x 2) / ρ) + -(x 1 * x 2) / ρ * (-(x 1 * x 2) / ρ) + ρ * ρ = 1
    have : -(x 0 * x 2) / ρ * (-(x 0 * x 2) / ρ) + -(x 1 * x 2) / ρ * (-(x 1 * x 2) / ρ) = x 2 * x 2 := by
      field_simp
      nlinarith
    rw [this, hρ2]; linarith
  unfold yawAxis
  rw [hperp, hc2]
  unfold normalize3
  rw [hn2, if_pos one_pos]
  funext i; fin_cases i <;> simp

theorem dot_jvel (a : V3) (J : J3) (nv : Nat) (dq : Nat → ℝ) :
    ∑ j ∈ range nv, dot3 a (fun k => J k j) * dq j = dot3 a (jvel nv J dq) := by
  unfold dot3 jvel
  rw [Finset.mul_sum, Finset.mul_sum, Finset.mul_sum, ← Finset.sum_add_distrib, ← Finset.sum_add_distrib]
  exact Finset.sum_congr rfl fun j _ => by ring

/-- What the yaw constraint computes: with `x` the x axis of `b` in `a`, not vertical and not opposite to the x axis
of `a`, the constraint bounds `yaw + ρ yaw'` where `ρ` is the length of the projection of `x` on the
horizontal plane. -/
theorem C99_general (p : YawC) (nv : Nat) (Rab : RState ℝ → M3) (Ja Jb : RState ℝ → J3) (s : KState ℝ)
    (hu : norm3 (fun k => Rab s.robot k 0) = 1) (hslit : 0 < Rab s.robot 0 0 ∨ Rab s.robot 1 0 ≠ 0) :
    ∃ c, (p.toConstraint nv Rab Ja Jb).add s = .ok [c] ∧ (c.priority = .hard ↔ p.priority = .hard) ∧ c.weight = p.weight ∧
      ∀ dq (xc : ℝ → V3), Through xc (fun k => Rab s.robot k 0)
          (cross3 (relVel nv (Rab s.robot) (Ja s.robot) (Jb s.robot) dq) (fun k => Rab s.robot k 0)) →
        ∃ yaw', HasDerivAt (fun t => atan2 (xc t 1) (xc t 0)) yaw' 0 ∧
          (c.Sat dq ↔ |atan2 (xc 0 1) (xc 0 0) + Real.sqrt (Rab s.robot 0 0 ^ 2 + Rab s.robot 1 0 ^ 2) * yaw'| ≤ p.angleMax) := by
  unfold YawC.toConstraint
  simp only
  generalize he : (⟨2, nv, _, _⟩ : Expr ℝ) = e
  obtain ⟨c, h1, -, -, h4⟩ := leDouble_spec e p.angleMax
  rw [h1]
  refine ⟨_, rfl, configured_hard _ _ _, rfl, fun dq xc hxc => ⟨_, hasDerivAt_atan2 (hxc.2 1) (hxc.2 0) ?_, ?_⟩⟩
  · rw [hxc.1]; exact hslit
  · rw [configured_sat, h4, hxc.1]
    subst he
    generalize hx : (fun k => Rab s.robot k 0 : V3) = x at *
    have hx0 : Rab s.robot 0 0 = x 0 := by rw [← hx]
    have hx1 : Rab s.robot 1 0 = x 1 := by rw [← hx]
    rw [hx0, hx1] at hslit ⊢
    have hr : 0 < x 0 * x 0 + x 1 * x 1 := by
      rcases hslit with h | h
      · nlinarith [mul_self_nonneg (x 1)]
      · have := mul_self_pos.2 h
        nlinarith [mul_self_nonneg (x 0)]
    have hrow : ∑ j ∈ range nv, dot3 (yawAxis x) (fun k => relativeJac (Rab s.robot) (Ja s.robot) (Jb s.robot) k j) * dq j
        = Real.sqrt (x 0 ^ 2 + x 1 ^ 2) * ((x 0 * cross3 (relVel nv (Rab s.robot) (Ja s.robot) (Jb s.robot) dq) x 1 -
          x 1 * cross3 (relVel nv (Rab s.robot) (Ja s.robot) (Jb s.robot) dq) x 0) / (x 0 ^ 2 + x 1 ^ 2)) := by
      rw [dot_jvel]
      show dot3 (yawAxis x) (relVel nv (Rab s.robot) (Ja s.robot) (Jb s.robot) dq) = _
      generalize relVel nv (Rab s.robot) (Ja s.robot) (Jb s.robot) dq = w
      rw [yawAxis_eq x hu hr]
      have e2 : x 0 ^ 2 + x 1 ^ 2 = x 0 * x 0 + x 1 * x 1 := by ring
      rw [e2]
      set ρ := Real.sqrt (x 0 * x 0 + x 1 * x 1) with hρ
      have hρ0 : 0 < ρ := Real.sqrt_pos.2 hr
      have hρ2 : x 0 * x 0 + x 1 * x 1 = ρ * ρ := (Real.mul_self_sqrt hr.le).symm
      rw [hρ2]
      unfold dot3 cross3
      show -(x 0 * x 2) / ρ * w 0 + -(x 1 * x 2) / ρ * w 1 + ρ * w 2 =
        ρ * ((x 0 * (w 2 * x 0 - w 0 * x 2) - x 1 * (w 1 * x 2 - w 2 * x 1)) / (ρ * ρ))
      field_simp
      linear_combination (-(w 2)) * hρ2
    simp only [Expr.rowVal]
    constructor
    · intro h
      have h0 := h 0 (by norm_num)
      have h1 := h 1 (by norm_num)
      simp only [if_true, one_ne_zero, if_false, neg_mul, Finset.sum_neg_distrib, hrow] at h0 h1
      exact abs_le.2 ⟨by linarith, by linarith⟩
    · intro h i hi
      obtain ⟨h0, h1⟩ := abs_le.1 h
      by_cases hi0 : i = 0
      · subst hi0; simp only [if_true, hrow]; linarith
      · simp only [if_neg hi0, neg_mul, Finset.sum_neg_distrib, hrow]; linarith

/-- C99, when the x axis of `b` is horizontal in `a`: the constraint holds at a step exactly when the first-order prediction of
the yaw is in `[-angle_max, angle_max]`. -/
theorem C99_partial (p : YawC) (nv : Nat) (Rab : RState ℝ → M3) (Ja Jb : RState ℝ → J3) (s : KState ℝ)
    (hu : norm3 (fun k => Rab s.robot k 0) = 1) (hslit : 0 < Rab s.robot 0 0 ∨ Rab s.robot 1 0 ≠ 0)
    (hflat : Rab s.robot 2 0 = 0) :
    ∃ c, (p.toConstraint nv Rab Ja Jb).add s = .ok [c] ∧ (c.priority = .hard ↔ p.priority = .hard) ∧ c.weight = p.weight ∧
      ∀ dq (xc : ℝ → V3), Through xc (fun k => Rab s.robot k 0)
          (cross3 (relVel nv (Rab s.robot) (Ja s.robot) (Jb s.robot) dq) (fun k => Rab s.robot k 0)) →
        ∃ yaw', HasDerivAt (fun t => atan2 (xc t 1) (xc t 0)) yaw' 0 ∧
          (c.Sat dq ↔ |atan2 (xc 0 1) (xc 0 0) + yaw'| ≤ p.angleMax) := by
  obtain ⟨c, h1, h2, h3, h4⟩ := C99_general p nv Rab Ja Jb s hu hslit
  refine ⟨c, h1, h2, h3, fun dq xc hxc => ?_⟩
  obtain ⟨y, h5, h6⟩ := h4 dq xc hxc
  refine ⟨y, h5, ?_⟩
  rw [h6]
  have hone := norm3_smul_unit _ hu
  simp only [hflat, mul_zero, add_zero] at hone
  rw [show Rab s.robot 0 0 ^ 2 + Rab s.robot 1 0 ^ 2 = 1 by rw [← hone]; ring, Real.sqrt_one, one_mul]

/-- C99 is false when the axis is not horizontal: a rotation by 1 rad about the vertical axis satisfies a bound of 0.6 rad
although the yaw goes from 0 to (first-order) 1. -/
theorem C99_refuted : ∃ (p : YawC) (nv : Nat) (Rab : RState ℝ → M3) (Ja Jb : RState ℝ → J3) (s : KState ℝ) (dq : Nat → ℝ)
    (c : Constr ℝ) (xc : ℝ → V3) (yaw' : ℝ),
    (Rab s.robot).transpose * Rab s.robot = 1 ∧ (p.toConstraint nv Rab Ja Jb).add s = .ok [c] ∧
    Through xc (fun k => Rab s.robot k 0)
      (cross3 (relVel nv (Rab s.robot) (Ja s.robot) (Jb s.robot) dq) (fun k => Rab s.robot k 0)) ∧
    HasDerivAt (fun t => atan2 (xc t 1) (xc t 0)) yaw' 0 ∧
    c.Sat dq ∧ p.angleMax < |atan2 (xc 0 1) (xc 0 0) + yaw'| := by
  let R : M3 := !![3 / 5, 0, -(4 / 5); 0, 1, 0; 4 / 5, 0, 3 / 5]
  let s : KState ℝ := ⟨⟨fun _ => 0, fun _ => 0, fun _ => 0⟩, (0, []), none, none, [], false, true, false, 0, 0, false⟩
  let Ja : J3 := fun k _ => if k = 2 then -1 else 0
  have hx : (fun k => R k 0) = ![3 / 5, 0, 4 / 5] := by
    funext i; fin_cases i <;> simp [R]
  have hu : norm3 (fun k => R k 0) = 1 := by
    rw [hx]; unfold norm3; rw [Real.sqrt_eq_one]; simp; norm_num
  have hw : relVel 1 R Ja (fun _ _ => 0) (fun _ => 1) = ![0, 0, 1] := by
    unfold relVel jvel relativeJac
    funext i
    fin_cases i <;> simp [Ja, Matrix.mulVec, dotProduct]
  have hc : cross3 ![0, 0, 1] ![3 / 5, 0, 4 / 5] = ![0, 3 / 5, 0] := by
    funext i; fin_cases i <;> simp [cross3]
  obtain ⟨c, h1, -, -, h4⟩ := C99_general ⟨3 / 5, .hard, 1⟩ 1 (fun _ => R) (fun _ => Ja) (fun _ _ _ => 0) s hu (.inl (by simp [R]))
  have hthrough : Through (fun t => ![3 / 5, t * (3 / 5), 4 / 5]) (fun k => R k 0)
      (cross3 (relVel 1 R Ja (fun _ _ => 0) (fun _ => 1)) (fun k => R k 0)) := by
    rw [hw, hx, hc]
    refine ⟨by simp, fun k => ?_⟩
    fin_cases k
    · simpa using hasDerivAt_const (0 : ℝ) (3 / 5 : ℝ)
    · simpa using (hasDerivAt_id (0 : ℝ)).mul_const (3 / 5 : ℝ)
    · simpa using hasDerivAt_const (0 : ℝ) (4 / 5 : ℝ)
  obtain ⟨y, h5, h6⟩ := h4 (fun _ => 1) _ hthrough
  have hy : y = 1 := by
    have hd := hasDerivAt_atan2 (hthrough.2 1) (hthrough.2 0) (.inl (by simp))
    have := h5.unique hd
    rw [this, hw, hx, hc]
    simp
    norm_num
  have ha : atan2 0 (3 / 5) = 0 := by
    unfold atan2
    have : (⟨3 / 5, 0⟩ : ℂ) = ((3 / 5 : ℝ) : ℂ) := by apply Complex.ext <;> simp
    rw [this, Complex.arg_ofReal_of_nonneg (by norm_num)]
  refine ⟨⟨3 / 5, .hard, 1⟩, 1, fun _ => R, fun _ => Ja, fun _ _ _ => 0, s, fun _ => 1, c, _, y, ?_, h1, hthrough, h5, ?_, ?_⟩
  · ext i j
    fin_cases i <;> fin_cases j <;> simp [R, Matrix.mul_apply, Fin.sum_univ_three] <;> norm_num
  · rw [h6, hy]
    have hr : Real.sqrt (R 0 0 ^ 2 + R 1 0 ^ 2) = 3 / 5 := by
      simp only [R]
      have : ((3 / 5 : ℝ)) ^ 2 + 0 ^ 2 = (3 / 5) ^ 2 := by ring
      show Real.sqrt ((3 / 5 : ℝ) ^ 2 + 0 ^ 2) = 3 / 5
      rw [this, Real.sqrt_sq (by norm_num)]
    show |atan2 (0 * (3 / 5)) (3 / 5) + Real.sqrt (R 0 0 ^ 2 + R 1 0 ^ 2) * 1| ≤ 3 / 5
    rw [hr, zero_mul, ha]
    norm_num
  · show 3 / 5 < |atan2 (0 * (3 / 5)) (3 / 5) + y|
    rw [hy, zero_mul, ha]
    norm_num

end Verif.Kinematics
