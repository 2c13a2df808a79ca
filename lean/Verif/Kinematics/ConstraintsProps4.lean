/-
Property of the cone constraint (C100), and concrete cases meeting the hypotheses of the constraint properties.
-/
import Mathlib.Analysis.SpecialFunctions.Trigonometric.InverseDeriv
import Verif.Kinematics.ConstraintsProps3

namespace Verif.Kinematics
open Finset Verif.Problem Verif.Tools

/-! ## C100: cone -/

theorem cos_atan2 (x y : ℝ) (h : 0 < x * x + y * y) :
    Real.cos (atan2 y x) = x / Real.sqrt (x * x + y * y) ∧ Real.sin (atan2 y x) = y / Real.sqrt (x * x + y * y) := by
  have hne : (⟨x, y⟩ : ℂ) ≠ 0 := by
    intro h0
    have h1 := congrArg Complex.re h0
    have h2 := congrArg Complex.im h0
    simp only [Complex.zero_re, Complex.zero_im] at h1 h2
    rw [h1, h2] at h; simp at h
  have hn : ‖(⟨x, y⟩ : ℂ)‖ = Real.sqrt (x * x + y * y) := by
    rw [Complex.norm_def, Complex.normSq_mk]
  unfold atan2
  rw [Complex.cos_arg hne, Complex.sin_arg, hn]
  exact ⟨rfl, rfl⟩

/-- The tilt of the axis: its angle to the vertical axis of the cone. -/
noncomputable def tilt (axis : V3) : ℝ := Real.arccos (axis 2)

theorem atan2_tilt (axis : V3) (h : norm3 axis = 1) :
    atan2 (Real.sqrt (axis 0 * axis 0 + axis 1 * axis 1)) (axis 2) = tilt axis := by
  have hu := norm3_smul_unit axis h
  have hb : -1 ≤ axis 2 ∧ axis 2 ≤ 1 := by
    constructor <;> nlinarith [mul_self_nonneg (axis 0), mul_self_nonneg (axis 1)]
  have hs : Real.sqrt (axis 0 * axis 0 + axis 1 * axis 1) = Real.sin (Real.arccos (axis 2)) := by
    rw [Real.sin_arccos]; congr 1; linarith [pow_two (axis 2)]
  unfold tilt atan2
  rw [hs]
  nth_rewrite 1 [← Real.cos_arccos hb.1 hb.2]
  have h1 : (⟨Real.cos (Real.arccos (axis 2)), Real.sin (Real.arccos (axis 2))⟩ : ℂ)
      = Complex.cos (Real.arccos (axis 2)) + Complex.sin (Real.arccos (axis 2)) * Complex.I := by
    apply Complex.ext <;> simp
    · exact (Complex.cos_ofReal_re _).symm
    · exact (Complex.sin_ofReal_re _).symm
  rw [h1, Complex.arg_cos_add_sin_mul_I]
  exact ⟨by linarith [Real.arccos_nonneg (axis 2), Real.pi_pos], Real.arccos_le_pi _⟩

/-- C100, for an even positive number of slices (8 by default) and an axis that is not vertical: a step satisfying the
constraint keeps the first-order prediction of the tilt at most `angle_max`. -/
theorem C100_partial (p : ConeC) (nv : Nat) (Rab : RState ℝ → M3) (Ja Jb : RState ℝ → J3) (s : KState ℝ)
    (m : Nat) (hN : p.N = 2 * m) (hm : 0 < m)
    (hu : norm3 ((Rab s.robot).mulVec ![0, 0, 1]) = 1)
    (hv : (Rab s.robot).mulVec ![0, 0, 1] 0 ≠ 0 ∨ (Rab s.robot).mulVec ![0, 0, 1] 1 ≠ 0) :
    ∃ c, (p.toConstraint nv Rab Ja Jb).add s = .ok [c] ∧ (c.priority = .hard ↔ p.priority = .hard) ∧ c.weight = p.weight ∧
      ∀ dq (ac : ℝ → V3), Through ac ((Rab s.robot).mulVec ![0, 0, 1])
          (cross3 (relVel nv (Rab s.robot) (Ja s.robot) (Jb s.robot) dq) ((Rab s.robot).mulVec ![0, 0, 1])) →
        ∃ tilt', HasDerivAt (fun t => tilt (ac t)) tilt' 0 ∧ (c.Sat dq → tilt (ac 0) + tilt' ≤ p.angleMax) := by
  unfold ConeC.toConstraint
  simp only
  generalize he : (⟨p.N, nv, _, _⟩ : Expr ℝ) = e
  obtain ⟨c, h1, -, -, h4⟩ := leDouble_spec e p.angleMax
  rw [h1]
  refine ⟨_, rfl, configured_hard _ _ _, rfl, fun dq ac hac => ?_⟩
  generalize hax : (Rab s.robot).mulVec ![0, 0, 1] = a at *
  generalize hw : relVel nv (Rab s.robot) (Ja s.robot) (Jb s.robot) dq = w at *
  have hunit := norm3_smul_unit a hu
  have hr : 0 < a 0 * a 0 + a 1 * a 1 := by
    rcases hv with h | h
    · have := mul_self_pos.2 h; nlinarith [mul_self_nonneg (a 1)]
    · have := mul_self_pos.2 h; nlinarith [mul_self_nonneg (a 0)]
  set ρ := Real.sqrt (a 0 * a 0 + a 1 * a 1) with hρ
  have hρ0 : 0 < ρ := Real.sqrt_pos.2 hr
  have hρ2 : ρ * ρ = a 0 * a 0 + a 1 * a 1 := Real.mul_self_sqrt hr.le
  have hz1 : a 2 ≠ -1 := by intro h; rw [h] at hunit; linarith
  have hz2 : a 2 ≠ 1 := by intro h; rw [h] at hunit; linarith
  have hd := hac.2 2
  have hder : HasDerivAt (fun t => tilt (ac t)) ((w 1 * a 0 - w 0 * a 1) / ρ) 0 := by
    have h2 := (Real.hasDerivAt_arccos (x := ac 0 2) (by rw [hac.1]; exact hz1) (by rw [hac.1]; exact hz2))
    have := h2.comp (0 : ℝ) hd
    refine this.congr_deriv ?_
    rw [hac.1]
    have hs : Real.sqrt (1 - a 2 ^ 2) = ρ := by rw [hρ]; congr 1; linarith [pow_two (a 2)]
    rw [hs]
    show -(1 / ρ) * (w 0 * a 1 - w 1 * a 0) = _
    field_simp
    ring
  refine ⟨_, hder, fun hsat => ?_⟩
  rw [configured_sat, h4] at hsat
  have hrow := hsat m (by rw [← he]; show m < p.N; omega)
  subst he
  obtain ⟨hcos, hsin⟩ := cos_atan2 (a 0) (a 1) hr
  rw [← hρ] at hcos hsin
  have halpha : p.sliceAlpha a m = atan2 (a 1) (a 0) := by
    unfold ConeC.sliceAlpha
    rw [hN]
    have : ((2 * m : ℕ) : ℝ) = 2 * (m : ℝ) := by push_cast; ring
    rw [this]
    have hm' : (m : ℝ) ≠ 0 := by exact_mod_cast hm.ne'
    field_simp
    ring
  simp only [Expr.rowVal, dot_jvel, halpha] at hrow
  have h0 : (rotZ (atan2 (a 1) (a 0))).transpose.mulVec a 0 = ρ := by
    simp only [Matrix.mulVec, dotProduct, Fin.sum_univ_three, Matrix.transpose_apply, rotZ]
    show Real.cos (atan2 (a 1) (a 0)) * a 0 + Real.sin (atan2 (a 1) (a 0)) * a 1 + 0 * a 2 = ρ
    rw [hcos, hsin]
    field_simp
    linarith [pow_two ρ, pow_two (a 0), pow_two (a 1)]
  have h2 : (rotZ (atan2 (a 1) (a 0))).transpose.mulVec a 2 = a 2 := by
    simp only [Matrix.mulVec, dotProduct, Fin.sum_univ_three, Matrix.transpose_apply, rotZ]
    show 0 * a 0 + 0 * a 1 + 1 * a 2 = a 2
    ring
  have hj : dot3 (fun l => rotZ (atan2 (a 1) (a 0)) l 1) (jvel nv (relativeJac (Rab s.robot) (Ja s.robot) (Jb s.robot)) dq)
      = (w 1 * a 0 - w 0 * a 1) / ρ := by
    rw [show jvel nv (relativeJac (Rab s.robot) (Ja s.robot) (Jb s.robot)) dq = w from hw]
    unfold dot3 rotZ
    show -Real.sin (atan2 (a 1) (a 0)) * w 0 + Real.cos (atan2 (a 1) (a 0)) * w 1 + 0 * w 2 = _
    rw [hcos, hsin]
    field_simp
    ring
  rw [h0, h2, hj, atan2_tilt a hu] at hrow
  rw [hac.1]
  linarith

theorem atan2_neg_y (x : ℝ) (h : 0 < x) : atan2 0 x = 0 := by
  unfold atan2
  have : (⟨x, 0⟩ : ℂ) = ((x : ℝ) : ℂ) := by apply Complex.ext <;> simp
  rw [this, Complex.arg_ofReal_of_nonneg h.le]

theorem atan2_zero_zero : atan2 0 0 = 0 := by
  unfold atan2
  have : (⟨0, 0⟩ : ℂ) = 0 := rfl
  rw [this, Complex.arg_zero]

/-- C100 is false for an odd number of slices: with one slice a quarter turn away, an axis at 90 degrees meets a bound of 0.1 rad
without moving. -/
theorem C100_refuted : ∃ (p : ConeC) (nv : Nat) (Rab : RState ℝ → M3) (Ja Jb : RState ℝ → J3) (s : KState ℝ) (c : Constr ℝ),
    (Rab s.robot).transpose * Rab s.robot = 1 ∧ 0 < p.N ∧ (p.toConstraint nv Rab Ja Jb).add s = .ok [c] ∧
    c.Sat (fun _ => 0) ∧ p.angleMax < tilt ((Rab s.robot).mulVec ![0, 0, 1]) := by
  let R : M3 := !![0, 0, 1; 0, 1, 0; -1, 0, 0]
  let p : ConeC := ⟨1 / 10, 1, Real.pi / 2, .hard, 1⟩
  have hax : R.mulVec ![0, 0, 1] = ![1, 0, 0] := by
    funext i; fin_cases i <;> simp [R, Matrix.mulVec, dotProduct, Fin.sum_univ_three]
  let e : Expr ℝ := ⟨p.N, 0, fun k j => dot3 (fun l => rotZ (p.sliceAlpha (R.mulVec ![0, 0, 1]) k) l 1)
      (fun l => relativeJac R (fun _ _ => 0) (fun _ _ => 0) l j),
      fun k => atan2 ((rotZ (p.sliceAlpha (R.mulVec ![0, 0, 1]) k)).transpose.mulVec (R.mulVec ![0, 0, 1]) 0)
        ((rotZ (p.sliceAlpha (R.mulVec ![0, 0, 1]) k)).transpose.mulVec (R.mulVec ![0, 0, 1]) 2)⟩
  obtain ⟨c, h1, -, -, h4⟩ := leDouble_spec e p.angleMax
  refine ⟨p, 0, fun _ => R, fun _ _ _ => 0, fun _ _ _ => 0,
    ⟨⟨fun _ => 0, fun _ => 0, fun _ => 0⟩, (0, []), none, none, [], false, true, false, 0, 0, false⟩,
    configured p.priority p.weight c, ?_, Nat.one_pos, ?_, ?_, ?_⟩
  · ext i j
    fin_cases i <;> fin_cases j <;> simp [R, Matrix.mul_apply, Fin.sum_univ_three]
  · show (do let c ← e.leDouble p.angleMax; pure [configured p.priority p.weight c] : Except Err (List (Constr ℝ))) = _
    rw [h1]; rfl
  · rw [configured_sat, h4]
    intro i hi
    have : i = 0 := by
      have hi : i < 1 := hi
      omega
    subst this
    have hal : p.sliceAlpha ![1, 0, 0] 0 = -(Real.pi / 2) := by
      unfold ConeC.sliceAlpha
      show atan2 0 1 + _ - _ = _
      rw [atan2_neg_y 1 one_pos]
      simp [p]
    simp only [Expr.rowVal, e, Finset.range_zero, Finset.sum_empty, hax, hal]
    have g0 : (rotZ (-(Real.pi / 2))).transpose.mulVec ![1, 0, 0] 0 = 0 := by
      simp [Matrix.mulVec, dotProduct, Fin.sum_univ_three, rotZ]
    have g2 : (rotZ (-(Real.pi / 2))).transpose.mulVec ![1, 0, 0] 2 = 0 := by
      simp [Matrix.mulVec, dotProduct, Fin.sum_univ_three, rotZ]
    rw [g0, g2, atan2_zero_zero]
    simp only [p]; norm_num
  · rw [hax]
    show 1 / 10 < Real.arccos 0
    rw [Real.arccos_zero]
    linarith [Real.two_le_pi]

/-! ## Concrete cases -/

/-- C52: a unit square (clockwise), and a step that moves the CoM inside. -/
example : ∃ p : CoMPolygon, p.priority = .hard ∧ p.polygon.length = 4 ∧ 0 < p.margin ∧
    (∀ i, i < p.polygon.length → vertex p.polygon i ≠ vertex p.polygon ((i + 1) % p.polygon.length)) ∧
    ∀ i, i < p.polygon.length → p.margin ≤ signedDistance (vertex p.polygon i) (vertex p.polygon ((i + 1) % p.polygon.length))
      (p.predicted 1 ![0, 0, 0] ![1 / 2, 1 / 2, 0]) := by
  refine ⟨⟨[(0, 0), (0, 1), (1, 1), (1, 0)], 1 / 4, false, 0, .hard, 1⟩, rfl, rfl, by norm_num, ?_, ?_⟩
  · intro i hi
    have hi : i < 4 := hi
    interval_cases i <;> simp [vertex]
  · intro i hi
    have hi : i < 4 := hi
    interval_cases i <;> simp [vertex, CoMPolygon.predicted, signedDistance] <;> norm_num

/-- C53, C98: two distinct frames, one moving along the line between them. -/
example : ∃ (pa pb : V3) (Ja Jb : J3) (dq : Nat → ℝ) (ca cb : ℝ → V3), pa ≠ pb ∧
    Through ca pa (jvel 1 Ja dq) ∧ Through cb pb (jvel 1 Jb dq) ∧ jvel 1 Jb dq ≠ 0 := by
  have hl : ∀ a v : V3, Through (fun t k => a k + t * v k) a v := by
    intro a v
    refine ⟨by funext k; simp, fun k => ?_⟩
    have := ((hasDerivAt_id (0 : ℝ)).mul_const (v k)).const_add (a k)
    simpa using this
  refine ⟨0, ![1, 0, 0], fun _ _ => 0, fun k _ => if k = 0 then 1 else 0, fun _ => 1, _, _, ?_, hl _ _, hl _ _, ?_⟩
  · intro h; have := congrFun h 0; simp at this
  · intro h; have := congrFun h 0; simp [jvel] at this

/-- C54: the demonstration robot and one half-space. -/
example : (∀ j ∈ demoRobot.joints, j.Simple) ∧ ∃ p : HalfSpaces ℚ, p.A.rows = p.b.size ∧ p.A.cols = demoRobot.nq ∧ 0 < p.A.rows := by
  refine ⟨?_, ⟨⟨1, 9, fun _ j => if j = 7 then 1 else 0⟩, ⟨1, fun _ => 1⟩, .hard, 1⟩, rfl, rfl, Nat.one_pos⟩
  intro j hj
  simp only [demoRobot, List.mem_cons, List.not_mem_nil, or_false] at hj
  rcases hj with rfl | rfl <;> exact ⟨rfl, rfl⟩

/-- C99: an axis horizontal in `a`. C100: 8 slices and a horizontal axis. -/
example : norm3 (fun k => (1 : M3) k 0) = 1 ∧ 0 < (1 : M3) 0 0 ∧ (1 : M3) 2 0 = 0 ∧
    ∃ R : M3, norm3 (R.mulVec ![0, 0, 1]) = 1 ∧ R.mulVec ![0, 0, 1] 0 ≠ 0 := by
  refine ⟨?_, by simp, by simp, !![0, 0, 1; 0, 1, 0; -1, 0, 0], ?_, ?_⟩
  · simp [norm3]
  · simp [norm3, Matrix.mulVec, dotProduct, Fin.sum_univ_three]
  · simp [Matrix.mulVec, dotProduct, Fin.sum_univ_three]

/-- C101: a pair at distance 1, and a pair interpenetrating by 1. -/
example : (⟨0, ![1, 0, 0], 1, fun _ _ => 0, fun _ _ => 0⟩ : CollisionPair).Consistent ∧
    (⟨0, ![1, 0, 0], -1, fun _ _ => 0, fun _ _ => 0⟩ : CollisionPair).Consistent := by
  constructor <;> simp [CollisionPair.Consistent, norm3]

end Verif.Kinematics
