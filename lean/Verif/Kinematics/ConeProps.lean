/-
The cone constraint when the two z axes are aligned, the state it is usually started from (C100).
-/
import Verif.Kinematics.ConstraintsProps4

namespace Verif.Kinematics
open Finset Verif.Problem Verif.Tools

/-- The direction of slice `k` when the axis is vertical (`atan2(0, 0)` is 0). -/
noncomputable def ConeC.beta (p : ConeC) (k : Nat) : ℝ := k * 2 * p.range / p.N - p.range

theorem sliceAlpha_vertical (p : ConeC) (k : Nat) : p.sliceAlpha ![0, 0, 1] k = p.beta k := by
  unfold ConeC.sliceAlpha ConeC.beta
  show atan2 0 0 + _ - _ = _
  rw [atan2_zero_zero, zero_add]

/-- **C100, aligned axes, exactly.** When the axis of `b` is the axis of the cone, a step satisfies the constraint exactly when
the horizontal velocity of the axis has at most `angle_max` along each of the `N` directions of the slices, all at most
`range` away from the x axis of the cone: the other directions are not bounded. -/
theorem C100_vertical_exact (p : ConeC) (nv : Nat) (Rab : RState ℝ → M3) (Ja Jb : RState ℝ → J3) (s : KState ℝ)
    (hz : (Rab s.robot).mulVec ![0, 0, 1] = ![0, 0, 1]) :
    ∃ c, (p.toConstraint nv Rab Ja Jb).add s = .ok [c] ∧ (c.priority = .hard ↔ p.priority = .hard) ∧ c.weight = p.weight ∧
      ∀ dq, let v := cross3 (relVel nv (Rab s.robot) (Ja s.robot) (Jb s.robot) dq) ![0, 0, 1]
        (c.Sat dq ↔ ∀ k, k < p.N → Real.cos (p.beta k) * v 0 + Real.sin (p.beta k) * v 1 ≤ p.angleMax) := by
  unfold ConeC.toConstraint
  simp only [Bind.bind, Except.bind]
  generalize he : (⟨p.N, nv, _, _⟩ : Expr ℝ) = e
  obtain ⟨c, h1, -, -, h4⟩ := leDouble_spec e p.angleMax
  rw [h1]
  refine ⟨_, rfl, configured_hard _ _ _, rfl, fun dq => ?_⟩
  generalize hw : relVel nv (Rab s.robot) (Ja s.robot) (Jb s.robot) dq = w
  rw [configured_sat, h4]
  subst he
  simp only
  have hk : ∀ k, (Expr.rowVal (⟨p.N, nv, fun k j => dot3 (fun l => rotZ (p.sliceAlpha ((Rab s.robot).mulVec ![0, 0, 1]) k) l 1)
        fun l => relativeJac (Rab s.robot) (Ja s.robot) (Jb s.robot) l j,
      fun k => atan2 ((rotZ (p.sliceAlpha ((Rab s.robot).mulVec ![0, 0, 1]) k)).transpose.mulVec ((Rab s.robot).mulVec ![0, 0, 1]) 0)
        ((rotZ (p.sliceAlpha ((Rab s.robot).mulVec ![0, 0, 1]) k)).transpose.mulVec ((Rab s.robot).mulVec ![0, 0, 1]) 2)⟩ : Expr ℝ) dq k) =
      Real.cos (p.beta k) * cross3 w ![0, 0, 1] 0 + Real.sin (p.beta k) * cross3 w ![0, 0, 1] 1 := by
    intro k
    simp only [Expr.rowVal, dot_jvel, hz, sliceAlpha_vertical]
    rw [show jvel nv (relativeJac (Rab s.robot) (Ja s.robot) (Jb s.robot)) dq = w from hw]
    have g0 : (rotZ (p.beta k)).transpose.mulVec ![0, 0, 1] 0 = 0 := by
      simp [Matrix.mulVec, dotProduct, Fin.sum_univ_three, rotZ]
    have g2 : (rotZ (p.beta k)).transpose.mulVec ![0, 0, 1] 2 = 1 := by
      simp [Matrix.mulVec, dotProduct, Fin.sum_univ_three, rotZ]
    rw [g0, g2, atan2_neg_y 1 one_pos]
    simp [dot3, rotZ, cross3]
    ring
  constructor
  · intro h k hkN; rw [← hk k]; exact h k hkN
  · intro h k hkN; rw [hk k]; exact h k hkN

/-- The directions of the slices are at most `range` away from the x axis. -/
theorem beta_range (p : ConeC) (hr : 0 ≤ p.range) (k : Nat) (hk : k < p.N) : -p.range ≤ p.beta k ∧ p.beta k ≤ p.range := by
  have hN : (0 : ℝ) < p.N := by exact_mod_cast (Nat.zero_lt_of_lt hk)
  have hkN : (k : ℝ) ≤ p.N := by exact_mod_cast hk.le
  have h0 : 0 ≤ (k : ℝ) * 2 * p.range / p.N := by positivity
  have h1 : (k : ℝ) * 2 * p.range / p.N ≤ 2 * p.range := by
    rw [div_le_iff₀ hN]
    nlinarith [mul_le_mul_of_nonneg_right hkN hr]
  unfold ConeC.beta
  constructor <;> linarith

/-- The axis of the frame `b` of `C100_vertical_refuted` after the step: the joint turns it by `θ` about `-y`. -/
theorem turned_axis (θ : ℝ) (h0 : 0 < θ) :
    (exp3 ![0, -θ, 0]).mulVec ![0, 0, 1] = ![-Real.sin θ, 0, Real.cos θ] := by
  have ht : norm3 ![0, -θ, 0] = θ := by
    unfold norm3
    have : (![0, -θ, 0] : V3) 0 * (![0, -θ, 0] : V3) 0 + (![0, -θ, 0] : V3) 1 * (![0, -θ, 0] : V3) 1
        + (![0, -θ, 0] : V3) 2 * (![0, -θ, 0] : V3) 2 = θ * θ := by simp
    rw [this, Real.sqrt_mul_self h0.le]
  unfold exp3
  simp only [ht, if_neg h0.ne']
  funext i
  fin_cases i <;> simp [Matrix.mulVec, dotProduct, Fin.sum_univ_three]
  field_simp

/-- **C100 is false for aligned axes**, for every number of slices and every range up to a quarter turn (8 and 0.25 rad by
default): whatever `angle_max`, a step that tilts the axis by any angle `θ` up to half a turn, away from the x axis of the
cone, satisfies the constraint. -/
theorem C100_vertical_refuted (p : ConeC) (hr : 0 ≤ p.range) (hr' : p.range ≤ Real.pi / 2) (hmax : 0 ≤ p.angleMax)
    (θ : ℝ) (h0 : 0 < θ) (hpi : θ ≤ Real.pi) (s : KState ℝ) :
    ∃ (Jb : J3) (dq : Nat → ℝ) (c : Constr ℝ),
      (p.toConstraint 1 (fun _ => 1) (fun _ _ _ => 0) (fun _ => Jb)).add s = .ok [c] ∧ c.Sat dq ∧
      tilt ((1 : M3).mulVec ![0, 0, 1]) = 0 ∧
      tilt ((exp3 (relVel 1 1 (fun _ _ => 0) Jb dq)).mulVec ![0, 0, 1]) = θ := by
  obtain ⟨c, h1, -, -, h4⟩ := C100_vertical_exact p 1 (fun _ => 1) (fun _ _ _ => 0)
    (fun _ l _ => (![0, -1, 0] : V3) l) s (by simp)
  have hw : relVel 1 1 (fun _ _ => 0) (fun l _ => (![0, -1, 0] : V3) l) (fun _ => θ) = ![0, -θ, 0] := by
    funext i
    fin_cases i <;> simp [relVel, jvel, relativeJac]
  refine ⟨fun l _ => (![0, -1, 0] : V3) l, fun _ => θ, c, h1, ?_, ?_, ?_⟩
  · refine (h4 (fun _ => θ)).2 fun k hk => ?_
    obtain ⟨b1, b2⟩ := beta_range p hr k hk
    have hc : 0 ≤ Real.cos (p.beta k) := Real.cos_nonneg_of_neg_pi_div_two_le_of_le (by linarith) (by linarith)
    rw [hw]
    simp only [cross3]
    have := mul_nonneg hc h0.le
    simp
    linarith
  · simp [tilt]
  · rw [hw, turned_axis θ h0]
    show Real.arccos (Real.cos θ) = θ
    exact Real.arccos_cos h0.le hpi

/-- Non-vacuity: the default constraint with a bound of 0.1 rad lets the axis turn upside down in one step. -/
example (s : KState ℝ) : ∃ (Jb : J3) (dq : Nat → ℝ) (c : Constr ℝ),
    ((⟨1 / 10, 8, 1 / 4, .hard, 1⟩ : ConeC).toConstraint 1 (fun _ => 1) (fun _ _ _ => 0) (fun _ => Jb)).add s = .ok [c] ∧ c.Sat dq ∧
    tilt ((exp3 (relVel 1 1 (fun _ _ => 0) Jb dq)).mulVec ![0, 0, 1]) = Real.pi := by
  obtain ⟨Jb, dq, c, h1, h2, -, h3⟩ := C100_vertical_refuted ⟨1 / 10, 8, 1 / 4, .hard, 1⟩ (by norm_num)
    (by show (1 / 4 : ℝ) ≤ _; linarith [Real.two_le_pi]) (by norm_num) Real.pi Real.pi_pos le_rfl s
  exact ⟨Jb, dq, c, h1, h2, h3⟩

end Verif.Kinematics
