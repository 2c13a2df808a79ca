/-
C94: `camera_look_at`.
-/
import Verif.Humanoid.Camera
import Verif.Robot.BaseProps

namespace Verif.Humanoid
open Verif.Tools Verif.Robot

/-! ## Specification: a head with a pan joint and a tilt joint -/

/-- Rotation around y. -/
noncomputable def rotY (a : ℝ) : M3 :=
  !![Real.cos a, 0, Real.sin a; 0, 1, 0; -Real.sin a, 0, Real.cos a]

/-- The pose of the camera in the pan frame: the head turns around z, then around y at height `tiltZ`; with null angles
the camera is at height `cameraZ` and looks along x. -/
noncomputable def cameraPose (tiltZ cameraZ pan tilt : ℝ) : Affine :=
  ((⟨rotZ pan, 0⟩ : Affine).mul ⟨1, ![0, 0, tiltZ]⟩).mul ((⟨rotY tilt, 0⟩ : Affine).mul ⟨1, ![0, 0, cameraZ - tiltZ]⟩)

theorem apply_mul (a b : Affine) (p : V3) : (a.mul b).apply p = a.apply (b.apply p) := by
  simp only [Affine.mul, Affine.apply, Matrix.mulVec_add, Matrix.mulVec_mulVec]
  rw [add_assoc]

theorem rotZ_apply (a : ℝ) (v : V3) : (⟨rotZ a, 0⟩ : Affine).apply v =
    ![Real.cos a * v 0 - Real.sin a * v 1, Real.sin a * v 0 + Real.cos a * v 1, v 2] := by
  ext i
  fin_cases i <;> simp [Affine.apply, rotZ, Matrix.mulVec, dotProduct, Fin.sum_univ_three]
  ring

theorem rotY_apply (a : ℝ) (v : V3) : (⟨rotY a, 0⟩ : Affine).apply v =
    ![Real.cos a * v 0 + Real.sin a * v 2, v 1, -Real.sin a * v 0 + Real.cos a * v 2] := by
  ext i
  fin_cases i <;> simp [Affine.apply, rotY, Matrix.mulVec, dotProduct, Fin.sum_univ_three]

theorem cameraPose_apply (a b pan tilt x y z : ℝ) : (cameraPose a b pan tilt).apply ![x, y, z] =
    ![Real.cos pan * (Real.cos tilt * x + Real.sin tilt * (z + (b - a))) - Real.sin pan * y,
      Real.sin pan * (Real.cos tilt * x + Real.sin tilt * (z + (b - a))) + Real.cos pan * y,
      -Real.sin tilt * x + Real.cos tilt * (z + (b - a)) + a] := by
  unfold cameraPose
  rw [apply_mul, apply_mul, apply_mul]
  have e1 : ∀ v w : V3, (⟨1, v⟩ : Affine).apply w = w + v := fun v w => by simp [Affine.apply]
  rw [e1, e1, rotZ_apply, rotY_apply]
  ext i
  fin_cases i <;> simp <;> ring

/-- The distances measured on this head in the initial configuration. -/
theorem measured (tiltZ cameraZ : ℝ) :
    Head.measure ⟨1, ![0, 0, tiltZ]⟩ (cameraPose tiltZ cameraZ 0 0) = ⟨tiltZ, cameraZ⟩ := by
  have h := congrFun (cameraPose_apply tiltZ cameraZ 0 0 0 0 0) 2
  have h0 : (![0, 0, 0] : V3) = 0 := by ext i; fin_cases i <;> rfl
  rw [h0] at h
  simp [Affine.apply] at h
  simp [Head.measure, h]

/-- Distance from the target to the tilt axis. -/
noncomputable def reach (tiltZ : ℝ) (p : V3) : ℝ := Real.sqrt (p 0 ^ 2 + p 1 ^ 2 + (p 2 - tiltZ) ^ 2)

theorem atan2_cos_sin (x y n : ℝ) (hn : n = Real.sqrt (x ^ 2 + y ^ 2)) :
    n * Real.cos (atan2 y x) = x ∧ n * Real.sin (atan2 y x) = y := by
  have habs : ‖(⟨x, y⟩ : ℂ)‖ = n := by
    rw [hn, Complex.norm_def, Complex.normSq_mk]
    congr 1; ring
  constructor
  · have := Complex.norm_mul_cos_arg (⟨x, y⟩ : ℂ)
    rw [habs] at this; exact this
  · have := Complex.norm_mul_sin_arg (⟨x, y⟩ : ℂ)
    rw [habs] at this; exact this

theorem apply_inv {a : Affine} (h : Rigid a) (p : V3) : a.apply (a.inv.apply p) = p := by
  rw [← apply_mul, mul_inv' h]
  simp [Affine.one, Affine.apply]

/-- The two norms are the same. -/
theorem reach_eq (tiltZ : ℝ) (p : V3) :
    Real.sqrt (Real.sqrt (p 0 ^ 2 + p 1 ^ 2) ^ 2 + (p 2 - tiltZ) ^ 2) = reach tiltZ p := by
  unfold reach
  rw [Real.sq_sqrt (by positivity)]

/-- **C94, the second half.** `camera_look_at` returns false exactly when the target is closer to the tilt axis than
the distance from the pan joint to the camera. -/
theorem C94_false (h : Head) (T : Affine) (P : V3) :
    h.lookAt T P = .tooClose ↔ reach h.distZPanTilt (T.inv.apply P) < |h.distZPanCamera| := by
  have hr := reach_eq h.distZPanTilt (T.inv.apply P)
  have h0 : 0 ≤ reach h.distZPanTilt (T.inv.apply P) := Real.sqrt_nonneg _
  unfold Head.lookAt
  simp only [hr]
  generalize reach h.distZPanTilt (T.inv.apply P) = n at *
  by_cases hn : n = 0
  · rw [if_pos hn, hn]
    by_cases hd : h.distZPanCamera = 0
    · rw [if_pos hd, hd]; simp
    · rw [if_neg hd]; simpa using hd
  · have hpos : 0 < n := lt_of_le_of_ne h0 (Ne.symm hn)
    rw [if_neg hn]
    have e : (1 < h.distZPanCamera / n ∨ h.distZPanCamera / n < -1) ↔ n < |h.distZPanCamera| := by
      rw [lt_div_iff₀ hpos, div_lt_iff₀ hpos, lt_abs]
      constructor <;> rintro (h | h)
      · exact .inl (by linarith)
      · exact .inr (by linarith)
      · exact .inl (by linarith)
      · exact .inr (by linarith)
    by_cases hc : 1 < h.distZPanCamera / n ∨ h.distZPanCamera / n < -1
    · rw [if_pos hc]; simpa using e.1 hc
    · rw [if_neg hc]
      exact iff_of_false (fun h => by cases h) fun h => hc (e.2 h)

/-- **C94, what the angles do.** On a head with the measured distances, the target is seen in front of the camera,
centred horizontally, at the height `distZPanTilt` above the optical axis. -/
theorem C94_exact (h : Head) (T : Affine) (hT : Rigid T) (P : V3) (pan tilt : ℝ) (hl : h.lookAt T P = .angles pan tilt) :
    ∃ s, 0 ≤ s ∧ s ^ 2 + h.distZPanCamera ^ 2 = reach h.distZPanTilt (T.inv.apply P) ^ 2 ∧
      (T.mul (cameraPose h.distZPanTilt h.distZPanCamera pan tilt)).apply ![s, 0, h.distZPanTilt] = P := by
  have hr := reach_eq h.distZPanTilt (T.inv.apply P)
  have h0 : 0 ≤ reach h.distZPanTilt (T.inv.apply P) := Real.sqrt_nonneg _
  unfold Head.lookAt at hl
  simp only [hr] at hl
  obtain ⟨p, hp⟩ : ∃ p, p = T.inv.apply P := ⟨_, rfl⟩
  rw [← hp] at hl hr h0 ⊢
  obtain ⟨n, hn⟩ : ∃ n, n = reach h.distZPanTilt p := ⟨_, rfl⟩
  rw [← hn] at hl hr h0 ⊢
  by_cases hz : n = 0
  · rw [if_pos hz] at hl; split at hl <;> cases hl
  rw [if_neg hz] at hl
  have hpos : 0 < n := lt_of_le_of_ne h0 (Ne.symm hz)
  split at hl
  · cases hl
  rename_i hc
  push Not at hc
  cases hl
  obtain ⟨c1, s1⟩ := atan2_cos_sin (p 0) (p 1) _ rfl
  obtain ⟨c2, s2⟩ := atan2_cos_sin (Real.sqrt (p 0 ^ 2 + p 1 ^ 2)) (p 2 - h.distZPanTilt) n hr.symm
  have hcos : Real.cos (Real.arccos (h.distZPanCamera / n)) = h.distZPanCamera / n := Real.cos_arccos hc.2 hc.1
  have hsin : 0 ≤ Real.sin (Real.arccos (h.distZPanCamera / n)) :=
    Real.sin_nonneg_of_mem_Icc ⟨Real.arccos_nonneg _, Real.arccos_le_pi _⟩
  have hsc := Real.sin_sq_add_cos_sq (Real.arccos (h.distZPanCamera / n))
  have hd : n * (h.distZPanCamera / n) = h.distZPanCamera := mul_div_cancel₀ _ hz
  generalize Real.arccos (h.distZPanCamera / n) = beta at hcos hsin hsc ⊢
  generalize atan2 (p 1) (p 0) = pan at c1 s1 ⊢
  generalize atan2 (p 2 - h.distZPanTilt) (Real.sqrt (p 0 ^ 2 + p 1 ^ 2)) = phi at c2 s2 ⊢
  generalize Real.sqrt (p 0 ^ 2 + p 1 ^ 2) = rho at c1 s1 c2 s2
  have hnc : n * Real.cos beta = h.distZPanCamera := by rw [hcos]; exact hd
  have hct : Real.cos (Real.pi / 2 - phi - beta) = Real.sin phi * Real.cos beta + Real.cos phi * Real.sin beta := by
    rw [show Real.pi / 2 - phi - beta = Real.pi / 2 - (phi + beta) by ring, Real.cos_pi_div_two_sub, Real.sin_add]
  have hst : Real.sin (Real.pi / 2 - phi - beta) = Real.cos phi * Real.cos beta - Real.sin phi * Real.sin beta := by
    rw [show Real.pi / 2 - phi - beta = Real.pi / 2 - (phi + beta) by ring, Real.sin_pi_div_two_sub, Real.cos_add]
  refine ⟨n * Real.sin beta, mul_nonneg h0 hsin, ?_, ?_⟩
  · have : h.distZPanCamera ^ 2 = n ^ 2 * Real.cos beta ^ 2 := by rw [← hnc]; ring
    rw [this]
    linear_combination n ^ 2 * hsc
  · rw [apply_mul]
    have hp2 : p = T.inv.apply P := hp
    rw [← apply_inv hT P, ← hp2]
    congr 1
    -- in the pan frame
    have e1 : (Real.cos (Real.pi / 2 - phi - beta)) * (n * Real.sin beta) +
        Real.sin (Real.pi / 2 - phi - beta) * h.distZPanCamera = rho := by
      rw [hct, hst, ← hnc, ← c2]
      linear_combination n * Real.cos phi * hsc
    have e2 : -(Real.sin (Real.pi / 2 - phi - beta)) * (n * Real.sin beta) +
        Real.cos (Real.pi / 2 - phi - beta) * h.distZPanCamera = p 2 - h.distZPanTilt := by
      rw [hct, hst, ← hnc, ← s2]
      linear_combination n * Real.sin phi * hsc
    rw [cameraPose_apply]
    ext i
    fin_cases i
    · simp only [Fin.zero_eta, Matrix.cons_val_zero]
      rw [← c1, ← e1]; ring
    · simp only [Fin.mk_one, Matrix.cons_val_one, Matrix.cons_val_zero]
      rw [← s1, ← e1]; ring
    · simp only [Fin.reduceFinMk, Matrix.cons_val]
      linear_combination e2

/-- The camera looks at the target: it is on the optical axis (x), in front. -/
def LooksAt (camera : Affine) (P : V3) : Prop := ∃ s, 0 ≤ s ∧ camera.apply ![s, 0, 0] = P

theorem rigid_cameraPose (a b pan tilt : ℝ) : Rigid (cameraPose a b pan tilt) := by
  have hz : IsRotation (rotZ pan) := by
    refine ⟨?_, ?_⟩
    · ext i j
      have := Real.sin_sq_add_cos_sq pan
      fin_cases i <;> fin_cases j <;> simp [rotZ, Matrix.mul_apply, Fin.sum_univ_three] <;> nlinarith
    · have := Real.sin_sq_add_cos_sq pan
      simp [rotZ, Matrix.det_fin_three]; nlinarith
  have hy : IsRotation (rotY tilt) := by
    refine ⟨?_, ?_⟩
    · ext i j
      have := Real.sin_sq_add_cos_sq tilt
      fin_cases i <;> fin_cases j <;> simp [rotY, Matrix.mul_apply, Fin.sum_univ_three] <;> nlinarith
    · have := Real.sin_sq_add_cos_sq tilt
      simp [rotY, Matrix.det_fin_three]; nlinarith
  have h1 : ∀ v : V3, Rigid ⟨1, v⟩ := fun v => ⟨by simp, by simp⟩
  exact rigid_mul (rigid_mul (show Rigid ⟨rotZ pan, 0⟩ from hz) (h1 _)) (rigid_mul (show Rigid ⟨rotY tilt, 0⟩ from hy) (h1 _))

theorem apply_injective {a : Affine} (h : Rigid a) {p q : V3} (e : a.apply p = a.apply q) : p = q := by
  have e' := congrArg a.inv.apply e
  rw [← apply_mul, ← apply_mul, inv_mul' h] at e'
  simpa [Affine.one, Affine.apply] using e'

/-- **C94 on the correct domain**: the camera looks at the target if and only if the tilt axis is at the height of the
pan frame. Missing: the claim for the other heads, on which it is false (`C94_refuted`). -/
theorem C94_partial (h : Head) (T : Affine) (hT : Rigid T) (P : V3) (pan tilt : ℝ) (hl : h.lookAt T P = .angles pan tilt) :
    LooksAt (T.mul (cameraPose h.distZPanTilt h.distZPanCamera pan tilt)) P ↔ h.distZPanTilt = 0 := by
  obtain ⟨s, hs, -, he⟩ := C94_exact h T hT P pan tilt hl
  constructor
  · rintro ⟨s', hs', he'⟩
    rw [← he] at he'
    have := apply_injective (rigid_mul hT (rigid_cameraPose _ _ _ _)) he'
    have := congrFun this 2
    simpa using this.symm
  · intro h0
    rw [h0] at he ⊢
    exact ⟨s, hs, he⟩

/-- **C94 is false**: on a head whose tilt axis is 5 cm above the pan frame and whose camera is 10 cm above it, looking
at a target one metre in front at the height of the pan frame leaves it 5 cm above the optical axis. -/
theorem C94_refuted : ∃ (h : Head) (P : V3) (pan tilt : ℝ),
    h = Head.measure ⟨1, ![0, 0, 5 / 100]⟩ (cameraPose (5 / 100) (10 / 100) 0 0) ∧
    h.lookAt Affine.one P = .angles pan tilt ∧ ¬ LooksAt (cameraPose (5 / 100) (10 / 100) pan tilt) P := by
  have hone : Rigid Affine.one := ⟨by simp [Affine.one], by simp [Affine.one]⟩
  have hinv : ∀ P, Affine.one.inv.apply P = P := by
    intro P; simp [Affine.one, Affine.inv, Affine.apply]
  have hnot : (⟨5 / 100, 10 / 100⟩ : Head).lookAt Affine.one ![1, 0, 0] ≠ .tooClose := by
    rw [Ne, C94_false, hinv]
    unfold reach
    rw [not_lt]
    apply Real.le_sqrt_of_sq_le
    simp only [Matrix.cons_val, Matrix.cons_val_zero, Matrix.cons_val_one]
    norm_num
  have hn : ∀ pan, (⟨5 / 100, 10 / 100⟩ : Head).lookAt Affine.one ![1, 0, 0] ≠ .nan pan := by
    intro pan hl
    unfold Head.lookAt at hl
    simp only at hl
    split at hl
    · rw [if_neg (by norm_num)] at hl; cases hl
    · split at hl <;> cases hl
  cases hl : (⟨5 / 100, 10 / 100⟩ : Head).lookAt Affine.one ![1, 0, 0] with
  | tooClose => exact absurd hl hnot
  | nan pan => exact absurd hl (hn pan)
  | angles pan tilt =>
    refine ⟨⟨5 / 100, 10 / 100⟩, ![1, 0, 0], pan, tilt, (measured _ _).symm, hl, fun hk => ?_⟩
    have := (C94_partial _ Affine.one hone _ pan tilt hl).1 (by rw [one_mul']; exact hk)
    norm_num at this

/-- When the target is on the tilt axis and the camera at the height of the pan frame, `true` is returned with a tilt
that is not a number. -/
theorem C94_nan (h : Head) (T : Affine) (P : V3) :
    (∃ pan, h.lookAt T P = .nan pan) ↔ reach h.distZPanTilt (T.inv.apply P) = 0 ∧ h.distZPanCamera = 0 := by
  have hr := reach_eq h.distZPanTilt (T.inv.apply P)
  unfold Head.lookAt
  simp only [hr]
  generalize reach h.distZPanTilt (T.inv.apply P) = n
  by_cases hn : n = 0
  · rw [if_pos hn]
    by_cases hd : h.distZPanCamera = 0
    · rw [if_pos hd]; simp [hn, hd]
    · rw [if_neg hd]; simp [hd]
  · rw [if_neg hn]
    constructor
    · rintro ⟨pan, h⟩; split at h <;> cases h
    · rintro ⟨h, -⟩; exact absurd h hn

end Verif.Humanoid
