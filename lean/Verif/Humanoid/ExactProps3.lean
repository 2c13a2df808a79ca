/-
Exact form of C80: which of the footsteps where the naive planner stops are at the targets.
-/
import Verif.Humanoid.PlannerProps

namespace Verif.Humanoid
open Verif.Tools Verif.Problem Verif.Robot

/-- A step flagged as arrived is placed on the target exactly when the target is in the plane of the support foot and the displacement
is in the ellipsoid. -/
theorem arrived_iff (c : Naive) (hp : c.params.Limits) (hz : c.params.maxDtheta < Real.pi)
    (hth : Real.sqrt (c.params.maxDxForward ^ 2 + c.params.maxDy ^ 2) ≤ c.placeThreshold) (support : Side) (T F : Affine) (hT : Rigid T)
    (h : c.step support T = (F, true)) :
    F = c.target support.other ↔ c.Coplanar support.other T ∧ Inside c.params .ellipsoid (c.request support.other T) := by
  have htgt : c.targetOf support = c.target support.other := by cases support <;> rfl
  have h' := h
  unfold Naive.step at h
  simp only [htgt] at h
  generalize hrel : T.inv.mul (c.target support.other) = rel at h
  have hreq : c.request support.other T = ⟨rel.translation 0, rel.translation 1 - c.idleY support, frameYaw rel.linear⟩ := by
    unfold Naive.request; rw [hrel]; cases support <;> rfl
  have hn : norm3 ![rel.translation 0, rel.translation 1 - c.idleY support, 0]
      = Real.sqrt (rel.translation 0 ^ 2 + (rel.translation 1 - c.idleY support) ^ 2) := by
    unfold norm3; congr 1; simp only [Matrix.cons_val_zero, Matrix.cons_val_one, Matrix.cons_val]; ring
  simp only [Matrix.cons_val_zero, Matrix.cons_val_one, Matrix.cons_val] at h
  generalize hyaw : Naive.errorYaw c _ _ _ = yaw at h
  rw [Prod.mk.injEq] at h
  obtain ⟨hF, harr⟩ := h
  obtain ⟨y1, y2, hr2, hy⟩ := clampYaw_true _ _ _ harr
  obtain ⟨a1, a2, hr3⟩ := rescaleAxis_true _ _ _ hr2
  rw [hr3] at hr2 hF
  obtain ⟨b1, b2, hr4⟩ := rescaleAxis_true _ _ _ hr2
  rw [hr4] at hF
  simp only [mul_one] at hF
  rw [hr3, hr4] at hy
  simp only at hy
  rw [hy] at hF
  have hdist : Real.sqrt (rel.translation 0 ^ 2 + (rel.translation 1 - c.idleY support) ^ 2) ≤ c.placeThreshold := by
    refine le_trans (Real.sqrt_le_sqrt ?_) hth
    have e1 := sq_le_sq' b1 b2
    have e2 := sq_le_sq' a1 a2
    linarith
  constructor
  · intro hFt
    have hyaw' : yaw = frameYaw rel.linear := by
      rw [← hyaw]
      unfold Naive.errorYaw
      rw [if_neg (not_lt.2 (le_of_eq_of_le hn hdist))]
    obtain ⟨hin, -, -, ⟨k, k0, k1, hk⟩, -⟩ := C77 c.params hp .ellipsoid ⟨rel.translation 0, rel.translation 1 - c.idleY support, yaw⟩
    rw [show c.params.ellipsoidClip = c.params.clip .ellipsoid from rfl] at hF
    have hzs : (c.params.clip .ellipsoid ⟨rel.translation 0, rel.translation 1 - c.idleY support, yaw⟩).z = k * yaw := by rw [hk]; rfl
    generalize c.params.clip .ellipsoid ⟨rel.translation 0, rel.translation 1 - c.idleY support, yaw⟩ = s at *
    have hnew : (⟨rotZ s.z, ![s.x, c.idleY support + s.y, 0]⟩ : Affine) = rel := by
      rw [← hrel, ← hFt, ← hF, ← mul_assoc', inv_mul' hT, one_mul']
    have hl : rel.linear = rotZ s.z := by rw [← hnew]
    have ht : rel.translation = ![s.x, c.idleY support + s.y, 0] := by rw [← hnew]
    have hsz : -Real.pi < s.z ∧ s.z ≤ Real.pi := by
      rw [hzs]
      have h1 : |k * yaw| ≤ c.params.maxDtheta := by
        rw [abs_mul, abs_of_pos k0]
        have : |yaw| ≤ c.params.maxDtheta := abs_le.2 ⟨y1, y2⟩
        calc k * |yaw| ≤ 1 * |yaw| := mul_le_mul_of_nonneg_right k1 (abs_nonneg _)
          _ ≤ _ := by linarith
      have h2 := abs_le.1 h1
      constructor <;> linarith [h2.1, h2.2]
    refine ⟨⟨by rw [hrel, ht]; rfl, s.z, by rw [hrel, hl]⟩, ?_⟩
    rw [hreq, hl, frameYaw_rotZ, wrapAngle_self _ hsz, ht]
    have : (⟨(![s.x, c.idleY support + s.y, 0] : V3) 0, (![s.x, c.idleY support + s.y, 0] : V3) 1 - c.idleY support, s.z⟩ : Step) = s := by
      cases s
      simp
    rw [this]
    exact hin
  · rintro ⟨hc, hin⟩
    exact arrived_lands c hp support T F hT h' hc ⟨hin, by rw [hreq]; exact hdist⟩

/-- **C80, exact.** With less than half a turn per step, and feet within reach close enough to take the orientation of the target (the
default parameters: 9 cm and 50 cm): if the planner stops before `max_steps`, each of the last two footsteps is at its target exactly when
the target is in the plane of the support foot and the displacement asked for is in the ellipsoid. -/
theorem C80_exact (c : Naive) (hp : c.params.Limits) (hz : c.params.maxDtheta < Real.pi)
    (hth : Real.sqrt (c.params.maxDxForward ^ 2 + c.params.maxDy ^ 2) ≤ c.placeThreshold) (flying : Side) (T_left T_right : Affine)
    (hl : Rigid T_left) (hr : Rigid T_right) (hstop : (c.plan flying T_left T_right).length < 2 + c.maxSteps.toNat) :
    ∃ pre z a b, c.plan flying T_left T_right = pre ++ [z, a, b] ∧
      a.side = z.side.other ∧ b.side = a.side.other ∧
      (a.frame = c.target a.side ↔ c.Coplanar a.side z.frame ∧ Inside c.params .ellipsoid (c.request a.side z.frame)) ∧
      (b.frame = c.target b.side ↔ c.Coplanar b.side a.frame ∧ Inside c.params .ellipsoid (c.request b.side a.frame)) := by
  obtain ⟨s', h1, -, h3⟩ := loop_spec c c.maxSteps.toNat _ _ (inv_initial c flying T_left T_right)
  have hlen : (c.loop c.maxSteps.toNat { left := T_left, right := T_right, support := flying.other }).length < c.maxSteps.toNat := by
    unfold Naive.plan at hstop
    simp only [List.length_append] at hstop
    have : (c.params.initialFootsteps flying T_left T_right).length = 2 := rfl
    omega
  obtain ⟨hL, hR⟩ := h3 hlen
  rw [← List.reverse_append] at h1
  change LoopInv _ c (c.plan flying T_left T_right).reverse s' at h1
  obtain ⟨b, R', hR', -, -, hb, ha⟩ := h1.head
  have hb' := hb (by cases b.side <;> assumption)
  have ha' := ha (by cases b.side <;> assumption)
  obtain ⟨a, R1, rfl, hab⟩ := hb'
  obtain ⟨a', z, R2, he, hza⟩ := ha'
  cases he
  have hch := h1.alternate
  rw [hR'] at hch
  obtain ⟨s1, hch⟩ := List.isChain_cons_cons.1 hch
  obtain ⟨s2, -⟩ := List.isChain_cons_cons.1 hch
  have rz : Rigid z.frame := h1.rigid ⟨hl, hr⟩ z (by rw [hR']; simp)
  have ra : Rigid a.frame := h1.rigid ⟨hl, hr⟩ a (by rw [hR']; simp)
  refine ⟨R2.reverse, z, a, b, ?_, s2, s1, ?_, ?_⟩
  · have := congrArg List.reverse hR'
    rw [List.reverse_reverse] at this
    rw [this]; simp
  · rw [s2]; exact arrived_iff c hp hz hth z.side z.frame a.frame rz hza
  · rw [s1]; exact arrived_iff c hp hz hth a.side a.frame b.frame ra hab

/-- The default parameters meet the hypotheses, and the planner of `C80_refuted` stops after two steps. -/
example : backward.params.Limits ∧ backward.params.maxDtheta < Real.pi ∧
    Real.sqrt (backward.params.maxDxForward ^ 2 + backward.params.maxDy ^ 2) ≤ backward.placeThreshold := by
  refine ⟨?_, ?_, ?_⟩
  · norm_num [Params.Limits, backward]
  · have := Real.two_le_pi
    show (_ : ℝ) < _
    norm_num [backward]
    linarith
  · rw [Real.sqrt_le_left] <;> norm_num [backward]

end Verif.Humanoid
