/-
C139: `overlap_clip`.
-/
import Verif.Humanoid.PlannerProps

namespace Verif.Humanoid
open Verif.Tools Verif.Robot

/-! ## Specification -/

/-- The support foot of the neutral stance centred on the origin. -/
noncomputable def standing (p : Params) (support : Side) : Footstep :=
  { width := p.footWidth
    length := p.footLength
    side := support
    frame := ⟨1, ![0, match support with
      | .left => p.feetSpacing / 2
      | .right => -p.feetSpacing / 2, 0]⟩ }

/-- The foot placed by a step made from the neutral stance. -/
noncomputable def placed (p : Params) (support : Side) (s : Step) : Footstep :=
  { width := p.footWidth
    length := p.footLength
    side := support.other
    frame := (neutralStance p (standing p support)).mul (stepTransform s) }

/-- The step that is clipped: turning moves the foot away from the support foot. -/
noncomputable def spaced (p : Params) (support : Side) (s : Step) : Step :=
  ⟨s.x, match support with
    | .left => s.y - p.dthetaSpacing * |s.z|
    | .right => s.y + p.dthetaSpacing * |s.z|, s.z⟩

/-! ## Proof -/

theorem gauge_z {p : Params} (h : p.Limits) (c : Clipping) (s : Step) : |s.z| / p.maxDtheta ≤ gauge p c s := by
  have hx := limitX_pos h s.x
  have e : Real.sqrt ((s.z / p.maxDtheta) ^ 2) = |s.z| / p.maxDtheta := by
    rw [Real.sqrt_sq_eq_abs, abs_div, abs_of_pos h.2.2.2]
  cases c
  · rw [← e]
    refine Real.sqrt_le_sqrt ?_
    have := sq_nonneg (s.x / p.limitX s.x)
    have := sq_nonneg (s.y / p.maxDy)
    linarith
  · have h1 : 0 ≤ |s.x| / p.limitX s.x := div_nonneg (abs_nonneg _) hx.le
    have h2 : 0 ≤ |s.y| / p.maxDy := div_nonneg (abs_nonneg _) h.2.2.1.le
    show _ ≤ |s.x| / p.limitX s.x + |s.y| / p.maxDy + |s.z| / p.maxDtheta
    linarith
  · have := Real.sqrt_nonneg ((s.x / p.limitX s.x) ^ 2 + (s.y / p.maxDy) ^ 2)
    show _ ≤ Real.sqrt ((s.x / p.limitX s.x) ^ 2 + (s.y / p.maxDy) ^ 2) + |s.z| / p.maxDtheta
    linarith

theorem inside_z {p : Params} (h : p.Limits) (c : Clipping) (s : Step) (hs : Inside p c s) : |s.z| ≤ p.maxDtheta := by
  have := (gauge_z h c s).trans hs
  rwa [div_le_one h.2.2.2] at this

theorem standing_eq (p : Params) (support : Side) :
    p.createFootstep support (match support with
      | .left => translate .one ![0, p.feetSpacing / 2, 0]
      | .right => translate .one ![0, -p.feetSpacing / 2, 0]) = standing p support := by
  cases support <;> simp [Params.createFootstep, standing, translate, one_mul']

theorem opposite_placed (p : Params) (support : Side) (s : Step) :
    p.oppositeFootstep (standing p support) s.x s.y s.z = placed p support s := by
  have h := opposite_eq p (standing p support) s
  unfold placed
  rw [← h]
  rfl

theorem overlapClip_eq (p : Params) (c : Clipping) (support : Side) (s : Step) :
    ∃ j : Nat, j ≤ 32 ∧
      p.overlapClip c support s = .ok
        ⟨((p.clip c (spaced p support s)).scale ((9 / 10) ^ j)).x, ((p.clip c (spaced p support s)).scale ((9 / 10) ^ j)).y,
          wrapAngle ((p.clip c (spaced p support s)).scale ((9 / 10) ^ j)).z⟩ ∧
      (j < 32 → (placed p support ((p.clip c (spaced p support s)).scale ((9 / 10) ^ j))).overlap (standing p support) (1 / 100) = .ok false) ∧
      ∀ i < j, (placed p support ((p.clip c (spaced p support s)).scale ((9 / 10) ^ i))).overlap (standing p support) (1 / 100) = .ok true := by
  have hstep : p.clippedStep c support s.x s.y s.z = p.clip c (spaced p support s) := by
    unfold Params.clippedStep spaced
    cases support <;> rfl
  obtain ⟨j, hj, hr, ho, hi⟩ := shrinkLoop_spec p (standing p support) 32 (p.clippedStep c support s.x s.y s.z)
  simp only [opposite_placed] at hr ho hi
  rw [hstep] at hr ho hi
  refine ⟨j, hj, ?_, ho, hi⟩
  set d := (p.clip c (spaced p support s)).scale ((9 / 10) ^ j)
  have hc : p.clippedOppositeFootstep c (standing p support) s.x s.y s.z = .ok (placed p support d) := by
    unfold Params.clippedOppositeFootstep
    rw [show (standing p support).side = support from rfl, hstep]
    exact hr
  obtain ⟨g2, h2, -⟩ := clippedOpposite_ok p c (placed p support d) s.x s.y s.z
  obtain ⟨g3, h3, -⟩ := clippedOpposite_ok p c g2 0 0 0
  have hfs : p.planRepetitive c s.x s.y s.z 3 support.other (translate .one ![0, p.feetSpacing / 2, 0])
      (translate .one ![0, -p.feetSpacing / 2, 0]) =
      .ok (p.initialFootsteps support.other (translate .one ![0, p.feetSpacing / 2, 0]) (translate .one ![0, -p.feetSpacing / 2, 0])
        ++ [placed p support d, g2, g3]) := by
    have hat : at' (p.initialFootsteps support.other (translate .one ![0, p.feetSpacing / 2, 0])
        (translate .one ![0, -p.feetSpacing / 2, 0])) 1 = .ok (standing p support) := by
      rw [← standing_eq]
      cases support <;> rfl
    unfold Params.planRepetitive Params.repImpl
    simp only [hat, Bind.bind, Except.bind]
    rw [if_pos (by norm_num : (3 : Int) > 0), show ((3 : Int) - 1).toNat = 2 from rfl]
    simp only [Params.repLoop, hc, h2, h3, Bind.bind, Except.bind, List.cons_append, List.nil_append]
  have h1 : at' (p.initialFootsteps support.other (translate .one ![0, p.feetSpacing / 2, 0]) (translate .one ![0, -p.feetSpacing / 2, 0])
        ++ [placed p support d, g2, g3]) 1 = .ok (standing p support) := by
    rw [← standing_eq]
    cases support <;> rfl
  have h2' : at' (p.initialFootsteps support.other (translate .one ![0, p.feetSpacing / 2, 0]) (translate .one ![0, -p.feetSpacing / 2, 0])
        ++ [placed p support d, g2, g3]) 2 = .ok (placed p support d) := rfl
  have hrel : (standing p support).frame.inv.mul (placed p support d).frame =
      ⟨rotZ d.z, ![d.x, (match support with
        | .left => -p.feetSpacing
        | .right => p.feetSpacing) + d.y, 0]⟩ := by
    have hrig : Rigid (standing p support).frame := isRotation_one
    show (standing p support).frame.inv.mul ((neutralStance p (standing p support)).mul (stepTransform d)) = _
    unfold neutralStance
    rw [mul_assoc', ← mul_assoc', inv_mul' hrig, one_mul']
    cases support <;> simp [Affine.mul, stepTransform, standing, add_comm]
  unfold Params.overlapClip
  simp only [hfs, h1, h2', hrel, Bind.bind, Except.bind, frameYaw_rotZ]
  congr 2
  cases support
  · show -p.feetSpacing + d.y - -p.feetSpacing = d.y
    ring
  · show p.feetSpacing + d.y - p.feetSpacing = d.y
    ring

/-- **C139 (the part that holds).** With positive limits and less than half a turn per step: `overlap_clip` returns a step of the
envelope, which is the clipped request (moved away from the support foot when turning) shortened by a power of 0.9; unless it was
shortened 32 times the foot it places is clear of the support foot, and it was shortened only while it was not. -/
theorem C139_partial (p : Params) (h : p.Limits) (hz : p.maxDtheta < Real.pi) (c : Clipping) (support : Side) (s : Step) :
    ∃ (d : Step) (j : Nat), p.overlapClip c support s = .ok d ∧ Inside p c d ∧ j ≤ 32 ∧
      d = (p.clip c (spaced p support s)).scale ((9 / 10) ^ j) ∧
      (j < 32 → (placed p support d).overlap (standing p support) (1 / 100) = .ok false) ∧
      ∀ i < j, (placed p support ((p.clip c (spaced p support s)).scale ((9 / 10) ^ i))).overlap (standing p support) (1 / 100) = .ok true := by
  obtain ⟨j, hj, hr, ho, hi⟩ := overlapClip_eq p c support s
  have hin : Inside p c ((p.clip c (spaced p support s)).scale ((9 / 10) ^ j)) := by
    have hin : Inside p c (p.clip c (spaced p support s)) := (C77 p h c _).1
    have hk : (0 : ℝ) < (9 / 10) ^ j := by positivity
    have hk1 : ((9 : ℝ) / 10) ^ j ≤ 1 := pow_le_one₀ (by norm_num) (by norm_num)
    unfold Inside at hin ⊢
    rw [gauge_scale p c _ _ hk]
    have := gauge_nonneg h c (p.clip c (spaced p support s))
    nlinarith
  have hz' := abs_le.1 (inside_z h c _ hin)
  rw [wrapAngle_self _ ⟨by linarith [hz'.1], by linarith [hz'.2]⟩] at hr
  exact ⟨_, j, hr, hin, hj, rfl, ho, hi⟩

/-- **C139 (clipped steps are kept).** Without extra spacing when turning, or for a step that does not turn, a step of the envelope
that keeps the feet clear is returned unchanged; so clipping again a step that was returned changes nothing. -/
theorem C139_kept (p : Params) (h : p.Limits) (hz : p.maxDtheta < Real.pi) (c : Clipping) (support : Side) (d : Step)
    (hd : Inside p c d) (hs : p.dthetaSpacing = 0 ∨ d.z = 0)
    (hclear : (placed p support d).overlap (standing p support) (1 / 100) = .ok false) :
    p.overlapClip c support d = .ok d := by
  obtain ⟨d', j, hr, -, -, he, -, hi⟩ := C139_partial p h hz c support d
  have hsp : spaced p support d = d := by
    have : p.dthetaSpacing * |d.z| = 0 := by
      rcases hs with e | e
      · rw [e, zero_mul]
      · rw [e, abs_zero, mul_zero]
    unfold spaced
    ext
    · rfl
    · cases support
      · show d.y - p.dthetaSpacing * |d.z| = d.y
        rw [this, sub_zero]
      · show d.y + p.dthetaSpacing * |d.z| = d.y
        rw [this, add_zero]
    · rfl
  rw [hsp, (C77 p h c d).2.2.1 hd] at he hi
  have hone : d.scale ((9 / 10) ^ 0) = d := by simp [Step.scale]
  have hj : j = 0 := by
    by_contra hj
    have := hi 0 (by omega)
    rw [hone, hclear] at this
    cases this
  rw [hj, hone] at he
  rw [hr, he]

/-- **C139 (refuted).** As soon as there is an extra spacing when turning, no turning step of the envelope is left unchanged, even
one returned by `overlap_clip`: the function is not a projection, and a step clipped with it is modified again by the planner. -/
theorem C139_refuted (p : Params) (h : p.Limits) (hz : p.maxDtheta < Real.pi) (c : Clipping) (support : Side) (d : Step)
    (hs : p.dthetaSpacing ≠ 0) (hd : d.z ≠ 0) : p.overlapClip c support d ≠ .ok d := by
  intro hr
  obtain ⟨d', j, hr', -, -, he, -⟩ := C139_partial p h hz c support d
  rw [hr] at hr'
  obtain rfl := Except.ok.inj hr'
  obtain ⟨k, -, -, hk⟩ := (C77 p h c (spaced p support d)).2.2.2.1
  rw [hk] at he
  have ez : d.z = (9 / 10) ^ j * (k * d.z) := congrArg Step.z he
  have ey : d.y = (9 / 10) ^ j * (k * (spaced p support d).y) := congrArg Step.y he
  have e1 : ((9 : ℝ) / 10) ^ j * k = 1 := by
    have : ((9 / 10) ^ j * k - 1) * d.z = 0 := by linear_combination -ez
    rcases mul_eq_zero.1 this with e | e
    · linarith
    · exact absurd e hd
  rw [← mul_assoc, e1, one_mul] at ey
  have : p.dthetaSpacing * |d.z| = 0 := by
    cases support
    · have ey : d.y = d.y - p.dthetaSpacing * |d.z| := ey
      linarith
    · have ey : d.y = d.y + p.dthetaSpacing * |d.z| := ey
      linarith
  rcases mul_eq_zero.1 this with e | e
  · exact hs e
  · exact hd (abs_eq_zero.1 e)

/-- The default parameters: turning by 0.1 rad is a step of the envelope, and is changed. -/
example : ({} : Params).overlapClip .ellipsoid .left ⟨0, 0, 1 / 10⟩ ≠ .ok ⟨0, 0, 1 / 10⟩ :=
  C139_refuted _ default_limits (by have := Real.two_le_pi; show (35 / 100 : ℝ) < Real.pi; linarith) _ _ _ (by norm_num) (by norm_num)

/-- Not moving is kept: the feet of the neutral stance are clear. -/
example : ({} : Params).overlapClip .ellipsoid .left ⟨0, 0, 0⟩ = .ok ⟨0, 0, 0⟩ := by
  refine C139_kept _ default_limits (by have := Real.two_le_pi; show (35 / 100 : ℝ) < Real.pi; linarith) _ _ _ ?_ (Or.inr rfl) ?_
  · simp [Inside, gauge]
  · obtain ⟨b, hb⟩ := overlap_ok (placed {} .left ⟨0, 0, 0⟩) (standing {} .left) (1 / 100)
    cases b with
    | false => exact hb
    | true =>
      exfalso
      simp [Footstep.overlap, Footstep.computePolygon, placed, standing, neutralStance, stepTransform, anyIn, polygonContains,
        containsLoop, planar, V2.dot, V2.sub, Affine.mul, rotZ, Bind.bind, Except.bind] at hb
      norm_num at hb

end Verif.Humanoid
