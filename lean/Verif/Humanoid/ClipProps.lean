/-
C77 (step clipping), C78 (planned steps are in the envelope).
-/
import Verif.Humanoid.Footsteps
import Verif.Robot.BaseProps

namespace Verif.Humanoid
open Verif.Tools Verif.Robot

/-! ## Specification -/

/-- The step limits are positive. -/
def Params.Limits (p : Params) : Prop := 0 < p.maxDxForward ∧ 0 < p.maxDxBackward ∧ 0 < p.maxDy ∧ 0 < p.maxDtheta

open Classical in
/-- The longitudinal limit in the direction of the step. -/
noncomputable def Params.limitX (p : Params) (x : ℝ) : ℝ := if 0 ≤ x then p.maxDxForward else p.maxDxBackward

/-- How far the step goes, relatively to the limits: L2 for the ellipsoid, L1 for the "box" (as documented in
humanoid_parameters.h), L2 on the translation plus the rotation for the cone. -/
noncomputable def gauge (p : Params) : Clipping → Step → ℝ
  | .ellipsoid, s => Real.sqrt ((s.x / p.limitX s.x) ^ 2 + (s.y / p.maxDy) ^ 2 + (s.z / p.maxDtheta) ^ 2)
  | .box, s => |s.x| / p.limitX s.x + |s.y| / p.maxDy + |s.z| / p.maxDtheta
  | .conic, s => Real.sqrt ((s.x / p.limitX s.x) ^ 2 + (s.y / p.maxDy) ^ 2) + |s.z| / p.maxDtheta

/-- The envelope. -/
def Inside (p : Params) (c : Clipping) (s : Step) : Prop := gauge p c s ≤ 1

/-! ## C77 -/

theorem limitX_pos {p : Params} (h : p.Limits) (x : ℝ) : 0 < p.limitX x := by
  unfold Params.limitX; split
  · exact h.1
  · exact h.2.1

theorem limitX_scale (p : Params) (k x : ℝ) (hk : 0 < k) : p.limitX (k * x) = p.limitX x := by
  unfold Params.limitX
  by_cases hx : 0 ≤ x
  · rw [if_pos hx, if_pos (mul_nonneg hk.le hx)]
  · have : ¬ 0 ≤ k * x := fun h => hx (nonneg_of_mul_nonneg_right h hk)
    rw [if_neg hx, if_neg this]

theorem gauge_nonneg {p : Params} (h : p.Limits) (c : Clipping) (s : Step) : 0 ≤ gauge p c s := by
  have hx := limitX_pos h s.x
  obtain ⟨_, _, hy, hz⟩ := h
  cases c
  · exact Real.sqrt_nonneg _
  · exact add_nonneg (add_nonneg (div_nonneg (abs_nonneg _) hx.le) (div_nonneg (abs_nonneg _) hy.le))
      (div_nonneg (abs_nonneg _) hz.le)
  · exact add_nonneg (Real.sqrt_nonneg _) (div_nonneg (abs_nonneg _) hz.le)

theorem sqrt_scale {k : ℝ} (hk : 0 ≤ k) (a : ℝ) : Real.sqrt (k ^ 2 * a) = k * Real.sqrt a := by
  rw [Real.sqrt_mul (sq_nonneg k), Real.sqrt_sq hk]

/-- The gauge of a shortened step. -/
theorem gauge_scale (p : Params) (c : Clipping) (s : Step) (k : ℝ) (hk : 0 < k) :
    gauge p c (s.scale k) = k * gauge p c s := by
  cases c
  · simp only [gauge, Step.scale, limitX_scale p k s.x hk]
    rw [← sqrt_scale hk.le]
    congr 1; ring
  · simp only [gauge, Step.scale, limitX_scale p k s.x hk, abs_mul, abs_of_pos hk]
    ring
  · simp only [gauge, Step.scale, limitX_scale p k s.x hk, abs_mul, abs_of_pos hk]
    rw [mul_add, ← sqrt_scale hk.le]
    congr 1
    · congr 1; ring
    · ring

/-- What the clipping functions do. -/
theorem clip_eq (p : Params) (h : p.Limits) (c : Clipping) (s : Step) :
    p.clip c s = if 1 < gauge p c s then s.scale (1 / gauge p c s) else s := by
  have hx := limitX_pos h s.x
  have key : ∀ norm : Step → ℝ,
      norm ⟨s.x / p.limitX s.x, s.y / p.maxDy, s.z / p.maxDtheta⟩ = gauge p c s →
      Params.clipWith norm p s = if 1 < gauge p c s then s.scale (1 / gauge p c s) else s := by
    intro norm hn
    obtain ⟨_, _, hy, hz⟩ := h
    unfold Params.clipWith
    rw [show p.factorX s = p.limitX s.x from rfl]
    simp only [hn]
    by_cases hg : 1 < gauge p c s
    · have hg0 : gauge p c s ≠ 0 := by linarith
      simp only [if_pos hg, Step.scale]
      ext <;> field_simp
    · simp only [if_neg hg]
      ext <;> field_simp
  have hx0 : |p.limitX s.x| = p.limitX s.x := abs_of_pos hx
  cases c
  · rw [show p.clip .ellipsoid s = Params.clipWith (fun s => Real.sqrt (s.x * s.x + s.y * s.y + s.z * s.z)) p s from rfl]
    refine key _ ?_
    simp only [gauge, sq]
  · rw [show p.clip .box s = Params.clipWith (fun s => |s.x| + |s.y| + |s.z|) p s from rfl]
    refine key _ ?_
    simp only [gauge, abs_div, hx0, abs_of_pos h.2.2.1, abs_of_pos h.2.2.2]
  · rw [show p.clip .conic s = Params.clipWith (fun s => Real.sqrt (s.x * s.x + s.y * s.y) + |s.z|) p s from rfl]
    refine key _ ?_
    simp only [gauge, abs_div, abs_of_pos h.2.2.2, sq]

/-- **C77.** For positive limits and each of the three clippings: the clipped step is in the envelope (on its boundary
when the step was outside), a step in the envelope is unchanged, the direction is kept and the step never gets longer,
and clipping again changes nothing. -/
theorem C77 (p : Params) (h : p.Limits) (c : Clipping) (s : Step) :
    Inside p c (p.clip c s) ∧ (¬ Inside p c s → gauge p c (p.clip c s) = 1) ∧
    (Inside p c s → p.clip c s = s) ∧
    (∃ k, 0 < k ∧ k ≤ 1 ∧ p.clip c s = s.scale k) ∧
    p.clip c (p.clip c s) = p.clip c s := by
  have hin : ∀ s, Inside p c s → p.clip c s = s := by
    intro s hs
    rw [clip_eq p h, if_neg (not_lt.2 hs)]
  have hout : ¬ Inside p c s → gauge p c (p.clip c s) = 1 := by
    intro hs
    have hg : 1 < gauge p c s := not_le.1 hs
    rw [clip_eq p h, if_pos hg, gauge_scale p c s _ (by positivity)]
    field_simp
  have hall : Inside p c (p.clip c s) := by
    by_cases hs : Inside p c s
    · rw [hin s hs]; exact hs
    · exact (hout hs).le
  refine ⟨hall, hout, hin s, ?_, hin _ hall⟩
  by_cases hs : Inside p c s
  · exact ⟨1, one_pos, le_refl _, by rw [hin s hs]; simp [Step.scale]⟩
  · have hg : 1 < gauge p c s := not_le.1 hs
    refine ⟨1 / gauge p c s, by positivity, ?_, by rw [clip_eq p h, if_pos hg]⟩
    rw [div_le_one (by linarith)]; exact hg.le

/-- The three functions of the code are the ones of `clip`. -/
theorem C77_functions (p : Params) :
    p.clip .ellipsoid = p.ellipsoidClip ∧ p.clip .box = p.boxClip ∧ p.clip .conic = p.conicClip := ⟨rfl, rfl, rfl⟩

/-- The default limits. -/
theorem default_limits : ({} : Params).Limits := by
  refine ⟨?_, ?_, ?_, ?_⟩ <;> norm_num

/-- A step outside of the envelope (twice the backward limit). -/
example : ¬ Inside {} .ellipsoid ⟨-6 / 100, 0, 0⟩ := by
  simp only [Inside, gauge, Params.limitX]
  norm_num

/-! ## C78 -/

/-- Where the foot opposite to `f` stands in the neutral stance. -/
noncomputable def neutralStance (p : Params) (f : Footstep) : Affine :=
  f.frame.mul ⟨1, match f.side with
    | .left => ![0, -p.feetSpacing, 0]
    | .right => ![0, p.feetSpacing, 0]⟩

/-- The transform of a step: forward, sideways, turn. -/
noncomputable def stepTransform (s : Step) : Affine := ⟨rotZ s.z, ![s.x, s.y, 0]⟩

theorem opposite_eq (p : Params) (f : Footstep) (s : Step) :
    (p.oppositeFootstep f s.x s.y s.z).frame = (neutralStance p f).mul (stepTransform s) := by
  have key : ∀ T : Affine, rotateZ (translate T ![s.x, s.y, 0]) s.z = T.mul (stepTransform s) := by
    intro T
    unfold rotateZ translate
    rw [mul_assoc']
    congr 1
    simp [Affine.mul, stepTransform]
  unfold Params.oppositeFootstep Params.oppositeFrame neutralStance
  simp only
  cases f.side
  · exact key _
  · exact key _

theorem contains_ok (f : Footstep) (m : ℝ) (pt : V2) : ∃ b, polygonContains (f.computePolygon m) pt = .ok b := ⟨_, rfl⟩

theorem anyIn_ok (f : Footstep) (m : ℝ) : ∀ pts, ∃ b, anyIn (f.computePolygon m) pts = .ok b
  | [] => ⟨_, rfl⟩
  | pt :: pts => by
    obtain ⟨b, hb⟩ := contains_ok f m pt
    obtain ⟨b', hb'⟩ := anyIn_ok f m pts
    rw [anyIn, hb]
    cases b
    · exact ⟨b', hb'⟩
    · exact ⟨true, rfl⟩

theorem overlap_ok (f g : Footstep) (m : ℝ) : ∃ b, f.overlap g m = .ok b := by
  obtain ⟨b, hb⟩ := anyIn_ok g m (f.computePolygon m)
  obtain ⟨b', hb'⟩ := anyIn_ok f m (g.computePolygon m)
  unfold Footstep.overlap
  simp only [hb]
  cases b
  · exact ⟨b', hb'⟩
  · exact ⟨true, rfl⟩

/-- The loop returns the step shortened by a power of 0.9; if fewer than all the attempts were used, the foot does not
overlap. -/
theorem shrinkLoop_spec (p : Params) (f : Footstep) : ∀ n s, ∃ j, j ≤ n ∧
    p.shrinkLoop f n s = .ok (p.oppositeFootstep f (s.scale ((9 / 10) ^ j)).x (s.scale ((9 / 10) ^ j)).y (s.scale ((9 / 10) ^ j)).z) ∧
    (j < n → (p.oppositeFootstep f (s.scale ((9 / 10) ^ j)).x (s.scale ((9 / 10) ^ j)).y (s.scale ((9 / 10) ^ j)).z).overlap f
      (1 / 100) = .ok false) ∧
    ∀ i < j, (p.oppositeFootstep f (s.scale ((9 / 10) ^ i)).x (s.scale ((9 / 10) ^ i)).y (s.scale ((9 / 10) ^ i)).z).overlap f
      (1 / 100) = .ok true
  | 0, s => ⟨0, le_refl _, by simp [Params.shrinkLoop, Step.scale], fun h => absurd h (by omega), fun i h => absurd h (by omega)⟩
  | n + 1, s => by
    obtain ⟨b, hb⟩ := overlap_ok (p.oppositeFootstep f s.x s.y s.z) f (1 / 100)
    cases b
    · refine ⟨0, by omega, ?_, fun _ => ?_, fun i h => absurd h (by omega)⟩
      · rw [Params.shrinkLoop, hb]; simp [Bind.bind, Except.bind, Step.scale]
      · simpa [Step.scale] using hb
    · obtain ⟨j, hj, hr, ho, hi⟩ := shrinkLoop_spec p f n (s.scale (9 / 10))
      have hs : ∀ i : ℕ, (s.scale (9 / 10)).scale ((9 / 10) ^ i) = s.scale ((9 / 10) ^ (i + 1)) := by
        intro i
        simp only [Step.scale, Step.mk.injEq]
        refine ⟨?_, ?_, ?_⟩ <;> ring
      simp only [hs] at hr ho hi
      refine ⟨j + 1, by omega, ?_, fun h => ho (by omega), fun i h => ?_⟩
      · rw [Params.shrinkLoop, hb]; exact hr
      · cases i with
        | zero => simpa [Step.scale] using hb
        | succ i => exact hi i (by omega)

/-- **C78.** For every request, frame and positive limits: `clipped_opposite_footstep` succeeds, and the foot is placed, on
the other side, at the neutral stance displaced by a step of the envelope, which is the clipped request (corrected for the
rotation) shortened by some power of 0.9, at most 32 times, and as little as needed to avoid the overlap. -/
theorem C78 (p : Params) (h : p.Limits) (c : Clipping) (f : Footstep) (dx dy dtheta : ℝ) :
    ∃ g s j, p.clippedOppositeFootstep c f dx dy dtheta = .ok g ∧ Inside p c s ∧
      g.frame = (neutralStance p f).mul (stepTransform s) ∧ g.side = f.side.other ∧
      g.width = f.width ∧ g.length = f.length ∧
      s = (p.clip c ⟨dx, match f.side with
        | .left => dy - p.dthetaSpacing * |dtheta|
        | .right => dy + p.dthetaSpacing * |dtheta|, dtheta⟩).scale ((9 / 10) ^ j) ∧ j ≤ 32 ∧
      (j < 32 → g.overlap f (1 / 100) = .ok false) := by
  obtain ⟨j, hj, hr, ho, -⟩ := shrinkLoop_spec p f 32 (p.clippedStep c f.side dx dy dtheta)
  refine ⟨_, (p.clippedStep c f.side dx dy dtheta).scale ((9 / 10) ^ j), j, hr, ?_, opposite_eq p f _, rfl, rfl, rfl, ?_, hj, ho⟩
  · have hin : Inside p c (p.clippedStep c f.side dx dy dtheta) := (C77 p h c _).1
    have hk : (0 : ℝ) < (9 / 10) ^ j := by positivity
    have hk1 : ((9 : ℝ) / 10) ^ j ≤ 1 := pow_le_one₀ (by norm_num) (by norm_num)
    unfold Inside at hin ⊢
    rw [gauge_scale p c _ _ hk]
    have := gauge_nonneg h c (p.clippedStep c f.side dx dy dtheta)
    nlinarith
  · congr 1
    unfold Params.clippedStep
    cases f.side <;> rfl

/-- The displacement of C78 is read from the two frames, as `overlap_clip` does. -/
theorem C78_displacement (p : Params) (f : Footstep) (hf : Rigid f.frame) (s : Step) (hs : -Real.pi < s.z ∧ s.z ≤ Real.pi) :
    let T := (neutralStance p f).inv.mul ((neutralStance p f).mul (stepTransform s))
    T.translation 0 = s.x ∧ T.translation 1 = s.y ∧ T.translation 2 = 0 ∧ frameYaw T.linear = s.z := by
  have hn : Rigid (neutralStance p f) := rigid_mul hf isRotation_one
  intro T
  have hT : T = stepTransform s := by
    show (neutralStance p f).inv.mul ((neutralStance p f).mul (stepTransform s)) = _
    rw [← mul_assoc', inv_mul' hn, one_mul']
  rw [hT]
  refine ⟨rfl, rfl, rfl, ?_⟩
  show frameYaw (rotZ s.z) = s.z
  rw [frameYaw_rotZ]; exact wrapAngle_self _ hs

example : ∃ f : Footstep, Rigid f.frame ∧ f.side = .left := ⟨({} : Params).createFootstep .left .one, rigid_one, rfl⟩

end Verif.Humanoid
