/-
Properties C129 (kinematic walk) and C130 (kick).
-/
import Verif.Humanoid.DummyWalk
import Verif.Humanoid.ClipProps
import Verif.Humanoid.PlannerProps
import Verif.Robot.SlerpProps
import Verif.Tools.CubicSplineProps

namespace Verif.Humanoid
open Verif.Tools Verif.Robot

/-! ## Specification -/

/-- A foot on the ground: a rotation about the vertical, at height 0. -/
def OnFloor (T : Affine) : Prop := (∃ a, T.linear = rotZ a) ∧ T.translation 2 = 0

/-- `next` is a place for the foot that flies when `side` is on the ground at `T`: the neutral stance, displaced by a step of the
envelope, which is the request clipped, possibly shortened. -/
def Foothold (c : WalkConfig) (side : Side) (T : Affine) (dx dy dtheta : ℝ) (next : Affine) : Prop :=
  ∃ (s : Step) (j : Nat), Inside c.params c.clipping s ∧
    next = (neutralStance c.params (c.params.createFootstep side T)).mul (stepTransform s) ∧
    s = (c.params.clip c.clipping ⟨dx, match side with
      | .left => dy - c.params.dthetaSpacing * |dtheta|
      | .right => dy + c.params.dthetaSpacing * |dtheta|, dtheta⟩).scale ((9 / 10) ^ j) ∧ j ≤ 32

/-- The foot on the ground and its side. -/
def DummyWalk.side (s : DummyWalk) : Side := if s.supportLeft then .left else .right
def DummyWalk.support (s : DummyWalk) : Affine := if s.supportLeft then s.left else s.right
/-- The foot that flies, at the beginning of the step. -/
def DummyWalk.flying (s : DummyWalk) : Affine := if s.supportLeft then s.right else s.left

/-- The feet are on the floor, and the next place of the flying foot is a foothold for the support foot. -/
structure DummyInv (c : WalkConfig) (s : DummyWalk) : Prop where
  left : OnFloor s.left
  right : OnFloor s.right
  next : OnFloor s.next
  foothold : Foothold c s.side s.support s.dx s.dy s.dtheta s.next
  points : s.lift.points = c.liftPoints
  fresh : SplineInv s.lift
  plain : s.lift.angular = false

/-- A history of calls: it stops at the first exception. -/
noncomputable def dummyRun (c : WalkConfig) : DummyWalk → List DummyOp → DummyWalk × Option Err
  | s, [] => (s, none)
  | s, op :: ops =>
    match s.step c op with
    | (s, some e) => (s, some e)
    | (s, none) => dummyRun c s ops

/-- The side of the support and the request after a history. -/
def dummySupport : Bool → List DummyOp → Bool
  | b, [] => b
  | _, .reset b :: ops => dummySupport b ops
  | b, .nextStep _ _ _ :: ops => dummySupport (!b) ops
  | b, _ :: ops => dummySupport b ops

def dummyRequest : ℝ × ℝ × ℝ → List DummyOp → ℝ × ℝ × ℝ
  | r, [] => r
  | _, .reset _ :: ops => dummyRequest (0, 0, 0) ops
  | _, .nextStep dx dy dtheta :: ops => dummyRequest (dx, dy, dtheta) ops
  | r, _ :: ops => dummyRequest r ops

/-! ## Frames on the floor -/

theorem rotZ_mul (a b : ℝ) : rotZ a * rotZ b = rotZ (a + b) := by
  unfold rotZ
  apply matrix_eq <;> simp [Matrix.mul_apply, Fin.sum_univ_three, Real.cos_add, Real.sin_add] <;> ring

theorem rotZ_neg (a : ℝ) : (rotZ a)⁻¹ = rotZ (-a) := by
  rw [isRotation_inv (rotZ_isRotation a)]
  unfold rotZ
  apply matrix_eq <;> simp

theorem rotZ_wrap (a : ℝ) : rotZ (wrapAngle a) = rotZ a := by
  obtain ⟨k, hk⟩ := wrapAngle_congr a
  have hc : Real.cos (wrapAngle a) = Real.cos a := by rw [hk, Real.cos_add_int_mul_two_pi]
  have hs : Real.sin (wrapAngle a) = Real.sin a := by rw [hk, Real.sin_add_int_mul_two_pi]
  unfold rotZ
  rw [hc, hs]

theorem OnFloor.mul {a b : Affine} (ha : OnFloor a) (hb : OnFloor b) : OnFloor (a.mul b) := by
  obtain ⟨⟨x, hx⟩, hx2⟩ := ha
  obtain ⟨⟨y, hy⟩, hy2⟩ := hb
  refine ⟨⟨x + y, ?_⟩, ?_⟩
  · show a.linear * b.linear = _
    rw [hx, hy, rotZ_mul]
  · show (a.linear.mulVec b.translation + a.translation) 2 = 0
    rw [hx]
    simp [rotZ, Matrix.mulVec, dotProduct, Fin.sum_univ_three, hx2, hy2]

theorem OnFloor.inv {a : Affine} (ha : OnFloor a) : OnFloor a.inv := by
  obtain ⟨⟨x, hx⟩, hx2⟩ := ha
  refine ⟨⟨-x, ?_⟩, ?_⟩
  · show a.linear⁻¹ = _
    rw [hx, rotZ_neg]
  · show (-(a.linear⁻¹.mulVec a.translation)) 2 = 0
    rw [hx, rotZ_neg]
    simp [rotZ, Matrix.mulVec, dotProduct, Fin.sum_univ_three, hx2]

theorem OnFloor.rigid {a : Affine} (ha : OnFloor a) : Rigid a := by
  obtain ⟨⟨x, hx⟩, -⟩ := ha
  show IsRotation a.linear
  rw [hx]
  exact rotZ_isRotation x

theorem OnFloor.flatten (T : Affine) : OnFloor (flattenOnFloor T) := ⟨⟨_, rfl⟩, rfl⟩

theorem flatten_eq {a : Affine} (ha : OnFloor a) : flattenOnFloor a = a := by
  obtain ⟨⟨x, hx⟩, hx2⟩ := ha
  unfold flattenOnFloor
  rw [hx, frameYaw_rotZ, rotZ_wrap]
  refine Affine.ext hx.symm ?_
  funext i
  fin_cases i
  · rfl
  · rfl
  · exact hx2.symm

theorem OnFloor.translation (x y : ℝ) : OnFloor (translation x y 0) := by
  refine ⟨⟨0, ?_⟩, rfl⟩
  show (1 : M3) = rotZ 0
  unfold rotZ
  apply matrix_eq <;> simp

theorem OnFloor.foothold {c : WalkConfig} {side : Side} {T next : Affine} {dx dy dtheta : ℝ} (hT : OnFloor T)
    (h : Foothold c side T dx dy dtheta next) : OnFloor next := by
  obtain ⟨s, j, -, rfl, -⟩ := h
  refine OnFloor.mul (OnFloor.mul hT ?_) ⟨⟨s.z, rfl⟩, rfl⟩
  refine ⟨⟨0, ?_⟩, ?_⟩
  · show (1 : M3) = rotZ 0
    unfold rotZ
    apply matrix_eq <;> simp
  · cases side <;> rfl

/-- A rigid move on the floor keeps the footholds. -/
theorem Foothold.move {c : WalkConfig} {side : Side} {T next : Affine} {dx dy dtheta : ℝ} (M : Affine)
    (h : Foothold c side T dx dy dtheta next) : Foothold c side (M.mul T) dx dy dtheta (M.mul next) := by
  obtain ⟨s, j, h1, h2, h3⟩ := h
  refine ⟨s, j, h1, ?_, h3⟩
  rw [h2]
  unfold neutralStance Params.createFootstep
  simp only [mul_assoc']

theorem slerp_vertical (eps a b t : ℝ) :
    (slerp eps (rotZ a) (rotZ b) t) 2 0 = 0 ∧ (slerp eps (rotZ a) (rotZ b) t) 0 2 = 0 ∧ (slerp eps (rotZ a) (rotZ b) t) 1 2 = 0 ∧
    (slerp eps (rotZ a) (rotZ b) t) 2 2 = 1 := by
  have key : ∀ a, (Quat.ofMatrix (rotZ a)).x = 0 ∧ (Quat.ofMatrix (rotZ a)).y = 0 := by
    intro a
    have h := (ofMatrix_spec (rotZ a) (rotZ_isRotation a)).2
    have h22 := congrFun (congrFun h 2) 2
    have r22 : rotZ a 2 2 = 1 := by simp [rotZ]
    rw [r22] at h22
    simp only [Quat.toMatrix, Matrix.of_apply, Matrix.cons_val', Matrix.cons_val] at h22
    constructor <;> nlinarith [mul_self_nonneg (Quat.ofMatrix (rotZ a)).x, mul_self_nonneg (Quat.ofMatrix (rotZ a)).y]
  obtain ⟨x0, y0⟩ := key a
  obtain ⟨x1, y1⟩ := key b
  unfold slerp Quat.slerp Quat.comb Quat.toMatrix
  simp [x0, x1, y0, y1]

/-! ## The lift -/

theorem addPoints_ok (c : WalkConfig) (l : SplineSt ℝ) (ha : l.angular = false) (h0 : 0 < c.riseRatio) (h1 : c.riseRatio < 1) :
    ∃ l', addPoints l.clear c.liftPoints = (l', none) ∧ l'.points = c.liftPoints ∧ SplineInv l' ∧ l'.angular = false := by
  have e1 : ¬ (1 / 2 - c.riseRatio / 2 ≤ (0 : ℝ)) := by linarith
  have e2 : ¬ (1 / 2 + c.riseRatio / 2 ≤ 1 / 2 - c.riseRatio / 2) := by linarith
  have e3 : ¬ ((1 : ℝ) ≤ 1 / 2 + c.riseRatio / 2) := by linarith
  unfold WalkConfig.liftPoints
  simp only [addPoints, SplineSt.addPoint, SplineSt.clear, List.getLast?_nil, List.nil_append, List.getLast?_singleton, ha,
    List.singleton_append, List.getLast?_cons_cons, if_neg e1, if_neg e2, if_neg e3, List.cons_append, Bool.false_eq_true, if_false]
  exact ⟨_, rfl, rfl, (fun h => by cases h), rfl⟩

theorem addPoints_error (c : WalkConfig) (l : SplineSt ℝ) (ha : l.angular = false) (h : c.riseRatio ≤ 0 ∨ 1 ≤ c.riseRatio) :
    ∃ l', addPoints l.clear c.liftPoints = (l', some .runtimeError) := by
  unfold WalkConfig.liftPoints
  simp only [addPoints, SplineSt.addPoint, SplineSt.clear, List.getLast?_nil, List.nil_append, List.getLast?_singleton, ha,
    List.singleton_append, List.getLast?_cons_cons, List.cons_append, Bool.false_eq_true, if_false]
  by_cases e1 : 1 / 2 - c.riseRatio / 2 ≤ (0 : ℝ)
  · simp only [if_pos e1]
    exact ⟨_, rfl⟩
  have e2 : 1 / 2 + c.riseRatio / 2 ≤ 1 / 2 - c.riseRatio / 2 := by
    rcases h with h | h <;> linarith
  simp only [if_neg e1, List.getLast?_cons_cons, List.getLast?_singleton, if_pos e2]
  exact ⟨_, rfl⟩

theorem rise_between (t0 t1 x0 x1 : ℝ) (h : t0 < t1) (t : ℝ) (ht0 : t0 ≤ t) (ht1 : t ≤ t1) :
    ∃ k, 0 ≤ k ∧ k ≤ 1 ∧ (t = t0 → k = 0) ∧ (t = t1 → k = 1) ∧
      evalSpline (mkSpline ⟨t0, x0, 0⟩ ⟨t1, x1, 0⟩) t .value = x0 + k * (x1 - x0) := by
  have hne : t1 - t0 ≠ 0 := (sub_pos.2 h).ne'
  have e := fit_eq (t1 - t0) x0 0 x1 0 hne
  have u0 : 0 ≤ (t - t0) / (t1 - t0) := div_nonneg (by linarith) (by linarith)
  have u1 : (t - t0) / (t1 - t0) ≤ 1 := by rw [div_le_one (by linarith)]; linarith
  have v0 : t = t0 → (t - t0) / (t1 - t0) = 0 := by rintro rfl; simp
  have v1 : t = t1 → (t - t0) / (t1 - t0) = 1 := by rintro rfl; exact div_self hne
  set u := (t - t0) / (t1 - t0) with hu
  refine ⟨u ^ 2 * (3 - 2 * u), mul_nonneg (sq_nonneg u) (by linarith),
    by nlinarith [mul_nonneg (sq_nonneg (1 - u)) (by linarith : (0:ℝ) ≤ 1 + 2 * u)],
    fun h => by rw [v0 h]; norm_num, fun h => by rw [v1 h]; norm_num, ?_⟩
  simp only [evalSpline, mkSpline, sub_self]
  rw [e]
  have ht : t - t0 = u * (t1 - t0) := by rw [hu]; field_simp
  simp only [polyValue]
  rw [ht]
  field_simp
  ring

/-- The height of the flying foot. -/
theorem lift_spec (c : WalkConfig) (l : SplineSt ℝ) (hp : l.points = c.liftPoints) (hf : SplineInv l) (h0 : 0 < c.riseRatio)
    (h1 : c.riseRatio < 1) (t : ℝ) :
    ∃ k, (l.interpolation t .value).2 = .ok (k * c.footHeight) ∧ 0 ≤ k ∧ k ≤ 1 ∧ (t ≤ 0 → k = 0) ∧ (1 ≤ t → k = 0) ∧
      (1 / 2 - c.riseRatio / 2 ≤ t → t ≤ 1 / 2 + c.riseRatio / 2 → k = 1) := by
  have hval : ∀ t, (l.interpolation t .value).2 = lookup c.liftPoints (computeSplines c.liftPoints) t .value := by
    intro t
    unfold SplineSt.interpolation SplineSt.refresh
    by_cases hd : l.dirty = true
    · simp only [if_pos hd, hp]
    · simp only [if_neg hd]
      rw [hf (by simpa using hd), hp]
  have hinc : Increasing c.liftPoints := by
    unfold Increasing WalkConfig.liftPoints
    simp only [List.pairwise_cons, List.mem_cons, List.not_mem_nil, or_false]
    refine ⟨?_, ?_, ?_, by simp⟩
    · rintro p (rfl | rfl | rfl) <;> simp only <;> linarith
    · rintro p (rfl | rfl) <;> simp only <;> linarith
    · rintro p rfl; simp only; linarith
  have inside : ∀ t, 0 ≤ t → t ≤ 1 → ∃ k, lookup c.liftPoints (computeSplines c.liftPoints) t .value = .ok (k * c.footHeight) ∧
      0 ≤ k ∧ k ≤ 1 ∧
      (t ≤ 0 → k = 0) ∧ (1 ≤ t → k = 0) ∧ (1 / 2 - c.riseRatio / 2 ≤ t → t ≤ 1 / 2 + c.riseRatio / 2 → k = 1) := by
    intro t ht0 ht1
    rcases le_total t (1 / 2 - c.riseRatio / 2) with ha | ha
    · obtain ⟨e, -⟩ := lookup_inside [] (⟨0, 0, 0⟩ : SPoint ℝ) ⟨1 / 2 - c.riseRatio / 2, c.footHeight, 0⟩
        [⟨1 / 2 + c.riseRatio / 2, c.footHeight, 0⟩, ⟨1, 0, 0⟩] hinc t ht0 ha
      obtain ⟨k, k0, k1, k2, k3, hk⟩ := rise_between 0 (1 / 2 - c.riseRatio / 2) 0 c.footHeight (by linarith) t ht0 ha
      rw [hk, zero_add, sub_zero] at e
      exact ⟨k, e, k0, k1, fun h => k2 (le_antisymm h ht0), fun h => by linarith, fun h _ => k3 (le_antisymm ha h)⟩
    · rcases le_total t (1 / 2 + c.riseRatio / 2) with hb | hb
      · obtain ⟨e, -⟩ := lookup_inside [⟨0, 0, 0⟩] (⟨1 / 2 - c.riseRatio / 2, c.footHeight, 0⟩ : SPoint ℝ)
          ⟨1 / 2 + c.riseRatio / 2, c.footHeight, 0⟩ [⟨1, 0, 0⟩] hinc t ha hb
        obtain ⟨k, -, -, -, -, hk⟩ := rise_between (1 / 2 - c.riseRatio / 2) (1 / 2 + c.riseRatio / 2) c.footHeight c.footHeight
          (by linarith) t ha hb
        rw [hk, sub_self, mul_zero, add_zero] at e
        exact ⟨1, by rw [one_mul]; exact e, zero_le_one, le_rfl, fun h => by linarith, fun h => by linarith, fun _ _ => rfl⟩
      · obtain ⟨e, -⟩ := lookup_inside [⟨0, 0, 0⟩, ⟨1 / 2 - c.riseRatio / 2, c.footHeight, 0⟩]
          (⟨1 / 2 + c.riseRatio / 2, c.footHeight, 0⟩ : SPoint ℝ) ⟨1, 0, 0⟩ [] hinc t hb ht1
        obtain ⟨k, k0, k1, k2, k3, hk⟩ := rise_between (1 / 2 + c.riseRatio / 2) 1 c.footHeight 0 (by linarith) t hb ht1
        rw [hk, show c.footHeight + k * (0 - c.footHeight) = (1 - k) * c.footHeight by ring] at e
        exact ⟨1 - k, e, by linarith, by linarith, fun h => by linarith, fun h => by rw [k3 (le_antisymm ht1 h), sub_self],
          fun _ h => by rw [k2 (le_antisymm h hb), sub_zero]⟩
  have clamp : ∀ t t', (if (1 : ℝ) < (if t < 0 then 0 else t) then 1 else (if t < 0 then 0 else t)) =
      (if (1 : ℝ) < (if t' < 0 then 0 else t') then 1 else (if t' < 0 then 0 else t')) →
      lookup c.liftPoints (computeSplines c.liftPoints) t .value = lookup c.liftPoints (computeSplines c.liftPoints) t' .value := by
    intro t t' h
    simp only [WalkConfig.liftPoints, computeSplines, lookup, mkSpline, List.head?_cons, List.getLast?_cons_cons, List.getLast?_singleton]
    rw [h]
  rw [hval]
  rcases lt_or_ge t 0 with ht | ht
  · obtain ⟨k, e, k0, k1, k2, -⟩ := inside 0 le_rfl zero_le_one
    refine ⟨k, by rw [clamp t 0 (by rw [if_pos ht]; simp)]; exact e, k0, k1, fun _ => k2 le_rfl, fun h => by linarith, fun h _ => by linarith⟩
  rcases le_or_gt t 1 with ht1 | ht1
  · exact inside t ht ht1
  · obtain ⟨k, e, k0, k1, -, k2, -⟩ := inside 1 zero_le_one le_rfl
    refine ⟨k, by rw [clamp t 1 (by rw [if_neg (not_lt.2 ht), if_pos ht1]; norm_num)]; exact e, k0, k1, fun h => by linarith,
      fun _ => k2 le_rfl, fun _ h => by linarith⟩

/-! ## The calls -/

theorem computeNext_spec (c : WalkConfig) (hl : c.params.Limits) (s : DummyWalk) (dx dy dtheta : ℝ) :
    ∃ next, s.computeNextSupport c dx dy dtheta = ({ s with dx := dx, dy := dy, dtheta := dtheta, next := next }, none) ∧
      Foothold c s.side s.support dx dy dtheta next := by
  obtain ⟨g, st, j, hg, h1, h2, -, -, -, h3, h4, -⟩ := C78 c.params hl c.clipping (c.params.createFootstep s.side s.support) dx dy dtheta
  obtain ⟨e, he, -⟩ := clippedOpposite_ok c.params c.clipping g 0 0 0
  refine ⟨g.frame, ?_, st, j, h1, h2, h3, h4⟩
  have hi : at' (c.params.initialFootsteps (if s.supportLeft then .right else .left) s.left s.right) 1 =
      .ok (c.params.createFootstep s.side s.support) := by
    unfold DummyWalk.side DummyWalk.support
    cases s.supportLeft <;> rfl
  have hp : c.params.planRepetitive c.clipping dx dy dtheta 2 (if s.supportLeft then .right else .left) s.left s.right =
      .ok (c.params.initialFootsteps (if s.supportLeft then .right else .left) s.left s.right ++ [g, e]) := by
    unfold Params.planRepetitive Params.repImpl
    simp only [hi, Bind.bind, Except.bind]
    rw [if_pos (by norm_num)]
    rw [show ((2 : Int) - 1).toNat = 1 from rfl]
    simp only [Params.repLoop, Bind.bind, Except.bind, hg, he]
    rfl
  unfold DummyWalk.computeNextSupport
  simp only [hp]
  have h2 : at' (c.params.initialFootsteps (if s.supportLeft then .right else .left) s.left s.right ++ [g, e]) 2 = .ok g := rfl
  simp only [h2]

theorem interpolation_keeps (l : SplineSt ℝ) (t : ℝ) (ty : ValueType) :
    (l.interpolation t ty).1.points = l.points ∧ (l.interpolation t ty).1.angular = l.angular ∧
      (SplineInv l → SplineInv (l.interpolation t ty).1) := by
  unfold SplineSt.interpolation SplineSt.refresh
  by_cases hd : l.dirty = true
  · rw [if_pos hd]
    exact ⟨rfl, rfl, fun _ _ => rfl⟩
  · rw [if_neg hd]
    exact ⟨rfl, rfl, id⟩

/-- The targets of the two feet. -/
def DummyWalk.supportTarget (s : DummyWalk) : Affine := if s.supportLeft then s.tLeft else s.tRight
def DummyWalk.flyingTarget (s : DummyWalk) : Affine := if s.supportLeft then s.tRight else s.tLeft

/-- The place of the trunk above two feet, for the middle orientation `M`: turned about its lateral axis by the pitch, a positive pitch
bringing its forward axis towards the ground. -/
def TrunkOver (c : WalkConfig) (L R : Affine) (M : M3) (T : Affine) : Prop :=
  (∀ i, T.linear i 0 = Real.cos c.trunkPitch * M i 0 - Real.sin c.trunkPitch * M i 2 ∧ T.linear i 1 = M i 1 ∧
    T.linear i 2 = Real.sin c.trunkPitch * M i 0 + Real.cos c.trunkPitch * M i 2) ∧ T.translation 2 = c.comHeight ∧
    ∀ i : Fin 3, i ≠ 2 → T.translation i = (L.translation i + R.translation i) / 2 + c.trunkXOffset * M i 0

/-- What a call to `update` changes. -/
theorem update_eq (c : WalkConfig) (s : DummyWalk) (t z : ℝ) (h : (s.lift.interpolation t .value).2 = .ok z) :
    s.update c t = ({ s with
      lift := (s.lift.interpolation t .value).1
      tLeft := (s.update c t).1.tLeft, tRight := (s.update c t).1.tRight, tTrunk := (s.update c t).1.tTrunk }, none) := by
  unfold DummyWalk.update
  simp only [h]

theorem update_feet (c : WalkConfig) (s : DummyWalk) (t z : ℝ) (h : (s.lift.interpolation t .value).2 = .ok z) :
    (s.update c t).1.supportLeft = s.supportLeft ∧
    (s.update c t).1.supportTarget = s.support ∧
    (s.update c t).1.flyingTarget = ⟨c.slerp s.flying.linear s.next.linear t,
      ![s.flying.translation 0 * (1 - t) + s.next.translation 0 * t, s.flying.translation 1 * (1 - t) + s.next.translation 1 * t, z]⟩ ∧
    (s.update c t).1.tTrunk = ((interpolateFrames c.slerp (flattenOnFloor (s.update c t).1.tLeft)
      (flattenOnFloor (s.update c t).1.tRight) (1 / 2)).mul (translation c.trunkXOffset 0 c.comHeight)).mul ⟨pitchY c.trunkPitch, 0⟩ := by
  unfold DummyWalk.update DummyWalk.supportTarget DummyWalk.flyingTarget DummyWalk.support DummyWalk.flying interpolateFrames
  simp only [h]
  refine ⟨trivial, ?_, ?_, trivial⟩ <;> cases s.supportLeft <;> simp

/-- The trunk. -/
theorem trunk_spec (c : WalkConfig) (eps : ℝ) (hs : c.slerp = slerp eps) (L R : Affine) :
    TrunkOver c L R (slerp eps (rotZ (frameYaw L.linear)) (rotZ (frameYaw R.linear)) (1 / 2))
      (((interpolateFrames c.slerp (flattenOnFloor L) (flattenOnFloor R) (1 / 2)).mul (translation c.trunkXOffset 0 c.comHeight)).mul
        ⟨pitchY c.trunkPitch, 0⟩) := by
  obtain ⟨h0, h02, h12, h2⟩ := slerp_vertical eps (frameYaw L.linear) (frameYaw R.linear) (1 / 2)
  rw [hs]
  unfold interpolateFrames flattenOnFloor
  simp only
  generalize slerp eps (rotZ (frameYaw L.linear)) (rotZ (frameYaw R.linear)) (1 / 2) = M at *
  refine ⟨?_, ?_, ?_⟩
  · intro i
    simp only [Affine.mul, translation, Matrix.mul_one, pitchY, Matrix.mul_apply, Fin.sum_univ_three]
    refine ⟨?_, ?_, ?_⟩ <;> simp <;> ring
  · simp [Affine.mul, translation, Matrix.mulVec, dotProduct, Fin.sum_univ_three, h0, h2]
  · intro i hi
    fin_cases i
    · simp [Affine.mul, translation, Matrix.mulVec, dotProduct, Fin.sum_univ_three, h02]; ring
    · simp [Affine.mul, translation, Matrix.mulVec, dotProduct, Fin.sum_univ_three, h12]; ring
    · exact absurd rfl hi

/-- **C129, the targets.** During a step: the foot on the ground does not move; the other goes in a straight line (seen from above) from
its place to the next one, where it is at the times 0 and 1, its height stays between 0 and `walk_foot_height`, which it has during the
middle part of the step; the trunk is at `walk_com_height`, over the middle of the feet displaced by `trunk_x_offset`. -/
theorem C129_update (c : WalkConfig) (eps : ℝ) (he : 0 < eps) (he1 : eps ≤ 1) (hs : c.slerp = slerp eps) (h0 : 0 < c.riseRatio)
    (h1 : c.riseRatio < 1) (s : DummyWalk) (W : DummyInv c s) (t : ℝ) :
    (s.update c t).2 = none ∧
    (s.update c t).1.supportTarget = s.support ∧
    (∀ i : Fin 3, i ≠ 2 → (s.update c t).1.flyingTarget.translation i =
      s.flying.translation i * (1 - t) + s.next.translation i * t) ∧
    (s.update c t).1.flyingTarget.linear = slerp eps s.flying.linear s.next.linear t ∧
    (∃ k, 0 ≤ k ∧ k ≤ 1 ∧ (s.update c t).1.flyingTarget.translation 2 = k * c.footHeight ∧
      (1 / 2 - c.riseRatio / 2 ≤ t → t ≤ 1 / 2 + c.riseRatio / 2 → k = 1)) ∧
    (t = 0 → (s.update c t).1.flyingTarget = s.flying) ∧
    (t = 1 → (s.update c t).1.flyingTarget = s.next) ∧
    TrunkOver c (s.update c t).1.tLeft (s.update c t).1.tRight
      (slerp eps (rotZ (frameYaw (s.update c t).1.tLeft.linear)) (rotZ (frameYaw (s.update c t).1.tRight.linear)) (1 / 2))
      (s.update c t).1.tTrunk := by
  obtain ⟨k, hk, k0, k1, kt0, kt1, kp⟩ := lift_spec c s.lift W.points W.fresh h0 h1 t
  obtain ⟨-, f1, f2, f3⟩ := update_feet c s t _ hk
  have hfl : OnFloor s.flying := by
    unfold DummyWalk.flying
    split
    · exact W.right
    · exact W.left
  obtain ⟨s0, s1, -⟩ := C128 eps he he1 s.flying.linear s.next.linear hfl.rigid W.next.rigid
  refine ⟨by rw [update_eq c s t _ hk], f1, ?_, by rw [f2, hs], ⟨k, k0, k1, by rw [f2]; rfl, kp⟩, ?_, ?_, ?_⟩
  · intro i hi
    rw [f2]
    fin_cases i
    · rfl
    · rfl
    · exact absurd rfl hi
  · rintro rfl
    rw [f2, hs, s0, kt0 le_rfl]
    refine Affine.ext rfl ?_
    funext i
    fin_cases i
    · simp
    · simp
    · simp [hfl.2]
  · rintro rfl
    rw [f2, hs, s1, kt1 le_rfl]
    refine Affine.ext rfl ?_
    funext i
    fin_cases i
    · simp
    · simp
    · simp [W.next.2]
  · rw [f3]
    exact trunk_spec c eps hs _ _

theorem nextStep_spec (c : WalkConfig) (hl : c.params.Limits) (s : DummyWalk) (dx dy dtheta : ℝ) :
    ∃ r, s.nextStep c dx dy dtheta = (r, none) ∧ r.supportLeft = (!s.supportLeft) ∧ r.support = s.next ∧ r.flying = s.support ∧
      r.dx = dx ∧ r.dy = dy ∧ r.dtheta = dtheta ∧ r.lift = s.lift ∧ Foothold c r.side r.support dx dy dtheta r.next := by
  have key : ∀ s' : DummyWalk, s'.supportLeft = (!s.supportLeft) → s'.support = s.next → s'.flying = s.support → s'.lift = s.lift →
      ∃ r, s'.computeNextSupport c dx dy dtheta = (r, none) ∧ r.supportLeft = (!s.supportLeft) ∧ r.support = s.next ∧
        r.flying = s.support ∧
        r.dx = dx ∧ r.dy = dy ∧ r.dtheta = dtheta ∧ r.lift = s.lift ∧ Foothold c r.side r.support dx dy dtheta r.next := by
    intro s' h1 h2 h3 h4
    obtain ⟨next, e, h⟩ := computeNext_spec c hl s' dx dy dtheta
    exact ⟨_, e, h1, h2, h3, rfl, rfl, rfl, h4, h⟩
  unfold DummyWalk.nextStep
  apply key <;> cases hb : s.supportLeft <;> simp [DummyWalk.support, DummyWalk.flying, hb]

theorem feet_of {P : Affine → Prop} (s : DummyWalk) (h1 : P s.support) (h2 : P s.flying) : P s.left ∧ P s.right := by
  unfold DummyWalk.support at h1
  unfold DummyWalk.flying at h2
  cases hb : s.supportLeft <;> simp [hb] at h1 h2
  · exact ⟨h2, h1⟩
  · exact ⟨h1, h2⟩

theorem feet_to {P : Affine → Prop} (s : DummyWalk) (h1 : P s.left) (h2 : P s.right) : P s.support ∧ P s.flying := by
  unfold DummyWalk.support DummyWalk.flying
  cases hb : s.supportLeft <;> simp
  · exact ⟨h2, h1⟩
  · exact ⟨h1, h2⟩

theorem DummyInv.nextStep {c : WalkConfig} (hl : c.params.Limits) {s : DummyWalk} (W : DummyInv c s) (dx dy dtheta : ℝ) :
    ∃ r, s.nextStep c dx dy dtheta = (r, none) ∧ r.supportLeft = (!s.supportLeft) ∧ r.support = s.next ∧ r.flying = s.support ∧
      r.dx = dx ∧ r.dy = dy ∧ r.dtheta = dtheta ∧ DummyInv c r := by
  obtain ⟨r, e, e1, e2, e3, e4, e5, e6, e7, hf⟩ := nextStep_spec c hl s dx dy dtheta
  obtain ⟨hL, hR⟩ := feet_of (P := OnFloor) r (by rw [e2]; exact W.next) (by rw [e3]; exact (feet_to s W.left W.right).1)
  refine ⟨r, e, e1, e2, e3, e4, e5, e6, hL, hR, OnFloor.foothold (feet_to r hL hR).1 hf, ?_, ?_, ?_, ?_⟩
  · rw [e4, e5, e6]; exact hf
  · rw [e7]; exact W.points
  · rw [e7]; exact W.fresh
  · rw [e7]; exact W.plain

theorem DummyInv.update {c : WalkConfig} (h0 : 0 < c.riseRatio) (h1 : c.riseRatio < 1) {s : DummyWalk} (W : DummyInv c s) (t : ℝ) :
    ∃ r, s.update c t = (r, none) ∧ r.supportLeft = s.supportLeft ∧ r.left = s.left ∧ r.right = s.right ∧ r.next = s.next ∧
      r.dx = s.dx ∧ r.dy = s.dy ∧ r.dtheta = s.dtheta ∧ DummyInv c r := by
  obtain ⟨k, hk, -⟩ := lift_spec c s.lift W.points W.fresh h0 h1 t
  obtain ⟨i1, i2, i3⟩ := interpolation_keeps s.lift t .value
  refine ⟨_, update_eq c s t _ hk, rfl, rfl, rfl, rfl, rfl, rfl, rfl, W.left, W.right, W.next, W.foothold, ?_, i3 W.fresh, ?_⟩
  · exact i1.trans W.points
  · exact i2.trans W.plain

/-- **C129, support.** `update_T_world_support`: the support foot is placed on the flattened frame, and so is the robot; the other foot
and the next place keep their position relative to it. -/
theorem C129_support (c : WalkConfig) (s : DummyWalk) (W : DummyInv c s) (T : Affine) :
    (s.updateTWorldSupport T).support = flattenOnFloor T ∧
    (s.updateTWorldSupport T).support.inv.mul (s.updateTWorldSupport T).flying = s.support.inv.mul s.flying ∧
    (s.updateTWorldSupport T).support.inv.mul (s.updateTWorldSupport T).next = s.support.inv.mul s.next ∧
    (s.updateTWorldSupport T).placed = some (s.side, flattenOnFloor T) ∧
    (s.updateTWorldSupport T).supportLeft = s.supportLeft ∧ DummyInv c (s.updateTWorldSupport T) := by
  obtain ⟨hS, hF⟩ := feet_to (P := OnFloor) s W.left W.right
  have hM : OnFloor ((flattenOnFloor T).mul s.support.inv) := (OnFloor.flatten T).mul hS.inv
  have e : s.updateTWorldSupport T = { s with
      left := ((flattenOnFloor T).mul s.support.inv).mul s.left, right := ((flattenOnFloor T).mul s.support.inv).mul s.right
      next := ((flattenOnFloor T).mul s.support.inv).mul s.next, placed := some (s.side, flattenOnFloor T) } := by
    unfold DummyWalk.updateTWorldSupport
    simp only
    rw [show (if s.supportLeft = true then s.left else s.right) = s.support from rfl, flatten_eq (hM.mul W.left),
      flatten_eq (hM.mul W.right), flatten_eq (hM.mul W.next)]
    have hp : (if s.supportLeft = true then (Side.left, ((flattenOnFloor T).mul s.support.inv).mul s.left)
        else (Side.right, ((flattenOnFloor T).mul s.support.inv).mul s.right)) = (s.side, flattenOnFloor T) := by
      have : ((flattenOnFloor T).mul s.support.inv).mul s.support = flattenOnFloor T := by
        rw [mul_assoc', inv_mul' hS.rigid, mul_one']
      unfold DummyWalk.side
      unfold DummyWalk.support at this ⊢
      cases hb : s.supportLeft <;> simp [hb] at this ⊢ <;> exact this
    rw [hp]
  generalize hMd : (flattenOnFloor T).mul s.support.inv = M at *
  have hsup : (s.updateTWorldSupport T).support = M.mul s.support := by
    rw [e]; unfold DummyWalk.support; cases s.supportLeft <;> rfl
  have hfly : (s.updateTWorldSupport T).flying = M.mul s.flying := by
    rw [e]; unfold DummyWalk.flying; cases s.supportLeft <;> rfl
  have hMs : M.mul s.support = flattenOnFloor T := by rw [← hMd, mul_assoc', inv_mul' hS.rigid, mul_one']
  have rel : ∀ a : Affine, OnFloor a → (M.mul s.support).inv.mul (M.mul a) = s.support.inv.mul a := by
    intro a ha
    have hr := rigid_mul hM.rigid hS.rigid
    have h1 : (M.mul s.support).mul (s.support.inv.mul a) = M.mul a := by
      rw [mul_assoc', ← mul_assoc' s.support, mul_inv' hS.rigid, one_mul']
    rw [← h1, ← mul_assoc', inv_mul' hr, one_mul']
  refine ⟨hsup.trans hMs, ?_, ?_, by rw [e], by rw [e], ?_⟩
  · rw [hsup, hfly, rel _ hF]
  · rw [hsup]
    rw [show (s.updateTWorldSupport T).next = M.mul s.next by rw [e], rel _ W.next]
  · refine ⟨by rw [e]; exact hM.mul W.left, by rw [e]; exact hM.mul W.right, by rw [e]; exact hM.mul W.next, ?_, by rw [e]; exact W.points,
      by rw [e]; exact W.fresh, by rw [e]; exact W.plain⟩
    rw [hsup]
    have := W.foothold.move M
    rw [show (s.updateTWorldSupport T).side = s.side by rw [e]; rfl, show (s.updateTWorldSupport T).next = M.mul s.next by rw [e],
      show (s.updateTWorldSupport T).dx = s.dx by rw [e], show (s.updateTWorldSupport T).dy = s.dy by rw [e],
      show (s.updateTWorldSupport T).dtheta = s.dtheta by rw [e]]
    exact this

/-- **C129, reset.** From any state: the walk starts from the neutral stance, with the requested support, when
`0 < walk_foot_rise_ratio < 1`, and raises otherwise. -/
theorem C129_reset (c : WalkConfig) (hl : c.params.Limits) (s : DummyWalk) (ha : s.lift.angular = false) (b : Bool) :
    (0 < c.riseRatio → c.riseRatio < 1 → ∃ r, s.reset c b = (r, none) ∧ r.supportLeft = b ∧
      r.left = translation 0 (c.params.feetSpacing / 2) 0 ∧ r.right = translation 0 (-c.params.feetSpacing / 2) 0 ∧
      r.dx = 0 ∧ r.dy = 0 ∧ r.dtheta = 0 ∧ DummyInv c r) ∧
    (c.riseRatio ≤ 0 ∨ 1 ≤ c.riseRatio → (s.reset c b).2 = some .runtimeError) := by
  constructor
  · intro h0 h1
    obtain ⟨l, e, l1, l2, l3⟩ := addPoints_ok c s.lift ha h0 h1
    unfold DummyWalk.reset
    rw [e]
    simp only
    have key : ∀ s' : DummyWalk, s'.supportLeft = b → s'.left = translation 0 (c.params.feetSpacing / 2) 0 →
        s'.right = translation 0 (-c.params.feetSpacing / 2) 0 → s'.lift = l →
        ∃ r, (match s'.computeNextSupport c 0 0 0 with
          | (s, some e) => (s, some e)
          | (s, none) => s.update c 0) = (r, none) ∧ r.supportLeft = b ∧
          r.left = translation 0 (c.params.feetSpacing / 2) 0 ∧ r.right = translation 0 (-c.params.feetSpacing / 2) 0 ∧
          r.dx = 0 ∧ r.dy = 0 ∧ r.dtheta = 0 ∧ DummyInv c r := by
      intro s' b1 b2 b3 b4
      obtain ⟨next, en, hn⟩ := computeNext_spec c hl s' 0 0 0
      rw [en]
      simp only
      have hL : OnFloor s'.left := by rw [b2]; exact OnFloor.translation _ _
      have hR : OnFloor s'.right := by rw [b3]; exact OnFloor.translation _ _
      have W : DummyInv c { s' with dx := 0, dy := 0, dtheta := 0, next := next } :=
        ⟨hL, hR, OnFloor.foothold (feet_to s' hL hR).1 hn, hn, by rw [b4]; exact l1, by rw [b4]; exact l2, by rw [b4]; exact l3⟩
      obtain ⟨r, er, r1, r2, r3, r4, r5, r6, r7, rW⟩ := W.update h0 h1 0
      exact ⟨r, er, r1.trans b1, r2.trans b2, r3.trans b3, r5, r6, r7, rW⟩
    exact key _ rfl rfl rfl rfl
  · intro h
    obtain ⟨l, e⟩ := addPoints_error c s.lift ha h
    unfold DummyWalk.reset
    rw [e]

/-- **C129, histories.** After `reset`, whatever the calls: no exception is raised, the feet are on the floor, the next place is a
foothold for the support and the last request; the support alternates, and the request is the last one. -/
theorem C129 (c : WalkConfig) (hl : c.params.Limits) (h0 : 0 < c.riseRatio) (h1 : c.riseRatio < 1) (s : DummyWalk)
    (ha : s.lift.angular = false) (b : Bool) (ops : List DummyOp) :
    ∃ r, dummyRun c s (.reset b :: ops) = (r, none) ∧ DummyInv c r ∧ r.supportLeft = dummySupport b ops ∧
      (r.dx, r.dy, r.dtheta) = dummyRequest (0, 0, 0) ops := by
  have key : ∀ (ops : List DummyOp) (s : DummyWalk), DummyInv c s → ∃ r, dummyRun c s ops = (r, none) ∧ DummyInv c r ∧
      r.supportLeft = dummySupport s.supportLeft ops ∧ (r.dx, r.dy, r.dtheta) = dummyRequest (s.dx, s.dy, s.dtheta) ops := by
    intro ops
    induction ops with
    | nil => exact fun s W => ⟨s, rfl, W, rfl, rfl⟩
    | cons op ops ih =>
      intro s W
      cases op with
      | reset b =>
        obtain ⟨r, e, e1, -, -, e4, e5, e6, rW⟩ := (C129_reset c hl s W.plain b).1 h0 h1
        obtain ⟨r', f, f1, f2, f3⟩ := ih r rW
        refine ⟨r', ?_, f1, ?_, ?_⟩
        · simp only [dummyRun, DummyWalk.step, e, f]
        · rw [f2, e1]; rfl
        · rw [f3, e4, e5, e6]; rfl
      | nextStep dx dy dtheta =>
        obtain ⟨r, e, e1, -, -, e4, e5, e6, rW⟩ := W.nextStep hl dx dy dtheta
        obtain ⟨r', f, f1, f2, f3⟩ := ih r rW
        refine ⟨r', ?_, f1, ?_, ?_⟩
        · simp only [dummyRun, DummyWalk.step, e, f]
        · rw [f2, e1]; rfl
        · rw [f3, e4, e5, e6]; rfl
      | update t =>
        obtain ⟨r, e, e1, -, -, -, e4, e5, e6, rW⟩ := W.update h0 h1 t
        obtain ⟨r', f, f1, f2, f3⟩ := ih r rW
        refine ⟨r', ?_, f1, ?_, ?_⟩
        · simp only [dummyRun, DummyWalk.step, e, f]
        · rw [f2, e1]; rfl
        · rw [f3, e4, e5, e6]; rfl
      | updateTWorldSupport T =>
        obtain ⟨-, -, -, -, e1, rW⟩ := C129_support c s W T
        obtain ⟨r', f, f1, f2, f3⟩ := ih _ rW
        refine ⟨r', ?_, f1, ?_, ?_⟩
        · simp only [dummyRun, DummyWalk.step, f]
        · rw [f2, e1]; rfl
        · rw [f3]; rfl
  obtain ⟨r, e, e1, -, -, e4, e5, e6, rW⟩ := (C129_reset c hl s ha b).1 h0 h1
  obtain ⟨r', f, f1, f2, f3⟩ := key ops r rW
  refine ⟨r', ?_, f1, ?_, ?_⟩
  · simp only [dummyRun, DummyWalk.step, e, f]
  · rw [f2, e1]
  · rw [f3, e4, e5, e6]

/-- **C129, continuity.** The targets at the end of a step are those at the beginning of the next one, whatever it is. -/
theorem C129_continuous (c : WalkConfig) (eps : ℝ) (he : 0 < eps) (he1 : eps ≤ 1) (hs : c.slerp = slerp eps) (h0 : 0 < c.riseRatio)
    (h1 : c.riseRatio < 1) (hl : c.params.Limits) (s : DummyWalk) (W : DummyInv c s) (dx dy dtheta : ℝ) :
    ∃ r, s.nextStep c dx dy dtheta = (r, none) ∧
      (r.update c 0).1.tLeft = (s.update c 1).1.tLeft ∧ (r.update c 0).1.tRight = (s.update c 1).1.tRight ∧
      (r.update c 0).1.tTrunk = (s.update c 1).1.tTrunk := by
  obtain ⟨r, e, e1, e2, e3, -, -, -, rW⟩ := W.nextStep hl dx dy dtheta
  obtain ⟨-, a1, -, -, -, -, a2, -⟩ := C129_update c eps he he1 hs h0 h1 s W 1
  obtain ⟨-, b1, -, -, -, b2, -, -⟩ := C129_update c eps he he1 hs h0 h1 r rW 0
  obtain ⟨k, hk, -⟩ := lift_spec c s.lift W.points W.fresh h0 h1 1
  obtain ⟨k', hk', -⟩ := lift_spec c r.lift rW.points rW.fresh h0 h1 0
  obtain ⟨u1, -, -, u2⟩ := update_feet c s 1 _ hk
  obtain ⟨v1, -, -, v2⟩ := update_feet c r 0 _ hk'
  have a2 := a2 rfl
  have b2 := b2 rfl
  rw [e2] at b1
  rw [e3] at b2
  unfold DummyWalk.supportTarget at a1 b1
  unfold DummyWalk.flyingTarget at a2 b2
  rw [u1] at a1 a2
  rw [v1, e1] at b1 b2
  have hLR : (r.update c 0).1.tLeft = (s.update c 1).1.tLeft ∧ (r.update c 0).1.tRight = (s.update c 1).1.tRight := by
    cases hb : s.supportLeft <;> simp [hb] at a1 a2 b1 b2
    · exact ⟨b1.trans a2.symm, b2.trans a1.symm⟩
    · exact ⟨b2.trans a1.symm, b1.trans a2.symm⟩
  exact ⟨r, e, hLR.1, hLR.2, by rw [u2, v2, hLR.1, hLR.2]⟩

/-- The hypotheses are met by the default parameters of the planner and by usual values of the others. -/
example : ∃ (c : WalkConfig) (s : DummyWalk), c.params.Limits ∧ 0 < c.riseRatio ∧ c.riseRatio < 1 ∧ c.slerp = slerp (1 / 2 ^ 52) ∧
    DummyInv c s := by
  refine ⟨⟨{}, .ellipsoid, 2 / 10, 4 / 100, 3 / 10, 15 / 100, 5 / 100, slerp (1 / 2 ^ 52)⟩, ?_⟩
  obtain ⟨r, -, -, -, -, -, -, -, W⟩ := (C129_reset ⟨{}, .ellipsoid, 2 / 10, 4 / 100, 3 / 10, 15 / 100, 5 / 100, slerp (1 / 2 ^ 52)⟩
    default_limits ⟨true, .init false, .one, .one, .one, 0, 0, 0, .one, .one, .one, none⟩ rfl true).1 (by norm_num) (by norm_num)
  exact ⟨r, default_limits, by norm_num, by norm_num, rfl, W⟩

/-! ## C130 -/

theorem kick_null (tStart tEnd : ℝ) (start target : V3) (opposite : Affine) (t : ℝ) (ty : ValueType) :
    (kickMake tStart tEnd start target opposite).read t ty = .ok 0 := by
  have h : ((SplineSt.init (K := ℝ) false).interpolation t ty).2 = .ok 0 := by
    cases ty <;> rfl
  unfold KickTrajectory.read kickMake
  simp only [h, Bind.bind, Except.bind]
  refine congrArg _ ?_
  funext i
  fin_cases i <;> rfl

/-- **C130, refuted.** The kick should leave from `start` at `t_start` and arrive at `target` at `t_end`. It does so only when both are
the origin. -/
theorem C130_refuted (tStart tEnd : ℝ) (start target : V3) (opposite : Affine) (h : start ≠ 0 ∨ target ≠ 0) :
    ¬ ((kickMake tStart tEnd start target opposite).read tStart .value = .ok start ∧
      (kickMake tStart tEnd start target opposite).read tEnd .value = .ok target) := by
  rw [kick_null, kick_null]
  rintro ⟨h1, h2⟩
  cases h1
  cases h2
  rcases h with h | h <;> exact h rfl

/-- **C130, what holds.** Reading the trajectory never raises: the foot stays at the origin, with a null velocity, at all times; the
times are stored. -/
theorem C130_partial (tStart tEnd : ℝ) (start target : V3) (opposite : Affine) (t : ℝ) (ty : ValueType) :
    (kickMake tStart tEnd start target opposite).read t ty = .ok 0 ∧
    (kickMake tStart tEnd start target opposite).tStart = tStart ∧ (kickMake tStart tEnd start target opposite).tEnd = tEnd :=
  ⟨kick_null _ _ _ _ _ _ _, rfl, rfl⟩

example : (![1, 0, 0] : V3) ≠ 0 ∨ (0 : V3) ≠ 0 := .inl fun h => by
  have := congrFun h 0
  simp at this

end Verif.Humanoid
