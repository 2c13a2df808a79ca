/-
Properties C32, C40, C41, C42.
-/
import Mathlib.Tactic.Ring
import Mathlib.Tactic.Linarith
import Mathlib.Tactic.FieldSimp
import Mathlib.Tactic.LinearCombination
import Mathlib.Tactic.NormNum
import Mathlib.Tactic.Positivity
import Verif.Tools.Utils
import Verif.Tools.CubicSplineProps

namespace Verif.Tools
open Real

/-! ## C40 -/

/-- Specification: congruence modulo `2π`. -/
def CongrAngle (a b : ℝ) : Prop := ∃ k : ℤ, a = b + k * (2 * π)

theorem wrapAngle_eq (a : ℝ) : wrapAngle a = toIocMod Real.two_pi_pos (-π) a := by
  unfold wrapAngle atan2
  have : (⟨Real.cos a, Real.sin a⟩ : ℂ) = Complex.cos a + Complex.sin a * Complex.I := by
    apply Complex.ext
    · simp [← Complex.ofReal_cos, ← Complex.ofReal_sin]
    · simp [← Complex.ofReal_cos, ← Complex.ofReal_sin]
  rw [this, Complex.arg_cos_add_sin_mul_I_eq_toIocMod]

theorem wrapAngle_mem (a : ℝ) : -π < wrapAngle a ∧ wrapAngle a ≤ π := Complex.arg_mem_Ioc _

theorem wrapAngle_congr (a : ℝ) : CongrAngle (wrapAngle a) a := by
  rw [wrapAngle_eq]
  refine ⟨-toIocDiv Real.two_pi_pos (-π) a, ?_⟩
  have := toIocMod_add_toIocDiv_zsmul Real.two_pi_pos (-π) a
  rw [zsmul_eq_mul] at this
  push_cast
  linarith

theorem wrapAngle_self (a : ℝ) (h : -π < a ∧ a ≤ π) : wrapAngle a = a := by
  rw [wrapAngle_eq, toIocMod_eq_self]
  exact ⟨h.1, by linarith [h.2]⟩

/-- **C40.** -/
theorem C40_wrap_angle (a : ℝ) :
    (-π < wrapAngle a ∧ wrapAngle a ≤ π) ∧ CongrAngle (wrapAngle a) a ∧ wrapAngle (wrapAngle a) = wrapAngle a :=
  ⟨wrapAngle_mem a, wrapAngle_congr a, wrapAngle_self _ (wrapAngle_mem a)⟩

/-- Non-vacuity: three half turns are wrapped to half a turn. -/
example : wrapAngle (3 * π) = π := by
  have h := wrapAngle_congr (3 * π)
  obtain ⟨k, hk⟩ := h
  have hm := wrapAngle_mem (3 * π)
  rw [hk] at hm ⊢
  have hpi := Real.pi_pos
  have h1 : (k : ℝ) < 0 := by nlinarith
  have h2 : (-2 : ℝ) < k := by nlinarith
  have : k = -1 := by
    have h1' : k < 0 := by exact_mod_cast h1
    have h2' : -2 < k := by exact_mod_cast h2
    omega
  subst this
  push_cast; ring

/-! ## C32 -/

/-- What is requested and what is stored along a history. -/
noncomputable def requested (l : List ℝ) (s : SplineSt ℝ) : List (SplOp ℝ) → List ℝ
  | [] => l
  | .addPoint t x dx :: ops =>
    match s.addPoint wrapAngle t x dx with
    | .ok s' => requested (l ++ [x]) s' ops
    | .error _ => requested l s ops
  | .clear :: ops => requested [] s.clear ops
  | .read t ty :: ops => requested l (s.interpolation t ty).1 ops
  | .duration :: ops => requested l s ops

/-- **C32.** In an angular spline, after any history, the stored values are congruent to
the requested ones (of the accepted calls since the last `clear`, in order), and
consecutive stored values differ by at most `π`. -/
theorem C32_angular (ops : List (SplOp ℝ)) :
    List.Forall₂ (fun p a => CongrAngle p.x a) (splRun wrapAngle true ops).points
      (requested [] (SplineSt.init true) ops) ∧
    List.IsChain (fun p q : SPoint ℝ => |q.x - p.x| ≤ π) (splRun wrapAngle true ops).points := by
  have key : ∀ (ops : List (SplOp ℝ)) (s : SplineSt ℝ) (l : List ℝ), s.angular = true →
      List.Forall₂ (fun p a => CongrAngle p.x a) s.points l →
      List.IsChain (fun p q : SPoint ℝ => |q.x - p.x| ≤ π) s.points →
      List.Forall₂ (fun p a => CongrAngle p.x a) (ops.foldl (splStep wrapAngle) s).points (requested l s ops) ∧
      List.IsChain (fun p q : SPoint ℝ => |q.x - p.x| ≤ π) (ops.foldl (splStep wrapAngle) s).points := by
    intro ops
    induction ops with
    | nil => intro s l _ h1 h2; exact ⟨h1, h2⟩
    | cons op ops ih =>
      intro s l ha h1 h2
      rw [List.foldl_cons]
      cases op with
      | addPoint t x dx =>
        rcases addPoint_cases wrapAngle s t x dx with ⟨he, -⟩ | ⟨x', he, -, hx⟩
        · simp only [splStep, requested, he]
          exact ih s l ha h1 h2
        · simp only [splStep, requested, he]
          refine ih _ _ ha ?_ ?_
          · refine List.rel_append h1 (List.Forall₂.cons ?_ List.Forall₂.nil)
            show CongrAngle x' x
            rw [hx]
            cases hl : s.points.getLast? with
            | none => exact ⟨0, by simp⟩
            | some last =>
              simp only [ha, if_true]
              obtain ⟨k, hk⟩ := wrapAngle_congr (x - last.x)
              exact ⟨k, by rw [hk]; ring⟩
          · show List.IsChain _ (s.points ++ [⟨t, x', dx⟩])
            rw [List.isChain_append]
            refine ⟨h2, List.isChain_singleton _, ?_⟩
            intro p hp q hq
            simp only [List.head?_cons, Option.mem_def, Option.some.injEq] at hq hp
            subst hq
            simp only
            rw [hx, hp]
            simp only [ha, if_true]
            have := wrapAngle_mem (x - p.x)
            rw [show p.x + wrapAngle (x - p.x) - p.x = wrapAngle (x - p.x) by ring, abs_le]
            exact ⟨this.1.le, this.2⟩
      | clear => exact ih _ _ ha List.Forall₂.nil List.isChain_nil
      | read t ty =>
        have hp : (s.interpolation t ty).1.points = s.points := by
          simp only [SplineSt.interpolation, SplineSt.refresh]; split <;> rfl
        have hg : (s.interpolation t ty).1.angular = s.angular := by
          simp only [SplineSt.interpolation, SplineSt.refresh]; split <;> rfl
        exact ih _ _ (hg.trans ha) (by rw [splStep, hp]; exact h1) (by rw [splStep, hp]; exact h2)
      | duration => exact ih _ _ ha h1 h2
  exact key ops (SplineSt.init true) [] rfl List.Forall₂.nil List.isChain_nil

/-- Non-vacuity: two accepted points, one rejected. -/
example : requested [] (SplineSt.init true) [.addPoint 0 1 0, .addPoint 1 5 0, .addPoint 0 2 0] = [1, 5] := by
  have h : ¬ ((1 : ℝ) ≤ 0) := by norm_num
  simp [requested, SplineSt.addPoint, SplineSt.init, h]

/-! ## C41 -/

/-- Specification: rotation matrices. -/
def IsRotation (R : M3) : Prop := R.transpose * R = 1 ∧ R.det = 1

theorem rotZ_isRotation (a : ℝ) : IsRotation (rotZ a) := by
  constructor
  · unfold rotZ
    ext i j
    fin_cases i <;> fin_cases j <;> simp [Matrix.mul_apply, Fin.sum_univ_three] <;>
      first
        | linear_combination Real.sin_sq_add_cos_sq a
        | ring
  · unfold rotZ
    rw [Matrix.det_fin_three]
    simp
    linear_combination Real.sin_sq_add_cos_sq a

theorem frameYaw_eq (R : M3) : frameYaw R = atan2 (R 1 0) (R 0 0) := by
  unfold frameYaw
  simp [Matrix.mulVec, dotProduct, Fin.sum_univ_three]

theorem frameYaw_rotZ (a : ℝ) : frameYaw (rotZ a) = wrapAngle a := by
  rw [frameYaw_eq]; simp [rotZ, wrapAngle]

theorem frameYaw_mem (R : M3) : -π < frameYaw R ∧ frameYaw R ≤ π := Complex.arg_mem_Ioc _

/-- **C41.** For every transform: height 0, `x` and `y` kept, the linear part is a rotation
that fixes the vertical axis, with the same yaw; flattening twice is flattening
once. -/
theorem C41_flatten (T : Affine) :
    (flattenOnFloor T).translation 2 = 0 ∧
    (flattenOnFloor T).translation 0 = T.translation 0 ∧ (flattenOnFloor T).translation 1 = T.translation 1 ∧
    IsRotation (flattenOnFloor T).linear ∧ (flattenOnFloor T).linear.mulVec ![0, 0, 1] = ![0, 0, 1] ∧
    frameYaw (flattenOnFloor T).linear = frameYaw T.linear ∧
    flattenOnFloor (flattenOnFloor T) = flattenOnFloor T := by
  have hy : frameYaw (rotZ (frameYaw T.linear)) = frameYaw T.linear := by
    rw [frameYaw_rotZ]; exact wrapAngle_self _ (frameYaw_mem _)
  refine ⟨rfl, rfl, rfl, rotZ_isRotation _, ?_, hy, ?_⟩
  · ext i; fin_cases i <;> simp [flattenOnFloor, rotZ, Matrix.mulVec, dotProduct, Fin.sum_univ_three]
  · ext i
    · simp only [flattenOnFloor, hy]
    · fin_cases i <;> rfl

/-- The horizontal direction of the x axis is kept (when it is not vertical): the yaw
is the heading of the transformed x axis. -/
theorem C41_heading (T : Affine) (h : T.linear 0 0 ≠ 0 ∨ T.linear 1 0 ≠ 0) :
    ∃ r, 0 < r ∧ T.linear 0 0 = r * (flattenOnFloor T).linear 0 0 ∧ T.linear 1 0 = r * (flattenOnFloor T).linear 1 0 := by
  let z : ℂ := ⟨T.linear 0 0, T.linear 1 0⟩
  have hz : z ≠ 0 := by
    intro h0
    rcases h with h | h
    · exact h (congrArg Complex.re h0)
    · exact h (congrArg Complex.im h0)
  refine ⟨‖z‖, norm_pos_iff.2 hz, ?_, ?_⟩
  · have : (flattenOnFloor T).linear 0 0 = Real.cos (Complex.arg z) := by
      simp only [flattenOnFloor, rotZ, frameYaw_eq]; rfl
    rw [this, Complex.cos_arg hz]
    have := norm_pos_iff.2 hz
    field_simp; rfl
  · have : (flattenOnFloor T).linear 1 0 = Real.sin (Complex.arg z) := by
      simp only [flattenOnFloor, rotZ, frameYaw_eq]; rfl
    rw [this, Complex.sin_arg]
    have := norm_pos_iff.2 hz
    field_simp; rfl

/-! ## C42 -/

theorem norm3_sq (v : V3) : norm3 v * norm3 v = v 0 * v 0 + v 1 * v 1 + v 2 * v 2 :=
  Real.mul_self_sqrt (by nlinarith [mul_self_nonneg (v 0), mul_self_nonneg (v 1), mul_self_nonneg (v 2)])

theorem norm3_nonneg (v : V3) : 0 ≤ norm3 v := Real.sqrt_nonneg _

/-- Rodrigues' formula about a unit axis. -/
theorem exp3_unit (w : V3) (hw : w 0 * w 0 + w 1 * w 1 + w 2 * w 2 = 1) (θ : ℝ) (hθ : 0 ≤ θ) :
    exp3 ![w 0 * θ, w 1 * θ, w 2 * θ] =
      let a := 1 - Real.cos θ
      let b := Real.sin θ
      let c := Real.cos θ
      !![c + a * w 0 * w 0, a * w 0 * w 1 - b * w 2, a * w 0 * w 2 + b * w 1;
         a * w 1 * w 0 + b * w 2, c + a * w 1 * w 1, a * w 1 * w 2 - b * w 0;
         a * w 2 * w 0 - b * w 1, a * w 2 * w 1 + b * w 0, c + a * w 2 * w 2] := by
  have hn : norm3 ![w 0 * θ, w 1 * θ, w 2 * θ] = θ := by
    unfold norm3
    simp only [Matrix.cons_val_zero, Matrix.cons_val_one, Matrix.cons_val]
    rw [show w 0 * θ * (w 0 * θ) + w 1 * θ * (w 1 * θ) + w 2 * θ * (w 2 * θ)
      = θ * θ * (w 0 * w 0 + w 1 * w 1 + w 2 * w 2) by ring, hw, mul_one]
    exact Real.sqrt_mul_self hθ
  unfold exp3
  rw [hn]
  by_cases h0 : θ = 0
  · simp only [h0, if_true, Real.cos_zero, Real.sin_zero]
    ext i j
    fin_cases i <;> fin_cases j <;> simp
  · simp only [if_neg h0]
    ext i j
    fin_cases i <;> fin_cases j <;> simp <;> field_simp

theorem rodrigues_isRotation (w : V3) (hw : w 0 * w 0 + w 1 * w 1 + w 2 * w 2 = 1) (b c : ℝ) (hbc : b ^ 2 + c ^ 2 = 1) :
    IsRotation (let a := 1 - c
      !![c + a * w 0 * w 0, a * w 0 * w 1 - b * w 2, a * w 0 * w 2 + b * w 1;
         a * w 1 * w 0 + b * w 2, c + a * w 1 * w 1, a * w 1 * w 2 - b * w 0;
         a * w 2 * w 0 - b * w 1, a * w 2 * w 1 + b * w 0, c + a * w 2 * w 2]) := by
  generalize w 0 = x at *
  generalize w 1 = y at *
  generalize w 2 = z at *
  constructor
  · ext i j
    fin_cases i <;> fin_cases j <;> simp [Matrix.mul_apply, Fin.sum_univ_three]
    · linear_combination (1 - x * x) * hbc + (b ^ 2 + (1 - c) ^ 2 * x * x) * hw
    · linear_combination (-x * y) * hbc + ((1 - c) ^ 2 * x * y) * hw
    · linear_combination (-x * z) * hbc + ((1 - c) ^ 2 * x * z) * hw
    · linear_combination (-x * y) * hbc + ((1 - c) ^ 2 * x * y) * hw
    · linear_combination (1 - y * y) * hbc + (b ^ 2 + (1 - c) ^ 2 * y * y) * hw
    · linear_combination (-y * z) * hbc + ((1 - c) ^ 2 * y * z) * hw
    · linear_combination (-x * z) * hbc + ((1 - c) ^ 2 * x * z) * hw
    · linear_combination (-y * z) * hbc + ((1 - c) ^ 2 * y * z) * hw
    · linear_combination (1 - z * z) * hbc + (b ^ 2 + (1 - c) ^ 2 * z * z) * hw
  · rw [Matrix.det_fin_three]
    simp
    linear_combination (1 + (1 - c) * (x * x + y * y + z * z - 1)) * hbc
      + (b ^ 2 * (1 + (1 - c) * (x * x + y * y + z * z - 1)) + (1 - c)) * hw

/-- The rotation applied to a vector orthogonal to the axis. -/
theorem rodrigues_perp (w e : V3) (hwe : dot3 w e = 0) (b c : ℝ) :
    Matrix.mulVec (let a := 1 - c
      !![c + a * w 0 * w 0, a * w 0 * w 1 - b * w 2, a * w 0 * w 2 + b * w 1;
         a * w 1 * w 0 + b * w 2, c + a * w 1 * w 1, a * w 1 * w 2 - b * w 0;
         a * w 2 * w 0 - b * w 1, a * w 2 * w 1 + b * w 0, c + a * w 2 * w 2]) e
      = fun i => c * e i + b * cross3 w e i := by
  unfold dot3 at hwe
  ext i
  fin_cases i <;> simp [Matrix.mulVec, dotProduct, Fin.sum_univ_three, cross3]
  · linear_combination (1 - c) * w 0 * hwe
  · linear_combination (1 - c) * w 1 * hwe
  · linear_combination (1 - c) * w 2 * hwe

theorem safeAcos_eq (v : ℝ) (h : -1 ≤ v ∧ v ≤ 1) : safeAcos v = Real.arccos v := by
  unfold safeAcos
  by_cases h1 : v ≤ -1
  · have : v = -1 := le_antisymm h1 h.1
    simp [this]
  · by_cases h2 : v ≥ 1
    · have : v = 1 := le_antisymm h.2 h2
      subst this; norm_num
    · simp only [if_neg h1, if_neg h2]

theorem normalize3_unit (v : V3) (hv : v ≠ 0) :
    (normalize3 v) 0 * (normalize3 v) 0 + (normalize3 v) 1 * (normalize3 v) 1 + (normalize3 v) 2 * (normalize3 v) 2 = 1 ∧
    ∀ i, normalize3 v i = v i / norm3 v := by
  have hpos : 0 < norm3 v := by
    refine lt_of_le_of_ne (norm3_nonneg v) fun h => hv ?_
    have := norm3_sq v
    rw [← h] at this
    ext i
    have h0 : v 0 = 0 := by nlinarith [mul_self_nonneg (v 0), mul_self_nonneg (v 1), mul_self_nonneg (v 2)]
    have h1 : v 1 = 0 := by nlinarith [mul_self_nonneg (v 0), mul_self_nonneg (v 1), mul_self_nonneg (v 2)]
    have h2 : v 2 = 0 := by nlinarith [mul_self_nonneg (v 0), mul_self_nonneg (v 1), mul_self_nonneg (v 2)]
    fin_cases i <;> assumption
  have heq : ∀ i, normalize3 v i = v i / norm3 v := by
    intro i
    unfold normalize3
    rw [if_pos hpos]
    fin_cases i <;> rfl
  refine ⟨?_, heq⟩
  rw [heq, heq, heq]
  have hs := norm3_sq v
  have hne := hpos.ne'
  field_simp
  linear_combination -hs

theorem three_squares {a b c : ℝ} (h : a * a + b * b + c * c = 0 * 0) : a = 0 ∧ b = 0 ∧ c = 0 := by
  have ha := mul_self_nonneg a
  have hb := mul_self_nonneg b
  have hc := mul_self_nonneg c
  exact ⟨mul_self_eq_zero.1 (by linarith), mul_self_eq_zero.1 (by linarith), mul_self_eq_zero.1 (by linarith)⟩

/-- The core of `rotation_from_axis`, for unit vectors `e` (axis) and `v` (target), with
`alt` the rotation axis used when they are parallel. -/
theorem align (e v alt : V3) (he : dot3 e e = 1) (hv : dot3 v v = 1) (halt : dot3 alt alt = 1) (hperp : dot3 alt e = 0) :
    let w : V3 := if norm3 (cross3 e v) = 0 then alt else normalize3 (cross3 e v)
    let θ := safeAcos (dot3 e v)
    IsRotation (exp3 ![w 0 * θ, w 1 * θ, w 2 * θ]) ∧ (exp3 ![w 0 * θ, w 1 * θ, w 2 * θ]).mulVec e = v := by
  intro w θ
  -- Lagrange
  have hlag : norm3 (cross3 e v) * norm3 (cross3 e v) = 1 - dot3 e v ^ 2 := by
    rw [norm3_sq]
    simp only [cross3, Matrix.cons_val_zero, Matrix.cons_val_one, Matrix.cons_val]
    unfold dot3 at he hv ⊢
    linear_combination (v 0 * v 0 + v 1 * v 1 + v 2 * v 2) * he + hv
  have hdot : -1 ≤ dot3 e v ∧ dot3 e v ≤ 1 := by
    have h : dot3 e v ^ 2 ≤ 1 := by nlinarith [mul_self_nonneg (norm3 (cross3 e v))]
    exact abs_le.1 ((sq_le_one_iff_abs_le_one _).1 h)
  have hθ : θ = Real.arccos (dot3 e v) := safeAcos_eq _ hdot
  have hc : Real.cos θ = dot3 e v := by rw [hθ, Real.cos_arccos hdot.1 hdot.2]
  have hs : Real.sin θ = norm3 (cross3 e v) := by
    rw [hθ, Real.sin_arccos, ← hlag, Real.sqrt_mul_self (norm3_nonneg _)]
  have hθ0 : 0 ≤ θ := by rw [hθ]; exact Real.arccos_nonneg _
  -- `w` is a unit vector orthogonal to `e`, and `sin θ (w × e) = v - cos θ e`
  have hw : (w 0 * w 0 + w 1 * w 1 + w 2 * w 2 = 1) ∧ dot3 w e = 0 ∧
      ∀ i, Real.sin θ * cross3 w e i = v i - dot3 e v * e i := by
    by_cases h0 : norm3 (cross3 e v) = 0
    · have hwa : w = alt := if_pos h0
      rw [hwa]
      refine ⟨halt, hperp, fun i => ?_⟩
      rw [hs, h0, zero_mul]
      -- `e × v = 0` and unit vectors
      have hsq := norm3_sq (cross3 e v)
      rw [h0] at hsq
      simp only [cross3, Matrix.cons_val_zero, Matrix.cons_val_one, Matrix.cons_val] at hsq
      obtain ⟨c0, c1, c2⟩ := three_squares hsq.symm
      unfold dot3 at he ⊢
      fin_cases i
      · show 0 = v 0 - (e 0 * v 0 + e 1 * v 1 + e 2 * v 2) * e 0
        linear_combination (v 0) * he - e 2 * c1 + e 1 * c2
      · show 0 = v 1 - (e 0 * v 0 + e 1 * v 1 + e 2 * v 2) * e 1
        linear_combination (v 1) * he - e 0 * c2 + e 2 * c0
      · show 0 = v 2 - (e 0 * v 0 + e 1 * v 1 + e 2 * v 2) * e 2
        linear_combination (v 2) * he - e 1 * c0 + e 0 * c1
    · have hwa : w = normalize3 (cross3 e v) := if_neg h0
      have hcne : cross3 e v ≠ 0 := by
        intro h; apply h0; rw [h]; simp [norm3]
      obtain ⟨hu, hn⟩ := normalize3_unit _ hcne
      rw [hwa]
      refine ⟨hu, ?_, fun i => ?_⟩
      · unfold dot3
        rw [hn, hn, hn]
        simp only [cross3, Matrix.cons_val_zero, Matrix.cons_val_one, Matrix.cons_val]
        field_simp
        ring
      · rw [hs]
        have hcr : norm3 (cross3 e v) * cross3 (normalize3 (cross3 e v)) e i = cross3 (cross3 e v) e i := by
          generalize cross3 e v = u at hn h0 ⊢
          fin_cases i
          · show norm3 u * (normalize3 u 1 * e 2 - normalize3 u 2 * e 1) = u 1 * e 2 - u 2 * e 1
            rw [hn, hn]; field_simp
          · show norm3 u * (normalize3 u 2 * e 0 - normalize3 u 0 * e 2) = u 2 * e 0 - u 0 * e 2
            rw [hn, hn]; field_simp
          · show norm3 u * (normalize3 u 0 * e 1 - normalize3 u 1 * e 0) = u 0 * e 1 - u 1 * e 0
            rw [hn, hn]; field_simp
        rw [hcr]
        unfold dot3 at he ⊢
        fin_cases i <;> simp [cross3]
        · linear_combination (v 0) * he
        · linear_combination (v 1) * he
        · linear_combination (v 2) * he
  rw [exp3_unit w hw.1 θ hθ0]
  refine ⟨rodrigues_isRotation w hw.1 _ _ (Real.sin_sq_add_cos_sq θ), ?_⟩
  rw [rodrigues_perp w e hw.2.1]
  ext i
  rw [hw.2.2 i, hc]
  ring

/-- The unit vector named by an axis. -/
def axisVector : String → Option V3
  | "x" => some ![1, 0, 0]
  | "y" => some ![0, 1, 0]
  | "z" => some ![0, 0, 1]
  | _ => none

/-- **C42.** For every non-zero vector (including vectors parallel or opposite to the
axis), `rotation_from_axis` returns a rotation matrix sending the axis onto the
normalised vector; other axis names raise. -/
theorem C42_rotation_from_axis (axis : String) (v : V3) :
    (∀ e, axisVector axis = some e → v ≠ 0 → ∃ R, rotationFromAxis axis v = .ok R ∧ IsRotation R ∧
      R.mulVec e = fun i => v i / norm3 v) ∧
    (axisVector axis = none → rotationFromAxis axis v = .error .runtimeError) := by
  have hx : ∀ e, axisVector axis = some e →
      (axis = "x" ∧ e = ![1, 0, 0]) ∨ (axis = "y" ∧ e = ![0, 1, 0]) ∨ (axis = "z" ∧ e = ![0, 0, 1]) := by
    intro e he
    unfold axisVector at he
    split at he <;> first | (cases he; simp) | cases he
  refine ⟨fun e he hv => ?_, fun hn => ?_⟩
  · obtain ⟨hu, hdiv⟩ := normalize3_unit v hv
    have hfun : (fun i => v i / norm3 v) = normalize3 v := by funext i; rw [hdiv]
    rw [hfun]
    rcases hx e he with ⟨rfl, rfl⟩ | ⟨rfl, rfl⟩ | ⟨rfl, rfl⟩
    · have h := align ![1, 0, 0] (normalize3 v) ![0, 1, 0] (by simp [dot3]) hu (by simp [dot3]) (by simp [dot3])
      exact ⟨_, by unfold rotationFromAxis; simp, h⟩
    · have h := align ![0, 1, 0] (normalize3 v) ![0, 0, 1] (by simp [dot3]) hu (by simp [dot3]) (by simp [dot3])
      exact ⟨_, by unfold rotationFromAxis; simp, h⟩
    · have h := align ![0, 0, 1] (normalize3 v) ![1, 0, 0] (by simp [dot3]) hu (by simp [dot3]) (by simp [dot3])
      exact ⟨_, by unfold rotationFromAxis; simp, h⟩
  · have n1 : axis ≠ "x" := by rintro rfl; simp [axisVector] at hn
    have n2 : axis ≠ "y" := by rintro rfl; simp [axisVector] at hn
    have n3 : axis ≠ "z" := by rintro rfl; simp [axisVector] at hn
    unfold rotationFromAxis
    rw [if_neg n1, if_neg n2, if_neg n3]
    rfl

/-- Non-vacuity: the opposite of the axis. -/
example : ∃ R, rotationFromAxis "x" ![-2, 0, 0] = .ok R ∧ IsRotation R ∧ R.mulVec ![1, 0, 0] = ![-1, 0, 0] := by
  obtain ⟨R, h1, h2, h3⟩ := (C42_rotation_from_axis "x" ![-2, 0, 0]).1 _ rfl (by
    intro h; have := congrFun h 0; simp at this)
  refine ⟨R, h1, h2, ?_⟩
  rw [h3]
  have : norm3 ![-2, 0, 0] = 2 := by
    unfold norm3
    simp
  rw [this]
  ext i; fin_cases i <;> simp

end Verif.Tools
