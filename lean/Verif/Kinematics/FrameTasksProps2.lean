/-
Properties of the axis alignment, momentum, energy and manipulability tasks: C115, C117 to C119.
-/
import Mathlib.Analysis.SpecialFunctions.Trigonometric.InverseDeriv
import Mathlib.Analysis.SpecialFunctions.Sqrt
import Mathlib.Analysis.Matrix.PosDef
import Mathlib.Data.Real.StarOrdered
import Mathlib.LinearAlgebra.Matrix.Trace
import Mathlib.LinearAlgebra.Matrix.Adjugate
import Verif.Kinematics.FrameTasksProps

namespace Verif.Kinematics
open Finset Verif.Problem Verif.Tools Verif.Robot Verif.Dynamics

/-! ## C115 -/

theorem norm3_pos {v : V3} (h : v ≠ 0) : 0 < norm3 v := by
  refine lt_of_le_of_ne (norm3_nonneg v) fun h0 => h ?_
  have := norm3_sq v
  rw [← h0] at this
  obtain ⟨a, b, c⟩ := three_squares this.symm
  funext i
  fin_cases i <;> assumption

theorem normalize3_zero : normalize3 0 = 0 := by
  unfold normalize3
  rw [if_neg]
  simp [norm3]

/-- The columns `x`, `z × x`, `z` of orthogonal unit vectors form a rotation. -/
theorem ofColumns_rotation (x z : V3) (hx : dot3 x x = 1) (hz : dot3 z z = 1) (hxz : dot3 x z = 0) :
    IsRotation (ofColumns x (cross3 z x) z) := by
  unfold dot3 at *
  constructor
  · ext i j
    fin_cases i <;> fin_cases j <;> simp [ofColumns, cross3, Matrix.mul_apply, Fin.sum_univ_three] <;> grind
  · rw [Matrix.det_fin_three]
    simp [ofColumns, cross3]
    grind

theorem cross_perp_left (a b : V3) : dot3 a (cross3 a b) = 0 := by
  simp [dot3, cross3]; ring

/-- The unit vector along `R u` for a rotation `R`. -/
theorem normalize3_rot (R : M3) (hR : IsRotation R) (u : V3) (i : Fin 3) :
    normalize3 (R.mulVec u) i = R.mulVec u i * (1 / norm3 u) := by
  have hn : norm3 (R.mulVec u) = norm3 u := by
    have e := rotEqs R hR
    unfold norm3
    congr 1
    simp only [Matrix.mulVec, dotProduct, Fin.sum_univ_three]
    linear_combination u 0 ^ 2 * e.k0 + u 1 ^ 2 * e.k1 + u 2 ^ 2 * e.k2 + 2 * u 0 * u 1 * e.p01 + 2 * u 0 * u 2 * e.p02 +
      2 * u 1 * u 2 * e.p12
  by_cases hu : u = 0
  · rw [hu, Matrix.mulVec_zero, normalize3_zero]; simp
  · unfold normalize3
    rw [if_pos (by rw [hn]; exact norm3_pos hu), hn]
    fin_cases i <;> simp [div_eq_mul_inv]

/-- **C115.** When the axis is neither aligned with nor opposite to the target: there is a rotation vector `e` that brings
the axis on the target, and the task is met exactly when the axis starts to move as in that rotation; the angle between the
axis and the target then decreases at the rate of its value. -/
theorem C115_partial (N : Nat) (axis_frame targetAxis_world : V3) (dq : Nat → ℝ) (JLin JAng : J3) (T : ℝ → Affine)
    (h : Moves N dq JLin JAng T) (ha : axis_frame ≠ 0) (ht : targetAxis_world ≠ 0)
    (hne : cross3 ((T 0).linear.mulVec axis_frame) targetAxis_world ≠ 0) :
    ∃ M e, axisAlignTask N axis_frame targetAxis_world (T 0).linear JAng = some M ∧
      (exp3 e).mulVec (normalize3 ((T 0).linear.mulVec axis_frame)) = normalize3 targetAxis_world ∧
      (M.Met dq ↔ HasDerivAt (fun s => normalize3 ((T s).linear.mulVec axis_frame))
        (cross3 e (normalize3 ((T 0).linear.mulVec axis_frame))) 0) ∧
      (M.Met dq → HasDerivAt
        (fun s => Real.arccos (dot3 (normalize3 ((T s).linear.mulVec axis_frame)) (normalize3 targetAxis_world)))
        (-Real.arccos (dot3 (normalize3 ((T 0).linear.mulVec axis_frame)) (normalize3 targetAxis_world))) 0) := by
  have hax : (T 0).linear.mulVec axis_frame ≠ 0 := by
    intro h0; rw [h0] at hne; apply hne; funext i; fin_cases i <;> simp [cross3]
  obtain ⟨hx1, hxd⟩ := normalize3_unit _ hax
  obtain ⟨ht1, htd⟩ := normalize3_unit _ ht
  set x := normalize3 ((T 0).linear.mulVec axis_frame) with hxdef
  set t := normalize3 targetAxis_world with htdef
  have hcross : cross3 x t ≠ 0 := by
    intro h0
    apply hne
    have p1 := (norm3_pos hax).ne'
    have p2 := (norm3_pos ht).ne'
    have hx : ∀ i, (T 0).linear.mulVec axis_frame i = x i * norm3 ((T 0).linear.mulVec axis_frame) := by
      intro i; rw [hxd]; field_simp
    have ht' : ∀ i, targetAxis_world i = t i * norm3 targetAxis_world := by
      intro i; rw [htd]; field_simp
    have c0 := congrFun h0 0; have c1 := congrFun h0 1; have c2 := congrFun h0 2
    simp only [cross3, Matrix.cons_val_zero, Matrix.cons_val_one, Matrix.cons_val, Pi.zero_apply] at c0 c1 c2
    funext i
    fin_cases i
    · simp only [cross3]
      simp only [Fin.zero_eta, Matrix.cons_val_zero, Pi.zero_apply]
      rw [hx 1, hx 2, ht' 1, ht' 2]
      linear_combination norm3 ((T 0).linear.mulVec axis_frame) * norm3 targetAxis_world * c0
    · simp only [cross3]
      simp only [Fin.mk_one, Matrix.cons_val_one, Pi.zero_apply]
      rw [hx 0, hx 2, ht' 0, ht' 2]
      simp only [Matrix.cons_val_zero]
      linear_combination norm3 ((T 0).linear.mulVec axis_frame) * norm3 targetAxis_world * c1
    · simp only [cross3]
      simp only [Fin.reduceFinMk, Matrix.cons_val, Pi.zero_apply]
      rw [hx 0, hx 1, ht' 0, ht' 1]
      linear_combination norm3 ((T 0).linear.mulVec axis_frame) * norm3 targetAxis_world * c2
  obtain ⟨hz1, hzd⟩ := normalize3_unit _ hcross
  set z := normalize3 (cross3 x t) with hzdef
  have hnpos := norm3_pos hcross
  have hxz : dot3 x z = 0 := by
    unfold dot3
    rw [hzd, hzd, hzd]
    have := cross_perp_left x t
    unfold dot3 at this
    field_simp
    linear_combination this
  have hzt : dot3 z t = 0 := by
    unfold dot3
    rw [hzd, hzd, hzd]
    simp only [cross3, Matrix.cons_val_zero, Matrix.cons_val_one, Matrix.cons_val]
    field_simp
    ring
  have hx1' : dot3 x x = 1 := hx1
  have ht1' : dot3 t t = 1 := ht1
  have hz1' : dot3 z z = 1 := hz1
  have hrot := ofColumns_rotation x z hx1' hz1' hxz
  have hlag : norm3 (cross3 x t) * norm3 (cross3 x t) = 1 - dot3 x t ^ 2 := by
    rw [norm3_sq]
    simp only [cross3, Matrix.cons_val_zero, Matrix.cons_val_one, Matrix.cons_val]
    unfold dot3 at hx1' ht1' ⊢
    linear_combination (t 0 * t 0 + t 1 * t 1 + t 2 * t 2) * hx1' + ht1'
  have hdot : -1 < dot3 x t ∧ dot3 x t < 1 := by
    have h1 : dot3 x t ^ 2 < 1 := by nlinarith [mul_pos hnpos hnpos]
    exact abs_lt.1 ((sq_lt_one_iff_abs_lt_one _).1 h1)
  have hθ : safeAcos (dot3 x t) = Real.arccos (dot3 x t) := safeAcos_eq _ ⟨hdot.1.le, hdot.2.le⟩
  have hal := (align x t z hx1' ht1' hz1' (by unfold dot3 at hxz ⊢; linarith)).2
  simp only [if_neg hnpos.ne'] at hal
  rw [← hzdef, hθ] at hal
  set θ := Real.arccos (dot3 x t) with hθdef
  -- the motion of the axis
  set ω := app N JAng dq with hω
  have hmove : HasDerivAt (fun s => normalize3 ((T s).linear.mulVec axis_frame)) (cross3 ω x) 0 := by
    refine hasDerivAt_pi.2 fun i => ?_
    have hfun : (fun s => normalize3 ((T s).linear.mulVec axis_frame) i) =
        fun s => (T s).linear.mulVec axis_frame i * (1 / norm3 axis_frame) := by
      funext s; exact normalize3_rot _ (h.rot s) _ _
    rw [hfun]
    have hd := (((h.ang i 0).mul_const (axis_frame 0)).fun_add ((h.ang i 1).mul_const (axis_frame 1))).fun_add
      ((h.ang i 2).mul_const (axis_frame 2))
    have hfun2 : (fun s => (T s).linear.mulVec axis_frame i) = fun s => (T s).linear i 0 * axis_frame 0 +
        (T s).linear i 1 * axis_frame 1 + (T s).linear i 2 * axis_frame 2 := by
      funext s; simp [Matrix.mulVec, dotProduct, Fin.sum_univ_three]
    have hd2 := (hfun2 ▸ hd).mul_const (1 / norm3 axis_frame)
    refine hd2.congr_deriv ?_
    have hxi : ∀ k, x k = ((T 0).linear k 0 * axis_frame 0 + (T 0).linear k 1 * axis_frame 1 + (T 0).linear k 2 * axis_frame 2) *
        (1 / norm3 axis_frame) := by
      intro k
      rw [hxdef, normalize3_rot _ (h.rot 0)]
      simp [Matrix.mulVec, dotProduct, Fin.sum_univ_three]
    fin_cases i <;> simp only [cross3, Fin.zero_eta, Fin.mk_one, Fin.reduceFinMk, Matrix.cons_val_zero, Matrix.cons_val_one, Matrix.cons_val] <;>
      simp only [hxi] <;> ring
  -- the equations of the task
  have hM : axisAlignTask N axis_frame targetAxis_world (T 0).linear JAng = some ⟨2, N,
      fun i j => (ofColumns x (cross3 z x) z).transpose.mulVec (fun r => JAng r j) (if i = 0 then 1 else 2),
      fun i => if i = 0 then 0 else θ⟩ := by
    unfold axisAlignTask axisFrame
    simp only
    rw [← hxdef, ← htdef, ← hzdef, if_neg (by rw [hrot.2]; norm_num), isRotation_inv hrot, hθ]
  have hmet : (⟨2, N, fun i j => (ofColumns x (cross3 z x) z).transpose.mulVec (fun r => JAng r j) (if i = 0 then 1 else 2),
      fun i => if i = 0 then 0 else θ⟩ : TaskMat ℝ).Met dq ↔ dot3 (cross3 z x) ω = 0 ∧ dot3 z ω = θ := by
    have hrow : ∀ k : Fin 3, ∑ j ∈ range N, (ofColumns x (cross3 z x) z).transpose.mulVec (fun r => JAng r j) k * dq j =
        (ofColumns x (cross3 z x) z).transpose.mulVec ω k := by
      intro k
      exact congrFun (app_mulVec N (ofColumns x (cross3 z x) z).transpose JAng dq) k
    have hr1 : (ofColumns x (cross3 z x) z).transpose.mulVec ω 1 = dot3 (cross3 z x) ω := by
      simp [ofColumns, Matrix.mulVec, dotProduct, Fin.sum_univ_three, dot3]
    have hr2 : (ofColumns x (cross3 z x) z).transpose.mulVec ω 2 = dot3 z ω := by
      simp [ofColumns, Matrix.mulVec, dotProduct, Fin.sum_univ_three, dot3]
    unfold TaskMat.Met TaskMat.app
    simp only
    constructor
    · intro hh
      have h0 := hh 0 (by norm_num)
      have h1 := hh 1 (by norm_num)
      simp only [if_true, one_ne_zero, if_false] at h0 h1
      rw [hrow, hr1] at h0
      rw [hrow, hr2] at h1
      exact ⟨h0, h1⟩
    · rintro ⟨h0, h1⟩ i hi
      have : i = 0 ∨ i = 1 := by omega
      rcases this with rfl | rfl
      · simp only [if_true]; rw [hrow, hr1, h0]
      · simp only [one_ne_zero, if_false]; rw [hrow, hr2, h1]
  let e : V3 := ![z 0 * θ, z 1 * θ, z 2 * θ]
  have hkey : (dot3 (cross3 z x) ω = 0 ∧ dot3 z ω = θ) ↔ cross3 ω x = cross3 e x := by
    -- x, y = z × x, z is an orthonormal basis
    have r := rotEqs _ hrot
    have e0 : x 0 * z 0 + x 1 * z 1 + x 2 * z 2 = 0 := hxz
    have e1 : x 0 * x 0 + x 1 * x 1 + x 2 * x 2 = 1 := hx1
    have e2 : z 0 * z 0 + z 1 * z 1 + z 2 * z 2 = 1 := hz1
    constructor
    · rintro ⟨hy, hz⟩
      -- ω = (x·ω) x + θ z
      have hω' : ∀ i, ω i = dot3 x ω * x i + θ * z i := by
        have hdec : (ofColumns x (cross3 z x) z).mulVec ((ofColumns x (cross3 z x) z).transpose.mulVec ω) = ω := by
          rw [Matrix.mulVec_mulVec, mul_eq_one_comm.1 hrot.1, Matrix.one_mulVec]
        intro i
        have := congrFun hdec i
        have hr0 : (ofColumns x (cross3 z x) z).transpose.mulVec ω 0 = dot3 x ω := by
          simp [ofColumns, Matrix.mulVec, dotProduct, Fin.sum_univ_three, dot3]
        have hr1 : (ofColumns x (cross3 z x) z).transpose.mulVec ω 1 = 0 := by
          rw [← hy]; simp [ofColumns, Matrix.mulVec, dotProduct, Fin.sum_univ_three, dot3]
        have hr2 : (ofColumns x (cross3 z x) z).transpose.mulVec ω 2 = θ := by
          rw [← hz]; simp [ofColumns, Matrix.mulVec, dotProduct, Fin.sum_univ_three, dot3]
        generalize (ofColumns x (cross3 z x) z).transpose.mulVec ω = u at this hr0 hr1 hr2
        rw [← this]
        simp only [Matrix.mulVec, dotProduct, Fin.sum_univ_three, hr0, hr1, hr2]
        fin_cases i <;> simp [ofColumns] <;> ring
      funext i
      fin_cases i <;> simp [cross3, e] <;> simp only [hω'] <;> ring
    · intro hh
      have h0 := congrFun hh 0; have h1 := congrFun hh 1; have h2 := congrFun hh 2
      simp only [cross3, e, Matrix.cons_val_zero, Matrix.cons_val_one, Matrix.cons_val] at h0 h1 h2
      constructor
      · simp only [dot3, cross3, Matrix.cons_val_zero, Matrix.cons_val_one, Matrix.cons_val]
        linear_combination (-z 0) * h0 - z 1 * h1 - z 2 * h2
      · have hy : dot3 (cross3 z x) (cross3 ω x) = dot3 z ω := by
          simp only [dot3, cross3, Matrix.cons_val_zero, Matrix.cons_val_one, Matrix.cons_val]
          linear_combination (z 0 * ω 0 + z 1 * ω 1 + z 2 * ω 2) * e1 - (x 0 * ω 0 + x 1 * ω 1 + x 2 * ω 2) * e0
        have hy2 : dot3 (cross3 z x) (cross3 e x) = θ := by
          simp only [dot3, cross3, e, Matrix.cons_val_zero, Matrix.cons_val_one, Matrix.cons_val]
          linear_combination θ * (z 0 * z 0 + z 1 * z 1 + z 2 * z 2) * e1 + θ * e2 - θ * (x 0 * z 0 + x 1 * z 1 + x 2 * z 2) * e0
        rw [← hy, hh, hy2]
  have hiff : (⟨2, N, fun i j => (ofColumns x (cross3 z x) z).transpose.mulVec (fun r => JAng r j) (if i = 0 then 1 else 2),
      fun i => if i = 0 then 0 else θ⟩ : TaskMat ℝ).Met dq ↔ HasDerivAt (fun s => normalize3 ((T s).linear.mulVec axis_frame))
        (cross3 e x) 0 := by
    rw [hmet, hkey]
    exact ⟨fun hh => hh ▸ hmove, fun hh => hmove.unique hh⟩
  refine ⟨_, e, hM, hal, hiff, fun hm => ?_⟩
  have hd := hiff.1 hm
  have hd2 : HasDerivAt (fun s => dot3 (normalize3 ((T s).linear.mulVec axis_frame)) t) (dot3 (cross3 e x) t) 0 := by
    have := hasDerivAt_dot3 t hd
    refine (this.congr_deriv ?_).congr_of_eventuallyEq ?_
    · unfold dot3; ring
    · exact Filter.Eventually.of_forall fun s => by unfold dot3; ring
  have hsin : dot3 (cross3 e x) t = θ * norm3 (cross3 x t) := by
    have : dot3 (cross3 e x) t = θ * dot3 z (cross3 x t) := by
      simp only [dot3, cross3, e, Matrix.cons_val_zero, Matrix.cons_val_one, Matrix.cons_val]; ring
    rw [this]
    congr 1
    have hzc : ∀ i, cross3 x t i = z i * norm3 (cross3 x t) := by
      intro i; rw [hzd]; field_simp
    unfold dot3
    rw [hzc 0, hzc 1, hzc 2]
    linear_combination norm3 (cross3 x t) * hz1
  have hac := (Real.hasDerivAt_arccos hdot.1.ne' hdot.2.ne).comp_of_eq (0 : ℝ) hd2 rfl
  refine hac.congr_deriv ?_
  rw [hsin, ← hlag, Real.sqrt_mul_self hnpos.le]
  field_simp

/-- **C115** refuted: whenever the axis is aligned with (or opposite to) the target, the equations of the task are not
finite, because a singular matrix is inverted. -/
theorem C115_refuted (N : Nat) (axis_frame targetAxis_world : V3) (R : M3) (J : J3)
    (h : cross3 (R.mulVec axis_frame) targetAxis_world = 0) :
    axisAlignTask N axis_frame targetAxis_world R J = none := by
  have key : cross3 (normalize3 (R.mulVec axis_frame)) (normalize3 targetAxis_world) = 0 := by
    have hs : ∀ v : V3, ∃ k : ℝ, ∀ i, normalize3 v i = k * v i := by
      intro v
      by_cases hv : v = 0
      · exact ⟨1, fun i => by rw [hv, normalize3_zero]; simp⟩
      · exact ⟨1 / norm3 v, fun i => by rw [(normalize3_unit v hv).2]; ring⟩
    obtain ⟨k, hk⟩ := hs (R.mulVec axis_frame)
    obtain ⟨l, hl⟩ := hs targetAxis_world
    have c0 := congrFun h 0; have c1 := congrFun h 1; have c2 := congrFun h 2
    simp only [cross3, Matrix.cons_val_zero, Matrix.cons_val_one, Matrix.cons_val, Pi.zero_apply] at c0 c1 c2
    generalize R.mulVec axis_frame = u at *
    funext i
    fin_cases i <;> simp only [cross3, Fin.zero_eta, Fin.mk_one, Fin.reduceFinMk, Matrix.cons_val_zero, Matrix.cons_val_one, Matrix.cons_val, Pi.zero_apply, hk, hl]
    · linear_combination k * l * c0
    · linear_combination k * l * c1
    · linear_combination k * l * c2
  unfold axisAlignTask axisFrame
  simp only
  rw [key, normalize3_zero, if_pos]
  rw [Matrix.det_fin_three]
  simp [ofColumns, cross3]

/-- Non-vacuity: a robot at rest with its z axis on the target z. -/
example : axisAlignTask 1 ![0, 0, 1] ![0, 0, 2] 1 (fun _ _ => 1) = none :=
  C115_refuted _ _ _ _ _ (by funext i; fin_cases i <;> simp [cross3])

/-- Non-vacuity of C115_partial: the slider, its x axis and the target y. -/
example : ∃ M e, axisAlignTask 1 ![1, 0, 0] ![0, 1, 0] (slider 0).linear (fun i _ => ![0, 0, 2] i) = some M ∧
    (exp3 e).mulVec (normalize3 ((slider 0).linear.mulVec ![1, 0, 0])) = normalize3 ![0, 1, 0] := by
  obtain ⟨M, e, h1, h2, _⟩ := C115_partial 1 ![1, 0, 0] ![0, 1, 0] (fun _ => 1) _ _ slider slider_moves
    (by intro h; have := congrFun h 0; simp at this) (by intro h; have := congrFun h 1; simp at this)
    (by
      intro h
      have := congrFun h 2
      simp [cross3, slider, rotZ, Matrix.mulVec, dotProduct, Fin.sum_univ_three] at this)
  exact ⟨M, e, h1, h2⟩

/-! ## C117 -/

/-- **C117.** Without a time step the centroidal momentum task raises; otherwise it is met exactly when, on every selected
axis, the angular momentum `Ag (dq / dt)` is the one asked for. -/
theorem C117 (N : Nat) (dt : ℝ) (mask : Mask ℝ) (L_world : V3) (Ag : J3) :
    (dt = 0 → centroidalTask N dt mask L_world Ag = .error .runtimeError) ∧
    (dt ≠ 0 → ∃ M, centroidalTask N dt mask L_world Ag = .ok M ∧ ∀ dq : Nat → ℝ, M.Met dq ↔ ∀ a ∈ mask.indices,
      dot3 (maskAxis mask (fun i j => mask.rLocalWorld j i) a) (fun i => ∑ j ∈ range N, Ag i j * (dq j / dt)) =
        dot3 (maskAxis mask (fun i j => mask.rLocalWorld j i) a) L_world) := by
  refine ⟨fun h => by unfold centroidalTask; rw [if_pos h], fun h => ⟨_, by unfold centroidalTask; rw [if_neg h], fun dq => ?_⟩⟩
  have e1 : ({ maskedTask N mask Ag L_world with A := fun i j => (maskedTask N mask Ag L_world).A i j / dt } : TaskMat ℝ).Met dq ↔
      (maskedTask N mask Ag L_world).Met (fun j => dq j / dt) := by
    unfold TaskMat.Met TaskMat.app
    refine forall_congr' fun i => forall_congr' fun _ => ?_
    simp only
    rw [show (maskedTask N mask Ag L_world).cols = N from rfl]
    have : ∑ j ∈ range N, (maskedTask N mask Ag L_world).A i j / dt * dq j =
        ∑ j ∈ range N, (maskedTask N mask Ag L_world).A i j * (dq j / dt) :=
      sum_congr rfl fun j _ => by ring
    rw [this]
  refine e1.trans ?_
  rw [maskedTask_met]
  refine forall_congr' fun a => forall_congr' fun _ => ?_
  rw [maskFrame_axis', maskFrame_axis']

/-- Non-vacuity. -/
example : ∃ M, centroidalTask 1 (1 / 2) Mask.init ![0, 0, 4] (fun i _ => ![0, 0, 1] i) = .ok M ∧ M.Met (fun _ => 2) ∧
    ¬ M.Met (fun _ => 4) := by
  obtain ⟨M, h1, h2⟩ := (C117 1 (1 / 2) Mask.init ![0, 0, 4] (fun i _ => ![0, 0, 1] i)).2 (by norm_num)
  refine ⟨M, h1, (h2 _).2 ?_, fun h => ?_⟩
  · intro a _
    fin_cases a <;> simp [dot3, maskAxis, Mask.init] <;> norm_num
  · have := (h2 _).1 h 2 (by simp [Mask.init])
    simp [dot3, maskAxis, Mask.init] at this

/-! ## C118 -/

/-- **C118.** Without a time step the kinetic energy regularization raises; otherwise the squared residual of the task is
the kinetic energy of the velocity `dq / dt`, for the mass matrix `Mass` whose (symmetric) square root is used. -/
theorem C118 (N : Nat) (dt : ℝ) (sqrtM Mass : Nat → Nat → ℝ) (hsym : ∀ i j, sqrtM i j = sqrtM j i)
    (hsq : ∀ i < N, ∀ j < N, ∑ k ∈ range N, sqrtM i k * sqrtM k j = Mass i j) :
    (dt = 0 → kineticTask N dt sqrtM = .error .runtimeError) ∧
    (dt ≠ 0 → ∃ M, kineticTask N dt sqrtM = .ok M ∧ M.cols = N ∧ ∀ dq : Nat → ℝ,
      ∑ i ∈ range M.rows, (M.app dq i - M.b i) ^ 2 =
        1 / 2 * ∑ i ∈ range N, ∑ j ∈ range N, dq i / dt * Mass i j * (dq j / dt)) := by
  refine ⟨fun h => by unfold kineticTask; rw [if_pos h], fun h => ⟨_, by unfold kineticTask; rw [if_neg h], rfl, fun dq => ?_⟩⟩
  unfold TaskMat.app
  simp only [sub_zero]
  have h2 : Real.sqrt 2 * Real.sqrt 2 = 2 := Real.mul_self_sqrt (by norm_num)
  have hs2 : Real.sqrt 2 ≠ 0 := by positivity
  have e1 : ∀ i, (∑ j ∈ range N, sqrtM i j / (Real.sqrt 2 * dt) * dq j) ^ 2 =
      1 / 2 * ∑ k ∈ range N, ∑ j ∈ range N, dq k / dt * (sqrtM k i * sqrtM i j) * (dq j / dt) := by
    intro i
    have : ∑ j ∈ range N, sqrtM i j / (Real.sqrt 2 * dt) * dq j = 1 / Real.sqrt 2 * ∑ j ∈ range N, sqrtM i j * (dq j / dt) := by
      rw [mul_sum]
      exact sum_congr rfl fun j _ => by field_simp
    rw [this, mul_pow, div_pow, one_pow, pow_two (Real.sqrt 2), h2]
    congr 1
    rw [pow_two, sum_mul_sum]
    refine sum_congr rfl fun k _ => sum_congr rfl fun j _ => ?_
    rw [hsym k i]
    ring
  rw [sum_congr rfl fun i _ => e1 i, ← mul_sum]
  congr 1
  rw [sum_comm]
  refine sum_congr rfl fun k hk => ?_
  rw [sum_comm]
  refine sum_congr rfl fun j hj => ?_
  rw [← hsq k (mem_range.1 hk) j (mem_range.1 hj), mul_sum, sum_mul]

/-- Non-vacuity: two masses 4 and 9. -/
example : (∀ i < 2, ∀ j < 2, ∑ k ∈ range 2, (fun i j : Nat => if i = j then (if i = 0 then (2 : ℝ) else 3) else 0) i k *
    (fun i j : Nat => if i = j then (if i = 0 then (2 : ℝ) else 3) else 0) k j =
      (fun i j : Nat => if i = j then (if i = 0 then (4 : ℝ) else 9) else 0) i j) := by
  intro i hi j hj
  have hi : i = 0 ∨ i = 1 := by omega
  have hj : j = 0 ∨ j = 1 := by omega
  rcases hi with rfl | rfl <;> rcases hj with rfl | rfl <;> norm_num [Finset.sum_range_succ]

/-! ## C119 -/

/-- Jacobi's formula. -/
theorem hasDerivAt_det {m : Nat} {M : ℝ → Matrix (Fin m) (Fin m) ℝ} {M' : Matrix (Fin m) (Fin m) ℝ} {t : ℝ}
    (h : ∀ i j, HasDerivAt (fun s => M s i j) (M' i j) t) :
    HasDerivAt (fun s => (M s).det) ((M t).adjugate * M').trace t := by
  have h1 : ∀ σ : Equiv.Perm (Fin m), HasDerivAt (fun s => ((Equiv.Perm.sign σ : ℤ) : ℝ) * ∏ i, M s (σ i) i)
      (((Equiv.Perm.sign σ : ℤ) : ℝ) * ∑ i, (∏ j ∈ univ.erase i, M t (σ j) j) • M' (σ i) i) t := by
    intro σ
    have := HasDerivAt.fun_finset_prod (u := univ) (f := fun i s => M s (σ i) i) (f' := fun i => M' (σ i) i) (x := t)
      fun i _ => h (σ i) i
    exact this.const_mul _
  have h2 := HasDerivAt.fun_sum (u := univ) fun σ _ => h1 σ
  have h3 : (fun s => (M s).det) = fun s => ∑ σ : Equiv.Perm (Fin m), ((Equiv.Perm.sign σ : ℤ) : ℝ) * ∏ i, M s (σ i) i := by
    funext s
    rw [Matrix.det_apply']
  rw [h3]
  refine h2.congr_deriv ?_
  have h4 : ((M t).adjugate * M').trace = ∑ i, ((M t).updateCol i (fun r => M' r i)).det := by
    unfold Matrix.trace
    refine sum_congr rfl fun i _ => ?_
    rw [← Matrix.cramer_apply, Matrix.cramer_eq_adjugate_mulVec]
    rfl
  rw [h4]
  simp only [mul_sum]
  rw [sum_comm]
  refine sum_congr rfl fun i _ => ?_
  rw [Matrix.det_apply']
  refine sum_congr rfl fun σ _ => ?_
  have h5 : ∏ j, (M t).updateCol i (fun r => M' r i) (σ j) j = (∏ j ∈ univ.erase i, M t (σ j) j) * M' (σ i) i := by
    rw [← Finset.prod_erase_mul _ _ (mem_univ i)]
    congr 1
    · refine prod_congr rfl fun j hj => ?_
      rw [Matrix.updateCol_ne (ne_of_mem_erase hj)]
    · rw [Matrix.updateCol_self]
  rw [h5, smul_eq_mul]

theorem det_gram_nonneg {m n : Nat} (J : Matrix (Fin m) (Fin n) ℝ) : 0 ≤ (J * J.transpose).det := by
  have := (Matrix.posSemidef_self_mul_conjTranspose J).det_nonneg
  simpa [Matrix.conjTranspose_eq_transpose_of_trivial] using this

/-- Specification: Yoshikawa's measure of the chosen rows of a Jacobian. -/
noncomputable def measure {m n : Nat} (J : Matrix (Fin m) (Fin n) ℝ) : ℝ := Real.sqrt (J * J.transpose).det

/-- The derivative of the measure when the Jacobian moves. -/
theorem measure_deriv {m n : Nat} {J : ℝ → Matrix (Fin m) (Fin n) ℝ} {J' : Matrix (Fin m) (Fin n) ℝ}
    (h : ∀ i j, HasDerivAt (fun s => J s i j) (J' i j) 0) (hdet : (J 0 * (J 0).transpose).det ≠ 0) :
    HasDerivAt (fun s => measure (J s)) (manipulabilityGradient (J 0) J') 0 := by
  have hpos : 0 < (J 0 * (J 0).transpose).det := lt_of_le_of_ne (det_gram_nonneg _) (Ne.symm hdet)
  have hG : ∀ i j, HasDerivAt (fun s => (J s * (J s).transpose) i j)
      ((J' * (J 0).transpose + J 0 * J'.transpose) i j) 0 := by
    intro i j
    have h1 := HasDerivAt.fun_sum (u := univ) fun k _ => (h i k).fun_mul (h j k)
    have hfun : (fun s => (J s * (J s).transpose) i j) = fun s => ∑ k, J s i k * J s j k := by
      funext s; simp [Matrix.mul_apply]
    rw [hfun]
    refine h1.congr_deriv ?_
    simp only [Matrix.add_apply, Matrix.mul_apply, Matrix.transpose_apply, sum_add_distrib]
  have hd := (hasDerivAt_det hG).sqrt hdet
  refine hd.congr_deriv ?_
  set G := J 0 * (J 0).transpose with hGdef
  have hsym : G.transpose = G := by rw [hGdef, Matrix.transpose_mul, Matrix.transpose_transpose]
  have hadj : G.adjugate = G.det • G⁻¹ := by
    rw [Matrix.inv_def, smul_smul, Ring.inverse_eq_inv', mul_inv_cancel₀ hdet, one_smul]
  have hinvsym : (G⁻¹).transpose = G⁻¹ := by rw [Matrix.transpose_nonsing_inv, hsym]
  have htr : (G⁻¹ * (J' * (J 0).transpose)).trace = (G⁻¹ * (J 0 * J'.transpose)).trace := by
    rw [← Matrix.trace_transpose (G⁻¹ * (J' * (J 0).transpose)), Matrix.transpose_mul, Matrix.transpose_mul,
      Matrix.transpose_transpose, hinvsym, Matrix.trace_mul_comm]
  have hsum : (G⁻¹ * (J 0 * J'.transpose)).trace = ∑ i, ∑ j, (J 0 * J'.transpose) i j * G⁻¹ i j := by
    rw [Matrix.trace_mul_comm]
    unfold Matrix.trace
    refine sum_congr rfl fun i _ => ?_
    rw [Matrix.diag_apply, Matrix.mul_apply]
    refine sum_congr rfl fun j _ => ?_
    rw [show G⁻¹ j i = G⁻¹ i j by rw [← Matrix.transpose_apply G⁻¹ i j, hinvsym]]
  unfold manipulabilityGradient manipulability
  rw [← hGdef, hadj, Matrix.smul_mul, Matrix.trace_smul, mul_add, Matrix.trace_add, htr, hsum, max_eq_right hpos.le, smul_eq_mul]
  have hs : Real.sqrt G.det * Real.sqrt G.det = G.det := Real.mul_self_sqrt hpos.le
  have hs0 : Real.sqrt G.det ≠ 0 := (Real.sqrt_pos.2 hpos).ne'
  generalize ∑ i, ∑ j, (J 0 * J'.transpose) i j * G⁻¹ i j = S
  rw [div_eq_iff (by positivity)]
  linear_combination (-2 * S) * hs

theorem gradient_linear {m n : Nat} (J : Matrix (Fin m) (Fin n) ℝ) (H : Nat → Matrix (Fin m) (Fin n) ℝ) (x : Nat → ℝ) (k : Nat) :
    manipulabilityGradient J (fun i j => ∑ l ∈ range k, H l i j * x l) = ∑ l ∈ range k, manipulabilityGradient J (H l) * x l := by
  have hstep : ∀ (A B : Matrix (Fin m) (Fin n) ℝ) (c : ℝ), manipulabilityGradient J (fun i j => A i j + B i j * c) =
      manipulabilityGradient J A + manipulabilityGradient J B * c := by
    intro A B c
    have : (fun i j => A i j + B i j * c : Matrix (Fin m) (Fin n) ℝ) = A + c • B := by
      funext i j
      simp [mul_comm]
    unfold manipulabilityGradient
    rw [this, Matrix.transpose_add, Matrix.transpose_smul, Matrix.mul_add, Matrix.mul_smul]
    simp only [Matrix.add_apply, Matrix.smul_apply, smul_eq_mul, add_mul, sum_add_distrib, mul_add]
    congr 1
    simp only [mul_sum, sum_mul]
    exact sum_congr rfl fun i _ => sum_congr rfl fun j _ => by ring
  induction k with
  | zero =>
    simp only [range_zero, sum_empty]
    unfold manipulabilityGradient
    have h0 : ∀ i j, (J * Matrix.transpose (fun _ _ => 0 : Matrix (Fin m) (Fin n) ℝ)) i j = 0 := by
      intro i j
      rw [Matrix.mul_apply]
      exact sum_eq_zero fun k _ => mul_zero _
    simp [h0]
  | succ k ih =>
    simp only [sum_range_succ]
    rw [hstep (fun i j => ∑ l ∈ range k, H l i j * x l) (H k) (x k), ih]

/-- **C119**, the Jacobian: what each type measures. When the base does not move, the Jacobian kept sends the velocities of the joints
to the linear velocity of the frame (rows 0 to 2), to its angular velocity (rows 3 to 5), or to both. -/
theorem C119_rows (N : Nat) (h6 : 6 ≤ N) (J : Nat → Nat → ℝ) (qd : Nat → ℝ) (h0 : ∀ k, k < 6 → qd k = 0) :
    (∀ i : Fin 3, ∑ j, ManipType.position.maskMatrix N J i j * qd (6 + j) = ∑ k ∈ range N, J i k * qd k) ∧
    (∀ i : Fin 3, ∑ j, ManipType.orientation.maskMatrix N J i j * qd (6 + j) = ∑ k ∈ range N, J (3 + i) k * qd k) ∧
    (∀ i : Fin 6, ∑ j, ManipType.both.maskMatrix N J i j * qd (6 + j) = ∑ k ∈ range N, J i k * qd k) := by
  have key : ∀ r : Nat, ∑ j : Fin (N - 6), J r (6 + j) * qd (6 + j) = ∑ k ∈ range N, J r k * qd k := by
    intro r
    rw [Fin.sum_univ_eq_sum_range (fun j => J r (6 + j) * qd (6 + j)), ← Nat.add_sub_cancel' h6, sum_range_add]
    rw [sum_eq_zero (s := range 6) fun k hk => by rw [h0 k (mem_range.1 hk), mul_zero], zero_add, Nat.add_sub_cancel_left]
  refine ⟨fun i => ?_, fun i => ?_, fun i => ?_⟩
  · rw [← key i]
    exact sum_congr rfl fun j _ => by simp only [ManipType.maskMatrix, ManipType.first, Nat.zero_add]
  · rw [← key (3 + i)]
    exact sum_congr rfl fun j _ => rfl
  · rw [← key i]
    exact sum_congr rfl fun j _ => by simp only [ManipType.maskMatrix, ManipType.first, Nat.zero_add]

/-- **C119.** With a regular Jacobian and `lambda ≠ 0`: along every step, the measure of manipulability has a derivative
`d`, and the squared residual of the task is, up to a constant, `lambda² |dq|²` minus `d` (plus `d` when minimizing), base
excluded. The motion of the Jacobian along the step is given by the Hessians (`Jm`). -/
theorem C119 (N : Nat) (h6 : 6 ≤ N) (type : ManipType) (lambda : ℝ) (minimize : Bool) (J : Nat → Nat → ℝ)
    (H : Nat → Nat → Nat → ℝ) (hlam : lambda ≠ 0)
    (hdet : (type.maskMatrix N J * (type.maskMatrix N J).transpose).det ≠ 0) :
    ∃ M c, manipulabilityTask N type lambda minimize J H = some M ∧ M.cols = N ∧
      ∀ (dq : Nat → ℝ) (Jm : ℝ → Nat → Nat → ℝ), Jm 0 = J →
        (∀ i j, HasDerivAt (fun s => Jm s i j) (∑ k ∈ range (N - 6), H (k + 6) i j * dq (k + 6)) 0) →
        ∃ d, HasDerivAt (fun s => measure (type.maskMatrix N (Jm s))) d 0 ∧
          ∑ i ∈ range M.rows, (M.app dq i - M.b i) ^ 2 =
            lambda ^ 2 * ∑ k ∈ range (N - 6), dq (k + 6) ^ 2 - (if minimize then -1 else 1) * d + c := by
  have hneg : ¬ ((type.maskMatrix N J * (type.maskMatrix N J).transpose).det = 0 ∨ lambda = 0) := by
    rintro (h | h)
    · exact hdet h
    · exact hlam h
  let g : Nat → ℝ := fun k => manipulabilityGradient (type.maskMatrix N J) (type.maskMatrix N (H (k + 6)))
  refine ⟨_, ∑ k ∈ range (N - 6), (1 / (2 * lambda) * g k) ^ 2,
    by unfold manipulabilityTask; simp only; rw [if_neg hneg], rfl, fun dq Jm h0 hJ => ?_⟩
  subst h0
  refine ⟨_, measure_deriv (J := fun s => type.maskMatrix N (Jm s))
    (J' := type.maskMatrix N (fun i j => ∑ k ∈ range (N - 6), H (k + 6) i j * dq (k + 6))) (fun i j => hJ _ _) hdet, ?_⟩
  have hlin : manipulabilityGradient (type.maskMatrix N (Jm 0))
      (type.maskMatrix N (fun i j => ∑ k ∈ range (N - 6), H (k + 6) i j * dq (k + 6))) = ∑ k ∈ range (N - 6), g k * dq (k + 6) :=
    gradient_linear (type.maskMatrix N (Jm 0)) (fun k => type.maskMatrix N (H (k + 6))) (fun k => dq (k + 6)) (N - 6)
  rw [hlin]
  have happ : ∀ i < N - 6, ∑ j ∈ range N, (if i + 6 = j then (1 : ℝ) else 0) * lambda * dq j = lambda * dq (i + 6) := by
    intro i hi
    rw [sum_eq_single (i + 6)]
    · simp
    · intro j _ hj
      rw [if_neg (Ne.symm hj)]; ring
    · intro h
      exact absurd (mem_range.2 (by omega)) h
  unfold TaskMat.app
  simp only
  rw [mul_sum, mul_sum, ← sum_sub_distrib, ← sum_add_distrib]
  refine sum_congr rfl fun i hi => ?_
  rw [happ i (mem_range.1 hi)]
  cases minimize
  · simp only [Bool.false_eq_true, if_false]
    change (lambda * dq (i + 6) - 1 / (2 * lambda) * g i) ^ 2 = _
    field_simp
    ring
  · simp only [if_true]
    change (lambda * dq (i + 6) - -(1 / (2 * lambda) * g i)) ^ 2 = _
    field_simp
    ring

/-- Non-vacuity: three prismatic joints. -/
example : (ManipType.position.maskMatrix 9 (fun i j => if j = i + 6 then 2 else 0) *
    (ManipType.position.maskMatrix 9 (fun i j => if j = i + 6 then 2 else 0)).transpose).det ≠ 0 := by
  have h : ManipType.position.maskMatrix 9 (fun i j => if j = i + 6 then (2 : ℝ) else 0) =
      (!![2, 0, 0; 0, 2, 0; 0, 0, 2] : Matrix (Fin 3) (Fin 3) ℝ) := by
    funext i j
    change Fin 3 at i
    change Fin 3 at j
    fin_cases i <;> fin_cases j <;> simp [ManipType.maskMatrix, ManipType.first]
  rw [h]
  change ((!![2, 0, 0; 0, 2, 0; 0, 0, 2] : Matrix (Fin 3) (Fin 3) ℝ) * (!![2, 0, 0; 0, 2, 0; 0, 0, 2] : Matrix (Fin 3) (Fin 3) ℝ).transpose).det ≠ 0
  rw [Matrix.det_mul, Matrix.det_transpose, Matrix.det_fin_three]
  simp

end Verif.Kinematics
