/-
Property C116: the wheel task.
-/
import Mathlib.Analysis.Calculus.LocalExtr.Basic
import Verif.Kinematics.FrameTasksProps2

namespace Verif.Kinematics
open Finset Verif.Problem Verif.Tools Verif.Robot Verif.Dynamics

/-! ## Specification -/

/-- The point of coordinates `x` in a frame. -/
noncomputable def place (T : Affine) (x : V3) : V3 := T.linear.mulVec x + T.translation

/-- The axis of a wheel (its z axis). -/
def wheelAxis (S : Affine) : V3 := fun i => S.linear i 2

/-- A point of the rim of a wheel. -/
def OnRim (S : Affine) (radius : ℝ) (k : V3) : Prop :=
  ∃ d, dot3 d d = 1 ∧ dot3 d (wheelAxis S) = 0 ∧ k = fun i => S.translation i + radius * d i

/-! ## Geometry -/

theorem down_vec (S : Affine) (h : S.linear 2 0 ≠ 0 ∨ S.linear 2 1 ≠ 0) :
    0 < Real.sqrt (S.linear 2 0 ^ 2 + S.linear 2 1 ^ 2) ∧
    ∀ i, downAxis S i = (-(S.linear i 0 * S.linear 2 0) - S.linear i 1 * S.linear 2 1) /
      Real.sqrt (S.linear 2 0 ^ 2 + S.linear 2 1 ^ 2) := by
  have hpos : 0 < S.linear 2 0 ^ 2 + S.linear 2 1 ^ 2 := by
    rcases h with h | h
    · have := pow_pos (abs_pos.2 h) 2; rw [sq_abs] at this; nlinarith [sq_nonneg (S.linear 2 1)]
    · have := pow_pos (abs_pos.2 h) 2; rw [sq_abs] at this; nlinarith [sq_nonneg (S.linear 2 0)]
  have hn : norm3 ![-S.linear 2 0, -S.linear 2 1, 0] = Real.sqrt (S.linear 2 0 ^ 2 + S.linear 2 1 ^ 2) := by
    unfold norm3
    congr 1
    simp
    ring
  refine ⟨Real.sqrt_pos.2 hpos, fun i => ?_⟩
  unfold downAxis normalize3
  rw [hn, if_pos (Real.sqrt_pos.2 hpos)]
  simp only [Matrix.mulVec, dotProduct, Fin.sum_univ_three, Matrix.cons_val_zero, Matrix.cons_val_one, Matrix.cons_val]
  ring

/-- The point used by the task is on the rim, and no point of the rim is lower. -/
theorem contact_lowest (radius : ℝ) (hr : 0 ≤ radius) (S : Affine) (hS : IsRotation S.linear)
    (h : S.linear 2 0 ≠ 0 ∨ S.linear 2 1 ≠ 0) :
    OnRim S radius (surfaceContact radius S).translation ∧
    (surfaceContact radius S).translation 2 = S.translation 2 - radius * Real.sqrt (S.linear 2 0 ^ 2 + S.linear 2 1 ^ 2) ∧
    ∀ k, OnRim S radius k → (surfaceContact radius S).translation 2 ≤ k 2 := by
  obtain ⟨hpos, hd⟩ := down_vec S h
  have e := rotEqs _ hS
  have hsq := Real.mul_self_sqrt (show 0 ≤ S.linear 2 0 ^ 2 + S.linear 2 1 ^ 2 by positivity)
  set ρ := Real.sqrt (S.linear 2 0 ^ 2 + S.linear 2 1 ^ 2) with hρ
  have hd2 : downAxis S 2 = -ρ := by
    rw [hd]
    field_simp
    linear_combination hsq
  refine ⟨⟨downAxis S, ?_, ?_, rfl⟩, ?_, ?_⟩
  · unfold dot3
    simp only [hd]
    field_simp
    linear_combination S.linear 2 0 ^ 2 * e.k0 + S.linear 2 1 ^ 2 * e.k1 + 2 * S.linear 2 0 * S.linear 2 1 * e.p01 - hsq
  · unfold dot3 wheelAxis
    simp only [hd]
    field_simp
    linear_combination -(S.linear 2 0) * e.p02 - S.linear 2 1 * e.p12
  · simp only [surfaceContact]
    rw [hd2]; ring
  · rintro k ⟨u, hu, hua, rfl⟩
    simp only [surfaceContact]
    rw [hd2]
    have key : -ρ ≤ u 2 := by
      -- coordinates of `u` in the wheel
      let v0 := S.linear 0 0 * u 0 + S.linear 1 0 * u 1 + S.linear 2 0 * u 2
      let v1 := S.linear 0 1 * u 0 + S.linear 1 1 * u 1 + S.linear 2 1 * u 2
      have hv2 : S.linear 0 2 * u 0 + S.linear 1 2 * u 1 + S.linear 2 2 * u 2 = 0 := by
        unfold dot3 wheelAxis at hua; linarith
      have hu' : u 0 * u 0 + u 1 * u 1 + u 2 * u 2 = 1 := hu
      have hu2 : u 2 = S.linear 2 0 * v0 + S.linear 2 1 * v1 := by
        simp only [v0, v1]
        linear_combination -(u 0 * e.o02) - u 1 * e.o12 - u 2 * e.r2 + S.linear 2 2 * hv2
      have hvn : v0 ^ 2 + v1 ^ 2 = 1 := by
        simp only [v0, v1]
        have hvv : (S.linear 0 2 * u 0 + S.linear 1 2 * u 1 + S.linear 2 2 * u 2) ^ 2 = 0 := by rw [hv2]; ring
        linear_combination u 0 ^ 2 * e.r0 + u 1 ^ 2 * e.r1 + u 2 ^ 2 * e.r2 + 2 * u 0 * u 1 * e.o01 + 2 * u 0 * u 2 * e.o02 +
          2 * u 1 * u 2 * e.o12 + hu' - hvv
      have hcs : u 2 ^ 2 ≤ ρ ^ 2 := by
        have : ρ ^ 2 = S.linear 2 0 ^ 2 + S.linear 2 1 ^ 2 := by rw [pow_two]; exact hsq
        rw [this, hu2]
        nlinarith [sq_nonneg (S.linear 2 0 * v1 - S.linear 2 1 * v0)]
      exact (abs_le.1 (abs_le_of_sq_le_sq hcs hpos.le)).1
    nlinarith

/-- The axes of the contact: `x` is horizontal and orthogonal to the axis of the wheel, `y` is lateral and `z` vertical. -/
theorem contact_axes (radius : ℝ) (S : Affine) (hS : IsRotation S.linear) (h : S.linear 2 0 ≠ 0 ∨ S.linear 2 1 ≠ 0) :
    ∃ x : V3, dot3 x x = 1 ∧ x 2 = 0 ∧ dot3 x (wheelAxis S) = 0 ∧
      (surfaceContact radius S).linear = ofColumns x ![-x 1, x 0, 0] ![0, 0, 1] ∧
      IsRotation (surfaceContact radius S).linear := by
  have e := rotEqs _ hS
  let c := cross3 (wheelAxis S) ![0, 0, 1]
  have hc : c = ![S.linear 1 2, -S.linear 0 2, 0] := by
    funext i; fin_cases i <;> simp [c, cross3, wheelAxis]
  have hc0 : c ≠ 0 := by
    intro h0
    rw [hc] at h0
    have h1 : S.linear 1 2 = 0 := congrFun h0 0
    have h2 : S.linear 0 2 = 0 := by have := congrFun h0 1; simpa using this
    have h3 : S.linear 2 2 ^ 2 = 1 := by have := e.k2; rw [h1, h2] at this; simpa using this
    have h4 : S.linear 2 0 ^ 2 + S.linear 2 1 ^ 2 = 0 := by linarith [e.r2]
    have h5 : S.linear 2 0 = 0 := by nlinarith [sq_nonneg (S.linear 2 0), sq_nonneg (S.linear 2 1)]
    have h6 : S.linear 2 1 = 0 := by nlinarith [sq_nonneg (S.linear 2 0), sq_nonneg (S.linear 2 1)]
    rcases h with h | h
    · exact h h5
    · exact h h6
  obtain ⟨hu, hn⟩ := normalize3_unit c hc0
  have hx2 : normalize3 c 2 = 0 := by rw [hn, hc]; simp
  have hx0 : normalize3 c 0 = S.linear 1 2 / norm3 c := by rw [hn, hc]; simp
  have hx1 : normalize3 c 1 = -S.linear 0 2 / norm3 c := by rw [hn, hc]; simp
  have hy : cross3 ![0, 0, 1] (normalize3 c) = ![-normalize3 c 1, normalize3 c 0, 0] := by
    funext i; fin_cases i <;> simp [cross3]
  have hlin : (surfaceContact radius S).linear = ofColumns (normalize3 c) ![-normalize3 c 1, normalize3 c 0, 0] ![0, 0, 1] := by
    simp only [surfaceContact]
    rw [show (fun i => S.linear i 2) = wheelAxis S from rfl, hy]
  refine ⟨normalize3 c, hu, hx2, ?_, hlin, ?_⟩
  · unfold dot3 wheelAxis
    rw [hx2, hx0, hx1]
    ring
  · rw [hlin, ← hy]
    exact ofColumns_rotation _ _ hu (by simp [dot3]) (by simp [dot3, hx2])

/-! ## Motion -/

/-- The motion of a point fixed to the wheel, seen from the surface. -/
theorem material_deriv (N : Nat) (dq : Nat → ℝ) (JLin JAng : J3) (Ts : Affine) (hs : IsRotation Ts.linear) (Tw : ℝ → Affine)
    (h : Moves N dq JLin JAng Tw) (m : V3) :
    HasDerivAt (fun s => place (Ts.inv.mul (Tw s)) m)
      (Ts.linear.transpose.mulVec (cross3 (app N JAng dq) ((Tw 0).linear.mulVec m) + app N JLin dq)) 0 := by
  have hfun : (fun s => place (Ts.inv.mul (Tw s)) m) =
      fun s => Ts.linear.transpose.mulVec ((Tw s).linear.mulVec m + (Tw s).translation) - Ts.linear.transpose.mulVec Ts.translation := by
    funext s
    simp only [place, Affine.inv, Affine.mul]
    rw [isRotation_inv hs, Matrix.mulVec_add, Matrix.mulVec_mulVec]
    abel
  rw [hfun]
  have hrow : HasDerivAt (fun s => (Tw s).linear.mulVec m + (Tw s).translation)
      (cross3 (app N JAng dq) ((Tw 0).linear.mulVec m) + app N JLin dq) 0 := by
    refine HasDerivAt.add (hasDerivAt_pi.2 fun i => ?_) h.lin
    have hd := (((h.ang i 0).mul_const (m 0)).fun_add ((h.ang i 1).mul_const (m 1))).fun_add ((h.ang i 2).mul_const (m 2))
    have hfun2 : (fun s => (Tw s).linear.mulVec m i) = fun s => (Tw s).linear i 0 * m 0 + (Tw s).linear i 1 * m 1 +
        (Tw s).linear i 2 * m 2 := by
      funext s; simp [Matrix.mulVec, dotProduct, Fin.sum_univ_three]
    rw [hfun2]
    refine hd.congr_deriv ?_
    fin_cases i <;> simp [cross3, Matrix.mulVec, dotProduct, Fin.sum_univ_three] <;> ring
  have hpi := hasDerivAt_pi.1 hrow
  refine hasDerivAt_pi.2 fun i => ?_
  have hd := ((((hpi 0).const_mul (Ts.linear 0 i)).fun_add ((hpi 1).const_mul (Ts.linear 1 i))).fun_add
    ((hpi 2).const_mul (Ts.linear 2 i))).sub_const (Ts.linear.transpose.mulVec Ts.translation i)
  generalize (cross3 (app N JAng dq) ((Tw 0).linear.mulVec m) + app N JLin dq) = w at *
  have hfun3 : (fun s => (Ts.linear.transpose.mulVec ((Tw s).linear.mulVec m + (Tw s).translation) -
      Ts.linear.transpose.mulVec Ts.translation) i) = fun s => Ts.linear 0 i * ((Tw s).linear.mulVec m + (Tw s).translation) 0 +
        Ts.linear 1 i * ((Tw s).linear.mulVec m + (Tw s).translation) 1 +
        Ts.linear 2 i * ((Tw s).linear.mulVec m + (Tw s).translation) 2 - Ts.linear.transpose.mulVec Ts.translation i := by
    funext s
    generalize (Tw s).linear.mulVec m + (Tw s).translation = v
    rw [Pi.sub_apply]
    congr 1
    simp [Matrix.mulVec, dotProduct, Fin.sum_univ_three]
  rw [hfun3]
  refine hd.congr_deriv ?_
  simp [Matrix.mulVec, dotProduct, Fin.sum_univ_three]

theorem app_actionTop (N : Nat) (T : Affine) (JLin JAng : J3) (x : Nat → ℝ) :
    app N (actionTop T JLin JAng) x =
      T.linear.mulVec (app N JLin x) + cross3 T.translation (T.linear.mulVec (app N JAng x)) := by
  unfold actionTop
  rw [app_plus N (fun i j => T.linear.mulVec (fun r => JLin r j) i)
    (fun i j => cross3 T.translation (T.linear.mulVec fun r => JAng r j) i), app_mulVec,
    app_cross N T.translation (fun r j => T.linear.mulVec (fun r => JAng r j) r), app_mulVec]

theorem cross_neg_swap (a b : V3) : cross3 (-a) b = cross3 b a := by
  funext i; fin_cases i <;> simp [cross3] <;> ring

/-- **C116.** When the axis of the wheel is not normal to the surface: the task is about the lowest point of the rim, and
it is met exactly when the point of the wheel that is there does not slip (forward, and sideways except for an omniwheel)
and has the vertical velocity that cancels its height over the surface in a unit of time; the lowest point itself then
moves down (or up) at that rate. `JLin` and `JAng` are local Jacobians: the world ones are their images by the rotation of
the wheel. -/
theorem C116_partial (N : Nat) (radius : ℝ) (hr : 0 ≤ radius) (omniwheel : Bool) (Ts : Affine) (hs : IsRotation Ts.linear)
    (dq : Nat → ℝ) (JLin JAng : J3) (Tw : ℝ → Affine)
    (h : Moves N dq (fun i j => (Tw 0).linear.mulVec (fun r => JLin r j) i)
      (fun i j => (Tw 0).linear.mulVec (fun r => JAng r j) i) Tw)
    (hne : wheelAxis (Ts.inv.mul (Tw 0)) 0 ≠ 0 ∨ wheelAxis (Ts.inv.mul (Tw 0)) 1 ≠ 0) :
    ∃ M k m forward, wheelTask N radius omniwheel Ts (Tw 0) JLin JAng = some M ∧
      -- the lowest point of the rim
      OnRim (Ts.inv.mul (Tw 0)) radius k ∧ (∀ k', OnRim (Ts.inv.mul (Tw 0)) radius k' → k 2 ≤ k' 2) ∧
      -- the point of the wheel that is there
      place (Ts.inv.mul (Tw 0)) m = k ∧
      -- the rolling direction
      dot3 forward forward = 1 ∧ forward 2 = 0 ∧ dot3 forward (wheelAxis (Ts.inv.mul (Tw 0))) = 0 ∧
      (M.Met dq ↔
        HasDerivAt (fun s => dot3 forward (place (Ts.inv.mul (Tw s)) m)) 0 0 ∧
        (omniwheel = false → HasDerivAt (fun s => dot3 ![-forward 1, forward 0, 0] (place (Ts.inv.mul (Tw s)) m)) 0 0) ∧
        HasDerivAt (fun s => place (Ts.inv.mul (Tw s)) m 2) (-k 2) 0) ∧
      (M.Met dq → HasDerivAt (fun s => (surfaceContact radius (Ts.inv.mul (Tw s))).translation 2) (-k 2) 0) := by
  set S := Ts.inv.mul (Tw 0) with hSdef
  have hinv := isRotation_inv hs
  have hrotS : ∀ s, IsRotation (Ts.inv.mul (Tw s)).linear := by
    intro s
    simp only [Affine.inv, Affine.mul]
    rw [hinv]
    exact isRotation_mul (isRotation_transpose hs) (h.rot s)
  have hSrot : IsRotation S.linear := hrotS 0
  have e := rotEqs _ hSrot
  have hne' : S.linear 2 0 ≠ 0 ∨ S.linear 2 1 ≠ 0 := by
    by_contra hcon
    push Not at hcon
    have h22 : S.linear 2 2 ^ 2 = 1 := by have := e.r2; rw [hcon.1, hcon.2] at this; simpa using this
    have hz : S.linear 0 2 ^ 2 + S.linear 1 2 ^ 2 = 0 := by linarith [e.k2]
    have h0 : S.linear 0 2 = 0 := by nlinarith [sq_nonneg (S.linear 0 2), sq_nonneg (S.linear 1 2)]
    have h1 : S.linear 1 2 = 0 := by nlinarith [sq_nonneg (S.linear 0 2), sq_nonneg (S.linear 1 2)]
    rcases hne with hh | hh
    · exact hh h0
    · exact hh h1
  obtain ⟨hrim, hk2, hlow⟩ := contact_lowest radius hr S hSrot hne'
  obtain ⟨x, hx1, hx2, hxa, hlin, hcrot⟩ := contact_axes radius S hSrot hne'
  set C := surfaceContact radius S with hCdef
  set k := C.translation with hkdef
  let m := S.linear.transpose.mulVec (k - S.translation)
  have hm : S.linear.mulVec m = k - S.translation := by
    simp only [m]
    rw [Matrix.mulVec_mulVec, mul_eq_one_comm.1 hSrot.1, Matrix.one_mulVec]
  have hplace : place S m = k := by
    unfold place
    rw [hm]; abel
  have hSlin : S.linear = Ts.linear.transpose * (Tw 0).linear := by
    simp only [hSdef, Affine.inv, Affine.mul]
    rw [hinv]
  -- the velocity of the point of the wheel
  set v := app N JLin dq with hv
  set ω := app N JAng dq with hω
  set vel := Ts.linear.transpose.mulVec (cross3 ((Tw 0).linear.mulVec ω) ((Tw 0).linear.mulVec m) + (Tw 0).linear.mulVec v) with hvel
  have hder : HasDerivAt (fun s => place (Ts.inv.mul (Tw s)) m) vel 0 := by
    have := material_deriv N dq _ _ Ts hs Tw h m
    rw [app_mulVec, app_mulVec] at this
    exact this
  -- the rows of the task
  have hA : app N (actionTop (C.inv.mul S) JLin JAng) dq = C.linear.transpose.mulVec vel := by
    rw [app_actionTop, Tab_translation hcrot]
    have hl : (C.inv.mul S).linear = C.linear.transpose * S.linear := by
      simp only [Affine.inv, Affine.mul]
      rw [isRotation_inv hcrot]
    rw [hl, ← Matrix.mulVec_mulVec, ← Matrix.mulVec_mulVec, ← rotation_cross _ hcrot, ← Matrix.mulVec_add]
    congr 1
    rw [hvel, Matrix.mulVec_add, rotation_cross _ hs]
    simp only [Matrix.mulVec_mulVec, ← hSlin]
    rw [hm, show S.translation - C.translation = -(k - S.translation) by rw [← hkdef]; abel, cross_neg_swap, add_comm]
  have hrowx : C.linear.transpose.mulVec vel 0 = dot3 x vel := by
    rw [hlin]; simp [ofColumns, Matrix.mulVec, dotProduct, Fin.sum_univ_three, dot3]
  have hrowy : C.linear.transpose.mulVec vel 1 = dot3 ![-x 1, x 0, 0] vel := by
    rw [hlin]; simp [ofColumns, Matrix.mulVec, dotProduct, Fin.sum_univ_three, dot3]
  have hrowz : C.linear.transpose.mulVec vel 2 = vel 2 := by
    rw [hlin]; simp [ofColumns, Matrix.mulVec, dotProduct, Fin.sum_univ_three]
  have hz : HasDerivAt (fun s => place (Ts.inv.mul (Tw s)) m 2) (vel 2) 0 := (hasDerivAt_pi.1 hder) 2
  have hdet : C.linear.det ≠ 0 := by rw [hcrot.2]; norm_num
  have hAi : ∀ i, ∑ j ∈ range N, actionTop (C.inv.mul S) JLin JAng i j * dq j = C.linear.transpose.mulVec vel i :=
    fun i => congrFun hA i
  have hmain : ∃ M, wheelTask N radius omniwheel Ts (Tw 0) JLin JAng = some M ∧
      (M.Met dq ↔ dot3 x vel = 0 ∧ (omniwheel = false → dot3 ![-x 1, x 0, 0] vel = 0) ∧ vel 2 = -k 2) := by
    unfold wheelTask
    simp only [← hSdef, ← hCdef]
    rw [if_neg hdet]
    cases omniwheel
    · simp only [Bool.false_eq_true, if_false]
      refine ⟨_, rfl, ?_⟩
      unfold TaskMat.Met TaskMat.app
      constructor
      · intro hh
        have h0 := hh 0 (by norm_num)
        have h1 := hh 1 (by norm_num)
        have h2 := hh 2 (by norm_num)
        simp only [if_true, one_ne_zero, if_false, OfNat.ofNat_ne_zero, OfNat.ofNat_ne_one, hAi] at h0 h1 h2
        rw [hrowx] at h0
        rw [hrowy] at h1
        rw [hrowz] at h2
        exact ⟨h0, fun _ => h1, h2⟩
      · rintro ⟨h0, h1, h2⟩ i hi
        have hi : i < 3 := hi
        have : i = 0 ∨ i = 1 ∨ i = 2 := by omega
        rcases this with rfl | rfl | rfl
        · simp only [if_true, hAi]; rw [hrowx, h0]; rfl
        · simp only [if_true, one_ne_zero, if_false, hAi]; rw [hrowy, h1 trivial]; rfl
        · simp only [if_false, OfNat.ofNat_ne_zero, OfNat.ofNat_ne_one, hAi]; rw [hrowz, h2]; rfl
    · simp only [if_true]
      refine ⟨_, rfl, ?_⟩
      unfold TaskMat.Met TaskMat.app
      constructor
      · intro hh
        have h0 := hh 0 (by norm_num)
        have h2 := hh 1 (by norm_num)
        simp only [if_true, one_ne_zero, if_false, hAi] at h0 h2
        rw [hrowx] at h0
        rw [hrowz] at h2
        exact ⟨h0, (fun hc => by cases hc), h2⟩
      · rintro ⟨h0, -, h2⟩ i hi
        have hi : i < 2 := hi
        have : i = 0 ∨ i = 1 := by omega
        rcases this with rfl | rfl
        · simp only [if_true, hAi]; rw [hrowx, h0]; rfl
        · simp only [one_ne_zero, if_false, hAi]; rw [hrowz, h2]; rfl
  obtain ⟨M, hM, hmet⟩ := hmain
  refine ⟨M, k, m, x, hM, hrim, hlow, hplace, hx1, hx2, hxa, ?_, ?_⟩
  · rw [hmet]
    refine and_congr (deriv_iff (hasDerivAt_dot3 _ hder)) (and_congr (forall_congr' fun _ => deriv_iff (hasDerivAt_dot3 _ hder))
      (deriv_iff hz))
  · intro hMet
    have hvz := (hmet.1 hMet).2.2
    rw [hvz] at hz
    -- the height of the lowest point, near the configuration
    have hent : ∀ i j, HasDerivAt (fun s => (Ts.inv.mul (Tw s)).linear i j)
        ((Ts.linear.transpose.mulVec (fun r => cross3 (app N (fun i j => (Tw 0).linear.mulVec (fun r => JAng r j) i) dq)
          (fun k => (Tw 0).linear k j) r)) i) 0 := by
      intro i j
      have hd := (((h.ang 0 j).const_mul (Ts.linear 0 i)).fun_add ((h.ang 1 j).const_mul (Ts.linear 1 i))).fun_add
        ((h.ang 2 j).const_mul (Ts.linear 2 i))
      have hfun : (fun s => (Ts.inv.mul (Tw s)).linear i j) = fun s => Ts.linear 0 i * (Tw s).linear 0 j +
          Ts.linear 1 i * (Tw s).linear 1 j + Ts.linear 2 i * (Tw s).linear 2 j := by
        funext s
        simp only [Affine.inv, Affine.mul]
        rw [hinv]
        simp [Matrix.mul_apply, Fin.sum_univ_three]
      rw [hfun]
      refine hd.congr_deriv ?_
      generalize cross3 (app N (fun i j => (Tw 0).linear.mulVec (fun r => JAng r j) i) dq) (fun k => (Tw 0).linear k j) = w
      simp [Matrix.mulVec, dotProduct, Fin.sum_univ_three]
    have hcz : HasDerivAt (fun s => (Ts.inv.mul (Tw s)).translation 2)
        (Ts.linear.transpose.mulVec (cross3 ((Tw 0).linear.mulVec ω) ((Tw 0).linear.mulVec 0) + (Tw 0).linear.mulVec v) 2) 0 := by
      have := material_deriv N dq _ _ Ts hs Tw h 0
      rw [app_mulVec, app_mulVec] at this
      have h2 := (hasDerivAt_pi.1 this) 2
      simpa [place] using h2
    have hsq : S.linear 2 0 ^ 2 + S.linear 2 1 ^ 2 ≠ 0 := by
      intro h0
      have h5 : S.linear 2 0 = 0 := by nlinarith [sq_nonneg (S.linear 2 0), sq_nonneg (S.linear 2 1)]
      have h6 : S.linear 2 1 = 0 := by nlinarith [sq_nonneg (S.linear 2 0), sq_nonneg (S.linear 2 1)]
      rcases hne' with hh | hh
      · exact hh h5
      · exact hh h6
    have hh : ∃ D, HasDerivAt (fun s => (Ts.inv.mul (Tw s)).translation 2 -
        radius * Real.sqrt ((Ts.inv.mul (Tw s)).linear 2 0 ^ 2 + (Ts.inv.mul (Tw s)).linear 2 1 ^ 2)) D 0 :=
      ⟨_, hcz.fun_sub ((((hent 2 0).fun_pow 2).fun_add ((hent 2 1).fun_pow 2)).sqrt hsq |>.const_mul radius)⟩
    obtain ⟨D, hD⟩ := hh
    -- near the configuration the axis is still not normal
    have hnear : ∀ᶠ s in nhds (0 : ℝ), (Ts.inv.mul (Tw s)).linear 2 0 ≠ 0 ∨ (Ts.inv.mul (Tw s)).linear 2 1 ≠ 0 := by
      rcases hne' with hh | hh
      · exact ((hent 2 0).continuousAt.eventually_ne hh).mono fun s hs => .inl hs
      · exact ((hent 2 1).continuousAt.eventually_ne hh).mono fun s hs => .inr hs
    have heq : (fun s => (surfaceContact radius (Ts.inv.mul (Tw s))).translation 2) =ᶠ[nhds 0]
        fun s => (Ts.inv.mul (Tw s)).translation 2 -
          radius * Real.sqrt ((Ts.inv.mul (Tw s)).linear 2 0 ^ 2 + (Ts.inv.mul (Tw s)).linear 2 1 ^ 2) :=
      hnear.mono fun s hs' => (contact_lowest radius hr _ (hrotS s) hs').2.1
    have hD' := hD.congr_of_eventuallyEq heq
    -- the point of the wheel stays above the lowest point
    obtain ⟨d, hd1, hd2, hd3⟩ := hrim
    have hmd : ∀ i, m i = radius * S.linear.transpose.mulVec d i := by
      intro i
      have : k - S.translation = radius • d := by
        rw [hd3]; funext i; simp
      simp only [m]
      rw [this, Matrix.mulVec_smul]
      rfl
    have hdz : S.linear.transpose.mulVec d 2 = 0 := by
      have := hd2
      unfold dot3 wheelAxis at this
      simp only [Matrix.mulVec, dotProduct, Fin.sum_univ_three, Matrix.transpose_apply]
      linarith
    have hdn : dot3 (S.linear.transpose.mulVec d) (S.linear.transpose.mulVec d) = 1 := by
      unfold dot3 at hd1 ⊢
      simp only [Matrix.mulVec, dotProduct, Fin.sum_univ_three, Matrix.transpose_apply]
      linear_combination d 0 ^ 2 * e.r0 + d 1 ^ 2 * e.r1 + d 2 ^ 2 * e.r2 + 2 * d 0 * d 1 * e.o01 + 2 * d 0 * d 2 * e.o02 +
        2 * d 1 * d 2 * e.o12 + hd1
    have honrim : ∀ s, OnRim (Ts.inv.mul (Tw s)) radius (place (Ts.inv.mul (Tw s)) m) := by
      intro s
      have es := rotEqs _ (hrotS s)
      set w := S.linear.transpose.mulVec d with hw
      refine ⟨(Ts.inv.mul (Tw s)).linear.mulVec w, ?_, ?_, ?_⟩
      · unfold dot3 at hdn ⊢
        simp only [Matrix.mulVec, dotProduct, Fin.sum_univ_three]
        linear_combination w 0 ^ 2 * es.k0 + w 1 ^ 2 * es.k1 + w 2 ^ 2 * es.k2 + 2 * w 0 * w 1 * es.p01 +
          2 * w 0 * w 2 * es.p02 + 2 * w 1 * w 2 * es.p12 + hdn
      · unfold dot3 wheelAxis
        simp only [Matrix.mulVec, dotProduct, Fin.sum_univ_three]
        linear_combination w 0 * es.p02 + w 1 * es.p12 + w 2 * es.k2 + hdz
      · funext i
        have hmw : m = radius • w := by funext i; rw [hmd]; rfl
        unfold place
        rw [hmw, Matrix.mulVec_smul, Pi.add_apply, Pi.smul_apply, smul_eq_mul]
        ring
    have hmax : IsLocalMax (fun s => (surfaceContact radius (Ts.inv.mul (Tw s))).translation 2 - place (Ts.inv.mul (Tw s)) m 2) 0 := by
      refine hnear.mono fun s hs' => ?_
      have h1 := (contact_lowest radius hr _ (hrotS s) hs').2.2 _ (honrim s)
      have h0 : (surfaceContact radius (Ts.inv.mul (Tw 0))).translation 2 - place (Ts.inv.mul (Tw 0)) m 2 = 0 := by
        rw [← hSdef, hplace]
        exact sub_self _
      simp only [h0]
      linarith
    have hzero := hmax.hasDerivAt_eq_zero (hD'.fun_sub hz)
    have : D = -k 2 := by linarith
    rw [← this]
    exact hD'

/-- **C116** refuted: when the axis of the wheel is normal to the surface, the equations of the task are not finite. -/
theorem C116_refuted (N : Nat) (radius : ℝ) (omniwheel : Bool) (Ts Tw : Affine) (JLin JAng : J3)
    (h : wheelAxis (Ts.inv.mul Tw) 0 = 0 ∧ wheelAxis (Ts.inv.mul Tw) 1 = 0) :
    wheelTask N radius omniwheel Ts Tw JLin JAng = none := by
  unfold wheelTask
  simp only
  rw [if_pos]
  have hc : cross3 (fun i => (Ts.inv.mul Tw).linear i 2) ![0, 0, 1] = 0 := by
    have h0 : (Ts.inv.mul Tw).linear 0 2 = 0 := h.1
    have h1 : (Ts.inv.mul Tw).linear 1 2 = 0 := h.2
    funext i; fin_cases i <;> simp [cross3, h0, h1]
  simp only [surfaceContact]
  rw [hc, normalize3_zero, Matrix.det_fin_three]
  simp [ofColumns, cross3]

/-- Non-vacuity: a wheel lying flat, as at the neutral configuration of a joint whose axis is vertical. -/
example : wheelTask 1 1 false Affine.one Affine.one (fun _ _ => 1) (fun _ _ => 1) = none :=
  C116_refuted _ _ _ _ _ _ _ (by
    rw [inv_mul' rigid_one]
    simp [wheelAxis, Affine.one])

/-- A wheel of radius 1 that rolls on the floor along x. -/
noncomputable def rolling (s : ℝ) : Affine :=
  ⟨!![Real.cos s, -Real.sin s, 0; 0, 0, 1; -Real.sin s, -Real.cos s, 0], ![s, 0, 1]⟩

theorem rolling_moves : Moves 1 (fun _ => 1) (fun i j => (rolling 0).linear.mulVec (fun r => (fun i _ => ![1, 0, 0] i : J3) r j) i)
    (fun i j => (rolling 0).linear.mulVec (fun r => (fun i _ => ![0, 0, 1] i : J3) r j) i) rolling := by
  have hrot0 : ∀ s, IsRotation (rolling s).linear := by
    intro s
    constructor
    · ext i j
      fin_cases i <;> fin_cases j <;> simp [rolling, Matrix.mul_apply, Fin.sum_univ_three] <;>
        nlinarith [Real.sin_sq_add_cos_sq s]
    · rw [Matrix.det_fin_three]
      simp [rolling]
      nlinarith [Real.sin_sq_add_cos_sq s]
  have h0 : (rolling 0).linear = !![1, 0, 0; 0, 0, 1; 0, -1, 0] := by simp [rolling]
  have hl : app 1 (fun i j => (rolling 0).linear.mulVec (fun r => (fun i _ => ![1, 0, 0] i : J3) r j) i) (fun _ => 1) = ![1, 0, 0] := by
    rw [app_mulVec, h0]
    funext i
    fin_cases i <;> simp [app, Matrix.mulVec, dotProduct, Fin.sum_univ_three]
  have ha : app 1 (fun i j => (rolling 0).linear.mulVec (fun r => (fun i _ => ![0, 0, 1] i : J3) r j) i) (fun _ => 1) = ![0, 1, 0] := by
    rw [app_mulVec, h0]
    funext i
    fin_cases i <;> simp [app, Matrix.mulVec, dotProduct, Fin.sum_univ_three]
  have hc : HasDerivAt (fun s : ℝ => Real.cos s) 0 0 := by simpa using Real.hasDerivAt_cos 0
  have hs : HasDerivAt (fun s : ℝ => Real.sin s) 1 0 := by simpa using Real.hasDerivAt_sin 0
  have hmc : HasDerivAt (fun s : ℝ => -Real.cos s) 0 0 := by simpa using hc.fun_neg
  have hms : HasDerivAt (fun s : ℝ => -Real.sin s) (-1) 0 := hs.fun_neg
  refine ⟨hrot0, ?_, ?_⟩
  · rw [hl]
    refine hasDerivAt_pi.2 fun i => ?_
    fin_cases i
    · simpa [rolling] using hasDerivAt_id' (0 : ℝ)
    · simpa [rolling] using hasDerivAt_const (0 : ℝ) (0 : ℝ)
    · simpa [rolling] using hasDerivAt_const (0 : ℝ) (1 : ℝ)
  · intro i j
    rw [ha, h0]
    fin_cases i <;> fin_cases j <;>
      first
        | simpa [rolling, cross3] using hc
        | simpa [rolling, cross3] using hmc
        | simpa [rolling, cross3] using hms
        | simpa [rolling, cross3] using hasDerivAt_const (0 : ℝ) (0 : ℝ)
        | simpa [rolling, cross3] using hasDerivAt_const (0 : ℝ) (1 : ℝ)

/-- Non-vacuity of C116_partial: the rolling wheel. -/
example : ∃ M, wheelTask 1 1 false Affine.one (rolling 0) (fun i _ => ![1, 0, 0] i) (fun i _ => ![0, 0, 1] i) = some M := by
  obtain ⟨M, _, _, _, h, _⟩ := C116_partial 1 1 zero_le_one false Affine.one isRotation_one (fun _ => 1) _ _ rolling rolling_moves
    (by
      right
      simp [wheelAxis, Affine.one, Affine.inv, Affine.mul, rolling])
  exact ⟨M, h⟩

end Verif.Kinematics
