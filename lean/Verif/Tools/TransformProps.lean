/-
Properties C125 and C126: the optimal transformation between two sets of points, and the sampled directions.
-/
import Mathlib.Algebra.BigOperators.Field
import Mathlib.Tactic.FieldSimp
import Mathlib.Tactic.LinearCombination
import Verif.Robot.BaseProps
import Verif.Tools.Transform

namespace Verif.Tools
open Finset Verif.Problem Verif.Robot

/-! ## Specification -/

/-- What is assumed of the singular value decomposition of a matrix `H`: `H = U S Vᵀ` with `U` and `V` orthogonal, and `S`
diagonal with nonnegative values in decreasing order. -/
def SvdOK (H : M3) (UV : M3 × M3) : Prop :=
  UV.1.transpose * UV.1 = 1 ∧ UV.2.transpose * UV.2 = 1 ∧
    ∃ s : Fin 3 → ℝ, s 1 ≤ s 0 ∧ s 2 ≤ s 1 ∧ 0 ≤ s 2 ∧ H = UV.1 * Matrix.diagonal s * UV.2.transpose

/-- The sum of the squared distances between the points `a i` and the images of the points `b i` by a transformation. -/
noncomputable def misfit (n : Nat) (a b : Nat → V3) (T : Affine) : ℝ :=
  ∑ i ∈ range n, ∑ k, (a i k - (T.linear.mulVec (b i) k + T.translation k)) ^ 2

/-! ## Rotations -/

theorem trace_rotation_ge (R : M3) (h : IsRotation R) : -1 ≤ R 0 0 + R 1 1 + R 2 2 := by
  obtain ⟨hq, hm⟩ := ofMatrix_spec R h
  rw [← hm]
  unfold Quat.Unit at hq
  simp [Quat.toMatrix]
  nlinarith [sq_nonneg (Quat.ofMatrix R).w]

theorem orthogonal_diag_le (W : M3) (h : W.transpose * W = 1) (i : Fin 3) : W i i ≤ 1 := by
  have := congrFun (congrFun h i) i
  simp only [Matrix.mul_apply, Matrix.transpose_apply, Fin.sum_univ_three, Matrix.one_apply_eq] at this
  fin_cases i <;> simp at this ⊢ <;>
    nlinarith [sq_nonneg (W 0 0), sq_nonneg (W 1 0), sq_nonneg (W 2 0), sq_nonneg (W 0 1), sq_nonneg (W 1 1), sq_nonneg (W 2 1),
      sq_nonneg (W 0 2), sq_nonneg (W 1 2), sq_nonneg (W 2 2)]

theorem orthogonal_det (W : M3) (h : W.transpose * W = 1) : W.det = 1 ∨ W.det = -1 := by
  have := congrArg Matrix.det h
  rw [Matrix.det_mul, Matrix.det_transpose, Matrix.det_one] at this
  exact mul_self_eq_one_iff.1 this

theorem weighted_diag_le (W : M3) (h : W.transpose * W = 1) (s : Fin 3 → ℝ) (h10 : s 1 ≤ s 0) (h21 : s 2 ≤ s 1) (h2 : 0 ≤ s 2) :
    W 0 0 * s 0 + W 1 1 * s 1 + W 2 2 * s 2 ≤ s 0 + s 1 + W.det * s 2 := by
  have w0 := orthogonal_diag_le W h 0
  have w1 := orthogonal_diag_le W h 1
  have w2 := orthogonal_diag_le W h 2
  rcases orthogonal_det W h with hd | hd
  · rw [hd]; nlinarith
  · have hr : IsRotation (-W) := by
      refine ⟨by rw [Matrix.transpose_neg, neg_mul_neg, h], ?_⟩
      rw [Matrix.det_neg, hd]; simp
      norm_num
    have := trace_rotation_ge (-W) hr
    simp only [Matrix.neg_apply] at this
    rw [hd]
    nlinarith

theorem norm_mulVec (Q : M3) (h : Q.transpose * Q = 1) (v : V3) : ∑ k, Q.mulVec v k ^ 2 = ∑ k, v k ^ 2 := by
  have e : ∀ i j, (Q.transpose * Q) i j = (1 : M3) i j := fun i j => by rw [h]
  have e00 := e 0 0; have e01 := e 0 1; have e02 := e 0 2
  have e11 := e 1 1; have e12 := e 1 2; have e22 := e 2 2
  simp only [Matrix.mul_apply, Matrix.transpose_apply, Fin.sum_univ_three, Matrix.one_apply, Fin.isValue, if_true,
    show (0 : Fin 3) ≠ 1 by decide, show (0 : Fin 3) ≠ 2 by decide, show (1 : Fin 3) ≠ 2 by decide, if_false] at e00 e01 e02 e11 e12 e22
  simp only [Matrix.mulVec, dotProduct, Fin.sum_univ_three]
  linear_combination v 0 ^ 2 * e00 + v 1 ^ 2 * e11 + v 2 ^ 2 * e22 + 2 * v 0 * v 1 * e01 + 2 * v 0 * v 2 * e02 + 2 * v 1 * v 2 * e12

theorem centered_sum (p : Points) (h : p.rows ≠ 0) (k : Fin 3) : ∑ i ∈ range p.rows, p.centered i k = 0 := by
  have hn : (p.rows : ℝ) ≠ 0 := by exact_mod_cast h
  simp only [Points.centered, Pi.sub_apply, sum_sub_distrib, sum_const, card_range, nsmul_eq_mul, Points.mean]
  field_simp
  ring

/-- The misfit of an isometry: only the trace of `Q H` and the image of the barycenter depend on it. -/
theorem misfit_eq (a b : Points) (hab : a.rows = b.rows) (h0 : a.rows ≠ 0) (Q : M3) (hQ : Q.transpose * Q = 1) (t : V3) :
    misfit a.rows a.row b.row ⟨Q, t⟩ = ∑ i ∈ range a.rows, (∑ k, a.centered i k ^ 2 + ∑ k, b.centered i k ^ 2)
      - 2 * (Q * covariance a b).trace + a.rows * ∑ k, (a.mean k - Q.mulVec b.mean k - t k) ^ 2 := by
  set δ : V3 := fun k => a.mean k - Q.mulVec b.mean k - t k with hδ
  have hterm : ∀ i, ∑ k, (a.row i k - (Q.mulVec (b.row i) k + t k)) ^ 2 =
      (∑ k, a.centered i k ^ 2 + ∑ k, b.centered i k ^ 2) - 2 * ∑ k, a.centered i k * Q.mulVec (b.centered i) k
        + (2 * ∑ k, δ k * a.centered i k - 2 * ∑ k, δ k * Q.mulVec (b.centered i) k) + ∑ k, δ k ^ 2 := by
    intro i
    have hx : ∀ k, a.row i k - (Q.mulVec (b.row i) k + t k) = a.centered i k - Q.mulVec (b.centered i) k + δ k := by
      intro k
      have : Q.mulVec (b.centered i) k = Q.mulVec (b.row i) k - Q.mulVec b.mean k := by
        unfold Points.centered; rw [Matrix.mulVec_sub]; rfl
      rw [this, hδ]
      simp only [Points.centered, Pi.sub_apply]; ring
    simp only [hx]
    rw [← norm_mulVec Q hQ (b.centered i)]
    generalize Q.mulVec (b.centered i) = y
    generalize a.centered i = x
    simp only [Fin.sum_univ_three]; ring
  unfold misfit
  simp only [hterm, sum_add_distrib, sum_sub_distrib, ← mul_sum, sum_const, card_range, nsmul_eq_mul]
  have z1 : ∑ i ∈ range a.rows, ∑ k, δ k * a.centered i k = 0 := by
    rw [sum_comm]
    refine sum_eq_zero fun k _ => ?_
    rw [← mul_sum, centered_sum a h0, mul_zero]
  have z2 : ∑ i ∈ range a.rows, ∑ k, δ k * Q.mulVec (b.centered i) k = 0 := by
    rw [sum_comm]
    refine sum_eq_zero fun k _ => ?_
    rw [← mul_sum]
    have : ∑ i ∈ range a.rows, Q.mulVec (b.centered i) k = 0 := by
      simp only [Matrix.mulVec, dotProduct]
      rw [sum_comm]
      refine sum_eq_zero fun l _ => ?_
      rw [← mul_sum, hab, centered_sum b (hab ▸ h0), mul_zero]
    rw [this, mul_zero]
  have z3 : ∑ i ∈ range a.rows, ∑ k, a.centered i k * Q.mulVec (b.centered i) k = (Q * covariance a b).trace := by
    simp only [Matrix.trace, Matrix.diag_apply, Matrix.mul_apply, covariance, Matrix.of_apply, Matrix.mulVec, dotProduct, mul_sum]
    rw [sum_comm]
    refine sum_congr rfl fun k _ => ?_
    rw [sum_comm]
    exact sum_congr rfl fun l _ => sum_congr rfl fun i _ => by ring
  rw [z1, z2, z3]
  ring

/-! ## C125 -/

/-- **C125.** `optimal_transformation` raises exactly when a set of points has not three columns, when the sets have different
numbers of points, or less than three points. Otherwise it gives a proper rotation and a translation which, among all rigid
transformations, minimise the sum of the squared distances between the points in A and the images of the points in B. In
particular, if the points in A are the images of the points in B by some rigid transformation, the result takes each point in B
to the corresponding point in A. -/
theorem C125 (svd : M3 → M3 × M3) (a b : Points) (hsvd : SvdOK (covariance a b) (svd (covariance a b))) :
    ((a.cols ≠ 3 ∨ b.cols ≠ 3 ∨ a.rows ≠ b.rows ∨ a.rows < 3) → optimalTransformation svd a b = .error .runtimeError) ∧
    (a.cols = 3 → b.cols = 3 → a.rows = b.rows → 3 ≤ a.rows → ∃ T, optimalTransformation svd a b = .ok T ∧ IsRotation T.linear ∧
      (∀ T' : Affine, IsRotation T'.linear → misfit a.rows a.row b.row T ≤ misfit a.rows a.row b.row T') ∧
      ((∃ T' : Affine, IsRotation T'.linear ∧ ∀ i, i < a.rows → a.row i = T'.linear.mulVec (b.row i) + T'.translation) →
        ∀ i, i < a.rows → a.row i = T.linear.mulVec (b.row i) + T.translation)) := by
  constructor
  · intro h
    unfold optimalTransformation
    by_cases h1 : a.cols ≠ 3 ∨ b.cols ≠ 3
    · rw [if_pos h1]
    rw [if_neg h1]
    by_cases h2 : a.rows ≠ b.rows
    · rw [if_pos h2]
    rw [if_neg h2]
    by_cases h3 : a.rows < 3
    · rw [if_pos h3]
    · exfalso
      rcases h with h | h | h | h
      · exact h1 (.inl h)
      · exact h1 (.inr h)
      · exact h2 h
      · exact h3 h
  · intro ha hb hab hn
    have h0 : a.rows ≠ 0 := by omega
    set H := covariance a b with hH
    obtain ⟨hU, hV, s, h10, h21, hs2, hs⟩ := hsvd
    generalize hu : (svd H).1 = U at hU hs
    generalize hv : (svd H).2 = V at hV hs
    have hU' : U * U.transpose = 1 := mul_eq_one_comm.1 hU
    have hV' : V * V.transpose = 1 := mul_eq_one_comm.1 hV
    -- the sign of the determinant
    have hdd : (V * U.transpose).det = V.det * U.det := by rw [Matrix.det_mul, Matrix.det_transpose]
    have hVU : (V * U.transpose).transpose * (V * U.transpose) = 1 := by
      rw [Matrix.transpose_mul, Matrix.transpose_transpose, mul_assoc, ← mul_assoc V.transpose, hV, one_mul, hU']
    let z : ℝ := V.det * U.det
    let R : M3 := V * Matrix.diagonal ![1, 1, z] * U.transpose
    have hz : z = 1 ∨ z = -1 := by
      have := orthogonal_det _ hVU
      rwa [hdd] at this
    have hzz : (Matrix.diagonal ![1, 1, z] : M3) * Matrix.diagonal ![1, 1, z] = 1 := by
      rw [Matrix.diagonal_mul_diagonal, ← Matrix.diagonal_one]
      congr 1
      funext i
      fin_cases i <;> simp
      rcases hz with h | h <;> rw [h] <;> norm_num
    have hR : IsRotation R := by
      constructor
      · show (V * Matrix.diagonal ![1, 1, z] * U.transpose).transpose * (V * Matrix.diagonal ![1, 1, z] * U.transpose) = 1
        rw [Matrix.transpose_mul, Matrix.transpose_mul, Matrix.transpose_transpose, Matrix.diagonal_transpose]
        calc U * (Matrix.diagonal ![1, 1, z] * V.transpose) * (V * Matrix.diagonal ![1, 1, z] * U.transpose)
            = U * (Matrix.diagonal ![1, 1, z] * (V.transpose * V) * Matrix.diagonal ![1, 1, z]) * U.transpose := by
              simp only [mul_assoc]
          _ = 1 := by rw [hV, mul_one, hzz, mul_one, hU']
      · show (V * Matrix.diagonal ![1, 1, z] * U.transpose).det = 1
        rw [Matrix.det_mul, Matrix.det_mul, Matrix.det_transpose, Matrix.det_diagonal]
        simp only [Fin.prod_univ_three, Matrix.cons_val_zero, Matrix.cons_val_one, Matrix.cons_val, one_mul]
        have : V.det * z * U.det = z * z := by show V.det * (V.det * U.det) * U.det = (V.det * U.det) * (V.det * U.det); ring
        rw [this]
        rcases hz with h | h <;> rw [h] <;> norm_num
    have hres : optimalTransformation svd a b = .ok ⟨R, a.mean - R.mulVec b.mean⟩ := by
      unfold optimalTransformation
      rw [if_neg (by rintro (h | h); exacts [h ha, h hb]), if_neg (by simpa using hab), if_neg (by omega)]
      simp only [← hH, hu, hv]
      have : (if (V * U.transpose).det < 0 then V * Matrix.diagonal ![1, 1, -1] * U.transpose else V * U.transpose) = R := by
        rw [hdd]
        show (if z < 0 then _ else _) = V * Matrix.diagonal ![1, 1, z] * U.transpose
        rcases hz with h | h
        · rw [h, if_neg (by norm_num)]
          have : (Matrix.diagonal ![1, 1, 1] : M3) = 1 := by
            rw [← Matrix.diagonal_one]; congr 1; funext i; fin_cases i <;> rfl
          rw [this, mul_one]
        · rw [h, if_pos (by norm_num)]
      rw [this]
    -- the trace
    have htr : ∀ Q : M3, (Q * H).trace = (V.transpose * Q * U) 0 0 * s 0 + (V.transpose * Q * U) 1 1 * s 1
        + (V.transpose * Q * U) 2 2 * s 2 := by
      intro Q
      rw [hs]
      have : (Q * (U * Matrix.diagonal s * V.transpose)).trace = (V.transpose * Q * U * Matrix.diagonal s).trace := by
        rw [← mul_assoc, Matrix.trace_mul_comm]
        simp only [mul_assoc]
      rw [this]
      simp only [Matrix.trace, Matrix.diag_apply, Fin.sum_univ_three, Matrix.mul_diagonal]
    have hmax : ∀ Q : M3, IsRotation Q → (Q * H).trace ≤ (R * H).trace := by
      intro Q hQ
      rw [htr Q, htr R]
      have hW : (V.transpose * Q * U).transpose * (V.transpose * Q * U) = 1 := by
        rw [Matrix.transpose_mul, Matrix.transpose_mul, Matrix.transpose_transpose]
        calc U.transpose * (Q.transpose * V) * (V.transpose * Q * U)
            = U.transpose * (Q.transpose * (V * V.transpose) * Q) * U := by simp only [mul_assoc]
          _ = 1 := by rw [hV', mul_one, hQ.1, mul_one, hU]
      have h1 := weighted_diag_le _ hW s h10 h21 hs2
      have hdet : (V.transpose * Q * U).det = z := by
        rw [Matrix.det_mul, Matrix.det_mul, Matrix.det_transpose, hQ.2, mul_one]
      have hWR : V.transpose * R * U = Matrix.diagonal ![1, 1, z] := by
        show V.transpose * (V * Matrix.diagonal ![1, 1, z] * U.transpose) * U = _
        calc _ = V.transpose * V * Matrix.diagonal ![1, 1, z] * (U.transpose * U) := by simp only [mul_assoc]
          _ = _ := by rw [hV, hU, one_mul, mul_one]
      rw [hdet] at h1
      rw [hWR]
      simpa using h1
    have hmin : ∀ T' : Affine, IsRotation T'.linear →
        misfit a.rows a.row b.row ⟨R, a.mean - R.mulVec b.mean⟩ ≤ misfit a.rows a.row b.row T' := by
      rintro ⟨Q, t⟩ hQ
      rw [misfit_eq a b hab h0 R hR.1, misfit_eq a b hab h0 Q hQ.1]
      have h1 := hmax Q hQ
      have h2 : ∑ k, (a.mean k - R.mulVec b.mean k - (a.mean - R.mulVec b.mean) k) ^ 2 = 0 := by
        refine sum_eq_zero fun k _ => ?_
        simp only [Pi.sub_apply, sub_self]; norm_num
      have h3 : 0 ≤ (a.rows : ℝ) * ∑ k, (a.mean k - Q.mulVec b.mean k - t k) ^ 2 :=
        mul_nonneg (Nat.cast_nonneg _) (sum_nonneg fun k _ => sq_nonneg _)
      rw [h2, ← hH]
      linarith
    refine ⟨_, hres, hR, hmin, ?_⟩
    rintro ⟨T', hT', hfit⟩ i hi
    have hzero : misfit a.rows a.row b.row T' = 0 := by
      refine sum_eq_zero fun i hi => sum_eq_zero fun k _ => ?_
      rw [hfit i (mem_range.1 hi)]
      simp
    have hle := hmin T' hT'
    rw [hzero] at hle
    have hnn : ∀ i ∈ range a.rows, 0 ≤ ∑ k, (a.row i k - (R.mulVec (b.row i) k + (a.mean - R.mulVec b.mean) k)) ^ 2 :=
      fun i _ => sum_nonneg fun k _ => sq_nonneg _
    have hall := (sum_eq_zero_iff_of_nonneg hnn).1 (le_antisymm hle (sum_nonneg hnn)) i (mem_range.2 hi)
    funext k
    have hk := (sum_eq_zero_iff_of_nonneg (fun k _ => sq_nonneg _)).1 hall k (mem_univ k)
    have := pow_eq_zero_iff (two_ne_zero) |>.1 hk
    show a.row i k = R.mulVec (b.row i) k + (a.mean - R.mulVec b.mean) k
    linarith

end Verif.Tools
