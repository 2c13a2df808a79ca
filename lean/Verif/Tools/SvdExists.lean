/-
Every 3x3 matrix has a singular value decomposition: the contract `SvdOK` can be met.
-/
import Mathlib.Analysis.InnerProductSpace.Adjoint
import Mathlib.Analysis.InnerProductSpace.PiL2
import Mathlib.Analysis.InnerProductSpace.Spectrum
import Verif.Tools.TransformProps

namespace Verif.Tools
open Finset

theorem svd_exists (H : M3) : ∃ UV, SvdOK H UV := by
  let E := EuclideanSpace ℝ (Fin 3)
  let T : E →ₗ[ℝ] E := Matrix.toEuclideanLin H
  have hn : Module.finrank ℝ E = 3 := by simp [E]
  have hS : (LinearMap.adjoint T ∘ₗ T).IsSymmetric := T.isSymmetric_adjoint_comp_self
  let v := hS.eigenvectorBasis hn
  let lam := hS.eigenvalues hn
  have hv : ∀ i, (LinearMap.adjoint T) (T (v i)) = lam i • v i := fun i => hS.apply_eigenvectorBasis hn i
  have hin : ∀ i j, inner ℝ (T (v i)) (T (v j)) = lam j * inner ℝ (v i) (v j) := by
    intro i j
    rw [← LinearMap.adjoint_inner_right, hv, inner_smul_right]
  have hnn : ∀ i, 0 ≤ lam i := by
    intro i
    have h1 := hin i i
    have h2 : inner ℝ (v i) (v i) = (1 : ℝ) := by rw [real_inner_self_eq_norm_sq, v.norm_eq_one]; norm_num
    rw [h2, mul_one] at h1
    rw [← h1]
    exact real_inner_self_nonneg
  let w : Fin 3 → E := fun i => (Real.sqrt (lam i))⁻¹ • T (v i)
  have hw : Orthonormal ℝ (Set.domRestrict {i | lam i ≠ 0} w) := by
    rw [orthonormal_iff_ite]
    rintro ⟨i, hi⟩ ⟨j, hj⟩
    show inner ℝ ((Real.sqrt (lam i))⁻¹ • T (v i)) ((Real.sqrt (lam j))⁻¹ • T (v j)) = _
    rw [inner_smul_left, inner_smul_right, hin, orthonormal_iff_ite.1 v.orthonormal i j]
    have hpos : 0 < lam j := lt_of_le_of_ne (hnn j) (Ne.symm hj)
    by_cases hij : i = j
    · subst hij
      simp only [if_true, mul_one, conj_trivial]
      have := Real.mul_self_sqrt hpos.le
      have hne : Real.sqrt (lam i) ≠ 0 := (Real.sqrt_pos.2 hpos).ne'
      field_simp
      nlinarith
    · rw [if_neg hij, if_neg (by simpa using hij)]; simp
  obtain ⟨u, hu⟩ := hw.exists_orthonormalBasis_extension_of_card_eq (by simp [hn])
  have hT : ∀ i, T (v i) = Real.sqrt (lam i) • u i := by
    intro i
    by_cases h0 : lam i = 0
    · have h1 := hin i i
      rw [h0, zero_mul] at h1
      rw [h0, Real.sqrt_zero, zero_smul]
      exact inner_self_eq_zero.1 h1
    · rw [hu i h0]
      show _ = Real.sqrt (lam i) • (Real.sqrt (lam i))⁻¹ • T (v i)
      rw [smul_smul, mul_inv_cancel₀, one_smul]
      exact (Real.sqrt_pos.2 (lt_of_le_of_ne (hnn i) (Ne.symm h0))).ne'
  have horth : ∀ b : OrthonormalBasis (Fin 3) ℝ E, (Matrix.of fun k i => b i k : M3).transpose * (Matrix.of fun k i => b i k) = 1 := by
    intro b
    ext i j
    have := orthonormal_iff_ite.1 b.orthonormal i j
    rw [PiLp.inner_apply] at this
    simp only [Matrix.mul_apply, Matrix.transpose_apply, Matrix.of_apply, Matrix.one_apply]
    rw [← this]
    refine sum_congr rfl fun k _ => ?_
    simp [mul_comm]
  refine ⟨(Matrix.of fun k i => u i k, Matrix.of fun k i => v i k), horth u, horth v, fun i => Real.sqrt (lam i), ?_, ?_, ?_, ?_⟩
  · exact Real.sqrt_le_sqrt (hS.eigenvalues_antitone hn (by decide))
  · exact Real.sqrt_le_sqrt (hS.eigenvalues_antitone hn (by decide))
  · exact Real.sqrt_nonneg _
  · have hHV : H * (Matrix.of fun k i => v i k) = (Matrix.of fun k i => u i k) * Matrix.diagonal fun i => Real.sqrt (lam i) := by
      ext k i
      rw [Matrix.mul_diagonal]
      have h1 : (T (v i)) k = Real.sqrt (lam i) * u i k := by rw [hT i]; rfl
      simp only [Matrix.of_apply]
      rw [mul_comm (u i k), ← h1, Matrix.mul_apply]
      rfl
    have hVV : (Matrix.of fun k i => v i k : M3) * (Matrix.of fun k i => v i k : M3).transpose = 1 := mul_eq_one_comm.1 (horth v)
    rw [← hHV, mul_assoc, hVV, mul_one]

/-- Three points that are not on a line. -/
def corner (x y : V3) : Points := ⟨3, 3, fun i => if i = 1 then x else if i = 2 then y else 0⟩

/-- A decomposition that meets the contract for all matrices: the hypotheses of `C125` can be met. -/
example : ∃ svd : M3 → M3 × M3, (∀ H, SvdOK H (svd H)) ∧
    ∃ T, optimalTransformation svd (corner ![1, 0, 0] ![0, 2, 0]) (corner ![0, 1, 0] ![-2, 0, 0]) = .ok T := by
  refine ⟨fun H => (svd_exists H).choose, fun H => (svd_exists H).choose_spec, ?_⟩
  obtain ⟨T, hT, -⟩ := (C125 (fun H => (svd_exists H).choose) (corner ![1, 0, 0] ![0, 2, 0]) (corner ![0, 1, 0] ![-2, 0, 0])
    (svd_exists _).choose_spec).2 rfl rfl rfl (Nat.le_refl 3)
  exact ⟨T, hT⟩

end Verif.Tools
