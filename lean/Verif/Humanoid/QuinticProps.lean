/-
Property C124: the quintic swing foot trajectory.
-/
import Mathlib.Analysis.Calculus.Deriv.Add
import Mathlib.Analysis.Calculus.Deriv.Mul
import Mathlib.Analysis.Calculus.Deriv.Pi
import Mathlib.Analysis.Calculus.Deriv.Prod
import Mathlib.Analysis.Calculus.Deriv.Pow
import Mathlib.LinearAlgebra.Matrix.Determinant.Basic
import Mathlib.LinearAlgebra.Matrix.ToLinearEquiv
import Mathlib.Tactic.FieldSimp
import Mathlib.Tactic.Linarith
import Mathlib.Tactic.LinearCombination
import Mathlib.Tactic.Ring
import Verif.Humanoid.Quintic

namespace Verif.Humanoid
open Verif.Tools

/-! ## Interpolation by a polynomial of degree 5 -/

/-- A polynomial of degree 5 whose value and two first derivatives vanish at two points is null. -/
theorem quintic_hermite {a b c d e f s u : ℝ} (hsu : s ≠ u)
    (h1 : a * s ^ 5 + b * s ^ 4 + c * s ^ 3 + d * s ^ 2 + e * s + f = 0)
    (h2 : 5 * a * s ^ 4 + 4 * b * s ^ 3 + 3 * c * s ^ 2 + 2 * d * s + e = 0)
    (h3 : 20 * a * s ^ 3 + 12 * b * s ^ 2 + 6 * c * s + 2 * d = 0)
    (h4 : a * u ^ 5 + b * u ^ 4 + c * u ^ 3 + d * u ^ 2 + e * u + f = 0)
    (h5 : 5 * a * u ^ 4 + 4 * b * u ^ 3 + 3 * c * u ^ 2 + 2 * d * u + e = 0)
    (h6 : 20 * a * u ^ 3 + 12 * b * u ^ 2 + 6 * c * u + 2 * d = 0) :
    a = 0 ∧ b = 0 ∧ c = 0 ∧ d = 0 ∧ e = 0 ∧ f = 0 := by
  have hD : u - s ≠ 0 := sub_ne_zero.2 hsu.symm
  have hd : d = -(10 * a * s ^ 3 + 6 * b * s ^ 2 + 3 * c * s) := by linarith
  subst hd
  have he : e = -(5 * a * s ^ 4 + 4 * b * s ^ 3 + 3 * c * s ^ 2 + 2 * -(10 * a * s ^ 3 + 6 * b * s ^ 2 + 3 * c * s) * s) := by
    linarith
  subst he
  have hf : f = -(a * s ^ 5 + b * s ^ 4 + c * s ^ 3 + -(10 * a * s ^ 3 + 6 * b * s ^ 2 + 3 * c * s) * s ^ 2 +
    -(5 * a * s ^ 4 + 4 * b * s ^ 3 + 3 * c * s ^ 2 + 2 * -(10 * a * s ^ 3 + 6 * b * s ^ 2 + 3 * c * s) * s) * s) := by linarith
  subst hf
  set D := u - s with hDD
  have hu : u = s + D := by rw [hDD]; ring
  set β := b + 5 * a * s with hβ
  set γ := c + 4 * b * s + 10 * a * s ^ 2 with hγ
  have e1 : a * D ^ 2 + β * D + γ = 0 := by
    have : D ^ 3 * (a * D ^ 2 + β * D + γ) = 0 := by
      rw [hβ, hγ, ← h4, hu]; ring
    exact (mul_eq_zero.1 this).resolve_left (pow_ne_zero 3 hD)
  have e2 : 5 * a * D ^ 2 + 4 * β * D + 3 * γ = 0 := by
    have : D ^ 2 * (5 * a * D ^ 2 + 4 * β * D + 3 * γ) = 0 := by
      rw [hβ, hγ, ← h5, hu]; ring
    exact (mul_eq_zero.1 this).resolve_left (pow_ne_zero 2 hD)
  have e3 : 20 * a * D ^ 2 + 12 * β * D + 6 * γ = 0 := by
    have : D * (20 * a * D ^ 2 + 12 * β * D + 6 * γ) = 0 := by
      rw [hβ, hγ, ← h6, hu]; ring
    exact (mul_eq_zero.1 this).resolve_left hD
  have ha : a = 0 := by
    have : a * D ^ 2 = 0 := by linarith
    exact (mul_eq_zero.1 this).resolve_right (pow_ne_zero 2 hD)
  subst ha
  have hb : β = 0 := by
    have : β * D = 0 := by linarith
    exact (mul_eq_zero.1 this).resolve_right hD
  have hc : γ = 0 := by rw [hb] at e1; linarith
  have hb : b = 0 := by rw [hβ] at hb; linarith
  subst hb
  have hc : c = 0 := by rw [hγ] at hc; linarith
  subst hc
  simp

/-- A polynomial of degree 5 whose value and first derivative vanish at two points, and whose value vanishes at a quarter and at
three quarters of the way, is null. -/
theorem quintic_height {a b c d e f s u : ℝ} (hsu : s ≠ u)
    (h1 : a * s ^ 5 + b * s ^ 4 + c * s ^ 3 + d * s ^ 2 + e * s + f = 0)
    (h2 : 5 * a * s ^ 4 + 4 * b * s ^ 3 + 3 * c * s ^ 2 + 2 * d * s + e = 0)
    (h3 : a * u ^ 5 + b * u ^ 4 + c * u ^ 3 + d * u ^ 2 + e * u + f = 0)
    (h4 : 5 * a * u ^ 4 + 4 * b * u ^ 3 + 3 * c * u ^ 2 + 2 * d * u + e = 0)
    (h5 : a * (s + (u - s) / 4) ^ 5 + b * (s + (u - s) / 4) ^ 4 + c * (s + (u - s) / 4) ^ 3 + d * (s + (u - s) / 4) ^ 2 +
      e * (s + (u - s) / 4) + f = 0)
    (h6 : a * (s + 3 * (u - s) / 4) ^ 5 + b * (s + 3 * (u - s) / 4) ^ 4 + c * (s + 3 * (u - s) / 4) ^ 3 +
      d * (s + 3 * (u - s) / 4) ^ 2 + e * (s + 3 * (u - s) / 4) + f = 0) :
    a = 0 ∧ b = 0 ∧ c = 0 ∧ d = 0 ∧ e = 0 ∧ f = 0 := by
  have hD : u - s ≠ 0 := sub_ne_zero.2 hsu.symm
  have he : e = -(5 * a * s ^ 4 + 4 * b * s ^ 3 + 3 * c * s ^ 2 + 2 * d * s) := by linarith
  subst he
  have hf : f = -(a * s ^ 5 + b * s ^ 4 + c * s ^ 3 + d * s ^ 2 +
    -(5 * a * s ^ 4 + 4 * b * s ^ 3 + 3 * c * s ^ 2 + 2 * d * s) * s) := by linarith
  subst hf
  set D := u - s with hDD
  have hu : u = s + D := by rw [hDD]; ring
  set β := b + 5 * a * s with hβ
  set γ := c + 4 * b * s + 10 * a * s ^ 2 with hγ
  set δ := d + 3 * c * s + 6 * b * s ^ 2 + 10 * a * s ^ 3 with hδ
  have e1 : a * D ^ 3 + β * D ^ 2 + γ * D + δ = 0 := by
    have : D ^ 2 * (a * D ^ 3 + β * D ^ 2 + γ * D + δ) = 0 := by
      rw [hβ, hγ, hδ, ← h3, hu]; ring
    exact (mul_eq_zero.1 this).resolve_left (pow_ne_zero 2 hD)
  have e2 : 5 * (a * D ^ 3) + 4 * (β * D ^ 2) + 3 * (γ * D) + 2 * δ = 0 := by
    have : D * (5 * (a * D ^ 3) + 4 * (β * D ^ 2) + 3 * (γ * D) + 2 * δ) = 0 := by
      rw [hβ, hγ, hδ, ← h4, hu]; ring
    exact (mul_eq_zero.1 this).resolve_left hD
  have e3 : a * D ^ 3 + 4 * (β * D ^ 2) + 16 * (γ * D) + 64 * δ = 0 := by
    have : D ^ 2 * (a * D ^ 3 + 4 * (β * D ^ 2) + 16 * (γ * D) + 64 * δ) = 0 := by
      have h5' : 1024 * _ = (1024 : ℝ) * 0 := congrArg (fun x => 1024 * x) h5
      rw [hβ, hγ, hδ]
      linear_combination h5'
    exact (mul_eq_zero.1 this).resolve_left (pow_ne_zero 2 hD)
  have e4 : 27 * (a * D ^ 3) + 36 * (β * D ^ 2) + 48 * (γ * D) + 64 * δ = 0 := by
    have : 9 * D ^ 2 * (27 * (a * D ^ 3) + 36 * (β * D ^ 2) + 48 * (γ * D) + 64 * δ) = 0 := by
      have h6' : 1024 * _ = (1024 : ℝ) * 0 := congrArg (fun x => 1024 * x) h6
      rw [hβ, hγ, hδ]
      linear_combination h6'
    exact (mul_eq_zero.1 this).resolve_left (mul_ne_zero (by norm_num) (pow_ne_zero 2 hD))
  have ha : a = 0 := by
    have : a * D ^ 3 = 0 := by linarith
    exact (mul_eq_zero.1 this).resolve_right (pow_ne_zero 3 hD)
  subst ha
  have hb : β = 0 := by
    have : β * D ^ 2 = 0 := by linarith
    exact (mul_eq_zero.1 this).resolve_right (pow_ne_zero 2 hD)
  rw [hb] at e1 e2 e3 e4
  have hc : γ = 0 := by
    have : γ * D = 0 := by linarith
    exact (mul_eq_zero.1 this).resolve_right hD
  have hd : δ = 0 := by rw [hc] at e1; linarith
  have hb : b = 0 := by rw [hβ] at hb; linarith
  subst hb
  have hc : c = 0 := by rw [hγ] at hc; linarith
  subst hc
  have hd : d = 0 := by rw [hδ] at hd; linarith
  subst hd
  simp

/-! ## C124 -/

theorem blockRow_mul (k : Nat) (hk : k < 3) (times : Fin 6 → ℝ) (v : Fin 18 → ℝ) :
    ∑ j, blockRow k times j * v j = ∑ i : Fin 6, times i * v ⟨6 * k + i, by omega⟩ := by
  have : k = 0 ∨ k = 1 ∨ k = 2 := by omega
  rcases this with rfl | rfl | rfl <;>
    simp [blockRow, Fin.sum_univ_succ, Fin.succ] <;> rfl

/-- The rows of the matrix, applied to the coefficients `v` of the three polynomials. -/
theorem quintic_rows (s u : ℝ) (v : Fin 18 → ℝ) (k : Nat) (hk : k < 3) :
    (∀ t, ∑ j, blockRow k (quinticPosTimes t) j * v j = v ⟨6 * k, by omega⟩ * t ^ 5 + v ⟨6 * k + 1, by omega⟩ * t ^ 4 +
      v ⟨6 * k + 2, by omega⟩ * t ^ 3 + v ⟨6 * k + 3, by omega⟩ * t ^ 2 + v ⟨6 * k + 4, by omega⟩ * t +
      v ⟨6 * k + 5, by omega⟩) ∧
    (∀ t, ∑ j, blockRow k (quinticDTimes t) j * v j = 5 * v ⟨6 * k, by omega⟩ * t ^ 4 + 4 * v ⟨6 * k + 1, by omega⟩ * t ^ 3 +
      3 * v ⟨6 * k + 2, by omega⟩ * t ^ 2 + 2 * v ⟨6 * k + 3, by omega⟩ * t + v ⟨6 * k + 4, by omega⟩) ∧
    (∀ t, ∑ j, blockRow k (quinticDdTimes t) j * v j = 20 * v ⟨6 * k, by omega⟩ * t ^ 3 +
      12 * v ⟨6 * k + 1, by omega⟩ * t ^ 2 + 6 * v ⟨6 * k + 2, by omega⟩ * t + 2 * v ⟨6 * k + 3, by omega⟩) := by
  have e : ∀ times : Fin 6 → ℝ, ∑ j, blockRow k times j * v j = times 0 * v ⟨6 * k, by omega⟩ +
      times 1 * v ⟨6 * k + 1, by omega⟩ + times 2 * v ⟨6 * k + 2, by omega⟩ + times 3 * v ⟨6 * k + 3, by omega⟩ +
      times 4 * v ⟨6 * k + 4, by omega⟩ + times 5 * v ⟨6 * k + 5, by omega⟩ := by
    intro times
    rw [blockRow_mul k hk, Fin.sum_univ_six]
    rfl
  refine ⟨fun t => ?_, fun t => ?_, fun t => ?_⟩ <;> rw [e] <;>
    simp only [quinticPosTimes, quinticDTimes, quinticDdTimes, Matrix.cons_val_zero, Matrix.cons_val_one,
      Matrix.cons_val] <;> ring

theorem quinticA_det (s u : ℝ) (h : s ≠ u) : (quinticA s u).det ≠ 0 := by
  intro hdet
  obtain ⟨v, hv, h0⟩ := Matrix.exists_mulVec_eq_zero_iff.2 hdet
  apply hv
  have row : ∀ i : Fin 18, ∑ j, quinticA s u i j * v j = 0 := fun i => congrFun h0 i
  have x := quintic_rows s u v 0 (by norm_num)
  have y := quintic_rows s u v 1 (by norm_num)
  have z := quintic_rows s u v 2 (by norm_num)
  obtain ⟨x0, x1, x2, x3, x4, x5⟩ := quintic_hermite h ((x.1 s).symm.trans (row 0)) ((x.2.1 s).symm.trans (row 6))
    ((x.2.2 s).symm.trans (row 12)) ((x.1 u).symm.trans (row 3)) ((x.2.1 u).symm.trans (row 9)) ((x.2.2 u).symm.trans (row 14))
  obtain ⟨y0, y1, y2, y3, y4, y5⟩ := quintic_hermite h ((y.1 s).symm.trans (row 1)) ((y.2.1 s).symm.trans (row 7))
    ((y.2.2 s).symm.trans (row 13)) ((y.1 u).symm.trans (row 4)) ((y.2.1 u).symm.trans (row 10)) ((y.2.2 u).symm.trans (row 15))
  obtain ⟨z0, z1, z2, z3, z4, z5⟩ := quintic_height h ((z.1 s).symm.trans (row 2)) ((z.2.1 s).symm.trans (row 8))
    ((z.1 u).symm.trans (row 5)) ((z.2.1 u).symm.trans (row 11)) ((z.1 _).symm.trans (row 16)) ((z.1 _).symm.trans (row 17))
  funext i
  fin_cases i <;> assumption

/-- **C124.** If the trajectory does not start when it ends, its coefficients are finite and it interpolates: it is at `start` at
`t_start` and at `target` at `t_end`, with a null velocity at both, a null horizontal acceleration at both, and it is at `height`
at a quarter and at three quarters of its duration; its velocity is the derivative of its position. If it starts when it ends,
the coefficients are not finite. -/
theorem C124 (t_start t_end height : ℝ) (start target : Fin 3 → ℝ) :
    (t_start ≠ t_end → ∃ q, Quintic.make t_start t_end height start target = some q ∧
      q.pos t_start = start ∧ q.pos t_end = target ∧
      (∀ t, HasDerivAt q.pos (q.vel t) t) ∧ q.vel t_start = 0 ∧ q.vel t_end = 0 ∧
      (∀ i : Fin 3, i ≠ 2 → HasDerivAt (fun t => q.vel t i) 0 t_start ∧ HasDerivAt (fun t => q.vel t i) 0 t_end) ∧
      q.pos (t_start + (t_end - t_start) * (1 / 4)) 2 = height ∧ q.pos (t_start + (t_end - t_start) * (3 / 4)) 2 = height) ∧
    (t_start = t_end → Quintic.make t_start t_end height start target = none) := by
  constructor
  · intro h
    have hdet := quinticA_det t_start t_end h
    unfold Quintic.make
    simp only [if_neg hdet]
    set v := (quinticA t_start t_end)⁻¹.mulVec (quinticB height start target) with hv
    have hA : (quinticA t_start t_end).mulVec v = quinticB height start target := by
      rw [hv, Matrix.mulVec_mulVec, Matrix.mul_nonsing_inv _ (isUnit_iff_ne_zero.2 hdet), Matrix.one_mulVec]
    have row : ∀ i : Fin 18, ∑ j, quinticA t_start t_end i j * v j = quinticB height start target i := fun i => congrFun hA i
    have x := quintic_rows t_start t_end v 0 (by norm_num)
    have y := quintic_rows t_start t_end v 1 (by norm_num)
    have z := quintic_rows t_start t_end v 2 (by norm_num)
    have ha : ∀ t i, HasDerivAt (fun t => Quintic.vel (⟨![v 0, v 6, v 12], ![v 1, v 7, v 13], ![v 2, v 8, v 14],
        ![v 3, v 9, v 15], ![v 4, v 10, v 16], ![v 5, v 11, v 17]⟩ : Quintic ℝ) t i)
        (20 * ![v 0, v 6, v 12] i * t ^ 3 + 12 * ![v 1, v 7, v 13] i * t ^ 2 + 6 * ![v 2, v 8, v 14] i * t +
          2 * ![v 3, v 9, v 15] i) t := by
      intro t i
      have i1 := hasDerivAt_id' t
      have i2 := i1.fun_mul i1
      have i3 := i2.fun_mul i1
      have i4 := i3.fun_mul i1
      refine (((((i4.const_mul (5 * ![v 0, v 6, v 12] i)).fun_add (i3.const_mul (4 * ![v 1, v 7, v 13] i))).fun_add
        (i2.const_mul (3 * ![v 2, v 8, v 14] i))).fun_add (i1.const_mul (2 * ![v 3, v 9, v 15] i))).fun_add
        (hasDerivAt_const t (![v 4, v 10, v 16] i))).congr_deriv ?_
      ring
    refine ⟨_, rfl, ?_, ?_, fun t => ?_, ?_, ?_, fun i hi => ⟨?_, ?_⟩, ?_, ?_⟩
    · funext i
      fin_cases i
      · refine Eq.trans ?_ ((x.1 t_start).symm.trans (row 0)); simp [Quintic.pos]; ring
      · refine Eq.trans ?_ ((y.1 t_start).symm.trans (row 1)); simp [Quintic.pos]; ring
      · refine Eq.trans ?_ ((z.1 t_start).symm.trans (row 2)); simp [Quintic.pos]; ring
    · funext i
      fin_cases i
      · refine Eq.trans ?_ ((x.1 t_end).symm.trans (row 3)); simp [Quintic.pos]; ring
      · refine Eq.trans ?_ ((y.1 t_end).symm.trans (row 4)); simp [Quintic.pos]; ring
      · refine Eq.trans ?_ ((z.1 t_end).symm.trans (row 5)); simp [Quintic.pos]; ring
    · refine hasDerivAt_pi.2 fun i => ?_
      have i1 := hasDerivAt_id' t
      have i2 := i1.fun_mul i1
      have i3 := i2.fun_mul i1
      have i4 := i3.fun_mul i1
      have i5 := i4.fun_mul i1
      refine ((((((i5.const_mul (![v 0, v 6, v 12] i)).fun_add (i4.const_mul (![v 1, v 7, v 13] i))).fun_add
        (i3.const_mul (![v 2, v 8, v 14] i))).fun_add (i2.const_mul (![v 3, v 9, v 15] i))).fun_add
        (i1.const_mul (![v 4, v 10, v 16] i))).fun_add (hasDerivAt_const t (![v 5, v 11, v 17] i))).congr_deriv ?_
      simp only [Quintic.vel]
      ring
    · funext i
      fin_cases i
      · refine Eq.trans ?_ ((x.2.1 t_start).symm.trans (row 6)); simp [Quintic.vel]; ring
      · refine Eq.trans ?_ ((y.2.1 t_start).symm.trans (row 7)); simp [Quintic.vel]; ring
      · refine Eq.trans ?_ ((z.2.1 t_start).symm.trans (row 8)); simp [Quintic.vel]; ring
    · funext i
      fin_cases i
      · refine Eq.trans ?_ ((x.2.1 t_end).symm.trans (row 9)); simp [Quintic.vel]; ring
      · refine Eq.trans ?_ ((y.2.1 t_end).symm.trans (row 10)); simp [Quintic.vel]; ring
      · refine Eq.trans ?_ ((z.2.1 t_end).symm.trans (row 11)); simp [Quintic.vel]; ring
    · refine (ha t_start i).congr_deriv ?_
      have : i = 0 ∨ i = 1 := by fin_cases i <;> simp at hi ⊢
      rcases this with rfl | rfl
      · exact (x.2.2 t_start).symm.trans (row 12)
      · exact (y.2.2 t_start).symm.trans (row 13)
    · refine (ha t_end i).congr_deriv ?_
      have : i = 0 ∨ i = 1 := by fin_cases i <;> simp at hi ⊢
      rcases this with rfl | rfl
      · exact (x.2.2 t_end).symm.trans (row 14)
      · exact (y.2.2 t_end).symm.trans (row 15)
    · refine Eq.trans ?_ ((z.1 _).symm.trans (row 16)); simp [Quintic.pos]; ring
    · refine Eq.trans ?_ ((z.1 _).symm.trans (row 17)); simp [Quintic.pos]; ring
  · rintro rfl
    unfold Quintic.make
    simp only
    rw [if_pos]
    exact Matrix.det_zero_of_row_eq (i := 0) (j := 3) (by decide) rfl

/-- A step of 10 cm in half a second, 5 cm high. -/
example : (1 : ℝ) ≠ 3 / 2 ∧ ∃ q, Quintic.make (1 : ℝ) (3 / 2) (1 / 20) ![0, 1 / 10, 0] ![1 / 10, 1 / 10, 0] = some q ∧
    q.pos (3 / 2) = ![1 / 10, 1 / 10, 0] := by
  obtain ⟨q, h1, -, h2, -⟩ := (C124 1 (3 / 2) (1 / 20) ![0, 1 / 10, 0] ![1 / 10, 1 / 10, 0]).1 (by norm_num)
  exact ⟨by norm_num, q, h1, h2⟩

end Verif.Humanoid
