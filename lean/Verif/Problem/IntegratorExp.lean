/-
The transition matrices of the integrator (property C25).
  /repo/src/placo/problem/integrator.cpp 90-111
-/
import Mathlib.Analysis.Normed.Algebra.MatrixExponential
import Mathlib.Analysis.SpecialFunctions.Exponential
import Mathlib.Analysis.Calculus.MeanValue
import Mathlib.Analysis.Calculus.Deriv.Mul
import Mathlib.Analysis.Calculus.Deriv.Add
import Mathlib.Analysis.Calculus.Deriv.Pow
import Mathlib.Analysis.Calculus.FDeriv.Linear
import Mathlib.Analysis.Calculus.FDeriv.Comp
import Mathlib.Topology.Algebra.Module.FiniteDimension
import Verif.Problem.IntegratorProps

namespace Verif.Problem
open Matrix NormedSpace

/-- `Integrator::upper_shift_matrix`, integrator.cpp 100-111. -/
def upperShift (order : Nat) : Matrix (Fin (order + 1)) (Fin (order + 1)) ℝ :=
  fun i j => if i.val < order ∧ j.val = i.val + 1 then 1 else 0

/-- `Integrator::AB_matrices`, integrator.cpp 90-98: blocks of `(M dt).exp()`. Eigen's
matrix exponential is taken to be the exact exponential. -/
noncomputable def abMatrices (order : Nat) (M : Matrix (Fin (order + 1)) (Fin (order + 1)) ℝ) (dt : ℝ) :
    (Nat → Nat → ℝ) × (Nat → ℝ) :=
  let Me := exp (dt • M)
  (fun i j => if h : i < order ∧ j < order then Me ⟨i, by omega⟩ ⟨j, by omega⟩ else 0,
   fun i => if h : i < order then Me ⟨i, by omega⟩ ⟨order, by omega⟩ else 0)

/-- Specification: `z` follows the chain of integrators with constant input `u`, i.e.
each component is the derivative of the previous one and the input is the
derivative of the last one. -/
def FollowsChain (order : Nat) (u : ℝ) (z : Nat → ℝ → ℝ) : Prop :=
  ∀ i t, i < order → HasDerivAt (z i) (if i + 1 = order then u else z (i + 1) t) t

/-- Specification: `z` follows `z' = F z + G u` (general system matrix). -/
def FollowsSystem (order : Nat) (F : Nat → Nat → ℝ) (G : Nat → ℝ) (u : ℝ) (z : Nat → ℝ → ℝ) : Prop :=
  ∀ i t, i < order → HasDerivAt (z i) ((∑ j ∈ Finset.range order, F i j * z j t) + G i * u) t

section
attribute [local instance] Matrix.linftyOpNormedRing Matrix.linftyOpNormedAlgebra Matrix.linftyOpNormedSpace
  Matrix.linftyOpNormedAddCommGroup

variable {n : Nat}

/-- Entry of a matrix, as a continuous linear map. -/
noncomputable def entry (i j : Fin n) : Matrix (Fin n) (Fin n) ℝ →L[ℝ] ℝ :=
  LinearMap.toContinuousLinearMap
    { toFun := fun M => M i j, map_add' := fun _ _ => rfl, map_smul' := fun _ _ => rfl }

theorem entry_deriv (M : Matrix (Fin n) (Fin n) ℝ) (t : ℝ) (i j : Fin n) :
    HasDerivAt (fun s : ℝ => exp (s • M) i j) ((exp (t • M) * M) i j) t := by
  have h := hasDerivAt_exp_smul_const (𝕂 := ℝ) M t
  exact (entry i j).hasFDerivAt.comp_hasDerivAt t h

theorem entry_deriv' (M : Matrix (Fin n) (Fin n) ℝ) (t : ℝ) (i j : Fin n) :
    HasDerivAt (fun s : ℝ => exp (s • M) i j) ((M * exp (t • M)) i j) t := by
  have h := hasDerivAt_exp_smul_const' (𝕂 := ℝ) M t
  exact (entry i j).hasFDerivAt.comp_hasDerivAt t h

theorem exp_smul_add (M : Matrix (Fin n) (Fin n) ℝ) (s t : ℝ) : exp ((s + t) • M) = exp (s • M) * exp (t • M) := by
  rw [add_smul]
  exact Matrix.exp_add_of_commute _ _ ((Commute.refl M).smul_left s |>.smul_right t)

theorem exp_smul_zero (M : Matrix (Fin n) (Fin n) ℝ) : exp ((0 : ℝ) • M) = 1 := by
  rw [zero_smul]; exact exp_zero

/-- A solution of `w' = M w` is `exp (t M) w(0)`. -/
theorem linear_ode (M : Matrix (Fin n) (Fin n) ℝ) (w : Fin n → ℝ → ℝ)
    (hw : ∀ i t, HasDerivAt (w i) (∑ j, M i j * w j t) t) (t : ℝ) (i : Fin n) :
    w i t = ∑ j, exp (t • M) i j * w j 0 := by
  -- `exp (-t M) w(t)` is constant
  have hE : ∀ (t : ℝ) (i j : Fin n), HasDerivAt (fun s : ℝ => exp ((-s) • M) i j) (-(exp ((-t) • M) * M) i j) t := by
    intro t i j
    have h1 := entry_deriv M (-t) i j
    have h2 := h1.comp t (hasDerivAt_neg t)
    simpa [Function.comp_def] using h2
  have hg : ∀ (i : Fin n) (t : ℝ), HasDerivAt (fun s => ∑ j, exp ((-s) • M) i j * w j s) 0 t := by
    intro i t
    have h := HasDerivAt.fun_sum (u := Finset.univ) fun j _ => (hE t i j).mul (hw j t)
    refine h.congr_deriv ?_
    simp only [Finset.sum_add_distrib, Matrix.mul_apply, neg_mul, Finset.sum_neg_distrib, Finset.mul_sum, Finset.sum_mul]
    rw [neg_add_eq_zero, Finset.sum_comm]
    exact Finset.sum_congr rfl fun a _ => Finset.sum_congr rfl fun b _ => by ring
  have hconst : ∀ (i : Fin n) (t : ℝ), ∑ j, exp ((-t) • M) i j * w j t = w i 0 := by
    intro i t
    have h := is_const_of_deriv_eq_zero (f := fun s => ∑ j, exp ((-s) • M) i j * w j s)
      (fun s => (hg i s).differentiableAt) (fun s => (hg i s).deriv) t 0
    rw [h]
    simp only [neg_zero, exp_smul_zero]
    simp [Matrix.one_apply]
  have hinv : exp (t • M) * exp ((-t) • M) = 1 := by
    rw [← exp_smul_add, add_neg_cancel, exp_smul_zero]
  calc w i t = ∑ j, (exp (t • M) * exp ((-t) • M)) i j * w j t := by rw [hinv]; simp [Matrix.one_apply]
    _ = ∑ j, exp (t • M) i j * ∑ k, exp ((-t) • M) j k * w k t := by
        simp only [Matrix.mul_apply, Finset.sum_mul, Finset.mul_sum]
        rw [Finset.sum_comm]
        exact Finset.sum_congr rfl fun a _ => Finset.sum_congr rfl fun b _ => by ring
    _ = _ := Finset.sum_congr rfl fun j _ => by rw [hconst j t]

end

/-- State extended with the input. -/
def extend (order : Nat) (z : Nat → ℝ → ℝ) (u : ℝ) : Fin (order + 1) → ℝ → ℝ :=
  fun i t => if i.val < order then z i.val t else u

theorem sum_extend (order : Nat) (f : Fin (order + 1) → ℝ) :
    ∑ j, f j = (∑ j : Fin order, f j.castSucc) + f (Fin.last order) := Fin.sum_univ_castSucc f

/-- **C25 (general system).** For any system matrix whose last row is zero, the
transition matrices over any duration map the state and the constant input to
the value of *every* solution of the differential equation. -/
theorem C25_system (order : Nat) (M : Matrix (Fin (order + 1)) (Fin (order + 1)) ℝ)
    (hM : ∀ j, M (Fin.last order) j = 0) (u : ℝ) (z : Nat → ℝ → ℝ)
    (hz : FollowsSystem order
      (fun i j => if h : i < order ∧ j < order then M ⟨i, by omega⟩ ⟨j, by omega⟩ else 0)
      (fun i => if h : i < order then M ⟨i, by omega⟩ ⟨order, by omega⟩ else 0) u z)
    (t : ℝ) (i : Nat) (hi : i < order) :
    z i t = mvec order (abMatrices order M t).1 (fun j => z j 0) i + (abMatrices order M t).2 i * u := by
  have hw : ∀ (i : Fin (order + 1)) (t : ℝ), HasDerivAt (extend order z u i) (∑ j, M i j * extend order z u j t) t := by
    intro i t
    by_cases hi : i.val < order
    · have h := hz i.val t hi
      have he : extend order z u i = z i.val := by funext s; simp [extend, hi]
      rw [he]
      refine h.congr_deriv ?_
      rw [sum_extend, Finset.sum_range]
      congr 1
      · refine Finset.sum_congr rfl fun j _ => ?_
        have hij : i.val < order ∧ j.val < order := ⟨hi, j.2⟩
        simp only [dif_pos hij, extend, Fin.val_castSucc]
        rw [if_pos j.2]
        rfl
      · simp only [dif_pos hi, extend, Fin.val_last, lt_irrefl, if_false]
        rfl
    · have hl : i = Fin.last order := Fin.ext (by have := i.2; simp only [Fin.val_last]; omega)
      subst hl
      have he : extend order z u (Fin.last order) = fun _ => u := by funext s; simp [extend]
      rw [he]
      refine (hasDerivAt_const t u).congr_deriv ?_
      simp [hM]
  have h := linear_ode M (extend order z u) hw t ⟨i, by omega⟩
  simp only [extend, hi, if_true] at h
  rw [h, sum_extend, mvec, Finset.sum_range]
  congr 1
  · refine Finset.sum_congr rfl fun j _ => ?_
    simp only [abMatrices]
    rw [dif_pos ⟨hi, j.2⟩]
    simp only [Fin.val_castSucc, j.2, if_true]; rfl
  · simp only [abMatrices]
    rw [dif_pos hi]
    simp only [Fin.val_last, lt_irrefl, if_false]; rfl

/-- **C25 (chain of integrators).** -/
theorem C25_chain (order : Nat) (u : ℝ) (z : Nat → ℝ → ℝ) (hz : FollowsChain order u z) (t : ℝ)
    (i : Nat) (hi : i < order) :
    z i t = mvec order (abMatrices order (upperShift order) t).1 (fun j => z j 0) i
      + (abMatrices order (upperShift order) t).2 i * u := by
  refine C25_system order (upperShift order) (fun j => by simp [upperShift]) u z (fun i t hi => ?_) t i hi
  refine (hz i t hi).congr_deriv ?_
  have hin : ∀ j, (if h : i < order ∧ j < order then upperShift order ⟨i, by omega⟩ ⟨j, by omega⟩ else 0)
      = if j < order ∧ j = i + 1 then 1 else 0 := by
    intro j
    by_cases hj : j < order
    · rw [dif_pos ⟨hi, hj⟩]; simp [upperShift, hi, hj]
    · rw [dif_neg (by omega), if_neg (by omega)]
  simp only [hin, dif_pos hi]
  by_cases hl : i + 1 = order
  · rw [if_pos hl, Finset.sum_eq_zero, zero_add]
    · simp [upperShift, hi, hl]
    · intro j hj
      rw [if_neg (by omega), zero_mul]
  · rw [if_neg hl, Finset.sum_eq_single (i + 1)]
    · have hlast : ¬ (order = i + 1) := by omega
      rw [if_pos (by omega)]
      simp [upperShift, hlast]
    · intro j _ hj
      rw [if_neg (by omega), zero_mul]
    · intro h; exact absurd (Finset.mem_range.2 (by omega)) h

/-- **C25 (zero duration).** -/
theorem C25_zero (order : Nat) (M : Matrix (Fin (order + 1)) (Fin (order + 1)) ℝ) :
    (∀ i j, i < order → j < order → (abMatrices order M 0).1 i j = if i = j then 1 else 0) ∧
    (∀ i, i < order → (abMatrices order M 0).2 i = 0) := by
  refine ⟨fun i j hi hj => ?_, fun i hi => ?_⟩
  · simp only [abMatrices, exp_smul_zero]
    rw [dif_pos ⟨hi, hj⟩, Matrix.one_apply]
    simp
  · simp only [abMatrices, exp_smul_zero]
    rw [dif_pos hi, Matrix.one_apply, if_neg]
    intro h; simp at h; omega

/-- Last row of the exponential when the last row of `M` is zero. -/
theorem last_row (order : Nat) (M : Matrix (Fin (order + 1)) (Fin (order + 1)) ℝ)
    (hM : ∀ j, M (Fin.last order) j = 0) (t : ℝ) (j : Fin (order + 1)) :
    exp (t • M) (Fin.last order) j = if Fin.last order = j then 1 else 0 := by
  -- the last row is the solution of an equation with zero derivative
  have h : ∀ s, HasDerivAt (fun s : ℝ => exp (s • M) (Fin.last order) j) 0 s := by
    intro s
    refine (entry_deriv' M s (Fin.last order) j).congr_deriv ?_
    rw [Matrix.mul_apply]
    exact Finset.sum_eq_zero fun k _ => by rw [hM k, zero_mul]
  have hc := is_const_of_deriv_eq_zero (f := fun s : ℝ => exp (s • M) (Fin.last order) j)
    (fun s => (h s).differentiableAt) (fun s => (h s).deriv) t 0
  refine hc.trans ?_
  show (exp ((0 : ℝ) • M)) (Fin.last order) j = _
  rw [exp_smul_zero, Matrix.one_apply]

/-- **C25 (composition).** Running for `s` and then for `t` with the same input is
running for `s + t`. -/
theorem C25_composition (order : Nat) (M : Matrix (Fin (order + 1)) (Fin (order + 1)) ℝ)
    (hM : ∀ j, M (Fin.last order) j = 0) (s t : ℝ) (X : Nat → ℝ) (u : ℝ) (i : Nat) (hi : i < order) :
    mvec order (abMatrices order M (s + t)).1 X i + (abMatrices order M (s + t)).2 i * u
      = mvec order (abMatrices order M t).1
          (fun j => mvec order (abMatrices order M s).1 X j + (abMatrices order M s).2 j * u) i
        + (abMatrices order M t).2 i * u := by
  -- extended state
  let w : Fin (order + 1) → ℝ := fun j => if j.val < order then X j.val else u
  have hrun : ∀ (d : ℝ) (i : Nat) (hi : i < order),
      mvec order (abMatrices order M d).1 X i + (abMatrices order M d).2 i * u
        = ∑ j, exp (d • M) ⟨i, by omega⟩ j * w j := by
    intro d i hi
    rw [sum_extend, mvec, Finset.sum_range]
    congr 1
    · refine Finset.sum_congr rfl fun j _ => ?_
      simp only [abMatrices]
      rw [dif_pos ⟨hi, j.2⟩]
      simp only [w, Fin.val_castSucc, j.2, if_true]; rfl
    · simp only [abMatrices]
      rw [dif_pos hi]
      simp only [w, Fin.val_last, lt_irrefl, if_false]; rfl
  have hl : ∑ j, exp (s • M) (Fin.last order) j * w j = u := by
    simp only [last_row order M hM s, ite_mul, one_mul, zero_mul]
    rw [Finset.sum_ite_eq Finset.univ, if_pos (Finset.mem_univ _)]
    simp only [w, Fin.val_last, lt_irrefl, if_false]
  rw [hrun (s + t) i hi, add_comm s t, exp_smul_add]
  have : ∑ j, (exp (t • M) * exp (s • M)) ⟨i, by omega⟩ j * w j
      = ∑ k, exp (t • M) ⟨i, by omega⟩ k * ∑ j, exp (s • M) k j * w j := by
    simp only [Matrix.mul_apply, Finset.sum_mul, Finset.mul_sum]
    rw [Finset.sum_comm]
    exact Finset.sum_congr rfl fun a _ => Finset.sum_congr rfl fun b _ => by ring
  rw [this, sum_extend, hl, mvec, Finset.sum_range]
  congr 1
  · refine Finset.sum_congr rfl fun k _ => ?_
    rw [hrun s k.val k.2]
    simp only [abMatrices]
    rw [dif_pos ⟨hi, k.2⟩]
    rfl
  · simp only [abMatrices]
    rw [dif_pos hi]
    rfl

/-- Non-vacuity: `z = (t²/2 u + v t + p, u t + v)` follows the chain of order 2. -/
example (p v u : ℝ) : FollowsChain 2 u (fun i t => if i = 0 then t ^ 2 / 2 * u + v * t + p else u * t + v) := by
  intro i t hi
  have hi' : i = 0 ∨ i = 1 := by omega
  rcases hi' with rfl | rfl
  · simp only [if_true]
    have h := (((hasDerivAt_pow 2 t).div_const 2).mul_const u).add ((hasDerivAt_id t).const_mul v) |>.add_const p
    refine h.congr_deriv ?_
    simp; ring
  · simp
    have h := ((hasDerivAt_id t).const_mul u).add_const v
    simpa using h

/-- So the double integrator's transition matrices are the usual ones. -/
theorem C25_double_integrator (p v u t : ℝ) :
    mvec 2 (abMatrices 2 (upperShift 2) t).1 (fun j => if j = 0 then p else v) 0
      + (abMatrices 2 (upperShift 2) t).2 0 * u = t ^ 2 / 2 * u + v * t + p := by
  have hz : FollowsChain 2 u (fun i t => if i = 0 then t ^ 2 / 2 * u + v * t + p else u * t + v) := by
    intro i t hi
    have hi' : i = 0 ∨ i = 1 := by omega
    rcases hi' with rfl | rfl
    · simp only [if_true]
      have h := (((hasDerivAt_pow 2 t).div_const 2).mul_const u).add ((hasDerivAt_id t).const_mul v) |>.add_const p
      refine h.congr_deriv ?_
      simp; ring
    · simp
      have h := ((hasDerivAt_id t).const_mul u).add_const v
      simpa using h
  have h := C25_chain 2 u _ hz t 0 (by omega)
  simp at h
  rw [h]

end Verif.Problem
