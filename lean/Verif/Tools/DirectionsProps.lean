/-
Property C126: the sampled directions.
-/
import Mathlib.Analysis.SpecialFunctions.Trigonometric.Angle
import Mathlib.Tactic.FieldSimp
import Mathlib.Tactic.LinearCombination
import Verif.Tools.Transform

namespace Verif.Tools
open Finset Real

/-- **C126**, in the plane: the directions are unit vectors, each one is the previous one turned by one `n`-th of a turn (and the
first one follows the last), and they are all different. -/
theorem C126_plane (n : Nat) (hn : 0 < n) :
    (∀ i, directions2d n i 0 ^ 2 + directions2d n i 1 ^ 2 = 1) ∧
    directions2d n 0 = ![1, 0] ∧
    (∀ i, directions2d n (i + 1) =
      ![directions2d n i 0 * cos (2 * π / n) - directions2d n i 1 * sin (2 * π / n),
        directions2d n i 0 * sin (2 * π / n) + directions2d n i 1 * cos (2 * π / n)]) ∧
    directions2d n n = directions2d n 0 ∧
    (∀ i j, i < n → j < n → directions2d n i = directions2d n j → i = j) := by
  have hn' : (n : ℝ) ≠ 0 := by positivity
  refine ⟨fun i => ?_, ?_, fun i => ?_, ?_, fun i j hi hj h => ?_⟩
  · simp [directions2d]
  · simp [directions2d]
  · unfold directions2d
    have : 2 * π * ((i + 1 : ℕ) : ℝ) / n = 2 * π * i / n + 2 * π / n := by push_cast; field_simp
    simp only [this, cos_add, sin_add, Matrix.cons_val_zero, Matrix.cons_val_one]
    congr 1
    congr 1
    ring
  · unfold directions2d
    have : 2 * π * (n : ℝ) / n = 2 * π := by field_simp
    simp [this]
  · have h0 := congrFun h 0
    have h1 := congrFun h 1
    simp only [directions2d, Matrix.cons_val_zero, Matrix.cons_val_one] at h0 h1
    have ha := Real.Angle.cos_sin_inj h0 h1
    rw [Real.Angle.angle_eq_iff_two_pi_dvd_sub] at ha
    obtain ⟨k, hk⟩ := ha
    have hp : (π : ℝ) ≠ 0 := pi_ne_zero
    have e : (i : ℝ) - j = n * k := by
      field_simp at hk
      linear_combination hk
    have e' : (i : ℤ) - j = n * k := by exact_mod_cast e
    have hk0 : k = 0 := by
      by_contra hne
      rcases lt_or_gt_of_ne hne with h | h
      · have : (n : ℤ) * k ≤ -n := by nlinarith
        omega
      · have : (n : ℤ) ≤ n * k := by nlinarith
        omega
    rw [hk0, mul_zero] at e'
    omega

/-- **C126**, in space: with a positive `epsilon` (or at least two directions), the directions are defined, they are unit vectors,
their third coordinates are regularly spaced and symmetric with respect to 0 (so the directions are all different), and the
horizontal part of each one is turned from the first by a number of turns of `i` over the golden ratio. -/
theorem C126_space (n : Nat) (epsilon : ℝ) (he : 0 ≤ epsilon) (hn : 2 ≤ n ∨ (1 ≤ n ∧ 0 < epsilon)) :
    ∃ d : Nat → V3, (∀ i, i < n → directions3d n epsilon i = some (d i)) ∧
      (∀ i, i < n → d i 0 ^ 2 + d i 1 ^ 2 + d i 2 ^ 2 = 1) ∧
      (∀ i, i + 1 < n → d i 2 - d (i + 1) 2 = 2 / ((n : ℝ) - 1 + 2 * epsilon)) ∧
      (∀ i, i < n → d (n - 1 - i) 2 = -d i 2) ∧
      (∀ i, i < n → d i 0 = sqrt (1 - d i 2 ^ 2) * cos (2 * π * (i / ((1 + sqrt 5) / 2))) ∧
        d i 1 = sqrt (1 - d i 2 ^ 2) * sin (2 * π * (i / ((1 + sqrt 5) / 2)))) ∧
      (∀ i j, i < n → j < n → d i = d j → i = j) := by
  have hpos : 0 < (n : ℝ) - 1 + 2 * epsilon := by
    rcases hn with h | ⟨h, h'⟩
    · have : (2 : ℝ) ≤ n := by exact_mod_cast h
      linarith
    · have : (1 : ℝ) ≤ n := by exact_mod_cast h
      linarith
  set D := (n : ℝ) - 1 + 2 * epsilon with hD
  let y : Nat → ℝ := fun i => ((i : ℝ) + epsilon) / D
  have hy0 : ∀ i, 0 ≤ y i := fun i => div_nonneg (by positivity) hpos.le
  have hy1 : ∀ i, i < n → y i ≤ 1 := by
    intro i hi
    have : (i : ℝ) + 1 ≤ n := by exact_mod_cast hi
    rw [div_le_one hpos, hD]
    linarith
  let d : Nat → V3 := fun i => ![sin (arccos (1 - 2 * y i)) * cos (2 * π * Int.fract ((i : ℝ) / ((1 + sqrt 5) / 2))),
    sin (arccos (1 - 2 * y i)) * sin (2 * π * Int.fract ((i : ℝ) / ((1 + sqrt 5) / 2))), cos (arccos (1 - 2 * y i))]
  have hz : ∀ i, i < n → d i 2 = 1 - 2 * y i := by
    intro i hi
    show cos (arccos (1 - 2 * y i)) = _
    exact cos_arccos (by linarith [hy1 i hi]) (by linarith [hy0 i])
  refine ⟨d, fun i hi => ?_, fun i hi => ?_, fun i hi => ?_, fun i hi => ?_, fun i hi => ?_, fun i j hi hj h => ?_⟩
  · unfold directions3d
    simp only
    rw [if_neg hpos.ne', if_neg]
    show ¬ (1 - 2 * y i < -1 ∨ 1 < 1 - 2 * y i)
    rintro (h | h)
    · linarith [hy1 i hi]
    · linarith [hy0 i]
  · have h1 := sin_sq_add_cos_sq (2 * π * Int.fract ((i : ℝ) / ((1 + sqrt 5) / 2)))
    have h2 := sin_sq_add_cos_sq (arccos (1 - 2 * y i))
    show (sin (arccos (1 - 2 * y i)) * _) ^ 2 + (sin (arccos (1 - 2 * y i)) * _) ^ 2 + cos (arccos (1 - 2 * y i)) ^ 2 = 1
    linear_combination sin (arccos (1 - 2 * y i)) ^ 2 * h1 + h2
  · rw [hz i (by omega), hz (i + 1) hi]
    show 1 - 2 * (((i : ℝ) + epsilon) / D) - (1 - 2 * ((((i + 1 : ℕ) : ℝ) + epsilon) / D)) = 2 / D
    push_cast
    field_simp
    ring
  · rw [hz i hi, hz (n - 1 - i) (by omega)]
    show 1 - 2 * ((((n - 1 - i : ℕ) : ℝ) + epsilon) / D) = -(1 - 2 * (((i : ℝ) + epsilon) / D))
    have : ((n - 1 - i : ℕ) : ℝ) = n - 1 - i := by
      rw [Nat.sub_sub, Nat.cast_sub (by omega)]; push_cast; ring
    rw [this]
    field_simp
    rw [hD]
    ring
  · have hs : sqrt (1 - d i 2 ^ 2) = sin (arccos (1 - 2 * y i)) := by
      rw [hz i hi, sin_arccos]
    have hper : ∀ x : ℝ, cos (2 * π * Int.fract x) = cos (2 * π * x) ∧ sin (2 * π * Int.fract x) = sin (2 * π * x) := by
      intro x
      have : 2 * π * Int.fract x = 2 * π * x - ⌊x⌋ * (2 * π) := by unfold Int.fract; ring
      rw [this]
      exact ⟨cos_sub_int_mul_two_pi _ _, sin_sub_int_mul_two_pi _ _⟩
    rw [hs, ← (hper _).1, ← (hper _).2]
    exact ⟨rfl, rfl⟩
  · have := congrFun h 2
    rw [hz i hi, hz j hj] at this
    have h1 : y i = y j := by linarith
    have h2 : ((i : ℝ) + epsilon) = ((j : ℝ) + epsilon) := by
      have : ((i : ℝ) + epsilon) / D = ((j : ℝ) + epsilon) / D := h1
      field_simp at this
      exact this
    exact_mod_cast add_right_cancel h2

/-- A single direction with a null `epsilon` is not defined (0 divided by 0). -/
theorem C126_single : directions3d 1 0 0 = none := by
  unfold directions3d
  simp

/-- The default `epsilon`. -/
example : (0 : ℝ) ≤ 1 / 2 ∧ (2 ≤ 1 ∨ (1 ≤ 1 ∧ (0 : ℝ) < 1 / 2)) := ⟨by norm_num, .inr ⟨le_rfl, by norm_num⟩⟩

end Verif.Tools
