/-
Exact form of C74: when the noise keeps the coordinates of a continuous joint on the unit circle.
-/
import Verif.Robot.TorqueProps

namespace Verif.Robot
open Finset

/-- **C74, exactly, for a continuous joint** (its cosine and sine are the coordinates `k` and `k + 1`, between the limits that
pinocchio gives to them): the result still encodes an angle if and only if the noise is 0 or 1 or the drawn angle is the current one. -/
theorem C74_exact {K : Type} [Field K] [LinearOrder K] [IsStrictOrderedRing K] (nq : Nat) (lowest max : K)
    (lower upper random q : Nat → K) (noise : K) (k : Nat) (h7 : 7 ≤ k) (hk : k + 1 < nq)
    (hl : lower k ≠ lowest ∧ lower (k + 1) ≠ lowest) (hu : upper k ≠ max ∧ upper (k + 1) ≠ max)
    (hq : q k ^ 2 + q (k + 1) ^ 2 = 1) (hr : random k ^ 2 + random (k + 1) ^ 2 = 1) :
    addQNoise nq lowest max lower upper random noise q k ^ 2 + addQNoise nq lowest max lower upper random noise q (k + 1) ^ 2 = 1 ↔
      noise = 0 ∨ noise = 1 ∨ (random k = q k ∧ random (k + 1) = q (k + 1)) := by
  have a := C74_amount nq lowest max lower upper random q noise k h7 (by omega) hl.1 hu.1
  have b := C74_amount nq lowest max lower upper random q noise (k + 1) (by omega) hk hl.2 hu.2
  rw [sub_eq_iff_eq_add] at a b
  rw [a, b]
  have key : ((1 - noise) * (q k - random k) + random k) ^ 2 + ((1 - noise) * (q (k + 1) - random (k + 1)) + random (k + 1)) ^ 2 - 1 =
      -(noise * (1 - noise) * ((random k - q k) ^ 2 + (random (k + 1) - q (k + 1)) ^ 2)) := by
    linear_combination (1 - noise) * hq + noise * hr
  rw [← sub_eq_zero, key, neg_eq_zero, mul_eq_zero, mul_eq_zero]
  constructor
  · rintro ((h | h) | h)
    · exact Or.inl h
    · exact Or.inr (Or.inl (by linear_combination -h))
    · refine Or.inr (Or.inr ?_)
      have h1 := sq_nonneg (random k - q k)
      have h2 := sq_nonneg (random (k + 1) - q (k + 1))
      have e1 : (random k - q k) ^ 2 = 0 := by linarith
      have e2 : (random (k + 1) - q (k + 1)) ^ 2 = 0 := by linarith
      exact ⟨sub_eq_zero.1 (pow_eq_zero_iff (two_ne_zero) |>.1 e1), sub_eq_zero.1 (pow_eq_zero_iff (two_ne_zero) |>.1 e2)⟩
  · rintro (h | h | ⟨h1, h2⟩)
    · exact Or.inl (Or.inl h)
    · exact Or.inl (Or.inr (by rw [h]; ring))
    · right; rw [h1, h2]; ring

/-- A quarter of a turn drawn with noise 1/2: the result is `(1/2, 1/2)`, whose square norm is `1/2`. -/
example : addQNoise (K := ℚ) 9 (-1000) 1000 (fun _ => -101 / 100) (fun _ => 101 / 100) (fun k => if k = 8 then 1 else 0) (1 / 2)
    (fun k => if k = 7 then 1 else 0) 7 = 1 / 2 := by norm_num [addQNoise]

end Verif.Robot
