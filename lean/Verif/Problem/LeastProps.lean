/-
Property C187 (problem level): with a positive regularisation there is one point of least cost only.
-/
import Verif.Problem.WeightsProps

namespace Verif.Problem
open Finset

section
variable {K : Type} [Field K] [LinearOrder K] [IsStrictOrderedRing K]

/-- The middle of two points. -/
def midpoint (x y : Nat → K) : Nat → K := fun j => (x j + y j) / 2

theorem rowVal_midpoint (e : Expr K) (x y : Nat → K) (i : Nat) : e.rowVal (midpoint x y) i = (e.rowVal x i + e.rowVal y i) / 2 := by
  unfold Expr.rowVal midpoint
  have : ∑ j ∈ range e.cols, e.A i j * ((x j + y j) / 2) = (∑ j ∈ range e.cols, e.A i j * x j + ∑ j ∈ range e.cols, e.A i j * y j) / 2 := by
    rw [← sum_add_distrib, sum_div]
    exact sum_congr rfl fun j _ => by ring
  rw [this]
  ring

theorem hardSat_midpoint {cs : List (Constr K)} {x y : Nat → K} (hx : HardSat cs x) (hy : HardSat cs y) : HardSat cs (midpoint x y) := by
  intro c hc hp
  have h1 := hx c hc hp
  have h2 := hy c hc hp
  unfold Constr.Sat at h1 h2 ⊢
  cases ht : c.ty with
  | equality =>
    rw [ht] at h1 h2
    intro i hi
    rw [rowVal_midpoint, h1 i hi, h2 i hi]
    simp
  | inequality =>
    rw [ht] at h1 h2
    intro i hi
    rw [rowVal_midpoint]
    have := h1 i hi
    have := h2 i hi
    linarith

theorem violation_midpoint (a b : K) : violation ((a + b) / 2) ^ 2 ≤ (violation a ^ 2 + violation b ^ 2) / 2 := by
  unfold violation
  split <;> split <;> split <;> nlinarith [sq_nonneg (a - b), sq_nonneg a, sq_nonneg b, sq_nonneg (a + b)]

theorem softPenalty_midpoint (c : Constr K) (hw : c.priority = .soft → 0 ≤ c.weight) (x y : Nat → K) :
    softPenalty (midpoint x y) c ≤ (softPenalty x c + softPenalty y c) / 2 := by
  unfold softPenalty
  cases hp : c.priority with
  | hard => simp
  | soft =>
    have hw := hw hp
    cases c.ty with
    | equality =>
      simp only
      rw [← sum_add_distrib, sum_div]
      refine sum_le_sum fun i _ => ?_
      rw [rowVal_midpoint]
      nlinarith [mul_nonneg hw (sq_nonneg (c.expr.rowVal x i - c.expr.rowVal y i))]
    | inequality =>
      simp only
      rw [← sum_add_distrib, sum_div]
      refine sum_le_sum fun i _ => ?_
      rw [rowVal_midpoint]
      have := mul_le_mul_of_nonneg_left (violation_midpoint (c.expr.rowVal x i) (c.expr.rowVal y i)) hw
      linarith

/-- With weights that are not negative and a positive regularisation, no other point that satisfies the hard constraints costs as little as
the one of least cost. -/
theorem least_cost_unique (n : Nat) (reg : K) (hreg : 0 < reg) (cs : List (Constr K)) (hw : ∀ c ∈ cs, c.priority = .soft → 0 ≤ c.weight)
    (x y : Nat → K) (hx : HardSat cs x) (hy : HardSat cs y) (hm : ∀ z, HardSat cs z → specCost n reg cs x ≤ specCost n reg cs z)
    (hle : specCost n reg cs y ≤ specCost n reg cs x) : ∀ j, j < n → y j = x j := by
  have h1 := hm _ (hardSat_midpoint hx hy)
  have h2 : specCost n reg cs (midpoint x y) + reg / 4 * ∑ j ∈ range n, (x j - y j) ^ 2 ≤ (specCost n reg cs x + specCost n reg cs y) / 2 := by
    unfold specCost
    have e1 : ∑ j ∈ range n, midpoint x y j ^ 2 = (∑ j ∈ range n, x j ^ 2 + ∑ j ∈ range n, y j ^ 2) / 2 - (∑ j ∈ range n, (x j - y j) ^ 2) / 4 := by
      rw [← sum_add_distrib, sum_div, sum_div, ← sum_sub_distrib]
      exact sum_congr rfl fun j _ => by unfold midpoint; ring
    have e2 : (cs.map (softPenalty (midpoint x y))).sum ≤ ((cs.map (softPenalty x)).sum + (cs.map (softPenalty y)).sum) / 2 := by
      clear h1 hm hle hx hy
      induction cs with
      | nil => simp
      | cons c cs ih =>
        simp only [List.map_cons, List.sum_cons]
        have i1 := ih fun d hd => hw d (List.mem_cons_of_mem _ hd)
        have i2 := softPenalty_midpoint c (hw c List.mem_cons_self) x y
        linarith
    rw [e1]
    linarith
  have h3 : ∑ j ∈ range n, (x j - y j) ^ 2 ≤ 0 := by
    have : reg / 4 * ∑ j ∈ range n, (x j - y j) ^ 2 ≤ reg / 4 * 0 := by linarith
    exact le_of_mul_le_mul_left this (by positivity)
  intro j hj
  have h4 : (x j - y j) ^ 2 ≤ ∑ j ∈ range n, (x j - y j) ^ 2 :=
    single_le_sum (f := fun j => (x j - y j) ^ 2) (fun i _ => sq_nonneg _) (mem_range.2 hj)
  have h5 : (x j - y j) ^ 2 = 0 := le_antisymm (h4.trans h3) (sq_nonneg _)
  exact (sub_eq_zero.1 (pow_eq_zero_iff (two_ne_zero)|>.1 h5)).symm

end
end Verif.Problem
