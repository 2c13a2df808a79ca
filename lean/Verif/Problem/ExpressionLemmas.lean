/-
Helper lemmas about the expression model (not property theorems).
-/
import Mathlib.Algebra.BigOperators.Group.Finset.Sigma
import Mathlib.Tactic.Ring
import Mathlib.Tactic.Linarith
import Verif.Problem.Expression

namespace Verif.Problem
open Finset

section
variable {K : Type} [Field K]

/-- A zero-padded row gives the same dot product. -/
theorem sum_pad (c n : Nat) (h : c ≤ n) (a x : Nat → K) :
    ∑ j ∈ range n, (if j < c then a j else 0) * x j = ∑ j ∈ range c, a j * x j := by
  have hs : range c ⊆ range n := by
    intro j; simp only [mem_range]; omega
  rw [← sum_subset hs (f := fun j => (if j < c then a j else 0) * x j)]
  · refine sum_congr rfl fun j hj => ?_
    rw [if_pos (mem_range.1 hj)]
  · intro j _ hj
    rw [if_neg (by simpa using hj), zero_mul]

namespace Expr

@[simp] theorem rowVal_piecewiseAdd (e : Expr K) (f : K) (x : Nat → K) (i : Nat) :
    (e.piecewiseAdd f).rowVal x i = e.rowVal x i + f := by
  simp only [rowVal, piecewiseAdd]; ring

@[simp] theorem rowVal_smul (e : Expr K) (f : K) (x : Nat → K) (i : Nat) :
    (e.smul f).rowVal x i = e.rowVal x i * f := by
  simp only [rowVal, smul]
  rw [add_mul, sum_mul]
  congr 1
  exact sum_congr rfl fun j _ => by ring

@[simp] theorem rowVal_neg (e : Expr K) (x : Nat → K) (i : Nat) :
    e.neg.rowVal x i = - e.rowVal x i := by
  simp [neg]

/-- The general (non broadcasting) branch of the sum. -/
theorem rowVal_addMain (e o : Expr K) (x : Nat → K) (i : Nat) :
    rowVal ⟨e.rows, max e.cols o.cols,
      fun i j => (if j < e.cols then e.A i j else 0) + (if j < o.cols then o.A i j else 0),
      fun i => e.b i + o.b i⟩ x i = e.rowVal x i + o.rowVal x i := by
  simp only [rowVal, add_mul, sum_add_distrib]
  rw [sum_pad e.cols _ (le_max_left _ _) (e.A i) x, sum_pad o.cols _ (le_max_right _ _) (o.A i) x]
  ring

@[simp] theorem rowVal_sum (e : Expr K) (x : Nat → K) (i : Nat) :
    e.sum.rowVal x i = ∑ k ∈ range e.rows, e.rowVal x k := by
  simp only [rowVal, sum, sum_mul, sum_add_distrib]
  rw [sum_comm]

theorem rowVal_stack (e o : Expr K) (x : Nat → K) (i : Nat) :
    (e.stack o).rowVal x i = if i < e.rows then e.rowVal x i else o.rowVal x (i - e.rows) := by
  by_cases h : i < e.rows
  · simp only [rowVal, stack, if_pos h]
    rw [sum_pad e.cols _ (le_max_left _ _) (e.A i) x]
  · simp only [rowVal, stack, if_neg h]
    rw [sum_pad o.cols _ (le_max_right _ _) (o.A _) x]

/-- Left multiplication by a matrix. -/
theorem rowVal_matMulMain (M : Mat K) (e : Expr K) (x : Nat → K) (i : Nat) :
    rowVal ⟨M.rows, e.cols, fun i j => ∑ k ∈ range e.rows, M.m i k * e.A k j,
      fun i => ∑ k ∈ range e.rows, M.m i k * e.b k⟩ x i
      = ∑ k ∈ range e.rows, M.m i k * e.rowVal x k := by
  simp only [rowVal, mul_add, sum_add_distrib, sum_mul, mul_sum]
  rw [sum_comm]
  simp only [mul_assoc]

@[simp] theorem length_value (e : Expr K) (x : Nat → K) : (e.value x).length = e.rows := by
  simp [value]

@[simp] theorem getElem_value (e : Expr K) (x : Nat → K) (i : Nat) (h : i < (e.value x).length) :
    (e.value x)[i] = e.rowVal x i := by
  simp [value]

theorem getD_value (e : Expr K) (x : Nat → K) (i : Nat) (h : i < e.rows) (d : K) :
    (e.value x).getD i d = e.rowVal x i := by
  have h' : i < (e.value x).length := by simpa using h
  rw [List.getD, List.getElem?_eq_getElem h']; simp

theorem rowVal_constant (e : Expr K) (h : e.cols = 0) (x : Nat → K) (i : Nat) :
    e.rowVal x i = e.b i := by
  simp [rowVal, h]

theorem value_ext {e o : Expr K} {x : Nat → K} (h : e.rows = o.rows)
    (h' : ∀ i, i < e.rows → e.rowVal x i = o.rowVal x i) : e.value x = o.value x := by
  apply List.ext_getElem
  · simpa using h
  · intro i h1 _; simpa using h' i (by simpa using h1)

/-- Characterisation of a value list. -/
theorem value_eq_iff {e : Expr K} {x : Nat → K} {l : List K} :
    e.value x = l ↔ e.rows = l.length ∧ ∀ i, ∀ h : i < l.length, e.rowVal x i = l[i] := by
  constructor
  · rintro rfl; simp
  · rintro ⟨h, h'⟩
    apply List.ext_getElem
    · simpa using h
    · intro i h1 h2; simpa using h' i h2

/-- Sum of two expressions, row by row, when no broadcast can happen or the
broadcast operand has the same single row. -/
theorem add_rowVal_of_rows {e o r : Expr K} (h : e.add o = .ok r) (hrows : e.rows = o.rows) :
    r.rows = e.rows ∧ ∀ x i, i < e.rows → r.rowVal x i = e.rowVal x i + o.rowVal x i := by
  unfold add at h
  split at h
  · rename_i hc
    simp only [isScalar, isConstant, Bool.and_eq_true, beq_iff_eq] at hc
    cases h
    refine ⟨hrows.symm, fun x i hi => ?_⟩
    have : i = 0 := by omega
    subst this
    rw [rowVal_piecewiseAdd, rowVal_constant e hc.2]; ring
  · split at h
    · rename_i hc
      simp only [isScalar, isConstant, Bool.and_eq_true, beq_iff_eq] at hc
      cases h
      refine ⟨rfl, fun x i hi => ?_⟩
      have : i = 0 := by omega
      subst this
      rw [rowVal_piecewiseAdd, rowVal_constant o hc.2]
    · rw [if_neg (by simpa using hrows)] at h
      cases h
      exact ⟨rfl, fun x i _ => rowVal_addMain e o x i⟩

theorem add_ok_of_rows (e o : Expr K) (h : e.rows = o.rows) : ∃ r, e.add o = .ok r := by
  unfold add
  split
  · exact ⟨_, rfl⟩
  · split
    · exact ⟨_, rfl⟩
    · rw [if_neg (by simpa using h)]; exact ⟨_, rfl⟩

end Expr
end
end Verif.Problem
