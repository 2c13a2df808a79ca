/-
Properties C22 (polynomial derivatives) and C23 (problem polynomials).
-/
import Mathlib.Algebra.Polynomial.Derivative
import Mathlib.Data.Nat.Factorial.BigOperators
import Mathlib.Data.Rat.Cast.Order
import Mathlib.Tactic.Ring
import Mathlib.Tactic.Linarith
import Verif.Problem.ExpressionLemmas
import Verif.Problem.ProblemSolveProps
import Verif.Problem.ConstraintProps
import Verif.Tools.Polynom

namespace Verif.Tools
open Finset Verif.Problem

/-- The products computed by the code fit in an `int`. -/
def FitsInt (degree derivative : Nat) : Prop := (degree.descFactorial derivative : Int) ≤ intMax

instance (degree derivative : Nat) : Decidable (FitsInt degree derivative) := by
  unfold FitsInt; infer_instance

theorem derivLoop_eq (derivative : Nat) : ∀ (c : Nat) (degree : Nat), derivative ≤ degree →
    derivLoop (c : Int) degree derivative =
      if ((c * degree.descFactorial derivative : Nat) : Int) ≤ intMax ∨ derivative = 0
      then .ok ((c * degree.descFactorial derivative : Nat) : Int) else .error .ub := by
  induction derivative with
  | zero => intro c degree _; simp [derivLoop]
  | succ k ih =>
    intro c degree hk
    obtain ⟨m, rfl⟩ : ∃ m, degree = m + 1 := ⟨degree - 1, by omega⟩
    have h1 : (c : Int) * ((m + 1 : Nat) : Int) = ((c * (m + 1) : Nat) : Int) := by push_cast; ring
    have h2 : ((m + 1 : Nat) : Int) - 1 = (m : Int) := by push_cast; ring
    have h3 : c * (m + 1).descFactorial (k + 1) = c * (m + 1) * m.descFactorial k := by
      rw [Nat.succ_descFactorial_succ]; ring
    have hpos : 1 ≤ m.descFactorial k := Nat.descFactorial_pos.2 (by omega)
    unfold derivLoop
    rw [h1, h2, h3]
    by_cases hle : intMax < ((c * (m + 1) : Nat) : Int)
    · rw [if_pos hle, if_neg]
      rintro (h | h)
      · have : c * (m + 1) ≤ c * (m + 1) * m.descFactorial k := Nat.le_mul_of_pos_right _ hpos
        omega
      · omega
    · rw [if_neg hle, ih (c * (m + 1)) m (by omega)]
      by_cases hk0 : k = 0
      · subst hk0
        simp only [Nat.descFactorial_zero, mul_one]
        rw [if_pos (Or.inr trivial), if_pos (Or.inl (not_lt.1 hle))]
      · simp [hk0]

/-- The loop computes the falling factorial unless it overflows. -/
theorem derivativeCoefficient_eq (degree derivative : Nat) :
    derivativeCoefficient degree derivative =
      if FitsInt degree derivative then .ok (degree.descFactorial derivative : Int) else .error .ub := by
  unfold derivativeCoefficient
  by_cases h : degree < derivative
  · have h0 := Nat.descFactorial_of_lt h
    have hf : FitsInt degree derivative := by unfold FitsInt; rw [h0]; decide
    rw [if_pos h, if_pos hf, h0]; rfl
  · rw [if_neg h]
    have := derivLoop_eq derivative 1 degree (by omega)
    simp only [one_mul] at this
    rw [show (1 : Int) = ((1 : Nat) : Int) from rfl, this]
    by_cases hf : FitsInt degree derivative
    · have hf' : (degree.descFactorial derivative : Int) ≤ intMax := hf
      rw [if_pos hf, if_pos (Or.inl hf')]
    · rw [if_neg hf, if_neg]
      rintro (h1 | h1)
      · exact hf h1
      · subst h1; exact hf (by unfold FitsInt; simp [intMax])

section
variable {K : Type} [Field K]

theorem range'_succ_foldlM {β : Type} (f : β → Nat → Except Err β) (s n : Nat) (b : β) :
    (List.range' s (n + 1)).foldlM f b = (List.range' s n).foldlM f b >>= fun b' => f b' (s + n) := by
  rw [List.range'_concat, List.foldlM_append]
  simp

theorem value_loop (c : Vec K) (x : K) (k m : Nat) (h : ∀ o, k ≤ o → o < k + m → FitsInt o k) :
    (List.range' k m).foldlM (valueStep c x k) (0, 1)
      = .ok (∑ i ∈ range m, ((k + i).descFactorial k : K) * c.v (c.size - (k + i) - 1) * x ^ i, x ^ m) := by
  induction m with
  | zero => simp; rfl
  | succ m ih =>
    rw [range'_succ_foldlM, ih fun o h1 h2 => h o h1 (by omega)]
    show valueStep c x k _ (k + m) = _
    unfold valueStep
    rw [derivativeCoefficient_eq, if_pos (h (k + m) (by omega) (by omega))]
    show Except.ok _ = _
    simp only [sum_range_succ, pow_succ, Int.cast_natCast]

/-- The polynomial whose coefficients, highest degree first, are `c`. -/
noncomputable def toPoly (c : Vec K) : Polynomial K :=
  ∑ i ∈ range c.size, Polynomial.C (c.v (c.size - i - 1)) * Polynomial.X ^ i

theorem iterate_derivative_eval (c : Vec K) (x : K) (k : Nat) :
    (Polynomial.derivative^[k] (toPoly c)).eval x
      = ∑ i ∈ range (c.size - k), ((k + i).descFactorial k : K) * c.v (c.size - (k + i) - 1) * x ^ i := by
  unfold toPoly
  rw [Polynomial.iterate_derivative_sum, Polynomial.eval_finset_sum]
  have h1 : ∀ i ∈ range c.size, (Polynomial.derivative^[k]
      (Polynomial.C (c.v (c.size - i - 1)) * Polynomial.X ^ i)).eval x
      = (i.descFactorial k : K) * c.v (c.size - i - 1) * x ^ (i - k) := by
    intro i _
    rw [Polynomial.iterate_derivative_C_mul, Polynomial.iterate_derivative_X_pow_eq_natCast_mul]
    simp only [Polynomial.eval_mul, Polynomial.eval_C, Polynomial.eval_natCast, Polynomial.eval_pow,
      Polynomial.eval_X]
    ring
  rw [sum_congr rfl h1]
  by_cases hk : k ≤ c.size
  · obtain ⟨m, hm⟩ : ∃ m, c.size = k + m := ⟨c.size - k, by omega⟩
    rw [hm, Nat.add_sub_cancel_left, sum_range_add]
    have h0 : ∑ i ∈ range k, (i.descFactorial k : K) * c.v (k + m - i - 1) * x ^ (i - k) = 0 := by
      refine sum_eq_zero fun i hi => ?_
      rw [Nat.descFactorial_of_lt (mem_range.1 hi)]; simp
    rw [h0, zero_add]
    exact sum_congr rfl fun i _ => by rw [Nat.add_sub_cancel_left]
  · have : c.size - k = 0 := by omega
    rw [this, sum_range_zero]
    refine sum_eq_zero fun i hi => ?_
    rw [Nat.descFactorial_of_lt (by have := mem_range.1 hi; omega)]; simp

/-- **C22, partial.** `value(x, k)` is the `k`-th derivative at `x` of the polynomial
with those coefficients (highest degree first), and zero when `k` exceeds the
degree. Full statement: for every `k` and length. Missing: orders and degrees whose
falling factorial exceeds an `int`, see `C22_refuted`. -/
theorem C22_polynom_value_partial (c : Vec K) (x : K) (k : Nat) (h : ∀ o, k ≤ o → o < c.size → FitsInt o k) :
    polynomValue c x k = .ok ((Polynomial.derivative^[k] (toPoly c)).eval x) ∧
    (c.size ≤ k → polynomValue c x k = .ok 0) := by
  have key : polynomValue c x k = .ok ((Polynomial.derivative^[k] (toPoly c)).eval x) := by
    unfold polynomValue
    rw [value_loop c x k (c.size - k) fun o h1 h2 => h o h1 (by omega), iterate_derivative_eval]
    rfl
  refine ⟨key, fun hk => ?_⟩
  rw [key, iterate_derivative_eval]
  have : c.size - k = 0 := by omega
  rw [this, sum_range_zero]

/-- **C22, exactly.** The derivative, except when the coefficient of the highest degree, `(n-1)(n-2)...(n-k)` for `n` coefficients,
exceeds the largest `int`: then the behaviour is undefined. -/
theorem C22_exact (c : Vec K) (x : K) (k : Nat) :
    polynomValue c x k = if k < c.size ∧ 2147483647 < (c.size - 1).descFactorial k then .error .ub
      else .ok ((Polynomial.derivative^[k] (toPoly c)).eval x) := by
  have hmono : ∀ a b : Nat, a ≤ b → a.descFactorial k ≤ b.descFactorial k := fun a b h => Nat.descFactorial_le k h
  by_cases h : k < c.size ∧ 2147483647 < (c.size - 1).descFactorial k
  · rw [if_pos h]
    -- the first order that overflows
    have hex : ∃ m, k + m < c.size ∧ ¬ FitsInt (k + m) k :=
      ⟨c.size - 1 - k, by omega, by
        rw [show k + (c.size - 1 - k) = c.size - 1 by omega]; unfold FitsInt intMax; omega⟩
    classical
    let m := Nat.find hex
    obtain ⟨h1, h2⟩ : k + m < c.size ∧ ¬ FitsInt (k + m) k := Nat.find_spec hex
    have h3 : ∀ o, k ≤ o → o < k + m → FitsInt o k := by
      intro o ho ho'
      by_contra hc
      exact Nat.find_min hex (m := o - k) (by omega) ⟨by omega, by rwa [show k + (o - k) = o by omega]⟩
    have hstop : (List.range' k (m + 1)).foldlM (valueStep c x k) (0, 1) = .error .ub := by
      rw [range'_succ_foldlM, value_loop c x k m h3]
      show valueStep c x k _ (k + m) = _
      unfold valueStep
      rw [derivativeCoefficient_eq, if_neg h2]
      rfl
    have hsplit : List.range' k (c.size - k) = List.range' k (m + 1) ++ List.range' (k + (m + 1)) (c.size - k - (m + 1)) := by
      rw [List.range'_append_1]; congr 1; omega
    unfold polynomValue
    rw [hsplit, List.foldlM_append, hstop]
    rfl
  · rw [if_neg h]
    refine (C22_polynom_value_partial c x k fun o h1 h2 => ?_).1
    have := hmono o (c.size - 1) (by omega)
    unfold FitsInt intMax
    have : ¬ 2147483647 < (c.size - 1).descFactorial k := fun hh => h ⟨by omega, hh⟩
    omega

/-- Up to 13 coefficients (degree 12) no overflow can happen, whatever the order;
the first and second derivatives are right up to 46341 coefficients. -/
theorem C22_small_degrees (c : Vec K) (x : K) (k : Nat) (h : c.size ≤ 13 ∨ (k ≤ 2 ∧ c.size ≤ 46341)) :
    polynomValue c x k = .ok ((Polynomial.derivative^[k] (toPoly c)).eval x) := by
  refine (C22_polynom_value_partial c x k fun o h1 h2 => ?_).1
  unfold FitsInt intMax
  rcases h with h | ⟨h, h'⟩
  · have h3 : o.descFactorial k ≤ o.factorial := by
      have := Nat.factorial_mul_descFactorial h1
      calc o.descFactorial k ≤ (o - k).factorial * o.descFactorial k :=
            Nat.le_mul_of_pos_left _ (Nat.factorial_pos _)
        _ = _ := this
    have h4 : o.factorial ≤ Nat.factorial 12 := Nat.factorial_le (by omega)
    have h5 : Nat.factorial 12 = 479001600 := by decide +kernel
    omega
  · have h3 : o.descFactorial k ≤ o ^ k := Nat.descFactorial_le_pow o k
    have h4 : o ^ k ≤ 46340 ^ k := Nat.pow_le_pow_left (by omega) k
    have h5 : 46340 ^ k ≤ 46340 ^ 2 := Nat.pow_le_pow_right (by norm_num) h
    omega

/-- **C22, refuted.** The thirteenth derivative of a polynomial with 14
coefficients overflows `int` in `derivative_coefficient`. -/
theorem C22_refuted : ∃ (c : Vec ℚ) (x : ℚ) (k : Nat), polynomValue c x k = .error .ub :=
  ⟨⟨14, fun _ => 1⟩, 1, 13, by decide +kernel⟩

/-- Value and second derivative of `2 x² + 3 x + 4` at 5. -/
example : polynomValue (⟨3, fun i => [2, 3, 4].getD i 0⟩ : Vec ℚ) 5 0 = .ok 69 ∧
    polynomValue (⟨3, fun i => [2, 3, 4].getD i 0⟩ : Vec ℚ) 5 2 = .ok 4 := by
  constructor <;> decide +kernel

/-! ## C23 -/

theorem expr_loop (size : Nat) (x : K) (k m : Nat) (hm : k + m ≤ size) (h : ∀ o, k ≤ o → o < k + m → FitsInt o k) :
    ∃ r, (List.range' k m).foldlM (exprStep size x k) (fun _ => 0, 1) = .ok (r, x ^ m) ∧
      (∀ i, i < m → r (size - (k + i) - 1) = ((k + i).descFactorial k : K) * x ^ i) ∧
      (∀ j, (∀ i, i < m → j ≠ size - (k + i) - 1) → r j = 0) := by
  induction m with
  | zero => exact ⟨fun _ => 0, by simp; rfl, fun i hi => by omega, fun _ _ => rfl⟩
  | succ m ih =>
    obtain ⟨r, hr, h1, h2⟩ := ih (by omega) fun o h1 h2 => h o h1 (by omega)
    refine ⟨fun j => if j = size - (k + m) - 1 then ((k + m).descFactorial k : K) * x ^ m else r j, ?_, ?_, ?_⟩
    · rw [range'_succ_foldlM, hr]
      show exprStep size x k _ (k + m) = _
      unfold exprStep
      rw [derivativeCoefficient_eq, if_pos (h (k + m) (by omega) (by omega))]
      show Except.ok _ = _
      simp only [pow_succ, Int.cast_natCast]
    · intro i hi
      simp only
      by_cases him : i = m
      · subst him; rw [if_pos rfl]
      · rw [if_neg (by omega)]; exact h1 i (by omega)
    · intro j hj
      simp only
      rw [if_neg (hj m (by omega))]
      exact h2 j fun i hi => hj i (by omega)

/-- **C23.** For every assignment `x` of the decision vector, the expression
`ProblemPolynom::expr(t, k)` evaluates to the value of the polynomial whose
coefficients are the variable's value in a solution `x`. (When a coefficient
overflows, both are undefined: the hypothesis excludes it.) -/
theorem C23_problem_polynom (v : Var) (hv : v.kStart ≤ v.kEnd) (t : K) (k : Nat) (x : Nat → K)
    (h : ∀ o, k ≤ o → o < v.size → FitsInt o k) (v0 vs : VarState K) (h0 : v0.var = v) (hs : Updated x v0 vs) :
    ∃ e, problemPolynomExpr v t k = .ok e ∧ e.rows = 1 ∧
      polynomValue (getPolynom vs) t k = .ok (e.rowVal x 0) := by
  obtain ⟨hvar, -, hlen, hval⟩ := hs
  rw [h0] at hlen hval
  have hval' : ∀ i, i < v.size → (getPolynom vs).v i = x (v.kStart + i) := by
    intro i hi
    show vs.value.getD i 0 = _
    unfold List.getD
    rw [hval i hi]; rfl
  have hsize : (getPolynom vs).size = v.size := hlen
  obtain ⟨r, hr, hr1, hr2⟩ : ∃ r, (List.range' k (v.size - k)).foldlM (exprStep v.size t k) (fun _ => 0, 1)
      = .ok (r, t ^ (v.size - k)) ∧
      (∀ i, i < v.size - k → r (v.size - (k + i) - 1) = ((k + i).descFactorial k : K) * t ^ i) ∧
      (∀ j, (∀ i, i < v.size - k → j ≠ v.size - (k + i) - 1) → r j = 0) := by
    by_cases hk : k ≤ v.size
    · exact expr_loop v.size t k (v.size - k) (by omega) fun o h1 h2 => h o h1 (by omega)
    · have : v.size - k = 0 := by omega
      rw [this]
      exact ⟨fun _ => 0, by simp; rfl, fun i hi => by omega, fun _ _ => rfl⟩
  have hsz : v.size = v.kEnd - v.kStart := rfl
  have hexpr : (v.expr (-1) (-1) : Except Err (Expr K)) = .ok ⟨v.size, v.kEnd,
      fun i j => if j = v.kStart + i then 1 else 0, fun _ => 0⟩ := by
    unfold Var.expr
    simp only [if_true]
    rw [if_pos (by omega)]
    have : ((v.kEnd : Int) - v.kStart - 0).toNat = v.size := by omega
    rw [this]
    congr
  refine ⟨_, by
    unfold problemPolynomExpr
    rw [hr, hexpr]
    show (if _ then _ else _) = _
    rw [if_pos (by rfl)], rfl, ?_⟩
  rw [(C22_polynom_value_partial (getPolynom vs) t k (by rw [hsize]; exact h)).1, iterate_derivative_eval, hsize]
  congr 1
  -- evaluate the expression
  simp only [Expr.rowVal, mul_zero, sum_const_zero, add_zero]
  have hrow : ∀ j ∈ range v.kEnd, (∑ i ∈ range v.size, r i * (if j = v.kStart + i then 1 else 0)) * x j
      = ∑ i ∈ range v.size, if j = v.kStart + i then r i * x (v.kStart + i) else 0 := by
    intro j _
    rw [sum_mul]
    refine sum_congr rfl fun i _ => ?_
    by_cases hj : j = v.kStart + i
    · rw [if_pos hj, if_pos hj, hj]; ring
    · rw [if_neg hj, if_neg hj]; ring
  rw [sum_congr rfl hrow, sum_comm]
  have hcol : ∀ i ∈ range v.size, (∑ j ∈ range v.kEnd, if j = v.kStart + i then r i * x (v.kStart + i) else 0)
      = r i * x (v.kStart + i) := by
    intro i hi
    have := mem_range.1 hi
    rw [sum_ite_eq' (range v.kEnd), if_pos (mem_range.2 (by omega))]
  rw [sum_congr rfl hcol]
  have hsub : ∑ i ∈ range v.size, r i * x (v.kStart + i)
      = ∑ i ∈ range (v.size - k), r i * x (v.kStart + i) := by
    have hss : range (v.size - k) ⊆ range v.size := by intro j; simp only [mem_range]; omega
    rw [← sum_subset hss]
    intro i hi hni
    have hi := mem_range.1 hi
    have hni : ¬ i < v.size - k := by simpa using hni
    rw [hr2 i fun i' hi' => by omega, zero_mul]
  rw [hsub, ← sum_range_reflect fun i => r i * x (v.kStart + i)]
  refine sum_congr rfl fun i hi => ?_
  have hi := mem_range.1 hi
  have e1 : v.size - k - 1 - i = v.size - (k + i) - 1 := by omega
  rw [e1, hr1 i hi, hval' _ (by omega)]
  ring

/-- Non-vacuity: degree 3, third variable block `[2, 5)`, derivative 1. -/
example : (problemPolynomExpr (⟨2, 5⟩ : Var) (2 : ℚ) 1).map (fun e => e.value fun i => (i : ℚ)) = .ok [4 * 2 + 3] := by
  decide +kernel

end
end Verif.Tools
