/-
C144: the assembled QP is strictly convex, and it has exactly one optimum as soon as the hard constraints can be satisfied.
-/
import Verif.Problem.SparseCostProps
import Verif.Problem.ProblemQPProps
import Verif.Problem.ProblemSolveProps
import Mathlib.Algebra.BigOperators.Field
import Mathlib.Analysis.SpecialFunctions.Pow.Real
import Mathlib.Topology.Order.Compact

namespace Verif.Problem
open Finset

/-! ## Quadratic forms -/

/-- Specification: `vᵀ P v` on the first `N` entries. -/
noncomputable def form (N : Nat) (P : Nat → Nat → ℝ) (v : Nat → ℝ) : ℝ := ∑ r ∈ range N, ∑ c ∈ range N, v r * P r c * v c

/-- Specification: a positive definite matrix of size `N`. -/
def PosDef (N : Nat) (P : Nat → Nat → ℝ) : Prop := ∀ v, (∃ j, j < N ∧ v j ≠ 0) → 0 < form N P v

theorem quad_form (N : Nat) (P : Nat → Nat → ℝ) (q v : Nat → ℝ) : quad N P q v = form N P v + 2 * ∑ r ∈ range N, q r * v r := rfl

theorem form_neg (N : Nat) (P : Nat → Nat → ℝ) (v : Nat → ℝ) : form N P (fun j => -v j) = form N P v := by
  unfold form
  refine sum_congr rfl fun r _ => sum_congr rfl fun c _ => ?_
  ring

theorem quad_even (N : Nat) (P : Nat → Nat → ℝ) (q v : Nat → ℝ) :
    quad N P q v + quad N P q (fun j => -v j) = 2 * form N P v := by
  rw [quad_form, quad_form, form_neg]
  simp only [mul_neg, sum_neg_distrib]
  ring

theorem form_rows (N m : Nat) (P : Nat → Nat → ℝ) (w : ℝ) (a : Nat → Nat → ℝ) (v : Nat → ℝ) :
    form N (fun r c => P r c + w * ∑ i ∈ range m, a i r * a i c) v =
      form N P v + ∑ i ∈ range m, w * (∑ c ∈ range N, a i c * v c) ^ 2 := by
  have h1 := quad_add N P (fun r c => w * ∑ i ∈ range m, a i r * a i c) (fun _ => 0) (fun r => w * ∑ i ∈ range m, a i r * 0) v
  rw [quad_rows N m w a (fun _ => 0) v] at h1
  simp only [quad_form, mul_zero, sum_const_zero, add_zero, zero_mul, ne_eq, OfNat.ofNat_ne_zero, not_false_eq_true, zero_pow,
    sub_zero] at h1
  exact h1

theorem form_congr {N : Nat} {P P' : Nat → Nat → ℝ} {v : Nat → ℝ} (h : ∀ r c, r < N → c < N → P r c = P' r c) :
    form N P v = form N P' v :=
  sum_congr rfl fun r hr => sum_congr rfl fun c hc => by rw [h r c (mem_range.1 hr) (mem_range.1 hc)]

theorem form_vcongr {N : Nat} {P : Nat → Nat → ℝ} {v v' : Nat → ℝ} (h : ∀ j, j < N → v j = v' j) : form N P v = form N P v' :=
  sum_congr rfl fun r hr => sum_congr rfl fun c hc => by rw [h r (mem_range.1 hr), h c (mem_range.1 hc)]

theorem form_smul (N : Nat) (P : Nat → Nat → ℝ) (a : ℝ) (v : Nat → ℝ) : form N P (fun j => a * v j) = a ^ 2 * form N P v := by
  unfold form
  rw [mul_sum]
  refine sum_congr rfl fun r _ => ?_
  rw [mul_sum]
  refine sum_congr rfl fun c _ => ?_
  ring

/-! ## The matrix of the assembled QP -/

theorem dense_form (N : Nat) (P : Nat → Nat → ℝ) (w : ℝ) (hw : 0 ≤ w) (e : Expr ℝ) (v : Nat → ℝ) :
    form N P v ≤ form N (addDense P w e) v := by
  have hP : addDense P w e = fun r c => P r c + w * ∑ i ∈ range e.rows, e.pad i r * e.pad i c := by
    funext r c
    simp only [addDense, Expr.pad]
    by_cases hr : r < e.cols <;> by_cases hc : c < e.cols <;> simp [hr, hc]
  rw [hP, form_rows]
  exact le_add_of_nonneg_right (sum_nonneg fun i _ => mul_nonneg hw (sq_nonneg _))

theorem interval_form (N : Nat) (P : Nat → Nat → ℝ) (w : ℝ) (hw : 0 ≤ w) (e : Expr ℝ) (o : Interval) (v : Nat → ℝ) :
    form N P v ≤ form N (addIntervalBlock w e P o) v := by
  have hP : addIntervalBlock w e P o = fun r c => P r c + w * ∑ i ∈ range e.rows,
      (if o.contains r then e.A i r else 0) * (if o.contains c then e.A i c else 0) := by
    funext r c
    simp only [addIntervalBlock]
    by_cases hr : o.contains r = true <;> by_cases hc : o.contains c = true <;> simp [hr, hc]
  rw [hP, form_rows N e.rows P w fun i r => if o.contains r then e.A i r else 0]
  exact le_add_of_nonneg_right (sum_nonneg fun i _ => mul_nonneg hw (sq_nonneg _))

theorem sparse_form (N : Nat) (eps : ℝ) (P : Nat → Nat → ℝ) (w : ℝ) (hw : 0 ≤ w) (e : Expr ℝ) (v : Nat → ℝ) :
    form N P v ≤ form N (addSparse eps P w e) v := by
  unfold addSparse
  generalize Sparsity.detectColumns eps ⟨e.rows, e.cols, e.A⟩ = l
  induction l generalizing P with
  | nil => exact le_rfl
  | cons o l ih => exact le_trans (interval_form N P w hw e o v) (ih _)

theorem objective_form (n : Nat) (red : Option (Red ℝ)) (us : Bool) (eps : ℝ) (N : Nat) (l : List (Constr ℝ))
    (hw : ∀ c ∈ l, c.softEq = true → 0 ≤ c.weight) (Pq : (Nat → Nat → ℝ) × (Nat → ℝ)) (v : Nat → ℝ) :
    form N Pq.1 v ≤ form N (l.foldl (objStep n red us eps) Pq).1 v := by
  induction l generalizing Pq with
  | nil => exact le_rfl
  | cons c l ih =>
    rw [List.foldl_cons]
    refine le_trans ?_ (ih (fun c' h => hw c' (by simp [h])) _)
    unfold objStep
    by_cases hs : c.softEq = true
    · rw [if_pos hs]
      cases us
      · exact dense_form N _ _ (hw c (by simp) hs) _ v
      · exact sparse_form N eps _ _ (hw c (by simp) hs) _ v
    · rw [if_neg hs]

/-- The even part of the cost of the slack variables. -/
theorem slack_even (n : Nat) (red : Option (Red ℝ)) (f : Nat) (cs : List (Constr ℝ)) (v : Nat → ℝ)
    (hw : ∀ c ∈ cs, c.softIneq = true → 0 < c.weight) :
    0 ≤ slackCost n red f cs v + slackCost n red f cs (fun j => -v j) ∧
    ∀ m, (∀ j, j < m → v j = 0) → (∀ c ∈ cs, (reduceExpr n red c.expr).cols ≤ m) →
      slackCost n red f cs v + slackCost n red f cs (fun j => -v j) ≤ 0 → ∀ k, k < nSlack cs → v (f + k) = 0 := by
  induction cs generalizing f with
  | nil =>
    refine ⟨by simp [slackCost], fun m _ _ _ k hk => ?_⟩
    simp [nSlack] at hk
  | cons c cs ih =>
    obtain ⟨i1, i2⟩ := ih (f + if c.softIneq then c.expr.rows else 0) (fun c' h => hw c' (by simp [h]))
    have hsl : nSlack (c :: cs) = (if c.softIneq then c.expr.rows else 0) + nSlack cs := by simp [nSlack]
    unfold slackCost
    by_cases hs : c.softIneq = true
    · have w0 := hw c (by simp) hs
      rw [hs] at i1 i2 hsl ⊢
      simp only [if_true] at i1 i2 hsl ⊢
      have e : ∀ i, (reduceExpr n red c.expr).rowVal (fun j => -v j) i =
          -(reduceExpr n red c.expr).rowVal v i + 2 * (reduceExpr n red c.expr).b i := by
        intro i
        unfold Expr.rowVal
        simp only [mul_neg, sum_neg_distrib]
        ring
      have key : ∀ i, c.weight * (((reduceExpr n red c.expr).rowVal v i - v (f + i)) ^ 2 - (reduceExpr n red c.expr).b i ^ 2) +
          c.weight * (((reduceExpr n red c.expr).rowVal (fun j => -v j) i - -v (f + i)) ^ 2 - (reduceExpr n red c.expr).b i ^ 2) =
          2 * c.weight * ((reduceExpr n red c.expr).rowVal v i - (reduceExpr n red c.expr).b i - v (f + i)) ^ 2 := by
        intro i
        rw [e]
        ring
      have hsum : (∑ i ∈ range c.expr.rows, c.weight *
            (((reduceExpr n red c.expr).rowVal v i - v (f + i)) ^ 2 - (reduceExpr n red c.expr).b i ^ 2)) +
          (∑ i ∈ range c.expr.rows, c.weight *
            (((reduceExpr n red c.expr).rowVal (fun j => -v j) i - -v (f + i)) ^ 2 - (reduceExpr n red c.expr).b i ^ 2)) =
          ∑ i ∈ range c.expr.rows, 2 * c.weight *
            ((reduceExpr n red c.expr).rowVal v i - (reduceExpr n red c.expr).b i - v (f + i)) ^ 2 := by
        rw [← sum_add_distrib]
        exact sum_congr rfl fun i _ => key i
      have hnn : ∀ i ∈ range c.expr.rows, 0 ≤ 2 * c.weight *
            ((reduceExpr n red c.expr).rowVal v i - (reduceExpr n red c.expr).b i - v (f + i)) ^ 2 :=
        fun i _ => mul_nonneg (by linarith) (sq_nonneg _)
      have hpos := sum_nonneg hnn
      refine ⟨by linarith, fun m hm hc hle k hk => ?_⟩
      have hz : ∑ i ∈ range c.expr.rows, 2 * c.weight *
            ((reduceExpr n red c.expr).rowVal v i - (reduceExpr n red c.expr).b i - v (f + i)) ^ 2 = 0 := by linarith
      rw [sum_eq_zero_iff_of_nonneg hnn] at hz
      by_cases hkr : k < c.expr.rows
      · have := hz k (mem_range.2 hkr)
        have h0 : (reduceExpr n red c.expr).rowVal v k - (reduceExpr n red c.expr).b k = 0 := by
          unfold Expr.rowVal
          rw [sum_eq_zero, zero_add, sub_self]
          intro j hj
          rw [hm j (lt_of_lt_of_le (mem_range.1 hj) (hc c (by simp))), mul_zero]
        rw [h0, zero_sub, neg_sq] at this
        have : v (f + k) ^ 2 = 0 := by
          rcases mul_eq_zero.1 this with h | h
          · linarith
          · exact h
        exact pow_eq_zero_iff (two_ne_zero) |>.1 this
      · have := i2 m hm (fun c' h => hc c' (by simp [h])) (by linarith) (k - c.expr.rows) (by omega)
        rwa [show f + c.expr.rows + (k - c.expr.rows) = f + k by omega] at this
    · have hs' : c.softIneq = false := by simpa using hs
      rw [hs'] at i1 i2 hsl ⊢
      simp only [Bool.false_eq_true, if_false, zero_add, add_zero] at i1 i2 hsl ⊢
      refine ⟨i1, fun m hm hc hle k hk => i2 m hm (fun c' h => hc c' (by simp [h])) hle k (by omega)⟩

/-- **C144 (strictly convex).** With a positive regularisation, non-negative weights on the soft equalities and positive weights on
the soft inequalities, the matrix handed to the QP solver is positive definite, with or without `use_sparsity` and
`rewrite_equalities`. -/
theorem C144_convex (s : Settings ℝ) (qr : Nat → EqSt ℝ → QR ℝ) (cs : List (Constr ℝ)) (qp : QP ℝ)
    (h : assemble s qr cs = .ok qp) (hreg : 0 < s.regularization) (hw : ∀ c ∈ cs, c.softEq = true → 0 ≤ c.weight)
    (hw' : ∀ c ∈ cs, c.softIneq = true → 0 < c.weight) : PosDef (qp.free + qp.slack) qp.P := by
  have A := assembled_of_ok h
  obtain ⟨Pq, st, hPq, hst, hP, hq, -⟩ := A.st
  intro v ⟨j, hj, hne⟩
  have hv := ineq_quad s.n qp.red qp.free (qp.free + qp.slack) cs (ineqInit qp.free qp.slack Pq.1 Pq.2) v A.cols_le
    (by simp [ineqInit, A.slack])
  have hv' := ineq_quad s.n qp.red qp.free (qp.free + qp.slack) cs (ineqInit qp.free qp.slack Pq.1 Pq.2) (fun j => -v j) A.cols_le
    (by simp [ineqInit, A.slack])
  rw [← hst, ← hP, ← hq] at hv hv'
  have e1 := quad_even (qp.free + qp.slack) qp.P qp.q v
  have e2 := quad_even (qp.free + qp.slack) (ineqInit qp.free qp.slack Pq.1 Pq.2).P (ineqInit qp.free qp.slack Pq.1 Pq.2).q v
  have e3 : form (qp.free + qp.slack) (regP qp.free s.regularization) v = ∑ j ∈ range qp.free, s.regularization * v j ^ 2 := by
    rw [← quad_reg (qp.free + qp.slack) qp.free s.regularization v (Nat.le_add_right _ _), quad_form]
    simp
  have e4 : form (qp.free + qp.slack) (regP qp.free s.regularization) v ≤
      form (qp.free + qp.slack) (ineqInit qp.free qp.slack Pq.1 Pq.2).P v := by
    show _ ≤ form (qp.free + qp.slack) Pq.1 v
    rw [hPq]
    exact objective_form s.n qp.red s.useSparsity s.eps (qp.free + qp.slack) cs hw (regP qp.free s.regularization, fun _ => 0) v
  obtain ⟨s1, s2⟩ := slack_even s.n qp.red (qp.free + (ineqInit qp.free qp.slack Pq.1 Pq.2).kSlack) cs v hw'
  have hnn : ∀ j ∈ range qp.free, 0 ≤ s.regularization * v j ^ 2 := fun j _ => mul_nonneg hreg.le (sq_nonneg _)
  have hpos := sum_nonneg hnn
  by_contra hcon
  push Not at hcon
  have hz : ∑ j ∈ range qp.free, s.regularization * v j ^ 2 = 0 := by linarith
  rw [sum_eq_zero_iff_of_nonneg hnn] at hz
  have hfree : ∀ j, j < qp.free → v j = 0 := by
    intro j hj
    rcases mul_eq_zero.1 (hz j (mem_range.2 hj)) with h | h
    · linarith
    · exact pow_eq_zero_iff (two_ne_zero) |>.1 h
  by_cases hjf : j < qp.free
  · exact hne (hfree j hjf)
  · have := s2 qp.free hfree A.cols_le (by linarith) (j - qp.free) (by rw [← A.slack]; omega)
    have e : (ineqInit qp.free qp.slack Pq.1 Pq.2).kSlack = 0 := rfl
    rw [e, show qp.free + 0 + (j - qp.free) = j by omega] at this
    exact hne this

/-! ## Existence and uniqueness of the optimum -/

/-- The points with their first `N` entries bounded by `R`, and the others zero. -/
def box (N : Nat) (R : ℝ) : Set (Nat → ℝ) := Set.pi Set.univ fun j => if j < N then Set.Icc (-R) R else {0}

theorem box_compact (N : Nat) (R : ℝ) : IsCompact (box N R) := by
  refine isCompact_univ_pi fun j => ?_
  by_cases h : j < N
  · rw [if_pos h]; exact isCompact_Icc
  · rw [if_neg h]; exact isCompact_singleton

theorem mem_box (N : Nat) (R : ℝ) (v : Nat → ℝ) : v ∈ box N R ↔ (∀ j, j < N → |v j| ≤ R) ∧ ∀ j, ¬ j < N → v j = 0 := by
  unfold box
  rw [Set.mem_univ_pi]
  constructor
  · intro h
    refine ⟨fun j hj => ?_, fun j hj => ?_⟩
    · have := h j
      rw [if_pos hj] at this
      exact abs_le.2 this
    · have := h j
      rw [if_neg hj] at this
      exact this
  · rintro ⟨h1, h2⟩ j
    by_cases hj : j < N
    · rw [if_pos hj]; exact abs_le.1 (h1 j hj)
    · rw [if_neg hj]; exact h2 j hj

theorem form_continuous (N : Nat) (P : Nat → Nat → ℝ) : Continuous (form N P) := by
  unfold form
  fun_prop

theorem quad_continuous (N : Nat) (P : Nat → Nat → ℝ) (q : Nat → ℝ) : Continuous (quad N P q) := by
  unfold quad
  fun_prop

theorem form_coercive (N : Nat) (P : Nat → Nat → ℝ) (hP : PosDef N P) :
    ∃ a : ℝ, 0 < a ∧ ∀ v, a * ∑ j ∈ range N, v j ^ 2 ≤ form N P v := by
  rcases Nat.eq_zero_or_pos N with rfl | hN
  · exact ⟨1, one_pos, fun v => by simp [form]⟩
  have hc : IsCompact (box N 1 ∩ {v | ∑ j ∈ range N, v j ^ 2 = 1}) :=
    (box_compact N 1).inter_right (isClosed_eq (by fun_prop) continuous_const)
  have hne : (box N 1 ∩ {v : Nat → ℝ | ∑ j ∈ range N, v j ^ 2 = 1}).Nonempty := by
    refine ⟨fun j => if j = 0 then 1 else 0, (mem_box _ _ _).2 ⟨fun j _ => ?_, fun j hj => ?_⟩, ?_⟩
    · by_cases h : j = 0 <;> simp [h]
    · simp; omega
    · show ∑ j ∈ range N, (if j = 0 then (1 : ℝ) else 0) ^ 2 = 1
      simp [ite_pow, hN]
  obtain ⟨u, ⟨-, hu⟩, hmin⟩ := hc.exists_isMinOn hne (form_continuous N P).continuousOn
  have hu1 : ∑ j ∈ range N, u j ^ 2 = 1 := hu
  have hpos : 0 < form N P u := by
    apply hP
    by_contra hcon
    push Not at hcon
    rw [sum_eq_zero fun j hj => by rw [hcon j (mem_range.1 hj)]; norm_num] at hu1
    norm_num at hu1
  refine ⟨form N P u, hpos, fun v => ?_⟩
  have hnn : 0 ≤ ∑ j ∈ range N, v j ^ 2 := sum_nonneg fun j _ => sq_nonneg _
  rcases eq_or_lt_of_le hnn with h0 | h0
  · rw [← h0, mul_zero]
    by_cases hex : ∃ j, j < N ∧ v j ≠ 0
    · exact (hP v hex).le
    · push Not at hex
      rw [form_vcongr (v' := fun _ => 0) hex]
      simp [form]
  · set t := ∑ j ∈ range N, v j ^ 2
    have hs : 0 < Real.sqrt t := Real.sqrt_pos.2 h0
    have hs2 : Real.sqrt t ^ 2 = t := Real.sq_sqrt h0.le
    have hmem : (fun j => if j < N then (Real.sqrt t)⁻¹ * v j else 0) ∈ box N 1 ∩ {v : Nat → ℝ | ∑ j ∈ range N, v j ^ 2 = 1} := by
      refine ⟨(mem_box _ _ _).2 ⟨fun j hj => ?_, fun j hj => ?_⟩, ?_⟩
      · rw [if_pos hj, ← sq_le_one_iff_abs_le_one, mul_pow, inv_pow, hs2, inv_mul_le_one₀ h0]
        exact single_le_sum (f := fun j => v j ^ 2) (fun j _ => sq_nonneg _) (mem_range.2 hj)
      · rw [if_neg hj]
      · show ∑ j ∈ range N, (if j < N then (Real.sqrt t)⁻¹ * v j else 0) ^ 2 = 1
        rw [sum_congr rfl fun j hj => by rw [if_pos (mem_range.1 hj), mul_pow, inv_pow, hs2], ← mul_sum]
        exact inv_mul_cancel₀ h0.ne'
    have hle : form N P u ≤ _ := hmin hmem
    have ef : form N P (fun j => if j < N then (Real.sqrt t)⁻¹ * v j else 0) = form N P fun j => (Real.sqrt t)⁻¹ * v j :=
      form_vcongr fun j hj => by rw [if_pos hj]
    rw [ef, form_smul, inv_pow, hs2] at hle
    rw [inv_mul_eq_div, le_div_iff₀ h0] at hle
    exact hle

theorem exists_least (N : Nat) (P : Nat → Nat → ℝ) (q : Nat → ℝ) (hP : PosDef N P) (S : Set (Nat → ℝ)) (hS : IsClosed S)
    (hN : ∀ v v' : Nat → ℝ, (∀ j, j < N → v j = v' j) → v ∈ S → v' ∈ S) (hne : S.Nonempty) :
    ∃ v ∈ S, ∀ v' ∈ S, quad N P q v ≤ quad N P q v' := by
  obtain ⟨a, ha, hform⟩ := form_coercive N P hP
  obtain ⟨w, hw⟩ := hne
  have low : ∀ v, a / 2 * ∑ j ∈ range N, v j ^ 2 - 2 / a * ∑ j ∈ range N, q j ^ 2 ≤ quad N P q v := by
    intro v
    have h1 := hform v
    have h2 : ∀ j ∈ range N, -(a / 2 * v j ^ 2) - 2 / a * q j ^ 2 ≤ 2 * (q j * v j) := by
      intro j _
      have : 0 ≤ 1 / (2 * a) * (a * v j + 2 * q j) ^ 2 := by positivity
      have e : 1 / (2 * a) * (a * v j + 2 * q j) ^ 2 = a / 2 * v j ^ 2 + 2 * (q j * v j) + 2 / a * q j ^ 2 := by
        field_simp
        ring
      linarith
    have h3 := sum_le_sum h2
    rw [sum_sub_distrib, sum_neg_distrib, ← mul_sum, ← mul_sum, ← mul_sum] at h3
    rw [quad_form]
    linarith
  set Q := 2 / a * ∑ j ∈ range N, q j ^ 2
  have hQ : 0 ≤ Q := mul_nonneg (by positivity) (sum_nonneg fun j _ => sq_nonneg _)
  set R := 1 + 2 / a * (|quad N P q w| + Q) with hR
  have hR1 : 1 ≤ R := by
    have : 0 ≤ 2 / a * (|quad N P q w| + Q) := by positivity
    linarith
  -- a point with a cost below that of `w` is in the box
  have inbox : ∀ v, (∀ j, ¬ j < N → v j = 0) → quad N P q v ≤ quad N P q w → v ∈ box N R := by
    intro v hv hle
    refine (mem_box _ _ _).2 ⟨fun j hj => ?_, hv⟩
    by_contra hcon
    push Not at hcon
    have h1 : v j ^ 2 ≤ ∑ j ∈ range N, v j ^ 2 := single_le_sum (f := fun j => v j ^ 2) (fun j _ => sq_nonneg _) (mem_range.2 hj)
    have h2 : R < v j ^ 2 := by
      rw [← sq_abs]
      nlinarith
    have h3 : a / 2 * R ≤ a / 2 * ∑ j ∈ range N, v j ^ 2 := mul_le_mul_of_nonneg_left (by linarith) (by positivity)
    have h4 : a / 2 * R = a / 2 + (|quad N P q w| + Q) := by rw [hR]; field_simp
    have h5 := le_abs_self (quad N P q w)
    have := low v
    linarith
  let cut : (Nat → ℝ) → Nat → ℝ := fun v j => if j < N then v j else 0
  have hcut : ∀ v j, j < N → v j = cut v j := fun v j hj => by simp only [cut]; rw [if_pos hj]
  have hcut' : ∀ v j, ¬ j < N → cut v j = 0 := fun v j hj => by simp only [cut]; rw [if_neg hj]
  have hquad : ∀ v, quad N P q (cut v) = quad N P q v := by
    intro v
    rw [quad_form, quad_form, form_vcongr (fun j hj => (hcut v j hj).symm), sum_congr rfl fun j hj => by rw [← hcut v j (mem_range.1 hj)]]
  have hc : IsCompact (box N R ∩ S) := (box_compact N R).inter_right hS
  have hcw : cut w ∈ box N R ∩ S := ⟨inbox _ (hcut' w) (hquad w).le, hN w _ (hcut w) hw⟩
  obtain ⟨u, ⟨-, huS⟩, hmin⟩ := hc.exists_isMinOn ⟨_, hcw⟩ (quad_continuous N P q).continuousOn
  refine ⟨u, huS, fun v hv => ?_⟩
  rcases le_total (quad N P q v) (quad N P q w) with hle | hle
  · have : quad N P q u ≤ quad N P q (cut v) := hmin ⟨inbox _ (hcut' v) ((hquad v).le.trans hle), hN v _ (hcut v) hv⟩
    rwa [hquad] at this
  · have : quad N P q u ≤ quad N P q (cut w) := hmin hcw
    rw [hquad] at this
    exact this.trans hle

theorem least_unique (N : Nat) (P : Nat → Nat → ℝ) (q : Nat → ℝ) (hP : PosDef N P) (S : Set (Nat → ℝ))
    (hmid : ∀ v ∈ S, ∀ v' ∈ S, (fun j => (v j + v' j) / 2) ∈ S) (v v' : Nat → ℝ) (hv : v ∈ S) (hv' : v' ∈ S)
    (h : ∀ u ∈ S, quad N P q v ≤ quad N P q u) (h' : ∀ u ∈ S, quad N P q v' ≤ quad N P q u) : ∀ j, j < N → v j = v' j := by
  by_contra hcon
  push Not at hcon
  obtain ⟨j, hj, hne⟩ := hcon
  have hpos := hP (fun j => v j - v' j) ⟨j, hj, sub_ne_zero.2 hne⟩
  have e : 4 * quad N P q (fun j => (v j + v' j) / 2) = 2 * quad N P q v + 2 * quad N P q v' - form N P (fun j => v j - v' j) := by
    have e1 : 4 * form N P (fun j => (v j + v' j) / 2) = 2 * form N P v + 2 * form N P v' - form N P (fun j => v j - v' j) := by
      unfold form
      simp only [mul_sum]
      rw [← sum_add_distrib, ← sum_sub_distrib]
      refine sum_congr rfl fun r _ => ?_
      rw [← sum_add_distrib, ← sum_sub_distrib]
      refine sum_congr rfl fun c _ => ?_
      ring
    have e2 : 2 * ∑ r ∈ range N, q r * ((v r + v' r) / 2) = ∑ r ∈ range N, q r * v r + ∑ r ∈ range N, q r * v' r := by
      rw [mul_sum, ← sum_add_distrib]
      refine sum_congr rfl fun r _ => ?_
      ring
    rw [quad_form, quad_form, quad_form]
    linear_combination e1 + 4 * e2
  have a := h _ (hmid v hv v' hv')
  have b := h' _ (hmid v hv v' hv')
  linarith

theorem feasible_closed (qp : QP ℝ) : IsClosed {v | qp.Feasible v} := by
  have e : {v | qp.Feasible v} =
      (⋂ r, ⋂ _ : r < qp.nEq, {v : Nat → ℝ | (∑ j ∈ range qp.eqCols, qp.Aeq r j * v j) + qp.beq r = 0}) ∩
      ⋂ r, ⋂ _ : r < qp.nIneq, {v : Nat → ℝ | 0 ≤ (∑ j ∈ range (qp.free + qp.slack), qp.G r j * v j) + qp.h r} := by
    ext v
    simp only [QP.Feasible, Set.mem_inter_iff, Set.mem_iInter, Set.mem_setOf_eq]
  rw [e]
  refine IsClosed.inter (isClosed_iInter fun r => isClosed_iInter fun _ => ?_) (isClosed_iInter fun r => isClosed_iInter fun _ => ?_)
  · exact isClosed_eq (by fun_prop) continuous_const
  · exact isClosed_le continuous_const (by fun_prop)

theorem feasible_mid (qp : QP ℝ) (v v' : Nat → ℝ) (h : qp.Feasible v) (h' : qp.Feasible v') :
    qp.Feasible fun j => (v j + v' j) / 2 := by
  have e : ∀ (n : Nat) (f : Nat → ℝ), ∑ j ∈ range n, f j * ((v j + v' j) / 2) =
      ((∑ j ∈ range n, f j * v j) + ∑ j ∈ range n, f j * v' j) / 2 := by
    intro n f
    rw [← sum_add_distrib, sum_div]
    refine sum_congr rfl fun j _ => ?_
    ring
  refine ⟨fun r hr => ?_, fun r hr => ?_⟩
  · have a := h.1 r hr
    have b := h'.1 r hr
    rw [e]
    linarith
  · have a := h.2 r hr
    have b := h'.2 r hr
    rw [e]
    linarith

theorem recover_agrees {s : Settings ℝ} {qr : Nat → EqSt ℝ → QR ℝ} {cs : List (Constr ℝ)} {qp : QP ℝ} (A : Assembled s qr cs qp)
    (hqr : QRContract s qr cs) {v v' : Nat → ℝ} (h : ∀ j, j < qp.free + qp.slack → v j = v' j) (k : Nat) (hk : k < s.n) :
    qp.recover s.n v k = qp.recover s.n v' k := by
  have hf := A.free
  unfold QP.recover
  cases hr : qp.red with
  | none =>
    rw [hr] at hf
    exact h k (by simp only at hf; omega)
  | some r =>
    rw [hr] at hf
    refine sum_congr rfl fun i hi => ?_
    have hi' := mem_range.1 hi
    by_cases hd : i < r.d
    · rw [if_pos hd, if_pos hd]
    · rw [if_neg hd, if_neg hd, h (i - r.d) (by simp only at hf; omega)]

/-- **C144.** Under the same hypotheses (and the contract of the QR factorisation), the assembled QP has an optimum exactly when the
hard constraints can be satisfied together, and then only one. -/
theorem C144 (s : Settings ℝ) (qr : Nat → EqSt ℝ → QR ℝ) (cs : List (Constr ℝ)) (qp : QP ℝ) (hqr : QRContract s qr cs)
    (h : assemble s qr cs = .ok qp) (hreg : 0 < s.regularization) (hw : ∀ c ∈ cs, c.softEq = true → 0 ≤ c.weight)
    (hw' : ∀ c ∈ cs, c.softIneq = true → 0 < c.weight) :
    ((∃ v, qp.Feasible v ∧ ∀ v', qp.Feasible v' → qp.cost v ≤ qp.cost v') ↔ ∃ x, HardSat cs x) ∧
    ∀ v v', qp.Feasible v → (∀ u, qp.Feasible u → qp.cost v ≤ qp.cost u) →
      qp.Feasible v' → (∀ u, qp.Feasible u → qp.cost v' ≤ qp.cost u) → ∀ j, j < qp.free + qp.slack → v j = v' j := by
  have hP := C144_convex s qr cs qp h hreg hw hw'
  have A := assembled_of_ok h
  refine ⟨⟨?_, ?_⟩, ?_⟩
  · rintro ⟨v, hv, -⟩
    exact ⟨_, (C15_equalities_lossless s qr cs qp hqr h _).1 ⟨v, hv, fun _ _ => rfl⟩⟩
  · rintro ⟨x, hx⟩
    obtain ⟨v, hv, -⟩ := (C15_equalities_lossless s qr cs qp hqr h x).2 hx
    refine exists_least _ qp.P qp.q hP {v | qp.Feasible v} (feasible_closed qp) ?_ ⟨v, hv⟩
    rintro v v' hvv ⟨h1, h2⟩
    have hcols : qp.nEq = 0 ∨ qp.eqCols ≤ qp.free + qp.slack := by
      by_cases hr : (s.rewriteEqualities && decide (0 < nEqualities cs)) = true
      · left; rw [A.nEq, if_pos hr]
      · right
        rw [A.eqCols, if_neg hr, A.free, A.red, if_neg hr]
        exact Nat.le_add_right _ _
    refine ⟨fun r hr => ?_, fun r hr => ?_⟩
    · rcases hcols with h0 | h0
      · omega
      · rw [← h1 r hr]
        congr 1
        exact sum_congr rfl fun j hj => by rw [hvv j (lt_of_lt_of_le (mem_range.1 hj) h0)]
    · rw [sum_congr rfl fun j hj => by rw [← hvv j (mem_range.1 hj)]]
      exact h2 r hr
  · intro v v' hv hm hv' hm'
    exact least_unique _ qp.P qp.q hP {v | qp.Feasible v} (fun a ha b hb => feasible_mid qp a b ha hb) v v' hv hv' hm hm'

/-- **C144 (the solution).** Without `use_sparsity`, the documented problem (hard constraints, and cost of the soft ones plus the
regularisation) has a solution as soon as the hard constraints can be satisfied, and only one. -/
theorem C144_solution (s : Settings ℝ) (qr : Nat → EqSt ℝ → QR ℝ) (cs : List (Constr ℝ)) (qp : QP ℝ) (hqr : QRContract s qr cs)
    (hs : s.useSparsity = false)
    (h : assemble s qr cs = .ok qp) (hreg : 0 < s.regularization) (hw : ∀ c ∈ cs, c.softEq = true → 0 ≤ c.weight)
    (hw' : ∀ c ∈ cs, c.softIneq = true → 0 < c.weight) (hx : ∃ x, HardSat cs x) :
    (∃ x, HardSat cs x ∧ ∀ y, HardSat cs y → specCost s.n s.regularization cs x ≤ specCost s.n s.regularization cs y) ∧
    ∀ x x', HardSat cs x → (∀ y, HardSat cs y → specCost s.n s.regularization cs x ≤ specCost s.n s.regularization cs y) →
      HardSat cs x' → (∀ y, HardSat cs y → specCost s.n s.regularization cs x' ≤ specCost s.n s.regularization cs y) →
      ∀ k, k < s.n → x k = x' k := by
  have hwi : ∀ c ∈ cs, c.priority = .soft → c.ty = .inequality → 0 ≤ c.weight := fun c hc h1 h2 =>
    (hw' c hc (by simp [Constr.softIneq, h1, h2])).le
  obtain ⟨h1, h2⟩ := C144 s qr cs qp hqr h hreg hw hw'
  have A := assembled_of_ok h
  constructor
  · obtain ⟨v, hv, hm⟩ := h1.2 hx
    exact ⟨_, C15_optimum s qr cs qp hqr hs h hwi v hv hm⟩
  · obtain ⟨const, c1, c2⟩ := C14_soft_inequalities s qr cs qp hqr hs h hwi
    -- a solution of the documented problem is an optimum of the QP
    have key : ∀ x, HardSat cs x → (∀ y, HardSat cs y → specCost s.n s.regularization cs x ≤ specCost s.n s.regularization cs y) →
        ∃ v, qp.Feasible v ∧ (∀ u, qp.Feasible u → qp.cost v ≤ qp.cost u) ∧ ∀ k, k < s.n → x k = qp.recover s.n v k := by
      intro x hx hm
      obtain ⟨u, hu, hxu⟩ := (C15_equalities_lossless s qr cs qp hqr h x).2 hx
      obtain ⟨v, hv, hrv, hcv⟩ := c2 u hu
      refine ⟨v, hv, fun w hw => ?_, fun k hk => by rw [hxu k hk, hrv k hk]⟩
      have a := c1 w hw
      have b := hm _ ((C15_equalities_lossless s qr cs qp hqr h _).1 ⟨w, hw, fun _ _ => rfl⟩)
      have e : specCost s.n s.regularization cs x = specCost s.n s.regularization cs (qp.recover s.n u) :=
        specCost_congr s.n s.regularization cs x _ (fun c hc => (A.ok c hc).1) hxu
      linarith
    intro x x' hx hm hx' hm' k hk
    obtain ⟨v, hv, hvm, e⟩ := key x hx hm
    obtain ⟨v', hv', hvm', e'⟩ := key x' hx' hm'
    rw [e k hk, e' k hk]
    exact recover_agrees A hqr (h2 v v' hv hvm hv' hvm') k hk

/-- Contract of an exact QP solver on a QP: it reports infeasibility exactly when there is no optimum, and returns an optimum. -/
def SolvesExactly (qp : QP ℝ) (r : QPResult ℝ) : Prop :=
  (r.infeasible = false ↔ ∃ v, qp.Feasible v ∧ ∀ v', qp.Feasible v' → qp.cost v ≤ qp.cost v') ∧
  (r.infeasible = false → r.hasNaN = false ∧ qp.Feasible r.x ∧ ∀ v', qp.Feasible v' → qp.cost r.x ≤ qp.cost v')

/-- **C144 (solve), partial.** With a positive regularisation, these weights and an exact solver, once the problem has been assembled,
`solve` succeeds exactly when the hard constraints can be satisfied together; the values of the variables do not depend on the
solver. Missing: without `rewrite_equalities`, problems with both a hard equality and a soft inequality, for which the call of the
solver is undefined (`C144_mismatch_refuted`). -/
theorem C144_solve_partial (s : Settings ℝ) (qr : Nat → EqSt ℝ → QR ℝ) (cs : List (Constr ℝ)) (qp : QP ℝ) (hqr : QRContract s qr cs)
    (hre : s.rewriteEqualities = true ∨ nEqualities cs = 0 ∨ nSlack cs = 0)
    (h : assemble s qr cs = .ok qp) (hreg : 0 < s.regularization) (hw : ∀ c ∈ cs, c.softEq = true → 0 ≤ c.weight)
    (hw' : ∀ c ∈ cs, c.softIneq = true → 0 < c.weight) (tol tol' : ℝ) (ht : 0 ≤ tol) (ht' : 0 ≤ tol') (st : PState ℝ)
    (hin : ∀ v ∈ st.vars, v.var.kStart + v.var.size ≤ s.n)
    (oracle oracle' : QP ℝ → QPResult ℝ) (ho : SolvesExactly qp (oracle qp)) (ho' : SolvesExactly qp (oracle' qp)) :
    ((solve s qr oracle tol cs st).2 = .ok () ↔ ∃ x, HardSat cs x) ∧
    ((¬ ∃ x, HardSat cs x) → (solve s qr oracle tol cs st).2 = .error .qpError) ∧
    ((solve s qr oracle tol cs st).2 = .ok () →
      (solve s qr oracle tol cs st).1.vars = (solve s qr oracle' tol' cs st).1.vars) := by
  obtain ⟨h1, h2⟩ := C144 s qr cs qp hqr h hreg hw hw'
  have A := assembled_of_ok h
  have hdim : qp.dimMismatch = false := by
    unfold QP.dimMismatch
    rw [A.nEq, A.eqCols, A.free, A.slack, A.red]
    rcases hre with hre | hre | hre
    · by_cases hp : 0 < nEqualities cs <;> simp [hre, hp]
    · simp [hre]
    · cases hr : s.rewriteEqualities <;> by_cases hp : 0 < nEqualities cs <;> simp [hre, hp]
  have hchk : ∀ v, qp.Feasible v → ∀ t : ℝ, 0 ≤ t → (List.range qp.nEq).any (fun k =>
      let u := (∑ j ∈ range s.n, qp.Aeq k j * qp.recover s.n v j) + qp.beq k
      decide (t < u) || decide (t < -u)) = false := by
    intro v hv t ht
    rw [List.any_eq_false]
    intro k hk
    have hk := List.mem_range.1 hk
    have hn : ¬ (s.rewriteEqualities && decide (0 < nEqualities cs)) = true := by
      intro hb; rw [A.nEq, if_pos hb] at hk; omega
    have hrec : qp.recover s.n v = v := by unfold QP.recover; rw [A.red, if_neg hn]
    have hcols : qp.eqCols = s.n := by rw [A.eqCols, if_neg hn]
    have e := hv.1 k hk
    rw [hcols] at e
    simp only [hrec, e]
    simp [not_lt.2 ht]
  have run : ∀ (o : QP ℝ → QPResult ℝ) (t : ℝ), 0 ≤ t → SolvesExactly qp (o qp) →
      ((solve s qr o t cs st).2 = .ok () ↔ (o qp).infeasible = false) ∧
      ((o qp).infeasible = true → (solve s qr o t cs st).2 = .error .qpError) ∧
      ((o qp).infeasible = false → (solve s qr o t cs st).1.vars = st.vars.map (updateVar (qp.recover s.n (o qp).x))) := by
    intro o t ht hso
    unfold solve
    simp only [h, hdim, Bool.false_eq_true, if_false]
    by_cases hi : (o qp).infeasible = true
    · rw [if_pos hi]
      simp [hi]
    · have hi' : (o qp).infeasible = false := by simpa using hi
      have hc := hchk _ (hso.2 hi').2.1 t ht
      simp only at hc
      rw [if_neg hi, if_neg (by rw [hc]; decide), if_neg (by rw [(hso.2 hi').1]; decide)]
      simp [hi']
  refine ⟨by rw [(run oracle tol ht ho).1, ho.1, h1], fun hno => (run oracle tol ht ho).2.1 ?_, fun hok => ?_⟩
  · by_contra hi
    exact hno (h1.1 (ho.1.1 (by simpa using hi)))
  have hi := (run oracle tol ht ho).1.1 hok
  have hi' : (oracle' qp).infeasible = false := ho'.1.2 (ho.1.1 hi)
  rw [(run oracle tol ht ho).2.2 hi, (run oracle' tol' ht' ho').2.2 hi']
  refine List.map_congr_left fun v hv => ?_
  obtain ⟨-, f1, m1⟩ := ho.2 hi
  obtain ⟨-, f2, m2⟩ := ho'.2 hi'
  have e := fun k hk => recover_agrees A hqr (h2 _ _ f1 m1 f2 m2) k hk
  have := hin v hv
  unfold updateVar
  congr 1
  refine List.map_congr_left fun k hk => e _ ?_
  have := List.mem_range.1 hk
  omega

/-- **C144 is false** without `rewrite_equalities`, for every problem with a hard equality and a soft inequality that could be
assembled: whatever its constraints, the matrices handed to the solver do not have the same number of variables. -/
theorem C144_mismatch_refuted (s : Settings ℝ) (qr : Nat → EqSt ℝ → QR ℝ) (cs : List (Constr ℝ)) (qp : QP ℝ)
    (hre : s.rewriteEqualities = false) (h : assemble s qr cs = .ok qp) (h1 : 0 < nEqualities cs) (h2 : 0 < nSlack cs)
    (oracle : QP ℝ → QPResult ℝ) (tol : ℝ) (st : PState ℝ) : (solve s qr oracle tol cs st).2 = .error .ub := by
  have A := assembled_of_ok h
  have hdim : qp.dimMismatch = true := by
    unfold QP.dimMismatch
    rw [A.nEq, A.eqCols, A.free, A.slack, A.red]
    simp [hre, h1]
    omega
  unfold solve
  simp only [h, hdim, if_true]

/-- **C144 (weight zero).** The hypothesis on the weights is needed: with a soft inequality of weight zero the matrix is not positive
definite (its slack variable does not appear in the cost), although the solver is called. -/
theorem C144_zero_weight_refuted (qr : Nat → EqSt ℝ → QR ℝ) : ∃ qp,
    assemble ({ n := 1, regularization := 1, useSparsity := true, rewriteEqualities := true, eps := 1 } : Settings ℝ) qr
      [{ expr := ⟨1, 1, fun _ _ => 1, fun _ => 0⟩, ty := .inequality, priority := .soft, weight := 0 }] = .ok qp ∧
    ¬ PosDef (qp.free + qp.slack) qp.P := by
  obtain ⟨qp, h⟩ : ∃ qp, assemble ({ n := 1, regularization := 1, useSparsity := true, rewriteEqualities := true, eps := 1 } : Settings ℝ) qr
      [{ expr := ⟨1, 1, fun _ _ => 1, fun _ => 0⟩, ty := .inequality, priority := .soft, weight := 0 }] = .ok qp := ⟨_, rfl⟩
  refine ⟨qp, h, fun hp => ?_⟩
  have A := assembled_of_ok h
  have hred : qp.red = none := by rw [A.red]; simp [nEqualities, Constr.hardEq]
  have hfree : qp.free = 1 := by rw [A.free, hred]
  have hslack : qp.slack = 1 := by rw [A.slack]; simp [nSlack, Constr.softIneq]
  have := hp (fun j => if j = 1 then 1 else 0) ⟨1, by omega, by norm_num⟩
  obtain ⟨Pq, st, hPq, hst, hP, -⟩ := A.st
  rw [hP, hst, hPq, hred, hfree, hslack] at this
  simp [form, ineqStep, objStep, Constr.softEq, ineqInit, regP, sum_range_succ] at this

/-- The hypotheses are met by a problem with a soft equality, a soft inequality and a hard inequality: `x0 == 1` (soft), `x0 >= 2`
(soft), `x0 + 1 >= 0` (hard). -/
example (qr : Nat → EqSt ℝ → QR ℝ) :
    let s : Settings ℝ := { n := 1, regularization := 1 / 100000000, useSparsity := false, rewriteEqualities := true, eps := 1 / 1000000000000 }
    let cs : List (Constr ℝ) := [{ expr := ⟨1, 1, fun _ _ => 1, fun _ => -1⟩, ty := .equality, priority := .soft, weight := 1 },
      { expr := ⟨1, 1, fun _ _ => 1, fun _ => -2⟩, ty := .inequality, priority := .soft, weight := 3 },
      { expr := ⟨1, 1, fun _ _ => 1, fun _ => 1⟩, ty := .inequality, priority := .hard, weight := 1 }]
    (∃ qp, assemble s qr cs = .ok qp) ∧ QRContract s qr cs ∧ (∃ x, HardSat cs x) ∧
      (∀ c ∈ cs, c.softEq = true → 0 ≤ c.weight) ∧ ∀ c ∈ cs, c.softIneq = true → 0 < c.weight := by
  refine ⟨⟨_, rfl⟩, fun h => ?_, ⟨fun _ => 0, ?_⟩, ?_, ?_⟩
  · simp [nEqualities, Constr.hardEq] at h
  · intro c hc hp
    simp only [List.mem_cons, List.not_mem_nil, or_false] at hc
    rcases hc with rfl | rfl | rfl
    · cases hp
    · cases hp
    · simp [Constr.Sat, Expr.rowVal]
  · intro c hc _
    simp only [List.mem_cons, List.not_mem_nil, or_false] at hc
    rcases hc with rfl | rfl | rfl <;> norm_num
  · intro c hc _
    simp only [List.mem_cons, List.not_mem_nil, or_false] at hc
    rcases hc with rfl | rfl | rfl <;> norm_num

end Verif.Problem
