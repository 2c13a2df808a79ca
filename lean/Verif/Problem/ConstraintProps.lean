/-
Properties C02 (comparisons), C03 (vector - expression), C04 (expression -
double), C05 (mean), C07 (variable slices).
-/
import Mathlib.Algebra.Order.Ring.Rat
import Mathlib.Data.List.Forall2
import Verif.Problem.Constraint
import Verif.Problem.ExpressionProps

namespace Verif.Problem
open Finset

section
variable {K : Type} [Field K]

/-! ## C02 -/

/-- Specification of a row-by-row comparison of two values: a single-row
constant compares with every row, otherwise the rows are compared one to one. -/
def Rowwise (r : K → K → Prop) (ca cb : Bool) (la lb : List K) : Prop :=
  match ca, la with
  | true, [f] => ∀ y ∈ lb, r f y
  | _, _ =>
    match cb, lb with
    | true, [g] => ∀ y ∈ la, r y g
    | _, _ => List.Forall₂ r la lb

namespace C02

theorem forall_rows_iff (e : Expr K) (x : Nat → K) (p : K → Prop) :
    (∀ i, i < e.rows → p (e.rowVal x i)) ↔ ∀ y ∈ e.value x, p y := by
  simp [Expr.value]

theorem rowwise_of_pointwise (r : K → K → Prop) (p : K → Prop) (h : ∀ a b, p (a - b) ↔ r a b)
    (ca cb : Bool) (la lb l : List K) (hp : pointwise (· - ·) ca cb la lb = .ok l) :
    (∀ y ∈ l, p y) ↔ Rowwise r ca cb la lb := by
  have key : ∀ la lb : List K, la.length = lb.length →
      ((∀ y ∈ List.zipWith (· - ·) la lb, p y) ↔ List.Forall₂ r la lb) := by
    intro la
    induction la with
    | nil => intro lb hl; cases lb with
      | nil => simp
      | cons b lb => simp at hl
    | cons a la ih => intro lb hl; cases lb with
      | nil => simp at hl
      | cons b lb =>
        simp only [List.zipWith_cons_cons, List.mem_cons, forall_eq_or_imp, List.forall₂_cons, h]
        rw [ih lb (by simpa using hl)]
  unfold pointwise at hp
  unfold Rowwise
  split at hp
  · cases hp; simp only [List.forall_mem_map, h]
  · split at hp
    · rename_i h1 _ _ _
      cases hp
      split
      · exact absurd rfl (h1 _ rfl)
      · simp only [List.forall_mem_map, h]
    · rename_i h1 _ _ h2
      split at hp
      · rename_i hl
        cases hp
        split
        · exact absurd rfl (h1 _ rfl)
        · split
          · exact absurd rfl (h2 _ rfl)
          · exact key _ _ hl
      · cases hp

theorem sub_sat (r : K → K → Prop) (p : K → Prop) (h : ∀ a b, p (a - b) ↔ r a b)
    {e o d : Expr K} (hd : e.sub o = .ok d) (x : Nat → K) :
    (∀ i, i < d.rows → p (d.rowVal x i)) ↔
      Rowwise r e.isConstant o.isConstant (e.value x) (o.value x) := by
  rw [forall_rows_iff]
  refine rowwise_of_pointwise r p h _ _ _ _ _ ?_
  rw [C01.sub_pointwise, hd]; rfl

theorem sub_error {e o : Expr K} {k : Err} (h : e.sub o = .error k) :
    k = .runtimeError ∧ e.rows ≠ o.rows := by
  unfold Expr.sub Expr.add at h
  split at h
  · cases h
  · split at h
    · cases h
    · split at h
      · rename_i hr; cases h; exact ⟨rfl, hr⟩
      · cases h

/-- Row by row reading of `Rowwise` for equal row counts. -/
theorem rowwise_same {r : K → K → Prop} {e o : Expr K} {x : Nat → K} (h : e.rows = o.rows) :
    Rowwise r e.isConstant o.isConstant (e.value x) (o.value x) ↔
      ∀ i, i < e.rows → r (e.rowVal x i) (o.rowVal x i) := by
  have key : List.Forall₂ r (e.value x) (o.value x) ↔
      ∀ i, i < e.rows → r (e.rowVal x i) (o.rowVal x i) := by
    rw [List.forall₂_iff_get]
    simp [h]
  unfold Rowwise
  split
  · rename_i f _ hv
    obtain ⟨h1, h2⟩ := C01.rows_of_value_singleton hv
    rw [← h2, ← forall_rows_iff o x (fun y => r (e.rowVal x 0) y)]
    constructor
    · intro hh i hi
      have : i = 0 := by omega
      subst this; exact hh 0 (by omega)
    · intro hh i hi
      have : i = 0 := by omega
      subst this; exact hh 0 (by omega)
  · split
    · rename_i f _ hv
      obtain ⟨h1, h2⟩ := C01.rows_of_value_singleton hv
      rw [← h2, ← forall_rows_iff e x (fun y => r y (o.rowVal x 0))]
      constructor
      · intro hh i hi
        have : i = 0 := by omega
        subst this; exact hh 0 (by omega)
      · intro hh i hi
        have : i = 0 := by omega
        subst this; exact hh 0 (by omega)
    · exact key

end C02

variable [LinearOrder K] [IsStrictOrderedRing K]

/-- **C02 (`>=`).** Either the row counts are incompatible and a runtime error
is raised, or the built constraint is a hard inequality of weight 1 that is
satisfied at `x` iff every row of `e` is at least the matching row of `o`. -/
theorem C02_ge (e o : Expr K) :
    (∃ c, e.ge o = .ok c ∧ c.ty = .inequality ∧ c.priority = .hard ∧ c.weight = 1 ∧
      ∀ x, c.Sat x ↔ Rowwise (· ≥ ·) e.isConstant o.isConstant (e.value x) (o.value x)) ∨
    (e.ge o = .error .runtimeError ∧ e.rows ≠ o.rows) := by
  rcases C01.except_cases (e.sub o) with ⟨d, hd⟩ | ⟨k, hk⟩
  · left
    refine ⟨_, by rw [Expr.ge, hd]; rfl, rfl, rfl, rfl, fun x => ?_⟩
    exact C02.sub_sat (· ≥ ·) (0 ≤ ·) (fun a b => sub_nonneg) hd x
  · right
    obtain ⟨rfl, h⟩ := C02.sub_error hk
    exact ⟨by rw [Expr.ge, hk]; rfl, h⟩

/-- **C02 (`<=`).** -/
theorem C02_le (e o : Expr K) :
    (∃ c, e.le o = .ok c ∧ c.ty = .inequality ∧ c.priority = .hard ∧ c.weight = 1 ∧
      ∀ x, c.Sat x ↔ Rowwise (· ≤ ·) e.isConstant o.isConstant (e.value x) (o.value x)) ∨
    (e.le o = .error .runtimeError ∧ e.rows ≠ o.rows) := by
  rcases C01.except_cases (e.sub o) with ⟨d, hd⟩ | ⟨k, hk⟩
  · left
    refine ⟨_, by rw [Expr.le, hd]; rfl, rfl, rfl, rfl, fun x => ?_⟩
    rw [← C02.sub_sat (· ≤ ·) (fun y => 0 ≤ -y) (fun a b => by simp) hd x]
    simp only [Constr.Sat, Expr.rowVal_neg]
    exact Iff.rfl
  · right
    obtain ⟨rfl, h⟩ := C02.sub_error hk
    exact ⟨by rw [Expr.le, hk]; rfl, h⟩

/-- **C02 (`==`).** -/
theorem C02_eq (e o : Expr K) :
    (∃ c, e.eq o = .ok c ∧ c.ty = .equality ∧ c.priority = .hard ∧ c.weight = 1 ∧
      ∀ x, c.Sat x ↔ Rowwise (· = ·) e.isConstant o.isConstant (e.value x) (o.value x)) ∨
    (e.eq o = .error .runtimeError ∧ e.rows ≠ o.rows) := by
  rcases C01.except_cases (e.sub o) with ⟨d, hd⟩ | ⟨k, hk⟩
  · left
    refine ⟨_, by rw [Expr.eq, hd]; rfl, rfl, rfl, rfl, fun x => ?_⟩
    exact C02.sub_sat (· = ·) (· = 0) (fun a b => sub_eq_zero) hd x
  · right
    obtain ⟨rfl, h⟩ := C02.sub_error hk
    exact ⟨by rw [Expr.eq, hk]; rfl, h⟩

omit [LinearOrder K] [IsStrictOrderedRing K] in
theorem C02.sub_fromDouble (e : Expr K) (f : K) :
    ∃ d, e.sub (Expr.fromDouble f) = .ok d ∧ d.rows = e.rows ∧
      ∀ x i, i < e.rows → d.rowVal x i = e.rowVal x i - f := by
  unfold Expr.sub Expr.add
  by_cases h : (e.isScalar && e.isConstant) = true
  · rw [if_pos h]
    simp only [Expr.isScalar, Expr.isConstant, Bool.and_eq_true, beq_iff_eq] at h
    refine ⟨_, rfl, h.1.symm, fun x i hi => ?_⟩
    have : i = 0 := by omega
    subst this
    rw [Expr.rowVal_piecewiseAdd, Expr.rowVal_smul, Expr.rowVal_constant _ (rfl : (Expr.fromDouble f).cols = 0),
      Expr.rowVal_constant e h.2]
    simp only [Expr.fromDouble]; ring
  · have h2 : (((Expr.fromDouble f).smul (-1)).isScalar && ((Expr.fromDouble f).smul (-1)).isConstant) = true := rfl
    rw [if_neg h, if_pos h2]
    refine ⟨_, rfl, rfl, fun x i _ => ?_⟩
    rw [Expr.rowVal_piecewiseAdd]
    simp only [Expr.fromDouble, Expr.smul]; ring

omit [LinearOrder K] [IsStrictOrderedRing K] in
theorem C02.fromDouble_sub (e : Expr K) (f : K) :
    ∃ d, (Expr.fromDouble f).sub e = .ok d ∧ d.rows = e.rows ∧
      ∀ x i, i < e.rows → d.rowVal x i = f - e.rowVal x i := by
  refine ⟨(e.smul (-1)).piecewiseAdd f, rfl, rfl, fun x i _ => ?_⟩
  rw [Expr.rowVal_piecewiseAdd, Expr.rowVal_smul]; ring

/-- **C02 (doubles).** All six comparisons with a double, on either side,
always succeed and compare every row with that number. -/
theorem C02_double (e : Expr K) (f : K) :
    (∃ c, e.geDouble f = .ok c ∧ ∀ x, c.Sat x ↔ ∀ y ∈ e.value x, y ≥ f) ∧
    (∃ c, e.leDouble f = .ok c ∧ ∀ x, c.Sat x ↔ ∀ y ∈ e.value x, y ≤ f) ∧
    (∃ c, e.eqDouble f = .ok c ∧ ∀ x, c.Sat x ↔ ∀ y ∈ e.value x, y = f) ∧
    (∃ c, Expr.doubleGe f e = .ok c ∧ ∀ x, c.Sat x ↔ ∀ y ∈ e.value x, f ≥ y) ∧
    (∃ c, Expr.doubleLe f e = .ok c ∧ ∀ x, c.Sat x ↔ ∀ y ∈ e.value x, f ≤ y) ∧
    (∃ c, Expr.doubleEq f e = .ok c ∧ ∀ x, c.Sat x ↔ ∀ y ∈ e.value x, f = y) := by
  obtain ⟨d, hd, hr, hv⟩ := C02.sub_fromDouble e f
  obtain ⟨d', hd', hr', hv'⟩ := C02.fromDouble_sub e f
  refine ⟨⟨_, by rw [Expr.geDouble, Expr.ge, hd]; rfl, fun x => ?_⟩,
    ⟨_, by rw [Expr.leDouble, Expr.le, hd]; rfl, fun x => ?_⟩,
    ⟨_, by rw [Expr.eqDouble, Expr.eq, hd]; rfl, fun x => ?_⟩,
    ⟨_, by rw [Expr.doubleGe, Expr.ge, hd']; rfl, fun x => ?_⟩,
    ⟨_, by rw [Expr.doubleLe, Expr.le, hd']; rfl, fun x => ?_⟩,
    ⟨_, by rw [Expr.doubleEq, Expr.eqDouble, Expr.eq, hd]; rfl, fun x => ?_⟩⟩
  · rw [← C02.forall_rows_iff e x (· ≥ f)]
    simp only [Constr.Sat, hr]
    exact forall₂_congr fun i hi => by rw [hv x i hi, sub_nonneg]
  · rw [← C02.forall_rows_iff e x (· ≤ f)]
    simp only [Constr.Sat, Expr.rowVal_neg]
    show (∀ i, i < d.rows → _) ↔ _
    rw [hr]
    exact forall₂_congr fun i hi => by rw [hv x i hi]; simp
  · rw [← C02.forall_rows_iff e x (· = f)]
    simp only [Constr.Sat, hr]
    exact forall₂_congr fun i hi => by rw [hv x i hi, sub_eq_zero]
  · rw [← C02.forall_rows_iff e x (f ≥ ·)]
    simp only [Constr.Sat, hr']
    exact forall₂_congr fun i hi => by rw [hv' x i hi, sub_nonneg]
  · rw [← C02.forall_rows_iff e x (f ≤ ·)]
    simp only [Constr.Sat, Expr.rowVal_neg]
    show (∀ i, i < d'.rows → _) ↔ _
    rw [hr']
    exact forall₂_congr fun i hi => by rw [hv' x i hi]; simp
  · rw [← C02.forall_rows_iff e x (f = ·)]
    simp only [Constr.Sat, hr]
    exact forall₂_congr fun i hi => by rw [hv x i hi, sub_eq_zero, eq_comm]

omit [LinearOrder K] [IsStrictOrderedRing K] in
theorem C02.sub_same (e o : Expr K) (h : e.rows = o.rows) :
    ∃ d, e.sub o = .ok d ∧ d.rows = e.rows ∧
      ∀ x i, i < e.rows → d.rowVal x i = e.rowVal x i - o.rowVal x i := by
  obtain ⟨d, hd⟩ := Expr.add_ok_of_rows e (o.smul (-1)) h
  obtain ⟨h1, h2⟩ := Expr.add_rowVal_of_rows hd h
  refine ⟨d, hd, h1, fun x i hi => ?_⟩
  rw [h2 x i hi, Expr.rowVal_smul]; ring

/-- **C02 (vectors).** All six comparisons with a vector of matching size, on
either side, succeed and compare row by row. -/
theorem C02_vector (e : Expr K) (v : Vec K) (hsz : v.size = e.rows) :
    (∃ c, e.geVec v = .ok c ∧ ∀ x, c.Sat x ↔ ∀ i, i < e.rows → e.rowVal x i ≥ v.v i) ∧
    (∃ c, e.leVec v = .ok c ∧ ∀ x, c.Sat x ↔ ∀ i, i < e.rows → e.rowVal x i ≤ v.v i) ∧
    (∃ c, e.eqVec v = .ok c ∧ ∀ x, c.Sat x ↔ ∀ i, i < e.rows → e.rowVal x i = v.v i) ∧
    (∃ c, Expr.vecGe v e = .ok c ∧ ∀ x, c.Sat x ↔ ∀ i, i < e.rows → v.v i ≥ e.rowVal x i) ∧
    (∃ c, Expr.vecLe v e = .ok c ∧ ∀ x, c.Sat x ↔ ∀ i, i < e.rows → v.v i ≤ e.rowVal x i) ∧
    (∃ c, Expr.vecEq v e = .ok c ∧ ∀ x, c.Sat x ↔ ∀ i, i < e.rows → v.v i = e.rowVal x i) := by
  have hvr : (Expr.fromVector v).rows = e.rows := hsz
  have hvv : ∀ x i, (Expr.fromVector v).rowVal x i = v.v i := fun x i =>
    Expr.rowVal_constant (Expr.fromVector v) rfl x i
  obtain ⟨d, hd, hr, hv⟩ := C02.sub_same e (Expr.fromVector v) hvr.symm
  obtain ⟨d', hd', hr', hv'⟩ := C02.sub_same (Expr.fromVector v) e hvr
  simp only [hvv] at hv hv'
  rw [hvr] at hr'
  simp only [hvr] at hv'
  refine ⟨⟨_, by rw [Expr.geVec, Expr.ge, hd]; rfl, fun x => ?_⟩,
    ⟨_, by rw [Expr.leVec, Expr.le, hd]; rfl, fun x => ?_⟩,
    ⟨_, by rw [Expr.eqVec, Expr.eq, hd]; rfl, fun x => ?_⟩,
    ⟨_, by rw [Expr.vecGe, Expr.ge, hd']; rfl, fun x => ?_⟩,
    ⟨_, by rw [Expr.vecLe, Expr.le, hd']; rfl, fun x => ?_⟩,
    ⟨_, by rw [Expr.vecEq, Expr.eqVec, Expr.eq, hd]; rfl, fun x => ?_⟩⟩
  · simp only [Constr.Sat, hr]
    exact forall₂_congr fun i hi => by rw [hv x i hi, sub_nonneg]
  · simp only [Constr.Sat, Expr.rowVal_neg]
    show (∀ i, i < d.rows → _) ↔ _
    rw [hr]
    exact forall₂_congr fun i hi => by rw [hv x i hi]; simp
  · simp only [Constr.Sat, hr]
    exact forall₂_congr fun i hi => by rw [hv x i hi, sub_eq_zero]
  · simp only [Constr.Sat, hr']
    exact forall₂_congr fun i hi => by rw [hv' x i hi, sub_nonneg]
  · simp only [Constr.Sat, Expr.rowVal_neg]
    show (∀ i, i < d'.rows → _) ↔ _
    rw [hr']
    exact forall₂_congr fun i hi => by rw [hv' x i hi]; simp
  · simp only [Constr.Sat, hr]
    exact forall₂_congr fun i hi => by rw [hv x i hi, sub_eq_zero, eq_comm]

/-- Non-vacuity: `x0 >= x1` with `x = (3, 2)` holds, with `(1, 2)` it does not. -/
example : Rowwise (K := ℚ) (· ≥ ·) false false [3] [2] ∧ ¬ Rowwise (K := ℚ) (· ≥ ·) false false [1] [2] := by
  constructor
  · simp only [Rowwise]; exact .cons (by decide +kernel) .nil
  · simp only [Rowwise]; intro h; cases h with | cons h _ => exact absurd h (by decide +kernel)

/-! ## C03: vector minus expression -/

omit [LinearOrder K] [IsStrictOrderedRing K] in
/-- What `v - e` really computes: `e - v`. -/
theorem C03_vector_minus_expression_partial (v : Vec K) (e : Expr K) (h : v.size = e.rows) :
    ∃ r, Expr.vecSub v e = .ok r ∧ r.rows = e.rows ∧ ∀ x i, i < e.rows →
      r.rowVal x i = -(v.v i - e.rowVal x i) := by
  refine ⟨{ e with b := fun i => e.b i - v.v i }, by rw [Expr.vecSub, Expr.subVec, if_pos h], rfl, fun x i _ => ?_⟩
  simp only [Expr.rowVal]; ring

/-- **C03 refuted.** There are `v`, `e` of the same size and `x` such that
`v - e` does not evaluate to `v` minus the value of `e`. -/
theorem C03_vector_minus_expression_refuted :
    ¬ (∀ (v : Vec ℚ) (e : Expr ℚ), v.size = e.rows →
        ∃ r, Expr.vecSub v e = .ok r ∧ ∀ x, r.value x = List.zipWith (· - ·)
          ((List.range v.size).map v.v) (e.value x)) := by
  intro h
  obtain ⟨r, hr, hv⟩ := h ⟨1, fun _ => 1⟩ ⟨1, 1, fun _ _ => 1, fun _ => 0⟩ rfl
  have := hv (fun _ => 0)
  rw [Expr.vecSub, Expr.subVec, if_pos rfl] at hr
  cases hr
  revert this
  decide +kernel

/-! ## C04: expression minus double -/

omit [LinearOrder K] [IsStrictOrderedRing K] in
/-- On one-row expressions `e - f` is right; on every other row count it is
undefined behaviour. -/
theorem C04_expression_minus_double_partial (e : Expr K) (f : K) :
    (e.rows = 1 → ∃ r, e.subDouble f = .ok r ∧ ∀ x, r.value x = (e.value x).map (fun y => y - f)) ∧
    (e.rows ≠ 1 → e.subDouble f = .error .ub) := by
  constructor
  · intro h
    refine ⟨_, by rw [Expr.subDouble, Expr.subVec, if_pos h.symm], fun x => ?_⟩
    exact C01.map_value e { e with b := fun i => e.b i - f } x (fun y => y - f) rfl
      (fun i => by simp only [Expr.rowVal]; ring)
  · intro h
    rw [Expr.subDouble, Expr.subVec, if_neg (fun h' => h h'.symm)]

/-- **C04 refuted.** `e - f` does not subtract `f` from every row of every
expression. -/
theorem C04_expression_minus_double_refuted :
    ¬ (∀ (e : Expr ℚ) (f : ℚ), ∃ r, e.subDouble f = .ok r ∧
        ∀ x, r.value x = (e.value x).map (fun y => y - f)) := by
  intro h
  obtain ⟨r, hr, _⟩ := h ⟨2, 2, fun i j => if i = j then 1 else 0, fun _ => 0⟩ 1
  rw [(C04_expression_minus_double_partial _ _).2 (by decide)] at hr
  cases hr

/-- The partial statement is inhabited: `x0 - 3`. -/
example : ((⟨1, 1, fun _ _ => 1, fun _ => 0⟩ : Expr ℚ).subDouble 3).map (fun r => r.value fun _ => 5) = .ok [2] := by
  decide +kernel

/-! ## C05: mean -/

/-- What `mean()` really computes: the sum of the rows divided by the number of
*columns*; in particular it is the mean when rows and columns agree. -/
theorem C05_mean_partial (e : Expr K) (h : 0 < e.cols) (x : Nat → K) :
    e.mean.value x = [(e.value x).sum / (e.cols : K)] ∧
    (e.rows = e.cols → e.mean.value x = [(e.value x).sum / ((e.value x).length : K)]) := by
  have key : e.mean.value x = [(e.value x).sum / (e.cols : K)] := by
    rw [C01.value_one _ rfl]
    have h1 : e.mean.rowVal x 0 = e.sum.rowVal x 0 / (e.cols : K) := by
      simp only [Expr.rowVal, Expr.mean, div_eq_mul_inv, add_mul, Finset.sum_mul]
      congr 1
      exact sum_congr rfl fun j _ => by ring
    have h2 := C01.value_sum e x
    rw [C01.value_one _ rfl] at h2
    have h3 : e.sum.rowVal x 0 = (e.value x).sum := by simpa using h2
    rw [h1, h3]
  exact ⟨key, fun hr => by rw [key]; simp [hr]⟩

/-- **C05 refuted.** A two-row expression over one variable: the mean of
`(x, x)` is `x`, the code returns `2 x`. -/
theorem C05_mean_refuted :
    ¬ (∀ (e : Expr ℚ), 0 < e.rows → 0 < e.cols → ∀ x,
        e.mean.value x = [(e.value x).sum / (e.rows : ℚ)]) := by
  intro h
  have := h ⟨2, 1, fun _ _ => 1, fun _ => 0⟩ (by decide) (by decide) (fun _ => 1)
  revert this
  decide +kernel

/-! ## C07: variable slices -/

omit [LinearOrder K] [IsStrictOrderedRing K] in
/-- **C07.** An in-range slice evaluates to consecutive entries of the
variable's own part of the decision vector. -/
theorem C07_variable_slice (v : Var) (hv : v.kStart ≤ v.kEnd) (start rows : Nat)
    (h : start + rows ≤ v.kEnd - v.kStart) :
    ∃ e : Expr K, v.expr start rows = .ok e ∧
      ∀ x, e.value x = (List.range rows).map (fun k => x (v.kStart + start + k)) := by
  rcases C01.refines (Term.var v (start : Int) (rows : Int) : Term K) with ⟨e, he, hev, _⟩ | ⟨k, hk, _⟩
  · refine ⟨e, he, fun x => ?_⟩
    have h1 := hev x
    simp only [Term.denote] at h1
    rw [if_neg (by omega : ¬ ((start : Int) = -1)), if_neg (by omega : ¬ ((rows : Int) = -1)),
      if_pos (by omega)] at h1
    have h2 : ((v.kStart : Int) + (start : Int)).toNat = v.kStart + start := by omega
    rw [h2] at h1
    injection h1 with h1
    rw [← h1]; rfl
  · exfalso
    simp only [Term.build, Var.expr] at hk
    rw [if_neg (by omega : ¬ ((start : Int) = -1)), if_neg (by omega : ¬ ((rows : Int) = -1)),
      if_pos (by omega)] at hk
    cases hk

omit [LinearOrder K] [IsStrictOrderedRing K] in
/-- **C07 (defaults).** `variable.expr()` is the whole variable, and
`variable.expr(start)` its tail. -/
theorem C07_variable_defaults (v : Var) (hv : v.kStart ≤ v.kEnd) (start : Nat)
    (h : start ≤ v.kEnd - v.kStart) :
    (v.expr (-1) (-1) : Except Err (Expr K)) = v.expr (0 : Nat) (v.kEnd - v.kStart : Nat) ∧
    (v.expr start (-1) : Except Err (Expr K)) = v.expr start (v.kEnd - v.kStart - start : Nat) := by
  constructor
  · simp only [Var.expr]
    simp only [if_true]
    rw [if_neg (by omega : ¬ (((0 : Nat) : Int) = -1)),
      if_neg (by omega : ¬ (((v.kEnd - v.kStart : Nat) : Int) = -1))]
    have : (v.kEnd : Int) - v.kStart - 0 = ((v.kEnd - v.kStart : Nat) : Int) := by omega
    rw [this]; rfl
  · simp only [Var.expr]
    simp only [if_true]
    rw [if_neg (by omega : ¬ ((start : Int) = -1)),
      if_neg (by omega : ¬ (((v.kEnd - v.kStart - start : Nat) : Int) = -1))]
    have : (v.kEnd : Int) - v.kStart - start = ((v.kEnd - v.kStart - start : Nat) : Int) := by omega
    rw [this]

omit [LinearOrder K] [IsStrictOrderedRing K] in
/-- Slices reaching past the end of the variable are not defined requests. -/
theorem C07_variable_past_end (v : Var) (start rows : Nat) (hr : 0 < rows)
    (h : v.kEnd < v.kStart + start + rows) :
    (v.expr start rows : Except Err (Expr K)) = .error .ub := by
  simp only [Var.expr]
  rw [if_neg (by omega : ¬ ((start : Int) = -1)), if_neg (by omega : ¬ ((rows : Int) = -1)),
    if_neg (by omega)]

/-- Non-vacuity: the second variable of a problem, entries 1..3. -/
example : ((⟨2, 6⟩ : Var).expr 1 2 : Except Err (Expr ℚ)).map (fun e => e.value fun i => (i : ℚ)) = .ok [3, 4] := by
  decide +kernel

/-! ## C120 -/

/-- A call to one of the two overloads of `configure`. -/
inductive ConfigCall (K : Type) where
  | byName (type : String) (w : K)
  | byValue (p : Priority) (w : K)

/-- The constraint after a history of `configure` calls, first call first. -/
def configured (c : Constr K) : List (ConfigCall K) → Constr K
  | [] => c
  | .byName t w :: cs => configured (c.configure t w) cs
  | .byValue p w :: cs => configured (c.configureP p w) cs

/-- What a call asks for: `none` when its name is not one of the documented ones. -/
def ConfigCall.asked : ConfigCall K → Option (Priority × K)
  | .byName "hard" w => some (.hard, w)
  | .byName "soft" w => some (.soft, w)
  | .byName _ _ => none
  | .byValue p w => some (p, w)

omit [LinearOrder K] [IsStrictOrderedRing K] in
theorem configured_append (c : Constr K) (cs cs' : List (ConfigCall K)) :
    configured c (cs ++ cs') = configured (configured c cs) cs' := by
  induction cs generalizing c with
  | nil => rfl
  | cons x cs ih => cases x <;> exact ih _

omit [LinearOrder K] [IsStrictOrderedRing K] in
theorem configured_keeps (c : Constr K) (cs : List (ConfigCall K)) :
    (configured c cs).expr = c.expr ∧ (configured c cs).ty = c.ty ∧ (configured c cs).brows = c.brows := by
  induction cs generalizing c with
  | nil => exact ⟨rfl, rfl, rfl⟩
  | cons x cs ih => cases x <;> exact ih _

omit [LinearOrder K] [IsStrictOrderedRing K] in
/-- **C120.** After any history of `configure` calls whose last one gives a priority (or the name `hard` or `soft`), the
constraint has exactly this priority and weight, and what it states is unchanged. -/
theorem C120_partial (c : Constr K) (cs : List (ConfigCall K)) (last : ConfigCall K) (p : Priority) (w : K)
    (h : last.asked = some (p, w)) :
    (configured c (cs ++ [last])).priority = p ∧ (configured c (cs ++ [last])).weight = w ∧
    (configured c (cs ++ [last])).expr = c.expr ∧ (configured c (cs ++ [last])).ty = c.ty ∧
    (configured c (cs ++ [last])).brows = c.brows := by
  have hk := configured_keeps c (cs ++ [last])
  rw [configured_append] at hk ⊢
  have hpw : (configured (configured c cs) [last]).priority = p ∧ (configured (configured c cs) [last]).weight = w := by
    unfold ConfigCall.asked at h
    split at h
    · cases h; exact ⟨rfl, rfl⟩
    · cases h; exact ⟨rfl, rfl⟩
    · cases h
    · cases h; exact ⟨rfl, rfl⟩
  exact ⟨hpw.1, hpw.2, hk⟩

omit [LinearOrder K] [IsStrictOrderedRing K] in
/-- **C120** refuted for other names: every one of them is silently taken for `soft`, including `scaled`, `Hard` and
misspellings, where `tools::Prioritized` raises. -/
theorem C120_refuted (c : Constr K) (type : String) (w : K) (h : (ConfigCall.byName type w).asked = none) :
    (c.configure type w).priority = .soft := by
  unfold Constr.configure
  simp only
  rw [if_neg]
  rintro rfl
  simp [ConfigCall.asked] at h

/-- Non-vacuity. -/
example : (ConfigCall.byName "Hard" (1 : ℚ)).asked = none ∧
    (ConfigCall.byName "hard" (3 : ℚ)).asked = some (.hard, 3) := by
  constructor <;> rfl

end
end Verif.Problem
