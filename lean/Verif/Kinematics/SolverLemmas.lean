/-
Helper lemmas about the kinematics solver model, and the specification of what
a set of tasks asks of a step.
-/
import Verif.Problem.ConstraintProps
import Verif.Problem.ProblemQPProps
import Verif.Problem.ProblemSolveProps
import Verif.Kinematics.Solver

namespace Verif.Kinematics
open Finset Verif.Problem

section
variable {K : Type} [Field K] [LinearOrder K] [IsStrictOrderedRing K]

/-! ## Specification -/

/-- `(A x)_i`. -/
def TaskMat.app (t : TaskMat K) (x : Nat → K) (i : Nat) : K := ∑ j ∈ range t.cols, t.A i j * x j

/-- What one task requires of a step `x` with scale `s` (task.h: `A x = b`; scaled: `A x = s b`;
soft: nothing). -/
def TaskHard (robot : RState K) (t : Task K) (x : Nat → K) (s : K) : Prop :=
  ∀ M, t.update robot = .ok M → ∀ i, i < M.rows →
    (t.priority = .hard → M.app x i = M.b i) ∧ (t.priority = .scaled → M.app x i = s * M.b i)

/-- Cost of one task: the weighted squared error of a soft task. -/
def taskCost (robot : RState K) (t : Task K) (x : Nat → K) : K :=
  match t.update robot with
  | .error _ => 0
  | .ok M => if t.priority = .soft then ∑ i ∈ range M.rows, t.weight * (M.app x i - M.b i) ^ 2 else 0

/-- The task is a non-empty scaled task. -/
def Task.isScaled (robot : RState K) (t : Task K) : Bool :=
  match t.update robot with
  | .error _ => false
  | .ok M => decide (t.priority = .scaled) && decide (M.rows ≠ 0)

/-- Task matrices have at most as many columns as degrees of freedom. -/
def TasksFit (nv : Nat) (robot : RState K) (tasks : List (Task K)) : Prop :=
  ∀ t ∈ tasks, ∀ M, t.update robot = .ok M → M.cols ≤ nv

/-- Contract of the external QR factorisation and QP solver: whenever a problem is handed to
them, the factorisation is one, and a solution reported as valid is feasible. -/
def QPEnv.Sound (env : QPEnv K) : Prop :=
  ∀ n cs qp, assemble (env.settings n) env.qr cs = .ok qp →
    QRContract (env.settings n) env.qr cs ∧
    ((env.oracle qp).infeasible = false → (env.oracle qp).hasNaN = false → qp.Feasible (env.oracle qp).x)

/-- Contract of the external QP solver: a solution reported as valid is optimal. -/
def QPEnv.Optimal (env : QPEnv K) : Prop :=
  ∀ n cs qp, assemble (env.settings n) env.qr cs = .ok qp →
    (env.oracle qp).infeasible = false → (env.oracle qp).hasNaN = false →
    ∀ v, qp.Feasible v → qp.cost (env.oracle qp).x ≤ qp.cost v

/-- The variables of the solver: none yet, the joint steps, or the joint steps and the scale. -/
def VarsOK (nv : Nat) (prob : Nat × List (VarState K)) (qdVar scaleVar : Option Nat) : Prop :=
  (qdVar = none ∧ scaleVar = none ∧ prob = (0, [])) ∨
  (qdVar = some 0 ∧ scaleVar = none ∧ prob.1 = nv ∧ prob.2.map (·.var) = [⟨0, nv⟩]) ∨
  (qdVar = some 0 ∧ scaleVar = some 1 ∧ prob.1 = nv + 1 ∧ prob.2.map (·.var) = [⟨0, nv⟩, ⟨nv, nv + 1⟩])

/-! ## Constraint building blocks -/

theorem HardSat_append (cs cs' : List (Constr K)) (x : Nat → K) :
    HardSat (cs ++ cs') x ↔ HardSat cs x ∧ HardSat cs' x := by
  unfold HardSat
  constructor
  · exact fun h => ⟨fun c hc => h c (by simp [hc]), fun c hc => h c (by simp [hc])⟩
  · rintro ⟨h1, h2⟩ c hc
    rcases List.mem_append.1 hc with h | h
    · exact h1 c h
    · exact h2 c h

theorem HardSat_nil (x : Nat → K) : HardSat ([] : List (Constr K)) x := fun c hc => by simp at hc

theorem HardSat_single (c : Constr K) (x : Nat → K) : HardSat [c] x ↔ (c.priority = .hard → c.Sat x) := by
  unfold HardSat; simp

/-- Sum of the soft penalties. -/
def pen (cs : List (Constr K)) (x : Nat → K) : K := (cs.map (softPenalty x)).sum

theorem pen_append (cs cs' : List (Constr K)) (x : Nat → K) : pen (cs ++ cs') x = pen cs x + pen cs' x := by
  simp [pen]

theorem pen_single (c : Constr K) (x : Nat → K) : pen [c] x = softPenalty x c := by simp [pen]

theorem pen_hard (cs : List (Constr K)) (h : ∀ c ∈ cs, c.priority = .hard) (x : Nat → K) : pen cs x = 0 := by
  unfold pen
  apply List.sum_eq_zero
  intro y hy
  obtain ⟨c, hc, rfl⟩ := List.mem_map.1 hy
  unfold softPenalty
  rw [h c hc]

/-- `e == 0`. -/
theorem eqDouble_zero (e : Expr K) (f : K) : ∃ c, e.eqDouble f = .ok c ∧ c.ty = .equality ∧ c.priority = .hard ∧
    (0 < e.cols → c.expr.rows = e.rows ∧ c.expr.cols = e.cols ∧ ∀ x i, c.expr.rowVal x i = e.rowVal x i - f) := by
  unfold Expr.eqDouble Expr.eq Expr.sub Expr.add
  by_cases h : (e.isScalar && e.isConstant) = true
  · rw [if_pos h]
    refine ⟨_, rfl, rfl, rfl, fun hc => ?_⟩
    simp only [Expr.isConstant, Bool.and_eq_true, beq_iff_eq] at h
    omega
  · rw [if_neg h, if_pos (by rfl)]
    refine ⟨_, rfl, rfl, rfl, fun _ => ⟨rfl, rfl, fun x i => ?_⟩⟩
    rw [Expr.rowVal_piecewiseAdd]
    simp only [Expr.smul, Expr.fromDouble]; ring

theorem sat_equality (c : Constr K) (h : c.ty = .equality) (x : Nat → K) :
    c.Sat x ↔ ∀ i, i < c.expr.rows → c.expr.rowVal x i = 0 := by
  unfold Constr.Sat; rw [h]

theorem sat_inequality (c : Constr K) (h : c.ty = .inequality) (x : Nat → K) :
    c.Sat x ↔ ∀ i, i < c.expr.rows → 0 ≤ c.expr.rowVal x i := by
  unfold Constr.Sat; rw [h]

theorem HardSat_configureP (c : Constr K) (h : c.ty = .equality) (w : K) (x : Nat → K) :
    HardSat [c.configureP .hard w] x ↔ ∀ i, i < c.expr.rows → c.expr.rowVal x i = 0 := by
  rw [HardSat_single, sat_equality _ (show (c.configureP .hard w).ty = .equality from h)]
  exact ⟨fun H => H rfl, fun H _ => H⟩

/-- `Variable::expr` for a valid range. -/
theorem var_expr (v : Var) (start : Nat) (rows : Nat) (h : v.kStart + start + rows ≤ v.kEnd) :
    (v.expr (start : Int) (rows : Int) : Except Err (Expr K)) = .ok ⟨rows, v.kEnd,
      fun k j => if j = v.kStart + start + k then 1 else 0, fun _ => 0⟩ := by
  unfold Var.expr
  simp only
  rw [if_neg (by omega : ¬ ((start : Int) = -1)), if_neg (by omega : ¬ ((rows : Int) = -1)), if_pos (by omega)]
  simp only [Except.ok.injEq, Expr.mk.injEq, true_and, and_true]
  refine ⟨by omega, ?_⟩
  funext k j
  have : ((v.kStart : Int) + (start : Int)).toNat = v.kStart + start := by omega
  rw [this]

theorem var_expr_rest (v : Var) (start : Nat) (h : v.kStart + start ≤ v.kEnd) :
    (v.expr (start : Int) (-1) : Except Err (Expr K)) = .ok ⟨v.kEnd - v.kStart - start, v.kEnd,
      fun k j => if j = v.kStart + start + k then 1 else 0, fun _ => 0⟩ := by
  rw [← var_expr v start (v.kEnd - v.kStart - start) (by omega)]
  unfold Var.expr
  simp only
  rw [if_neg (by omega : ¬ ((start : Int) = -1)), if_pos trivial,
    if_neg (by omega : ¬ (((v.kEnd - v.kStart - start : Nat) : Int) = -1))]
  have : (v.kEnd : Int) - v.kStart - start = ((v.kEnd - v.kStart - start : Nat) : Int) := by omega
  rw [this]

theorem var_expr_all (v : Var) (h : v.kStart ≤ v.kEnd) :
    (v.expr (-1) (-1) : Except Err (Expr K)) = .ok ⟨v.kEnd - v.kStart, v.kEnd,
      fun k j => if j = v.kStart + k then 1 else 0, fun _ => 0⟩ := by
  have h1 : (v.expr (-1) (-1) : Except Err (Expr K)) = v.expr ((0 : Nat) : Int) (-1) := by
    unfold Var.expr; simp
  rw [h1, var_expr_rest v 0 (by omega)]
  simp

theorem sum_pick (n m : Nat) (h : m < n) (x : Nat → K) : ∑ j ∈ range n, (if j = m then (1 : K) else 0) * x j = x m := by
  simp only [ite_mul, one_mul, zero_mul]
  rw [sum_ite_eq' (range n), if_pos (mem_range.2 h)]

theorem var_rowVal (v : Var) (start rows : Nat) (x : Nat → K) (i : Nat) (h : v.kStart + start + i < v.kEnd) :
    (⟨rows, v.kEnd, fun k j => if j = v.kStart + start + k then 1 else 0, fun _ => 0⟩ : Expr K).rowVal x i
      = x (v.kStart + start + i) := by
  simp only [Expr.rowVal, add_zero]
  exact sum_pick _ _ h x

/-! ## Tasks -/

/-- Meaning of the constraints on the scale variable. -/
theorem scaleConstraints_spec (nv : Nat) : ∃ l : List (Constr K), scaleConstraints (⟨nv, nv + 1⟩ : Var) = .ok l ∧
    (∀ x, HardSat l x ↔ 0 ≤ x nv ∧ x nv ≤ 1) ∧ ∀ x, pen l x = (x nv - 1) ^ 2 := by
  unfold scaleConstraints
  rw [var_expr_all _ (by simp)]
  have hv : ∀ (x : Nat → K), (⟨(⟨nv, nv + 1⟩ : Var).kEnd - (⟨nv, nv + 1⟩ : Var).kStart, nv + 1,
      fun k j => if j = nv + k then 1 else 0, fun _ => 0⟩ : Expr K).rowVal x 0 = x nv := by
    intro x
    have := var_rowVal ⟨nv, nv + 1⟩ 0 1 x 0 (by simp)
    simpa [Expr.rowVal] using this
  simp only [bind, Except.bind]
  set e : Expr K := ⟨(⟨nv, nv + 1⟩ : Var).kEnd - (⟨nv, nv + 1⟩ : Var).kStart, nv + 1,
      fun k j => if j = nv + k then 1 else 0, fun _ => 0⟩ with he
  have hr : e.rows = 1 := by simp [he]
  have hc : e.cols = nv + 1 := rfl
  have hns : (e.isScalar && e.isConstant) = false := by simp [Expr.isConstant, hc]
  have hsub : ∀ f : K, e.sub (Expr.fromDouble f) = .ok (e.piecewiseAdd (((Expr.fromDouble f).smul (-1)).b 0)) := by
    intro f
    unfold Expr.sub Expr.add
    rw [if_neg (by rw [hns]; exact Bool.false_ne_true), if_pos (by rfl)]
  simp only [Expr.geDouble, Expr.leDouble, Expr.eqDouble, Expr.ge, Expr.le, Expr.eq, hsub, bind, Except.bind, pure,
    Except.pure]
  refine ⟨_, rfl, fun x => ?_, fun x => ?_⟩
  · unfold HardSat
    simp only [List.mem_cons, List.not_mem_nil, or_false, forall_eq_or_imp, forall_eq, Constr.configureP]
    simp only [Constr.Sat, reduceCtorEq, false_implies, forall_const, and_true]
    simp only [Expr.neg, Expr.rowVal_smul, Expr.rowVal_piecewiseAdd]
    have e1 : (e.piecewiseAdd (((Expr.fromDouble (0 : K)).smul (-1)).b 0)).rows = 1 := hr
    have e2 : ((e.piecewiseAdd (((Expr.fromDouble (1 : K)).smul (-1)).b 0)).smul (-1)).rows = 1 := hr
    rw [e1, e2]
    constructor
    · rintro ⟨h1, h2⟩
      have h1 := h1 0 (by omega)
      have h2 := h2 0 (by omega)
      rw [hv] at h1 h2
      simp only [Expr.smul, Expr.fromDouble] at h1 h2
      constructor <;> linarith
    · rintro ⟨h1, h2⟩
      constructor
      · intro i hi
        have : i = 0 := by omega
        subst this
        rw [hv]; simp only [Expr.smul, Expr.fromDouble]; linarith
      · intro i hi
        have : i = 0 := by omega
        subst this
        rw [hv]; simp only [Expr.smul, Expr.fromDouble]; linarith
  · simp only [pen, List.map_cons, List.map_nil, List.sum_cons, List.sum_nil, softPenalty, Constr.configureP]
    have e1 : (e.piecewiseAdd (((Expr.fromDouble (1 : K)).smul (-1)).b 0)).rows = 1 := hr
    rw [e1, sum_range_one, Expr.rowVal_piecewiseAdd, hv]
    simp only [Expr.smul, Expr.fromDouble]; ring

/-- Meaning of a scaled task's expression. -/
theorem scaledExpr_spec (nv : Nat) (t : TaskMat K) (ht : t.cols ≤ nv) :
    ∃ e : Expr K, scaledExpr (⟨nv, nv + 1⟩ : Var) t = .ok e ∧ e.rows = t.rows ∧ e.cols = nv + 1 ∧
      ∀ x i, e.rowVal x i = t.app x i - x nv * t.b i := by
  unfold scaledExpr
  rw [var_expr_all _ (by simp)]
  simp only [bind, Except.bind]
  have h1 : (⟨nv, nv + 1⟩ : Var).kEnd - (⟨nv, nv + 1⟩ : Var).kStart = 1 := by simp
  unfold Expr.matMul
  rw [if_pos (by simp)]
  simp only [h1]
  rw [if_pos (by omega)]
  refine ⟨_, rfl, rfl, rfl, fun x i => ?_⟩
  simp only [Expr.rowVal, sum_range_one, add_zero]
  have : ∀ j, -(if j < t.cols then (t.b i * if j = nv then (1:K) else 0) - t.A i j
        else t.b i * if j = nv then (1:K) else 0)
      = (if j < t.cols then t.A i j else 0) - t.b i * if j = nv then 1 else 0 := by
    intro j
    split_ifs <;> ring
  simp only [this, sub_mul, sum_sub_distrib]
  rw [sum_pad t.cols (nv + 1) (by omega) (t.A i) x]
  unfold TaskMat.app
  congr 1
  simp only [mul_assoc]
  rw [← mul_sum, sum_pick _ _ (by omega)]
  ring

theorem map_eq_one {α β : Type} {f : α → β} {l : List α} {a : β} (h : l.map f = [a]) : ∃ x, l = [x] ∧ f x = a := by
  rcases l with _ | ⟨x, _ | ⟨y, l⟩⟩
  · cases h
  · exact ⟨x, rfl, by simpa using h⟩
  · simp at h

theorem map_eq_two {α β : Type} {f : α → β} {l : List α} {a b : β} (h : l.map f = [a, b]) :
    ∃ x y, l = [x, y] ∧ f x = a ∧ f y = b := by
  rcases l with _ | ⟨x, _ | ⟨y, _ | ⟨z, l⟩⟩⟩
  · cases h
  · simp at h
  · exact ⟨x, y, rfl, by simpa using h⟩
  · simp at h

/-- Loop invariant on the variables. -/
def LInv (nv : Nat) (st : LoopSt K) : Prop :=
  VarsOK nv st.prob (some 0) st.scaleVar ∧ (st.hasScaling = true → st.scaleVar = some 1)

theorem varAt_scale (nv : Nat) (prob : Nat × List (VarState K)) (i : Option Nat)
    (h : VarsOK nv prob (some 0) i) (hi : i = some 1) : varAt prob 1 = ⟨nv, nv + 1⟩ := by
  rcases h with ⟨h, -⟩ | ⟨-, h, -⟩ | ⟨-, -, -, h⟩
  · cases h
  · rw [hi] at h; cases h
  · unfold varAt
    obtain ⟨n, l⟩ := prob
    simp only at h ⊢
    obtain ⟨a, b, rfl, h1, h2⟩ := map_eq_two h
    simp [h2]

theorem varAt_qd (nv : Nat) (prob : Nat × List (VarState K)) (i : Option Nat)
    (h : VarsOK nv prob (some 0) i) : varAt prob 0 = ⟨0, nv⟩ := by
  obtain ⟨n, l⟩ := prob
  rcases h with ⟨h, -⟩ | ⟨-, -, -, h⟩ | ⟨-, -, -, h⟩
  · cases h
  · unfold varAt
    simp only at h ⊢
    obtain ⟨a, rfl, h1⟩ := map_eq_one h
    simp [h1]
  · unfold varAt
    simp only at h ⊢
    obtain ⟨a, b, rfl, h1, h2⟩ := map_eq_two h
    simp [h1]

/-- What `ensureScale` does: never fails, and adds the scale block at its first use. -/
theorem ensureScale_spec (nv : Nat) (st : LoopSt K) (hi : LInv nv st) :
    ∃ st', ensureScale st = (st', none) ∧ LInv nv st' ∧ st'.hasScaling = true ∧
      (st.hasScaling = true → st' = st) ∧
      (st.hasScaling = false → ∃ l, st'.cs = st.cs ++ l ∧ (∀ x, HardSat l x ↔ 0 ≤ x nv ∧ x nv ≤ 1) ∧
        ∀ x, pen l x = (x nv - 1) ^ 2) := by
  unfold ensureScale
  by_cases h : st.hasScaling = true
  · rw [if_pos h]
    exact ⟨st, rfl, hi, h, fun _ => rfl, fun h' => by rw [h] at h'; cases h'⟩
  · rw [if_neg h]
    obtain ⟨l, hl1, hl2, hl3⟩ := scaleConstraints_spec (K := K) nv
    have hfalse : st.hasScaling = false := by simpa using h
    obtain ⟨hv, -⟩ := hi
    rcases hv with ⟨hv, -⟩ | ⟨hq, hs, hn, hm⟩ | ⟨hq, hs, hn, hm⟩
    · cases hv
    · -- creation
      obtain ⟨⟨n, vars⟩, sv, hsc, cs⟩ := st
      simp only at hs hn hm h hfalse ⊢
      subst hs hn
      · obtain ⟨a, rfl, hm'⟩ := map_eq_one hm
        have : varAt (addVariable (n, [a]) 1) ((some [a].length).getD 0) = ⟨n, n + 1⟩ := by
          simp [varAt, addVariable]
        simp only [this, hl1]
        refine ⟨_, rfl, ⟨.inr (.inr ⟨rfl, rfl, rfl, ?_⟩), fun _ => rfl⟩, rfl, fun h' => absurd h' h,
          fun _ => ⟨l, rfl, hl2, hl3⟩⟩
        simp [addVariable, hm']
    · obtain ⟨⟨n, vars⟩, sv, hsc, cs⟩ := st
      simp only at hs hn hm h hfalse ⊢
      subst hs
      have hvar : varAt (n, vars) 1 = ⟨nv, nv + 1⟩ :=
        varAt_scale nv (n, vars) (some 1) (.inr (.inr ⟨rfl, rfl, hn, hm⟩)) rfl
      simp only [Option.getD_some, hvar, hl1]
      exact ⟨_, rfl, ⟨.inr (.inr ⟨rfl, rfl, hn, hm⟩), fun _ => rfl⟩, rfl, fun h' => absurd h' h,
          fun _ => ⟨l, rfl, hl2, hl3⟩⟩

/-- Part of the specification due to the scale variable being introduced between two states. -/
def ScaleBlock (nv : Nat) (b b' : Bool) (x : Nat → K) : Prop := b = false → b' = true → 0 ≤ x nv ∧ x nv ≤ 1

/-- Cost of introducing the scale variable. -/
def scaleCost (nv : Nat) (b b' : Bool) (x : Nat → K) : K := if b = false ∧ b' = true then (x nv - 1) ^ 2 else 0

theorem plainExpr_rowVal (t : TaskMat K) (x : Nat → K) (i : Nat) : (plainExpr t).rowVal x i = t.app x i - t.b i := by
  simp only [Expr.rowVal, plainExpr, TaskMat.app]; ring

/-- One task. Needs at least one degree of freedom (a task matrix without columns is a constant
expression). -/
theorem taskStep_spec (nv : Nat) (robot : RState K) (st : LoopSt K) (hi : LInv nv st) (t : Task K)
    (hfit : ∀ M, t.update robot = .ok M → M.cols ≤ nv) (st' : LoopSt K) (e : Option Err)
    (h : taskStep robot st t = (st', e)) :
    LInv nv st' ∧ (st.hasScaling = true → st'.hasScaling = true) ∧ (e = none → (∃ M, t.update robot = .ok M) ∧
      (st'.hasScaling = (st.hasScaling || t.isScaled robot)) ∧ ((∀ M, t.update robot = .ok M → 0 < M.cols) → ∀ x,
      (HardSat st'.cs x ↔ HardSat st.cs x ∧ TaskHard robot t x (x nv) ∧
        ScaleBlock nv st.hasScaling st'.hasScaling x) ∧
      pen st'.cs x = pen st.cs x + taskCost robot t x + scaleCost nv st.hasScaling st'.hasScaling x)) := by
  unfold taskStep at h
  cases hu : t.update robot with
  | error er =>
    rw [hu] at h
    cases h
    exact ⟨hi, fun h => h, fun h => by cases h⟩
  | ok M =>
    rw [hu] at h
    simp only at h
    by_cases h0 : M.rows = 0
    · rw [if_pos h0] at h
      cases h
      refine ⟨hi, fun h => h, fun _ => ⟨⟨M, rfl⟩, ?_, fun _ x => ⟨?_, ?_⟩⟩⟩
      · simp [Task.isScaled, hu, h0]
      · have h1 : TaskHard robot t x (x nv) := by
          intro M' hM' i hi
          rw [hu] at hM'; cases hM'; omega
        have h2 : ScaleBlock nv st.hasScaling st.hasScaling x := by
          intro h h'; rw [h] at h'; cases h'
        simp [h1, h2]
      · simp only [taskCost, hu, h0, range_zero, sum_empty, ite_self, scaleCost]
        rw [if_neg (by rintro ⟨h, h'⟩; rw [h] at h'; cases h')]; ring
    · rw [if_neg h0] at h
      by_cases hp : t.priority = .scaled
      · rw [if_pos hp] at h
        obtain ⟨st1, hs1, hinv, hb, hsame, hnew⟩ := ensureScale_spec nv st hi
        rw [hs1] at h
        simp only at h
        have hsv : st1.scaleVar = some 1 := hinv.2 hb
        have hvar : varAt st1.prob (st1.scaleVar.getD 0) = ⟨nv, nv + 1⟩ := by
          rw [hsv]; exact varAt_scale nv st1.prob (some 1) (hsv ▸ hinv.1) rfl
        obtain ⟨ex, he1, he2, he3, he4⟩ := scaledExpr_spec nv M (hfit M hu)
        obtain ⟨c, hc1, hc2, hc3, hc4⟩ := eqDouble_zero ex 0
        rw [hvar, he1] at h
        simp only [bind, Except.bind, hc1] at h
        cases h
        refine ⟨⟨hinv.1, hinv.2⟩, fun _ => hb, fun _ => ⟨⟨M, rfl⟩, ?_, fun _ x => ?_⟩⟩
        · simp [Task.isScaled, hu, h0, hb, hp]
        · obtain ⟨hr, hcl, hv⟩ := hc4 (by omega)
          have hsat : HardSat [c.configureP .hard t.weight] x ↔ TaskHard robot t x (x nv) := by
            rw [HardSat_configureP _ hc2]
            simp only [hr, he2, hv, he4, sub_zero]
            constructor
            · intro H M' hM' i hi
              rw [hu] at hM'; cases hM'
              exact ⟨fun h => (by rw [hp] at h; cases h), fun _ => by have := H i hi; linarith⟩
            · intro H i hi
              have := (H M hu i hi).2 hp
              linarith
          have hpen : pen [c.configureP .hard t.weight] x = taskCost robot t x := by
            rw [pen_hard _ (by simp [Constr.configureP])]
            simp [taskCost, hu, hp]
          simp only [HardSat_append, pen_append, hsat, hpen]
          by_cases hsc : st.hasScaling = true
          · have := hsame hsc
            subst this
            have h2 : ScaleBlock nv st1.hasScaling st1.hasScaling x := by
              intro h h'; rw [h] at h'; cases h'
            refine ⟨by tauto, ?_⟩
            unfold scaleCost
            rw [if_neg (by rintro ⟨h, h'⟩; rw [h] at h'; cases h')]; ring
          · have hsc : st.hasScaling = false := by simpa using hsc
            obtain ⟨l, hl1, hl2, hl3⟩ := hnew hsc
            rw [hl1, HardSat_append, pen_append, hl2, hl3]
            have h2 : ScaleBlock nv st.hasScaling st1.hasScaling x ↔ 0 ≤ x nv ∧ x nv ≤ 1 := by
              unfold ScaleBlock; simp [hsc, hb]
            refine ⟨by rw [h2]; tauto, ?_⟩
            unfold scaleCost
            rw [if_pos ⟨hsc, hb⟩]; ring
      · rw [if_neg hp] at h
        obtain ⟨c, hc1, hc2, hc3, hc4⟩ := eqDouble_zero (plainExpr M) 0
        rw [hc1] at h
        cases h
        refine ⟨⟨hi.1, hi.2⟩, fun h => h, fun _ => ⟨⟨M, rfl⟩, ?_, fun hcol x => ?_⟩⟩
        · simp [Task.isScaled, hu, hp]
        · obtain ⟨hr, hcl, hv⟩ := hc4 (hcol M rfl)
          have h2 : ScaleBlock nv st.hasScaling st.hasScaling x := by
            intro h h'; rw [h] at h'; cases h'
          have h3 : scaleCost nv st.hasScaling st.hasScaling x = 0 := by
            unfold scaleCost
            rw [if_neg (by rintro ⟨h, h'⟩; rw [h] at h'; cases h')]
          simp only [HardSat_append, pen_append, h3]
          by_cases hsoft : t.priority = .soft
          · rw [if_pos hsoft]
            constructor
            · have h1 : TaskHard robot t x (x nv) := by
                intro M' hM' i hi
                constructor <;> intro h <;> rw [hsoft] at h <;> cases h
              have h4 : HardSat [c.configureP .soft t.weight] x := by
                rw [HardSat_single]; intro h; cases h
              simp [h1, h2, h4]
            · rw [pen_single]
              have hty : (c.configureP .soft t.weight).ty = .equality := hc2
              unfold softPenalty
              rw [hty]
              simp only [Constr.configureP, taskCost, hu, hsoft, if_true, hr, hv, plainExpr_rowVal, sub_zero, add_zero]
              rfl
          · rw [if_neg hsoft]
            have hhard : t.priority = .hard := by
              cases h : t.priority <;> simp_all
            have hsat : HardSat [c.configureP .hard t.weight] x ↔ TaskHard robot t x (x nv) := by
              rw [HardSat_configureP _ hc2]
              simp only [hr, hv, plainExpr_rowVal, sub_zero]
              constructor
              · intro H M' hM' i hi
                rw [hu] at hM'; cases hM'
                exact ⟨fun _ => by have := H i hi; linarith, fun h => by rw [hhard] at h; cases h⟩
              · intro H i hi
                have := (H M hu i hi).1 hhard
                linarith
            have hpen : pen [c.configureP .hard t.weight] x = taskCost robot t x := by
              rw [pen_hard _ (by simp [Constr.configureP])]
              simp [taskCost, hu, hhard]
            rw [hsat, hpen]
            exact ⟨by tauto, by ring⟩

/-- The loop over tasks. -/
theorem runTasks_spec (nv : Nat) (robot : RState K) (tasks : List (Task K)) :
    ∀ (st : LoopSt K), LInv nv st → TasksFit nv robot tasks → ∀ (st' : LoopSt K) (e : Option Err),
    runTasks robot st tasks = (st', e) →
    LInv nv st' ∧ (st.hasScaling = true → st'.hasScaling = true) ∧ (e = none →
      (∀ t ∈ tasks, ∃ M, t.update robot = .ok M) ∧
      (st'.hasScaling = (st.hasScaling || tasks.any (fun t => t.isScaled robot))) ∧
      ((∀ t ∈ tasks, ∀ M, t.update robot = .ok M → 0 < M.cols) → ∀ x,
      (HardSat st'.cs x ↔ HardSat st.cs x ∧ (∀ t ∈ tasks, TaskHard robot t x (x nv)) ∧
        ScaleBlock nv st.hasScaling st'.hasScaling x) ∧
      pen st'.cs x = pen st.cs x + (tasks.map fun t => taskCost robot t x).sum
        + scaleCost nv st.hasScaling st'.hasScaling x)) := by
  induction tasks with
  | nil =>
    intro st hi _ st' e h
    cases h
    refine ⟨hi, fun h => h, fun _ => ⟨by simp, by simp, fun _ x => ⟨?_, ?_⟩⟩⟩
    · have h2 : ScaleBlock nv st.hasScaling st.hasScaling x := by
        intro h h'; rw [h] at h'; cases h'
      simp [h2]
    · unfold scaleCost
      rw [if_neg (by rintro ⟨h, h'⟩; rw [h] at h'; cases h')]; simp
  | cons t ts ih =>
    intro st hi hfit st' e h
    unfold runTasks at h
    rcases hts : taskStep robot st t with ⟨st1, e1⟩
    obtain ⟨hi1, hm1, hok1⟩ := taskStep_spec nv robot st hi t (hfit t (by simp)) st1 e1 hts
    rw [hts] at h
    cases e1 with
    | some er =>
      cases h
      exact ⟨hi1, hm1, fun h => by cases h⟩
    | none =>
      simp only at h
      obtain ⟨hi2, hm2, hok2⟩ := ih st1 hi1 (fun t ht => hfit t (by simp [ht])) st' e h
      refine ⟨hi2, fun h => hm2 (hm1 h), fun he => ?_⟩
      obtain ⟨hM1, hb1, hx1⟩ := hok1 rfl
      obtain ⟨hM2, hb2, hx2⟩ := hok2 he
      refine ⟨?_, ?_, fun hcol x => ?_⟩
      · intro t' ht'
        rcases List.mem_cons.1 ht' with rfl | ht'
        · exact hM1
        · exact hM2 t' ht'
      · rw [hb2, hb1]; simp [Bool.or_assoc]
      · obtain ⟨a1, a2⟩ := hx1 (hcol t (by simp)) x
        obtain ⟨b1, b2⟩ := hx2 (fun t ht => hcol t (by simp [ht])) x
        have hsb : ScaleBlock nv st.hasScaling st'.hasScaling x ↔
            ScaleBlock nv st.hasScaling st1.hasScaling x ∧ ScaleBlock nv st1.hasScaling st'.hasScaling x := by
          unfold ScaleBlock
          cases h1 : st.hasScaling <;> cases h2 : st1.hasScaling <;> cases h3 : st'.hasScaling <;> simp
          all_goals (first | (rw [hm1 h1] at h2; cases h2) | (rw [hm2 h2] at h3; cases h3))
        have hsc : scaleCost nv st.hasScaling st'.hasScaling x =
            scaleCost nv st.hasScaling st1.hasScaling x + scaleCost nv st1.hasScaling st'.hasScaling x := by
          unfold scaleCost
          cases h1 : st.hasScaling <;> cases h2 : st1.hasScaling <;> cases h3 : st'.hasScaling <;> simp
          all_goals (first | (rw [hm1 h1] at h2; cases h2) | (rw [hm2 h2] at h3; cases h3))
        refine ⟨?_, ?_⟩
        · rw [b1, a1, hsb]
          simp only [List.mem_cons, forall_eq_or_imp]
          generalize (∀ a ∈ ts, TaskHard robot a x (x nv)) = p1
          generalize TaskHard robot t x (x nv) = p2
          generalize ScaleBlock nv st.hasScaling st1.hasScaling x = p3
          generalize ScaleBlock nv st1.hasScaling st'.hasScaling x = p4
          generalize HardSat st.cs x = p5
          exact ⟨fun h => ⟨h.1.1, ⟨h.1.2.1, h.2.1⟩, h.1.2.2, h.2.2⟩, fun h => ⟨⟨h.1, h.2.1.1, h.2.2.1⟩, h.2.1.2, h.2.2.2⟩⟩
        · rw [b2, a2, hsc]
          simp only [List.map_cons, List.sum_cons]
          ring

end
end Verif.Kinematics
