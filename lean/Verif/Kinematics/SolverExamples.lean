/-
Concrete cases for the theorems of SolverProps.lean, and the counterexample to C43.
-/
import Verif.Kinematics.SolverProps
import Mathlib.Tactic.IntervalCases
import Mathlib.Tactic.NormNum

namespace Verif.Kinematics
open Finset Verif.Problem

instance (qp : QP ℚ) (v : Nat → ℚ) : Decidable (qp.Feasible v) := by unfold QP.Feasible; infer_instance

/-- An external solver that answers with a fixed point when it is feasible, and reports
infeasibility otherwise. -/
def fixedEnv (v : Nat → ℚ) : QPEnv ℚ where
  regularization := 1 / 100000000
  rewriteEqualities := false
  eps := 1 / 1000000
  tol := 1 / 1000000
  qr := fun _ _ => ⟨0, fun _ _ => 0, fun _ _ => 0, id⟩
  oracle := fun qp => if qp.Feasible v then ⟨false, v, false, []⟩ else ⟨true, v, false, []⟩

theorem fixedEnv_sound (v : Nat → ℚ) : (fixedEnv v).Sound := by
  intro n cs qp _
  refine ⟨fun h => by simp [fixedEnv, QPEnv.settings] at h, fun h1 _ => ?_⟩
  simp only [fixedEnv] at h1 ⊢
  by_cases hf : qp.Feasible v
  · rw [if_pos hf]; exact hf
  · rw [if_neg hf] at h1; cases h1

/-- Conditions under which 0 is obviously optimal. -/
def ZeroOptimal (qp : QP ℚ) : Prop :=
  qp.Feasible (fun _ => 0) ∧ (∀ i, i < qp.free + qp.slack → qp.q i = 0 ∧ 0 ≤ qp.P i i ∧
    ∀ j, j < qp.free + qp.slack → i ≠ j → qp.P i j = 0)

instance (qp : QP ℚ) : Decidable (ZeroOptimal qp) := by unfold ZeroOptimal; infer_instance

/-- A (very incomplete) solver that is sound and optimal. -/
def zeroEnv : QPEnv ℚ :=
  { fixedEnv (fun _ => 0) with
    oracle := fun qp => if ZeroOptimal qp then ⟨false, fun _ => 0, false, []⟩ else ⟨true, fun _ => 0, false, []⟩ }

theorem zeroEnv_spec : zeroEnv.Sound ∧ zeroEnv.Optimal := by
  constructor
  · intro n cs qp _
    refine ⟨fun h => by simp [zeroEnv, fixedEnv, QPEnv.settings] at h, fun h1 _ => ?_⟩
    simp only [zeroEnv] at h1 ⊢
    by_cases hf : ZeroOptimal qp
    · rw [if_pos hf]; exact hf.1
    · rw [if_neg hf] at h1; cases h1
  · intro n cs qp _ h1 _ v _
    simp only [zeroEnv] at h1 ⊢
    by_cases hf : ZeroOptimal qp
    · rw [if_pos hf]
      unfold QP.cost quad
      have hq : ∑ i ∈ range (qp.free + qp.slack), qp.q i * v i = 0 :=
        Finset.sum_eq_zero fun i hi => by rw [(hf.2 i (Finset.mem_range.1 hi)).1, zero_mul]
      have hP : 0 ≤ ∑ i ∈ range (qp.free + qp.slack), ∑ c ∈ range (qp.free + qp.slack), v i * qp.P i c * v c := by
        refine Finset.sum_nonneg fun i hi => ?_
        obtain ⟨-, h2, h3⟩ := hf.2 i (Finset.mem_range.1 hi)
        rw [Finset.sum_eq_single_of_mem i hi fun c hc hne => by
          rw [h3 c (Finset.mem_range.1 hc) (Ne.symm hne)]; ring]
        have := mul_nonneg h2 (mul_self_nonneg (v i))
        linarith
      rw [hq]
      simpa using hP
    · rw [if_neg hf] at h1; cases h1

/-- The entry of a returned step. -/
def resAt (r : Except Err (Nat → ℚ)) (k : Nat) : Option ℚ :=
  match r with
  | .ok dq => some (dq k)
  | .error _ => none

theorem ok_of_resAt {r : Except Err (Nat → ℚ)} {k : Nat} {a : ℚ} (h : resAt r k = some a) : ∃ dq, r = .ok dq := by
  cases r with
  | ok dq => exact ⟨dq, rfl⟩
  | error e => cases h

/-! ## Counterexample to C43 -/

/-- A robot with a bounded joint followed by a continuous one (two position coordinates, one velocity
coordinate; limits 1.01 as pinocchio sets them). `integrate` moves the bounded joint; the example does
not move the other one. -/
def badRobot : Robot ℚ where
  nq := 10
  nv := 8
  joints := [⟨"arm", 7, 1, 6, 1⟩, ⟨"wheel", 8, 2, 7, 1⟩]
  lower := fun i => if i = 7 then -1 / 10 else -101 / 100
  upper := fun i => if i = 7 then 1 / 10 else 101 / 100
  vlim := fun _ => 1
  integrate := fun q v i => if i = 7 then q 7 + v 6 else q i
  difference := fun q q' i => q' (i + 1) - q (i + 1)

/-- The arm is at 0, the wheel at angle 0: (cos, sin) = (1, 0). -/
def badState : KState ℚ where
  robot := ⟨fun i => if i = 6 ∨ i = 8 then 1 else 0, fun _ => 0, fun _ => 0⟩
  dt := 1
  scale := 1

/-- A hard task asking the arm to move by -2. -/
def badTask : Task ℚ := ⟨.hard, 1, fun _ => .ok ⟨1, 8, fun _ j => if j = 6 then 1 else 0, fun _ => -2⟩⟩

/-- C43 is false: a robot with a bounded joint followed by a continuous joint, a state inside all
limits, joint limits enabled, such that a solve succeeds, and every successful solve (with any sound
external solver) takes the bounded joint out of its limits. The limits of the arm are compared with
the coordinate of another joint. -/
theorem C43_refuted : ∃ (r : Robot ℚ) (j : Joint) (tasks : List (Task ℚ)) (s : KState ℚ),
    r.Layout ∧ r.IntegrateOK ∧ j ∈ r.joints ∧ j.Simple ∧ s.Fresh ∧ (∀ rs, TasksFit r.nv rs tasks) ∧
    (∀ i, 7 ≤ i → i < r.nq → r.lower i ≤ s.robot.q i ∧ s.robot.q i ≤ r.upper i) ∧
    (∃ env : QPEnv ℚ, env.Sound ∧ ∃ s' dq, solve env r tasks [] true s = (s', .ok dq)) ∧
    ∀ env : QPEnv ℚ, env.Sound → ∀ s' dq, solve env r tasks [] true s = (s', .ok dq) →
      ¬ r.InLimits j s'.robot.q := by
  refine ⟨badRobot, ⟨"arm", 7, 1, 6, 1⟩, [badTask], badState, ⟨?_, rfl, rfl⟩, ?_, by simp [badRobot], ⟨rfl, rfl⟩,
    ⟨rfl, rfl, rfl, rfl, rfl, rfl, rfl⟩, ?_, ?_, ?_, ?_⟩
  · intro pre j post h
    match pre, h with
    | [], h => simp only [badRobot, List.nil_append, List.cons.injEq] at h; obtain ⟨rfl, -⟩ := h; simp
    | [a], h =>
      simp only [badRobot, List.cons_append, List.nil_append, List.cons.injEq] at h
      obtain ⟨rfl, rfl, -⟩ := h; simp
    | a :: b :: l, h =>
      have := congrArg List.length h
      simp [badRobot] at this
  · intro j hj h1 h2 q v
    simp only [badRobot, List.mem_cons, List.not_mem_nil, or_false] at hj
    rcases hj with rfl | rfl
    · simp [badRobot]
    · simp at h1
  · intro rs t ht M hM
    simp only [List.mem_singleton] at ht
    subst ht
    cases hM
    decide
  · intro i h7 h10
    have h10 : i < 10 := h10
    interval_cases i <;> norm_num [badRobot, badState]
  · refine ⟨fixedEnv (fun k => if k = 6 then -2 else 0), fixedEnv_sound _, ?_⟩
    have : resAt (solve (fixedEnv (fun k => if k = 6 then -2 else 0)) badRobot [badTask] [] true badState).2 6 = some (-2) := by
      decide +kernel
    obtain ⟨dq, hdq⟩ := ok_of_resAt this
    exact ⟨_, dq, Prod.ext rfl hdq⟩
  · intro env hS s' dq h
    have hfit : ∀ t ∈ [badTask], ∀ M, t.update badState.robot = .ok M → 0 < M.cols ∧ M.cols ≤ badRobot.nv := by
      intro t ht M hM
      simp only [List.mem_singleton] at ht
      subst ht
      cases hM
      exact ⟨by decide, by decide⟩
    obtain ⟨M, hM, hA⟩ := C95 env hS badRobot [badTask] [] true badState s' dq (Or.inl ⟨rfl, rfl, rfl⟩) hfit h badTask
      (by simp) rfl
    cases hM
    have h6 : dq 6 = -2 := by
      have := hA 0 (by decide)
      simpa [Finset.sum_range_succ] using this
    have hq := ((C56 env badRobot [badTask] [] true badState s' _ h).2.2 dq rfl rfl).1
    intro hin
    have := hin.1
    rw [hq] at this
    simp only [badRobot, badState, h6] at this
    norm_num at this

/-! ## Non-vacuity -/

/-- A robot with two bounded joints. -/
def demoRobot : Robot ℚ where
  nq := 9
  nv := 8
  joints := [⟨"a", 7, 1, 6, 1⟩, ⟨"b", 8, 1, 7, 1⟩]
  lower := fun _ => -1
  upper := fun _ => 1
  vlim := fun _ => 3
  integrate := fun q v i => if 7 ≤ i then q i + v (i - 1) else q i
  difference := fun q q' i => q' (i + 1) - q (i + 1)

def demoState : KState ℚ where
  robot := ⟨fun i => if i = 6 then 1 else 0, fun _ => 0, fun _ => 0⟩
  dt := 1 / 10
  scale := 1

/-- `a` should move by 1/2, scaled. -/
def demoScaled : Task ℚ := ⟨.scaled, 1, fun _ => .ok ⟨1, 8, fun _ j => if j = 6 then 1 else 0, fun _ => 1 / 2⟩⟩

theorem demoRobot_layout : demoRobot.Layout ∧ demoRobot.IntegrateOK ∧ ∀ j ∈ demoRobot.joints, j.nV ≤ j.nQ := by
  refine ⟨⟨?_, rfl, rfl⟩, ?_, ?_⟩
  · intro pre j post h
    match pre, h with
    | [], h => simp only [demoRobot, List.nil_append, List.cons.injEq] at h; obtain ⟨rfl, -⟩ := h; simp
    | [a], h =>
      simp only [demoRobot, List.cons_append, List.nil_append, List.cons.injEq] at h
      obtain ⟨rfl, rfl, -⟩ := h; simp
    | a :: b :: l, h =>
      have := congrArg List.length h
      simp [demoRobot] at this
  · intro j hj h1 h2 q v
    simp only [demoRobot, List.mem_cons, List.not_mem_nil, or_false] at hj
    rcases hj with rfl | rfl <;> simp [demoRobot]
  · intro j hj
    simp only [demoRobot, List.mem_cons, List.not_mem_nil, or_false] at hj
    rcases hj with rfl | rfl <;> simp

/-- C43-C46, C56: velocity limits make the scaled task reach only 3/5 of its goal; `b` and the floating
base are masked. The accepted step moves `a` by 3/10, with scale 3/5. -/
def demoEnv : QPEnv ℚ := fixedEnv (fun k => if k = 6 then 3 / 10 else if k = 8 then 3 / 5 else 0)

def demoOps : List (Op ℚ) := [.mask "a", .mask "b", .unmask "a", .maskFbase true, .enableVelocityLimits true,
  .solve [demoScaled] [] true]

example : let s := run demoEnv demoRobot demoState demoOps
    s.robot.q 7 = 3 / 10 ∧ s.robot.q 8 = 0 ∧ s.scale = 3 / 5 ∧ s.hasScaling = true ∧ s.robot.qd 6 = 3 ∧
    s.robot.qdd 6 = 30 ∧ s.maskedDof = [7] ∧ s.maskedFbase = true := by
  intro s
  refine ⟨?_, ?_, ?_, ?_, ?_, ?_, ?_, ?_⟩ <;> decide +kernel

/-- The hypotheses of `C43_partial` hold for the history above, for both joints. -/
example : demoEnv.Sound ∧ demoState.Fresh ∧ OpsFit demoRobot.nv demoOps ∧
    (∀ op ∈ demoOps, op.Respects demoRobot ⟨"a", 7, 1, 6, 1⟩) ∧ demoRobot.InLimits ⟨"a", 7, 1, 6, 1⟩ demoState.robot.q := by
  refine ⟨fixedEnv_sound _, ⟨rfl, rfl, rfl, rfl, rfl, rfl, rfl⟩, ?_, ?_, ?_⟩
  · intro t c a hm rs t' ht' M hM
    simp only [demoOps, List.mem_cons, List.not_mem_nil, or_false, reduceCtorEq, false_or] at hm
    cases hm
    simp only [List.mem_singleton] at ht'
    subst ht'
    cases hM
    decide
  · intro op hop
    simp only [demoOps, List.mem_cons, List.not_mem_nil, or_false] at hop
    rcases hop with rfl | rfl | rfl | rfl | rfl | rfl <;> trivial
  · constructor <;> norm_num [demoRobot, demoState]

/-- `LastMasked` on that history: `b` is masked, `a` is not. -/
example : LastMasked demoRobot 7 demoOps.reverse ∧ ¬ LastMasked demoRobot 6 demoOps.reverse ∧ LastFbase demoOps.reverse := by
  have ha : demoRobot.vJoint "a" = .ok ⟨"a", 7, 1, 6, 1⟩ := by decide
  have hb : demoRobot.vJoint "b" = .ok ⟨"b", 8, 1, 7, 1⟩ := by decide
  refine ⟨?_, ?_, ?_⟩
  · simp [demoOps, LastMasked, Robot.Covers, ha, hb]
  · simp [demoOps, LastMasked, Robot.Covers, ha, hb]
  · simp [demoOps, LastFbase]

/-- C44 with `dt = 0`: the solve raises. -/
example : (solve demoEnv demoRobot [demoScaled] [] true { demoState with velocityLimits := true, dt := 0 }).2.isOk = false := by
  decide +kernel

/-- C95: a hard task is met by an accepted step. -/
example : resAt (solve (fixedEnv fun k => if k = 6 then 1 / 2 else 0) demoRobot
    [{ demoScaled with priority := .hard }] [] true demoState).2 6 = some (1 / 2) := by decide +kernel

/-- C96: a sound and optimal external solver accepting a problem with a soft task. -/
example : zeroEnv.Sound ∧ zeroEnv.Optimal ∧ 0 ≤ zeroEnv.regularization ∧
    resAt (solve zeroEnv demoRobot [⟨.soft, 2, fun _ => .ok ⟨1, 8, fun _ j => if j = 6 then 1 else 0, fun _ => 0⟩⟩] []
      true demoState).2 6 = some 0 := by
  refine ⟨zeroEnv_spec.1, zeroEnv_spec.2, by norm_num [zeroEnv, fixedEnv], by decide +kernel⟩

end Verif.Kinematics
