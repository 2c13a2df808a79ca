/-
C210: scaled tasks that are linear in the configuration go straight to their targets, together.
-/
import Verif.Kinematics.BestProps

namespace Verif.Kinematics
open Finset Verif.Problem

/-! ## Specification -/

/-- A program that calls `solve(true)` with the same tasks, the constraints being possibly different at each call. -/
def solveAll {K : Type} [Field K] [LinearOrder K] (env : QPEnv K) (r : Robot K) (tasks : List (Task K)) (calls : List (List (KConstraint K)))
    (s : KState K) : KState K := calls.foldl (fun s cons => (solve env r tasks cons true s).1) s

/-- All the scaled tasks have kept the same fraction `ρ` of their errors. -/
def Remaining {K : Type} [Field K] (tasks : List (Task K)) (before after : RState K) (ρ : K) : Prop :=
  ∀ t ∈ tasks, t.priority = .scaled → ∀ M, t.update before = .ok M →
    ∃ M', t.update after = .ok M' ∧ M'.rows = M.rows ∧ ∀ i, i < M.rows → M'.b i = ρ * M.b i

/-- The errors of the hard tasks are null. -/
def HardMet {K : Type} [Field K] (tasks : List (Task K)) (rs : RState K) : Prop :=
  ∀ t ∈ tasks, t.priority = .hard → ∀ M, t.update rs = .ok M → ∀ i, i < M.rows → M.b i = 0

/-- The matrices of the tasks have the columns of the robot. -/
def AllFit {K : Type} [Field K] (r : Robot K) (tasks : List (Task K)) : Prop :=
  ∀ rs, ∀ t ∈ tasks, ∀ M, t.update rs = .ok M → 0 < M.cols ∧ M.cols ≤ r.nv

/-! ## Proof -/

section
variable {K : Type} [Field K] [LinearOrder K] [IsStrictOrderedRing K]

omit [LinearOrder K] [IsStrictOrderedRing K] in
theorem remaining_refl (tasks : List (Task K)) (rs : RState K) : Remaining tasks rs rs 1 :=
  fun _ _ _ M hM => ⟨M, hM, rfl, fun _ _ => (one_mul _).symm⟩

omit [LinearOrder K] [IsStrictOrderedRing K] in
theorem remaining_trans (tasks : List (Task K)) (a b c : RState K) (ρ ρ' : K) (h : Remaining tasks a b ρ) (h' : Remaining tasks b c ρ') :
    Remaining tasks a c (ρ' * ρ) := by
  intro t ht hp M hM
  obtain ⟨M1, h1, r1, b1⟩ := h t ht hp M hM
  obtain ⟨M2, h2, r2, b2⟩ := h' t ht hp M1 h1
  refine ⟨M2, h2, r2.trans r1, fun i hi => ?_⟩
  rw [b2 i (by omega), b1 i hi, mul_assoc]

/-- One solve: `ρ = 1 - scale` if it succeeds with scaled tasks, `ρ = 1` otherwise. -/
theorem scaled_step {env : QPEnv K} (hS : env.Sound) {r : Robot K} {tasks : List (Task K)} (hfit : AllFit r tasks) (hlin : LinearTasks r tasks)
    (cons : List (KConstraint K)) (s s' : KState K) (dq : Nat → K) (hv : VarsOK r.nv s.prob s.qdVar s.scaleVar)
    (h : solve env r tasks cons true s = (s', .ok dq)) :
    Remaining tasks s.robot s'.robot (1 - s'.scale) ∧ HardMet tasks s'.robot := by
  obtain ⟨-, -, h3⟩ := C56 env r tasks cons true _ s' _ h
  obtain ⟨hq, -⟩ := h3 dq rfl rfl
  obtain ⟨-, -, hsc⟩ := C46 env hS r tasks cons true s s' dq hv (hfit _) h
  have hhard := C95 env hS r tasks cons true s s' dq hv (hfit _) h
  have hup : ∀ t ∈ tasks, ∃ M, t.update s.robot = .ok M := by
    obtain ⟨-, -, -, hA⟩ := solve_spec env r tasks cons true s s' _ hv (fun t ht M hM => (hfit _ t ht M hM).2) h
    obtain ⟨x, A⟩ := hA hS dq rfl
    exact A.updates
  constructor
  · intro t ht hp M hM
    obtain ⟨M0, hM0, hb0⟩ := hsc t ht hp
    rw [hM] at hM0
    cases hM0
    obtain ⟨M', hM', hr, hb⟩ := hlin t ht s.robot s'.robot dq M hq hM
    refine ⟨M', hM', hr, fun i hi => ?_⟩
    have := hb0 i hi
    rw [hb i hi]
    unfold TaskMat.app
    rw [this]
    ring
  · intro t ht hp M' hM' i hi
    obtain ⟨M, hM⟩ := hup t ht
    obtain ⟨M0, hM0, hb0⟩ := hhard t ht hp
    rw [hM] at hM0
    cases hM0
    obtain ⟨M1, hM1, hr, hb⟩ := hlin t ht s.robot s'.robot dq M hq hM
    rw [hM1] at hM'
    cases hM'
    rw [hb i (by omega)]
    unfold TaskMat.app
    rw [hb0 i (by omega), sub_self]

theorem scaled_factor {env : QPEnv K} (hS : env.Sound) {r : Robot K} {tasks : List (Task K)} (hfit : AllFit r tasks) (hlin : LinearTasks r tasks)
    (cons : List (KConstraint K)) (s : KState K) (hv : VarsOK r.nv s.prob s.qdVar s.scaleVar) :
    ∃ ρ, 0 ≤ ρ ∧ ρ ≤ 1 ∧ Remaining tasks s.robot (solve env r tasks cons true s).1.robot ρ := by
  rcases hs : solve env r tasks cons true s with ⟨s', res⟩
  cases res with
  | error e =>
    refine ⟨1, zero_le_one, le_rfl, ?_⟩
    show Remaining tasks s.robot s'.robot 1
    rw [(C56 env r tasks cons true _ s' _ hs).1 e rfl]
    exact remaining_refl tasks s.robot
  | ok dq =>
    have hstep := (scaled_step hS hfit hlin cons s s' dq hv hs).1
    obtain ⟨hsc, hrange, -⟩ := C46 env hS r tasks cons true s s' dq hv (hfit _) hs
    by_cases h : s'.hasScaling = true
    · obtain ⟨h0, h1⟩ := hrange h
      exact ⟨1 - s'.scale, by linarith, by linarith, hstep⟩
    · refine ⟨1, zero_le_one, le_rfl, fun t ht hp M hM => ?_⟩
      obtain ⟨M', hM', hr, -⟩ := hstep t ht hp M hM
      refine ⟨M', hM', hr, fun i hi => ?_⟩
      exact absurd (hsc.2 ⟨t, ht, hp, M, hM, by omega⟩) h

/-! ## The property -/

/-- **C210.** Scaled tasks that are linear in the configuration, with any other tasks and any constraints, which may change from one solve to the next: after
any sequence of solves, successful or not, all the errors of all the scaled tasks have been multiplied by one same factor between 0 and
1. The errors go straight to zero, and together. -/
theorem C210 {env : QPEnv K} (hS : env.Sound) {r : Robot K} {tasks : List (Task K)} (hfit : AllFit r tasks) (hlin : LinearTasks r tasks)
    (calls : List (List (KConstraint K))) (s : KState K) (hv : VarsOK r.nv s.prob s.qdVar s.scaleVar) :
    ∃ ρ, 0 ≤ ρ ∧ ρ ≤ 1 ∧ Remaining tasks s.robot (solveAll env r tasks calls s).robot ρ := by
  induction calls generalizing s with
  | nil => exact ⟨1, zero_le_one, le_rfl, remaining_refl tasks s.robot⟩
  | cons c calls ih =>
    obtain ⟨ρ, h0, h1, h⟩ := scaled_factor hS hfit hlin c s hv
    obtain ⟨ρ', h0', h1', h'⟩ := ih (solve env r tasks c true s).1 (solve_spec' env r tasks c true s hv (fun t ht M hM => (hfit _ t ht M hM).2)).1
    exact ⟨ρ' * ρ, mul_nonneg h0' h0, mul_le_one₀ h1' h0 h1, remaining_trans tasks _ _ _ ρ ρ' h h'⟩

/-- **C210, hard tasks.** As soon as a solve has succeeded, the errors of the hard tasks are null, and they stay null whatever the next
solves, successful or not, and their constraints. -/
theorem C210_hard {env : QPEnv K} (hS : env.Sound) {r : Robot K} {tasks : List (Task K)} (hfit : AllFit r tasks) (hlin : LinearTasks r tasks)
    (cons : List (KConstraint K)) (calls : List (List (KConstraint K))) (s : KState K) (hv : VarsOK r.nv s.prob s.qdVar s.scaleVar)
    (dq : Nat → K) (h : (solve env r tasks cons true s).2 = .ok dq) : HardMet tasks (solveAll env r tasks (cons :: calls) s).robot := by
  have key : ∀ (calls : List (List (KConstraint K))) (s : KState K), VarsOK r.nv s.prob s.qdVar s.scaleVar → HardMet tasks s.robot →
      HardMet tasks (solveAll env r tasks calls s).robot := by
    intro calls
    induction calls with
    | nil => intro s _ h; exact h
    | cons c calls ih =>
      intro s hv h
      refine ih _ (solve_spec' env r tasks c true s hv (fun t ht M hM => (hfit _ t ht M hM).2)).1 ?_
      dsimp only
      rcases hs : solve env r tasks c true s with ⟨s', res⟩
      cases res with
      | error e =>
        show HardMet tasks s'.robot
        rw [(C56 env r tasks c true _ s' _ hs).1 e rfl]
        exact h
      | ok dq => exact (scaled_step hS hfit hlin c s s' dq hv hs).2
  refine key calls _ (solve_spec' env r tasks cons true s hv (fun t ht M hM => (hfit _ t ht M hM).2)).1 ?_
  dsimp only
  rcases hs : solve env r tasks cons true s with ⟨s', res⟩
  rw [hs] at h
  have : res = .ok dq := h
  subst this
  exact (scaled_step hS hfit hlin cons s s' dq hv hs).2

/-- A fraction of an admissible step is admissible, when the hard tasks are met and the robot is inside its limits. -/
theorem admissible_fraction (r : Robot K) (tasks : List (Task K)) (s : KState K) (hh : HardMet tasks s.robot) (hw : Within r s) (scaling : Bool)
    (y : Nat → K) (σ : K) (h : Admissible r tasks s scaling y σ) (τ : K) (h0 : 0 ≤ τ) (h1 : τ ≤ 1) :
    Admissible r tasks s scaling (fun k => τ * y k) (τ * σ) := by
  have happ : ∀ (M : TaskMat K) i, M.app (fun k => τ * y k) i = τ * M.app y i := by
    intro M i
    unfold TaskMat.app
    rw [mul_sum]
    exact sum_congr rfl fun j _ => by ring
  refine ⟨fun t ht M hM i hi => ⟨fun hp => ?_, fun hp => ?_⟩, fun hs => ?_, fun d hd => ?_, fun hf k hk => ?_, fun hj i hi => ?_, fun hvl i hi => ?_⟩
  · rw [happ, (h.tasks t ht M hM i hi).1 hp, hh t ht hp M hM i hi, mul_zero]
  · rw [happ, (h.tasks t ht M hM i hi).2 hp]; ring
  · obtain ⟨a, b⟩ := h.scale hs
    exact ⟨mul_nonneg h0 a, by nlinarith⟩
  · simp only [h.masked d hd, mul_zero]
  · simp only [h.fbase hf k hk, mul_zero]
  · obtain ⟨a, b⟩ := h.joint hj i hi
    obtain ⟨c, d⟩ := hw.joint hj i hi
    constructor <;> nlinarith
  · obtain ⟨a, b⟩ := h.velocity hvl i hi
    have c := hw.velocity hvl i hi
    constructor <;> nlinarith

/-- **C210, rate.** Scaled and hard tasks only, the hard ones being met and the robot inside its limits: if some admissible step `y` reaches
the targets, then a successful solve multiplies the errors by a factor of which the square is at most `1 - 1/C`, with
`C = 1 + regularization (1 + |y|²)`. -/
theorem C210_rate {env : QPEnv K} (hS : env.Sound) (hO : env.Optimal) (hreg : 0 ≤ env.regularization) {r : Robot K} (hL : r.Layout)
    (hsize : ∀ j ∈ r.joints, j.nV ≤ j.nQ) {tasks : List (Task K)} (hfit : AllFit r tasks) (hlin : LinearTasks r tasks)
    (hns : ∀ t ∈ tasks, t.priority ≠ .soft) (s s' : KState K) (dq : Nat → K) (hv : VarsOK r.nv s.prob s.qdVar s.scaleVar)
    (hh : HardMet tasks s.robot) (hw : Within r s) (h : solve env r tasks [] true s = (s', .ok dq)) (y : Nat → K)
    (hy : Admissible r tasks s true y 1) :
    ∃ ρ, 0 ≤ ρ ∧ ρ ^ 2 ≤ 1 - 1 / (1 + env.regularization * (1 + ∑ k ∈ range r.nv, y k ^ 2)) ∧ Remaining tasks s.robot s'.robot ρ := by
  set C : K := 1 + env.regularization * (1 + ∑ k ∈ range r.nv, y k ^ 2) with hC
  have hsum : 0 ≤ ∑ k ∈ range r.nv, y k ^ 2 := sum_nonneg fun k _ => sq_nonneg _
  have hC1 : 1 ≤ C := by
    have : 0 ≤ env.regularization * (1 + ∑ k ∈ range r.nv, y k ^ 2) := mul_nonneg hreg (by linarith)
    linarith
  have hC0 : 0 < C := by linarith
  have hstep := (scaled_step hS hfit hlin [] s s' dq hv h).1
  obtain ⟨hsc, hrange, -⟩ := C46 env hS r tasks [] true s s' dq hv (hfit _) h
  by_cases hb : s'.hasScaling = true
  · obtain ⟨h0, h1⟩ := hrange hb
    refine ⟨1 - s'.scale, by linarith, ?_, hstep⟩
    obtain ⟨-, hm⟩ := C96 env hS hO hreg r hL hsize tasks true s s' dq hv (hfit _) h
    rw [hb] at hm
    have hinv0 : 0 ≤ 1 / C := by positivity
    have hinv1 : 1 / C ≤ 1 := by rw [div_le_one hC0]; exact hC1
    have hcost := hm _ _ (admissible_fraction r tasks s hh hw true y 1 hy (1 / C) hinv0 hinv1)
    have hz : ∀ z : Nat → K, (tasks.map fun t => taskCost s.robot t z).sum = 0 := by
      intro z
      refine List.sum_eq_zero fun x hx => ?_
      obtain ⟨t, ht, rfl⟩ := List.mem_map.1 hx
      unfold taskCost
      cases t.update s.robot with
      | error e => rfl
      | ok M => dsimp only; rw [if_neg (hns t ht)]
    unfold ikCost at hcost
    rw [hz, hz] at hcost
    simp only [if_true, mul_one, add_zero, mul_pow] at hcost
    rw [← mul_sum] at hcost
    have e1 : 0 ≤ env.regularization * (∑ k ∈ range r.nv, dq k ^ 2 + s'.scale ^ 2) :=
      mul_nonneg hreg (add_nonneg (sum_nonneg fun k _ => sq_nonneg _) (sq_nonneg _))
    have e2 : env.regularization * ((1 / C) ^ 2 * ∑ k ∈ range r.nv, y k ^ 2 + (1 / C) ^ 2) + (1 / C - 1) ^ 2 = 1 - 1 / C := by
      have : env.regularization * ((1 / C) ^ 2 * ∑ k ∈ range r.nv, y k ^ 2 + (1 / C) ^ 2) = (1 / C) ^ 2 * (C - 1) := by
        rw [hC]; ring
      rw [this]
      field_simp
      ring
    have e3 : (1 - s'.scale) ^ 2 = (s'.scale - 1) ^ 2 := by ring
    rw [e3]
    linarith
  · refine ⟨0, le_rfl, ?_, fun t ht hp M hM => ?_⟩
    · have : 1 / C ≤ 1 := by rw [div_le_one hC0]; exact hC1
      simp only [ne_eq, OfNat.ofNat_ne_zero, not_false_eq_true, zero_pow]
      linarith
    · obtain ⟨M', hM', hr, -⟩ := hstep t ht hp M hM
      exact ⟨M', hM', hr, fun i hi => absurd (hsc.2 ⟨t, ht, hp, M, hM, by omega⟩) hb⟩

/-- The setting of the convergence: a robot whose actuated joints have one coordinate each, scaled and hard tasks that are linear. -/
structure Steers (env : QPEnv K) (r : Robot K) (tasks : List (Task K)) : Prop where
  sound : env.Sound
  optimal : env.Optimal
  reg : 0 < env.regularization
  layout : r.Layout
  size : ∀ j ∈ r.joints, j.nV ≤ j.nQ
  integrate : ∀ q v i, i < r.nv - 6 → r.integrate q v (r.nq - (r.nv - 6) + i) = q (r.nq - (r.nv - 6) + i) + v (6 + i)
  soft : ∀ t ∈ tasks, t.priority ≠ .soft
  fit : ∀ rs, ∀ t ∈ tasks, ∃ M, t.update rs = .ok M ∧ 0 < M.cols ∧ M.cols ≤ r.nv
  linear : LinearTasks r tasks
  constant : ConstantJacobians r tasks

/-- The state between the solves: a fixed base, joint limits and no velocity limits, the hard tasks met, and `y` the displacement that is
left to the targets. -/
structure OnTheWay (r : Robot K) (tasks : List (Task K)) (s : KState K) (y : Nat → K) : Prop where
  vars : VarsOK r.nv s.prob s.qdVar s.scaleVar
  noVel : s.velocityLimits = false
  limits : s.jointLimits = true
  base : s.maskedFbase = true
  hard : HardMet tasks s.robot
  inside : Within r s
  left : Admissible r tasks s true y 1

omit [IsStrictOrderedRing K] in
theorem Steers.allFit {env : QPEnv K} {r : Robot K} {tasks : List (Task K)} (T : Steers env r tasks) : AllFit r tasks := by
  intro rs t ht M hM
  obtain ⟨M', hM', h⟩ := T.fit rs t ht
  rw [hM] at hM'
  cases hM'
  exact h

/-- The square of the largest displacement inside the joint limits. -/
def limitSpan {K : Type} [Field K] (r : Robot K) : K :=
  ∑ i ∈ range (r.nv - 6), (r.upper (r.nq - (r.nv - 6) + i) - r.lower (r.nq - (r.nv - 6) + i)) ^ 2

theorem left_le_span (r : Robot K) (hn : 6 ≤ r.nv) (tasks : List (Task K)) (s : KState K) (y : Nat → K) (w : OnTheWay r tasks s y) :
    ∑ k ∈ range r.nv, y k ^ 2 ≤ limitSpan r := by
  have e : ∑ k ∈ range r.nv, y k ^ 2 = ∑ k ∈ range 6, y k ^ 2 + ∑ i ∈ range (r.nv - 6), y (6 + i) ^ 2 := by
    conv_lhs => rw [show r.nv = 6 + (r.nv - 6) by omega]
    exact Finset.sum_range_add _ _ _
  have z : ∑ k ∈ range 6, y k ^ 2 = 0 := sum_eq_zero fun k hk => by
    rw [w.left.fbase w.base k (mem_range.1 hk)]; ring
  rw [e, z, zero_add]
  refine sum_le_sum fun i hi => ?_
  obtain ⟨a, b⟩ := w.left.joint w.limits i (mem_range.1 hi)
  obtain ⟨c, d⟩ := w.inside.joint w.limits i (mem_range.1 hi)
  refine sq_le_sq' ?_ ?_ <;> linarith

theorem way_step {env : QPEnv K} {r : Robot K} {tasks : List (Task K)} (T : Steers env r tasks) (s s' : KState K) (x y : Nat → K)
    (w : OnTheWay r tasks s y) (h : solve env r tasks [] true s = (s', .ok x)) : OnTheWay r tasks s' (fun k => y k - x k) := by
  obtain ⟨ha, -⟩ := C96 env T.sound T.optimal T.reg.le r T.layout T.size tasks true s s' x w.vars (T.allFit _) h
  obtain ⟨hv', hc, -⟩ := solve_spec' env r tasks [] true s w.vars (fun t ht M hM => (T.allFit _ t ht M hM).2)
  rw [h] at hc hv'
  obtain ⟨-, -, h3⟩ := C56 env r tasks [] true _ s' _ h
  obtain ⟨hq, -⟩ := h3 x rfl rfl
  have hvel : s'.velocityLimits = false := (show s'.velocityLimits = s.velocityLimits from hc.velocityLimits).trans w.noVel
  have hpos : ∀ i, i < r.nv - 6 → s'.robot.q (r.nq - (r.nv - 6) + i) = s.robot.q (r.nq - (r.nv - 6) + i) + x (6 + i) := by
    intro i hi
    rw [hq]; exact T.integrate _ _ i hi
  refine ⟨hv', hvel, (show s'.jointLimits = s.jointLimits from hc.jointLimits).trans w.limits,
    (show s'.maskedFbase = s.maskedFbase from hc.maskedFbase).trans w.base, (scaled_step T.sound T.allFit T.linear [] s s' x w.vars h).2,
    ⟨fun _ i hi => ?_, fun hb => ?_⟩,
    ⟨fun t ht M' hM' i hi => ?_, fun _ => ⟨zero_le_one, le_rfl⟩, fun d hd => ?_, fun _ k hk => ?_, fun _ i hi => ?_, fun hb => ?_⟩⟩
  · obtain ⟨a, b⟩ := ha.joint w.limits i hi
    rw [hpos i hi]
    exact ⟨b, a⟩
  · rw [hvel] at hb; cases hb
  · obtain ⟨M, hM, -⟩ := T.fit s.robot t ht
    obtain ⟨M1, hM1, hr, hb⟩ := T.linear t ht s.robot s'.robot x M hq hM
    have hM'' : t.update s'.robot = .ok M' := hM'
    rw [hM''] at hM1
    injection hM1 with e
    subst e
    have hi' : i < M.rows := by omega
    rw [T.constant t ht s.robot s'.robot x M M' hq hM hM'' _ i hi', app_minus, hb i hi']
    obtain ⟨y1, y2⟩ := w.left.tasks t ht M hM i hi'
    refine ⟨fun hp => ?_, fun hp => ?_⟩
    · rw [y1 hp]
    · rw [y2 hp]; ring
  · rw [show s'.maskedDof = s.maskedDof from hc.maskedDof] at hd
    show y d - x d = 0
    rw [w.left.masked d hd, ha.masked d hd, sub_self]
  · show y k - x k = 0
    rw [w.left.fbase w.base k hk, ha.fbase w.base k hk, sub_self]
  · obtain ⟨a, b⟩ := w.left.joint w.limits i hi
    rw [hpos i hi]
    constructor <;> linarith
  · rw [hvel] at hb; cases hb

/-- **C210, convergence.** If the targets can be reached inside the joint limits, then after `n` successful solves the errors of the scaled
tasks have been multiplied by a factor of which the square is at most the `n`-th power of a number below 1. -/
theorem C210_converges {env : QPEnv K} {r : Robot K} (hn : 6 ≤ r.nv) {tasks : List (Task K)} (T : Steers env r tasks) (s : KState K)
    (y : Nat → K) (w : OnTheWay r tasks s y) (n : Nat) (hs : AllSolved env r tasks n s) :
    (∃ ρ, 0 ≤ ρ ∧ ρ ^ 2 ≤ (1 - 1 / (1 + env.regularization * (1 + limitSpan r))) ^ n ∧
      Remaining tasks s.robot (iterSolve env r tasks n s).robot ρ) ∧
    ∃ z, OnTheWay r tasks (iterSolve env r tasks n s) z := by
  induction n with
  | zero => exact ⟨⟨1, zero_le_one, by simp, remaining_refl tasks s.robot⟩, y, w⟩
  | succ n ih =>
    obtain ⟨⟨ρ, h0, h1, h2⟩, z, wz⟩ := ih fun k hk => hs k (Nat.lt_succ_of_lt hk)
    obtain ⟨x, hx⟩ := hs n (Nat.lt_succ_self n)
    have hx' := iter_split env r tasks n s x hx
    obtain ⟨ρ', h0', h1', h2'⟩ := C210_rate T.sound T.optimal T.reg.le T.layout T.size T.allFit T.linear T.soft _ _ x wz.vars wz.hard wz.inside hx'
      z wz.left
    refine ⟨⟨ρ' * ρ, mul_nonneg h0' h0, ?_, remaining_trans tasks _ _ _ ρ ρ' h2 h2'⟩, _, way_step T _ _ x z wz hx'⟩
    have hspan := left_le_span r hn tasks _ z wz
    have hz0 : 0 ≤ ∑ k ∈ range r.nv, z k ^ 2 := sum_nonneg fun k _ => sq_nonneg _
    have hpos : 0 < 1 + env.regularization * (1 + ∑ k ∈ range r.nv, z k ^ 2) := by have := T.reg; positivity
    have hle : 1 + env.regularization * (1 + ∑ k ∈ range r.nv, z k ^ 2) ≤ 1 + env.regularization * (1 + limitSpan r) := by
      have := mul_le_mul_of_nonneg_left hspan T.reg.le
      linarith
    have hinv := one_div_le_one_div_of_le hpos hle
    have hf : ρ' ^ 2 ≤ 1 - 1 / (1 + env.regularization * (1 + limitSpan r)) := by linarith
    rw [show (ρ' * ρ) ^ 2 = ρ ^ 2 * ρ' ^ 2 by ring, pow_succ _ n]
    exact mul_le_mul h1 hf (sq_nonneg _) (le_trans (sq_nonneg _) h1)

end

/-- **C210, limit.** So the errors get as close as wanted to zero. -/
theorem C210_limit {env : QPEnv ℝ} {r : Robot ℝ} (hn : 6 ≤ r.nv) {tasks : List (Task ℝ)} (T : Steers env r tasks) (s : KState ℝ)
    (y : Nat → ℝ) (w : OnTheWay r tasks s y) (hs : ∀ n, AllSolved env r tasks n s) (ε : ℝ) (hε : 0 < ε) :
    ∃ N, ∀ n, N ≤ n → ∃ ρ, 0 ≤ ρ ∧ ρ < ε ∧ Remaining tasks s.robot (iterSolve env r tasks n s).robot ρ := by
  have hspan : 0 ≤ limitSpan r := sum_nonneg fun i _ => sq_nonneg _
  have hC : 1 < 1 + env.regularization * (1 + limitSpan r) := by
    have : 0 < env.regularization * (1 + limitSpan r) := mul_pos T.reg (by linarith)
    linarith
  have hc0 : 0 < 1 / (1 + env.regularization * (1 + limitSpan r)) := by apply one_div_pos.2; linarith
  have hc1 : 1 / (1 + env.regularization * (1 + limitSpan r)) ≤ 1 := by rw [div_le_one (by linarith)]; exact hC.le
  obtain ⟨N, hN⟩ := exists_pow_lt_of_lt_one (show 0 < ε ^ 2 by positivity)
    (show 1 - 1 / (1 + env.regularization * (1 + limitSpan r)) < 1 by linarith)
  refine ⟨N, fun n hle => ?_⟩
  obtain ⟨⟨ρ, h0, h1, h2⟩, -⟩ := C210_converges hn T s y w n (hs n)
  refine ⟨ρ, h0, ?_, h2⟩
  have := pow_le_pow_of_le_one (by linarith) (show 1 - 1 / (1 + env.regularization * (1 + limitSpan r)) ≤ 1 by linarith) hle
  exact lt_of_pow_lt_pow_left₀ 2 hε.le (by linarith)

/-- **C210 (solves succeed).** With exact external solvers and without rewriting of equalities, all these solves succeed. -/
theorem C210_solved {env : QPEnv ℝ} {r : Robot ℝ} (hn : 6 < r.nv) {tasks : List (Task ℝ)} (T : Steers env r tasks) (hex : env.Exact)
    (htol : 0 ≤ env.tol) (hre : env.rewriteEqualities = false) (s : KState ℝ) (hmask : s.maskedDof.Nodup ∧ ∀ d ∈ s.maskedDof, d < r.nv)
    (y : Nat → ℝ) (w : OnTheWay r tasks s y) (n : Nat) : AllSolved env r tasks n s := by
  induction n with
  | zero => exact fun k hk => absurd hk (Nat.not_lt_zero k)
  | succ n ih =>
    obtain ⟨-, z, wz⟩ := C210_converges hn.le T s y w n ih
    obtain ⟨-, hc⟩ := iter_config env r tasks (fun rs t ht M hM => (T.allFit rs t ht M hM).2) s w.vars n
    intro k hk
    rcases Nat.lt_succ_iff_lt_or_eq.1 hk with h | rfl
    · exact ih k h
    · refine (C165_partial env r T.layout T.size hn tasks true _ wz.vars (T.fit _) (fun t ht hp => absurd hp (T.soft t ht)) T.reg htol hex ?_ ?_
        ?_).1.2 ⟨z, 1, wz.left⟩
      · rw [hc.maskedDof]; exact hmask
      · rw [wz.noVel]; rintro ⟨h, -⟩; cases h
      · rw [hre]; intro h; cases h

/-! ## A concrete case -/

/-- A hinge that goes to 1/2, as a scaled task. -/
noncomputable def hingeScaled : Task ℝ := ⟨.scaled, 1, jointsUpdate hingeRobot [("hinge", 1 / 2)]⟩

/-- With the base masked. -/
noncomputable def hingeFixed : KState ℝ := { hingeState with maskedFbase := true }

theorem hingeScaled_mat (rs : RState ℝ) (M : TaskMat ℝ) (h : hingeScaled.update rs = .ok M) : M.rows = 1 ∧ M.b 0 = 1 / 2 - rs.q 7 ∧
    ∀ z, M.app z 0 = z 6 := by
  have e : hingeScaled.update rs = .ok ⟨1, 7, fun k j => if j = ([(6, 1 / 2 - rs.q 7)].getD k (0, 0)).1 then 1 else 0,
      fun k => ([(6, 1 / 2 - rs.q 7)].getD k (0, 0)).2⟩ := by
    simp [hingeScaled, jointsUpdate, jointsRow, hinge_find, bind, Except.bind, pure, Except.pure]
    rfl
  rw [e] at h
  injection h with h
  subst h
  refine ⟨rfl, rfl, fun z => ?_⟩
  simp [TaskMat.app]

theorem hinge_steers (env : QPEnv ℝ) (hS : env.Sound) (hO : env.Optimal) (hreg : 0 < env.regularization) :
    Steers env hingeRobot [hingeScaled] := by
  obtain ⟨a1, a2, a3, a4⟩ := C202_joints hingeRobot hinge_integrate _ (hinge_target (1 / 2)) hingeScaled rfl
  refine ⟨hS, hO, hreg, hinge_layout, fun j hj => by rw [List.mem_singleton.1 hj], ?_, ?_, ?_, a1, ?_⟩
  · intro q v i hi
    have : i = 0 := by
      have : hingeRobot.nv - 6 = 1 := rfl
      omega
    subst this
    rfl
  · intro t ht
    rw [List.mem_singleton.1 ht]
    exact fun h => by cases h
  · intro rs t ht
    rw [List.mem_singleton.1 ht]
    obtain ⟨M, h1, h2⟩ := a3 rs
    exact ⟨M, h1, by rw [h2]; decide, by rw [h2]⟩
  · intro t ht rs rs' dq M M' _ hM hM'
    rw [List.mem_singleton.1 ht] at hM hM'
    exact a4 rs rs' M M' hM hM'

theorem hinge_way : OnTheWay hingeRobot [hingeScaled] hingeFixed (fun k => if k = 6 then 1 / 2 else 0) := by
  refine ⟨.inl ⟨rfl, rfl, rfl⟩, rfl, rfl, rfl, fun t ht hp => ?_, ⟨fun _ i _ => ?_, fun h => by cases h⟩,
    ⟨fun t ht M hM i hi => ?_, fun _ => ⟨zero_le_one, le_rfl⟩, fun d hd => (by cases hd), fun _ k hk => ?_, fun _ i hi => ?_, fun h => (by cases h)⟩⟩
  · rw [List.mem_singleton.1 ht] at hp
    cases hp
  · constructor <;> norm_num [hingeRobot, hingeFixed, hingeState]
  · rw [List.mem_singleton.1 ht] at hM ⊢
    obtain ⟨h1, h2, h3⟩ := hingeScaled_mat _ M hM
    have : i = 0 := by omega
    subst this
    refine ⟨fun hp => (by cases hp), fun _ => ?_⟩
    rw [h3, h2]
    norm_num [hingeFixed, hingeState]
  · rw [if_neg (by omega)]
  · have : i = 0 := by
      have : hingeRobot.nv - 6 = 1 := rfl
      omega
    subst this
    norm_num [hingeRobot, hingeFixed, hingeState]

/-- With exact solvers, the hinge tends to 1/2. -/
example : ∃ env : QPEnv ℝ, env.Exact ∧ ∀ ε, 0 < ε → ∃ N, ∀ n, N ≤ n →
    |1 / 2 - (iterSolve env hingeRobot [hingeScaled] n hingeFixed).robot.q 7| < ε := by
  obtain ⟨env, hex, hS, hO, hreg, hre, -, htol⟩ := exact_env_exists 1 0 0 false
  have T := hinge_steers env hS hO (by rw [hreg]; exact one_pos)
  refine ⟨env, hex, fun ε hε => ?_⟩
  obtain ⟨N, hN⟩ := C210_limit (by decide) T hingeFixed _ hinge_way
    (C210_solved (by decide) T hex (by rw [htol]) hre hingeFixed ⟨List.nodup_nil, fun d hd => by cases hd⟩ _ hinge_way) ε hε
  refine ⟨N, fun n hn => ?_⟩
  obtain ⟨ρ, h0, h1, h2⟩ := hN n hn
  obtain ⟨M, hM, -⟩ := T.fit hingeFixed.robot hingeScaled List.mem_cons_self
  obtain ⟨M', hM', -, hb⟩ := h2 hingeScaled List.mem_cons_self rfl M hM
  obtain ⟨r1, b1, -⟩ := hingeScaled_mat _ M hM
  obtain ⟨-, b2, -⟩ := hingeScaled_mat _ M' hM'
  have := hb 0 (by omega)
  rw [b1, b2] at this
  have e : hingeFixed.robot.q 7 = 0 := rfl
  rw [this, e, abs_of_nonneg (by linarith)]
  linarith

end Verif.Kinematics
