/-
C202: repeated solves never increase the weighted error of tasks that are linear in the configuration, and the steps vanish.
-/
import Verif.Kinematics.StandstillProps
import Mathlib.Topology.Order.MonotoneConvergence
import Mathlib.Topology.Instances.Real.Lemmas
import Mathlib.Topology.Algebra.Order.LiminfLimsup

namespace Verif.Kinematics
open Finset Verif.Problem

/-! ## Specification -/

/-- What the soft tasks still ask for: the weighted sum of the squares of their errors. -/
def weightedError {K : Type} [Field K] (tasks : List (Task K)) (robot : RState K) : K :=
  (tasks.map fun t => match t.update robot with
    | .error _ => 0
    | .ok M => if t.priority = .soft then ∑ i ∈ range M.rows, t.weight * M.b i ^ 2 else 0).sum

/-- Tasks whose errors are affine functions of the configuration (joints tasks; positions of the frames of a robot with prismatic joints;
tasks on the centre of mass of such a robot): after a step, the error is the one that the Jacobian announces. -/
def LinearTasks {K : Type} [Field K] (r : Robot K) (tasks : List (Task K)) : Prop :=
  ∀ t ∈ tasks, ∀ (rs rs' : RState K) (dq : Nat → K) (M : TaskMat K), rs'.q = r.integrate rs.q dq → t.update rs = .ok M →
    ∃ M', t.update rs' = .ok M' ∧ M'.rows = M.rows ∧ ∀ i, i < M.rows → M'.b i = M.b i - M.app dq i

/-- The tasks look at the configuration only. -/
def LooksAtQ {K : Type} [Field K] (tasks : List (Task K)) : Prop :=
  ∀ t ∈ tasks, ∀ rs rs' : RState K, rs'.q = rs.q → t.update rs' = t.update rs

/-- The position of the actuated joint `i`. -/
def jointPos {K : Type} [Field K] (r : Robot K) (s : KState K) (i : Nat) : K := s.robot.q (r.nq - (r.nv - 6) + i)

/-! ## Proof -/

section
variable {K : Type} [Field K] [LinearOrder K] [IsStrictOrderedRing K]

omit [LinearOrder K] [IsStrictOrderedRing K] in
theorem cost_at_zero (tasks : List (Task K)) (robot : RState K) :
    (tasks.map fun t => taskCost robot t fun _ => 0).sum = weightedError tasks robot := by
  unfold weightedError
  refine congrArg List.sum (List.map_congr_left fun t _ => ?_)
  unfold taskCost
  cases t.update robot with
  | error e => rfl
  | ok M =>
    dsimp only
    split
    · refine Finset.sum_congr rfl fun i _ => ?_
      rw [app_zero]
      ring
    · rfl

omit [LinearOrder K] [IsStrictOrderedRing K] in
theorem cost_next (r : Robot K) (tasks : List (Task K)) (hlin : LinearTasks r tasks) (rs rs' : RState K) (dq : Nat → K)
    (hok : ∀ t ∈ tasks, ∃ M, t.update rs = .ok M)
    (hq : rs'.q = r.integrate rs.q dq) : (tasks.map fun t => taskCost rs t dq).sum = weightedError tasks rs' := by
  unfold weightedError
  refine congrArg List.sum (List.map_congr_left fun t ht => ?_)
  obtain ⟨M, hM⟩ := hok t ht
  obtain ⟨M', hM', hr, hb⟩ := hlin t ht rs rs' dq M hq hM
  unfold taskCost
  rw [hM, hM']
  dsimp only
  rw [hr]
  split
  · refine Finset.sum_congr rfl fun i hi => ?_
    rw [hb i (Finset.mem_range.1 hi)]
    ring
  · rfl

theorem weightedError_nonneg (tasks : List (Task K)) (robot : RState K) (hw : ∀ t ∈ tasks, t.priority = .soft → 0 ≤ t.weight) :
    0 ≤ weightedError tasks robot := by
  rw [← cost_at_zero]
  exact cost_nonneg tasks robot hw _

omit [LinearOrder K] [IsStrictOrderedRing K] in
theorem weightedError_congr (tasks : List (Task K)) (hl : LooksAtQ tasks) (rs rs' : RState K) (h : rs'.q = rs.q) :
    weightedError tasks rs' = weightedError tasks rs := by
  unfold weightedError
  refine congrArg List.sum (List.map_congr_left fun t ht => ?_)
  rw [hl t ht rs rs' h]

/-- What stays true along the iterations: the hard tasks are met and the robot is inside its limits. -/
structure Good (r : Robot K) (tasks : List (Task K)) (s : KState K) : Prop where
  vars : VarsOK r.nv s.prob s.qdVar s.scaleVar
  hard : ∀ t ∈ tasks, t.priority = .hard → ∀ M, t.update s.robot = .ok M → ∀ i, i < M.rows → M.b i = 0
  within : Within r s

/-- The setting: a robot whose actuated joints have one coordinate each, soft and hard tasks that are linear. -/
structure Descends (env : QPEnv K) (r : Robot K) (tasks : List (Task K)) : Prop where
  sound : env.Sound
  optimal : env.Optimal
  reg : 0 < env.regularization
  layout : r.Layout
  size : ∀ j ∈ r.joints, j.nV ≤ j.nQ
  integrate : ∀ q v i, i < r.nv - 6 → r.integrate q v (r.nq - (r.nv - 6) + i) = q (r.nq - (r.nv - 6) + i) + v (6 + i)
  weights : ∀ t ∈ tasks, t.priority = .soft → 0 ≤ t.weight
  scaled : ∀ t ∈ tasks, t.priority ≠ .scaled
  fit : ∀ rs, ∀ t ∈ tasks, ∃ M, t.update rs = .ok M ∧ 0 < M.cols ∧ M.cols ≤ r.nv
  linear : LinearTasks r tasks
  looks : LooksAtQ tasks

omit [IsStrictOrderedRing K] in
theorem Descends.tasksFit {env : QPEnv K} {r : Robot K} {tasks : List (Task K)} (D : Descends env r tasks) (rs : RState K) :
    ∀ t ∈ tasks, ∀ M, t.update rs = .ok M → 0 < M.cols ∧ M.cols ≤ r.nv := by
  intro t ht M hM
  obtain ⟨M', hM', h⟩ := D.fit rs t ht
  rw [hM] at hM'
  cases hM'
  exact h

theorem descent_step {env : QPEnv K} {r : Robot K} {tasks : List (Task K)} (D : Descends env r tasks) (s : KState K) (g : Good r tasks s) :
    Good r tasks (solve env r tasks [] true s).1 ∧
    weightedError tasks (solve env r tasks [] true s).1.robot +
      env.regularization * ∑ i ∈ range (r.nv - 6), (jointPos r (solve env r tasks [] true s).1 i - jointPos r s i) ^ 2 ≤
        weightedError tasks s.robot := by
  obtain ⟨hv', hc, -⟩ := solve_spec' env r tasks [] true s g.vars (fun t ht M hM => (D.tasksFit _ t ht M hM).2)
  rcases hs : solve env r tasks [] true s with ⟨s', res⟩
  rw [hs] at hv' hc
  obtain ⟨h1, -, h3⟩ := C56 env r tasks [] true _ s' res hs
  cases res with
  | error e =>
    have e0 := h1 e rfl
    refine ⟨⟨hv', ?_, ?_⟩, ?_⟩
    · show ∀ t ∈ tasks, t.priority = .hard → ∀ M, t.update s'.robot = .ok M → _
      rw [e0]; exact g.hard
    · refine ⟨fun h => ?_, fun h => ?_⟩
      · show ∀ i, i < r.nv - 6 → r.lower _ ≤ s'.robot.q _ ∧ s'.robot.q _ ≤ r.upper _
        rw [e0]; exact g.within.joint (by rw [← hc.jointLimits]; exact h)
      · show ∀ i, i < r.nv - 6 → 0 ≤ s'.dt * r.vlim (6 + i)
        rw [show s'.dt = s.dt from hc.dt]; exact g.within.velocity (by rw [← hc.velocityLimits]; exact h)
    · show weightedError tasks s'.robot + env.regularization * ∑ i ∈ range (r.nv - 6), (s'.robot.q _ - s.robot.q _) ^ 2 ≤ _
      rw [e0]; simp
  | ok dq =>
    obtain ⟨ha, hm⟩ := C96 env D.sound D.optimal D.reg.le r D.layout D.size tasks true s s' dq g.vars (D.tasksFit _) hs
    obtain ⟨hq, -⟩ := h3 dq rfl rfl
    have hpos : ∀ i, i < r.nv - 6 → s'.robot.q (r.nq - (r.nv - 6) + i) = s.robot.q (r.nq - (r.nv - 6) + i) + dq (6 + i) := by
      intro i hi
      rw [hq]; exact D.integrate _ _ i hi
    refine ⟨⟨hv', ?_, ?_⟩, ?_⟩
    · intro t ht hp M' hM' i hi
      obtain ⟨M, hM, -⟩ := D.fit s.robot t ht
      obtain ⟨M1, hM1, hr, hb⟩ := D.linear t ht s.robot s'.robot dq M hq hM
      have hM'' : t.update s'.robot = .ok M' := hM'
      rw [hM1] at hM''
      injection hM'' with e
      subst e
      rw [hb i (by omega), (ha.tasks t ht M hM i (by omega)).1 hp, sub_self]
    · refine ⟨fun h i hi => ?_, fun h => ?_⟩
      · have h' : s.jointLimits = true := by rw [← hc.jointLimits]; exact h
        have := ha.joint h' i hi
        show r.lower _ ≤ s'.robot.q _ ∧ s'.robot.q _ ≤ r.upper _
        rw [hpos i hi]
        exact ⟨this.2, this.1⟩
      · show ∀ i, i < r.nv - 6 → 0 ≤ s'.dt * r.vlim (6 + i)
        rw [show s'.dt = s.dt from hc.dt]; exact g.within.velocity (by rw [← hc.velocityLimits]; exact h)
    · have h0 := hm (fun _ => 0) s'.scale (still_admissible r tasks s _ _ ha.scale (fun t ht hn => by
        cases hp : t.priority with
        | soft => exact absurd hp hn
        | scaled => exact absurd hp (D.scaled t ht)
        | hard => exact g.hard t ht hp) g.within)
      unfold ikCost at h0
      rw [cost_at_zero, cost_next r tasks D.linear s.robot s'.robot dq (fun t ht => (D.fit s.robot t ht).imp fun _ h => h.1) hq] at h0
      simp only [ne_eq, OfNat.ofNat_ne_zero, not_false_eq_true, zero_pow, Finset.sum_const_zero] at h0
      have e1 : ∑ i ∈ range (r.nv - 6), (jointPos r s' i - jointPos r s i) ^ 2 = ∑ i ∈ range (r.nv - 6), dq (6 + i) ^ 2 := by
        refine Finset.sum_congr rfl fun i hi => ?_
        unfold jointPos
        rw [hpos i (Finset.mem_range.1 hi)]
        ring
      have e2 : ∑ i ∈ range (r.nv - 6), dq (6 + i) ^ 2 ≤ ∑ k ∈ range r.nv, dq k ^ 2 := by
        by_cases h6 : 6 ≤ r.nv
        · have : ∑ k ∈ range r.nv, dq k ^ 2 = ∑ k ∈ range 6, dq k ^ 2 + ∑ i ∈ range (r.nv - 6), dq (6 + i) ^ 2 := by
            conv_lhs => rw [show r.nv = 6 + (r.nv - 6) by omega]
            exact Finset.sum_range_add _ _ _
          rw [this]
          have := Finset.sum_nonneg (s := range 6) fun k _ => sq_nonneg (dq k)
          linarith
        · rw [show r.nv - 6 = 0 by omega]
          exact Finset.sum_nonneg fun k _ => sq_nonneg _
      have e3 := mul_le_mul_of_nonneg_left e2 D.reg.le
      show weightedError tasks s'.robot + env.regularization * ∑ i ∈ range (r.nv - 6), (jointPos r s' i - jointPos r s i) ^ 2 ≤ _
      rw [e1]
      linarith

omit [IsStrictOrderedRing K] in
theorem iter_succ (env : QPEnv K) (r : Robot K) (tasks : List (Task K)) (n : Nat) (s : KState K) :
    iterSolve env r tasks (n + 1) s = (solve env r tasks [] true (iterSolve env r tasks n s)).1 := by
  unfold iterSolve
  rw [Function.iterate_succ_apply']

theorem iter_good {env : QPEnv K} {r : Robot K} {tasks : List (Task K)} (D : Descends env r tasks) (s : KState K) (g : Good r tasks s) (n : Nat) :
    Good r tasks (iterSolve env r tasks n s) := by
  induction n with
  | zero => exact g
  | succ n ih => rw [iter_succ]; exact (descent_step D _ ih).1

/-- **C202.** Soft and hard tasks, linear in the configuration, on a robot inside its enabled limits whose hard tasks are met. At every
solve of any sequence of solves, the weighted error of the soft tasks decreases by at least the regularization times the square of the
motion of the joints; and the hard tasks and the limits keep being met. -/
theorem C202 {env : QPEnv K} {r : Robot K} {tasks : List (Task K)} (D : Descends env r tasks) (s : KState K) (g : Good r tasks s) (n : Nat) :
    weightedError tasks (iterSolve env r tasks (n + 1) s).robot +
      env.regularization * ∑ i ∈ range (r.nv - 6),
        (jointPos r (iterSolve env r tasks (n + 1) s) i - jointPos r (iterSolve env r tasks n s) i) ^ 2 ≤
        weightedError tasks (iterSolve env r tasks n s).robot ∧
    Good r tasks (iterSolve env r tasks n s) := by
  have hg := iter_good D s g n
  rw [iter_succ]
  exact ⟨(descent_step D _ hg).2, hg⟩

/-- **C202 (path).** The squares of all the motions of the joints, in any number of solves, sum up to at most the initial weighted error
divided by the regularization. -/
theorem C202_path {env : QPEnv K} {r : Robot K} {tasks : List (Task K)} (D : Descends env r tasks) (s : KState K) (g : Good r tasks s) (n : Nat) :
    env.regularization * ∑ k ∈ range n, ∑ i ∈ range (r.nv - 6),
        (jointPos r (iterSolve env r tasks (k + 1) s) i - jointPos r (iterSolve env r tasks k s) i) ^ 2 ≤ weightedError tasks s.robot := by
  have key : ∀ n, env.regularization * ∑ k ∈ range n, ∑ i ∈ range (r.nv - 6),
        (jointPos r (iterSolve env r tasks (k + 1) s) i - jointPos r (iterSolve env r tasks k s) i) ^ 2 +
          weightedError tasks (iterSolve env r tasks n s).robot ≤ weightedError tasks s.robot := by
    intro n
    induction n with
    | zero => simp [iterSolve]
    | succ n ih =>
      rw [Finset.sum_range_succ, mul_add]
      have := (C202 D s g n).1
      linarith
  have := weightedError_nonneg tasks (iterSolve env r tasks n s).robot D.weights
  linarith [key n]

end

/-- **C202 (steps vanish).** Whatever the tasks, even contradictory, the motion of each joint from one solve to the next tends to zero. -/
theorem C202_vanish {env : QPEnv ℝ} {r : Robot ℝ} {tasks : List (Task ℝ)} (D : Descends env r tasks) (s : KState ℝ) (g : Good r tasks s)
    (i : Nat) (hi : i < r.nv - 6) (ε : ℝ) (hε : 0 < ε) :
    ∃ N, ∀ n, N ≤ n → |jointPos r (iterSolve env r tasks (n + 1) s) i - jointPos r (iterSolve env r tasks n s) i| < ε := by
  have hmono : Antitone fun n => weightedError tasks (iterSolve env r tasks n s).robot := by
    refine antitone_nat_of_succ_le fun n => ?_
    have h1 := (C202 D s g n).1
    have h2 := mul_nonneg D.reg.le (Finset.sum_nonneg (s := range (r.nv - 6)) fun i _ =>
      sq_nonneg (jointPos r (iterSolve env r tasks (n + 1) s) i - jointPos r (iterSolve env r tasks n s) i))
    linarith
  have hlim := tendsto_atTop_ciInf hmono ⟨0, by
    rintro x ⟨n, rfl⟩
    exact weightedError_nonneg tasks _ D.weights⟩
  have hd : 0 < env.regularization * ε ^ 2 := mul_pos D.reg (pow_pos hε 2)
  obtain ⟨N, hN⟩ := Metric.tendsto_atTop.1 hlim (env.regularization * ε ^ 2) hd
  refine ⟨N, fun n hn => ?_⟩
  have h1 := (C202 D s g n).1
  have h2 := hN n hn
  rw [Real.dist_eq] at h2
  have h3 := (abs_lt.1 h2).2
  have h4 : (⨅ n, weightedError tasks (iterSolve env r tasks n s).robot) ≤ weightedError tasks (iterSolve env r tasks (n + 1) s).robot :=
    ciInf_le ⟨0, by
      rintro x ⟨n, rfl⟩
      exact weightedError_nonneg tasks _ D.weights⟩ (n + 1)
  have h5 : (jointPos r (iterSolve env r tasks (n + 1) s) i - jointPos r (iterSolve env r tasks n s) i) ^ 2 ≤
      ∑ i ∈ range (r.nv - 6), (jointPos r (iterSolve env r tasks (n + 1) s) i - jointPos r (iterSolve env r tasks n s) i) ^ 2 :=
    Finset.single_le_sum (f := fun i => (jointPos r (iterSolve env r tasks (n + 1) s) i - jointPos r (iterSolve env r tasks n s) i) ^ 2)
      (fun i _ => sq_nonneg _) (Finset.mem_range.2 hi)
  have h6 : env.regularization * (jointPos r (iterSolve env r tasks (n + 1) s) i - jointPos r (iterSolve env r tasks n s) i) ^ 2 <
      env.regularization * ε ^ 2 := by
    have := mul_le_mul_of_nonneg_left h5 D.reg.le
    linarith
  exact abs_lt_of_sq_lt_sq (lt_of_mul_lt_mul_left h6 D.reg.le) hε.le

/-! ## Joints tasks are linear -/

section
variable {K : Type} [Field K] [LinearOrder K] [IsStrictOrderedRing K]

/-- The joints of the targets are joints of the robot, with one coordinate each. -/
def SimpleTargets (r : Robot K) (m : SMap String K) : Prop :=
  ∀ p ∈ m, ∃ j, r.vJoint p.1 = .ok j ∧ j ∈ r.joints ∧ j.Simple ∧ j.idxV < r.nv

omit [LinearOrder K] [IsStrictOrderedRing K] in
theorem jointsRows_eq (r : Robot K) (rs : RState K) (f : String × K → Joint) : ∀ m : List (String × K), (∀ p ∈ m, r.vJoint p.1 = .ok (f p)) →
    m.mapM (jointsRow r rs) = .ok (m.map fun p => ((f p).idxV, p.2 - rs.q (f p).idxQ)) := by
  intro m
  induction m with
  | nil => intro _; rfl
  | cons p m ih =>
    intro h
    rw [List.mapM_cons, ih fun q hq => h q (List.mem_cons_of_mem _ hq)]
    unfold jointsRow
    rw [h p List.mem_cons_self]
    rfl

omit [LinearOrder K] [IsStrictOrderedRing K] in
/-- Joints tasks on joints with one coordinate are linear, with a constant Jacobian, and look at the configuration only. -/
theorem C202_joints (r : Robot K) (hI : r.IntegrateOK) (m : SMap String K) (hm : SimpleTargets r m) (t : Task K)
    (hu : t.update = jointsUpdate r m) : LinearTasks r [t] ∧ LooksAtQ [t] ∧ (∀ rs, ∃ M, t.update rs = .ok M ∧ M.cols = r.nv) ∧
      ∀ rs rs' M M', t.update rs = .ok M → t.update rs' = .ok M' → ∀ z i, i < M.rows → M'.app z i = M.app z i := by
  have hex : ∃ f : String × K → Joint, ∀ p ∈ m, r.vJoint p.1 = .ok (f p) ∧ f p ∈ r.joints ∧ (f p).Simple ∧ (f p).idxV < r.nv := by
    classical
    refine ⟨fun p => if h : p ∈ m then (hm p h).choose else ⟨"", 0, 0, 0, 0⟩, fun p hp => ?_⟩
    dsimp only
    rw [dif_pos hp]
    exact (hm p hp).choose_spec
  obtain ⟨f, hf⟩ := hex
  have hrows := fun rs : RState K => jointsRows_eq r rs f m fun p hp => (hf p hp).1
  have hupd : ∀ rs : RState K, t.update rs = .ok ⟨m.length, r.nv,
      fun k j => if j = ((m.map fun p => ((f p).idxV, p.2 - rs.q (f p).idxQ)).getD k (0, 0)).1 then 1 else 0,
      fun k => ((m.map fun p => ((f p).idxV, p.2 - rs.q (f p).idxQ)).getD k (0, 0)).2⟩ := by
    intro rs
    rw [hu]
    unfold jointsUpdate
    rw [hrows rs]
    show Except.ok _ = _
    rw [List.length_map]
  have hget : ∀ (rs : RState K) (k : Nat) (hk : k < m.length), (m.map fun p => ((f p).idxV, p.2 - rs.q (f p).idxQ)).getD k (0, 0) =
      ((f m[k]).idxV, m[k].2 - rs.q (f m[k]).idxQ) := by
    intro rs k hk
    rw [List.getD_eq_getElem?_getD, List.getElem?_map, List.getElem?_eq_getElem hk]
    rfl
  refine ⟨fun u hu' rs rs' dq M hq hM => ?_, fun u hu' rs rs' h => ?_, fun rs => ⟨_, hupd rs, rfl⟩, fun rs rs' M M' hM hM' z i hi => ?_⟩
  · rw [List.mem_singleton.1 hu'] at hM ⊢
    rw [hupd rs] at hM
    injection hM with hM
    subst hM
    refine ⟨_, hupd rs', rfl, fun i hi => ?_⟩
    have hi : i < m.length := hi
    obtain ⟨-, h1, h2, h3⟩ := hf m[i] (List.getElem_mem hi)
    unfold TaskMat.app
    dsimp only
    rw [hget rs' i hi, hget rs i hi]
    dsimp only
    rw [hq, hI _ h1 h2.1 h2.2]
    simp only [ite_mul, one_mul, zero_mul]
    rw [Finset.sum_ite_eq', if_pos (Finset.mem_range.2 h3)]
    ring
  · rw [List.mem_singleton.1 hu', hupd rs', hupd rs, h]
  · rw [hupd rs] at hM
    rw [hupd rs'] at hM'
    injection hM with hM
    injection hM' with hM'
    subst hM hM'
    have hi : i < m.length := hi
    unfold TaskMat.app
    dsimp only
    rw [hget rs' i hi, hget rs i hi]

end

/-! ## Concrete case -/

/-- The opposite of `hingeGoal`. -/
noncomputable def hingeOther : Task ℝ := ⟨.soft, 3, jointsUpdate hingeRobot [("hinge", -1 / 2)]⟩

theorem hinge_both (t : Task ℝ) (ht : t ∈ [hingeGoal, hingeOther]) : t = hingeGoal ∨ t = hingeOther := by simpa using ht

theorem hinge_target (x : ℝ) : SimpleTargets hingeRobot [("hinge", x)] := by
  intro p hp
  rw [List.mem_singleton.1 hp]
  exact ⟨⟨"hinge", 7, 1, 6, 1⟩, hinge_find, by simp [hingeRobot], ⟨rfl, rfl⟩, by decide⟩

theorem hinge_descends (env : QPEnv ℝ) (hS : env.Sound) (hO : env.Optimal) (hreg : 0 < env.regularization) :
    Descends env hingeRobot [hingeGoal, hingeOther] := by
  obtain ⟨a1, a2, a3, -⟩ := C202_joints hingeRobot hinge_integrate _ (hinge_target (1 / 2)) hingeGoal rfl
  obtain ⟨b1, b2, b3, -⟩ := C202_joints hingeRobot hinge_integrate _ (hinge_target (-1 / 2)) hingeOther rfl
  exact
    { sound := hS
      optimal := hO
      reg := hreg
      layout := hinge_layout
      size := fun j hj => by rw [List.mem_singleton.1 hj]
      integrate := by
        intro q v i hi
        have : i = 0 := by
          have : hingeRobot.nv - 6 = 1 := rfl
          omega
        subst this
        rfl
      weights := by
        intro t ht _
        rcases hinge_both t ht with rfl | rfl
        · exact zero_le_one
        · show (0 : ℝ) ≤ 3
          norm_num
      scaled := by
        intro t ht
        rcases hinge_both t ht with rfl | rfl <;> exact fun h => by cases h
      fit := by
        intro rs t ht
        rcases hinge_both t ht with rfl | rfl
        · obtain ⟨M, h1, h2⟩ := a3 rs
          exact ⟨M, h1, by rw [h2]; decide, by rw [h2]⟩
        · obtain ⟨M, h1, h2⟩ := b3 rs
          exact ⟨M, h1, by rw [h2]; decide, by rw [h2]⟩
      linear := by
        intro t ht
        rcases hinge_both t ht with rfl | rfl
        · exact a1 _ List.mem_cons_self
        · exact b1 _ List.mem_cons_self
      looks := by
        intro t ht
        rcases hinge_both t ht with rfl | rfl
        · exact a2 _ List.mem_cons_self
        · exact b2 _ List.mem_cons_self }

/-- With exact solvers and the default settings, a hinge pulled towards 1/2 and, three times as much, towards -1/2. -/
example : ∃ env : QPEnv ℝ, env.Exact ∧ Descends env hingeRobot [hingeGoal, hingeOther] ∧ Good hingeRobot [hingeGoal, hingeOther] hingeState ∧
    ∀ ε, 0 < ε → ∃ N, ∀ n, N ≤ n → |jointPos hingeRobot (iterSolve env hingeRobot [hingeGoal, hingeOther] (n + 1) hingeState) 0 -
      jointPos hingeRobot (iterSolve env hingeRobot [hingeGoal, hingeOther] n hingeState) 0| < ε := by
  obtain ⟨env, hex, hS, hO, hreg, -⟩ := exact_env_exists 1 0 0 true
  have D := hinge_descends env hS hO (by rw [hreg]; exact one_pos)
  have g : Good hingeRobot [hingeGoal, hingeOther] hingeState :=
    ⟨.inl ⟨rfl, rfl, rfl⟩, fun t ht hp => (by rcases hinge_both t ht with rfl | rfl <;> cases hp),
      ⟨fun _ i _ => by constructor <;> norm_num [hingeRobot, hingeState], fun h => by cases h⟩⟩
  exact ⟨env, hex, D, g, fun ε hε => C202_vanish D hingeState g 0 (by decide) ε hε⟩

end Verif.Kinematics
