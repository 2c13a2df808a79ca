/-
C203: repeated solves reach the best compromise between linear tasks, under the hard tasks, the masks and the joint limits.
-/
import Verif.Kinematics.DescentProps

namespace Verif.Kinematics
open Finset Verif.Problem

/-! ## Specification -/

/-- The Jacobians of the tasks do not depend on the configuration. -/
def ConstantJacobians {K : Type} [Field K] (r : Robot K) (tasks : List (Task K)) : Prop :=
  ∀ t ∈ tasks, ∀ (rs rs' : RState K) (dq : Nat → K) (M M' : TaskMat K), rs'.q = r.integrate rs.q dq → t.update rs = .ok M →
    t.update rs' = .ok M' → ∀ z i, i < M.rows → M'.app z i = M.app z i

/-- The displacement `y` of the robot leads to a configuration that the hard tasks, the masks and the joint limits allow. -/
structure Allowed {K : Type} [Field K] [LinearOrder K] (r : Robot K) (tasks : List (Task K)) (s : KState K) (y : Nat → K) : Prop where
  hard : ∀ t ∈ tasks, t.priority = .hard → ∀ M, t.update s.robot = .ok M → ∀ i, i < M.rows → M.app y i = M.b i
  masked : ∀ d ∈ s.maskedDof, y d = 0
  fbase : s.maskedFbase = true → ∀ k, k < 6 → y k = 0
  joint : s.jointLimits = true → ∀ i, i < r.nv - 6 →
    r.lower (r.nq - (r.nv - 6) + i) ≤ jointPos r s i + y (6 + i) ∧ jointPos r s i + y (6 + i) ≤ r.upper (r.nq - (r.nv - 6) + i)

/-! ## Proof -/

section
variable {K : Type} [Field K] [LinearOrder K] [IsStrictOrderedRing K]

omit [LinearOrder K] [IsStrictOrderedRing K] in
theorem app_minus (M : TaskMat K) (z x : Nat → K) (i : Nat) : M.app (fun k => z k - x k) i = M.app z i - M.app x i := by
  unfold TaskMat.app
  rw [← Finset.sum_sub_distrib]
  exact Finset.sum_congr rfl fun j _ => by ring

omit [LinearOrder K] [IsStrictOrderedRing K] in
theorem app_mix (M : TaskMat K) (τ : K) (x z : Nat → K) (i : Nat) :
    M.app (fun k => x k + τ * (z k - x k)) i = M.app x i + τ * (M.app z i - M.app x i) := by
  unfold TaskMat.app
  rw [← Finset.sum_sub_distrib, Finset.mul_sum, ← Finset.sum_add_distrib]
  exact Finset.sum_congr rfl fun j _ => by ring

theorem sq_mix (w τ a c : K) (hw : 0 ≤ w) (h0 : 0 ≤ τ) (h1 : τ ≤ 1) :
    w * (a + τ * (c - a)) ^ 2 ≤ (1 - τ) * (w * a ^ 2) + τ * (w * c ^ 2) := by
  have : (1 - τ) * (w * a ^ 2) + τ * (w * c ^ 2) - w * (a + τ * (c - a)) ^ 2 = w * (τ * (1 - τ)) * (c - a) ^ 2 := by ring
  have h2 : 0 ≤ w * (τ * (1 - τ)) * (c - a) ^ 2 := mul_nonneg (mul_nonneg hw (mul_nonneg h0 (sub_nonneg.2 h1))) (sq_nonneg _)
  linarith

theorem cost_convex (tasks : List (Task K)) (rs : RState K) (hw : ∀ t ∈ tasks, t.priority = .soft → 0 ≤ t.weight) (τ : K) (h0 : 0 ≤ τ)
    (h1 : τ ≤ 1) (x z : Nat → K) : (tasks.map fun t => taskCost rs t fun k => x k + τ * (z k - x k)).sum ≤
      (1 - τ) * (tasks.map fun t => taskCost rs t x).sum + τ * (tasks.map fun t => taskCost rs t z).sum := by
  induction tasks with
  | nil => simp
  | cons t l ih =>
    have ih := ih fun u hu => hw u (List.mem_cons_of_mem _ hu)
    have e : taskCost rs t (fun k => x k + τ * (z k - x k)) ≤ (1 - τ) * taskCost rs t x + τ * taskCost rs t z := by
      unfold taskCost
      cases t.update rs with
      | error e => simp
      | ok M =>
        dsimp only
        by_cases hp : t.priority = .soft
        · rw [if_pos hp, if_pos hp, if_pos hp, Finset.mul_sum, Finset.mul_sum, ← Finset.sum_add_distrib]
          refine Finset.sum_le_sum fun i _ => ?_
          rw [app_mix]
          have := sq_mix t.weight τ (M.app x i - M.b i) (M.app z i - M.b i) (hw t List.mem_cons_self hp) h0 h1
          calc _ = t.weight * (M.app x i - M.b i + τ * (M.app z i - M.b i - (M.app x i - M.b i))) ^ 2 := by ring
            _ ≤ _ := this
        · rw [if_neg hp, if_neg hp, if_neg hp]
          simp
    simp only [List.map_cons, List.sum_cons]
    linarith

/-- A bound that holds for all mixtures holds in the limit. -/
theorem mix_limit (a b c : K) (hc : 0 ≤ c) (h : ∀ τ, 0 < τ → τ ≤ 1 → a + (1 - τ) * c ≤ b) : a + c ≤ b := by
  by_contra hn
  have he : 0 < a + c - b := by linarith
  rcases hc.eq_or_lt with hc | hc
  · have := h 1 one_pos (le_refl _)
    rw [sub_self, zero_mul] at this
    linarith
  · have h1 := h (min 1 ((a + c - b) / (2 * c))) (lt_min one_pos (div_pos he (by linarith))) (min_le_left _ _)
    have h2 : min 1 ((a + c - b) / (2 * c)) * c ≤ (a + c - b) / 2 := by
      calc min 1 ((a + c - b) / (2 * c)) * c ≤ (a + c - b) / (2 * c) * c := mul_le_mul_of_nonneg_right (min_le_right _ _) hc.le
        _ = (a + c - b) / 2 := by field_simp
    nlinarith

/-- The step found is at least as good as any other, by the square of the distance between them. -/
theorem three_points {env : QPEnv K} {r : Robot K} {tasks : List (Task K)} (D : Descends env r tasks) (s s' : KState K) (x z : Nat → K)
    (hv : VarsOK r.nv s.prob s.qdVar s.scaleVar) (hvel : s.velocityLimits = false) (h : solve env r tasks [] true s = (s', .ok x))
    (hz : Allowed r tasks s z) :
    env.regularization * ∑ k ∈ range r.nv, x k ^ 2 + (tasks.map fun t => taskCost s.robot t x).sum +
      env.regularization * ∑ k ∈ range r.nv, (z k - x k) ^ 2 ≤
        env.regularization * ∑ k ∈ range r.nv, z k ^ 2 + (tasks.map fun t => taskCost s.robot t z).sum := by
  obtain ⟨ha, hm⟩ := C96 env D.sound D.optimal D.reg.le r D.layout D.size tasks true s s' x hv (D.tasksFit _) h
  refine mix_limit _ _ _ (mul_nonneg D.reg.le (Finset.sum_nonneg fun k _ => sq_nonneg _)) fun τ h0 h1 => ?_
  have hadm : Admissible r tasks s s'.hasScaling (fun k => x k + τ * (z k - x k)) s'.scale := by
    refine ⟨fun t ht M hM i hi => ⟨fun hp => ?_, fun hp => absurd hp (D.scaled t ht)⟩, ha.scale, fun d hd => ?_, fun hb k hk => ?_,
      fun hj i hi => ?_, fun hb => ?_⟩
    · rw [app_mix, (ha.tasks t ht M hM i hi).1 hp, hz.hard t ht hp M hM i hi]
      ring
    · rw [ha.masked d hd, hz.masked d hd]; ring
    · rw [ha.fbase hb k hk, hz.fbase hb k hk]; ring
    · have e1 := ha.joint hj i hi
      have e2 := hz.joint hj i hi
      unfold jointPos at e2
      constructor <;> nlinarith
    · rw [hvel] at hb; cases hb
  have hcost := hm _ _ hadm
  unfold ikCost at hcost
  have hcv := cost_convex tasks s.robot D.weights τ h0.le h1 x z
  have hsq : ∑ k ∈ range r.nv, (x k + τ * (z k - x k)) ^ 2 = (1 - τ) * ∑ k ∈ range r.nv, x k ^ 2 + τ * ∑ k ∈ range r.nv, z k ^ 2 -
      τ * (1 - τ) * ∑ k ∈ range r.nv, (z k - x k) ^ 2 := by
    rw [Finset.mul_sum, Finset.mul_sum, Finset.mul_sum, ← Finset.sum_add_distrib, ← Finset.sum_sub_distrib]
    exact Finset.sum_congr rfl fun k _ => by ring
  rw [hsq] at hcost
  refine le_of_mul_le_mul_left ?_ h0
  generalize (tasks.map fun t => taskCost s.robot t x).sum = fx at *
  generalize (tasks.map fun t => taskCost s.robot t z).sum = fz at *
  generalize (tasks.map fun t => taskCost s.robot t fun k => x k + τ * (z k - x k)).sum = fm at *
  generalize ∑ k ∈ range r.nv, x k ^ 2 = nx at *
  generalize ∑ k ∈ range r.nv, z k ^ 2 = nz at *
  generalize ∑ k ∈ range r.nv, (z k - x k) ^ 2 = nd at *
  nlinarith

/-- What is left of the displacement after a solve. -/
theorem rest_step {env : QPEnv K} {r : Robot K} {tasks : List (Task K)} (D : Descends env r tasks) (C : ConstantJacobians r tasks)
    (s s' : KState K) (x z : Nat → K)
    (hv : VarsOK r.nv s.prob s.qdVar s.scaleVar) (h : solve env r tasks [] true s = (s', .ok x)) (hz : Allowed r tasks s z) :
    Allowed r tasks s' (fun k => z k - x k) ∧
    (tasks.map fun t => taskCost s'.robot t fun k => z k - x k).sum = (tasks.map fun t => taskCost s.robot t z).sum ∧
    (tasks.map fun t => taskCost s.robot t x).sum = weightedError tasks s'.robot := by
  obtain ⟨ha, -⟩ := C96 env D.sound D.optimal D.reg.le r D.layout D.size tasks true s s' x hv (D.tasksFit _) h
  obtain ⟨-, hc, -⟩ := solve_spec' env r tasks [] true s hv (fun t ht M hM => (D.tasksFit _ t ht M hM).2)
  rw [h] at hc
  obtain ⟨-, -, h3⟩ := C56 env r tasks [] true _ s' _ h
  obtain ⟨hq, -⟩ := h3 x rfl rfl
  refine ⟨⟨fun t ht hp M' hM' i hi => ?_, fun d hd => ?_, fun hb k hk => ?_, fun hj i hi => ?_⟩, ?_,
    cost_next r tasks D.linear s.robot s'.robot x (fun t ht => (D.fit s.robot t ht).imp fun _ h => h.1) hq⟩
  · obtain ⟨M, hM, -⟩ := D.fit s.robot t ht
    obtain ⟨M1, hM1, hr, hb⟩ := D.linear t ht s.robot s'.robot x M hq hM
    rw [hM'] at hM1
    injection hM1 with e
    subst e
    rw [C t ht s.robot s'.robot x M M' hq hM hM' _ i (by omega), app_minus, hb i (by omega), hz.hard t ht hp M hM i (by omega)]
  · rw [show s'.maskedDof = s.maskedDof from hc.maskedDof] at hd
    show z d - x d = 0
    rw [hz.masked d hd, ha.masked d hd, sub_self]
  · rw [show s'.maskedFbase = s.maskedFbase from hc.maskedFbase] at hb
    show z k - x k = 0
    rw [hz.fbase hb k hk, ha.fbase hb k hk, sub_self]
  · rw [show s'.jointLimits = s.jointLimits from hc.jointLimits] at hj
    have e := hz.joint hj i hi
    have e2 : jointPos r s' i = jointPos r s i + x (6 + i) := by
      unfold jointPos
      rw [hq]; exact D.integrate _ _ i hi
    rw [e2]
    constructor <;> linarith
  · refine congrArg List.sum (List.map_congr_left fun t ht => ?_)
    obtain ⟨M, hM, -⟩ := D.fit s.robot t ht
    obtain ⟨M', hM', hr, hb⟩ := D.linear t ht s.robot s'.robot x M hq hM
    unfold taskCost
    rw [hM, hM']
    dsimp only
    rw [hr]
    split
    · refine Finset.sum_congr rfl fun i hi => ?_
      have hi := Finset.mem_range.1 hi
      rw [C t ht s.robot s'.robot x M M' hq hM hM' _ i hi, app_minus, hb i hi]
      ring
    · rfl

/-- After a solve that succeeds, the hard tasks are met and the robot is inside its limits. -/
theorem solved_good {env : QPEnv K} {r : Robot K} {tasks : List (Task K)} (D : Descends env r tasks) (s s' : KState K) (x : Nat → K)
    (hv : VarsOK r.nv s.prob s.qdVar s.scaleVar) (hvel : s.velocityLimits = false)
    (h : solve env r tasks [] true s = (s', .ok x)) : Good r tasks s' := by
  obtain ⟨ha, -⟩ := C96 env D.sound D.optimal D.reg.le r D.layout D.size tasks true s s' x hv (D.tasksFit _) h
  obtain ⟨hv', hc, -⟩ := solve_spec' env r tasks [] true s hv (fun t ht M hM => (D.tasksFit _ t ht M hM).2)
  rw [h] at hv' hc
  obtain ⟨-, -, h3⟩ := C56 env r tasks [] true _ s' _ h
  obtain ⟨hq, -⟩ := h3 x rfl rfl
  refine ⟨hv', fun t ht hp M' hM' i hi => ?_, fun hj i hi => ?_, fun hb => ?_⟩
  · obtain ⟨M, hM, -⟩ := D.fit s.robot t ht
    obtain ⟨M1, hM1, hr, hb⟩ := D.linear t ht s.robot s'.robot x M hq hM
    rw [hM'] at hM1
    injection hM1 with e
    subst e
    rw [hb i (by omega), (ha.tasks t ht M hM i (by omega)).1 hp, sub_self]
  · rw [show s'.jointLimits = s.jointLimits from hc.jointLimits] at hj
    have e := ha.joint hj i hi
    have e2 : s'.robot.q (r.nq - (r.nv - 6) + i) = s.robot.q (r.nq - (r.nv - 6) + i) + x (6 + i) := by
      rw [hq]; exact D.integrate _ _ i hi
    rw [e2]
    exact ⟨e.2, e.1⟩
  · rw [show s'.velocityLimits = s.velocityLimits from hc.velocityLimits, hvel] at hb
    cases hb

omit [IsStrictOrderedRing K] in
theorem iter_split (env : QPEnv K) (r : Robot K) (tasks : List (Task K)) (n : Nat) (s : KState K) (x : Nat → K) 
    (h : (solve env r tasks [] true (iterSolve env r tasks n s)).2 = .ok x) :
    solve env r tasks [] true (iterSolve env r tasks n s) = (iterSolve env r tasks (n + 1) s, .ok x) := by
  rw [iter_succ, ← h]

theorem best_sum {env : QPEnv K} {r : Robot K} {tasks : List (Task K)} (D : Descends env r tasks) (C : ConstantJacobians r tasks)
    (s : KState K) (hv : VarsOK r.nv s.prob s.qdVar s.scaleVar) (hvel : s.velocityLimits = false) (y : Nat → K) (hy : Allowed r tasks s y)
    (n : Nat) (hs : AllSolved env r tasks n s) :
    ∃ z, Allowed r tasks (iterSolve env r tasks n s) z ∧
      (tasks.map fun t => taskCost (iterSolve env r tasks n s).robot t z).sum = (tasks.map fun t => taskCost s.robot t y).sum ∧
      ∑ k ∈ range n, (weightedError tasks (iterSolve env r tasks (k + 1) s).robot - (tasks.map fun t => taskCost s.robot t y).sum) +
        env.regularization * ∑ k ∈ range r.nv, z k ^ 2 ≤ env.regularization * ∑ k ∈ range r.nv, y k ^ 2 := by
  induction n with
  | zero => exact ⟨y, hy, rfl, by simp⟩
  | succ n ih =>
    obtain ⟨z, h1, h2, h3⟩ := ih fun k hk => hs k (by omega)
    obtain ⟨x, hx⟩ := hs n (by omega)
    obtain ⟨hv', hc⟩ := iter_config env r tasks (fun rs t ht M hM => (D.tasksFit rs t ht M hM).2) s hv n
    have hsol := iter_split env r tasks n s x hx
    have hvel' : (iterSolve env r tasks n s).velocityLimits = false := by rw [hc.velocityLimits]; exact hvel
    have t3 := three_points D _ _ x z hv' hvel' hsol h1
    obtain ⟨r1, r2, r3⟩ := rest_step D C _ _ x z hv' hsol h1
    refine ⟨_, r1, r2.trans h2, ?_⟩
    rw [Finset.sum_range_succ]
    rw [r3, h2] at t3
    have := mul_nonneg D.reg.le (Finset.sum_nonneg (s := range r.nv) fun k _ => sq_nonneg (x k))
    linarith

theorem iter_antitone {env : QPEnv K} {r : Robot K} {tasks : List (Task K)} (D : Descends env r tasks) (s : KState K) (m n : Nat) (hmn : m ≤ n)
    (g : Good r tasks (iterSolve env r tasks m s)) :
    weightedError tasks (iterSolve env r tasks n s).robot ≤ weightedError tasks (iterSolve env r tasks m s).robot := by
  have key : ∀ d, Good r tasks (iterSolve env r tasks (m + d) s) ∧
      weightedError tasks (iterSolve env r tasks (m + d) s).robot ≤ weightedError tasks (iterSolve env r tasks m s).robot := by
    intro d
    induction d with
    | zero => exact ⟨g, le_refl _⟩
    | succ d ih =>
      obtain ⟨h1, h2⟩ := descent_step D _ ih.1
      rw [← add_assoc, iter_succ]
      refine ⟨h1, ?_⟩
      have := mul_nonneg D.reg.le (Finset.sum_nonneg (s := range (r.nv - 6)) fun i _ =>
        sq_nonneg (jointPos r (solve env r tasks [] true (iterSolve env r tasks (m + d) s)).1 i - jointPos r (iterSolve env r tasks (m + d) s) i))
      linarith [ih.2]
  have := (key (n - m)).2
  rwa [show m + (n - m) = n by omega] at this

/-- **C203.** Soft and hard tasks, linear in the configuration, velocity limits disabled. After `n` solves that succeed, the weighted error
of the soft tasks exceeds the one at any configuration `goal` that the hard tasks, the masks and the joint limits allow by at most the
regularization times the square of the distance to `goal`, divided by `n`. The robot may start outside its limits, and with hard tasks
that are not met. -/
theorem C203 {env : QPEnv K} {r : Robot K} {tasks : List (Task K)} (D : Descends env r tasks) (C : ConstantJacobians r tasks)
    (s : KState K) (hv : VarsOK r.nv s.prob s.qdVar s.scaleVar) (hvel : s.velocityLimits = false) (y : Nat → K) (hy : Allowed r tasks s y)
    (goal : RState K) (hg : goal.q = r.integrate s.robot.q y) (n : Nat) (hs : AllSolved env r tasks n s) :
    n * (weightedError tasks (iterSolve env r tasks n s).robot - weightedError tasks goal) ≤
      env.regularization * ∑ k ∈ range r.nv, y k ^ 2 := by
  obtain ⟨z, -, -, h3⟩ := best_sum D C s hv hvel y hy n hs
  rw [cost_next r tasks D.linear s.robot goal y (fun t ht => (D.fit s.robot t ht).imp fun _ h => h.1) hg] at h3
  have hz := mul_nonneg D.reg.le (Finset.sum_nonneg (s := range r.nv) fun k _ => sq_nonneg (z k))
  have hsum : n * (weightedError tasks (iterSolve env r tasks n s).robot - weightedError tasks goal) ≤
      ∑ k ∈ range n, (weightedError tasks (iterSolve env r tasks (k + 1) s).robot - weightedError tasks goal) := by
    calc _ = ∑ k ∈ range n, (weightedError tasks (iterSolve env r tasks n s).robot - weightedError tasks goal) := by
          rw [Finset.sum_const, Finset.card_range, nsmul_eq_mul]
      _ ≤ _ := by
        refine Finset.sum_le_sum fun k hk => ?_
        have hk := Finset.mem_range.1 hk
        obtain ⟨x, hx⟩ := hs k hk
        obtain ⟨hv', hc⟩ := iter_config env r tasks (fun rs t ht M hM => (D.tasksFit rs t ht M hM).2) s hv k
        have g := solved_good D _ _ x hv' (by rw [hc.velocityLimits]; exact hvel) (iter_split env r tasks k s x hx)
        have := iter_antitone D s (k + 1) n hk g
        linarith
  linarith

end

/-- The hard requirements stay independent from one solve to the next. -/
theorem hardFree_next {r : Robot ℝ} {tasks : List (Task ℝ)} (hsc : ∀ t ∈ tasks, t.priority ≠ .scaled) (C : ConstantJacobians r tasks)
    (hlin : LinearTasks r tasks) (hok : ∀ rs, ∀ t ∈ tasks, ∃ M, t.update rs = .ok M)
    (rs rs' : RState ℝ) (x : Nat → ℝ) (hq : rs'.q = r.integrate rs.q x) (masked : List Nat) (b : Bool)
    (h : HardFree rs tasks masked b) : HardFree rs' tasks masked b := by
  intro l u u' hl
  obtain ⟨y, σ, h1, h2, h3⟩ := h l u u' hl
  refine ⟨y, σ, fun q hq' M' hM' i hi => ?_, h2, h3⟩
  have ht : q.1 ∈ tasks := by rw [← hl]; exact List.mem_map.2 ⟨q, hq', rfl⟩
  obtain ⟨M, hM⟩ := hok rs q.1 ht
  obtain ⟨M1, hM1, hr, -⟩ := hlin q.1 ht rs rs' x M hq hM
  rw [hM'] at hM1
  injection hM1 with e
  subst e
  refine ⟨fun hp => ?_, fun hp => absurd hp (hsc q.1 ht)⟩
  have e1 := C q.1 ht rs rs' x M M' hq hM hM' y i (by omega)
  have e2 := (h1 q hq' M hM i (by omega)).1 hp
  unfold TaskMat.app at e1
  rw [e1]
  exact e2

/-- **C203 (solves succeed).** With exact external solvers, if some configuration is allowed and the hard requirements are independent (or
`rewrite_equalities` is disabled), every solve succeeds. -/
theorem C203_solved {env : QPEnv ℝ} {r : Robot ℝ} {tasks : List (Task ℝ)} (D : Descends env r tasks) (C : ConstantJacobians r tasks)
    (hex : env.Exact) (htol : 0 ≤ env.tol) (hn : 6 < r.nv)
    (s : KState ℝ) (hv : VarsOK r.nv s.prob s.qdVar s.scaleVar) (hvel : s.velocityLimits = false)
    (hmask : s.maskedDof.Nodup ∧ ∀ d ∈ s.maskedDof, d < r.nv)
    (hfree : env.rewriteEqualities = true → HardFree s.robot tasks s.maskedDof s.maskedFbase)
    (y : Nat → ℝ) (hy : Allowed r tasks s y) (n : Nat) :
    AllSolved env r tasks n s ∧ (env.rewriteEqualities = true → HardFree (iterSolve env r tasks n s).robot tasks s.maskedDof s.maskedFbase) := by
  induction n with
  | zero => exact ⟨fun k hk => absurd hk (Nat.not_lt_zero k), hfree⟩
  | succ n ih =>
    obtain ⟨z, hz, -, -⟩ := best_sum D C s hv hvel y hy n ih.1
    obtain ⟨hv', hc⟩ := iter_config env r tasks (fun rs t ht M hM => (D.tasksFit rs t ht M hM).2) s hv n
    have hvel' : (iterSolve env r tasks n s).velocityLimits = false := by rw [hc.velocityLimits]; exact hvel
    have hok : ∃ x, (solve env r tasks [] true (iterSolve env r tasks n s)).2 = .ok x := by
      refine (C165_partial env r D.layout D.size hn tasks true _ hv' (D.fit _) D.weights D.reg htol hex ?_ ?_ ?_).1.2 ⟨z, 0, ?_⟩
      · rw [hc.maskedDof]; exact hmask
      · rw [hvel']; rintro ⟨h, -⟩; cases h
      · rw [hc.maskedDof, hc.maskedFbase]; exact ih.2
      · refine ⟨fun t ht M hM i hi => ⟨fun hp => hz.hard t ht hp M hM i hi, fun hp => absurd hp (D.scaled t ht)⟩,
          fun _ => ⟨le_refl _, zero_le_one⟩, hz.masked, hz.fbase, fun hj i hi => ⟨(hz.joint hj i hi).2, (hz.joint hj i hi).1⟩, fun h => ?_⟩
        rw [hvel'] at h; cases h
    refine ⟨fun k hk => ?_, fun hre => ?_⟩
    · rcases Nat.lt_succ_iff_lt_or_eq.1 hk with h | rfl
      · exact ih.1 k h
      · exact hok
    · obtain ⟨x, hx⟩ := hok
      obtain ⟨-, -, h3⟩ := C56 env r tasks [] true _ _ _ (iter_split env r tasks n s x hx)
      exact hardFree_next D.scaled C D.linear (fun rs t ht => (D.fit rs t ht).imp fun _ h => h.1) _ _ x (h3 x rfl rfl).1 _ _ (ih.2 hre)

/-- **C203 (limit).** The weighted error gets as close as wanted to that of any allowed configuration, or below it: repeated solves reach
the best compromise between the tasks. -/
theorem C203_best {env : QPEnv ℝ} {r : Robot ℝ} {tasks : List (Task ℝ)} (D : Descends env r tasks) (C : ConstantJacobians r tasks)
    (hex : env.Exact) (htol : 0 ≤ env.tol) (hn : 6 < r.nv)
    (s : KState ℝ) (hv : VarsOK r.nv s.prob s.qdVar s.scaleVar) (hvel : s.velocityLimits = false)
    (hmask : s.maskedDof.Nodup ∧ ∀ d ∈ s.maskedDof, d < r.nv)
    (hfree : env.rewriteEqualities = true → HardFree s.robot tasks s.maskedDof s.maskedFbase)
    (y : Nat → ℝ) (hy : Allowed r tasks s y) (goal : RState ℝ) (hg : goal.q = r.integrate s.robot.q y) (ε : ℝ) (hε : 0 < ε) :
    ∃ N, ∀ n, N ≤ n → weightedError tasks (iterSolve env r tasks n s).robot < weightedError tasks goal + ε := by
  obtain ⟨N, hN⟩ := exists_nat_gt (env.regularization * (∑ k ∈ range r.nv, y k ^ 2) / ε)
  refine ⟨N, fun n hn' => ?_⟩
  have h1 := C203 D C s hv hvel y hy goal hg n (C203_solved D C hex htol hn s hv hvel hmask hfree y hy n).1
  have h0 : 0 ≤ env.regularization * (∑ k ∈ range r.nv, y k ^ 2) / ε :=
    div_nonneg (mul_nonneg D.reg.le (Finset.sum_nonneg fun k _ => sq_nonneg _)) hε.le
  have h2 : env.regularization * (∑ k ∈ range r.nv, y k ^ 2) < N * ε := (div_lt_iff₀ hε).1 hN
  have h3 : (N : ℝ) ≤ n := by exact_mod_cast hn'
  have h4 : (0 : ℝ) < n := by linarith
  by_contra hc
  have h5 : ε ≤ weightedError tasks (iterSolve env r tasks n s).robot - weightedError tasks goal := by linarith
  have h6 := mul_le_mul_of_nonneg_left h5 h4.le
  have h7 := mul_le_mul_of_nonneg_right h3 hε.le
  linarith

/-! ## Concrete case -/

theorem hinge_error (rs : RState ℝ) : weightedError [hingeGoal, hingeOther] rs = (1 / 2 - rs.q 7) ^ 2 + 3 * (-1 / 2 - rs.q 7) ^ 2 := by
  simp [weightedError, hingeGoal, hingeOther, jointsUpdate, jointsRow, hinge_find, bind, Except.bind, pure, Except.pure]

/-- With exact solvers and the default settings, a hinge pulled towards 1/2 and, three times as much, towards -1/2: the weighted error
tends to 3/4, its value at -1/4. -/
example : ∃ env : QPEnv ℝ, env.Exact ∧ ∀ ε, 0 < ε → ∃ N, ∀ n, N ≤ n →
    weightedError [hingeGoal, hingeOther] (iterSolve env hingeRobot [hingeGoal, hingeOther] n hingeState).robot < 3 / 4 + ε := by
  obtain ⟨env, hex, hS, hO, hreg, -, -, htol⟩ := exact_env_exists 1 0 0 true
  have D := hinge_descends env hS hO (by rw [hreg]; exact one_pos)
  have C : ConstantJacobians hingeRobot [hingeGoal, hingeOther] := by
    intro t ht rs rs' dq M M' _ hM hM'
    rcases hinge_both t ht with rfl | rfl
    · exact (C202_joints hingeRobot hinge_integrate _ (hinge_target (1 / 2)) hingeGoal rfl).2.2.2 rs rs' M M' hM hM'
    · exact (C202_joints hingeRobot hinge_integrate _ (hinge_target (-1 / 2)) hingeOther rfl).2.2.2 rs rs' M M' hM hM'
  refine ⟨env, hex, fun ε hε => ?_⟩
  have key := C203_best D C hex (by rw [htol]) (by decide) hingeState (.inl ⟨rfl, rfl, rfl⟩) rfl ⟨List.nodup_nil, fun d hd => by cases hd⟩
    (fun _ => hardFree_soft _ _ _ _ (fun t ht => by rcases hinge_both t ht with rfl | rfl <;> rfl) fun h => by cases h)
    (fun _ => -1 / 4) ⟨fun t ht hp => (by rcases hinge_both t ht with rfl | rfl <;> cases hp), fun d hd => (by cases hd), fun h => (by cases h),
      fun _ i _ => by constructor <;> norm_num [jointPos, hingeRobot, hingeState]⟩
    ⟨hingeRobot.integrate hingeState.robot.q fun _ => -1 / 4, fun _ => 0, fun _ => 0⟩ rfl ε hε
  obtain ⟨N, hN⟩ := key
  refine ⟨N, fun n hn => ?_⟩
  have := hN n hn
  have e : hingeRobot.integrate hingeState.robot.q (fun _ => -1 / 4) 7 = -1 / 4 := by simp [hingeRobot, hingeState]
  have e2 := hinge_error ⟨hingeRobot.integrate hingeState.robot.q fun _ => -1 / 4, fun _ => 0, fun _ => 0⟩
  dsimp only at e2
  rw [e] at e2
  linarith

end Verif.Kinematics
