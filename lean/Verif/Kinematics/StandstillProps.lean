/-
C201: a robot that is where its tasks want it does not move, and when inverse kinematics stops moving.
-/
import Verif.Kinematics.LoopProps
import Verif.Kinematics.TotalProps

namespace Verif.Kinematics
open Finset Verif.Problem

/-! ## Specification -/

/-- Every task has reached its target: nothing is asked of the step. -/
def AtTargets {K : Type} [Field K] (tasks : List (Task K)) (robot : RState K) : Prop :=
  ∀ t ∈ tasks, ∀ M, t.update robot = .ok M → ∀ i, i < M.rows → M.b i = 0

/-- The robot is inside the limits that are enabled. -/
structure Within {K : Type} [Field K] [LinearOrder K] (r : Robot K) (s : KState K) : Prop where
  joint : s.jointLimits = true → ∀ i, i < r.nv - 6 → r.lower (r.nq - (r.nv - 6) + i) ≤ s.robot.q (r.nq - (r.nv - 6) + i) ∧
    s.robot.q (r.nq - (r.nv - 6) + i) ≤ r.upper (r.nq - (r.nv - 6) + i)
  velocity : s.velocityLimits = true → ∀ i, i < r.nv - 6 → 0 ≤ s.dt * r.vlim (6 + i)

/-- The robot is strictly inside the limits that are enabled, and nothing is masked. -/
structure Free {K : Type} [Field K] [LinearOrder K] (r : Robot K) (s : KState K) : Prop where
  dofs : s.maskedDof = []
  base : s.maskedFbase = false
  joint : s.jointLimits = true → ∀ i, i < r.nv - 6 → r.lower (r.nq - (r.nv - 6) + i) < s.robot.q (r.nq - (r.nv - 6) + i) ∧
    s.robot.q (r.nq - (r.nv - 6) + i) < r.upper (r.nq - (r.nv - 6) + i)
  velocity : s.velocityLimits = true → ∀ i, i < r.nv - 6 → 0 < s.dt * r.vlim (6 + i)

/-- The slope of the weighted squared error of the tasks in the direction `y`, up to a factor -2: the sum of `w b · A y`. -/
def pull {K : Type} [Field K] (tasks : List (Task K)) (robot : RState K) (y : Nat → K) : K :=
  (tasks.map fun t => match t.update robot with
    | .error _ => 0
    | .ok M => t.weight * ∑ i ∈ range M.rows, M.b i * M.app y i).sum

/-! ## Proof -/

variable {K : Type} [Field K] [LinearOrder K] [IsStrictOrderedRing K]

omit [LinearOrder K] [IsStrictOrderedRing K] in
theorem app_zero (M : TaskMat K) (i : Nat) : M.app (fun _ => 0) i = 0 := by simp [TaskMat.app]

theorem still_admissible (r : Robot K) (tasks : List (Task K)) (s : KState K) (scaling : Bool) (σ : K)
    (hσ : scaling = true → 0 ≤ σ ∧ σ ≤ 1)
    (ht : ∀ t ∈ tasks, t.priority ≠ .soft → ∀ M, t.update s.robot = .ok M → ∀ i, i < M.rows → M.b i = 0) (hw : Within r s) :
    Admissible r tasks s scaling (fun _ => 0) σ := by
  refine ⟨fun t ht' M hM i hi => ⟨fun hp => ?_, fun hp => ?_⟩, hσ, fun _ _ => rfl, fun _ _ _ => rfl, fun h i hi => ?_, fun h i hi => ?_⟩
  · rw [app_zero, ht t ht' (by rw [hp]; decide) M hM i hi]
  · rw [app_zero, ht t ht' (by rw [hp]; decide) M hM i hi, mul_zero]
  · have := hw.joint h i hi
    simpa using ⟨this.2, this.1⟩
  · have := hw.velocity h i hi
    constructor <;> linarith

omit [LinearOrder K] [IsStrictOrderedRing K] in
theorem cost_still (tasks : List (Task K)) (robot : RState K) (ht : AtTargets tasks robot) :
    (tasks.map fun t => taskCost robot t fun _ => 0).sum = 0 := by
  refine List.sum_eq_zero fun x hx => ?_
  obtain ⟨t, htm, rfl⟩ := List.mem_map.1 hx
  unfold taskCost
  cases hM : t.update robot with
  | error e => rfl
  | ok M =>
    dsimp only
    split
    · refine Finset.sum_eq_zero fun i hi => ?_
      rw [app_zero, ht t htm M hM i (Finset.mem_range.1 hi)]
      ring
    · rfl

theorem cost_nonneg (tasks : List (Task K)) (robot : RState K) (hw : ∀ t ∈ tasks, t.priority = .soft → 0 ≤ t.weight) (x : Nat → K) :
    0 ≤ (tasks.map fun t => taskCost robot t x).sum := by
  refine List.sum_nonneg fun y hy => ?_
  obtain ⟨t, htm, rfl⟩ := List.mem_map.1 hy
  unfold taskCost
  cases t.update robot with
  | error e => exact le_refl _
  | ok M =>
    dsimp only
    split
    · rename_i hp
      exact Finset.sum_nonneg fun i _ => mul_nonneg (hw t htm hp) (sq_nonneg _)
    · exact le_refl _

/-- **C201 (one step).** If every task, soft, hard or scaled, has reached its target and the robot is inside the enabled limits, the
step that an optimal solver finds is null. -/
theorem C201_step (env : QPEnv K) (hS : env.Sound) (hO : env.Optimal) (hreg : 0 < env.regularization) (r : Robot K)
    (hL : r.Layout) (hsize : ∀ j ∈ r.joints, j.nV ≤ j.nQ) (tasks : List (Task K)) (hw : ∀ t ∈ tasks, t.priority = .soft → 0 ≤ t.weight)
    (apply : Bool) (s s' : KState K) (dq : Nat → K) (hv : VarsOK r.nv s.prob s.qdVar s.scaleVar)
    (hfit : ∀ t ∈ tasks, ∀ M, t.update s.robot = .ok M → 0 < M.cols ∧ M.cols ≤ r.nv)
    (ht : AtTargets tasks s.robot) (hin : Within r s)
    (h : solve env r tasks [] apply s = (s', .ok dq)) : ∀ k, k < r.nv → dq k = 0 := by
  obtain ⟨ha, hm⟩ := C96 env hS hO hreg.le r hL hsize tasks apply s s' dq hv hfit h
  have h0 := hm (fun _ => 0) s'.scale (still_admissible r tasks s _ _ ha.scale (fun t htm _ => ht t htm) hin)
  unfold ikCost at h0
  rw [cost_still tasks s.robot ht] at h0
  have h1 := cost_nonneg tasks s.robot hw dq
  have h2 : env.regularization * ∑ k ∈ range r.nv, dq k ^ 2 ≤ 0 := by
    simp only [ne_eq, OfNat.ofNat_ne_zero, not_false_eq_true, zero_pow, Finset.sum_const_zero] at h0
    linarith
  have h3 : ∑ k ∈ range r.nv, dq k ^ 2 ≤ 0 := by
    by_contra hc
    exact absurd h2 (not_le.mpr (mul_pos hreg (not_le.mp hc)))
  have h4 := (Finset.sum_eq_zero_iff_of_nonneg fun k _ => sq_nonneg (dq k)).1 (le_antisymm h3 (Finset.sum_nonneg fun k _ => sq_nonneg _))
  intro k hk
  exact pow_eq_zero_iff (by norm_num) |>.1 (h4 k (Finset.mem_range.2 hk))

/-- **C201 (for ever).** A robot at its targets stays there, for any number of solves, whether they succeed or raise. `hint`: integrating
a null step changes nothing (pinocchio). -/
theorem C201 (env : QPEnv K) (hS : env.Sound) (hO : env.Optimal) (hreg : 0 < env.regularization) (r : Robot K)
    (hL : r.Layout) (hsize : ∀ j ∈ r.joints, j.nV ≤ j.nQ) (hint : ∀ q v, (∀ k, k < r.nv → v k = 0) → r.integrate q v = q)
    (tasks : List (Task K)) (hw : ∀ t ∈ tasks, t.priority = .soft → 0 ≤ t.weight)
    (hfit : ∀ rs, ∀ t ∈ tasks, ∀ M, t.update rs = .ok M → 0 < M.cols ∧ M.cols ≤ r.nv) (s : KState K)
    (hv : VarsOK r.nv s.prob s.qdVar s.scaleVar)
    (ht : ∀ rs : RState K, rs.q = s.robot.q → AtTargets tasks rs) (hin : Within r s) (n : Nat) :
    (iterSolve env r tasks n s).robot.q = s.robot.q := by
  induction n with
  | zero => rfl
  | succ n ih =>
    obtain ⟨hv', hc⟩ := iter_config env r tasks (fun rs t ht M hM => (hfit rs t ht M hM).2) s hv n
    have e : iterSolve env r tasks (n + 1) s = (solve env r tasks [] true (iterSolve env r tasks n s)).1 := by
      unfold iterSolve
      rw [Function.iterate_succ_apply']
    rw [e]
    rcases hs : solve env r tasks [] true (iterSolve env r tasks n s) with ⟨s', res⟩
    obtain ⟨h1, -, h3⟩ := C56 env r tasks [] true _ s' res hs
    show s'.robot.q = _
    cases res with
    | error e => rw [h1 e rfl, ih]
    | ok dq =>
      have hin' : Within r (iterSolve env r tasks n s) :=
        ⟨fun h => by rw [ih]; exact hin.joint (by rw [← hc.jointLimits]; exact h),
          fun h => by rw [hc.dt]; exact hin.velocity (by rw [← hc.velocityLimits]; exact h)⟩
      have hz := C201_step env hS hO hreg r hL hsize tasks hw true _ s' dq hv' (hfit _) (ht _ ih) hin' hs
      rw [(h3 dq rfl rfl).1, hint _ _ hz, ih]

theorem sq_min {a b : K} (ha : 0 ≤ a) {ε : K} (hε : 0 < ε) (h : ∀ t, 0 < t → t ≤ ε → 2 * t * b ≤ t ^ 2 * a) : b ≤ 0 := by
  by_contra hb
  have hb : 0 < b := not_le.mp hb
  rcases ha.eq_or_lt with ha | ha
  · have := h ε hε (le_refl _)
    rw [← ha, mul_zero] at this
    have := mul_pos hε hb
    linarith
  · have ht : 0 < min ε (b / a) := lt_min hε (div_pos hb ha)
    have h1 := h _ ht (min_le_left _ _)
    have h2 : min ε (b / a) * a ≤ b := by
      calc min ε (b / a) * a ≤ b / a * a := mul_le_mul_of_nonneg_right (min_le_right _ _) ha.le
        _ = b := div_mul_cancel₀ _ ha.ne'
    have h3 : min ε (b / a) * (2 * b) ≤ min ε (b / a) * b := by nlinarith
    have := le_of_mul_le_mul_left h3 ht
    linarith

omit [LinearOrder K] [IsStrictOrderedRing K] in
theorem app_smul (M : TaskMat K) (τ : K) (y : Nat → K) (i : Nat) : M.app (fun k => τ * y k) i = τ * M.app y i := by
  unfold TaskMat.app
  rw [Finset.mul_sum]
  exact Finset.sum_congr rfl fun j _ => by ring

/-- The squared sizes of the images of a step by soft tasks. -/
def bend (tasks : List (Task K)) (robot : RState K) (y : Nat → K) : K :=
  (tasks.map fun t => match t.update robot with
    | .error _ => 0
    | .ok M => t.weight * ∑ i ∈ range M.rows, M.app y i ^ 2).sum

omit [LinearOrder K] [IsStrictOrderedRing K] in
theorem cost_expand (tasks : List (Task K)) (robot : RState K) (hs : ∀ t ∈ tasks, t.priority = .soft) (τ : K) (y : Nat → K) :
    (tasks.map fun t => taskCost robot t fun k => τ * y k).sum =
      (tasks.map fun t => taskCost robot t fun _ => 0).sum - 2 * τ * pull tasks robot y + τ ^ 2 * bend tasks robot y := by
  induction tasks with
  | nil => simp [pull, bend]
  | cons t l ih =>
    have ih := ih fun u hu => hs u (List.mem_cons_of_mem _ hu)
    have e : taskCost robot t (fun k => τ * y k) = taskCost robot t (fun _ => 0)
        - 2 * τ * (match t.update robot with
          | .error _ => 0
          | .ok M => t.weight * ∑ i ∈ range M.rows, M.b i * M.app y i)
        + τ ^ 2 * (match t.update robot with
          | .error _ => 0
          | .ok M => t.weight * ∑ i ∈ range M.rows, M.app y i ^ 2) := by
      unfold taskCost
      cases t.update robot with
      | error e => simp
      | ok M =>
        dsimp only
        rw [if_pos (hs t List.mem_cons_self), if_pos (hs t List.mem_cons_self), Finset.mul_sum, Finset.mul_sum, Finset.mul_sum, Finset.mul_sum,
          ← Finset.sum_sub_distrib, ← Finset.sum_add_distrib]
        refine Finset.sum_congr rfl fun i _ => ?_
        rw [app_smul, app_zero]
        ring
    rw [List.map_cons, List.sum_cons, ih, e, List.map_cons, List.sum_cons]
    unfold pull bend
    rw [List.map_cons, List.sum_cons, List.map_cons, List.sum_cons]
    ring

theorem bend_nonneg (tasks : List (Task K)) (robot : RState K) (hw : ∀ t ∈ tasks, 0 ≤ t.weight) (y : Nat → K) : 0 ≤ bend tasks robot y := by
  refine List.sum_nonneg fun x hx => ?_
  obtain ⟨t, htm, rfl⟩ := List.mem_map.1 hx
  cases t.update robot with
  | error e => exact le_refl _
  | ok M => exact mul_nonneg (hw t htm) (Finset.sum_nonneg fun i _ => sq_nonneg _)

omit [IsStrictOrderedRing K] in
/-- A positive number below finitely many positive numbers. -/
theorem small_exists [IsStrictOrderedRing K] (n : Nat) (f : Nat → K) (hf : ∀ i, i < n → 0 < f i) : ∃ ε, 0 < ε ∧ ∀ i, i < n → ε ≤ f i := by
  induction n with
  | zero => exact ⟨1, one_pos, fun i hi => absurd hi (Nat.not_lt_zero i)⟩
  | succ n ih =>
    obtain ⟨ε, h1, h2⟩ := ih fun i hi => hf i (Nat.lt_succ_of_lt hi)
    refine ⟨min ε (f n), lt_min h1 (hf n (Nat.lt_succ_self n)), fun i hi => ?_⟩
    rcases Nat.lt_succ_iff_lt_or_eq.1 hi with h | rfl
    · exact (min_le_left _ _).trans (h2 i h)
    · exact min_le_right _ _

theorem small_step (n : Nat) (y lo hi : Nat → K) (h : ∀ i, i < n → lo i < 0 ∧ 0 < hi i) :
    ∃ ε, 0 < ε ∧ ∀ τ, 0 < τ → τ ≤ ε → ∀ i, i < n → lo i ≤ τ * y i ∧ τ * y i ≤ hi i := by
  obtain ⟨ε, h1, h2⟩ := small_exists n (fun i => min (-lo i) (hi i) / (|y i| + 1)) fun i hi' =>
    div_pos (lt_min (by linarith [(h i hi').1]) (h i hi').2) (by have := abs_nonneg (y i); linarith)
  refine ⟨ε, h1, fun τ h3 h4 i hi' => ?_⟩
  have hp : 0 < |y i| + 1 := by have := abs_nonneg (y i); linarith
  have h5 : τ * (|y i| + 1) ≤ min (-lo i) (hi i) := (le_div_iff₀ hp).1 (h4.trans (h2 i hi'))
  have h6 : |τ * y i| ≤ τ * (|y i| + 1) := by
    rw [abs_mul, abs_of_pos h3]
    exact mul_le_mul_of_nonneg_left (by linarith) h3.le
  have h7 := abs_le.1 (h6.trans h5)
  have h8 := min_le_left (-lo i) (hi i)
  have h9 := min_le_right (-lo i) (hi i)
  exact ⟨by linarith [h7.1], by linarith [h7.2]⟩

/-- Small steps in any direction are admissible when nothing is masked and no limit is reached. -/
theorem free_admissible (r : Robot K) (tasks : List (Task K)) (s : KState K) (scaling : Bool) (σ : K) (hσ : scaling = true → 0 ≤ σ ∧ σ ≤ 1)
    (hs : ∀ t ∈ tasks, t.priority = .soft) (hf : Free r s) (y : Nat → K) :
    ∃ ε, 0 < ε ∧ ∀ τ, 0 < τ → τ ≤ ε → Admissible r tasks s scaling (fun k => τ * y k) σ := by
  obtain ⟨ε1, p1, h1⟩ : ∃ ε, 0 < ε ∧ ∀ τ, 0 < τ → τ ≤ ε → (s.jointLimits = true → ∀ i, i < r.nv - 6 →
      r.lower (r.nq - (r.nv - 6) + i) - s.robot.q (r.nq - (r.nv - 6) + i) ≤ τ * y (6 + i) ∧
      τ * y (6 + i) ≤ r.upper (r.nq - (r.nv - 6) + i) - s.robot.q (r.nq - (r.nv - 6) + i)) := by
    by_cases hj : s.jointLimits = true
    · obtain ⟨ε, p, h⟩ := small_step (r.nv - 6) (fun i => y (6 + i)) (fun i => r.lower (r.nq - (r.nv - 6) + i) - s.robot.q (r.nq - (r.nv - 6) + i))
        (fun i => r.upper (r.nq - (r.nv - 6) + i) - s.robot.q (r.nq - (r.nv - 6) + i)) fun i hi =>
        ⟨sub_neg.2 (hf.joint hj i hi).1, sub_pos.2 (hf.joint hj i hi).2⟩
      exact ⟨ε, p, fun τ h1 h2 _ => h τ h1 h2⟩
    · exact ⟨1, one_pos, fun _ _ _ h => absurd h hj⟩
  obtain ⟨ε2, p2, h2⟩ : ∃ ε, 0 < ε ∧ ∀ τ, 0 < τ → τ ≤ ε → (s.velocityLimits = true → ∀ i, i < r.nv - 6 →
      -(s.dt * r.vlim (6 + i)) ≤ τ * y (6 + i) ∧ τ * y (6 + i) ≤ s.dt * r.vlim (6 + i)) := by
    by_cases hj : s.velocityLimits = true
    · obtain ⟨ε, p, h⟩ := small_step (r.nv - 6) (fun i => y (6 + i)) (fun i => -(s.dt * r.vlim (6 + i)))
        (fun i => s.dt * r.vlim (6 + i)) fun i hi => ⟨neg_lt_zero.2 (hf.velocity hj i hi), hf.velocity hj i hi⟩
      exact ⟨ε, p, fun τ h1 h2 _ => h τ h1 h2⟩
    · exact ⟨1, one_pos, fun _ _ _ h => absurd h hj⟩
  refine ⟨min ε1 ε2, lt_min p1 p2, fun τ h3 h4 => ⟨fun t ht M hM i hi => ?_, hσ, fun d hd => ?_, fun h => ?_, fun h i hi => ?_, fun h i hi => ?_⟩⟩
  · constructor <;> intro h <;> rw [hs t ht] at h <;> cases h
  · rw [hf.dofs] at hd; cases hd
  · rw [hf.base] at h; cases h
  · have := h1 τ h3 (h4.trans (min_le_left _ _)) h i hi
    exact ⟨by linarith [this.2], by linarith [this.1]⟩
  · exact (h2 τ h3 (h4.trans (min_le_right _ _)) h i hi).symm

/-- **C201 (where it stops).** With soft tasks, nothing masked and no limit reached: the step found is null if and only if the weighted
errors of the tasks balance, that is no direction reduces the weighted squared error to first order. -/
theorem C201_exact (env : QPEnv K) (hS : env.Sound) (hO : env.Optimal) (hreg : 0 < env.regularization) (r : Robot K)
    (hL : r.Layout) (hsize : ∀ j ∈ r.joints, j.nV ≤ j.nQ) (tasks : List (Task K)) (hw : ∀ t ∈ tasks, t.priority = .soft ∧ 0 ≤ t.weight)
    (apply : Bool) (s s' : KState K) (dq : Nat → K) (hv : VarsOK r.nv s.prob s.qdVar s.scaleVar)
    (hfit : ∀ t ∈ tasks, ∀ M, t.update s.robot = .ok M → 0 < M.cols ∧ M.cols ≤ r.nv) (hf : Free r s)
    (h : solve env r tasks [] apply s = (s', .ok dq)) :
    (∀ k, k < r.nv → dq k = 0) ↔ ∀ y, pull tasks s.robot y = 0 := by
  obtain ⟨ha, hm⟩ := C96 env hS hO hreg.le r hL hsize tasks apply s s' dq hv hfit h
  have hs := fun t ht => (hw t ht).1
  have hb := bend_nonneg tasks s.robot fun t ht => (hw t ht).2
  constructor
  · intro hz
    have key : ∀ y, pull tasks s.robot y ≤ 0 := by
      intro y
      obtain ⟨ε, p, hε⟩ := free_admissible r tasks s s'.hasScaling s'.scale ha.scale hs hf y
      refine sq_min (a := env.regularization * ∑ k ∈ range r.nv, y k ^ 2 + bend tasks s.robot y)
        (add_nonneg (mul_nonneg hreg.le (Finset.sum_nonneg fun k _ => sq_nonneg _)) (hb y)) p fun τ h1 h2 => ?_
      have h3 := hm _ _ (hε τ h1 h2)
      unfold ikCost at h3
      rw [cost_expand tasks s.robot hs τ y] at h3
      have e1 : ∑ k ∈ range r.nv, dq k ^ 2 = 0 := Finset.sum_eq_zero fun k hk => by rw [hz k (Finset.mem_range.1 hk)]; ring
      have e2 : (tasks.map fun t => taskCost s.robot t dq).sum = (tasks.map fun t => taskCost s.robot t fun _ => 0).sum := by
        refine congrArg List.sum (List.map_congr_left fun t ht => ?_)
        exact taskCost_congr r.nv s.robot t (fun M hM => (hfit t ht M hM).2) _ _ hz
      have e3 : ∑ k ∈ range r.nv, (τ * y k) ^ 2 = τ ^ 2 * ∑ k ∈ range r.nv, y k ^ 2 := by
        rw [Finset.mul_sum]
        exact Finset.sum_congr rfl fun k _ => by ring
      rw [e1, e2, e3] at h3
      linarith
    intro y
    refine le_antisymm (key y) ?_
    have h1 := key fun k => -1 * y k
    have e : pull tasks s.robot (fun k => -1 * y k) = -1 * pull tasks s.robot y := by
      unfold pull
      rw [← List.sum_map_mul_left]
      refine congrArg List.sum (List.map_congr_left fun t _ => ?_)
      cases t.update s.robot with
      | error e => simp
      | ok M =>
        dsimp only
        rw [Finset.mul_sum, Finset.mul_sum, Finset.mul_sum]
        refine Finset.sum_congr rfl fun i _ => ?_
        rw [app_smul]
        ring
    rw [e] at h1
    linarith
  · intro hp
    have hin : Within r s := ⟨fun h i hi => ⟨(hf.joint h i hi).1.le, (hf.joint h i hi).2.le⟩, fun h i hi => (hf.velocity h i hi).le⟩
    have h0 := hm (fun _ => 0) s'.scale (still_admissible r tasks s _ _ ha.scale (fun t htm hn => absurd (hs t htm) hn) hin)
    have e := cost_expand tasks s.robot hs 1 dq
    have e1 : (tasks.map fun t => taskCost s.robot t fun k => 1 * dq k).sum = (tasks.map fun t => taskCost s.robot t dq).sum := by
      simp only [one_mul]
    rw [e1, hp dq] at e
    unfold ikCost at h0
    simp only [ne_eq, OfNat.ofNat_ne_zero, not_false_eq_true, zero_pow, Finset.sum_const_zero] at h0
    have h1 := hb dq
    have h2 : env.regularization * ∑ k ∈ range r.nv, dq k ^ 2 ≤ 0 := by linarith
    have h3 : ∑ k ∈ range r.nv, dq k ^ 2 ≤ 0 := by
      by_contra hc
      exact absurd h2 (not_le.mpr (mul_pos hreg (not_le.mp hc)))
    have h4 := (Finset.sum_eq_zero_iff_of_nonneg fun k _ => sq_nonneg (dq k)).1 (le_antisymm h3 (Finset.sum_nonneg fun k _ => sq_nonneg _))
    intro k hk
    exact pow_eq_zero_iff (by norm_num) |>.1 (h4 k (Finset.mem_range.2 hk))

/-! ## Concrete cases -/

/-- The hinge at its target 1/2. -/
noncomputable def hingeArrived : KState ℝ := { hingeState with robot := ⟨fun _ => 1 / 2, fun _ => 0, fun _ => 0⟩ }

theorem hingeGoal_mat (rs : RState ℝ) (M : TaskMat ℝ) (h : hingeGoal.update rs = .ok M) :
    M.rows = 1 ∧ M.cols = 7 ∧ M.b 0 = 1 / 2 - rs.q 7 := by
  simp only [hingeGoal, jointsUpdate, List.mapM_cons, List.mapM_nil, jointsRow, hinge_find, bind, Except.bind, pure, Except.pure] at h
  injection h with h
  subst h
  refine ⟨rfl, rfl, ?_⟩
  simp

/-- With exact solvers and the default settings, the hinge stays at its target, for ever. -/
example : ∃ env : QPEnv ℝ, env.Exact ∧ ∀ n, (iterSolve env hingeRobot [hingeGoal] n hingeArrived).robot.q = hingeArrived.robot.q := by
  obtain ⟨env, hex, hS, hO, hreg, hre, -, htol⟩ := exact_env_exists 1 0 0 true
  refine ⟨env, hex, fun n => C201 env hS hO (by rw [hreg]; exact one_pos) hingeRobot hinge_layout
    (fun j hj => by rw [List.mem_singleton.1 hj]) ?_ [hingeGoal] ?_ ?_ hingeArrived (.inl ⟨rfl, rfl, rfl⟩) ?_ ⟨fun _ i _ => ?_, fun h => by cases h⟩ n⟩
  · intro q v hv
    funext i
    show (if i = 7 then q 7 + v 6 else q i) = q i
    by_cases h : i = 7
    · subst h
      rw [if_pos rfl, hv 6 (by decide), add_zero]
    · rw [if_neg h]
  · intro t ht _
    rw [List.mem_singleton.1 ht]
    exact zero_le_one
  · intro rs t ht M hM
    rw [List.mem_singleton.1 ht] at hM
    rw [(hingeGoal_mat rs M hM).2.1]
    exact ⟨by decide, by decide⟩
  · intro rs hrs t ht M hM i hi
    rw [List.mem_singleton.1 ht] at hM
    obtain ⟨h1, -, h3⟩ := hingeGoal_mat rs M hM
    have : i = 0 := by omega
    rw [this, h3, hrs]
    show (1 / 2 : ℝ) - 1 / 2 = 0
    ring
  · constructor <;> norm_num [hingeRobot, hingeArrived]

/-- A soft task asking the hinge to move by `b`. -/
noncomputable def hingePull (b : ℝ) : Task ℝ := { hingeTask b with priority := .soft }

/-- Two tasks that ask for opposite steps balance, although none has reached its target. -/
example : (∀ y, pull [hingePull 1, hingePull (-1)] hingeState.robot y = 0) ∧ ¬ AtTargets [hingePull 1, hingePull (-1)] hingeState.robot ∧
    Free hingeRobot hingeState := by
  refine ⟨fun y => ?_, fun h => ?_, ⟨rfl, rfl, fun _ i _ => ?_, fun h => by cases h⟩⟩
  · simp [pull, hingePull, hingeTask, TaskMat.app]
  · have := h (hingePull 1) List.mem_cons_self _ rfl 0 (by decide)
    norm_num [hingePull, hingeTask] at this
  · constructor <;> norm_num [hingeRobot, hingeState]

end Verif.Kinematics
