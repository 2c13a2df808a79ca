/-
C203 with the velocity limits: the best compromise is reached as well.
-/
import Verif.Kinematics.BestProps
import Mathlib.Analysis.PSeries

namespace Verif.Kinematics
open Finset Verif.Problem

section
variable {K : Type} [Field K] [LinearOrder K] [IsStrictOrderedRing K]

/-- A solve does at least as well as any part of the displacement that the velocity limits allow. -/
theorem part_step {env : QPEnv K} {r : Robot K} {tasks : List (Task K)} (D : Descends env r tasks) (s s' : KState K) (x z : Nat → K)
    (g : Good r tasks s) (h : solve env r tasks [] true s = (s', .ok x)) (hz : Allowed r tasks s z) (τ : K) (h0 : 0 ≤ τ) (h1 : τ ≤ 1)
    (hvel : s.velocityLimits = true → ∀ i, i < r.nv - 6 → τ * |z (6 + i)| ≤ s.dt * r.vlim (6 + i)) :
    (tasks.map fun t => taskCost s.robot t x).sum + env.regularization * ∑ k ∈ range r.nv, x k ^ 2 ≤
      (1 - τ) * weightedError tasks s.robot + τ * (tasks.map fun t => taskCost s.robot t z).sum +
        env.regularization * (τ ^ 2 * ∑ k ∈ range r.nv, z k ^ 2) := by
  obtain ⟨ha, hm⟩ := C96 env D.sound D.optimal D.reg.le r D.layout D.size tasks true s s' x g.vars (D.tasksFit _) h
  have hadm : Admissible r tasks s s'.hasScaling (fun k => 0 + τ * (z k - 0)) s'.scale := by
    refine ⟨fun t ht M hM i hi => ⟨fun hp => ?_, fun hp => absurd hp (D.scaled t ht)⟩, ha.scale, fun d hd => ?_, fun hb k hk => ?_,
      fun hj i hi => ?_, fun hb i hi => ?_⟩
    · rw [app_mix M τ (fun _ => 0) z, app_zero, hz.hard t ht hp M hM i hi, g.hard t ht hp M hM i hi]
      ring
    · rw [hz.masked d hd]; ring
    · rw [hz.fbase hb k hk]; ring
    · have e1 := g.within.joint hj i hi
      have e2 := hz.joint hj i hi
      unfold jointPos at e2
      constructor <;> nlinarith
    · have e := hvel hb i hi
      have e2 : |τ * z (6 + i)| ≤ s.dt * r.vlim (6 + i) := by rw [abs_mul, abs_of_nonneg h0]; exact e
      have e3 := abs_le.1 e2
      constructor <;> linarith [e3.1, e3.2]
  have hcost := hm _ _ hadm
  unfold ikCost at hcost
  have hcv := cost_convex tasks s.robot D.weights τ h0 h1 (fun _ => 0) z
  rw [cost_at_zero] at hcv
  have hsq : ∑ k ∈ range r.nv, (0 + τ * (z k - 0)) ^ 2 = τ ^ 2 * ∑ k ∈ range r.nv, z k ^ 2 := by
    rw [Finset.mul_sum]
    exact Finset.sum_congr rfl fun k _ => by ring
  rw [hsq] at hcost
  linarith

theorem rest_bound {env : QPEnv K} {r : Robot K} {tasks : List (Task K)} (D : Descends env r tasks) (C : ConstantJacobians r tasks)
    (s : KState K) (g : Good r tasks s) (y : Nat → K) (hy : Allowed r tasks s y) (n : Nat) (hs : AllSolved env r tasks n s) :
    ∃ z, Allowed r tasks (iterSolve env r tasks n s) z ∧
      (tasks.map fun t => taskCost (iterSolve env r tasks n s).robot t z).sum = (tasks.map fun t => taskCost s.robot t y).sum ∧
      env.regularization * ∑ k ∈ range r.nv, (y k - z k) ^ 2 ≤
        n * (weightedError tasks s.robot - weightedError tasks (iterSolve env r tasks n s).robot) := by
  induction n with
  | zero => exact ⟨y, hy, rfl, by simp⟩
  | succ n ih =>
    obtain ⟨z, h1, h2, h3⟩ := ih fun k hk => hs k (by omega)
    obtain ⟨x, hx⟩ := hs n (by omega)
    have hg := iter_good D s g n
    have hsol := iter_split env r tasks n s x hx
    obtain ⟨r1, r2, r3⟩ := rest_step D C _ _ x z hg.vars hsol h1
    have p := part_step D _ _ x z hg hsol h1 0 (le_refl _) zero_le_one fun hb i hi => by
      rw [zero_mul]; exact hg.within.velocity hb i hi
    rw [r3] at p
    refine ⟨_, r1, r2.trans h2, ?_⟩
    have hfirst : n = 0 → weightedError tasks (iterSolve env r tasks n s).robot = weightedError tasks s.robot := by
      rintro rfl
      rfl
    generalize weightedError tasks s.robot = f0 at *
    generalize weightedError tasks (iterSolve env r tasks n s).robot = fn at *
    generalize weightedError tasks (iterSolve env r tasks (n + 1) s).robot = fm at *
    have p' : env.regularization * ∑ k ∈ range r.nv, x k ^ 2 ≤ fn - fm := by
      have e : env.regularization * ((0 : K) ^ 2 * ∑ k ∈ range r.nv, z k ^ 2) = 0 := by ring
      linarith
    rcases Nat.eq_zero_or_pos n with rfl | hn
    · have e0 : env.regularization * ∑ k ∈ range r.nv, (y k - z k) ^ 2 ≤ 0 := by simpa using h3
      have e1 : ∑ k ∈ range r.nv, (y k - z k) ^ 2 = 0 :=
        le_antisymm (nonpos_of_mul_nonpos_right e0 D.reg) (Finset.sum_nonneg fun k _ => sq_nonneg _)
      have e2 := (Finset.sum_eq_zero_iff_of_nonneg fun k _ => sq_nonneg _).1 e1
      have e3 : ∑ k ∈ range r.nv, (y k - (z k - x k)) ^ 2 = ∑ k ∈ range r.nv, x k ^ 2 := by
        refine Finset.sum_congr rfl fun k hk => ?_
        have := pow_eq_zero_iff (by norm_num) |>.1 (e2 k hk)
        rw [show y k - (z k - x k) = (y k - z k) + x k by ring, this, zero_add]
      rw [e3]
      have := hfirst rfl
      push_cast
      linarith
    · have hn' : (0 : K) < n := by exact_mod_cast hn
      have e : (n : K) * ∑ k ∈ range r.nv, (y k - (z k - x k)) ^ 2 ≤
          (n + 1) * ∑ k ∈ range r.nv, (y k - z k) ^ 2 + n * (n + 1) * ∑ k ∈ range r.nv, x k ^ 2 := by
        rw [Finset.mul_sum, Finset.mul_sum, Finset.mul_sum, ← Finset.sum_add_distrib]
        refine Finset.sum_le_sum fun k _ => ?_
        nlinarith [sq_nonneg ((y k - z k) - n * x k)]
      have e' := mul_le_mul_of_nonneg_left e D.reg.le
      have a1 := mul_le_mul_of_nonneg_left h3 (show (0 : K) ≤ n + 1 by linarith)
      have a2 := mul_le_mul_of_nonneg_left p' (show (0 : K) ≤ n * (n + 1) by positivity)
      refine le_of_mul_le_mul_left ?_ hn'
      push_cast
      generalize ∑ k ∈ range r.nv, (y k - (z k - x k)) ^ 2 = q1 at *
      generalize ∑ k ∈ range r.nv, (y k - z k) ^ 2 = q2 at *
      generalize ∑ k ∈ range r.nv, x k ^ 2 = q3 at *
      linarith

end

/-- **C203 (with velocity limits).** From a robot inside its limits whose hard tasks are met, with velocity limits that let every joint move
(or disabled): the weighted error gets as close as wanted to that of any allowed configuration, or below it. -/
theorem C203_velocity {env : QPEnv ℝ} {r : Robot ℝ} {tasks : List (Task ℝ)} (D : Descends env r tasks) (C : ConstantJacobians r tasks)
    (s : KState ℝ) (g : Good r tasks s) (hvel : s.velocityLimits = true → ∀ i, i < r.nv - 6 → 0 < s.dt * r.vlim (6 + i))
    (hs : ∀ n, AllSolved env r tasks n s)
    (y : Nat → ℝ) (hy : Allowed r tasks s y) (goal : RState ℝ) (hg : goal.q = r.integrate s.robot.q y) (ε : ℝ) (hε : 0 < ε) :
    ∃ N, ∀ n, N ≤ n → weightedError tasks (iterSolve env r tasks n s).robot < weightedError tasks goal + ε := by
  suffices hN : ∃ N, weightedError tasks (iterSolve env r tasks N s).robot < weightedError tasks goal + ε by
    obtain ⟨N, hN⟩ := hN
    exact ⟨N, fun n hn => lt_of_le_of_lt (iter_antitone D s N n hn (iter_good D s g N)) hN⟩
  by_contra hcon
  have hge : ∀ n, weightedError tasks goal + ε ≤ weightedError tasks (iterSolve env r tasks n s).robot :=
    fun n => not_lt.1 fun h => hcon ⟨n, h⟩
  have hgoal := cost_next r tasks D.linear s.robot goal y (fun t ht => (D.fit s.robot t ht).imp fun _ h => h.1) hg
  obtain ⟨V, hV0, hV⟩ : ∃ V, 0 < V ∧ (s.velocityLimits = true → ∀ i, i < r.nv - 6 → V ≤ s.dt * r.vlim (6 + i)) := by
    by_cases hb : s.velocityLimits = true
    · obtain ⟨V, h1, h2⟩ := small_exists (r.nv - 6) (fun i => s.dt * r.vlim (6 + i)) (hvel hb)
      exact ⟨V, h1, fun _ => h2⟩
    · exact ⟨1, one_pos, fun h => absurd h hb⟩
  set f0 := weightedError tasks s.robot with hf0
  have hf0n : 0 ≤ f0 := weightedError_nonneg tasks s.robot D.weights
  set Y := ∑ k ∈ range r.nv, y k ^ 2 with hY
  have hYn : 0 ≤ Y := Finset.sum_nonneg fun k _ => sq_nonneg _
  set B := 2 * Y + 2 * f0 / env.regularization with hB
  have hBn : 0 ≤ B := by
    have := div_nonneg (mul_nonneg zero_le_two hf0n) D.reg.le
    rw [hB]; linarith
  set c := min 1 (min (V / (1 + B)) (ε / (2 * (env.regularization * B + 1)))) with hc
  have hr := D.reg
  have hrB : 0 < 2 * (env.regularization * B + 1) := by have := mul_nonneg hr.le hBn; linarith
  have hc0 : 0 < c := lt_min one_pos (lt_min (div_pos hV0 (by linarith)) (div_pos hε hrB))
  have hc1 : c ≤ 1 := min_le_left _ _
  have hc2 : c * (1 + B) ≤ V := (le_div_iff₀ (by linarith)).1 ((min_le_right _ _).trans (min_le_left _ _))
  have hc3 : c * (2 * (env.regularization * B + 1)) ≤ ε := (le_div_iff₀ hrB).1 ((min_le_right _ _).trans (min_le_right _ _))
  have hstep : ∀ n : Nat, weightedError tasks (iterSolve env r tasks (n + 1) s).robot ≤
      weightedError tasks (iterSolve env r tasks n s).robot - c * ε / 2 * (1 / ((n : ℝ) + 1)) := by
    intro n
    obtain ⟨z, h1, h2, h3⟩ := rest_bound D C s g y hy n (hs n)
    obtain ⟨x, hx⟩ := hs (n + 1) n (by omega)
    have hg' := iter_good D s g n
    have hsol := iter_split env r tasks n s x hx
    obtain ⟨-, -, r3⟩ := rest_step D C _ _ x z hg'.vars hsol h1
    obtain ⟨-, hcfg⟩ := iter_config env r tasks (fun rs t ht M hM => (D.tasksFit rs t ht M hM).2) s g.vars n
    have hn1 : (0 : ℝ) < (n : ℝ) + 1 := by positivity
    have hfn := weightedError_nonneg tasks (iterSolve env r tasks n s).robot D.weights
    have hz : ∑ k ∈ range r.nv, z k ^ 2 ≤ B * ((n : ℝ) + 1) := by
      have e1 : ∑ k ∈ range r.nv, z k ^ 2 ≤ 2 * Y + 2 * ∑ k ∈ range r.nv, (y k - z k) ^ 2 := by
        rw [hY, Finset.mul_sum, Finset.mul_sum, ← Finset.sum_add_distrib]
        refine Finset.sum_le_sum fun k _ => ?_
        nlinarith [sq_nonneg (2 * y k - z k)]
      have e2 : ∑ k ∈ range r.nv, (y k - z k) ^ 2 ≤ n * f0 / env.regularization := by
        rw [le_div_iff₀ hr]
        have := mul_nonneg (Nat.cast_nonneg (α := ℝ) n) hfn
        nlinarith
      have e3 : B * ((n : ℝ) + 1) = 2 * Y + 2 * (n * f0 / env.regularization) + (2 * Y * n + 2 * f0 / env.regularization) := by
        rw [hB]; ring
      have e4 : 0 ≤ 2 * Y * n + 2 * f0 / env.regularization :=
        add_nonneg (mul_nonneg (mul_nonneg zero_le_two hYn) (Nat.cast_nonneg n)) (div_nonneg (mul_nonneg zero_le_two hf0n) hr.le)
      linarith
    have hτ0 : 0 ≤ c / ((n : ℝ) + 1) := (div_pos hc0 hn1).le
    have hτ1 : c / ((n : ℝ) + 1) ≤ 1 := by
      rw [div_le_one hn1]
      have := Nat.cast_nonneg (α := ℝ) n
      linarith
    have p := part_step D _ _ x z hg' hsol h1 (c / ((n : ℝ) + 1)) hτ0 hτ1 (by
      intro hb i hi
      rw [hcfg.velocityLimits] at hb
      rw [show (iterSolve env r tasks n s).dt = s.dt from hcfg.dt]
      refine le_trans ?_ (hV hb i hi)
      have hzi : |z (6 + i)| ≤ (1 + B) * ((n : ℝ) + 1) := by
        have e1 : z (6 + i) ^ 2 ≤ ∑ k ∈ range r.nv, z k ^ 2 :=
          Finset.single_le_sum (f := fun k => z k ^ 2) (fun k _ => sq_nonneg _) (Finset.mem_range.2 (by omega))
        have e2 : |z (6 + i)| ≤ 1 + z (6 + i) ^ 2 := by
          rw [← sq_abs]
          nlinarith [sq_nonneg (|z (6 + i)| - 1), abs_nonneg (z (6 + i))]
        have := Nat.cast_nonneg (α := ℝ) n
        nlinarith
      calc c / ((n : ℝ) + 1) * |z (6 + i)| ≤ c / ((n : ℝ) + 1) * ((1 + B) * ((n : ℝ) + 1)) := mul_le_mul_of_nonneg_left hzi hτ0
        _ = c * (1 + B) := by field_simp
        _ ≤ V := hc2)
    rw [r3, h2, hgoal] at p
    have hx0 := mul_nonneg hr.le (Finset.sum_nonneg (s := range r.nv) fun k _ => sq_nonneg (x k))
    have q : env.regularization * ((c / ((n : ℝ) + 1)) ^ 2 * ∑ k ∈ range r.nv, z k ^ 2) ≤ c / ((n : ℝ) + 1) * (ε / 2) := by
      calc env.regularization * ((c / ((n : ℝ) + 1)) ^ 2 * ∑ k ∈ range r.nv, z k ^ 2)
          ≤ env.regularization * ((c / ((n : ℝ) + 1)) ^ 2 * (B * ((n : ℝ) + 1))) :=
            mul_le_mul_of_nonneg_left (mul_le_mul_of_nonneg_left hz (sq_nonneg _)) hr.le
        _ = c / ((n : ℝ) + 1) * (c * (env.regularization * B)) := by field_simp
        _ ≤ c / ((n : ℝ) + 1) * (ε / 2) := mul_le_mul_of_nonneg_left (by linarith) hτ0
    have hgn := mul_le_mul_of_nonneg_left (hge n) hτ0
    have e5 : c * ε / 2 * (1 / ((n : ℝ) + 1)) = c / ((n : ℝ) + 1) * (ε / 2) := by ring
    rw [e5]
    linarith
  have hsum : ∀ n : Nat, weightedError tasks (iterSolve env r tasks n s).robot ≤
      f0 - c * ε / 2 * ∑ k ∈ range n, (1 / ((k : ℝ) + 1)) := by
    intro n
    induction n with
    | zero => simp [hf0, iterSolve]
    | succ n ih =>
      rw [Finset.sum_range_succ, mul_add]
      linarith [hstep n]
  obtain ⟨n, hn⟩ := (Filter.tendsto_atTop.1 Real.tendsto_sum_range_one_div_nat_succ_atTop (f0 / (c * ε / 2) + 1)).exists
  have h1 := hsum n
  have h2 := weightedError_nonneg tasks (iterSolve env r tasks n s).robot D.weights
  have hce : 0 < c * ε / 2 := by positivity
  have h3 := mul_le_mul_of_nonneg_left hn hce.le
  have h4 : c * ε / 2 * (f0 / (c * ε / 2) + 1) = f0 + c * ε / 2 := by field_simp
  linarith

/-- With exact external solvers and independent hard requirements, every solve succeeds, from a robot inside its limits whose hard tasks are
met. -/
theorem C203_velocity_solved {env : QPEnv ℝ} {r : Robot ℝ} {tasks : List (Task ℝ)} (D : Descends env r tasks) (C : ConstantJacobians r tasks)
    (hex : env.Exact) (htol : 0 ≤ env.tol) (hn : 6 < r.nv) (s : KState ℝ) (g : Good r tasks s)
    (hdt : s.velocityLimits = true → s.dt ≠ 0) (hmask : s.maskedDof.Nodup ∧ ∀ d ∈ s.maskedDof, d < r.nv)
    (hfree : env.rewriteEqualities = true → HardFree s.robot tasks s.maskedDof s.maskedFbase) (n : Nat) :
    AllSolved env r tasks n s ∧ (env.rewriteEqualities = true → HardFree (iterSolve env r tasks n s).robot tasks s.maskedDof s.maskedFbase) := by
  induction n with
  | zero => exact ⟨fun k hk => absurd hk (Nat.not_lt_zero k), hfree⟩
  | succ n ih =>
    have hg := iter_good D s g n
    obtain ⟨hv', hc⟩ := iter_config env r tasks (fun rs t ht M hM => (D.tasksFit rs t ht M hM).2) s g.vars n
    have hok : ∃ x, (solve env r tasks [] true (iterSolve env r tasks n s)).2 = .ok x := by
      refine (C165_partial env r D.layout D.size hn tasks true _ hv' (D.fit _) D.weights D.reg htol hex ?_ ?_ ?_).1.2
        (C165_standstill r tasks _ hg.hard hg.within.joint hg.within.velocity)
      · rw [hc.maskedDof]; exact hmask
      · rw [hc.velocityLimits, hc.dt]; exact fun h => hdt h.1 h.2
      · rw [hc.maskedDof, hc.maskedFbase]; exact ih.2
    refine ⟨fun k hk => ?_, fun hre => ?_⟩
    · rcases Nat.lt_succ_iff_lt_or_eq.1 hk with h | rfl
      · exact ih.1 k h
      · exact hok
    · obtain ⟨x, hx⟩ := hok
      obtain ⟨-, -, h3⟩ := C56 env r tasks [] true _ _ _ (iter_split env r tasks n s x hx)
      exact hardFree_next D.scaled C D.linear (fun rs t ht => (D.fit rs t ht).imp fun _ h => h.1) _ _ x (h3 x rfl rfl).1 _ _ (ih.2 hre)

/-- The hinge with velocity limits, and a period of 10 ms. -/
noncomputable def hingeSlow : KState ℝ := { hingeState with dt := 1 / 100, velocityLimits := true }

/-- The compromise of the example of `C203_best` is reached with the velocity limits as well. -/
example : ∃ env : QPEnv ℝ, env.Exact ∧ ∀ ε, 0 < ε → ∃ N, ∀ n, N ≤ n →
    weightedError [hingeGoal, hingeOther] (iterSolve env hingeRobot [hingeGoal, hingeOther] n hingeSlow).robot < 3 / 4 + ε := by
  obtain ⟨env, hex, hS, hO, hreg, -, -, htol⟩ := exact_env_exists 1 0 0 true
  have D := hinge_descends env hS hO (by rw [hreg]; exact one_pos)
  have C : ConstantJacobians hingeRobot [hingeGoal, hingeOther] := by
    intro t ht rs rs' dq M M' _ hM hM'
    rcases hinge_both t ht with rfl | rfl
    · exact (C202_joints hingeRobot hinge_integrate _ (hinge_target (1 / 2)) hingeGoal rfl).2.2.2 rs rs' M M' hM hM'
    · exact (C202_joints hingeRobot hinge_integrate _ (hinge_target (-1 / 2)) hingeOther rfl).2.2.2 rs rs' M M' hM hM'
  have hvel : ∀ i, 0 < hingeSlow.dt * hingeRobot.vlim (6 + i) := fun i => by norm_num [hingeSlow, hingeRobot]
  have g : Good hingeRobot [hingeGoal, hingeOther] hingeSlow :=
    ⟨.inl ⟨rfl, rfl, rfl⟩, fun t ht hp => (by rcases hinge_both t ht with rfl | rfl <;> cases hp),
      ⟨fun _ i _ => (by constructor <;> norm_num [hingeRobot, hingeState, hingeSlow]), fun _ i _ => (hvel i).le⟩⟩
  refine ⟨env, hex, fun ε hε => ?_⟩
  have hs := fun n => (C203_velocity_solved D C hex (by rw [htol]) (by decide) hingeSlow g (fun _ => by norm_num [hingeSlow])
    ⟨List.nodup_nil, fun d hd => by cases hd⟩
    (fun _ => hardFree_soft _ _ _ _ (fun t ht => by rcases hinge_both t ht with rfl | rfl <;> rfl) fun h => by cases h) n).1
  obtain ⟨N, hN⟩ := C203_velocity D C hingeSlow g (fun _ i _ => hvel i) hs
    (fun _ => -1 / 4) ⟨fun t ht hp => (by rcases hinge_both t ht with rfl | rfl <;> cases hp), fun d hd => (by cases hd), fun h => (by cases h),
      fun _ i _ => by constructor <;> norm_num [jointPos, hingeRobot, hingeState, hingeSlow]⟩
    ⟨hingeRobot.integrate hingeSlow.robot.q fun _ => -1 / 4, fun _ => 0, fun _ => 0⟩ rfl ε hε
  refine ⟨N, fun n hn => ?_⟩
  have := hN n hn
  have e : hingeRobot.integrate hingeSlow.robot.q (fun _ => -1 / 4) 7 = -1 / 4 := by simp [hingeRobot, hingeState, hingeSlow]
  have e2 := hinge_error ⟨hingeRobot.integrate hingeSlow.robot.q fun _ => -1 / 4, fun _ => 0, fun _ => 0⟩
  dsimp only at e2
  rw [e] at e2
  linarith

end Verif.Kinematics
