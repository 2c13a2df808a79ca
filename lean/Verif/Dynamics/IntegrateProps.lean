/-
Property C157: what `DynamicsSolver::solve` does to the robot, for one call and for sessions of calls.
  /repo/src/placo/dynamics/dynamics_solver.cpp 387-558
-/
import Verif.Dynamics.SettingsProps

namespace Verif.Dynamics
open Finset Verif.Problem Verif.Kinematics

section
variable {K : Type} [Field K] [LinearOrder K] [IsStrictOrderedRing K]

/-- **C157, one call.** A solve that succeeds without integration leaves the robot as it was; with integration, `dt` is set, the
acceleration of the robot is the one returned, the velocity changes by `dt qdd`, and the configuration is integrated with the new
velocity. -/
theorem C157_success (env : DEnv K) (hS : env.toQPEnv.Sound) (r : DynRobot K) (tasks : List (DTask K))
    (contacts : List (Contact K)) (cons : List (DConstraint K)) (integrate : Bool) (s : DState K) (rs : RState K)
    (res : Result K) (h : solve env r tasks contacts cons integrate s = (rs, .ok res)) (hok : res.success = true) :
    (integrate = false → rs = s.robot) ∧
    (integrate = true → s.dt ≠ 0 ∧ rs.qdd = res.qdd ∧ (∀ i, rs.qd i = s.robot.qd i + s.dt * res.qdd i) ∧
      rs.q = r.integrate s.robot.q fun i => s.dt * rs.qd i) := by
  rcases solve_cases env r tasks contacts cons integrate s rs _ h with ⟨-, hf⟩ | ⟨p, x, hb, hres, hdt, hrs, -, -⟩
  · rw [hf res rfl] at hok; cases hok
  obtain ⟨-, -, -, -, -, -, hmask⟩ := C57 env hS r tasks contacts cons integrate s rs res h hok
  have hq : res.qdd = p.qdd.rowVal x := by cases hres; rfl
  refine ⟨fun hi => ?_, fun hi => ?_⟩
  · rw [hrs, hi]; rfl
  · have e : rs.qdd = res.qdd := by
      rw [hrs, if_pos hi]
      funext i
      simp only [applyQdd, integrateRobot]
      rw [hq] at hmask ⊢
      by_cases hm : s.maskedFbase = true ∧ i < 6
      · rw [if_pos hm]
        exact (hmask hm.1 i hm.2).symm
      · rw [if_neg hm]
    have e' : ∀ i, rs.qd i = s.robot.qd i + s.dt * rs.qdd i := by
      rw [hrs, if_pos hi]
      intro i
      rfl
    refine ⟨hdt hi, e, fun i => by rw [e', e], ?_⟩
    have : rs.q = r.integrate s.robot.q fun i => rs.qd i * s.dt := by rw [hrs, if_pos hi]; rfl
    rw [this]
    congr 1
    funext i
    exact mul_comm _ _

omit [IsStrictOrderedRing K] in
/-- C157: a solve that raises or fails leaves the robot as it was. -/
theorem C157_failure (env : DEnv K) (r : DynRobot K) (tasks : List (DTask K)) (contacts : List (Contact K))
    (cons : List (DConstraint K)) (integrate : Bool) (s : DState K) (rs : RState K) (res : Except Err (Result K))
    (h : solve env r tasks contacts cons integrate s = (rs, res)) (hf : ∀ k, res = .ok k → k.success = false) : rs = s.robot := by
  unfold solve at h
  split at h
  · cases h; rfl
  · split at h
    · cases h; rfl
    · cases h; rfl
    · dsimp only at h
      split at h
      · split at h
        · cases h; rfl
        · cases h
          cases hf _ rfl
      · cases h; rfl

/-- C157: a task of priority `scaled` with at least one row is never solved. -/
theorem C157_scaled (env : DEnv K) (r : DynRobot K) (tasks : List (DTask K)) (contacts : List (Contact K))
    (cons : List (DConstraint K)) (integrate : Bool) (s : DState K) (task : DTask K) (ht : task ∈ tasks)
    (hp : task.priority = .scaled) (M : TaskMat K) (hM : task.update s.robot = .ok M) (hrows : M.rows ≠ 0) :
    ∃ e, solve env r tasks contacts cons integrate s = (s.robot, .error e) := by
  cases hb : build env r tasks contacts cons s with
  | error e =>
    refine ⟨e, ?_⟩
    unfold solve
    rw [hb]
  | ok p =>
    exfalso
    obtain ⟨cm, cc, cl, mats, ct, cu, cf, c, -, -, -, -, hmats, hct, -⟩ := (build_spec env r tasks contacts cons s p hb).parts
    obtain ⟨M', hM', hz⟩ := zip_mem hmats ht
    rw [hM] at hM'; cases hM'
    obtain ⟨l, -, hlc⟩ := mapM_mem hct hz
    unfold dtaskConstraint at hlc
    rw [if_neg hrows, if_pos hp] at hlc
    cases hlc

/-! ## Sessions -/

/-- One call of `solve`: all the settings may differ from those of the other calls; the state of the robot is carried. -/
structure SolveCall (K : Type) where
  env : DEnv K
  tasks : List (DTask K)
  contacts : List (Contact K)
  cons : List (DConstraint K)
  integrate : Bool
  settings : DState K

/-- The robot after a sequence of calls (an exception does not stop the caller from calling again). -/
def afterSolves (r : DynRobot K) : List (SolveCall K) → RState K → RState K
  | [], s => s
  | c :: cs, s => afterSolves r cs (solve c.env r c.tasks c.contacts c.cons c.integrate { c.settings with robot := s }).1

/-- C157: with a masked base, the velocity of the base does not change, in any sequence of calls; if the base is at rest it does not
move (`base` are the coordinates that pinocchio's integration does not change when the velocity of the base is zero). -/
theorem C157_masked (r : DynRobot K) (base : Nat → Prop)
    (hbase : ∀ q v, (∀ i, i < 6 → v i = 0) → ∀ k, base k → r.integrate q v k = q k) (calls : List (SolveCall K)) : ∀ s : RState K,
    (∀ c ∈ calls, c.env.toQPEnv.Sound ∧ c.settings.maskedFbase = true) →
    (∀ i, i < 6 → (afterSolves r calls s).qd i = s.qd i) ∧
    ((∀ i, i < 6 → s.qd i = 0) → ∀ k, base k → (afterSolves r calls s).q k = s.q k) := by
  induction calls with
  | nil => intro s _; exact ⟨fun _ _ => rfl, fun _ _ _ => rfl⟩
  | cons c cs ih =>
    intro s hc
    obtain ⟨hS, hm⟩ := hc c List.mem_cons_self
    have step : (∀ i, i < 6 → (solve c.env r c.tasks c.contacts c.cons c.integrate { c.settings with robot := s }).1.qd i = s.qd i) ∧
        ((∀ i, i < 6 → s.qd i = 0) → ∀ k, base k →
          (solve c.env r c.tasks c.contacts c.cons c.integrate { c.settings with robot := s }).1.q k = s.q k) := by
      rcases hsol : solve c.env r c.tasks c.contacts c.cons c.integrate { c.settings with robot := s } with ⟨rs, res⟩
      by_cases hf : ∀ k, res = .ok k → k.success = false
      · have := C157_failure c.env r c.tasks c.contacts c.cons c.integrate _ rs res hsol hf
        dsimp only at this ⊢
        rw [this]
        exact ⟨fun _ _ => rfl, fun _ _ _ => rfl⟩
      · push Not at hf
        obtain ⟨k, rfl, hk⟩ := hf
        have hk' : k.success = true := by cases h : k.success with
          | true => rfl
          | false => exact absurd h hk
        obtain ⟨h1, h2⟩ := C157_success c.env hS r c.tasks c.contacts c.cons c.integrate _ rs k hsol hk'
        obtain ⟨-, -, -, -, -, -, hmask⟩ := C57 c.env hS r c.tasks c.contacts c.cons c.integrate _ rs k hsol hk'
        cases hi : c.integrate with
        | false =>
          have := h1 hi
          dsimp only at this ⊢
          rw [this]
          exact ⟨fun _ _ => rfl, fun _ _ _ => rfl⟩
        | true =>
          obtain ⟨-, -, hqd, hq⟩ := h2 hi
          have e : ∀ i, i < 6 → rs.qd i = s.qd i := fun i hi6 => by
            rw [hqd i, hmask hm i hi6]
            dsimp only
            ring
          refine ⟨e, fun h0 k hk => ?_⟩
          show rs.q k = s.q k
          rw [hq]
          exact hbase _ _ (fun i hi6 => by rw [e i hi6, h0 i hi6, mul_zero]) k hk
    obtain ⟨a, b⟩ := ih (solve c.env r c.tasks c.contacts c.cons c.integrate { c.settings with robot := s }).1
      fun c' hc' => hc c' (List.mem_cons_of_mem _ hc')
    refine ⟨fun i hi => ?_, fun h0 k hk => ?_⟩
    · show (afterSolves r cs _).qd i = _
      rw [a i hi, step.1 i hi]
    · show (afterSolves r cs _).q k = _
      rw [b (fun i hi => by rw [step.1 i hi, h0 i hi]) k hk, step.2 h0 k hk]

end

/-! ## Concrete cases -/

/-- The hypothesis on the base holds for the demo robot. -/
example : ∀ (q v : Nat → ℚ), (∀ i, i < 6 → v i = 0) → ∀ k, k < 7 → demo.integrate q v k = q k := by
  intro q v h k hk
  show (if k = 0 then q 0 else q k + v (k - 1)) = q k
  by_cases h0 : k = 0
  · rw [if_pos h0, h0]
  · rw [if_neg h0, h (k - 1) (by omega), add_zero]

/-- With the base masked, the solve succeeds and integrates. -/
example : (afterSolves demo [⟨demoEnv, demoTasks, [⟨.external idJac ⟨6, fun i => if i = 2 then 10 else 0⟩, true, 1, 0, 0, 0⟩], [], true,
      { demoState with maskedFbase := true }⟩] demoState.robot).q 7 = 1 / 2 := by
  decide +kernel

/-- A scaled task raises. -/
example : (solve demoEnv demo (demoTasks.map fun t => { t with priority := .scaled }) [] [] true demoState).2 = .error .runtimeError := by
  rfl

end Verif.Dynamics
