/-
C213: a hard gear task keeps its gears meshed during whole programs.
-/
import Verif.Kinematics.TasksProps2

namespace Verif.Kinematics
open Finset Verif.Problem

/-! ## Specification -/

/-- The configuration `q` respects the gears that the calls `gears` made (the last one first in `ratios`): each target is at the sum of
the ratios times the positions of the sources. -/
def Meshed {K : Type} [Field K] (r : Robot K) (gears : List (GearOp K)) (q : Nat → K) : Prop :=
  ∀ jt ∈ r.joints, ∀ c, ratios r jt.idxV gears.reverse = some c → q jt.idxQ = (r.joints.map fun js => c js.idxV * q js.idxQ).sum

/-- The list of tasks contains a hard gear task with the gears made by these calls. -/
def HasGears {K : Type} [Field K] (r : Robot K) (gears : List (GearOp K)) (tasks : List (Task K)) : Prop :=
  ∃ t ∈ tasks, t.priority = .hard ∧ t.update = gearUpdate r (gears.foldl (gearStep r) [])

/-- The program gives the gear task to all the solves that move the robot; it sets the configuration of the robot to meshed ones. The
tasks, the constraints and the settings may be different at each solve. -/
def KeepsGears {K : Type} [Field K] (r : Robot K) (gears : List (GearOp K)) (ops : List (Op K)) : Prop :=
  (∀ tasks cons, Op.solve tasks cons true ∈ ops → HasGears r gears tasks) ∧ ∀ rs, Op.setRobot rs ∈ ops → Meshed r gears rs.q

/-- The matrices of the tasks have the columns of the robot. -/
def OpsFit' {K : Type} [Field K] (r : Robot K) (ops : List (Op K)) : Prop :=
  ∀ tasks cons apply, Op.solve tasks cons apply ∈ ops → ∀ rs, ∀ t ∈ tasks, ∀ M, t.update rs = .ok M → 0 < M.cols ∧ M.cols ≤ r.nv

/-! ## Proof -/

section
variable {K : Type} [Field K] [LinearOrder K] [IsStrictOrderedRing K]

omit [LinearOrder K] [IsStrictOrderedRing K] in
theorem OpsFit'.fit {r : Robot K} {ops : List (Op K)} (h : OpsFit' r ops) : OpsFit r.nv ops :=
  fun tasks cons apply hm rs t ht M hM => (h tasks cons apply hm rs t ht M hM).2

/-- A solve that succeeds meshes the gears, wherever they were. -/
theorem meshed_solve {env : QPEnv K} (hS : env.Sound) {r : Robot K} (hL : r.Layout) (hI : r.IntegrateOK) (hall : ∀ j ∈ r.joints, j.Simple)
    {gears : List (GearOp K)} (hd : ∀ op ∈ gears, op.Distinct r) {tasks : List (Task K)} (hg : HasGears r gears tasks)
    (cons : List (KConstraint K)) (s s' : KState K) (dq : Nat → K) (hv : VarsOK r.nv s.prob s.qdVar s.scaleVar)
    (hfit : ∀ t ∈ tasks, ∀ M, t.update s.robot = .ok M → 0 < M.cols ∧ M.cols ≤ r.nv)
    (h : solve env r tasks cons true s = (s', .ok dq)) : Meshed r gears s'.robot.q := by
  obtain ⟨t, ht, hp, hu⟩ := hg
  obtain ⟨M, hM, hmet⟩ := C95 env hS r tasks cons true s s' dq hv hfit h t ht hp
  obtain ⟨M', hM', hiff⟩ := C47_partial r hL hI hall gears hd s.robot dq
  rw [hu, hM'] at hM
  cases hM
  rw [((C56 env r tasks cons true s s' _ h).2.2 dq rfl rfl).1]
  exact hiff.1 hmet

theorem meshed_step {env : QPEnv K} (hS : env.Sound) {r : Robot K} (hL : r.Layout) (hI : r.IntegrateOK) (hall : ∀ j ∈ r.joints, j.Simple)
    {gears : List (GearOp K)} (hd : ∀ op ∈ gears, op.Distinct r) (op : Op K) (hk : KeepsGears r gears [op]) (hfit : OpsFit' r [op])
    (s : KState K) (hv : VarsOK r.nv s.prob s.qdVar s.scaleVar) (hm : Meshed r gears s.robot.q) :
    Meshed r gears (step env r s op).robot.q := by
  cases op with
  | mask d => simp only [step]; rw [maskDof_frame]; exact hm
  | unmask d => simp only [step]; rw [unmaskDof_frame]; exact hm
  | maskFbase b => exact hm
  | enableJointLimits b => exact hm
  | enableVelocityLimits b => exact hm
  | setDt b => exact hm
  | setRobot rs => exact hk.2 rs List.mem_cons_self
  | solve tasks cons a =>
    rw [step]
    rcases hs : solve env r tasks cons a s with ⟨s', res⟩
    have h56 := C56 env r tasks cons a s s' _ hs
    show Meshed r gears s'.robot.q
    cases res with
    | error e => rw [h56.1 e rfl]; exact hm
    | ok dq =>
      cases a with
      | false => rw [h56.2.1 rfl]; exact hm
      | true =>
        exact meshed_solve hS hL hI hall hd (hk.1 tasks cons List.mem_cons_self) cons s s' dq hv
          (hfit tasks cons true List.mem_cons_self s.robot) hs

/-! ## The property -/

/-- **C213, kept.** Gears that are meshed at first are meshed after any program that keeps the gear task: calls on the solver, solves that
succeed, fail or are not applied, with any other tasks and constraints. -/
theorem C213_kept {env : QPEnv K} (hS : env.Sound) {r : Robot K} (hL : r.Layout) (hI : r.IntegrateOK) (hall : ∀ j ∈ r.joints, j.Simple)
    {gears : List (GearOp K)} (hd : ∀ op ∈ gears, op.Distinct r) (ops : List (Op K)) (hk : KeepsGears r gears ops) (hfit : OpsFit' r ops)
    (s : KState K) (hv : VarsOK r.nv s.prob s.qdVar s.scaleVar) (hm : Meshed r gears s.robot.q) :
    Meshed r gears (run env r s ops).robot.q := by
  induction ops generalizing s with
  | nil => exact hm
  | cons op ops ih =>
    rw [run_cons]
    have h1 : OpsFit' r [op] := fun tasks cons a h => hfit tasks cons a (by rw [List.mem_singleton.1 h]; exact List.mem_cons_self)
    refine ih ⟨fun tasks cons h => hk.1 tasks cons (List.mem_cons_of_mem _ h), fun rs h => hk.2 rs (List.mem_cons_of_mem _ h)⟩
      (fun tasks cons a h => hfit tasks cons a (List.mem_cons_of_mem _ h)) _ (step_vars env r s op ?_ hv)
      (meshed_step hS hL hI hall hd op ⟨fun tasks cons h => hk.1 tasks cons (by rw [List.mem_singleton.1 h]; exact List.mem_cons_self),
        fun rs h => hk.2 rs (by rw [List.mem_singleton.1 h]; exact List.mem_cons_self)⟩ h1 s hv hm)
    intro tasks cons a h t ht M hM
    exact (h1 tasks cons a (by rw [h]; exact List.mem_singleton_self _) s.robot t ht M hM).2

/-- **C213.** A robot in any configuration, and any program `before`: from the first solve with the gear task that succeeds, whatever else
the program does that keeps the gear task, the gears are meshed. -/
theorem C213 {env : QPEnv K} (hS : env.Sound) {r : Robot K} (hL : r.Layout) (hI : r.IntegrateOK) (hall : ∀ j ∈ r.joints, j.Simple)
    {gears : List (GearOp K)} (hd : ∀ op ∈ gears, op.Distinct r) (before : List (Op K)) (tasks : List (Task K)) (cons : List (KConstraint K))
    (after : List (Op K)) (hg : HasGears r gears tasks) (hk : KeepsGears r gears after) (s : KState K)
    (hfit : OpsFit' r (before ++ Op.solve tasks cons true :: after)) (hv : VarsOK r.nv s.prob s.qdVar s.scaleVar)
    (dq : Nat → K) (h : (solve env r tasks cons true (run env r s before)).2 = .ok dq) :
    Meshed r gears (run env r s (before ++ Op.solve tasks cons true :: after)).robot.q := by
  have hv1 := run_vars env r before s (fun tasks cons a h => hfit.fit tasks cons a (List.mem_append_left _ h)) hv
  have hmem : Op.solve tasks cons true ∈ before ++ Op.solve tasks cons true :: after := List.mem_append_right _ List.mem_cons_self
  have e : run env r s (before ++ Op.solve tasks cons true :: after) =
      run env r (solve env r tasks cons true (run env r s before)).1 after := by
    unfold run; rw [List.foldl_append]; rfl
  rw [e]
  refine C213_kept hS hL hI hall hd after hk (fun tasks cons a h => hfit tasks cons a (List.mem_append_right _ (List.mem_cons_of_mem _ h))) _
    (solve_spec' env r tasks cons true _ hv1 (hfit.fit tasks cons true hmem _)).1 ?_
  exact meshed_solve hS hL hI hall hd hg cons _ _ dq hv1 (hfit tasks cons true hmem _) (Prod.ext rfl h)

/-- **C213, velocities.** A solve that is applied to a robot with meshed gears gives velocities that are meshed too (`difference` being
the difference of the positions for joints with one coordinate). -/
theorem C213_velocity {env : QPEnv K} (hS : env.Sound) {r : Robot K} (hL : r.Layout) (hI : r.IntegrateOK) (hall : ∀ j ∈ r.joints, j.Simple)
    (hD : ∀ j ∈ r.joints, ∀ q q', r.difference q q' j.idxV = q' j.idxQ - q j.idxQ)
    {gears : List (GearOp K)} (hd : ∀ op ∈ gears, op.Distinct r) (tasks : List (Task K)) (cons : List (KConstraint K))
    (hg : HasGears r gears tasks) (s s' : KState K) (dq : Nat → K) (hv : VarsOK r.nv s.prob s.qdVar s.scaleVar)
    (hfit : ∀ t ∈ tasks, ∀ M, t.update s.robot = .ok M → 0 < M.cols ∧ M.cols ≤ r.nv) (hdt : 0 < s.dt) (hm : Meshed r gears s.robot.q)
    (h : solve env r tasks cons true s = (s', .ok dq)) :
    ∀ jt ∈ r.joints, ∀ c, ratios r jt.idxV gears.reverse = some c →
      s'.robot.qd jt.idxV = (r.joints.map fun js => c js.idxV * s'.robot.qd js.idxV).sum := by
  intro jt hjt c hc
  have h1 := meshed_solve hS hL hI hall hd hg cons s s' dq hv hfit h jt hjt c hc
  have h0 := hm jt hjt c hc
  have hqd : ∀ j ∈ r.joints, s'.robot.qd j.idxV * s.dt = s'.robot.q j.idxQ - s.robot.q j.idxQ := fun j hj => by
    rw [((((C56 env r tasks cons true s s' _ h).2.2 dq rfl rfl).2.1 hdt) j.idxV).1, hD j hj]
  have key : ∀ l : List Joint, (∀ j ∈ l, j ∈ r.joints) → (l.map fun js => c js.idxV * s'.robot.qd js.idxV).sum * s.dt =
      (l.map fun js => c js.idxV * s'.robot.q js.idxQ).sum - (l.map fun js => c js.idxV * s.robot.q js.idxQ).sum := by
    intro l
    induction l with
    | nil => intro _; simp
    | cons j l ih =>
      intro hl
      have := hqd j (hl j List.mem_cons_self)
      simp only [List.map_cons, List.sum_cons]
      rw [add_mul, ih fun j' h' => hl j' (List.mem_cons_of_mem _ h'), mul_assoc, this]
      ring
  refine mul_right_cancel₀ hdt.ne' ?_
  rw [hqd jt hjt, key _ (fun _ h => h), h1, h0]

/-- Each joint of the list is driven by the next one only: `ratios` gives one source. -/
def Train (r : Robot K) (gears : List (GearOp K)) : Joint → List (K × Joint) → Prop
  | _, [] => True
  | j, (ρ, k) :: l => ratios r j.idxV gears.reverse = some (fun i => if i = k.idxV then ρ else 0) ∧ Train r gears k l

/-- **C213, gear trains.** In a chain of gears of any length, the first joint is at the product of the ratios times the last one. -/
theorem C213_train {r : Robot K} (hnd : (r.joints.map (·.idxV)).Nodup) {gears : List (GearOp K)} {q : Nat → K} (hm : Meshed r gears q)
    (j : Joint) (hj : j ∈ r.joints) (l : List (K × Joint)) (hl : ∀ p ∈ l, p.2 ∈ r.joints) (ht : Train r gears j l) :
    q j.idxQ = (l.map (·.1)).prod * q ((l.map (·.2)).getLastD j).idxQ := by
  have hsum : ∀ (ρ : K) (k : Joint) (L : List Joint), (L.map (·.idxV)).Nodup → k ∈ L →
      (L.map fun js => (if js.idxV = k.idxV then ρ else 0) * q js.idxQ).sum = ρ * q k.idxQ := by
    intro ρ k L
    induction L with
    | nil => intro _ h; cases h
    | cons a L ih =>
      intro hn h
      obtain ⟨h1, h2⟩ := List.nodup_cons.1 hn
      rw [List.map_cons, List.sum_cons]
      rcases List.mem_cons.1 h with rfl | h
      · rw [if_pos rfl]
        have : ∀ L : List Joint, k.idxV ∉ L.map (·.idxV) → (L.map fun js => (if js.idxV = k.idxV then ρ else 0) * q js.idxQ).sum = 0 := by
          intro L
          induction L with
          | nil => intro _; rfl
          | cons b L ih =>
            intro h
            rw [List.map_cons, List.sum_cons, ih fun h' => h (List.mem_cons_of_mem _ h'),
              if_neg (fun e => h (by rw [List.map_cons, e]; exact List.mem_cons_self))]
            ring
        rw [this L h1, add_zero]
      · have hne : a.idxV ≠ k.idxV := fun e => h1 (List.mem_map.2 ⟨k, h, e.symm⟩)
        rw [if_neg hne, ih h2 h, zero_mul, zero_add]
  induction l generalizing j with
  | nil => simp
  | cons p l ih =>
    obtain ⟨ρ, k⟩ := p
    have hk := hl (ρ, k) List.mem_cons_self
    rw [hm j hj _ ht.1, hsum ρ k r.joints hnd hk, ih k hk (fun p hp => hl p (List.mem_cons_of_mem _ hp)) ht.2, List.map_cons, List.map_cons,
      List.prod_cons, List.getLastD_cons, mul_assoc]

end

/-! ## Non-vacuity -/

/-- The gear `a = 2 b`, as a hard task. -/
def demoGear : Task ℚ := ⟨.hard, 1, gearUpdate demoRobot ([GearOp.add "a" "b" (2 : ℚ)].foldl (gearStep demoRobot) [])⟩

/-- `a` is at 0 and `b` at 1/2: not meshed; a solve succeeds, moves `a` by 1, and then `a = 2 b`. -/
example : HasGears demoRobot [GearOp.add "a" "b" (2 : ℚ)] [demoGear] ∧
    resAt (solve (fixedEnv fun k => if k = 6 then 1 else 0) demoRobot [demoGear] [] true
      { demoState with robot := ⟨fun i => if i = 8 then 1 / 2 else 0, fun _ => 0, fun _ => 0⟩ }).2 6 = some 1 ∧
    (run (fixedEnv fun k => if k = 6 then 1 else 0) demoRobot
      { demoState with robot := ⟨fun i => if i = 8 then 1 / 2 else 0, fun _ => 0, fun _ => 0⟩ } [.solve [demoGear] [] true]).robot.q 7 = 1 := by
  refine ⟨⟨demoGear, List.mem_singleton_self _, rfl, rfl⟩, ?_, ?_⟩ <;> decide +kernel

/-- The gear task fits the robot. -/
example : OpsFit' demoRobot [.solve [demoGear] [] true] := by
  intro tasks cons apply h rs t ht M hM
  cases List.mem_singleton.1 h
  cases List.mem_singleton.1 ht
  cases hM
  exact ⟨(by decide : 0 < demoRobot.nv), Nat.le_refl _⟩

/-- A gear is a train. -/
example : Train demoRobot [GearOp.add "a" "b" (2 : ℚ)] ⟨"a", 7, 1, 6, 1⟩ [(2, ⟨"b", 8, 1, 7, 1⟩)] := by
  refine ⟨?_, trivial⟩
  simp only [List.reverse_singleton, ratios, demo_a, demo_b]
  rfl

end Verif.Kinematics
