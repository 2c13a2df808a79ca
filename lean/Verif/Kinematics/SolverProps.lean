/-
Properties C43-C46, C56, C95, C96 of the kinematics solver.
-/
import Verif.Kinematics.SolverLimits

namespace Verif.Kinematics
open Finset Verif.Problem

section
variable {K : Type} [Field K] [LinearOrder K] [IsStrictOrderedRing K]

/-- `solve_spec` on projections. -/
theorem solve_spec' (env : QPEnv K) (r : Robot K) (tasks : List (Task K)) (cons : List (KConstraint K)) (apply : Bool)
    (s : KState K) (hv : VarsOK r.nv s.prob s.qdVar s.scaleVar) (hfit : TasksFit r.nv s.robot tasks) :
    VarsOK r.nv (solve env r tasks cons apply s).1.prob (solve env r tasks cons apply s).1.qdVar
      (solve env r tasks cons apply s).1.scaleVar ∧ SameConfig s (solve env r tasks cons apply s).1 ∧
    (∀ e, (solve env r tasks cons apply s).2 = .error e → (solve env r tasks cons apply s).1.robot = s.robot) ∧
    (env.Sound → ∀ dq, (solve env r tasks cons apply s).2 = .ok dq →
      ∃ x, Accepted env r tasks cons apply s (solve env r tasks cons apply s).1 dq x) :=
  solve_spec env r tasks cons apply s (solve env r tasks cons apply s).1 (solve env r tasks cons apply s).2 hv hfit rfl

/-! ## Histories -/

/-- Every set of tasks ever solved has matrices with at most as many columns as the robot has
degrees of freedom, whatever the robot state. -/
def OpsFit (nv : Nat) (ops : List (Op K)) : Prop :=
  ∀ tasks cons apply, Op.solve tasks cons apply ∈ ops → ∀ rs, TasksFit nv rs tasks

theorem run_snoc (env : QPEnv K) (r : Robot K) (s : KState K) (ops : List (Op K)) (op : Op K) :
    run env r s (ops ++ [op]) = step env r (run env r s ops) op := by
  simp [run]

theorem run_cons (env : QPEnv K) (r : Robot K) (s : KState K) (ops : List (Op K)) (op : Op K) :
    run env r s (op :: ops) = run env r (step env r s op) ops := rfl

theorem OpsFit_cons {nv : Nat} {op : Op K} {ops : List (Op K)} (h : OpsFit nv (op :: ops)) : OpsFit nv ops :=
  fun t c a hm => h t c a (List.mem_cons_of_mem _ hm)

theorem maskDof_frame (r : Robot K) (s : KState K) (d : String) :
    (maskDof r s d).1 = { s with maskedDof := (maskDof r s d).1.maskedDof } := by
  unfold maskDof
  cases r.vJoint d <;> rfl

theorem unmaskDof_frame (r : Robot K) (s : KState K) (d : String) :
    (unmaskDof r s d).1 = { s with maskedDof := (unmaskDof r s d).1.maskedDof } := by
  unfold unmaskDof
  cases r.vJoint d <;> rfl

theorem step_vars (env : QPEnv K) (r : Robot K) (s : KState K) (op : Op K)
    (hfit : ∀ tasks cons apply, op = .solve tasks cons apply → TasksFit r.nv s.robot tasks)
    (hv : VarsOK r.nv s.prob s.qdVar s.scaleVar) :
    VarsOK r.nv (step env r s op).prob (step env r s op).qdVar (step env r s op).scaleVar := by
  cases op with
  | mask d => simp only [step]; rw [maskDof_frame]; exact hv
  | unmask d => simp only [step]; rw [unmaskDof_frame]; exact hv
  | maskFbase b => exact hv
  | enableJointLimits b => exact hv
  | enableVelocityLimits b => exact hv
  | setDt b => exact hv
  | setRobot b => exact hv
  | solve t c a => exact (solve_spec' env r t c a s hv (hfit t c a rfl)).1

theorem run_vars (env : QPEnv K) (r : Robot K) : ∀ (ops : List (Op K)) (s : KState K), OpsFit r.nv ops →
    VarsOK r.nv s.prob s.qdVar s.scaleVar →
    VarsOK r.nv (run env r s ops).prob (run env r s ops).qdVar (run env r s ops).scaleVar := by
  intro ops
  induction ops with
  | nil => intro s _ h; exact h
  | cons op ops ih =>
    intro s hf hv
    rw [run_cons]
    refine ih _ (OpsFit_cons hf) (step_vars env r s op ?_ hv)
    intro t c a h
    subst h
    exact hf t c a (List.mem_cons_self ..) _

/-- A solver as the constructor leaves it (kinematics_solver.cpp 12-16), for any robot state. -/
def KState.Fresh (s : KState K) : Prop :=
  s.prob = (0, []) ∧ s.qdVar = none ∧ s.scaleVar = none ∧ s.maskedDof = [] ∧ s.maskedFbase = false ∧
  s.jointLimits = true ∧ s.velocityLimits = false

theorem KState.Fresh.vars {s : KState K} (h : s.Fresh) (nv : Nat) : VarsOK nv s.prob s.qdVar s.scaleVar :=
  Or.inl ⟨h.2.1, h.2.2.1, h.1⟩

/-! ## C43: joint limits -/

theorem sum_eq_of_forall (l : List Joint) (h : ∀ j ∈ l, j.nQ = j.nV) : (l.map (·.nQ)).sum = (l.map (·.nV)).sum := by
  rw [List.map_congr_left h]

theorem sum_le_of_forall (l : List Joint) (h : ∀ j ∈ l, j.nV ≤ j.nQ) : (l.map (·.nV)).sum ≤ (l.map (·.nQ)).sum := by
  induction l with
  | nil => simp
  | cons a l ih =>
    simp only [List.map_cons, List.sum_cons]
    have := h a (List.mem_cons_self ..)
    have := ih fun j hj => h j (List.mem_cons_of_mem _ hj)
    omega

/-- One accepted and applied step puts a joint inside its limits, whatever the state before: the
joint has one coordinate, and so has every joint after it (or as many position as velocity
coordinates). -/
theorem C43_step (env : QPEnv K) (hS : env.Sound) (r : Robot K) (hL : r.Layout) (hI : r.IntegrateOK)
    (hsize : ∀ j ∈ r.joints, j.nV ≤ j.nQ)
    (pre post : List Joint) (j : Joint) (hj : r.joints = pre ++ j :: post) (h1 : j.Simple)
    (hpost : ∀ j' ∈ post, j'.nQ = j'.nV)
    (tasks : List (Task K)) (cons : List (KConstraint K)) (s s' : KState K) (dq : Nat → K)
    (hv : VarsOK r.nv s.prob s.qdVar s.scaleVar) (hfit : TasksFit r.nv s.robot tasks) (hlim : s.jointLimits = true)
    (h : solve env r tasks cons true s = (s', .ok dq)) :
    r.InLimits j s'.robot.q ∧ s'.robot.q j.idxQ = s.robot.q j.idxQ + dq j.idxV := by
  obtain ⟨-, -, -, hA⟩ := solve_spec env r tasks cons true s s' _ hv hfit h
  obtain ⟨x, A⟩ := hA hS dq rfl
  obtain ⟨hq, hvv⟩ := hL.idx pre j post hj
  have hnq := hL.nq
  have hnv := hL.nv
  have hpq := sum_eq_of_forall post hpost
  have hle := sum_le_of_forall r.joints hsize
  rw [hj] at hnq hnv hle
  simp only [List.map_append, List.map_cons, List.sum_append, List.sum_cons, h1.1, h1.2] at hnq hnv hle
  have hqv : r.nv - 6 ≤ r.nq := by omega
  have hlt : j.idxV < r.nv := by omega
  have hint : s'.robot.q j.idxQ = s.robot.q j.idxQ + dq j.idxV := by
    rw [A.robot, if_pos rfl]
    have : (applyStep r s.dt s.robot dq).q = r.integrate s.robot.q dq := by unfold applyStep; split <;> rfl
    rw [this, hI j (by rw [hj]; simp) h1.1 h1.2]
  have := (A.limits hqv).2.1 hlim (j.idxV - 6) (by omega)
  rw [show r.nq - (r.nv - 6) + (j.idxV - 6) = j.idxQ by omega, show 6 + (j.idxV - 6) = j.idxV by omega,
    ← A.dq_eq _ hlt, ← hint] at this
  exact ⟨⟨this.2, this.1⟩, hint⟩

/-- What the limits do on every robot, for a joint with one coordinate: its displacement is bounded with the value and the limits of
the position coordinate found `e` places further, where `e` is the number of position coordinates in excess of the velocity
coordinates in the joints after it. The limits of the joint itself are enforced when `e = 0` (`C43_step`). -/
theorem C43_index (env : QPEnv K) (hS : env.Sound) (r : Robot K) (hL : r.Layout) (hI : r.IntegrateOK)
    (hsize : ∀ j ∈ r.joints, j.nV ≤ j.nQ)
    (pre post : List Joint) (j : Joint) (hj : r.joints = pre ++ j :: post) (h1 : j.Simple)
    (tasks : List (Task K)) (cons : List (KConstraint K)) (s s' : KState K) (dq : Nat → K)
    (hv : VarsOK r.nv s.prob s.qdVar s.scaleVar) (hfit : TasksFit r.nv s.robot tasks) (hlim : s.jointLimits = true)
    (h : solve env r tasks cons true s = (s', .ok dq)) (e : Nat) (he : (post.map (·.nQ)).sum = (post.map (·.nV)).sum + e) :
    s'.robot.q j.idxQ = s.robot.q j.idxQ + dq j.idxV ∧
    r.lower (j.idxQ + e) ≤ s.robot.q (j.idxQ + e) + dq j.idxV ∧ s.robot.q (j.idxQ + e) + dq j.idxV ≤ r.upper (j.idxQ + e) := by
  obtain ⟨-, -, -, hA⟩ := solve_spec env r tasks cons true s s' _ hv hfit h
  obtain ⟨x, A⟩ := hA hS dq rfl
  obtain ⟨hq, hvv⟩ := hL.idx pre j post hj
  have hnq := hL.nq
  have hnv := hL.nv
  have hle := sum_le_of_forall r.joints hsize
  rw [hj] at hnq hnv hle
  simp only [List.map_append, List.map_cons, List.sum_append, List.sum_cons, h1.1, h1.2] at hnq hnv hle
  have hqv : r.nv - 6 ≤ r.nq := by omega
  have hlt : j.idxV < r.nv := by omega
  have hint : s'.robot.q j.idxQ = s.robot.q j.idxQ + dq j.idxV := by
    rw [A.robot, if_pos rfl]
    have : (applyStep r s.dt s.robot dq).q = r.integrate s.robot.q dq := by unfold applyStep; split <;> rfl
    rw [this, hI j (by rw [hj]; simp) h1.1 h1.2]
  have := (A.limits hqv).2.1 hlim (j.idxV - 6) (by omega)
  rw [show r.nq - (r.nv - 6) + (j.idxV - 6) = j.idxQ + e by omega, show 6 + (j.idxV - 6) = j.idxV by omega,
    ← A.dq_eq _ hlt] at this
  exact ⟨hint, this.2, this.1⟩

/-- An operation that neither disables the joint limits nor writes a robot state outside them. -/
def Op.Respects (r : Robot K) (j : Joint) : Op K → Prop
  | .enableJointLimits b => b = true
  | .setRobot rs => r.InLimits j rs.q
  | _ => True

/-- C43 for robots all of whose joints following the given one have as many position as velocity
coordinates: after any history of calls the joint is inside its limits. Missing with respect to C43:
robots with e.g. a continuous joint after the given one; there the property is false, see
`C43_refuted`. -/
theorem C43_partial (env : QPEnv K) (hS : env.Sound) (r : Robot K) (hL : r.Layout) (hI : r.IntegrateOK)
    (hsize : ∀ j ∈ r.joints, j.nV ≤ j.nQ)
    (pre post : List Joint) (j : Joint) (hj : r.joints = pre ++ j :: post) (h1 : j.Simple)
    (hpost : ∀ j' ∈ post, j'.nQ = j'.nV) :
    ∀ (ops : List (Op K)) (s : KState K), VarsOK r.nv s.prob s.qdVar s.scaleVar → OpsFit r.nv ops →
      (∀ op ∈ ops, op.Respects r j) → s.jointLimits = true → r.InLimits j s.robot.q →
      (run env r s ops).jointLimits = true ∧ r.InLimits j (run env r s ops).robot.q := by
  intro ops
  induction ops with
  | nil => intro s _ _ _ h2 h3; exact ⟨h2, h3⟩
  | cons op ops ih =>
    intro s hv hf hr hlim hin
    rw [run_cons]
    have hop := hr op (List.mem_cons_self ..)
    have hvars := step_vars env r s op (by
      intro t c a h; subst h; exact hf t c a (List.mem_cons_self ..) _) hv
    refine ih _ hvars (OpsFit_cons hf) (fun o ho => hr o (List.mem_cons_of_mem _ ho)) ?_ ?_
    · cases op with
      | mask d => simp only [step]; rw [maskDof_frame]; exact hlim
      | unmask d => simp only [step]; rw [unmaskDof_frame]; exact hlim
      | enableJointLimits b => exact hop
      | solve t c a =>
        have := (solve_spec' env r t c a s hv (hf t c a (List.mem_cons_self ..) _)).2.1
        exact this.jointLimits.trans hlim
      | _ => exact hlim
    · cases op with
      | mask d => simp only [step]; rw [maskDof_frame]; exact hin
      | unmask d => simp only [step]; rw [unmaskDof_frame]; exact hin
      | setRobot b => exact hop
      | solve t c a =>
        have hfit := hf t c a (List.mem_cons_self ..) s.robot
        have hspec := solve_spec' env r t c a s hv hfit
        simp only [step]
        cases hres : (solve env r t c a s).2 with
        | error e => rw [hspec.2.2.1 e hres]; exact hin
        | ok dq =>
          cases a with
          | true =>
            exact (C43_step env hS r hL hI hsize pre post j hj h1 hpost t c s _ dq hv hfit hlim
              (Prod.ext rfl hres)).1
          | false =>
            obtain ⟨x, A⟩ := hspec.2.2.2 hS dq hres
            rw [A.robot]; exact hin
      | _ => exact hin

/-! ## C44: velocity limits -/

/-- An accepted step respects the velocity limits of every actuated degree of freedom. -/
theorem C44 (env : QPEnv K) (hS : env.Sound) (r : Robot K) (hL : r.Layout)
    (hsize : ∀ j ∈ r.joints, j.nV ≤ j.nQ)
    (tasks : List (Task K)) (cons : List (KConstraint K)) (apply : Bool) (s s' : KState K) (dq : Nat → K)
    (hv : VarsOK r.nv s.prob s.qdVar s.scaleVar) (hfit : TasksFit r.nv s.robot tasks) (hlim : s.velocityLimits = true)
    (h : solve env r tasks cons apply s = (s', .ok dq)) :
    s.dt ≠ 0 ∧ ∀ k, 6 ≤ k → k < r.nv → -(s.dt * r.vlim k) ≤ dq k ∧ dq k ≤ s.dt * r.vlim k := by
  obtain ⟨-, -, -, hA⟩ := solve_spec env r tasks cons apply s s' _ hv hfit h
  obtain ⟨x, A⟩ := hA hS dq rfl
  have hle := sum_le_of_forall r.joints hsize
  have hqv : r.nv - 6 ≤ r.nq := by have := hL.nq; have := hL.nv; omega
  obtain ⟨l1, -, l2⟩ := A.limits hqv
  refine ⟨fun h0 => l1 ⟨hlim, h0⟩, fun k hk hk' => ?_⟩
  have := l2 hlim (k - 6) (by omega)
  rw [show 6 + (k - 6) = k by omega, ← A.dq_eq k hk'] at this
  exact ⟨this.2, this.1⟩

/-- With velocity limits enabled and no `dt`, `solve` raises (whatever the tasks, the masks and the
external solver), and the robot does not move. -/
theorem C44_no_dt (env : QPEnv K) (r : Robot K) (tasks : List (Task K)) (cons : List (KConstraint K)) (apply : Bool)
    (s : KState K) (hv : VarsOK r.nv s.prob s.qdVar s.scaleVar) (hfit : TasksFit r.nv s.robot tasks)
    (hlim : s.velocityLimits = true) (hdt : s.dt = 0) :
    ∃ e, (solve env r tasks cons apply s).2 = .error e ∧ (solve env r tasks cons apply s).1.robot = s.robot := by
  have hspec := solve_spec' env r tasks cons apply s hv hfit
  suffices ∃ e, (solve env r tasks cons apply s).2 = .error e by
    obtain ⟨e, he⟩ := this
    exact ⟨e, he, hspec.2.2.1 e he⟩
  unfold solve
  simp only
  have hs : (ensureQd r s).velocityLimits = true ∧ (ensureQd r s).dt = 0 := by
    unfold ensureQd
    cases s.qdVar <;> exact ⟨hlim, hdt⟩
  cases (runTasks (ensureQd r s).robot ⟨(ensureQd r s).prob, (ensureQd r s).scaleVar, false, []⟩ tasks).2 with
  | some e => exact ⟨e, rfl⟩
  | none =>
    simp only
    unfold afterTasks otherConstraints
    generalize varAt _ _ = qd
    have hl : ∀ s2 : KState K, s2.velocityLimits = true ∧ s2.dt = 0 → limitsInequalities r s2 qd = .error .runtimeError := by
      intro s2 h2
      unfold limitsInequalities
      rw [if_pos h2]; rfl
    generalize hs2 : KState.mk _ _ _ _ _ _ _ _ _ _ _ = s2
    rw [hl s2 (by rw [← hs2]; exact hs)]
    cases maskConstraints s2 qd with
    | error e => exact ⟨e, rfl⟩
    | ok m => exact ⟨.runtimeError, rfl⟩

/-- Without tasks or masks to fail before, the exception is the documented `runtime_error`. -/
theorem C44_no_dt_kind (env : QPEnv K) (r : Robot K) (cons : List (KConstraint K)) (apply : Bool)
    (s : KState K) (hlim : s.velocityLimits = true) (hdt : s.dt = 0) (hm : s.maskedDof = [])
    (hb : s.maskedFbase = false) : (solve env r [] cons apply s).2 = .error .runtimeError := by
  unfold solve
  simp only
  have hs : (ensureQd r s).velocityLimits = true ∧ (ensureQd r s).dt = 0 ∧ (ensureQd r s).maskedDof = [] ∧
      (ensureQd r s).maskedFbase = false := by
    unfold ensureQd
    cases s.qdVar <;> exact ⟨hlim, hdt, hm, hb⟩
  have hl : ∀ (qd : Var) (s2 : KState K), s2.velocityLimits = true ∧ s2.dt = 0 →
      limitsInequalities r s2 qd = .error .runtimeError := by
    intro qd s2 h2
    unfold limitsInequalities
    rw [if_pos h2]; rfl
  have hmc : ∀ (qd : Var) (s2 : KState K), s2.maskedDof = [] → s2.maskedFbase = false → maskConstraints s2 qd = .ok [] := by
    intro qd s2 h1 h2
    unfold maskConstraints
    rw [h1, h2]; rfl
  simp only [runTasks]
  unfold afterTasks otherConstraints
  generalize varAt _ _ = qd
  generalize hs2 : KState.mk _ _ _ _ _ _ _ _ _ _ _ = s2
  rw [hl qd s2 (by rw [← hs2]; exact ⟨hs.1, hs.2.1⟩), hmc qd s2 (by rw [← hs2]; exact hs.2.2.1)
    (by rw [← hs2]; exact hs.2.2.2)]
  rfl

/-! ## C45: masks -/

/-- The degree of freedom belongs to the joint called `name`. -/
def Robot.Covers (r : Robot K) (name : String) (d : Nat) : Prop :=
  ∃ j, r.vJoint name = .ok j ∧ j.idxV ≤ d ∧ d < j.idxV + j.nV

/-- The last call naming the joint of `d` was `mask_dof` (specification, read from the end of the
history; the list is the history in reverse order). -/
def LastMasked (r : Robot K) (d : Nat) : List (Op K) → Prop
  | [] => False
  | .mask n :: before => r.Covers n d ∨ LastMasked r d before
  | .unmask n :: before => ¬ r.Covers n d ∧ LastMasked r d before
  | _ :: before => LastMasked r d before

/-- The last `mask_fbase` call of a (reversed) history had argument true. -/
def LastFbase : List (Op K) → Prop
  | [] => False
  | .maskFbase b :: _ => b = true
  | _ :: before => LastFbase before

theorem foldl_insert (base n : Nat) : ∀ (l : List Nat) (d : Nat),
    d ∈ (List.range n).foldl (fun l i => l.insert (base + i)) l ↔ (base ≤ d ∧ d < base + n) ∨ d ∈ l := by
  induction n with
  | zero => intro l d; simp
  | succ n ih =>
    intro l d
    rw [List.range_succ, List.foldl_append]
    simp only [List.foldl_cons, List.foldl_nil, List.mem_insert_iff, ih]
    constructor
    · rintro (h | h | h)
      · left; omega
      · left; omega
      · exact Or.inr h
    · rintro (h | h)
      · by_cases h' : d = base + n
        · exact Or.inl h'
        · right; left; omega
      · exact Or.inr (Or.inr h)

theorem foldl_filter (base n : Nat) : ∀ (l : List Nat) (d : Nat),
    d ∈ (List.range n).foldl (fun l i => l.filter (· ≠ base + i)) l ↔ ¬ (base ≤ d ∧ d < base + n) ∧ d ∈ l := by
  induction n with
  | zero => intro l d; simp
  | succ n ih =>
    intro l d
    rw [List.range_succ, List.foldl_append]
    simp only [List.foldl_cons, List.foldl_nil, List.mem_filter, ih, decide_eq_true_eq]
    constructor
    · rintro ⟨⟨h1, h2⟩, h3⟩
      exact ⟨by omega, h2⟩
    · rintro ⟨h1, h2⟩
      exact ⟨⟨by omega, h2⟩, by omega⟩

theorem mem_maskDof (r : Robot K) (s : KState K) (n : String) (d : Nat) :
    d ∈ (maskDof r s n).1.maskedDof ↔ r.Covers n d ∨ d ∈ s.maskedDof := by
  unfold maskDof Robot.Covers
  cases h : r.vJoint n with
  | error e => simp
  | ok j => simp [foldl_insert]

theorem mem_unmaskDof (r : Robot K) (s : KState K) (n : String) (d : Nat) :
    d ∈ (unmaskDof r s n).1.maskedDof ↔ ¬ r.Covers n d ∧ d ∈ s.maskedDof := by
  unfold unmaskDof Robot.Covers
  cases h : r.vJoint n with
  | error e => simp
  | ok j =>
    have := foldl_filter j.idxV j.nV s.maskedDof d
    simp only [ne_eq, decide_not] at this ⊢
    rw [this]
    simp

/-- After any history the set of masked degrees of freedom is exactly what the last calls say. -/
theorem C45_history (env : QPEnv K) (r : Robot K) (s : KState K) (hs : s.Fresh) (ops : List (Op K))
    (hf : OpsFit r.nv ops) (d : Nat) :
    (d ∈ (run env r s ops).maskedDof ↔ LastMasked r d ops.reverse) ∧
    ((run env r s ops).maskedFbase = true ↔ LastFbase ops.reverse) := by
  induction ops using List.reverseRecOn with
  | nil => simp [run, hs.2.2.2.1, hs.2.2.2.2.1, LastMasked, LastFbase]
  | append_singleton ops op ih =>
    have hf' : OpsFit r.nv ops := fun t c a hm => hf t c a (List.mem_append_left _ hm)
    have ih := ih hf'
    have hv := run_vars env r ops s hf' (hs.vars _)
    rw [run_snoc, List.reverse_append, List.reverse_singleton, List.singleton_append]
    cases op with
    | mask n =>
      simp only [step, LastMasked, LastFbase, mem_maskDof, ih.1]
      exact ⟨trivial, by rw [maskDof_frame]; exact ih.2⟩
    | unmask n =>
      simp only [step, LastMasked, LastFbase, mem_unmaskDof, ih.1]
      exact ⟨trivial, by rw [unmaskDof_frame]; exact ih.2⟩
    | maskFbase b => exact ⟨ih.1, Iff.rfl⟩
    | solve t c a =>
      have := (solve_spec' env r t c a _ hv (hf t c a (by simp) _)).2.1
      simp only [step, LastMasked, LastFbase]
      rw [this.maskedDof, this.maskedFbase]
      exact ih
    | _ => exact ih

/-- C45, first half: after any history, every step of a solve has zero at the degrees of freedom
masked by the last calls naming them, and on the floating base if it is masked. -/
theorem C45 (env : QPEnv K) (hS : env.Sound) (r : Robot K) (s : KState K) (hs : s.Fresh) (ops : List (Op K))
    (hf : OpsFit r.nv ops) (tasks : List (Task K)) (cons : List (KConstraint K)) (apply : Bool)
    (hfit : ∀ rs, TasksFit r.nv rs tasks) (s' : KState K) (dq : Nat → K)
    (h : solve env r tasks cons apply (run env r s ops) = (s', .ok dq)) :
    (∀ d, LastMasked r d ops.reverse → dq d = 0) ∧ (LastFbase ops.reverse → ∀ k, k < 6 → dq k = 0) := by
  have hv := run_vars env r ops s hf (hs.vars _)
  obtain ⟨-, -, -, hA⟩ := solve_spec env r tasks cons apply _ s' _ hv (hfit _) h
  obtain ⟨x, A⟩ := hA hS dq rfl
  obtain ⟨m1, m2⟩ := A.masks
  refine ⟨fun d hd => ?_, fun hb k hk => ?_⟩
  · have := m1 d ((C45_history env r s hs ops hf d).1.2 hd)
    rw [A.dq_eq d this.1, this.2]
  · have := m2 ((C45_history env r s hs ops hf 0).2.2 hb)
    rw [A.dq_eq k (by omega), this.2 k hk]

/-- C45, second half: no other degree of freedom is forced to zero by the masks. The masking
constraints of the state reached hold at `x` exactly if `x` vanishes on what is masked; in
particular every step vanishing there is allowed. -/
theorem C45_only (env : QPEnv K) (r : Robot K) (s : KState K) (hs : s.Fresh) (ops : List (Op K))
    (hf : OpsFit r.nv ops) (l : List (Constr K))
    (h : maskConstraints (run env r s ops) ⟨0, r.nv⟩ = .ok l) (x : Nat → K) :
    (∀ c ∈ l, c.priority = .hard) ∧ ((∀ c ∈ l, c.Sat x) ↔
      (∀ d, LastMasked r d ops.reverse → x d = 0) ∧ (LastFbase ops.reverse → ∀ k, k < 6 → x k = 0)) := by
  obtain ⟨m1, -, -, m2⟩ := mask_spec r.nv _ l h
  refine ⟨m1, ?_⟩
  have hl : (∀ c ∈ l, c.Sat x) ↔ HardSat l x := ⟨fun H c hc _ => H c hc, fun H c hc => H c hc (m1 c hc)⟩
  rw [hl, m2, (C45_history env r s hs ops hf 0).2]
  exact and_congr ⟨fun H d hd => H d ((C45_history env r s hs ops hf d).1.2 hd),
    fun H d hd => H d ((C45_history env r s hs ops hf d).1.1 hd)⟩ Iff.rfl

/-- The masks of known joints can always be built: nothing raises. -/
theorem C45_total (nv : Nat) (s : KState K) (h : ∀ d ∈ s.maskedDof, d < nv) (h6 : s.maskedFbase = true → 6 ≤ nv) :
    ∃ l, maskConstraints s ⟨0, nv⟩ = .ok l := by
  unfold maskConstraints
  have h1 : ∀ md : List Nat, (∀ d ∈ md, d < nv) → ∃ l, md.mapM
      (fun (j : Nat) => (do let e ← (⟨0, nv⟩ : Var).expr (j : Int) 1; e.eqDouble 0 : Except Err (Constr K))) = .ok l := by
    intro md
    induction md with
    | nil => intro _; exact ⟨[], rfl⟩
    | cons d md ih =>
      intro hd
      obtain ⟨l, hl⟩ := ih fun d h => hd d (List.mem_cons_of_mem _ h)
      have := var_expr (K := K) ⟨0, nv⟩ d 1 (by have := hd d (List.mem_cons_self ..); show 0 + d + 1 ≤ nv; omega)
      obtain ⟨c', hc1, -⟩ := eqDouble_zero (⟨1, nv, fun k j => if j = 0 + d + k then 1 else 0, fun _ => 0⟩ : Expr K) 0
      refine ⟨c' :: l, ?_⟩
      rw [List.mapM_cons, hl]
      rw [show (1 : Int) = ((1 : Nat) : Int) from rfl, this]
      simp only [bind, Except.bind]
      rw [hc1]; rfl
  obtain ⟨l, hl⟩ := h1 _ h
  rw [hl]
  by_cases hb : s.maskedFbase = true
  · have := var_expr (K := K) ⟨0, nv⟩ 0 6 (by have := h6 hb; show 0 + 0 + 6 ≤ nv; omega)
    obtain ⟨c', hc1, -⟩ := eqDouble_zero (⟨6, nv, fun k j => if j = 0 + 0 + k then 1 else 0, fun _ => 0⟩ : Expr K) 0
    refine ⟨l ++ [c'], ?_⟩
    simp only [hb, if_true, bind, Except.bind]
    rw [show ((⟨0, nv⟩ : Var).expr 0 6 : Except Err (Expr K)) = (⟨0, nv⟩ : Var).expr ((0 : Nat) : Int) ((6 : Nat) : Int)
      from rfl, this]
    simp only
    rw [hc1]; rfl
  · refine ⟨l ++ [], ?_⟩
    simp only [hb, bind, Except.bind]; rfl

/-! ## C46: scaled tasks -/

/-- All scaled tasks of an accepted step are achieved with one common scale in `[0, 1]`, which is the
one reported by the solver. -/
theorem C46 (env : QPEnv K) (hS : env.Sound) (r : Robot K)
    (tasks : List (Task K)) (cons : List (KConstraint K)) (apply : Bool) (s s' : KState K) (dq : Nat → K)
    (hv : VarsOK r.nv s.prob s.qdVar s.scaleVar)
    (hfit : ∀ t ∈ tasks, ∀ M, t.update s.robot = .ok M → 0 < M.cols ∧ M.cols ≤ r.nv)
    (h : solve env r tasks cons apply s = (s', .ok dq)) :
    (s'.hasScaling = true ↔ ∃ t ∈ tasks, t.priority = .scaled ∧ ∃ M, t.update s.robot = .ok M ∧ M.rows ≠ 0) ∧
    (s'.hasScaling = true → 0 ≤ s'.scale ∧ s'.scale ≤ 1) ∧
    ∀ t ∈ tasks, t.priority = .scaled → ∃ M, t.update s.robot = .ok M ∧
      ∀ i, i < M.rows → ∑ j ∈ range M.cols, M.A i j * dq j = s'.scale * M.b i := by
  obtain ⟨-, -, -, hA⟩ := solve_spec env r tasks cons apply s s' _ hv (fun t ht M hM => (hfit t ht M hM).2) h
  obtain ⟨x, A⟩ := hA hS dq rfl
  have hsc : s'.hasScaling = true ↔ ∃ t ∈ tasks, t.priority = .scaled ∧ ∃ M, t.update s.robot = .ok M ∧ M.rows ≠ 0 := by
    rw [A.hasScaling, List.any_eq_true]
    refine exists_congr fun t => and_congr Iff.rfl ?_
    unfold Task.isScaled
    cases t.update s.robot with
    | error e => simp
    | ok M => simp
  obtain ⟨taskCs, others, sc, n, -, -, -, -, -, hts, -, hmean, -⟩ := A.hard
  have hm := ((hmean (fun t ht M hM => (hfit t ht M hM).1) x).1).1 hts
  refine ⟨hsc, fun hs => ?_, fun t ht hp => ?_⟩
  · rw [A.scale hs]; exact hm.2 hs
  · obtain ⟨M, hM⟩ := A.updates t ht
    refine ⟨M, hM, fun i hi => ?_⟩
    have hs : s'.hasScaling = true := hsc.2 ⟨t, ht, hp, M, hM, by omega⟩
    rw [A.scale hs, ← (hm.1 t ht M hM i hi).2 hp]
    unfold TaskMat.app
    refine Finset.sum_congr rfl fun j hj => ?_
    rw [A.dq_eq j (by have := (hfit t ht M hM).2; have := Finset.mem_range.1 hj; omega)]

/-! ## C95: hard tasks -/

/-- Hard tasks are achieved exactly by every accepted step. -/
theorem C95 (env : QPEnv K) (hS : env.Sound) (r : Robot K)
    (tasks : List (Task K)) (cons : List (KConstraint K)) (apply : Bool) (s s' : KState K) (dq : Nat → K)
    (hv : VarsOK r.nv s.prob s.qdVar s.scaleVar)
    (hfit : ∀ t ∈ tasks, ∀ M, t.update s.robot = .ok M → 0 < M.cols ∧ M.cols ≤ r.nv)
    (h : solve env r tasks cons apply s = (s', .ok dq)) :
    ∀ t ∈ tasks, t.priority = .hard → ∃ M, t.update s.robot = .ok M ∧
      ∀ i, i < M.rows → ∑ j ∈ range M.cols, M.A i j * dq j = M.b i := by
  obtain ⟨-, -, -, hA⟩ := solve_spec env r tasks cons apply s s' _ hv (fun t ht M hM => (hfit t ht M hM).2) h
  obtain ⟨x, A⟩ := hA hS dq rfl
  obtain ⟨taskCs, others, sc, n, -, -, -, -, -, hts, -, hmean, -⟩ := A.hard
  have hm := ((hmean (fun t ht M hM => (hfit t ht M hM).1) x).1).1 hts
  intro t ht hp
  obtain ⟨M, hM⟩ := A.updates t ht
  refine ⟨M, hM, fun i hi => ?_⟩
  rw [← (hm.1 t ht M hM i hi).1 hp]
  unfold TaskMat.app
  refine Finset.sum_congr rfl fun j hj => ?_
  rw [A.dq_eq j (by have := (hfit t ht M hM).2; have := Finset.mem_range.1 hj; omega)]

/-! ## C56: effect of a solve on the robot -/

theorem ensureQd_robot (r : Robot K) (s : KState K) : (ensureQd r s).robot = s.robot ∧ (ensureQd r s).dt = s.dt := by
  unfold ensureQd
  cases s.qdVar <;> exact ⟨rfl, rfl⟩

theorem finish_robot (env : QPEnv K) (r : Robot K) (apply : Bool) (cs : List (Constr K)) (s : KState K) :
    (∀ e, (finish env r apply cs s).2 = .error e → (finish env r apply cs s).1.robot = s.robot) ∧
    (∀ dq, (finish env r apply cs s).2 = .ok dq → (finish env r apply cs s).1.robot =
      if apply then applyStep r s.dt s.robot dq else s.robot) := by
  unfold finish
  simp only
  cases (Problem.solve (env.settings s.prob.1) env.qr env.oracle env.tol cs ⟨s.prob.2, []⟩).2 with
  | error e => exact ⟨fun _ _ => rfl, fun dq h => by cases h⟩
  | ok _ => exact ⟨fun e h => (by cases h), fun dq h => by cases h; rfl⟩

/-- What a `solve` does to the robot, for any state, any tasks and any behaviour of the external
solvers: nothing if it raises or if `apply` is false; otherwise the configuration is integrated by the
returned step, and, if `dt > 0`, velocity and acceleration are the finite differences. -/
theorem C56 (env : QPEnv K) (r : Robot K) (tasks : List (Task K)) (cons : List (KConstraint K)) (apply : Bool)
    (s s' : KState K) (res : Except Err (Nat → K)) (h : solve env r tasks cons apply s = (s', res)) :
    (∀ e, res = .error e → s'.robot = s.robot) ∧
    (apply = false → s'.robot = s.robot) ∧
    (∀ dq, res = .ok dq → apply = true →
      s'.robot.q = r.integrate s.robot.q dq ∧
      (0 < s.dt → ∀ i, s'.robot.qd i * s.dt = r.difference s.robot.q s'.robot.q i ∧
        s'.robot.qdd i * s.dt = s'.robot.qd i - s.robot.qd i) ∧
      (¬ 0 < s.dt → s'.robot.qd = s.robot.qd ∧ s'.robot.qdd = s.robot.qdd)) := by
  have key : (∀ e, res = .error e → s'.robot = s.robot) ∧
      (∀ dq, res = .ok dq → s'.robot = if apply then applyStep r s.dt s.robot dq else s.robot) := by
    obtain ⟨hr, hd⟩ := ensureQd_robot r s
    unfold solve at h
    simp only at h
    cases hrt : (runTasks (ensureQd r s).robot ⟨(ensureQd r s).prob, (ensureQd r s).scaleVar, false, []⟩ tasks).2 with
    | some e =>
      rw [hrt] at h; cases h
      exact ⟨fun _ _ => hr, fun dq h => by cases h⟩
    | none =>
      rw [hrt] at h
      simp only at h
      unfold afterTasks at h
      split at h
      · cases h; exact ⟨fun _ _ => hr, fun dq h => by cases h⟩
      · rename_i l hl
        have hf := finish_robot env r apply ((runTasks (ensureQd r s).robot ⟨(ensureQd r s).prob, (ensureQd r s).scaleVar, false, []⟩ tasks).1.cs ++ l)
          { ensureQd r s with
            prob := (runTasks (ensureQd r s).robot ⟨(ensureQd r s).prob, (ensureQd r s).scaleVar, false, []⟩ tasks).1.prob
            scaleVar := (runTasks (ensureQd r s).robot ⟨(ensureQd r s).prob, (ensureQd r s).scaleVar, false, []⟩ tasks).1.scaleVar
            hasScaling := (runTasks (ensureQd r s).robot ⟨(ensureQd r s).prob, (ensureQd r s).scaleVar, false, []⟩ tasks).1.hasScaling }
        rw [h] at hf
        simp only [hr, hd] at hf
        exact hf
  refine ⟨key.1, fun ha => ?_, fun dq hdq ha => ?_⟩
  · cases res with
    | error e => exact key.1 e rfl
    | ok dq => rw [key.2 dq rfl, ha]; rfl
  · rw [key.2 dq hdq, ha, if_pos rfl]
    unfold applyStep
    by_cases hdt : 0 < s.dt
    · rw [if_pos hdt]
      refine ⟨rfl, fun _ i => ⟨?_, ?_⟩, fun h => absurd hdt h⟩
      · exact div_mul_cancel₀ _ hdt.ne'
      · exact div_mul_cancel₀ _ hdt.ne'
    · rw [if_neg hdt]
      exact ⟨rfl, fun h => absurd h hdt, fun _ => ⟨rfl, rfl⟩⟩

/-! ## C96: optimality -/

/-- The steps (and scale) allowed by the documentation: hard tasks met, scaled tasks met up to the
scale, masked degrees of freedom still, limits respected. -/
structure Admissible (r : Robot K) (tasks : List (Task K)) (s : KState K) (scaling : Bool) (y : Nat → K) (σ : K) : Prop where
  tasks : ∀ t ∈ tasks, TaskHard s.robot t y σ
  scale : scaling = true → 0 ≤ σ ∧ σ ≤ 1
  masked : ∀ d ∈ s.maskedDof, y d = 0
  fbase : s.maskedFbase = true → ∀ k, k < 6 → y k = 0
  joint : s.jointLimits = true → ∀ i, i < r.nv - 6 →
    s.robot.q (r.nq - (r.nv - 6) + i) + y (6 + i) ≤ r.upper (r.nq - (r.nv - 6) + i) ∧
    r.lower (r.nq - (r.nv - 6) + i) ≤ s.robot.q (r.nq - (r.nv - 6) + i) + y (6 + i)
  velocity : s.velocityLimits = true → ∀ i, i < r.nv - 6 →
    y (6 + i) ≤ s.dt * r.vlim (6 + i) ∧ -(s.dt * r.vlim (6 + i)) ≤ y (6 + i)

/-- The documented cost: regularisation, weighted squared errors of the soft tasks, and the distance
of the scale to 1. -/
def ikCost (nv : Nat) (reg : K) (tasks : List (Task K)) (robot : RState K) (scaling : Bool) (y : Nat → K) (σ : K) : K :=
  reg * ((∑ k ∈ range nv, y k ^ 2) + if scaling then σ ^ 2 else 0) + (tasks.map fun t => taskCost robot t y).sum +
    if scaling then (σ - 1) ^ 2 else 0

theorem TaskHard_congr (nv : Nat) (robot : RState K) (t : Task K) (hc : ∀ M, t.update robot = .ok M → M.cols ≤ nv)
    (x y : Nat → K) (σ : K) (h : ∀ k, k < nv → x k = y k) : TaskHard robot t x σ ↔ TaskHard robot t y σ := by
  unfold TaskHard
  refine forall_congr' fun M => forall_congr' fun hM => forall_congr' fun i => forall_congr' fun hi => ?_
  have : M.app x i = M.app y i := by
    unfold TaskMat.app
    refine Finset.sum_congr rfl fun j hj => ?_
    rw [h j (lt_of_lt_of_le (Finset.mem_range.1 hj) (hc M hM))]
  rw [this]

theorem taskCost_congr (nv : Nat) (robot : RState K) (t : Task K) (hc : ∀ M, t.update robot = .ok M → M.cols ≤ nv)
    (x y : Nat → K) (h : ∀ k, k < nv → x k = y k) : taskCost robot t x = taskCost robot t y := by
  unfold taskCost
  cases hM : t.update robot with
  | error e => rfl
  | ok M =>
    simp only
    have : ∀ i, M.app x i = M.app y i := by
      intro i
      unfold TaskMat.app
      refine Finset.sum_congr rfl fun j hj => ?_
      rw [h j (lt_of_lt_of_le (Finset.mem_range.1 hj) (hc M hM))]
    simp [this]

/-- Without user constraints, and with an optimal QP solver, the returned step and scale are admissible
and minimise the documented cost over all admissible steps and scales. -/
theorem C96 (env : QPEnv K) (hS : env.Sound) (hO : env.Optimal) (hreg : 0 ≤ env.regularization) (r : Robot K)
    (hL : r.Layout) (hsize : ∀ j ∈ r.joints, j.nV ≤ j.nQ)
    (tasks : List (Task K)) (apply : Bool) (s s' : KState K) (dq : Nat → K)
    (hv : VarsOK r.nv s.prob s.qdVar s.scaleVar)
    (hfit : ∀ t ∈ tasks, ∀ M, t.update s.robot = .ok M → 0 < M.cols ∧ M.cols ≤ r.nv)
    (h : solve env r tasks [] apply s = (s', .ok dq)) :
    Admissible r tasks s s'.hasScaling dq s'.scale ∧
    ∀ y σ, Admissible r tasks s s'.hasScaling y σ →
      ikCost r.nv env.regularization tasks s.robot s'.hasScaling dq s'.scale
        ≤ ikCost r.nv env.regularization tasks s.robot s'.hasScaling y σ := by
  have hfit2 : TasksFit r.nv s.robot tasks := fun t ht M hM => (hfit t ht M hM).2
  obtain ⟨-, -, -, hA⟩ := solve_spec env r tasks [] apply s s' _ hv hfit2 h
  obtain ⟨x, A⟩ := hA hS dq rfl
  have hle := sum_le_of_forall r.joints hsize
  have hqv : r.nv - 6 ≤ r.nq := by have := hL.nq; have := hL.nv; omega
  obtain ⟨taskCs, others, sc, n, ho, hrob, hcfg, hn, hn1, hts, hos, hmean, hopt, hse⟩ := A.hard
  have hmean := hmean fun t ht M hM => (hfit t ht M hM).1
  obtain ⟨m, lim, cl, h1, h2, h3, rfl⟩ := other_spec r [] sc _ others ho
  have hcl : cl = [] := by cases h3; rfl
  subst hcl
  obtain ⟨m1, m2, m3, m4⟩ := mask_spec r.nv sc m h1
  obtain ⟨l1, l2, l3⟩ := limits_spec r sc lim h2 hqv
  rw [hcfg.maskedDof] at m2
  rw [hcfg.maskedFbase] at m3
  simp only [hcfg.maskedDof, hcfg.maskedFbase] at m4
  simp only [hcfg.velocityLimits, hcfg.jointLimits, hcfg.dt, hrob] at l3
  have hohard : ∀ c ∈ m ++ lim ++ ([] : List (List (Constr K))).flatten, c.priority = .hard := by
    intro c hc
    simp only [List.flatten_nil, List.append_nil, List.mem_append] at hc
    rcases hc with hc | hc
    · exact m1 c hc
    · exact l2 c hc
  have hall : ∀ y, HardSat (m ++ lim ++ ([] : List (List (Constr K))).flatten) y ↔ HardSat m y ∧ HardSat lim y := by
    intro y; simp only [List.flatten_nil, List.append_nil]; exact HardSat_append _ _ _
  have hpo : ∀ y, pen (m ++ lim ++ ([] : List (List (Constr K))).flatten) y = 0 := by
    intro y
    unfold pen
    refine List.sum_eq_zero fun c hc => ?_
    obtain ⟨c', hc', rfl⟩ := List.mem_map.1 hc
    unfold softPenalty
    rw [hohard c' hc']
  have hopt := hopt hO (by
    intro c hc hp ht
    rcases List.mem_append.1 hc with hc | hc
    · have := hse c hc hp; rw [ht] at this; cases this
    · rw [hohard c hc] at hp; cases hp)
  have hcost : ∀ y, specCost n env.regularization (taskCs ++ (m ++ lim ++ ([] : List (List (Constr K))).flatten)) y =
      env.regularization * (∑ j ∈ range n, y j ^ 2) + ((tasks.map fun t => taskCost s.robot t y).sum
        + if s'.hasScaling = true then (y r.nv - 1) ^ 2 else 0) := by
    intro y
    unfold specCost
    rw [show ((taskCs ++ (m ++ lim ++ ([] : List (List (Constr K))).flatten)).map (softPenalty y)).sum =
      pen (taskCs ++ (m ++ lim ++ ([] : List (List (Constr K))).flatten)) y from rfl, pen_append, hpo, (hmean y).2, add_zero]
  have hxT := (hmean x).1.1 hts
  have hxo := (hall x).1 hos
  have hxm := (m4 x).1 hxo.1
  have hxl := (l3 x).1 hxo.2
  have hdx : ∀ k, k < r.nv → dq k = x k := A.dq_eq
  constructor
  · refine ⟨fun t ht => ?_, fun hs => ?_, fun d hd => ?_, fun hb k hk => ?_, fun hj i hi => ?_, fun hj i hi => ?_⟩
    · rw [TaskHard_congr r.nv s.robot t (fun M hM => (hfit t ht M hM).2) dq x _ hdx]
      by_cases hs : s'.hasScaling = true
      · rw [A.scale hs]; exact hxT.1 t ht
      · intro M hM i hi
        refine ⟨(hxT.1 t ht M hM i hi).1, fun hp => absurd ?_ hs⟩
        rw [A.hasScaling, List.any_eq_true]
        refine ⟨t, ht, ?_⟩
        unfold Task.isScaled
        rw [hM]
        simp only [hp, decide_true, Bool.true_and, decide_eq_true_eq]
        omega
    · rw [A.scale hs]; exact hxT.2 hs
    · rw [hdx d (m2 d hd)]; exact hxm.1 d hd
    · rw [hdx k (by have := m3 hb; omega)]; exact hxm.2 hb k hk
    · rw [hdx (6 + i) (by omega)]; exact hxl.1 hj i hi
    · rw [hdx (6 + i) (by omega)]; exact hxl.2 hj i hi
  · intro y σ hy
    -- extend the candidate with its scale
    set z : Nat → K := fun k => if k < r.nv then y k else if s'.hasScaling = true then σ else 0 with hz
    have hzy : ∀ k, k < r.nv → z k = y k := fun k hk => by simp [hz, hk]
    have hznv : z r.nv = if s'.hasScaling = true then σ else 0 := by simp [hz]
    have hzs : HardSat (taskCs ++ (m ++ lim ++ ([] : List (List (Constr K))).flatten)) z := by
      rw [HardSat_append, (hmean z).1, hall, m4, l3]
      refine ⟨⟨fun t ht => ?_, fun hs => ?_⟩, ⟨fun d hd => ?_, fun hb k hk => ?_⟩, fun hj i hi => ?_, fun hj i hi => ?_⟩
      · rw [TaskHard_congr r.nv s.robot t (fun M hM => (hfit t ht M hM).2) z y _ hzy]
        by_cases hs : s'.hasScaling = true
        · rw [hznv, if_pos hs]; exact hy.tasks t ht
        · intro M hM i hi
          refine ⟨(hy.tasks t ht M hM i hi).1, fun hp => absurd ?_ hs⟩
          rw [A.hasScaling, List.any_eq_true]
          refine ⟨t, ht, ?_⟩
          unfold Task.isScaled
          rw [hM]
          simp only [hp, decide_true, Bool.true_and, decide_eq_true_eq]
          omega
      · rw [hznv, if_pos hs]; exact hy.scale hs
      · rw [hzy d (m2 d hd)]; exact hy.masked d hd
      · rw [hzy k (by have := m3 hb; omega)]; exact hy.fbase hb k hk
      · rw [hzy (6 + i) (by omega)]; exact hy.joint hj i hi
      · rw [hzy (6 + i) (by omega)]; exact hy.velocity hj i hi
    have hle := hopt z hzs
    rw [hcost, hcost] at hle
    have hsq : ∑ k ∈ range r.nv, z k ^ 2 = ∑ k ∈ range r.nv, y k ^ 2 :=
      Finset.sum_congr rfl fun k hk => by rw [hzy k (Finset.mem_range.1 hk)]
    have hsx : ∑ k ∈ range r.nv, dq k ^ 2 = ∑ k ∈ range r.nv, x k ^ 2 :=
      Finset.sum_congr rfl fun k hk => by rw [hdx k (Finset.mem_range.1 hk)]
    have htz : (tasks.map fun t => taskCost s.robot t z) = tasks.map fun t => taskCost s.robot t y :=
      List.map_congr_left fun t ht => taskCost_congr r.nv s.robot t (fun M hM => (hfit t ht M hM).2) z y hzy
    have htx : (tasks.map fun t => taskCost s.robot t dq) = tasks.map fun t => taskCost s.robot t x :=
      List.map_congr_left fun t ht => taskCost_congr r.nv s.robot t (fun M hM => (hfit t ht M hM).2) dq x hdx
    unfold ikCost
    rw [htx, hsx]
    rw [htz] at hle
    by_cases hs : s'.hasScaling = true
    · rw [hn1 hs, Finset.sum_range_succ, Finset.sum_range_succ, hsq, hznv] at hle
      simp only [hs, if_true] at hle ⊢
      rw [A.scale hs]
      linarith
    · simp only [hs, if_false, Bool.false_eq_true] at hle ⊢
      have hx0 : ∑ k ∈ range r.nv, x k ^ 2 ≤ ∑ k ∈ range n, x k ^ 2 := by
        rcases hn with rfl | rfl
        · exact le_refl _
        · rw [Finset.sum_range_succ]; have := sq_nonneg (x r.nv); linarith
      have hz0 : ∑ k ∈ range n, z k ^ 2 = ∑ k ∈ range r.nv, y k ^ 2 := by
        rcases hn with hn | hn
        · rw [hn]; exact hsq
        · rw [hn, Finset.sum_range_succ, hsq, hznv]; simp [hs]
      rw [hz0] at hle
      have := mul_le_mul_of_nonneg_left hx0 hreg
      linarith

end
end Verif.Kinematics
