/-
Model of `placo::kinematics::KinematicsSolver` (the solving part).
  /repo/src/placo/kinematics/kinematics_solver.{h,cpp}
  /repo/src/placo/kinematics/task.h, constraint.h

pinocchio (`integrate`, `difference`, the joint layout) is a parameter; its
contract is stated in the property files.
-/
import Verif.Problem.Problem
import Verif.Tools.Mask

namespace Verif.Kinematics
open Finset Verif.Problem

/-- One entry of `model.joints` / `model.names` (the root joint and the universe
are not listed). pinocchio, read in kinematics_solver.cpp 290-311. -/
structure Joint where
  name : String
  idxQ : Nat
  nQ : Nat
  idxV : Nat
  nV : Nat
  deriving DecidableEq

/-- What the solver uses of `RobotWrapper` apart from its state: pinocchio's model
and its `integrate` / `difference`. Read in kinematics_solver.cpp 254-421. -/
structure Robot (K : Type) where
  nq : Nat
  nv : Nat
  joints : List Joint
  lower : Nat → K
  upper : Nat → K
  vlim : Nat → K
  integrate : (Nat → K) → (Nat → K) → (Nat → K)
  difference : (Nat → K) → (Nat → K) → (Nat → K)

/-- `model.getJointId(name)` followed by an access to `model.joints`, as done by
`get_joint_v_offset` / `get_joint_v_size`, robot_wrapper.cpp 215-225. For an
unknown name `getJointId` returns `model.njoints` and the access is out of range. -/
def Robot.vJoint {K : Type} (r : Robot K) (name : String) : Except Err Joint :=
  match r.joints.find? (fun j => j.name = name) with
  | some j => .ok j
  | none => .error .ub

/-- `RobotWrapper::State`. robot_wrapper.h 59-73. -/
structure RState (K : Type) where
  q : Nat → K
  qd : Nat → K
  qdd : Nat → K

section
variable {K : Type} [Field K]

/-- `v.bottomRows(m)` of a vector of `size` entries.
Eigen, used in kinematics_solver.cpp 290-311. -/
def bottomRows (size : Nat) (m : Int) (v : Nat → K) : Except Err (Vec K) :=
  if 0 ≤ m ∧ m ≤ (size : Int) then .ok ⟨m.toNat, fun i => v (size - m.toNat + i)⟩ else .error .ub

/-- `A` and `b` of a `Task` after `update()`, task.h 38-46. Simplification:
`A.rows() = b.rows()` and `b` has one column (true of every task of the library). -/
structure TaskMat (K : Type) where
  rows : Nat
  cols : Nat
  A : Nat → Nat → K
  b : Nat → K

/-- A `Task` (task.h): its priority, weight, and `update()` as a function of the
robot state. kinematics/task.h 23-74. -/
structure Task (K : Type) where
  priority : Tools.Priority
  weight : K
  update : RState K → Except Err (TaskMat K)

/-- The members of `KinematicsSolver` and the robot state. `prob` is
`(problem.n_variables, problem.variables)`; `qdVar`, `scaleVar` are indices in it.
`maskedDof` is the `std::set<int>` without repetition (its iteration order is
irrelevant to the result, see C20). kinematics_solver.h 440-527. -/
structure KState (K : Type) where
  robot : RState K
  prob : Nat × List (VarState K) := (0, [])
  qdVar : Option Nat := none
  scaleVar : Option Nat := none
  maskedDof : List Nat := []
  maskedFbase : Bool := false
  jointLimits : Bool := true
  velocityLimits : Bool := false
  dt : K
  scale : K
  hasScaling : Bool := false

/-- A `Constraint` (constraint.h): what `add_constraint(problem)` adds, from the
solver state. kinematics/constraint.h 9-23. -/
structure KConstraint (K : Type) where
  add : KState K → Except Err (List (Constr K))

/-- Settings of the underlying `Problem` and its external solvers. `use_sparsity`
is false (kinematics_solver.cpp 15). -/
structure QPEnv (K : Type) where
  regularization : K
  rewriteEqualities : Bool
  eps : K
  tol : K
  qr : Nat → EqSt K → QR K
  oracle : QP K → QPResult K

/-- The `problem::Problem` settings for `n` variables.
kinematics_solver.cpp 12-16, problem.h 62-121. -/
def QPEnv.settings (env : QPEnv K) (n : Nat) : Settings K :=
  ⟨n, env.regularization, false, env.rewriteEqualities, env.eps⟩

/-! ## Masks -/

/-- `mask_dof`, kinematics_solver.cpp 254-260. -/
def maskDof (r : Robot K) (s : KState K) (dof : String) : KState K × Option Err :=
  match r.vJoint dof with
  | .error e => (s, some e)
  | .ok j => ({ s with maskedDof := (List.range j.nV).foldl (fun l i => l.insert (j.idxV + i)) s.maskedDof }, none)

/-- `unmask_dof`, kinematics_solver.cpp 262-268. -/
def unmaskDof (r : Robot K) (s : KState K) (dof : String) : KState K × Option Err :=
  match r.vJoint dof with
  | .error e => (s, some e)
  | .ok j => ({ s with
      maskedDof := (List.range j.nV).foldl (fun l i => l.filter (· ≠ j.idxV + i)) s.maskedDof }, none)

/-! ## Limits -/

/-- `Variable` pointed to by a variable index of the problem. kinematics_solver.h 508-509. -/
def varAt (prob : Nat × List (VarState K)) (i : Nat) : Var := (prob.2.getD i ⟨⟨0, 0⟩, 0, []⟩).var

/-- `compute_limits_inequalities`, kinematics_solver.cpp 290-311. -/
def limitsInequalities [LinearOrder K] (r : Robot K) (s : KState K) (qd : Var) : Except Err (List (Constr K)) := do
  if s.velocityLimits ∧ s.dt = 0 then throw .runtimeError
  let m : Int := (r.nv : Int) - 6
  let jl ← if s.jointLimits then do
      let e ← qd.expr 6 (-1)
      let e1 ← e.addVec (← bottomRows r.nq m s.robot.q)
      let c1 ← e1.leVec (← bottomRows r.nq m r.upper)
      let c2 ← Expr.vecLe (← bottomRows r.nq m r.lower) e1
      pure [c1, c2]
    else pure []
  let vl ← if s.velocityLimits then do
      let e ← qd.expr 6 (-1)
      let c1 ← e.leVec (← bottomRows r.nv m fun i => s.dt * r.vlim i)
      let c2 ← Expr.vecLe (← bottomRows r.nv m fun i => -s.dt * r.vlim i) e
      pure [c1, c2]
    else pure []
  pure (jl ++ vl)

/-! ## Tasks -/

/-- State of the loop over the tasks. kinematics_solver.cpp 327-376. -/
structure LoopSt (K : Type) where
  prob : Nat × List (VarState K)
  scaleVar : Option Nat
  hasScaling : Bool
  cs : List (Constr K)

/-- The three constraints on the scale variable, kinematics_solver.cpp 355-357. -/
def scaleConstraints (v : Var) : Except Err (List (Constr K)) := do
  let e ← v.expr (-1) (-1)
  let c1 ← e.geDouble 0
  let c2 ← e.leDouble 1
  let c3 ← e.eqDouble 1
  pure [c1, c2, c3.configureP .soft 1]

/-- First use of a scaled task in a solve, kinematics_solver.cpp 346-358. -/
def ensureScale (st : LoopSt K) : LoopSt K × Option Err :=
  if st.hasScaling then (st, none)
  else
    let st := match st.scaleVar with
      | some i => { st with hasScaling := true, scaleVar := some i }
      | none => { st with hasScaling := true, scaleVar := some st.prob.2.length, prob := addVariable st.prob 1 }
    match scaleConstraints (varAt st.prob (st.scaleVar.getD 0)) with
    | .error e => (st, some e)
    | .ok l => ({ st with cs := st.cs ++ l }, none)

/-- kinematics_solver.cpp 359-363: `-(b * scale.expr() - A)`, with a zero constant part. -/
def scaledExpr (v : Var) (t : TaskMat K) : Except Err (Expr K) := do
  let e ← v.expr (-1) (-1)
  let m ← Expr.matMul ⟨t.rows, 1, fun i _ => t.b i⟩ e
  if t.cols ≤ m.cols then
    pure ⟨t.rows, m.cols, fun i j => -(if j < t.cols then m.A i j - t.A i j else m.A i j), fun _ => 0⟩
  else throw .ub

/-- kinematics_solver.cpp 340, 368, 372: `e.A = task->A`, `e.b = -task->b`. -/
def plainExpr (t : TaskMat K) : Expr K := ⟨t.rows, t.cols, t.A, fun i => -(t.b i)⟩

/-- Body of the loop over tasks, kinematics_solver.cpp 328-375. -/
def taskStep (robot : RState K) (st : LoopSt K) (task : Task K) : LoopSt K × Option Err :=
  match task.update robot with
  | .error e => (st, some e)
  | .ok t =>
    if t.rows = 0 then (st, none)
    else if task.priority = .scaled then
      match ensureScale st with
      | (st, some e) => (st, some e)
      | (st, none) =>
        match scaledExpr (varAt st.prob (st.scaleVar.getD 0)) t >>= (fun e => e.eqDouble 0) with
        | .error e => (st, some e)
        | .ok c => ({ st with cs := st.cs ++ [c.configureP .hard task.weight] }, none)
    else
      match (plainExpr t).eqDouble 0 with
      | .error e => (st, some e)
      | .ok c => ({ st with
          cs := st.cs ++ [c.configureP (if task.priority = .soft then .soft else .hard) task.weight] }, none)

/-- The loop over tasks, kinematics_solver.cpp 327-376. -/
def runTasks (robot : RState K) : LoopSt K → List (Task K) → LoopSt K × Option Err
  | st, [] => (st, none)
  | st, t :: ts =>
    match taskStep robot st t with
    | (st, some e) => (st, some e)
    | (st, none) => runTasks robot st ts

/-- kinematics_solver.cpp 379-387: masked degrees of freedom. -/
def maskConstraints (s : KState K) (qd : Var) : Except Err (List (Constr K)) := do
  let l ← s.maskedDof.mapM fun (j : Nat) => do
    let e ← qd.expr (j : Int) 1
    e.eqDouble 0
  let f ← if s.maskedFbase then do
      let e ← qd.expr 0 6
      let c ← e.eqDouble 0
      pure [c]
    else pure []
  pure (l ++ f)

/-- kinematics_solver.cpp 378-394: everything added to the problem after the tasks. -/
def otherConstraints [LinearOrder K] (r : Robot K) (cons : List (KConstraint K)) (s : KState K) (qd : Var) :
    Except Err (List (Constr K)) := do
  let m ← maskConstraints s qd
  let l ← limitsInequalities r s qd
  let c ← cons.mapM fun c => c.add s
  pure (m ++ l ++ c.flatten)

/-- kinematics_solver.cpp 315-319. -/
def ensureQd (r : Robot K) (s : KState K) : KState K :=
  match s.qdVar with
  | some _ => s
  | none => { s with qdVar := some s.prob.2.length, prob := addVariable s.prob r.nv }

/-- Value of an Eigen vector as a function. Eigen. -/
def ofList (l : List K) : Nat → K := fun i => l.getD i 0

/-- kinematics_solver.cpp 406-418: applying the step to the robot. -/
def applyStep [LinearOrder K] (r : Robot K) (dt : K) (s : RState K) (dq : Nat → K) : RState K :=
  let q' := r.integrate s.q dq
  if 0 < dt then
    let qd' := fun i => r.difference s.q q' i / dt
    ⟨q', qd', fun i => (qd' i - s.qd i) / dt⟩
  else { s with q := q' }

/-- kinematics_solver.cpp 396-420: solving the problem and applying the step. -/
def finish [LinearOrder K] (env : QPEnv K) (r : Robot K) (apply : Bool) (cs : List (Constr K)) (s : KState K) :
    KState K × Except Err (Nat → K) :=
  let res := Problem.solve (env.settings s.prob.1) env.qr env.oracle env.tol cs ⟨s.prob.2, []⟩
  let s : KState K := { s with prob := (s.prob.1, res.1.vars) }
  match res.2 with
  | .error e => (s, .error e)
  | .ok _ =>
    let dq := ofList (s.prob.2.getD (s.qdVar.getD 0) ⟨⟨0, 0⟩, 0, []⟩).value
    ({ s with
        scale := if s.hasScaling then
          ofList (s.prob.2.getD (s.scaleVar.getD 0) ⟨⟨0, 0⟩, 0, []⟩).value 0 else s.scale
        robot := if apply then applyStep r s.dt s.robot dq else s.robot }, .ok dq)

/-- kinematics_solver.cpp 378-420: what follows the loop over tasks, `taskCs` being the constraints added by it. -/
def afterTasks [LinearOrder K] (env : QPEnv K) (r : Robot K) (cons : List (KConstraint K)) (apply : Bool)
    (taskCs : List (Constr K)) (s : KState K) : KState K × Except Err (Nat → K) :=
  match otherConstraints r cons s (varAt s.prob (s.qdVar.getD 0)) with
  | .error e => (s, .error e)
  | .ok l => finish env r apply (taskCs ++ l) s

/-- `KinematicsSolver::solve`, kinematics_solver.cpp 313-421: the state reached, and
the returned `qd_sol` or the exception. -/
def solve [LinearOrder K] (env : QPEnv K) (r : Robot K) (tasks : List (Task K)) (cons : List (KConstraint K))
    (apply : Bool) (s : KState K) : KState K × Except Err (Nat → K) :=
  let s := ensureQd r s
  let res := runTasks s.robot ⟨s.prob, s.scaleVar, false, []⟩ tasks
  let s : KState K := { s with prob := res.1.prob, scaleVar := res.1.scaleVar, hasScaling := res.1.hasScaling }
  match res.2 with
  | some e => (s, .error e)
  | none => afterTasks env r cons apply res.1.cs s

/-- The public calls that change the solver or the robot. `setRobot` is the user (or another
component) writing the robot state; `setDt` writes the public member `dt`.
kinematics_solver.h 44-477. -/
inductive Op (K : Type) where
  | mask (dof : String)
  | unmask (dof : String)
  | maskFbase (b : Bool)
  | enableJointLimits (b : Bool)
  | enableVelocityLimits (b : Bool)
  | setDt (dt : K)
  | setRobot (s : RState K)
  | solve (tasks : List (Task K)) (cons : List (KConstraint K)) (apply : Bool)

/-- One call; a raised exception leaves the state reached. kinematics_solver.cpp 254-421. -/
def step [LinearOrder K] (env : QPEnv K) (r : Robot K) (s : KState K) : Op K → KState K
  | .mask d => (maskDof r s d).1
  | .unmask d => (unmaskDof r s d).1
  | .maskFbase b => { s with maskedFbase := b }
  | .enableJointLimits b => { s with jointLimits := b }
  | .enableVelocityLimits b => { s with velocityLimits := b }
  | .setDt dt => { s with dt := dt }
  | .setRobot rs => { s with robot := rs }
  | .solve ts cs a => (solve env r ts cs a s).1

/-- A history of calls. A program that calls the library. -/
def run [LinearOrder K] (env : QPEnv K) (r : Robot K) (s : KState K) (ops : List (Op K)) : KState K :=
  ops.foldl (step env r) s

end
end Verif.Kinematics
