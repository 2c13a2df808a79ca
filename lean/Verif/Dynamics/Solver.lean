/-
Model of `placo::dynamics::DynamicsSolver` (limits and solve).
  /repo/src/placo/dynamics/dynamics_solver.{h,cpp}
  /repo/src/placo/dynamics/task.h, constraint.h
  /repo/src/placo/model/robot_wrapper.cpp 694-710 (integrate)
-/
import Verif.Dynamics.Contacts

namespace Verif.Dynamics
open Finset Verif.Problem Verif.Kinematics

/-- What the solver uses of `RobotWrapper`, apart from its state.
Read in dynamics_solver.cpp 212-324 and 387-558. -/
structure DynRobot (K : Type) extends Robot K where
  /-- `mass_matrix()` -/
  mass : RState K → Nat → Nat → K
  /-- `generalized_gravity()` -/
  gravity : RState K → Nat → K
  /-- `non_linear_effects()` -/
  nle : RState K → Nat → K
  /-- `model.effortLimit` -/
  effort : Nat → K

/-- A dynamics `Task` (task.h): `A qdd = b`, or `A tau = b` when `tau_task`.
dynamics/task.h 12-82. -/
structure DTask (K : Type) where
  priority : Tools.Priority
  weight : K
  tauTask : Bool := false
  update : RState K → Except Err (TaskMat K)

/-- The members of `DynamicsSolver` and the robot state. `overrides` is the map
`overriden_torque_limits`; `qddSafe` is the map `qdd_safe`, whose `operator[]` yields 0 for a missing
key. `extraForce` is `none` when `extra_force.size() = 0`.
dynamics_solver.h 394-434 and 507-525. -/
structure DState (K : Type) where
  robot : RState K
  dt : K
  damping : K
  torqueCost : K
  maskedFbase : Bool := false
  gravityOnly : Bool := false
  torqueLimits : Bool := false
  jointLimits : Bool := false
  velocityLimits : Bool := false
  velocityVsTorque : Bool := false
  qddSafe : Nat → K
  overrides : Nat → Option K := fun _ => none
  extraForce : Option (Vec K) := none

/-- A dynamics `Constraint`: what `add_constraint(problem, tau)` adds.
dynamics/constraint.h 9-28. -/
structure DConstraint (K : Type) where
  add : DState K → Expr K → Except Err (List (Constr K))

/-- `DynamicsSolver::Result`, dynamics_solver.h 34-56; `wrenches` are the `wrench` members written to the
active contacts, in order. The vectors are left empty when `success` is false (zero here). -/
structure Result (K : Type) where
  success : Bool
  tau : Nat → K
  qdd : Nat → K
  tauContacts : Nat → K
  wrenches : List (Nat → K)

/-- The external libraries: the QP layer, and `std::sqrt`.
dynamics_solver.cpp 298, 314 and 515-533. -/
structure DEnv (K : Type) extends QPEnv K where
  sqrt : K → K

section
variable {K : Type} [Field K]

/-! ## Setters -/

/-- `set_qdd_safe`, dynamics_solver.cpp 615-620. -/
def setQddSafe (r : DynRobot K) (s : DState K) (joint : String) (qdd : K) : DState K × Option Err :=
  match r.vJoint joint with
  | .error e => (s, some e)
  | .ok j => ({ s with qddSafe := fun k => if k = j.idxV then qdd else s.qddSafe k }, none)

/-- `set_torque_limit`, dynamics_solver.cpp 622-627. -/
def setTorqueLimit (r : DynRobot K) (s : DState K) (joint : String) (limit : K) : DState K × Option Err :=
  match r.vJoint joint with
  | .error e => (s, some e)
  | .ok j => ({ s with overrides := fun k => if k = j.idxV then some limit else s.overrides k }, none)

/-! ## Limits -/

/-- One row `A x + b` of the matrix built by dynamics_solver.cpp 243-320. -/
structure Row (K : Type) where
  A : Nat → K
  b : K

/-- `row.A(c) = v` on a zero row. dynamics_solver.cpp 277, 281, 292, 299, 308, 315. -/
def unitRow (c : Nat) (v b : K) : Row K := ⟨fun j => if j = c then v else 0, b⟩

/-- The rows added for actuated joint `k`, dynamics_solver.cpp 250-320. -/
def limitRows [LinearOrder K] (sqrt : K → K) (r : DynRobot K) (s : DState K) (tau : Expr K) (k : Nat) : List (Row K) :=
  let q := s.robot.q (k + 7)
  let qd := s.robot.qd (k + 6)
  let vel :=
    if s.velocityVsTorque then
      let ratio := r.vlim (k + 6) / r.effort (k + 6)
      [⟨fun j => ratio * tau.A (k + 6) j + (if j = k + 6 then s.dt else 0),
        ratio * tau.b (k + 6) + (qd - r.vlim (k + 6))⟩,
       ⟨fun j => -ratio * tau.A (k + 6) j - (if j = k + 6 then s.dt else 0),
        -ratio * tau.b (k + 6) - (qd + r.vlim (k + 6))⟩]
    else if s.velocityLimits then
      [unitRow (k + 6) s.dt (-(r.vlim (k + 6)) + qd), unitRow (k + 6) (-s.dt) (-(r.vlim (k + 6)) - qd)]
    else []
  let pos :=
    if s.jointLimits then
      [if r.upper (k + 7) < q then unitRow (k + 6) 1 (s.qddSafe (k + 6))
       else unitRow (k + 6) s.dt (qd - sqrt (2 * (r.upper (k + 7) - q) * s.qddSafe (k + 6))),
       if q < r.lower (k + 7) then unitRow (k + 6) (-1) (s.qddSafe (k + 6))
       else unitRow (k + 6) (-s.dt) (-qd - sqrt (2 * |r.lower (k + 7) - q| * s.qddSafe (k + 6)))]
    else []
  vel ++ pos

/-- `constraints`, dynamics_solver.cpp 231-239. -/
def limitCount (N : Nat) (s : DState K) : Nat :=
  (if s.jointLimits then 2 * (N - 6) else 0) +
  (if s.velocityLimits ∨ s.velocityVsTorque then 2 * (N - 6) else 0)

/-- The matrix of dynamics_solver.cpp 243-320: `rows` written one after the other in a matrix with `count` rows. Writing
more rows is out of range; fewer would leave `b` uninitialised. -/
def rowsExpr (count n : Nat) (rows : List (Row K)) : Except Err (Expr K) :=
  if rows.length = count then
    .ok ⟨count, n, fun i j => (rows.getD i ⟨fun _ => 0, 0⟩).A j, fun i => (rows.getD i ⟨fun _ => 0, 0⟩).b⟩
  else .error .ub

/-- Torque limits, dynamics_solver.cpp 219-229. -/
def torqueLimitConstraints (r : DynRobot K) (s : DState K) (tau : Expr K) : Except Err (List (Constr K)) :=
  addIf s.torqueLimits do
    let limit : Nat → K := fun i => (s.overrides i).getD (r.effort i)
    let a ← tau.slice 6 (-1)
    let u ← bottomRows r.nv ((r.nv : Int) - 6) limit
    let c1 ← a.leVec u
    let l ← bottomRows r.nv ((r.nv : Int) - 6) fun i => -(limit i)
    let c2 ← a.geVec l
    pure [c1, c2]

/-- dynamics_solver.cpp 241-323: the velocity and position rows. -/
def jointConstraints [LinearOrder K] (sqrt : K → K) (r : DynRobot K) (s : DState K) (n : Nat) (tau : Expr K) :
    Except Err (List (Constr K)) := do
  let e ← rowsExpr (limitCount r.nv s) n ((List.range (r.nv - 6)).flatMap (limitRows sqrt r s tau))
  let c ← e.leDouble 0
  pure [c]

/-- dynamics_solver.cpp 214-217. -/
def checkDt [LinearOrder K] (s : DState K) : Except Err Unit :=
  if (s.jointLimits ∨ s.velocityLimits ∨ s.velocityVsTorque) ∧ s.dt = 0 then .error .runtimeError else .ok ()

/-- `compute_limits_inequalities`, dynamics_solver.cpp 212-324. `n` is `problem.n_variables`. -/
def limitConstraints [LinearOrder K] (sqrt : K → K) (r : DynRobot K) (s : DState K) (n : Nat) (tau : Expr K) :
    Except Err (List (Constr K)) := do
  checkDt s
  let t ← torqueLimitConstraints r s tau
  let l ← addIf (0 < limitCount r.nv s) (jointConstraints sqrt r s n tau)
  pure (t ++ l)

/-! ## The equation of motion -/

/-- dynamics_solver.cpp 416-424: the bias term. -/
def biasVec (r : DynRobot K) (s : DState K) : Vec K :=
  ⟨r.nv, if s.gravityOnly then r.gravity s.robot else r.nle s.robot⟩

/-- dynamics_solver.cpp 426-429. -/
def addExtra (s : DState K) (t : Expr K) : Except Err (Expr K) :=
  match s.extraForce with
  | some f => t.addVec f
  | none => .ok t

/-- dynamics_solver.cpp 413-429: `M qdd + qd * damping + b (+ extra_force)`, `qdd` the expression of the variable. -/
def bareTau (r : DynRobot K) (s : DState K) (qdd : Expr K) : Except Err (Expr K) := do
  let m ← Expr.matMul ⟨r.nv, r.nv, r.mass s.robot⟩ qdd
  let t ← m.addVec ⟨r.nv, fun i => s.robot.qd i * s.damping⟩
  let t ← t.addVec (biasVec r s)
  addExtra s t

/-- The loop over contacts of dynamics_solver.cpp 432-443, from `n` variables on: the new number of variables, the Jacobian and
the force expression of each active contact, and the constraints added. -/
def addContacts [LinearOrder K] (N : Nat) (robot : RState K) : Nat → List (Contact K) →
    Except Err (Nat × List (Mat K × Expr K) × List (Constr K))
  | n, [] => .ok (n, [], [])
  | n, c :: cs =>
    if c.active then do
      let J ← c.update N robot
      let f ← (⟨n, n + J.rows⟩ : Var).expr (-1) (-1)
      let l ← c.constraints f
      let (n', js, l') ← addContacts N robot (n + J.rows) cs
      pure (n', (J, f) :: js, l ++ l')
    else addContacts N robot n cs

/-- The loop of dynamics_solver.cpp 452-461, on `(k, tau)`: writes `-Jᵀ` in the columns of the force. -/
def writeContacts (N : Nat) : Nat → Expr K → List (Mat K × Expr K) → Except Err (Expr K)
  | _, tau, [] => .ok tau
  | k, tau, (J, f) :: rest =>
    if J.cols = N ∧ k + J.rows ≤ tau.cols ∧ f.rows = J.rows then
      writeContacts N (k + J.rows)
        { tau with
          A := fun i j => if k ≤ j ∧ j < k + J.rows then -(J.m (j - k) i) else tau.A i j
          b := fun i => tau.b i - ∑ l ∈ range J.rows, J.m l i * f.b l } rest
    else .error .ub

/-- dynamics_solver.cpp 445-461: `tau` over all the decision variables. -/
def fullTau (N n : Nat) (tau : Expr K) (js : List (Mat K × Expr K)) : Except Err (Expr K) :=
  if tau.cols ≤ n then
    writeContacts N N { tau with cols := n, A := fun i j => if j < tau.cols then tau.A i j else 0 } js
  else .error .ub

/-! ## Tasks -/

/-- dynamics_solver.cpp 484-494: the expression of a task. -/
def taskExpr (tau : Expr K) (task : DTask K) (t : TaskMat K) : Except Err (Expr K) :=
  if task.tauTask then Expr.matMul ⟨t.rows, t.cols, t.A⟩ tau >>= fun m => m.subVec ⟨t.rows, t.b⟩
  else .ok (plainExpr t)

/-- One task of the loop of dynamics_solver.cpp 467-497; `t` is its updated matrix. -/
def dtaskConstraint (tau : Expr K) (task : DTask K) (t : TaskMat K) : Except Err (List (Constr K)) :=
  if t.rows = 0 then .ok []
  else if task.priority = .scaled then .error .runtimeError
  else do
    let e ← taskExpr tau task t
    let c ← e.eqDouble 0
    pure [c.configureP (if task.priority = .soft then .soft else .hard) task.weight]

/-- What `solve` has built before solving the problem: the number of variables, the expression of `qdd`, the Jacobians
and force expressions of the active contacts, the expression of `tau` and the constraints of the problem.
dynamics_solver.cpp 387-513. -/
structure Built (K : Type) where
  n : Nat
  qdd : Expr K
  js : List (Mat K × Expr K)
  tau : Expr K
  cs : List (Constr K)

/-- `problem.add_constraint(e == 0)`, dynamics_solver.cpp 399-402 and 507-510. -/
def zeroConstraint (e : Except Err (Expr K)) : Except Err (List (Constr K)) := do
  let e ← e
  let c ← e.eqDouble 0
  pure [c]

/-- Everything `solve` adds to the problem: dynamics_solver.cpp 387-513. -/
def build [LinearOrder K] (env : DEnv K) (r : DynRobot K) (tasks : List (DTask K)) (contacts : List (Contact K))
    (cons : List (DConstraint K)) (s : DState K) :
    Except Err (Built K) := do
  let v : Var := ⟨0, r.nv⟩
  let qdd ← v.expr (-1) (-1)
  let cm ← addIf s.maskedFbase (zeroConstraint (v.expr 0 6))
  let mats ← tasks.mapM fun t => t.update s.robot
  let tau0 ← bareTau r s qdd
  let (n, js, cc) ← addContacts r.nv s.robot r.nv contacts
  let tau ← fullTau r.nv n tau0 js
  let cl ← limitConstraints env.sqrt r s n tau
  let ct ← (tasks.zip mats).mapM fun p => dtaskConstraint tau p.1 p.2
  let cu ← cons.mapM fun c => c.add s tau
  let cf ← addIf (!s.maskedFbase) (zeroConstraint (tau.slice 0 6))
  let e ← tau.slice 6 (-1)
  let c ← e.eqDouble 0
  pure ⟨n, qdd, js, tau, cm ++ cc ++ cl ++ ct.flatten ++ cu.flatten ++ cf ++ [c.configureP .soft s.torqueCost]⟩

/-! ## Solving -/

/-- `problem.x` after an accepted `Problem::solve`, problem.cpp 326-338. -/
def solutionX [LinearOrder K] (env : QPEnv K) (n : Nat) (cs : List (Constr K)) : Nat → K :=
  match assemble (env.settings n) env.qr cs with
  | .ok qp => qp.recover n (env.oracle qp).x
  | .error _ => fun _ => 0

/-- `RobotWrapper::integrate`, robot_wrapper.cpp 694-710, when `qd` and `qdd` are set (`solve` sets `qdd`
just before). -/
def integrateRobot (r : Robot K) (dt : K) (s : RState K) : RState K :=
  let qd := fun i => s.qd i + dt * s.qdd i
  ⟨r.integrate s.q fun i => qd i * dt, qd, s.qdd⟩

/-- dynamics_solver.cpp 521-533: reading the result from `x`. -/
def readResult (qdd : Expr K) (js : List (Mat K × Expr K)) (tau : Expr K) (x : Nat → K) : Result K :=
  { success := true
    tau := tau.rowVal x
    qdd := qdd.rowVal x
    tauContacts := fun i => (js.map fun p => ∑ k ∈ range p.1.rows, p.1.m k i * p.2.rowVal x k).sum
    wrenches := js.map fun p => p.2.rowVal x }

/-- dynamics_solver.cpp 535-550: applying the accelerations to the robot. -/
def applyQdd [LinearOrder K] (r : Robot K) (s : DState K) (qdd : Nat → K) : RState K :=
  integrateRobot r s.dt { s.robot with qdd := fun i => if s.maskedFbase ∧ i < 6 then 0 else qdd i }

/-- `DynamicsSolver::solve`, dynamics_solver.cpp 387-558: the robot state reached, and the result or the
exception. A `QPError` is caught and gives `success = false`. The variables and constraints of the
problem are cleared at the beginning, so nothing of the previous calls is left. -/
def solve [LinearOrder K] (env : DEnv K) (r : DynRobot K) (tasks : List (DTask K)) (contacts : List (Contact K))
    (cons : List (DConstraint K)) (integrate : Bool) (s : DState K) : RState K × Except Err (Result K) :=
  match build env r tasks contacts cons s with
  | .error e => (s.robot, .error e)
  | .ok p =>
    match (Problem.solve (env.settings p.n) env.qr env.oracle env.tol p.cs ⟨[], []⟩).2 with
    | .error .qpError => (s.robot, .ok ⟨false, fun _ => 0, fun _ => 0, fun _ => 0, []⟩)
    | .error e => (s.robot, .error e)
    | .ok _ =>
      let res := readResult p.qdd p.js p.tau (solutionX env.toQPEnv p.n p.cs)
      if integrate then
        if s.dt = 0 then (s.robot, .error .runtimeError)
        else (applyQdd r.toRobot s res.qdd, .ok res)
      else (s.robot, .ok res)

end
end Verif.Dynamics
