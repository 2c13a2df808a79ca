/-
Model of `placo::problem::Integrator`.
  /repo/src/placo/problem/integrator.{h,cpp}

The matrix exponential of `AB_matrices` is an argument `AB : K → (A, B)` here
(`AB_matrices(M, order, ·)` of the code); its concrete definition and properties
are in `IntegratorExp.lean`.
-/
import Mathlib.Algebra.Order.Floor.Ring
import Verif.Problem.Problem

namespace Verif.Problem
open Finset

section
variable {K : Type} [Field K]

/-- Product of `n × n` matrices. Eigen, used in integrator.cpp 50-111. -/
def mmul (n : Nat) (P Q : Nat → Nat → K) : Nat → Nat → K := fun i j => ∑ k ∈ range n, P i k * Q k j

/-- Product of an `n × n` matrix and a vector. Eigen, used in integrator.cpp 125-242. -/
def mvec (n : Nat) (P : Nat → Nat → K) (v : Nat → K) : Nat → K := fun i => ∑ k ∈ range n, P i k * v k

/-- `setIdentity`. Eigen, used in integrator.cpp 50-75. -/
def ident : Nat → Nat → K := fun i j => if i = j then 1 else 0

/-- Members of `Integrator` set by the constructor (integrator.h 148-215). -/
structure Integrator (K : Type) where
  var : Var
  X0 : Expr K
  order : Nat
  dt : K
  tStart : K
  /-- `AB_matrices(M, order, ·)` -/
  AB : K → (Nat → Nat → K) × (Nat → K)
  A : Nat → Nat → K
  B : Nat → K
  finalTransition : Nat → Nat → K
  aPowers : Nat → Nat → Nat → K

/-- State `(Ak, final_transition_matrix, a_powers)` of the loop of integrator.cpp 69-74. -/
structure CtorSt (K : Type) where
  Ak : Nat → Nat → K
  ftm : Nat → Nat → K
  powers : Nat → Nat → Nat → K

/-- Body of the loop, integrator.cpp 69-74. -/
def ctorStep (order N : Nat) (A : Nat → Nat → K) (B : Nat → K) (st : CtorSt K) (step : Nat) : CtorSt K :=
  let ftm := fun i j => if j = N - step - 1 then mvec order st.Ak B i else st.ftm i j
  let Ak := mmul order A st.Ak
  ⟨Ak, ftm, fun s => if s = step + 1 then Ak else st.powers s⟩

/-- Constructor, integrator.cpp 50-75 (`order = system_matrix.rows() - 1`). -/
def Integrator.mk' (var : Var) (X0 : Expr K) (order : Nat) (AB : K → (Nat → Nat → K) × (Nat → K)) (dt : K) :
    Integrator K :=
  let N := var.size
  let A := (AB dt).1
  let B := (AB dt).2
  let st := (List.range N).foldl (ctorStep order N A B)
    ⟨ident, fun _ _ => 0, fun s => if s = 0 then ident else fun _ _ => 0⟩
  ⟨var, X0, order, dt, 0, AB, A, B, st.ftm, st.powers⟩

/-- Constructor with an order, integrator.cpp 77-84: `X0` must have `order` rows. -/
def Integrator.mkOrder (var : Var) (X0 : Expr K) (order : Nat) (AB : K → (Nat → Nat → K) × (Nat → K)) (dt : K) :
    Except Err (Integrator K) :=
  if X0.rows ≠ order then .error .runtimeError else .ok (Integrator.mk' var X0 order AB dt)

/-- `Integrator::check_diff`, integrator.cpp 113-123. -/
def checkDiff (order : Nat) (diff : Int) (allowAll : Bool) : Except Err Unit :=
  let diffMin : Int := if allowAll then -1 else 0
  if diff < diffMin ∨ (order : Int) < diff then .error .runtimeError else .ok ()

/-- `Integrator::expr`, integrator.cpp 125-168. -/
def Integrator.expr (I : Integrator K) (step diff : Int) : Except Err (Expr K) := do
  checkDiff I.order diff true
  let step : Int := if step = -1 then (I.var.size : Int) else step
  if step < 0 ∨ (I.var.size : Int) < step then .error .runtimeError
  else if diff = I.order then I.var.expr step 1
  else do
    let N := I.var.size
    let s := step.toNat
    let k0 := I.var.kStart
    if diff = -1 then
      let e : Expr K := ⟨I.order, I.var.kEnd,
        fun i j => if k0 ≤ j ∧ j < k0 + s then I.finalTransition i (N - s + (j - k0)) else 0, fun _ => 0⟩
      let p ← Expr.matMul ⟨I.order, I.order, I.aPowers s⟩ I.X0
      e.add p
    else
      let e : Expr K := ⟨1, I.var.kEnd,
        fun _ j => if k0 ≤ j ∧ j < k0 + s then I.finalTransition diff.toNat (N - s + (j - k0)) else 0, fun _ => 0⟩
      let p ← Expr.matMul ⟨I.order, I.order, I.aPowers s⟩ I.X0
      let q ← p.slice diff 1
      e.add q

end

section
variable {K : Type} [Field K] [LinearOrder K] [FloorRing K]

/-- Conversion of a `double` to `int`: truncation towards zero (values that do not
fit an `int` are not modelled). integrator.cpp 9-39 and 170-198. -/
def truncZ (r : K) : Int := if 0 ≤ r then ⌊r⌋ else ⌈r⌉

/-- `Integrator::expr_t`, integrator.cpp 170-198. There is no call to `check_diff`:
a row out of range is undefined. -/
def Integrator.exprT (I : Integrator K) (t : K) (diff : Int) : Except Err (Expr K) :=
  let t := t - I.tStart
  let step : Int := max (min ((I.var.size : Int) - 1) (truncZ (t / I.dt))) 0
  if diff = I.order then I.var.expr step 1
  else do
    let remaining := t - (step : K) * I.dt
    let AB := I.AB remaining
    let es ← I.expr step (-1)
    let l ← Expr.matMul ⟨I.order, I.order, AB.1⟩ es
    let u ← I.var.expr step 1
    let r ← Expr.matMul ⟨I.order, 1, fun i _ => AB.2 i⟩ u
    let e ← l.add r
    if -1 < diff then
      if diff < e.rows then
        pure ⟨1, e.cols, fun _ j => e.A diff.toNat j, fun _ => e.b diff.toNat⟩
      else .error .ub
    else pure e

/-- `Integrator::Trajectory`, integrator.h 21-66. -/
structure Trajectory (K : Type) where
  variableValue : List K
  order : Nat
  dt : K
  tStart : K
  AB : K → (Nat → Nat → K) × (Nat → K)
  keyframes : List (Nat → K)

/-- `Trajectory::value`, integrator.cpp 9-39. Reading `variable_value[-1]` (empty
variable) is undefined. -/
def Trajectory.value (T : Trajectory K) (t : K) (diff : Int) : Except Err K := do
  let t := t - T.tStart
  checkDiff T.order diff false
  let k : Int := ⌊t / T.dt⌋
  let k : Int := if k < 0 then 0 else k
  let k : Int := if (T.variableValue.length : Int) ≤ k then (T.variableValue.length : Int) - 1 else k
  let remaining := max 0 (min T.dt (t - (k : K) * T.dt))
  if k < 0 then .error .ub
  else if diff = T.order then pure (T.variableValue.getD k.toNat 0)
  else
    let AB := T.AB remaining
    let u := T.variableValue.getD k.toNat 0
    pure (mvec T.order AB.1 (T.keyframes.getD k.toNat fun _ => 0) diff.toNat + AB.2 diff.toNat * u)

/-- `Trajectory::duration`, integrator.cpp 41-44. -/
def Trajectory.duration (T : Trajectory K) : K := (T.keyframes.length : K) * T.dt

/-- Keyframes of `update_trajectory`, integrator.cpp 231-238. -/
def keyframes (order : Nat) (A : Nat → Nat → K) (B : Nat → K) (X : Nat → K) : List K → List (Nat → K)
  | [] => [X]
  | u :: us => X :: keyframes order A B (fun i => mvec order A X i + B i * u) us

/-- The trajectory computed by `update_trajectory`, integrator.cpp 223-238, from
`problem->x` and `variable->value`. -/
def Integrator.makeTrajectory (I : Integrator K) (x : Nat → K) (value : List K) : Trajectory K :=
  ⟨value, I.order, I.dt, I.tStart, I.AB, keyframes I.order I.A I.B (fun i => I.X0.rowVal x i) value⟩

/-! ### Histories (C28) -/

/-- What is observed by `update_trajectory`: the integrator (with its mutable
`t_start`), its cache, the variable's version and value, and `problem->x`. integrator.h 151-226. -/
structure IntSt (K : Type) where
  I : Integrator K
  version : Nat
  trajectory : Option (Trajectory K)
  varVersion : Nat
  varValue : List K
  x : Nat → K

/-- Events: a successful solve with solution `x`; a solve that raises, possibly after
`problem->x` was assigned (problem.cpp 326-365); an assignment of `t_start`; a
read of the trajectory. -/
inductive IntOp (K : Type) where
  | solveOk (x : Nat → K)
  | solveFail (x : Option (Nat → K))
  | setTStart (t : K)
  | read

/-- `update_trajectory` + `get_trajectory`, integrator.cpp 207-242; the other events
are the effects of `Problem::solve` on the variable and on `problem->x`. -/
def intStep (s : IntSt K) : IntOp K → IntSt K × Option (Except Err (Trajectory K))
  | .solveOk x =>
    ({ s with
        varVersion := s.varVersion + 1
        varValue := (List.range s.I.var.size).map fun k => x (s.I.var.kStart + k)
        x := x }, none)
  | .solveFail x => ({ s with x := x.getD s.x }, none)
  | .setTStart t => ({ s with I := { s.I with tStart := t } }, none)
  | .read =>
    if s.varVersion = 0 then (s, some (.error .runtimeError))
    else if s.version ≠ s.varVersion then
      let T := s.I.makeTrajectory s.x s.varValue
      ({ s with trajectory := some T, version := s.varVersion }, some (.ok T))
    else
      match s.trajectory with
      | some T => (s, some (.ok T))
      | none => (s, some (.error .ub))

end
end Verif.Problem
