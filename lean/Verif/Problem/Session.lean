/-
Model of the life of a `placo::problem::Problem`: the calls that add and clear variables
and constraints, the handles they return, and everything `solve` leaves in the object,
also when it raises.
  /repo/src/placo/problem/problem.{h,cpp}, constraint.{h,cpp}, variable.h

`add_variable` and `add_constraint` return references to objects owned by the problem and
freed by `clear_variables`, `clear_constraints` (in Python: `return_internal_reference`,
bindings/expose-problem.cpp 107-109). References are identified by the number of the
allocation they come from; using one after its object was freed is undefined behaviour.
-/
import Verif.Problem.Problem

namespace Verif.Problem
open Finset

/-- The counters of problem.h 62-89. -/
structure Counters where
  nEqualities : Nat := 0
  nInequalities : Nat := 0
  slack : Nat := 0
  free : Nat := 0
  determined : Nat := 0
  deriving DecidableEq, Repr

/-- A constraint owned by the problem: the number of its allocation, its content, and
`is_active` (constraint.h 66-69). -/
structure Owned (K : Type) where
  id : Nat
  c : Constr K
  active : Bool := false

/-- A `Problem` (problem.h 62-155): `n_variables`, the variables and constraints it owns
with the number of their allocation, `x`, `slacks`, the counters, the options. `next` is
the number of the next allocation. `x` and `slacks` are empty when never computed. -/
structure Session (K : Type) where
  n : Nat := 0
  vars : List (Nat × VarState K) := []
  cons : List (Owned K) := []
  next : Nat := 0
  x : List K := []
  slacks : List K := []
  counters : Counters := {}
  regularization : K
  useSparsity : Bool := true
  rewriteEqualities : Bool := true

section
variable {K : Type} [Field K] [LinearOrder K]

/-- The rows counted by the loop problem.cpp 198-219 before it raises or ends. -/
def scannedIneq (n : Nat) : List (Constr K) → Nat
  | [] => 0
  | c :: cs =>
    match checkConstr n c with
    | .error _ => 0
    | .ok _ => (if c.ty = .inequality then c.expr.rows else 0) + scannedIneq n cs

/-- The counters after `solve`, problem.cpp 115-137, 157-183, 198-219: also when it raises
(the rank test leaves before the equalities are removed and the inequalities counted). -/
def countersAfter (s : Settings K) (qr : Nat → EqSt K → QR K) (cs : List (Constr K)) : Counters :=
  let rewr := s.rewriteEqualities && decide (0 < nEqualities cs)
  let f := qr (nEqualities cs) (equalities cs)
  if rewr then
    if f.rank ≠ nEqualities cs then
      { nEqualities := nEqualities cs, slack := nSlack cs, free := s.n, determined := f.rank }
    else
      { nEqualities := 0, nInequalities := scannedIneq s.n cs, slack := nSlack cs, free := s.n - f.rank
        determined := f.rank }
  else
    { nEqualities := nEqualities cs, nInequalities := scannedIneq s.n cs, slack := nSlack cs, free := s.n }

/-- `x` when the QP solver was called, problem.cpp 319-338: it is written before the result
is examined. With an elimination it has one entry per variable; without one it is the whole
vector of the QP, slack variables included. -/
def xAfter (n : Nat) (qp : QP K) (r : QPResult K) : List K :=
  match qp.red with
  | some _ => (List.range n).map (qp.recover n r.x)
  | none => (List.range (qp.free + qp.slack)).map r.x

/-- The settings `solve` reads. problem.h 62-121; `eps` is the threshold of the sparsity
detection (sparsity.cpp). -/
def Session.settings (p : Session K) (eps : K) : Settings K :=
  ⟨p.n, p.regularization, p.useSparsity, p.rewriteEqualities, eps⟩

/-- The external code used by a call of `solve`: the QR factorisation, the QP solver, the
tolerance `1e-6` and the threshold of the sparsity detection. problem.cpp 163, 323, 354, 379. -/
structure Ext (K : Type) where
  qr : Nat → EqSt K → QR K
  oracle : QP K → QPResult K
  tol : K
  eps : K

/-- The flags `is_active` put back on the constraints, problem.cpp 119-137, 366-383. -/
def putActive : List (Owned K) → List Bool → List (Owned K)
  | o :: os, a :: as => { o with active := a } :: putActive os as
  | os, _ => os

/-- `Problem::solve` on the whole object, problem.cpp 113-391: variables, flags and result
are those of `solve`; `x` and the counters are also left modified by a call that raises;
`slacks` is written at line 376, after every check. -/
def Session.solve (ext : Ext K) (p : Session K) : Session K × Except Err Unit :=
  let cs := p.cons.map (·.c)
  let s := p.settings ext.eps
  let r := Verif.Problem.solve s ext.qr ext.oracle ext.tol cs ⟨p.vars.map (·.2), p.cons.map (·.active)⟩
  let p1 : Session K :=
    { p with
      vars := (p.vars.map (·.1)).zip r.1.vars
      cons := putActive p.cons r.1.isActive
      counters := countersAfter s ext.qr cs }
  match assemble s ext.qr cs with
  | .error _ => (p1, r.2)
  | .ok qp =>
    if qp.dimMismatch then (p1, r.2)
    else
      let o := ext.oracle qp
      let p2 : Session K := { p1 with x := xAfter p.n qp o }
      match r.2 with
      | .error e => (p2, .error e)
      | .ok _ => ({ p2 with slacks := (List.range qp.slack).map fun k => o.x (qp.free + k) }, .ok ())

/-- The calls on a problem. problem.h 35-60, 91-121; constraint.h 71-84. -/
inductive SOp (K : Type) where
  /-- `add_variable(size)` -/
  | addVariable (size : Nat)
  /-- `add_constraint(c)`; `active` is the flag of the constraint that is copied -/
  | addConstraint (c : Constr K) (active : Bool)
  /-- `add_limit(expression, target)` -/
  | addLimit (e : Expr K) (t : Vec K)
  /-- `constraint.configure(type, weight)` through the reference numbered `h` -/
  | configure (h : Nat) (type : String) (w : K)
  | clearConstraints
  | clearVariables
  /-- the options are public members -/
  | setOptions (regularization : K) (useSparsity rewriteEqualities : Bool)
  | solve (ext : Ext K)

/-- What a call tells its caller. `added`/`posted` carry the reference returned;
`solved` is a `solve` that returned, with `x` as it can be read then; `failed` is a call
that raised. problem.cpp 29-92, 113-391. -/
inductive Ev (K : Type) where
  | added (h size : Nat)
  | posted (h : Nat) (c : Constr K)
  | configured (h : Nat) (type : String) (w : K)
  | clearedConstraints
  | clearedVariables
  | options (regularization : K) (useSparsity rewriteEqualities : Bool)
  | solved (x : List K)
  | failed (e : Err)

/-- `Problem::add_constraint`, problem.cpp 64-71: the constraint is copied. -/
def Session.addConstraint (p : Session K) (c : Constr K) (active : Bool) : Session K :=
  { p with cons := p.cons ++ [⟨p.next, c, active⟩], next := p.next + 1 }

/-- One call. `.error .ub` when it is undefined: `configure` through a dangling reference
(constraint.cpp 5-9 after problem.cpp 73-81), or an undefined `solve`. An exception
(`QPError` of `solve`, the size check of `add_limit`) is an event `failed`. problem.cpp 29-391. -/
def Session.step (p : Session K) : SOp K → Except Err (Session K × Ev K)
  | .addVariable size =>
    -- problem.cpp 29-40
    .ok ({ p with
            n := p.n + size
            vars := p.vars ++ [(p.next, { var := ⟨p.n, p.n + size⟩ })]
            next := p.next + 1 }, .added p.next size)
  | .addConstraint c a => .ok (p.addConstraint c a, .posted p.next c)
  | .addLimit e t =>
    -- problem.cpp 42-62
    match Verif.Problem.addLimit e t with
    | .error .ub => .error .ub
    | .error er => .ok (p, .failed er)
    | .ok c => .ok (p.addConstraint c false, .posted p.next c)
  | .configure h type w =>
    if p.cons.any (fun o => decide (o.id = h)) then
      .ok ({ p with cons := p.cons.map fun o => if o.id = h then { o with c := o.c.configure type w } else o },
        .configured h type w)
    else .error .ub
  | .clearConstraints =>
    -- problem.cpp 73-81
    .ok ({ p with cons := [] }, .clearedConstraints)
  | .clearVariables =>
    -- problem.cpp 83-92
    .ok ({ p with vars := [], n := 0 }, .clearedVariables)
  | .setOptions reg sp rw => .ok ({ p with regularization := reg, useSparsity := sp, rewriteEqualities := rw },
      .options reg sp rw)
  | .solve ext =>
    match Session.solve ext p with
    | (_, .error .ub) => .error .ub
    | (p', .error e) => .ok (p', .failed e)
    | (p', .ok _) => .ok (p', .solved p'.x)

/-- A session: the calls in order, with what each told its caller. Exceptions are caught
and the session goes on; it stops at undefined behaviour. (Not code: the caller.) problem.cpp 29-391. -/
def Session.run (p : Session K) : List (SOp K) → Except Err (Session K × List (Ev K))
  | [] => .ok (p, [])
  | op :: ops =>
    match p.step op with
    | .error e => .error e
    | .ok (p', ev) =>
      match Session.run p' ops with
      | .error e => .error e
      | .ok (q, evs) => .ok (q, ev :: evs)

/-- `variable.value` through the reference numbered `h` (variable.h 42-45): undefined once
the variable was freed (problem.cpp 83-92). -/
def Session.readValue (p : Session K) (h : Nat) : Except Err (List K) :=
  match p.vars.find? (fun v => decide (v.1 = h)) with
  | some v => .ok v.2.value
  | none => .error .ub

/-- `Problem::dump_status`, problem.cpp 393-417, as the lines it prints. -/
def Session.dumpStatus (p : Session K) : List String :=
  ["Problem status:",
   "  - Variables: " ++ toString p.n,
   "  - Inequalities: " ++ toString p.counters.nInequalities,
   "  - Equalities: " ++ toString p.counters.nEqualities,
   "  - Slack variables: " ++ toString p.counters.slack] ++
  (if p.rewriteEqualities then
    ["  - Determined variables: " ++ toString p.counters.determined,
     "  - Free variables: " ++ toString p.counters.free]
   else ["  - Not using QR decomposition"]) ++
  [if p.useSparsity then "  - Using sparsity" else "  - Not using sparsity"]

end
end Verif.Problem
