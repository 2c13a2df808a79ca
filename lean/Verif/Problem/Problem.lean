/-
Model of `placo::problem::Problem`.
  /repo/src/placo/problem/problem.{h,cpp}

The body of `Problem::solve` is split into the stages it is made of, in the
order of the code. Matrices are functions with explicit dimensions, and block
writes `M.block(r, 0, rows, cols) = A` are function updates at that offset.
-/
import Mathlib.Algebra.BigOperators.Intervals
import Verif.Problem.Constraint
import Verif.Problem.Sparsity

namespace Verif.Problem
open Finset

/-! ## Variables -/

/-- State of a `Variable` object (variable.h): its range, `version`, `value`.
Lines 27-53 of variable.h. -/
structure VarState (K : Type) where
  var : Var
  version : Nat := 0
  value : List K := []

/-- `Problem::add_variable`, problem.cpp 29-40, on `(n_variables, variables)`. -/
def addVariable {K : Type} (st : Nat × List (VarState K)) (size : Nat) : Nat × List (VarState K) :=
  (st.1 + size, st.2 ++ [{ var := ⟨st.1, st.1 + size⟩ }])

section
variable {K : Type} [Field K]

/-- `Problem::add_limit`, problem.cpp 42-62: stacks `Ax+b` and `-Ax-b` and
requires both to be below `target`. The final `e <= targets` is the operator of
expression.cpp 335-338. -/
def addLimit (expression : Expr K) (target : Vec K) : Except Err (Constr K) :=
  let e : Expr K :=
    ⟨expression.rows * 2, expression.cols,
      fun i j => if i < expression.rows then expression.A i j else -(expression.A (i - expression.rows) j),
      fun i => if i < expression.rows then expression.b i else -(expression.b (i - expression.rows))⟩
  let targets : Vec K :=
    ⟨target.size * 2, fun i => if i < target.size then target.v i else target.v (i - target.size)⟩
  e.leVec targets

/-! ## Constraint classification (problem.cpp 119-137, 148, 213-219, 279-285) -/

/-- `type == Equality && priority == Hard`, problem.cpp 131, 148. -/
def Constr.hardEq (c : Constr K) : Bool := c.ty = .equality && c.priority = .hard
/-- `type == Equality && priority == Soft`, problem.cpp 220-252. -/
def Constr.softEq (c : Constr K) : Bool := c.ty = .equality && c.priority = .soft
/-- `type == Inequality && priority == Hard`, problem.cpp 213-218, 277-316. -/
def Constr.hardIneq (c : Constr K) : Bool := c.ty = .inequality && c.priority = .hard
/-- `type == Inequality && priority == Soft`, problem.cpp 121-127, 277-316. -/
def Constr.softIneq (c : Constr K) : Bool := c.ty = .inequality && c.priority = .soft

/-- `slack_variables`, problem.cpp 121-127. -/
def nSlack (cs : List (Constr K)) : Nat := (cs.map fun c => if c.softIneq then c.expr.rows else 0).sum

/-- `n_equalities`, problem.cpp 129-135. -/
def nEqualities (cs : List (Constr K)) : Nat := (cs.map fun c => if c.hardEq then c.expr.rows else 0).sum

/-- `n_inequalities`, problem.cpp 213-218. -/
def nInequalities (cs : List (Constr K)) : Nat :=
  (cs.map fun c => if c.ty = .inequality then c.expr.rows else 0).sum

/-- `M.block(r0, 0, rows, cols) = A`. Eigen, used in problem.cpp 151, 288. -/
def writeBlock (M : Nat → Nat → K) (r0 rows cols : Nat) (A : Nat → Nat → K) : Nat → Nat → K :=
  fun r c => if r0 ≤ r ∧ r < r0 + rows ∧ c < cols then A (r - r0) c else M r c

/-- `v.block(r0, 0, rows, 1) = b`. Eigen, used in problem.cpp 152, 289. -/
def writeSeg (v : Nat → K) (r0 rows : Nat) (b : Nat → K) : Nat → K :=
  fun r => if r0 ≤ r ∧ r < r0 + rows then b (r - r0) else v r

/-! ## Equality system, problem.cpp 139-155 -/

/-- State of the loop of problem.cpp 146-155: `(k_equality, A, b)`. -/
structure EqSt (K : Type) where
  k : Nat
  A : Nat → Nat → K
  b : Nat → K

/-- Body of the loop of problem.cpp 146-155. -/
def eqStep (st : EqSt K) (c : Constr K) : EqSt K :=
  if c.hardEq then
    ⟨st.k + c.expr.rows, writeBlock st.A st.k c.expr.rows c.expr.cols c.expr.A,
      writeSeg st.b st.k c.expr.rows c.expr.b⟩
  else st

/-- The zero-initialised matrices problem.cpp 140-144 and the loop 146-155. -/
def equalities (cs : List (Constr K)) : EqSt K :=
  cs.foldl eqStep ⟨0, fun _ _ => 0, fun _ => 0⟩

/-- The block assignments problem.cpp 151-152 are out of range (undefined) when a hard
equality has more columns than there are variables, or `A.rows() ≠ b.rows()`.
This happens before the checks of lines 200-211. -/
def equalitiesUB (n : Nat) (cs : List (Constr K)) : Bool :=
  cs.any fun c => c.hardEq && (decide (n < c.expr.cols) || decide (c.brows ≠ c.expr.rows))

/-! ## Elimination of equalities, problem.cpp 157-185 -/

/-- Result of `A.transpose().colPivHouseholderQr()`: `Aᵀ Π = Q R`, with `perm i`
the column of `Aᵀ` (row of `A`) placed at position `i`, and the detected rank.
External code: its contract is `IsQR` in the property files. Eigen, used in problem.cpp 163-179. -/
structure QR (K : Type) where
  rank : Nat
  Q : Nat → Nat → K
  R : Nat → Nat → K
  perm : Nat → Nat

/-- `y = R.triangularView<Lower>().solve(-b2)`, problem.cpp 172-177, with
`b2 = Πᵀ b`: forward substitution, as the list of the first `d` entries. -/
def forwardSub (R : Nat → Nat → K) (b2 : Nat → K) : Nat → List K
  | 0 => []
  | d + 1 =>
    let ys := forwardSub R b2 d
    ys ++ [(-(b2 d) - ∑ j ∈ range d, R j d * ys.getD j 0) / R d d]

/-- The data used by `get_constraint_expressions` after an elimination:
`determined_variables`, the orthogonal matrix and `y`. problem.cpp 94-111, problem.h 129-134. -/
structure Red (K : Type) where
  d : Nat
  Q : Nat → Nat → K
  y : Nat → K

/-- problem.cpp 163-179. -/
def reduction (f : QR K) (b : Nat → K) : Red K :=
  let ys := forwardSub f.R (fun i => b (f.perm i)) f.rank
  ⟨f.rank, f.Q, fun i => ys.getD i 0⟩

/-- `full_A(i, k)`, problem.cpp 98-100. -/
def Expr.pad (e : Expr K) (i k : Nat) : K := if k < e.cols then e.A i k else 0

/-- `Problem::get_constraint_expressions`, problem.cpp 94-111. -/
def reduceExpr (n : Nat) (red : Option (Red K)) (e : Expr K) : Expr K :=
  match red with
  | some r =>
    ⟨e.rows, n - r.d, fun i j => ∑ k ∈ range n, e.pad i k * r.Q k (r.d + j),
      fun i => e.b i + ∑ j ∈ range r.d, (∑ k ∈ range n, e.pad i k * r.Q k j) * r.y j⟩
  | none => e

/-! ## Objective, problem.cpp 187-252 -/

/-- problem.cpp 187-195: `P` is zero except for `regularization` on the diagonal of
the free block. -/
def regP (free : Nat) (reg : K) : Nat → Nat → K :=
  fun r c => if r = c ∧ r < free then reg else 0

/-- Dense accumulation, problem.cpp 247-248. -/
def addDense (P : Nat → Nat → K) (w : K) (e : Expr K) : Nat → Nat → K :=
  fun r c => P r c + if r < e.cols ∧ c < e.cols then w * ∑ i ∈ range e.rows, e.A i r * e.A i c else 0

/-- Accumulation of one interval of the sparse path, problem.cpp 232-240. -/
def addIntervalBlock (w : K) (e : Expr K) (P : Nat → Nat → K) (o : Interval) : Nat → Nat → K :=
  fun r c => P r c + if o.contains r && o.contains c then
    w * ∑ i ∈ range e.rows, e.A i r * e.A i c else 0

/-- Sparse path, problem.cpp 226-240 (`eps` is the `1e-12` of `detect_columns_sparsity`). -/
def addSparse [LinearOrder K] (eps : K) (P : Nat → Nat → K) (w : K) (e : Expr K) : Nat → Nat → K :=
  (Sparsity.detectColumns eps ⟨e.rows, e.cols, e.A⟩).foldl (addIntervalBlock w e) P

/-- Linear part, problem.cpp 242-243 and 249. -/
def addLinear (q : Nat → K) (w : K) (e : Expr K) : Nat → K :=
  fun r => q r + if r < e.cols then w * ∑ i ∈ range e.rows, e.A i r * e.b i else 0

/-- Body of the loop of problem.cpp 198-252 for the objective. -/
def objStep [LinearOrder K] (n : Nat) (red : Option (Red K)) (useSparsity : Bool) (eps : K)
    (Pq : (Nat → Nat → K) × (Nat → K)) (c : Constr K) : (Nat → Nat → K) × (Nat → K) :=
  if c.softEq then
    let e := reduceExpr n red c.expr
    (if useSparsity then addSparse eps Pq.1 c.weight e else addDense Pq.1 c.weight e,
     addLinear Pq.2 c.weight e)
  else Pq

/-- The checks of problem.cpp 200-211, in order. -/
def checkConstr (n : Nat) (c : Constr K) : Except Err Unit :=
  if n < c.expr.cols then .error .qpError
  else if c.expr.rows = 0 ∨ c.brows = 0 then .error .qpError
  else if c.expr.rows ≠ c.brows then .error .qpError
  else .ok ()

/-! ## Inequalities and slack variables, problem.cpp 254-316 -/

/-- State of the loop of problem.cpp 277-316. `ci` is the index of the current constraint, the
maps send a row resp. slack index to the index of its constraint. -/
structure IneqSt (K : Type) where
  ci : Nat
  k : Nat
  kSlack : Nat
  G : Nat → Nat → K
  h : Nat → K
  P : Nat → Nat → K
  q : Nat → K
  hardMap : Nat → Option Nat
  softMap : Nat → Option Nat

/-- `As` of problem.cpp 301-310. -/
def slackRow (free kSlack : Nat) (e : Expr K) (k c : Nat) : K :=
  if c = free + (kSlack + k) then -1 else if c < e.cols then e.A k c else 0

/-- Body of the loop of problem.cpp 277-316. `N = free_variables + slack_variables`. -/
def ineqStep (n : Nat) (red : Option (Red K)) (free N : Nat) (st : IneqSt K) (c : Constr K) : IneqSt K :=
  if c.ty = .inequality then
    let e := reduceExpr n red c.expr
    if c.priority = .hard then
      { st with
        ci := st.ci + 1
        k := st.k + e.rows
        G := writeBlock st.G st.k e.rows e.cols e.A
        h := writeSeg st.h st.k e.rows e.b
        hardMap := fun r => if st.k ≤ r ∧ r < st.k + e.rows then some st.ci else st.hardMap r }
    else
      { st with
        ci := st.ci + 1
        kSlack := st.kSlack + e.rows
        softMap := fun s => if st.kSlack ≤ s ∧ s < st.kSlack + e.rows then some st.ci else st.softMap s
        P := fun r s => st.P r s + if r < N ∧ s < N then
          c.weight * ∑ i ∈ range e.rows, slackRow free st.kSlack e i r * slackRow free st.kSlack e i s else 0
        q := fun r => st.q r + if r < N then
          c.weight * ∑ i ∈ range e.rows, slackRow free st.kSlack e i r * e.b i else 0 }
  else { st with ci := st.ci + 1 }

/-- problem.cpp 255-275: zero matrices, then the `slack` rows `s_i >= 0`. -/
def ineqInit (free slack : Nat) (P : Nat → Nat → K) (q : Nat → K) : IneqSt K :=
  { ci := 0, k := slack, kSlack := 0
    G := fun r c => if r < slack ∧ c = free + r then 1 else 0
    h := fun _ => 0, P := P, q := q
    hardMap := fun _ => none, softMap := fun _ => none }

/-! ## The QP and `Problem::solve` -/

/-- What is handed to `solve_quadprog` (problem.cpp 323-324): minimise
`1/2 vᵀPv + qᵀv` s.t. `Aeq v + beq = 0`, `G v + h >= 0`, `v` of size
`free + slack`, `Aeq` with `eqCols` columns. -/
structure QP (K : Type) where
  free : Nat
  slack : Nat
  P : Nat → Nat → K
  q : Nat → K
  nEq : Nat
  eqCols : Nat
  Aeq : Nat → Nat → K
  beq : Nat → K
  nIneq : Nat
  G : Nat → Nat → K
  h : Nat → K
  hardMap : Nat → Option Nat
  softMap : Nat → Option Nat
  red : Option (Red K)

/-- Settings of a problem used by `solve`. problem.h 62-121. -/
structure Settings (K : Type) where
  n : Nat
  regularization : K
  useSparsity : Bool
  rewriteEqualities : Bool
  eps : K

/-- Everything `Problem::solve` does before calling the QP solver,
problem.cpp 115-322. `qr` is the (external) QR factorisation. -/
def assemble [LinearOrder K] (s : Settings K) (qr : Nat → EqSt K → QR K) (cs : List (Constr K)) :
    Except Err (QP K) :=
  if equalitiesUB s.n cs then .error .ub
  else
    let eqs := equalities cs
    let rewr := s.rewriteEqualities && decide (0 < nEqualities cs)
    let f := qr (nEqualities cs) eqs
    if rewr && decide (f.rank ≠ nEqualities cs) then .error .qpError
    else
      let red := if rewr then some (reduction f eqs.b) else none
      let free := match red with | some r => s.n - r.d | none => s.n
      match cs.mapM (checkConstr s.n) with
      | .error e => .error e
      | .ok _ =>
        let slack := nSlack cs
        let Pq := cs.foldl (objStep s.n red s.useSparsity s.eps) (regP free s.regularization, fun _ => 0)
        let st := cs.foldl (ineqStep s.n red free (free + slack)) (ineqInit free slack Pq.1 Pq.2)
        .ok { free := free, slack := slack, P := st.P, q := st.q
              nEq := if rewr then 0 else nEqualities cs
              eqCols := if rewr then 0 else s.n
              Aeq := eqs.A, beq := eqs.b
              nIneq := nInequalities cs, G := st.G, h := st.h
              hardMap := st.hardMap, softMap := st.softMap, red := red }

/-- What the external solver returns: `infeasible` iff the returned cost is
`+inf`; the point; whether it contains a NaN; the active set.
eiquadprog, used in problem.cpp 319-345. -/
structure QPResult (K : Type) where
  infeasible : Bool
  x : Nat → K
  hasNaN : Bool
  active : List Int

/-- Dimension mismatch in the call of problem.cpp 323-324: `A.transpose()` has
`eqCols` rows, `P` has `free + slack`. Harmless when there is no equality. -/
def QP.dimMismatch (qp : QP K) : Bool := decide (0 < qp.nEq) && decide (qp.eqCols ≠ qp.free + qp.slack)

/-- Solution in the original variables, problem.cpp 326-338. -/
def QP.recover (qp : QP K) (n : Nat) (v : Nat → K) : Nat → K :=
  match qp.red with
  | some r => fun i => ∑ k ∈ range n, r.Q i k * (if k < r.d then r.y k else v (k - r.d))
  | none => v

/-- Observable state of a `Problem` around `solve`. problem.h 62-144. -/
structure PState (K : Type) where
  vars : List (VarState K)
  isActive : List Bool

/-- `is_active` initialisation, problem.cpp 119-137. -/
def initActive (cs : List (Constr K)) : List Bool := cs.map fun c => decide (c.ty = .equality)

/-- problem.cpp 366-374: rows of the active set mark their constraint. -/
def markHard (m : Nat → Option Nat) (act : List Bool) (a : Int) : List Bool :=
  if 0 ≤ a then
    match m a.toNat with
    | some ci => act.set ci true
    | none => act
  else act

/-- problem.cpp 376-383: small slacks mark their constraint. -/
def markSoft [LinearOrder K] (tol : K) (m : Nat → Option Nat) (slackVal : Nat → K) (act : List Bool)
    (k : Nat) : List Bool :=
  if slackVal k ≤ tol then
    match m k with
    | some ci => act.set ci true
    | none => act
  else act

/-- problem.cpp 385-390. -/
def updateVar (x : Nat → K) (v : VarState K) : VarState K :=
  { v with
    version := v.version + 1
    value := (List.range v.var.size).map fun k => x (v.var.kStart + k) }

/-- `Problem::solve`, problem.cpp 113-391. `oracle` is eiquadprog, `tol` the
literal `1e-6`. -/
def solve [LinearOrder K] (s : Settings K) (qr : Nat → EqSt K → QR K) (oracle : QP K → QPResult K) (tol : K)
    (cs : List (Constr K)) (st : PState K) : PState K × Except Err Unit :=
  let st0 : PState K := { st with isActive := initActive cs }
  match assemble s qr cs with
  | .error e => (st0, .error e)
  | .ok qp =>
    if qp.dimMismatch then (st0, .error .ub)
    else
      let r := oracle qp
      let x := qp.recover s.n r.x
      if r.infeasible then (st0, .error .qpError)
      else if (List.range qp.nEq).any (fun k =>
          let v := (∑ j ∈ range s.n, qp.Aeq k j * x j) + qp.beq k
          decide (tol < v) || decide (tol < -v)) then (st0, .error .qpError)
      else if r.hasNaN then (st0, .error .qpError)
      else
        let act1 := r.active.foldl (markHard qp.hardMap) st0.isActive
        let act2 := (List.range qp.slack).foldl (markSoft tol qp.softMap (fun k => r.x (qp.free + k))) act1
        ({ vars := st.vars.map (updateVar x), isActive := act2 }, .ok ())

end
end Verif.Problem
