/-
Specification of the optimisation problem described by a list of constraints,
and of the contract of the external QR factorisation. Nothing here refers to
the matrices assembled by the code, except for the final reading of a QP.
-/
import Verif.Problem.ProblemLemmas

namespace Verif.Problem
open Finset

section
variable {K : Type} [Field K]

/-- Contract of `A.transpose().colPivHouseholderQr()` for an `m × n` matrix `A`:
`Q` is orthogonal, `R` upper triangular, `Aᵀ Π = Q R`, `Π` is a permutation, and
if the reported rank is `m` the diagonal of `R` does not vanish. -/
structure IsQR (n m : Nat) (A : Nat → Nat → K) (f : QR K) : Prop where
  rank_le : f.rank ≤ n
  orthCols : ∀ i j, i < n → j < n → ∑ k ∈ range n, f.Q k i * f.Q k j = if i = j then 1 else 0
  orthRows : ∀ i j, i < n → j < n → ∑ k ∈ range n, f.Q i k * f.Q j k = if i = j then 1 else 0
  fact : ∀ i k, i < m → k < n → A (f.perm i) k = ∑ j ∈ range n, f.Q k j * f.R j i
  upper : ∀ i j, i < m → i < j → f.R j i = 0
  diag : f.rank = m → ∀ i, i < m → f.R i i ≠ 0
  permLt : ∀ i, i < m → f.perm i < m
  permSurj : ∀ r, r < m → ∃ i, i < m ∧ f.perm i = r

/-- A point satisfies the equality and inequality system handed to the QP solver. -/
def QP.Feasible [LinearOrder K] (qp : QP K) (v : Nat → K) : Prop :=
  (∀ r, r < qp.nEq → (∑ j ∈ range qp.eqCols, qp.Aeq r j * v j) + qp.beq r = 0) ∧
  (∀ r, r < qp.nIneq → 0 ≤ (∑ j ∈ range (qp.free + qp.slack), qp.G r j * v j) + qp.h r)

/-- Twice the objective minimised by the QP solver. -/
def QP.cost (qp : QP K) (v : Nat → K) : K := quad (qp.free + qp.slack) qp.P qp.q v

/-- Amount by which `r >= 0` is violated. -/
def violation [LinearOrder K] (r : K) : K := if 0 ≤ r then 0 else -r

/-- The documented meaning of a soft constraint at `x`: weighted squared
residual (equalities) or weighted squared violation (inequalities). -/
def softPenalty [LinearOrder K] (x : Nat → K) (c : Constr K) : K :=
  match c.priority, c.ty with
  | .hard, _ => 0
  | .soft, .equality => ∑ i ∈ range c.expr.rows, c.weight * c.expr.rowVal x i ^ 2
  | .soft, .inequality => ∑ i ∈ range c.expr.rows, c.weight * violation (c.expr.rowVal x i) ^ 2

/-- What `Problem` is documented to minimise (twice). -/
def specCost [LinearOrder K] (n : Nat) (reg : K) (cs : List (Constr K)) (x : Nat → K) : K :=
  reg * (∑ j ∈ range n, x j ^ 2) + (cs.map (softPenalty x)).sum

/-- All hard constraints hold at `x`. -/
def HardSat [LinearOrder K] (cs : List (Constr K)) (x : Nat → K) : Prop :=
  ∀ c ∈ cs, c.priority = .hard → c.Sat x

end
end Verif.Problem
