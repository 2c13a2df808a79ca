/-
Model of `placo::problem::Sparsity`.
  /repo/src/placo/problem/sparsity.{h,cpp}
-/
import Mathlib.Algebra.Order.Ring.Defs
import Mathlib.Algebra.Order.Field.Basic
import Verif.Problem.Expression

namespace Verif.Problem

/-- `Sparsity::Interval` (sparsity.h 17-38): both ends are included. -/
structure Interval where
  start : Int
  stop : Int
  deriving DecidableEq, Repr

/-- `Sparsity::Interval::contains`, sparsity.cpp 14-17. -/
def Interval.contains (o : Interval) (i : Int) : Bool := decide (o.start ≤ i) && decide (i ≤ o.stop)

namespace Sparsity

/-- `Sparsity::add_interval`, sparsity.cpp 19-70. The loop over the old
intervals, the local (mutated) `start`, and the flag `inserted` (once set, the
remaining old intervals are copied) become a recursion. -/
def addInterval (start stop : Int) : List Interval → List Interval
  | [] => [⟨start, stop⟩]
  | o :: rest =>
    if stop < o.start then ⟨start, stop⟩ :: o :: rest
    else if o.contains start && o.contains stop then o :: rest
    else if o.contains start then addInterval o.start stop rest
    else if o.contains stop then ⟨start, o.stop⟩ :: rest
    else if start > o.start then o :: addInterval start stop rest
    else addInterval start stop rest

/-- `Sparsity::operator+`, sparsity.cpp 72-86. -/
def add (a b : List Interval) : List Interval :=
  let s := a.foldl (fun s i => addInterval i.start i.stop s) []
  b.foldl (fun s i => addInterval i.start i.stop s) s

section
variable {K : Type} [Field K] [LinearOrder K]

/-- `M.col(column).isZero(eps)` as used in sparsity.cpp 104: every entry has
absolute value at most `eps`. -/
def colIsZero (eps : K) (M : Mat K) (j : Nat) : Bool :=
  (List.range M.rows).all fun i => decide (-eps ≤ M.m i j) && decide (M.m i j ≤ eps)

/-- One iteration of the loop of `detect_columns_sparsity`, sparsity.cpp 102-119.
The state is the interval list and `last_nonzero_column` (`none` for −1). -/
def detectStep (eps : K) (M : Mat K) (st : List Interval × Option Nat) (column : Nat) :
    List Interval × Option Nat :=
  if colIsZero eps M column then
    match st.2 with
    | some last => (addInterval (last : Int) ((column : Int) - 1) st.1, none)
    | none => st
  else
    match st.2 with
    | some _ => st
    | none => (st.1, some column)

/-- `Sparsity::detect_columns_sparsity`, sparsity.cpp 97-127; `eps` is the
literal `1e-12` of the code. -/
def detectColumns (eps : K) (M : Mat K) : List Interval :=
  let st := (List.range M.cols).foldl (detectStep eps M) ([], none)
  match st.2 with
  | some last => addInterval (last : Int) ((M.cols : Int) - 1) st.1
  | none => st.1

end
end Sparsity
end Verif.Problem
