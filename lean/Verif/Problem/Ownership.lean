/-
The memory of the problems: what they allocate and free.
-/
import Verif.Base

namespace Verif.Problem

/-- The memory: the problems that exist, with the addresses in `constraints` and in `variables`; the addresses are numbered in the order of
the allocations, `next` is the next one, `freed` tells those that were deleted. problem.h 136-144. Simplified: contents are not modelled. -/
structure MemSt where
  probs : Nat → Option (List Nat × List Nat)
  count : Nat
  next : Nat
  freed : Nat → Bool

/-- At first. The start of a program. -/
def MemSt.init : MemSt := ⟨fun _ => none, 0, 0, fun _ => false⟩

/-- The calls on problems. `copy` is the implicit copy constructor: the class declares none (problem.h 17-20). -/
inductive MemCall where
  | new
  | addVariable (k : Nat)
  | addConstraint (k : Nat)
  | clearConstraints (k : Nat)
  | clearVariables (k : Nat)
  | copy (k : Nat)
  | destroy (k : Nat)

/-- The loops `delete …` of problem.cpp 15-23, 75-78, 85-88; deleting twice is undefined behaviour. -/
def freeAll : List Nat → (Nat → Bool) → Option (Nat → Bool)
  | [], f => some f
  | a :: l, f => if f a = true then none else freeAll l fun b => if b = a then true else f b

/-- Replaces the problem `k`. Access to the memory. -/
def MemSt.set (s : MemSt) (k : Nat) (p : Option (List Nat × List Nat)) : MemSt := { s with probs := fun j => if j = k then p else s.probs j }

/-- One call: the state and the error. Constructor problem.cpp 9-11, destructor 13-27, `add_variable` 29-40, `add_constraint` 64-71 (and
`add_limit` 42-62, which calls it), `clear_constraints` 73-81, `clear_variables` 83-92. A call on a problem that does not exist is undefined
behaviour. -/
def memStep (s : MemSt) : MemCall → MemSt × Option Err
  | .new => ({ s.set s.count (some ([], [])) with count := s.count + 1 }, none)
  | .addVariable k => match s.probs k with
    | none => (s, some .ub)
    | some (C, V) => ({ s.set k (some (C, V ++ [s.next])) with next := s.next + 1 }, none)
  | .addConstraint k => match s.probs k with
    | none => (s, some .ub)
    | some (C, V) => ({ s.set k (some (C ++ [s.next], V)) with next := s.next + 1 }, none)
  | .clearConstraints k => match s.probs k with
    | none => (s, some .ub)
    | some (C, V) => match freeAll C s.freed with
      | none => (s, some .ub)
      | some f => ({ s.set k (some ([], V)) with freed := f }, none)
  | .clearVariables k => match s.probs k with
    | none => (s, some .ub)
    | some (C, V) => match freeAll V s.freed with
      | none => (s, some .ub)
      | some f => ({ s.set k (some (C, [])) with freed := f }, none)
  | .copy k => match s.probs k with
    | none => (s, some .ub)
    | some p => ({ s.set s.count (some p) with count := s.count + 1 }, none)
  | .destroy k => match s.probs k with
    | none => (s, some .ub)
    | some (C, V) => match freeAll (C ++ V) s.freed with
      | none => (s, some .ub)
      | some f => ({ s.set k none with freed := f }, none)

/-- A program. A program that calls the library. -/
def memRun (s : MemSt) (calls : List MemCall) : MemSt := calls.foldl (fun s c => (memStep s c).1) s

end Verif.Problem
