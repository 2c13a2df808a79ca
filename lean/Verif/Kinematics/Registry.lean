/-
Model of the ownership of tasks, constraints and contacts by the solvers.
  /repo/src/placo/kinematics/kinematics_solver.{h,cpp}: add_task, add_constraint, remove_task,
    remove_constraint, clear, ~KinematicsSolver
  /repo/src/placo/dynamics/dynamics_solver.{h,cpp}: the same, and add_contact, remove_contact

Objects are addresses in a heap. Reading or deleting an object that is not alive is a fault. Tasks,
constraints and contacts are handled by the same code on different containers: one machine is used
for each container.
-/
import Mathlib.Data.List.Basic
import Mathlib.Data.List.Nodup

namespace Verif.Registry

/-- Status of an address. The heap, not code of the library. -/
inductive Status where
  | unborn
  | alive
  | freed
  deriving DecidableEq

/-- An object: its status and its member `solver_memory` (task.h 34, constraint.h 20, contacts.h 32). -/
structure Cell where
  status : Status := .unborn
  solverMemory : Bool := false
  deriving DecidableEq

/-- What a faulty access is. The heap, not code of the library. -/
inductive Fault where
  | useAfterFree
  | doubleFree
  deriving DecidableEq

/-- The heap, the container of each solver (`tasks`, `constraints` or `contacts`) and, for the
specification, the addresses deleted by the solvers, last first.
kinematics_solver.h 513-514, dynamics_solver.h 511-515. -/
structure St where
  heap : Nat → Cell := fun _ => {}
  reg : Nat → List Nat := fun _ => []
  deleted : List Nat := []

/-- The heap, not code of the library. -/
def St.set (s : St) (a : Nat) (c : Cell) : St := { s with heap := fun b => if b = a then c else s.heap b }

/-- The heap, not code of the library. -/
def St.setReg (s : St) (k : Nat) (l : List Nat) : St := { s with reg := fun i => if i = k then l else s.reg i }

/-- `delete &object`. kinematics_solver.cpp 430, 438, 457, 482. -/
def St.delete (s : St) (a : Nat) : Except Fault St :=
  if (s.heap a).status = .alive then
    .ok { s.set a { s.heap a with status := .freed } with deleted := a :: s.deleted }
  else .error .doubleFree

/-- `if (object.solver_memory) delete &object;`. kinematics_solver.cpp 453-458. -/
def St.deleteIfOwned (s : St) (a : Nat) : Except Fault St :=
  if (s.heap a).status ≠ .alive then .error .useAfterFree
  else if (s.heap a).solverMemory then s.delete a
  else .ok s

/-- The template `add_task(T* task)` on a new object, kinematics_solver.h 479-491 and dynamics_solver.h
459-471; same for constraints. `std::set::insert`. -/
def St.addOwned (s : St) (k a : Nat) : St :=
  (s.set a ⟨.alive, true⟩).setReg k ((s.reg k).insert a)

/-- `add_task(Task&)`, kinematics_solver.cpp (add_task), dynamics_solver.cpp 629-633: the flag
`solver_memory` is not changed. -/
def St.addRef (s : St) (k a : Nat) : St := s.setReg k ((s.reg k).insert a)

/-- `KinematicsSolver::remove_task(Task&)`, kinematics_solver.cpp 451-459, and `remove_constraint` of both
solvers, 476-484 and dynamics_solver.cpp 589-597. -/
def St.remove (s : St) (k a : Nat) : Except Fault St :=
  (s.setReg k ((s.reg k).filter (· ≠ a))).deleteIfOwned a

/-- `KinematicsSolver::remove_task(FrameTask&)`, kinematics_solver.cpp 461-474. -/
def St.removeFrame (s : St) (k position orientation : Nat) : Except Fault St := do
  let s := s.setReg k ((s.reg k).filter (· ≠ position))
  let s := s.setReg k ((s.reg k).filter (· ≠ orientation))
  let s ← s.deleteIfOwned position
  s.deleteIfOwned orientation

/-- The loop of `clear()`. kinematics_solver.cpp 423-444, dynamics_solver.cpp 326-354. -/
def deleteAll : St → List Nat → Except Fault St
  | s, [] => .ok s
  | s, a :: l => do
    let s ← s.deleteIfOwned a
    deleteAll s l

/-- `clear()` on one container, kinematics_solver.cpp 423-444, dynamics_solver.cpp 326-354; the destructors call it. -/
def St.clear (s : St) (k : Nat) : Except Fault St := do
  let s' ← deleteAll s (s.reg k)
  pure (s'.setReg k [])

/-- `DynamicsSolver::remove_task(Task&)`, dynamics_solver.cpp 565-570: deletes whatever the owner. -/
def St.dynRemoveTask (s : St) (k a : Nat) : Except Fault St :=
  (s.setReg k ((s.reg k).filter (· ≠ a))).delete a

/-- `DynamicsSolver::remove_task(FrameTask&)`, dynamics_solver.cpp 572-576. -/
def St.dynRemoveFrame (s : St) (k position orientation : Nat) : Except Fault St := do
  let s ← s.dynRemoveTask k position
  s.dynRemoveTask k orientation

/-- The template `add_contact(T*)`, dynamics_solver.h 497-505: `push_back` on a vector. -/
def St.addOwnedContact (s : St) (k a : Nat) : St := (s.set a ⟨.alive, true⟩).setReg k (s.reg k ++ [a])

/-- `add_contact(Contact&)`, dynamics_solver.cpp 641-645. -/
def St.addRefContact (s : St) (k a : Nat) : St := s.setReg k (s.reg k ++ [a])

/-- Calls on one kind of container; `k` is the solver. `callerNew` and `callerDelete` are the caller
creating and destroying its own objects.
kinematics_solver.cpp 423-527, dynamics_solver.cpp 326-354 and 565-645. -/
inductive Op where
  | callerNew (a : Nat)
  | callerDelete (a : Nat)
  | addOwned (k a : Nat)
  | addRef (k a : Nat)
  | remove (k a : Nat)
  | removeFrame (k position orientation : Nat)
  | clear (k : Nat)

/-- Tasks of the kinematics solver (and constraints of both solvers).
kinematics_solver.cpp 423-527, dynamics_solver.cpp 589-597. -/
def kinStep (s : St) : Op → Except Fault St
  | .callerNew a => .ok (s.set a ⟨.alive, false⟩)
  | .callerDelete a => .ok (s.set a { s.heap a with status := .freed })
  | .addOwned k a => .ok (s.addOwned k a)
  | .addRef k a => .ok (s.addRef k a)
  | .remove k a => s.remove k a
  | .removeFrame k p o => s.removeFrame k p o
  | .clear k => s.clear k

/-- Tasks of the dynamics solver. dynamics_solver.cpp 565-570. -/
def dynStep (s : St) : Op → Except Fault St
  | .callerNew a => .ok (s.set a ⟨.alive, false⟩)
  | .callerDelete a => .ok (s.set a { s.heap a with status := .freed })
  | .addOwned k a => .ok (s.addOwned k a)
  | .addRef k a => .ok (s.addRef k a)
  | .remove k a => s.dynRemoveTask k a
  | .removeFrame k p o => s.dynRemoveFrame k p o
  | .clear k => s.clear k

/-- Contacts of the dynamics solver. dynamics_solver.cpp 578-587. -/
def contactStep (s : St) : Op → Except Fault St
  | .callerNew a => .ok (s.set a ⟨.alive, false⟩)
  | .callerDelete a => .ok (s.set a { s.heap a with status := .freed })
  | .addOwned k a => .ok (s.addOwnedContact k a)
  | .addRef k a => .ok (s.addRefContact k a)
  | .remove k a => s.remove k a
  | .removeFrame k p o => s.removeFrame k p o
  | .clear k => s.clear k

/-- A history. A program that calls the library. -/
def run (step : St → Op → Except Fault St) : St → List Op → Except Fault St
  | s, [] => .ok s
  | s, op :: ops => do
    let s ← step s op
    run step s ops

end Verif.Registry
