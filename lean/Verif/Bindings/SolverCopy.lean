/-
Model of the solvers returned by value to Python.
  /repo/bindings/expose-walk-pattern-generator.cpp 135-136 (`WalkTasks.solver`)
  /repo/bindings/expose-robot-wrapper.cpp 139-140 (`make_solver`)
  /repo/src/placo/kinematics/kinematics_solver.h 36-50 (implicit copy constructor), kinematics_solver.cpp 18-21, 423-444
-/
import Verif.Kinematics.Registry

namespace Verif.Registry

/-- The implicit copy constructor of `KinematicsSolver`, on one container: the pointers are copied.
Implicit: kinematics_solver.h 44 declares none. -/
def St.copySolver (s : St) (k k' : Nat) : St := s.setReg k' (s.reg k)

/-- `[](WalkTasks& tasks) { return *tasks.solver; }`: the result `tmp` is a copy of solver `k`; boost copies it in the Python object
`obj`, then `tmp` is destroyed. expose-walk-pattern-generator.cpp 136. -/
def St.returnSolver (s : St) (k tmp obj : Nat) : Except Fault St := ((s.copySolver k tmp).copySolver tmp obj).clear tmp

/-- Reading every object registered in a solver, as `solve` does (`task->update()`).
kinematics_solver.cpp 327-376. -/
def St.readAll (s : St) (k : Nat) : Except Fault Unit :=
  if ∀ a ∈ s.reg k, (s.heap a).status = .alive then .ok () else .error .useAfterFree

end Verif.Registry
