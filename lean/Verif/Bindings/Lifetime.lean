/-
Which objects the Python bindings keep alive.
-/
import Verif.Base

namespace Verif.Bindings

/-- A Python object that wraps a C++ one. The `freed` flag says that CPython has destroyed it, and the C++ object with it.
Simplified: the types and the contents of the objects are not modelled. -/
structure HeapObj where
  /-- the number of the object whose memory contains the C++ object: itself, or the solver for a task made by the solver, … -/
  body : Nat
  /-- the objects to which the C++ object has references or pointers -/
  uses : List Nat
  /-- the Python objects that this one keeps alive -/
  keeps : List Nat
  /-- the program still has a name for it -/
  held : Bool
  freed : Bool
deriving Repr, DecidableEq

/-- The classes whose constructor takes other objects and stores references or pointers to them: expose-kinematics.cpp 22 and
kinematics_solver.h 440; expose-dynamics.cpp 91 and dynamics_solver.h 336; expose-problem.cpp 86-87 and integrator.h 151;
expose-problem.cpp 100 and problem_polynom.h 35; expose-walk-pattern-generator.cpp 163-164 and lipm.h 64-65; expose-footsteps.cpp 99,
103-104 and footsteps_planner.h 150; expose-walk-pattern-generator.cpp 67 and walk_pattern_generator.h 218, 221;
expose-walk-pattern-generator.cpp 185 and dummy_walk.h 45, 50; expose-dynamics.cpp 50 and contacts.h 102; expose-dynamics.cpp 89 and
contacts.h 240. -/
inductive Ctor where
  | kinematicsSolver | dynamicsSolver | integrator | problemPolynom | lipm | plannerNaive | plannerRepetitive | walkPatternGenerator
  | dummyWalk | pointContact | taskContact
deriving DecidableEq

/-- Does the constructor have the call policy `with_custodian_and_ward`, with which the new object keeps its arguments alive? None has
(same lines). -/
def Ctor.custodian (_ : Ctor) : Bool := false

/-- The calls of a Python program. `make` is a constructor that refers to no other object (`RobotWrapper(…)`, `Problem()`,
`HumanoidParameters()`, expose-robot-wrapper.cpp 176, expose-problem.cpp 108, expose-parameters.cpp); `internal` a method or attribute that
gives a part of an object with `return_internal_reference` (`add_variable`, `add_constraint`, `add_position_task`, …: expose-problem.cpp
109-111, expose-kinematics.cpp 33-112, expose-dynamics.cpp 103-157; and attributes such as `problem`, expose-kinematics.cpp 23, for which
it is the default of Boost.Python); `existing` an attribute that gives an object to which the object refers, with
`reference_existing_object` (expose-kinematics.cpp 27-30, expose-walk-pattern-generator.cpp 190-195); `del` the end of a name; `use` any
other call of a method. -/
inductive PyCall where
  | make
  | construct (c : Ctor) (args : List Nat)
  | internal (parent : Nat)
  | existing (parent : Nat) (k : Nat)
  | del (i : Nat)
  | use (i : Nat)

/-- The object of number `i`; the objects are listed from the last to the first. Access to the memory of Python. -/
def lookup : List HeapObj → Nat → Option HeapObj
  | [], _ => none
  | o :: l, i => if i = l.length then some o else lookup l i

/-- Reference counting of CPython: an object is destroyed when no name and no living object keeps it. `kept` are the numbers kept by the
objects met before; an object can only keep older ones. -/
def collect : List HeapObj → List Nat → List HeapObj
  | [], _ => []
  | o :: l, kept =>
    if o.held = true ∨ l.length ∈ kept then { o with freed := false } :: collect l (kept ++ o.keeps)
    else { o with freed := true } :: collect l kept

/-- Are all the objects that a call can reach, through references and pointers, still there? Every method is taken to follow all of them. -/
def allThere : List HeapObj → List Nat → Bool
  | [], _ => true
  | o :: l, todo => if l.length ∈ todo then !o.freed && allThere l (todo ++ o.uses) else allThere l todo

/-- Calling a method of the object `i`: a Python exception without a name for it, undefined behaviour if something that it refers to has been
destroyed. Boost.Python, call of a wrapped function. -/
def checkUse (s : List HeapObj) (i : Nat) : Option Err :=
  match lookup s i with
  | none => some .logicError
  | some o => if o.held = true then (if allThere s [o.body] = true then none else some .ub) else some .logicError

/-- The first failure among the arguments. Boost.Python, conversion of the arguments. -/
def checkAll (s : List HeapObj) : List Nat → Option Err
  | [] => none
  | i :: l => match checkUse s i with
    | some e => some e
    | none => checkAll s l

/-- The memory in which the C++ object of `i` is. See `HeapObj.body`. -/
def bodyOf (s : List HeapObj) (i : Nat) : Nat := match lookup s i with
  | some o => o.body
  | none => i

/-- The program forgets the name of `i`: `del`, the end of a function, or an assignment. -/
def unhold : List HeapObj → Nat → List HeapObj
  | [], _ => []
  | o :: l, i => if i = l.length then { o with held := false } :: l else o :: unhold l i

/-- One call: the state and the error. The constructors and methods are those cited in `Ctor` and `PyCall`. -/
def pyStep (s : List HeapObj) : PyCall → List HeapObj × Option Err
  | .make => (⟨s.length, [], [], true, false⟩ :: s, none)
  | .construct c args => match checkAll s args with
    | some e => (s, some e)
    | none => (⟨s.length, args.map (bodyOf s), if c.custodian then args else [], true, false⟩ :: s, none)
  | .internal p => match checkUse s p with
    | some e => (s, some e)
    | none => (⟨bodyOf s p, [], [p], true, false⟩ :: s, none)
  | .existing p k => match checkUse s p with
    | some e => (s, some e)
    | none => match lookup s (bodyOf s p) with
      | none => (s, some .logicError)
      | some o => match o.uses[k]? with
        | none => (s, some .logicError)
        | some b => (⟨b, [], [], true, false⟩ :: s, none)
  | .del i => match lookup s i with
    | none => (s, some .logicError)
    | some o => if o.held = true then (collect (unhold s i) [], none) else (s, some .logicError)
  | .use i => (s, checkUse s i)

/-- A Python program, from an interpreter without objects. A program that calls the library. -/
def pyRun (calls : List PyCall) : List HeapObj := calls.foldl (fun s c => (pyStep s c).1) []

end Verif.Bindings
