/-
Model of the contacts of a `DynamicsSolver` together with the tasks they were made from.
  /repo/src/placo/dynamics/contacts.{h,cpp}
  /repo/src/placo/dynamics/dynamics_solver.{h,cpp}: add_*, remove_task, remove_contact, clear, solve

A contact keeps pointers to its tasks. Objects are addresses in two heaps (tasks, contacts), which are never used again
after a deletion. Only one solver is modelled: a task handled by another one is a task of the caller here. Which rows a task
has is not modelled: `PointContact` and `LineContact` raise on masked tasks (contacts.cpp 48-57 and 162-175).
-/
import Verif.Base
import Mathlib.Data.List.Basic
import Mathlib.Data.List.Nodup

namespace Verif.Dynamics.ContactSession

/-- A task: its memory, its member `solver_memory` (task.h 34), and the number of the solve of its last `update`, after which
its member `A` is the one of that moment (0: never). dynamics/task.h 12-100. -/
structure TObj where
  alive : Bool := true
  owned : Bool := false
  stamp : Nat := 0
  deriving DecidableEq

/-- The classes of contacts, and the tasks their members point to. contacts.h 85-358. -/
inductive Kind where
  | point (position : Nat)
  | planar (position orientation : Nat)
  | line (position orientation : Nat)
  | external
  | puppet
  | task (t : Nat)
  deriving DecidableEq

/-- The tasks dereferenced by `update`. contacts.cpp 48-57, 96-103, 162-175, 235-238, 249-253, 260-263. -/
def Kind.reads : Kind → List Nat
  | .point p => [p]
  | .planar p o => [p, o]
  | .line p o => [p, o]
  | .external => []
  | .puppet => []
  | .task t => [t]

/-- The tasks whose member `A` is copied to the Jacobian by `update`; the rest of the Jacobian is asked to the robot.
contacts.cpp 50, 98-102, 165-174, 237, 251-252, 262. -/
def Kind.copies : Kind → List Nat
  | .point p => [p]
  | .planar _ _ => []
  | .line _ o => [o]
  | .external => []
  | .puppet => []
  | .task t => [t]

/-- A contact: its class, its memory, `solver_memory` and `active`. contacts.h 19-83. -/
structure CObj where
  kind : Kind
  alive : Bool := true
  owned : Bool := false
  active : Bool := true

/-- The solver, and the memory. `tasks` is the `std::set` of pointers, `contacts` the vector; `solves` is the number of solves
made. dynamics_solver.h 507-520. -/
structure St where
  theap : Nat → Option TObj := fun _ => none
  cheap : Nat → Option CObj := fun _ => none
  tnext : Nat := 0
  cnext : Nat := 0
  tasks : List Nat := []
  contacts : List Nat := []
  solves : Nat := 0

/-- A write in memory. The heap, not code of the library. -/
def put {α : Type} (h : Nat → Option α) (a : Nat) (o : α) : Nat → Option α := fun b => if b = a then some o else h b

/-- Access to a task: undefined for a freed one. The heap, not code of the library. -/
def St.task (s : St) (a : Nat) : Except Err TObj :=
  match s.theap a with
  | some o => if o.alive then .ok o else .error .ub
  | none => .error .ub

/-- Access to a contact: undefined for a freed one. The heap, not code of the library. -/
def St.contact (s : St) (c : Nat) : Except Err CObj :=
  match s.cheap c with
  | some o => if o.alive then .ok o else .error .ub
  | none => .error .ub

/-- `new` on a task: by `add_*_task` (`owned`) or by the caller. dynamics_solver.h 460-471. -/
def St.newTask (s : St) (owned : Bool) : St :=
  { s with theap := put s.theap s.tnext { owned := owned }, tnext := s.tnext + 1
           tasks := if owned then s.tasks ++ [s.tnext] else s.tasks }

/-- `new` on a contact: by `add_*_contact` (`owned`) or by the caller. dynamics_solver.cpp 8-69, dynamics_solver.h 498-505. -/
def St.newContact (s : St) (kind : Kind) (owned : Bool) : St :=
  { s with cheap := put s.cheap s.cnext { kind := kind, owned := owned }, cnext := s.cnext + 1
           contacts := if owned then s.contacts ++ [s.cnext] else s.contacts }

/-- `add_task(Task&)`, dynamics_solver.cpp 629-633: `solver_memory` is kept. -/
def St.addTask (s : St) (a : Nat) : Except Err St :=
  match s.task a with
  | .error e => .error e
  | .ok _ => .ok { s with tasks := if a ∈ s.tasks then s.tasks else s.tasks ++ [a] }

/-- `add_contact(Contact&)`, dynamics_solver.cpp 641-645. -/
def St.addContact (s : St) (c : Nat) : Except Err St :=
  match s.contact c with
  | .error e => .error e
  | .ok _ => .ok { s with contacts := s.contacts ++ [c] }

/-- `remove_task(Task&)`, dynamics_solver.cpp 565-570: the task is deleted whoever created it. -/
def St.removeTask (s : St) (a : Nat) : Except Err St :=
  match s.task a with
  | .error e => .error e
  | .ok o => .ok { s with tasks := s.tasks.filter (· ≠ a), theap := put s.theap a { o with alive := false } }

/-- `remove_contact`, dynamics_solver.cpp 578-587. -/
def St.removeContact (s : St) (c : Nat) : Except Err St :=
  match s.contact c with
  | .error e => .error e
  | .ok o => .ok { s with contacts := s.contacts.filter (· ≠ c)
                          cheap := if o.owned then put s.cheap c { o with alive := false } else s.cheap }

/-- The loop of `clear` on the tasks, dynamics_solver.cpp 328-335. -/
def St.freeTasks (s : St) : List Nat → Except Err St
  | [] => .ok s
  | a :: l =>
    match s.task a with
    | .error e => .error e
    | .ok o => St.freeTasks (if o.owned then { s with theap := put s.theap a { o with alive := false } } else s) l

/-- The loop of `clear` on the contacts, dynamics_solver.cpp 346-353. -/
def St.freeContacts (s : St) : List Nat → Except Err St
  | [] => .ok s
  | c :: l =>
    match s.contact c with
    | .error e => .error e
    | .ok o => St.freeContacts (if o.owned then { s with cheap := put s.cheap c { o with alive := false } } else s) l

/-- `clear`, dynamics_solver.cpp 326-354 (the constraints are not modelled here). -/
def St.clear (s : St) : Except Err St :=
  match s.freeTasks s.tasks with
  | .error e => .error e
  | .ok s1 =>
    match St.freeContacts { s1 with tasks := [] } s.contacts with
    | .error e => .error e
    | .ok s2 => .ok { s2 with contacts := [] }

/-- The loop of `solve` which updates the tasks, dynamics_solver.cpp 402-406, in the solve number `n`. -/
def St.updateTasks (n : Nat) (s : St) : List Nat → Except Err St
  | [] => .ok s
  | a :: l =>
    match s.task a with
    | .error e => .error e
    | .ok o => St.updateTasks n { s with theap := put s.theap a { o with stamp := n } } l

/-- All the tasks of a list are read: the moments their member `A` is of. contacts.cpp 48-57, 96-103, 162-175, 260-263. -/
def St.readTasks (s : St) : List Nat → Except Err (List Nat)
  | [] => .ok []
  | a :: l =>
    match s.task a with
    | .error e => .error e
    | .ok o =>
      match s.readTasks l with
      | .error e => .error e
      | .ok r => .ok (o.stamp :: r)

/-- The loop of `solve` which updates the active contacts, dynamics_solver.cpp 432-443: for each of them, the moments the copied
Jacobians are of. -/
def St.updateContacts (s : St) : List Nat → Except Err (List (Nat × List Nat))
  | [] => .ok []
  | c :: l =>
    match s.contact c with
    | .error e => .error e
    | .ok o =>
      if o.active then
        match s.readTasks o.kind.reads, s.readTasks o.kind.copies with
        | .ok _, .ok stamps =>
          match s.updateContacts l with
          | .error e => .error e
          | .ok r => .ok ((c, stamps) :: r)
        | .error e, _ => .error e
        | _, .error e => .error e
      else s.updateContacts l

/-- The part of `solve` which reads tasks and contacts, dynamics_solver.cpp 387-443. -/
def St.solve (s : St) : Except Err (St × List (Nat × List Nat)) :=
  match s.updateTasks (s.solves + 1) s.tasks with
  | .error e => .error e
  | .ok s1 =>
    match s1.updateContacts s1.contacts with
    | .error e => .error e
    | .ok r => .ok ({ s1 with solves := s.solves + 1 }, r)

/-- The calls. `dropTask` and `dropContact` are the caller deleting an object of theirs. dynamics_solver.h 30-505. -/
inductive Op where
  | newTask (owned : Bool)
  | newContact (kind : Kind) (owned : Bool)
  | addTask (a : Nat)
  | addContact (c : Nat)
  | removeTask (a : Nat)
  | removeContact (c : Nat)
  | dropTask (a : Nat)
  | dropContact (c : Nat)
  | activate (c : Nat) (b : Bool)
  | clear
  | solve

/-- One call. dynamics_solver.cpp 8-69, 326-354, 387-443, 565-587, 629-645. -/
def St.step (s : St) : Op → Except Err St
  | .newTask o => .ok (s.newTask o)
  | .newContact k o => .ok (s.newContact k o)
  | .addTask a => s.addTask a
  | .addContact c => s.addContact c
  | .removeTask a => s.removeTask a
  | .removeContact c => s.removeContact c
  | .dropTask a =>
    match s.task a with
    | .error e => .error e
    | .ok o => .ok { s with theap := put s.theap a { o with alive := false } }
  | .dropContact c =>
    match s.contact c with
    | .error e => .error e
    | .ok o => .ok { s with cheap := put s.cheap c { o with alive := false } }
  | .activate c b =>
    match s.contact c with
    | .error e => .error e
    | .ok o => .ok { s with cheap := put s.cheap c { o with active := b } }
  | .clear => s.clear
  | .solve =>
    match s.solve with
    | .error e => .error e
    | .ok r => .ok r.1

/-- A session. A program that calls the library. -/
def St.run (s : St) : List Op → Except Err St
  | [] => .ok s
  | op :: ops =>
    match s.step op with
    | .error e => .error e
    | .ok s' => s'.run ops

end Verif.Dynamics.ContactSession
