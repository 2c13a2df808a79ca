/-
Model of `placo::humanoid::WalkTasks`.
  /repo/src/placo/humanoid/walk_tasks.{h,cpp}
  /repo/src/placo/kinematics/kinematics_solver.{h,cpp}: add_*_task, remove_task

Tasks are objects in a heap; pointers are addresses, and a null pointer or the address of a deleted object cannot be
used (`Err.ub`). `reach_initial_pose` is in InitialPose.lean.
-/
import Verif.StdMap
import Verif.Humanoid.Wpg

namespace Verif.Humanoid
open Verif.Tools Verif.Problem

/-! ## Tasks of the solver -/

/-- The class of a task, and its frame. walk_tasks.h 24-29. -/
inductive TaskKind where
  | position (frame : String)
  | orientation (frame : String)
  | com
  deriving DecidableEq

/-- A task: its `name` and `priority` (`configure`), and its target.
prioritized.h 41-73, walk_tasks.cpp 15-22. -/
structure TaskObj where
  kind : TaskKind
  name : String
  scaled : Bool
  target : V3 := 0
  rotation : M3 := 1

/-- The heap and the member `tasks` of the solver. Simplification: `new` never returns an address used before.
kinematics_solver.h 513. -/
structure World where
  heap : Nat → Option TaskObj
  next : Nat
  tasks : List Nat

/-- `solver->add_…_task(…)` then `configure`: the template `add_task(T*)`, kinematics_solver.h 479-491. -/
def World.add (w : World) (o : TaskObj) : World × Nat :=
  ({ heap := fun b => if b = w.next then some o else w.heap b, next := w.next + 1, tasks := w.next :: w.tasks }, w.next)

/-- `tasks.erase(&task); delete &task;`. kinematics_solver.cpp 451-459. -/
def World.erase (w : World) (a : Nat) : World :=
  { w with tasks := w.tasks.filter (· ≠ a), heap := fun b => if b = a then none else w.heap b }

/-- `KinematicsSolver::remove_task(Task&)`, kinematics_solver.cpp 451-459. All the tasks of `WalkTasks` are owned by the
solver. -/
def World.remove (w : World) (a : Nat) : Except Err World :=
  match w.heap a with
  | none => .error .ub
  | some _ => .ok (w.erase a)

/-- The object at an address is replaced. The heap, not code of the library. -/
def World.put (w : World) (a : Nat) (o : TaskObj) : World := { w with heap := fun b => if b = a then some o else w.heap b }

/-- Writing a member of a task. E.g. walk_tasks.cpp 100, 104, 109. -/
def World.write (w : World) (a : Nat) (f : TaskObj → TaskObj) : Except Err World :=
  match w.heap a with
  | none => .error .ub
  | some o => .ok (w.put a (f o))

/-- Reading a task. E.g. walk_tasks.cpp 151-162. -/
def World.read (w : World) (a : Nat) : Except Err TaskObj :=
  match w.heap a with
  | none => .error .ub
  | some o => .ok o

/-- Dereferencing a pointer. E.g. walk_tasks.cpp 100, 104. -/
def deref : Option Nat → Except Err Nat
  | none => .error .ub
  | some a => .ok a

/-! ## WalkTasks -/

/-- The members of `WalkTasks`, walk_tasks.h 23-53. `trunk_orientation_task` has no initial value. The members of the
PID have no initial value either (`none`). -/
structure WalkTasks where
  bound : Bool := false
  leftPosition : Option Nat := none
  leftOrientation : Option Nat := none
  rightPosition : Option Nat := none
  rightOrientation : Option Nat := none
  trunkOrientation : Option Nat := none
  com : Option Nat := none
  trunk : Option Nat := none
  scaled : Bool := false
  trunkMode : Bool := false
  comX : ℝ := 0
  comY : ℝ := 0
  Kp : ℝ := 0
  Ki : ℝ := 0
  Kd : ℝ := 0
  lambda : ℝ := 1 / 100
  integral : Option V2 := none
  lastError : Option V2 := none

/-- What is read of the robot. walk_tasks.cpp 15-22, 38, 51 and 96. -/
structure RobotView where
  left : Affine
  right : Affine
  trunk : Affine
  com : V3

/-- The solver and the members of `WalkTasks`, walk_tasks.h 21-52. -/
structure WalkSt where
  w : World
  t : WalkTasks

/-- walk_tasks.cpp 31-35: removes the CoM task. -/
def WalkSt.dropCom (s : WalkSt) : Except Err WalkSt :=
  match s.t.com with
  | none => .ok s
  | some a =>
    if s.t.bound then do
      let w ← s.w.remove a
      .ok { w := w, t := { s.t with com := none } }
    else .error .ub

/-- walk_tasks.cpp 44-48: removes the trunk task. -/
def WalkSt.dropTrunk (s : WalkSt) : Except Err WalkSt :=
  match s.t.trunk with
  | none => .ok s
  | some a =>
    if s.t.bound then do
      let w ← s.w.remove a
      .ok { w := w, t := { s.t with trunk := none } }
    else .error .ub

/-- walk_tasks.cpp 36-40. -/
def WalkSt.addTrunk (r : RobotView) (s : WalkSt) : Except Err WalkSt :=
  match s.t.trunk with
  | some _ => .ok s
  | none =>
    if s.t.bound then
      let p := s.w.add { kind := .position "trunk", name := "trunk", scaled := s.t.scaled, target := r.trunk.translation }
      .ok { w := p.1, t := { s.t with trunk := some p.2 } }
    else .error .ub

/-- walk_tasks.cpp 49-53. -/
def WalkSt.addCom (r : RobotView) (s : WalkSt) : Except Err WalkSt :=
  match s.t.com with
  | some _ => .ok s
  | none =>
    if s.t.bound then
      let p := s.w.add { kind := .com, name := "com", scaled := s.t.scaled, target := r.com }
      .ok { w := p.1, t := { s.t with com := some p.2 } }
    else .error .ub

/-- `update_com_task`, walk_tasks.cpp 27-55. -/
def WalkSt.updateComTask (r : RobotView) (s : WalkSt) : Except Err WalkSt :=
  if s.t.trunkMode then do
    let s ← s.dropCom
    s.addTrunk r
  else do
    let s ← s.dropTrunk
    s.addCom r

/-- The five tasks of `initialize_tasks`, walk_tasks.cpp 12-22. `rotation()` is taken to be the linear part, which holds
for rigid transforms. -/
def WalkSt.addFixed (r : RobotView) (s : WalkSt) : WalkSt :=
  let lp := s.w.add { kind := .position "left_foot", name := "left_foot_position", scaled := s.t.scaled, target := r.left.translation }
  let lo := lp.1.add { kind := .orientation "left_foot", name := "left_foot_orientation", scaled := s.t.scaled, rotation := r.left.linear }
  let rp := lo.1.add { kind := .position "right_foot", name := "right_foot_position", scaled := s.t.scaled, target := r.right.translation }
  let ro := rp.1.add { kind := .orientation "right_foot", name := "right_foot_orientation", scaled := s.t.scaled, rotation := r.right.linear }
  let tr := ro.1.add { kind := .orientation "trunk", name := "trunk", scaled := s.t.scaled, rotation := r.trunk.linear }
  { w := tr.1
    t := { s.t with
      bound := true, leftPosition := some lp.2, leftOrientation := some lo.2, rightPosition := some rp.2
      rightOrientation := some ro.2, trunkOrientation := some tr.2 } }

/-- `initialize_tasks`, walk_tasks.cpp 10-25. -/
def WalkSt.initialize (r : RobotView) (s : WalkSt) : Except Err WalkSt := (s.addFixed r).updateComTask r

/-- The targets given to `update_tasks`. walk_tasks.cpp 92-93. -/
structure Targets where
  left : Affine
  right : Affine
  com : V3
  trunk : M3

/-- walk_tasks.cpp 98-105: the pointer whose target is set to the CoM. -/
def WalkTasks.comPointer (t : WalkTasks) : Option Nat := if t.trunkMode then t.trunk else t.com

/-- `update_tasks(T_world_left, T_world_right, com_world, R_world_trunk)`, walk_tasks.cpp 92-110. -/
def WalkSt.updateTasks (r : RobotView) (T : Targets) (s : WalkSt) : Except Err WalkSt := do
  let s ← s.updateComTask r
  let offset := r.trunk.linear.mulVec ![s.t.comX, s.t.comY, 0]
  let p ← deref s.t.comPointer
  let w ← s.w.write p fun o => { o with target := T.com + offset }
  let lp ← deref s.t.leftPosition
  let w ← w.write lp fun o => { o with target := T.left.translation }
  let lo ← deref s.t.leftOrientation
  let w ← w.write lo fun o => { o with rotation := T.left.linear }
  let rp ← deref s.t.rightPosition
  let w ← w.write rp fun o => { o with target := T.right.translation }
  let ro ← deref s.t.rightOrientation
  let w ← w.write ro fun o => { o with rotation := T.right.linear }
  let tr ← deref s.t.trunkOrientation
  let w ← w.write tr fun o => { o with rotation := T.trunk }
  .ok { s with w := w }

/-- `remove_task(FrameTask&)`, kinematics_solver.cpp 461-474. -/
def World.removeFrame (w : World) (position orientation : Option Nat) : Except Err World := do
  let p ← deref position
  let o ← deref orientation
  let w ← w.remove p
  w.remove o

/-- `remove_tasks`, walk_tasks.cpp 112-131. -/
def WalkSt.removeTasks (s : WalkSt) : Except Err WalkSt :=
  if s.t.bound then do
    let w ← s.w.removeFrame s.t.leftPosition s.t.leftOrientation
    let w ← w.removeFrame s.t.rightPosition s.t.rightOrientation
    let s ← WalkSt.dropCom { s with w := w }
    let s ← s.dropTrunk
    let tr ← deref s.t.trunkOrientation
    let w ← s.w.remove tr
    .ok { w := w, t := { s.t with bound := false } }
  else .ok s

/-- The PID of `update_tasks_and_pid`, walk_tasks.cpp 133-146: the new state of the PID and the offset of the CoM.
With `elapsed = 0` the code divides by zero (its derivative is infinite or not a number), the model's derivative is then null:
the theorems on the offset ask for a positive duration. -/
noncomputable def WalkTasks.pid (t : WalkTasks) (error : V2) (elapsed : ℝ) : Except Err (WalkTasks × V2) :=
  match t.integral, t.lastError with
  | some i, some e =>
    let integral : V2 := ⟨(1 - t.lambda) * i.x + error.x * elapsed, (1 - t.lambda) * i.y + error.y * elapsed⟩
    let derivative : V2 := ⟨(error.x - e.x) / elapsed, (error.y - e.y) / elapsed⟩
    .ok ({ t with integral := some integral, lastError := some error },
      ⟨t.Kp * error.x + t.Ki * integral.x + t.Kd * derivative.x,
       t.Kp * error.y + t.Ki * integral.y + t.Kd * derivative.y⟩)
  | _, _ => .error .ub

/-- `update_tasks_and_pid`, walk_tasks.cpp 133-146. The trajectory is read by the caller of the model: `T` are its
targets at `t` (`t + com_delay` for the CoM) and `dcm` its DCM. -/
noncomputable def WalkSt.updateTasksAndPid (r : RobotView) (T : Targets) (dcm measured : V2) (elapsed : ℝ) (s : WalkSt) :
    Except Err WalkSt := do
  let p ← s.t.pid ⟨measured.x - dcm.x, measured.y - dcm.y⟩ elapsed
  WalkSt.updateTasks r { T with com := T.com + ![p.2.x, p.2.y, 0] } { s with t := p.1 }

/-- Reading the error of a task; `err` is the `error()` of the tasks. walk_tasks.cpp 151-162. -/
def WalkSt.errorOf (err : TaskObj → V3) (s : WalkSt) (p : Option Nat) : Except Err V3 := do
  let a ← deref p
  let o ← s.w.read a
  .ok (err o)

/-- The last entry of `get_tasks_error`, walk_tasks.cpp 156-163. -/
def WalkSt.comError (err : TaskObj → V3) (s : WalkSt) (m : SMap String V3) : Except Err (SMap String V3) :=
  if s.t.trunkMode then do
    let e ← s.errorOf err s.t.trunk
    .ok (m.set "trunk_position" e)
  else do
    let e ← s.errorOf err s.t.com
    .ok (m.set "com_position" e)

/-- `get_tasks_error`, walk_tasks.cpp 148-165. -/
def WalkSt.getTasksError (err : TaskObj → V3) (s : WalkSt) : Except Err (SMap String V3) := do
  let lo ← s.errorOf err s.t.leftOrientation
  let m := SMap.set "left_foot_orientation" lo []
  let ro ← s.errorOf err s.t.rightOrientation
  let m := SMap.set "right_foot_orientation" ro m
  let lp ← s.errorOf err s.t.leftPosition
  let m := SMap.set "left_foot_orientation" lp m
  let rp ← s.errorOf err s.t.rightPosition
  let m := SMap.set "right_foot_orientation" rp m
  let tr ← s.errorOf err s.t.trunkOrientation
  let m := SMap.set "trunk_orientation" tr m
  s.comError err m

/-! ## Use -/

/-- What a program does between `initialize_tasks` and `remove_tasks`: changes the options, updates the targets.
walk_tasks.h 11-44. -/
inductive WalkOp where
  | setMode (trunkMode : Bool)
  | setScaled (scaled : Bool)
  | setOffset (x y : ℝ)
  | update (r : RobotView) (T : Targets)

/-- One call, walk_tasks.cpp 86-146. -/
def WalkSt.step (s : WalkSt) : WalkOp → Except Err WalkSt
  | .setMode b => .ok { s with t := { s.t with trunkMode := b } }
  | .setScaled b => .ok { s with t := { s.t with scaled := b } }
  | .setOffset x y => .ok { s with t := { s.t with comX := x, comY := y } }
  | .update r T => s.updateTasks r T

/-- A history of calls, walk_tasks.cpp 86-146. -/
def WalkSt.run : WalkSt → List WalkOp → Except Err WalkSt
  | s, [] => .ok s
  | s, op :: ops => do
    let s ← s.step op
    s.run ops

end Verif.Humanoid
