/-
Model of the status reports of the solvers, with their `char buffer[128]`.
  /repo/src/placo/kinematics/kinematics_solver.cpp 486-515, 529-532
  /repo/src/placo/dynamics/dynamics_solver.cpp 356-385
  /repo/src/placo/kinematics/task.cpp 5-13
-/
import Mathlib.Data.Real.Sqrt
import Mathlib.Algebra.BigOperators.Fin
import Verif.Base
import Verif.Tools.Mask

namespace Verif.Tools.Status
open Finset

/-- What is written for one digit. C library, used in kinematics_solver.cpp 512 and dynamics_solver.cpp 375-377. -/
def digit (d : Nat) : Char := Char.ofNat (48 + d)

/-- A natural number in base ten. C library, used in kinematics_solver.cpp 512 and dynamics_solver.cpp 375-377. -/
def integer (n : Nat) : List Char :=
  if n < 10 then [digit n] else integer (n / 10) ++ [digit (n % 10)]

/-- `%.06f` of a number whose product by a million rounds to `n`. C library, used in kinematics_solver.cpp 512 and
dynamics_solver.cpp 375-377. Simplification: the number is finite and not negative (it is a norm). -/
def fixed6 (n : Nat) : List Char :=
  integer (n / 1000000) ++ '.' :: [digit (n / 100000 % 10), digit (n / 10000 % 10), digit (n / 1000 % 10), digit (n / 100 % 10),
    digit (n / 10 % 10), digit (n % 10)]

/-- The text that `sprintf(buffer, "<label>%.06f [%s]\n", norm, unit)` writes, without its final zero. kinematics_solver.cpp 512,
dynamics_solver.cpp 375 and 377. `round` is the rounding of `sprintf`. -/
noncomputable def errorLine (round : ℝ → Nat) (label : List Char) (norm : ℝ) (unit : List Char) : List Char :=
  label ++ fixed6 (round (norm * 1000000)) ++ " [".toList ++ unit ++ "]\n".toList

/-- `sprintf` in `char buffer[128]`: writing past the end is undefined. kinematics_solver.cpp 511-512, dynamics_solver.cpp 374-377. -/
def sprintf128 (text : List Char) : Except Err (List Char) := if 128 < text.length + 1 then .error .ub else .ok text

/-- `Eigen::MatrixXd::norm()`. Eigen, used in kinematics/task.cpp 12 and dynamics_solver.cpp 375-377. -/
noncomputable def norm (rows : Nat) (v : Nat → ℝ) : ℝ := Real.sqrt (∑ i ∈ range rows, v i ^ 2)

/-- A task of a solver, as seen by the report: its name, type, unit, priority and weight (prioritized.h 20-42), and its `update()`,
that gives the vectors `error` and `derror`, of sizes `rows`, or raises. kinematics/task.h 23-74, dynamics/task.h 12-82. In the
kinematics, `error` is `b` and there is no `derror`. -/
structure TaskInfo where
  name : List Char
  typeName : List Char
  unit : List Char
  priority : Priority
  weight : ℝ
  rows : Nat
  update : Except Err ((Nat → ℝ) × (Nat → ℝ))

/-- What is written for the priority by the kinematics solver. `show_` is `<<` of a double. kinematics_solver.cpp 497-509. -/
def kinPriority (show_ : ℝ → List Char) (t : TaskInfo) : List Char :=
  match t.priority with
  | .hard => "hard".toList
  | .scaled => "scaled".toList
  | .soft => "soft (weight:".toList ++ show_ t.weight ++ ")".toList

/-- What is written for the priority by the dynamics solver. dynamics_solver.cpp 364-372. -/
def dynPriority (show_ : ℝ → List Char) (t : TaskInfo) : List Char :=
  match t.priority with
  | .hard => "hard".toList
  | _ => "soft (weight:".toList ++ show_ t.weight ++ ")".toList

/-- The two first lines written for a task, once it is updated. kinematics_solver.cpp 495-510, dynamics_solver.cpp 362-373. -/
def heading (t : TaskInfo) (priority : List Char) : List Char :=
  "  * ".toList ++ t.name ++ " [".toList ++ t.typeName ++ "]".toList ++ ['\n'] ++ "    - Priority: ".toList ++ priority ++ ['\n']

/-- The loop of `KinematicsSolver::dump_status_stream`, kinematics_solver.cpp 492-514: what is written, and the error that stopped it. -/
noncomputable def kinLoop (round : ℝ → Nat) (show_ : ℝ → List Char) : List TaskInfo → List Char × Option Err
  | [] => ([], none)
  | t :: ts =>
    match t.update with
    | .error e => ([], some e)
    | .ok (error, _) =>
      let head := heading t (kinPriority show_ t)
      match sprintf128 (errorLine round "    - Error: ".toList (norm t.rows error) t.unit) with
      | .error e => (head, some e)
      | .ok buffer =>
        let r := kinLoop round show_ ts
        (head ++ buffer ++ ['\n'] ++ r.1, r.2)

/-- `KinematicsSolver::dump_status_stream`, kinematics_solver.cpp 486-515. The tasks are in the order of the set of pointers. -/
noncomputable def kinDump (round : ℝ → Nat) (show_ : ℝ → List Char) (hasScaling : Bool) (scale : ℝ) (ts : List TaskInfo) :
    List Char × Option Err :=
  let r := kinLoop round show_ ts
  ("* Kinematics Tasks:".toList ++ ['\n'] ++ (if hasScaling then "  * Scaling: ".toList ++ show_ scale ++ ['\n'] else []) ++ r.1, r.2)

/-- The loop of `DynamicsSolver::dump_status_stream`, dynamics_solver.cpp 360-379. -/
noncomputable def dynLoop (round : ℝ → Nat) (show_ : ℝ → List Char) : List TaskInfo → List Char × Option Err
  | [] => ([], none)
  | t :: ts =>
    match t.update with
    | .error e => ([], some e)
    | .ok (error, derror) =>
      let head := heading t (dynPriority show_ t)
      match sprintf128 (errorLine round "    - Error: ".toList (norm t.rows error) t.unit) with
      | .error e => (head, some e)
      | .ok buffer =>
        match sprintf128 (errorLine round "    - DError: ".toList (norm t.rows derror) t.unit) with
        | .error e => (head ++ buffer, some e)
        | .ok buffer' =>
          let r := dynLoop round show_ ts
          (head ++ buffer ++ buffer' ++ ['\n'] ++ r.1, r.2)

/-- `DynamicsSolver::dump_status_stream`, dynamics_solver.cpp 356-380. -/
noncomputable def dynDump (round : ℝ → Nat) (show_ : ℝ → List Char) (ts : List TaskInfo) : List Char × Option Err :=
  let r := dynLoop round show_ ts
  ("* Dynamics Tasks:".toList ++ ['\n'] ++ r.1, r.2)

end Verif.Tools.Status
