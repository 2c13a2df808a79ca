/-
Model of `placo::tools::AxisesMask` and `placo::tools::Prioritized`.
  /repo/src/placo/tools/axises_mask.{h,cpp}
  /repo/src/placo/tools/prioritized.{h,cpp}
-/
import Mathlib.Algebra.BigOperators.Fin
import Mathlib.Algebra.Field.Basic
import Verif.Base

namespace Verif.Tools

/-- `AxisesMask::ReferenceFrame`. axises_mask.h 31-45. -/
inductive RefFrame where
  | task | loc | custom
  deriving DecidableEq

/-- Members of `AxisesMask`, axises_mask.h 26-90. Matrices are functions. -/
structure Mask (K : Type) where
  indices : List (Fin 3)
  frame : RefFrame
  rLocalWorld : Fin 3 → Fin 3 → K
  rCustomWorld : Fin 3 → Fin 3 → K

section
variable {K : Type} [Field K]

/-- Constructor, axises_mask.cpp 6-12. -/
def Mask.init : Mask K :=
  ⟨[0, 1, 2], .task, fun i j => if i = j then 1 else 0, fun i j => if i = j then 1 else 0⟩

/-- The loop of `set_axises`, axises_mask.cpp 19-40: indices pushed so far, and whether
an exception was thrown. -/
def pushAxes (indices : List (Fin 3)) : List Char → List (Fin 3) × Option Err
  | [] => (indices, none)
  | c :: cs =>
    let c := c.toLower
    if c = 'x' then pushAxes (indices ++ [0]) cs
    else if c = 'y' then pushAxes (indices ++ [1]) cs
    else if c = 'z' then pushAxes (indices ++ [2]) cs
    else (indices, some .runtimeError)

/-- `set_axises(std::string, ReferenceFrame)`, axises_mask.cpp 14-40: the state reached and
the exception, if any. -/
def Mask.setAxises (m : Mask K) (axises : String) (frame : RefFrame) : Mask K × Option Err :=
  let r := pushAxes [] axises.toList
  ({ m with indices := r.1, frame := frame }, r.2)

/-- `set_axises(std::string, std::string)`, axises_mask.cpp 42-60. -/
def Mask.setAxisesStr (m : Mask K) (axises : String) (frame : String) : Mask K × Option Err :=
  if frame = "task" ∨ frame = "world" then m.setAxises axises .task
  else if frame = "local" then m.setAxises axises .loc
  else if frame = "custom" then m.setAxises axises .custom
  else (m, some .runtimeError)

/-- `AxisesMask::apply`, axises_mask.cpp 62-80, on a matrix with three rows (the
documented shape); the result is the list of rows. -/
def Mask.apply (m : Mask K) (M : Fin 3 → Nat → K) : List (Nat → K) :=
  let masked : Fin 3 → Nat → K :=
    match m.frame with
    | .custom => fun i j => ∑ k, m.rCustomWorld i k * M k j
    | .loc => fun i j => ∑ k, m.rLocalWorld i k * M k j
    | .task => M
  m.indices.map masked

end

/-- `Prioritized::Priority`. prioritized.h 19-33. -/
inductive Priority where
  | hard | soft | scaled
  deriving DecidableEq

/-- Members of `Prioritized`. prioritized.h 41-73. -/
structure Prioritized (K : Type) where
  name : String
  priority : Priority
  weight : K
  deriving DecidableEq

/-- `priority_from_string`, prioritized.cpp 5-23. -/
def priorityFromString (priority : String) : Except Err Priority :=
  if priority = "soft" then .ok .soft
  else if priority = "hard" then .ok .hard
  else if priority = "scaled" then .ok .scaled
  else .error .runtimeError

/-- `configure(std::string, std::string, double)`, prioritized.cpp 35-40: the state reached
and the exception. -/
def Prioritized.configureStr {K : Type} (p : Prioritized K) (name priority : String) (weight : K) :
    Prioritized K × Option Err :=
  let p := { p with name := name }
  match priorityFromString priority with
  | .error e => (p, some e)
  | .ok pr => ({ p with priority := pr, weight := weight }, none)

/-- `configure(std::string, Priority, double)`, prioritized.cpp 42-47. -/
def Prioritized.configure {K : Type} (_ : Prioritized K) (name : String) (priority : Priority) (weight : K) :
    Prioritized K := ⟨name, priority, weight⟩

/-- `priority_name`, prioritized.cpp 49-62. -/
def Prioritized.priorityName {K : Type} (p : Prioritized K) : String :=
  match p.priority with
  | .hard => "hard"
  | .soft => "soft"
  | .scaled => "scaled"

end Verif.Tools
