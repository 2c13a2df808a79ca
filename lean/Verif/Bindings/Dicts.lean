/-
Models of the Python dictionaries built and read by the bindings.
  /repo/bindings/expose-dynamics.cpp 31-40, 227-233
  /repo/bindings/expose-robot-wrapper.cpp 82-113, 200-212
  /repo/bindings/expose-kinematics.cpp 203-206
  /repo/bindings/expose-utils.hpp 76-100
-/
import Verif.Robot.Accessors

namespace Verif.Bindings
open Verif.Problem Verif.Robot

/-- A dictionary (or `std::map`) from names.
`boost::python::dict` of expose-robot-wrapper.cpp 86, 104, 204 and expose-dynamics.cpp 32, `std::map` of expose-utils.hpp 78. -/
abbrev Dict (V : Type) := String → Option V

/-- `dict[name] = v`. expose-robot-wrapper.cpp 90, 108, 208, expose-dynamics.cpp 36. -/
def Dict.put {V : Type} (d : Dict V) (name : String) (v : V) : Dict V := fun n => if n = name then some v else d n

/-- The loops `for (auto& dof : robot.joint_names()) dict[dof] = torques[robot.get_joint_v_offset(dof) - shift]`; `shift` is 6 in
`torques_from_acceleration_with_fixed_frame_dict` and 0 in the others. An index out of the vector is undefined.
expose-robot-wrapper.cpp 88-91, 106-109, 206-209, expose-dynamics.cpp 34-37. -/
def fillDict {K : Type} (joints : List Kinematics.Joint) (torques : Vec K) (shift : Nat) : List String → Dict K → Except Err (Dict K)
  | [], d => .ok d
  | name :: rest, d => do
    let j ← jointUnchecked joints name
    if j.idxV < shift ∨ torques.size ≤ j.idxV - shift then .error .ub
    else fillDict joints torques shift rest (d.put name (torques.v (j.idxV - shift)))

/-- `tau_dict`, `static_gravity_compensation_torques_dict`, `get_torques_dict` (`shift = 0`) and
`torques_from_acceleration_with_fixed_frame_dict` (`shift = 6`).
expose-dynamics.cpp 31-40, expose-robot-wrapper.cpp 83-94, 201-212 and 101-112. -/
def torqueDict {K : Type} (joints : List Kinematics.Joint) (torques : Vec K) (shift : Nat) : Except Err (Dict K) :=
  fillDict joints torques shift (namesOf joints) fun _ => none

/-- An entry of the Python dictionary given to `update_map`: the key if it is a string, the value if it is a number.
expose-utils.hpp 78-101. -/
structure PyEntry (V : Type) where
  key : Option String
  value : Option V

/-- `update_map`, expose-utils.hpp 78-101: entries that cannot be converted are skipped (and a message is printed). -/
def updateMap {V : Type} : List (PyEntry V) → Dict V → Dict V
  | [], d => d
  | e :: rest, d =>
    match e.key, e.value with
    | some k, some v => updateMap rest (d.put k v)
    | _, _ => updateMap rest d

end Verif.Bindings
