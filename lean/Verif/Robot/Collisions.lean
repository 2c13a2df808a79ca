/-
Model of the collision pairs of `RobotWrapper`.
  /repo/src/placo/model/robot_wrapper.cpp 354-415 (load_collision_pairs), 455-530 (self_collisions, distances)

The geometry (coal) and the JSON parser are external: the results of the collision tests are parameters, and the file is given
as the values the parser returns. `addCollisionPair` and the constructor of `CollisionPair` are pinocchio's: they raise
`std::invalid_argument` (a `logic_error`) for equal or unknown objects, and pairs are not ordered.
-/
import Verif.Problem.Expression

namespace Verif.Robot
open Verif.Problem

/-- A coefficient of an entry of the file, by what `isInt()` and `isString()` answer.
jsoncpp, used in robot_wrapper.cpp 378-414. -/
inductive JsonScalar where
  | int (z : Int)
  | str (s : String)
  | other
  deriving DecidableEq

/-- An entry of the file: an array of two values, an array of another size, an object with `n` members, another value.
jsoncpp, used in robot_wrapper.cpp 378-414. -/
inductive JsonEntry where
  | two (a b : JsonScalar)
  | array (n : Nat) (h : n ≠ 2)
  | object (n : Nat)
  | value

/-- The file. `entries` also stands for the values with size 0, which have no entry.
robot_wrapper.cpp 370-377. -/
inductive JsonFile where
  | missing
  | invalid
  | entries (l : List JsonEntry)
  | object (n : Nat)

/-- `collision_model`: for each geometry object the name of its parent frame (none without parent frame), and the pairs.
robot_wrapper.h 691. -/
structure CollisionModel where
  geoms : List (Option String)
  pairs : List (Nat × Nat)

/-- `name_to_objects[name]`, robot_wrapper.cpp 359-368. -/
def objectsOf (geoms : List (Option String)) (name : String) : List Nat :=
  (List.range geoms.length).filter fun k => geoms[k]? = some (some name)

/-- Pinocchio's equality of pairs. pinocchio, not code of the library. -/
def samePair (p q : Nat × Nat) : Bool := (p.1 = q.1 && p.2 = q.2) || (p.1 = q.2 && p.2 = q.1)

/-- `addCollisionPair(CollisionPair(k1, k2))` (pinocchio) for `n` geometry objects.
Called in robot_wrapper.cpp 354-419. -/
def addPair (n : Nat) (pairs : List (Nat × Nat)) (p : Nat × Nat) : List (Nat × Nat) × Option Err :=
  if p.1 = p.2 then (pairs, some .logicError)
  else if n ≤ p.1 ∨ n ≤ p.2 then (pairs, some .logicError)
  else if pairs.any (samePair p) then (pairs, none)
  else (pairs ++ [p], none)

/-- Pairs added one after the other, up to an exception. robot_wrapper.cpp 354-419. -/
def addPairs (n : Nat) : List (Nat × Nat) → List (Nat × Nat) → List (Nat × Nat) × Option Err
  | pairs, [] => (pairs, none)
  | pairs, p :: rest =>
    match addPair n pairs p with
    | (pairs, some e) => (pairs, some e)
    | (pairs, none) => addPairs n pairs rest

/-- The body of the loop on the entries, robot_wrapper.cpp 378-414. A negative integer is converted to a `size_t` that is out of range (of any
number of objects that can be stored); `entry[0]` raises a `Json::LogicError` on an object. -/
def addEntry (geoms : List (Option String)) (pairs : List (Nat × Nat)) : JsonEntry → List (Nat × Nat) × Option Err
  | .two (.int a) (.int b) =>
    if a < 0 ∨ b < 0 then (pairs, some .logicError) else addPair geoms.length pairs (a.toNat, b.toNat)
  | .two (.str a) (.str b) =>
    if objectsOf geoms a = [] ∨ objectsOf geoms b = [] then (pairs, some .runtimeError)
    else addPairs geoms.length pairs ((objectsOf geoms a).flatMap fun k1 => (objectsOf geoms b).map fun k2 => (k1, k2))
  | .two _ _ => (pairs, some .runtimeError)
  | .array _ _ => (pairs, none)
  | .object n => if n = 2 then (pairs, some .logicError) else (pairs, none)
  | .value => (pairs, none)

/-- The loop, robot_wrapper.cpp 378-414. -/
def addEntries (geoms : List (Option String)) : List (Nat × Nat) → List JsonEntry → List (Nat × Nat) × Option Err
  | pairs, [] => (pairs, none)
  | pairs, e :: rest =>
    match addEntry geoms pairs e with
    | (pairs, some e) => (pairs, some e)
    | (pairs, none) => addEntries geoms pairs rest

/-- `load_collision_pairs`, robot_wrapper.cpp 354-419: the pairs are removed first. A file that cannot be parsed raises `Json::RuntimeError`. -/
def CollisionModel.load (m : CollisionModel) (f : JsonFile) : CollisionModel × Option Err :=
  match f with
  | .missing => ({ m with pairs := [] }, some .runtimeError)
  | .invalid => ({ m with pairs := [] }, some .runtimeError)
  | .object n => ({ m with pairs := [] }, if n = 0 then none else some .logicError)
  | .entries l => ({ m with pairs := (addEntries m.geoms [] l).1 }, (addEntries m.geoms [] l).2)

/-! ## Collisions and distances -/

/-- A geometry object: its name and its parent joint.
pinocchio, read in robot_wrapper.cpp 455-533. -/
structure GeomObject where
  name : String
  parentJoint : Nat

/-- `RobotWrapper::Collision`; `P` is the type of points. robot_wrapper.h 341-379. -/
structure Collision (P : Type) where
  objA : Nat
  objB : Nat
  bodyA : String
  parentA : Nat
  bodyB : String
  parentB : Nat
  contacts : List P

/-- `RobotWrapper::Distance`. robot_wrapper.h 392-430. -/
structure Distance (P K : Type) where
  objA : Nat
  objB : Nat
  parentA : Nat
  parentB : Nat
  pointA : P
  pointB : P
  minDistance : K

/-- The loop of `self_collisions`, robot_wrapper.cpp 471-497: `result k` are the contacts of pair `k` when it is in collision (coal). -/
def selfCollisionsFrom {P : Type} (geom : Nat → GeomObject) (result : Nat → Option (List P)) (stopAtFirst : Bool) :
    Nat → List (Nat × Nat) → List (Collision P) → List (Collision P)
  | _, [], acc => acc
  | k, cp :: rest, acc =>
    match result k with
    | some contacts =>
      let c : Collision P := ⟨cp.1, cp.2, (geom cp.1).name, (geom cp.1).parentJoint, (geom cp.2).name, (geom cp.2).parentJoint, contacts⟩
      if stopAtFirst then acc ++ [c] else selfCollisionsFrom geom result stopAtFirst (k + 1) rest (acc ++ [c])
    | none => selfCollisionsFrom geom result stopAtFirst (k + 1) rest acc

/-- `self_collisions`, robot_wrapper.cpp 455-500. -/
def selfCollisions {P : Type} (geom : Nat → GeomObject) (pairs : List (Nat × Nat)) (result : Nat → Option (List P)) (stopAtFirst : Bool) :
    List (Collision P) := selfCollisionsFrom geom result stopAtFirst 0 pairs []

/-- The loop of `distances`, robot_wrapper.cpp 516-529: `result k` are the nearest points and the distance of pair `k`. -/
def distancesFrom {P K : Type} (geom : Nat → GeomObject) (result : Nat → P × P × K) :
    Nat → List (Nat × Nat) → List (Distance P K) → List (Distance P K)
  | _, [], acc => acc
  | k, cp :: rest, acc => distancesFrom geom result (k + 1) rest
      (acc ++ [⟨cp.1, cp.2, (geom cp.1).parentJoint, (geom cp.2).parentJoint, (result k).1, (result k).2.1, (result k).2.2⟩])

/-- `distances`, robot_wrapper.cpp 502-533. -/
def distances {P K : Type} (geom : Nat → GeomObject) (pairs : List (Nat × Nat)) (result : Nat → P × P × K) : List (Distance P K) :=
  distancesFrom geom result 0 pairs []

end Verif.Robot
