/-
Model of the drawing of lines and of the frames of robots in `/repo/python/placo_utils/visualization.py`.
The viewer (meshcat, external) is the map from paths to what is drawn there; colours and materials are not modelled. A path `vis[key][k]` is
drawn below `key`.
-/
import Mathlib.Data.List.Basic
import Verif.Base

namespace Verif.Bindings

/-- `g.LineSegments` of meshcat (three.js): the points are taken two by two; a last point alone is not drawn. Used in visualization.py 182,
198, 204, 219. -/
def lineSegments {P : Type} : List P → List (P × P)
  | a :: b :: rest => (a, b) :: lineSegments rest
  | _ => []

/-- What is shown below `lines`, and below each `path_{name}`. visualization.py 181, 212-218. -/
structure LinesSt (P : Type) where
  lines : String → Option (List (P × P))
  paths : String → Nat → Option (List (P × P))

/-- When the module is loaded, visualization.py 10. -/
def LinesSt.init {P : Type} : LinesSt P := ⟨fun _ => none, fun _ _ => none⟩

/-- `line_viz`, visualization.py 176-183. -/
def LinesSt.lineViz {P : Type} (s : LinesSt P) (name : String) (points : List P) : LinesSt P :=
  { s with lines := fun n => if n = name then some (lineSegments points) else s.lines n }

/-- The loop `for k in range(len(points) - 1)` with `n` iterations left, at index `k`. visualization.py 217-222. -/
def pathLoop {P : Type} (points : List P) : Nat → Nat → (Nat → Option (List (P × P))) → Nat → Option (List (P × P))
  | 0, _, f => f
  | n + 1, k, f => pathLoop points n (k + 1) fun i => if i = k then some (lineSegments ((points.drop k).take 2)) else f i

/-- `path_viz`, visualization.py 208-222: what was below the key is deleted first. -/
def LinesSt.pathViz {P : Type} (s : LinesSt P) (name : String) (points : List P) : LinesSt P :=
  { s with paths := fun n => if n = name then pathLoop points (points.length - 1) 0 (fun _ => none) else s.paths n }

/-! ## Frames of robots -/

/-- The names given to the robots (`robot_names`, a robot being a key by its identity) and what is shown below `frames`.
visualization.py 11, 54-85. -/
structure RobotsSt (T : Type) where
  names : Nat → Option String
  frames : String → Option T

/-- When the module is loaded, visualization.py 11. -/
def RobotsSt.init {T : Type} : RobotsSt T := ⟨fun _ => none, fun _ => none⟩

/-- `robot_viz(robot, name = "robot")`: the name of the robot. visualization.py 28-48. -/
def RobotsSt.robotViz {T : Type} (s : RobotsSt T) (robot : Nat) (name : String := "robot") : RobotsSt T :=
  { s with names := fun r => if r = robot then some name else s.names r }

/-- `robot_frame_viz`: the frame is drawn below the name of the robot, an underscore and the name of the frame; a robot
without name raises `KeyError` (`outOfRange`). visualization.py 134-141. -/
def RobotsSt.frameViz {T : Type} (s : RobotsSt T) (robot : Nat) (frame : String) (placement : T) : RobotsSt T × Option Err :=
  match s.names robot with
  | none => (s, some .outOfRange)
  | some n => ({ s with frames := fun k => if k = n ++ "_" ++ frame then some placement else s.frames k }, none)

end Verif.Bindings
