/-
Model of the calls that add tasks, constraints and contacts to the solvers.
  /repo/src/placo/kinematics/kinematics_solver.cpp 23-247, kinematics_solver.h 479-505
  /repo/src/placo/dynamics/dynamics_solver.cpp 8-171, dynamics_solver.h 459-505
  /repo/src/placo/model/robot_wrapper.cpp 174-184 (get_frame_index), 535-555 (string_to_reference), 766-774 (frame_names)

The containers (`std::set` ordered by address) are lists in the order of creation; ownership is in Kinematics/Registry.lean. Vectors,
rotations and doubles are carried as they are: types `V`, `R` and `K`.
-/
import Verif.Kinematics.FrameTasks
import Verif.Tools.Mask

namespace Verif.Kinematics

/-- `get_frame_index`, robot_wrapper.cpp 174-184, for the names of `frame_names()` (766-774): pinocchio's `getFrameId` is the first
frame with that name. -/
def frameIndex (frames : List String) (name : String) : Except Err Nat :=
  if name ∈ frames then .ok (frames.idxOf name) else .error .runtimeError

/-- A frame as it is given to a call: the overloads by index and by name. kinematics_solver.cpp 23-31. -/
inductive FrameRef where
  | index (i : Nat)
  | name (s : String)

/-- Two frames: the overloads by indices and by names. kinematics_solver.cpp 33-44. -/
inductive FramesRef where
  | indices (a b : Nat)
  | names (a b : String)

/-- `robot.get_frame_index(frame)` in the overloads by name. kinematics_solver.cpp 28-31. -/
def FrameRef.resolve (frames : List String) : FrameRef → Except Err Nat
  | .index i => .ok i
  | .name s => frameIndex frames s

/-- `robot.get_frame_index(frame_a), robot.get_frame_index(frame_b)`. kinematics_solver.cpp 40-44. -/
def FramesRef.resolve (frames : List String) : FramesRef → Except Err (Nat × Nat)
  | .indices a b => .ok (a, b)
  | .names a b => do
    let i ← frameIndex frames a
    let j ← frameIndex frames b
    pure (i, j)

/-- A placement: `translation()` and `rotation()` of an `Eigen::Affine3d`. Eigen. -/
structure Placement (V R : Type) where
  translation : V
  rotation : R

/-- The objects, with the arguments of their constructors. kinematics_solver.cpp 23-247, dynamics_solver.cpp 8-171. -/
inductive Obj (K V R : Type) where
  | position (frame : Nat) (target : V)
  | relPosition (a b : Nat) (target : V)
  | com (target : V)
  | orientation (frame : Nat) (target : R)
  | relOrientation (a b : Nat) (target : R)
  | axisAlign (frame : Nat) (axis target : V)
  | joints (targets : String → Option K)
  | distance (a b : Nat) (target : K)
  | momentum (target : V)
  | gear
  | torque
  | wheel (joint : String) (radius : K) (omniwheel : Bool)
  | regularization (weight : K)
  | manipulability (frame : Nat) (type : ManipType) (lambda : K)
  | kineticEnergy
  | selfCollisions
  | comPolygon (polygon : List (K × K)) (margin : K)
  | halfSpaces (A : List (List K)) (b : List K)
  | cone (a b : Nat) (angleMax : K)
  | yaw (a b : Nat) (angleMax : K)
  | distanceMax (a b : Nat) (max : K)

/-- The objects of a solver: with each of them its members of `Prioritized`. `task_id` and `constraint_id` count the objects created.
kinematics_solver.h 479-530. -/
structure Objects (K V R : Type) where
  tasks : List (Obj K V R × Tools.Prioritized K) := []
  constraints : List (Obj K V R × Tools.Prioritized K) := []
  taskId : Nat := 0
  constraintId : Nat := 0

variable {K V R : Type} [One K]

/-- The template `add_task(T*)`, kinematics_solver.h 479-491, dynamics_solver.h 459-471. A new `Prioritized` is soft with weight 1
(prioritized.cpp 25-29). -/
def Objects.addTask (s : Objects K V R) (o : Obj K V R) : Objects K V R :=
  { s with
    tasks := s.tasks ++ [(o, ⟨"Task_" ++ Nat.repr (s.taskId + 1), .soft, 1⟩)]
    taskId := s.taskId + 1 }

/-- `add_task(T*)` followed by `configure(name, Soft, weight)`. kinematics_solver.cpp 157-164 and 195-201. -/
def Objects.addTaskAs (s : Objects K V R) (o : Obj K V R) (name : String) (weight : K) : Objects K V R :=
  { s with
    tasks := s.tasks ++ [(o, ⟨name, .soft, weight⟩)]
    taskId := s.taskId + 1 }

/-- The template `add_constraint(T*)`, kinematics_solver.h 493-505, dynamics_solver.h 478-490. -/
def Objects.addConstraint (s : Objects K V R) (o : Obj K V R) : Objects K V R :=
  { s with
    constraints := s.constraints ++ [(o, ⟨"Constraint_" ++ Nat.repr (s.constraintId + 1), .soft, 1⟩)]
    constraintId := s.constraintId + 1 }

/-- The loop of `add_joints_task(std::map&)`, kinematics_solver.cpp 119-127. -/
def assignAll : List (String × K) → (String → Option K) → String → Option K
  | [], m => m
  | (n, v) :: l, m => assignAll l fun k => if k = n then some v else m k

/-- `add_manipulability_task(std::string, std::string, double)`, kinematics_solver.cpp 172-193. -/
def manipType (type : String) : Except Err ManipType :=
  if type = "position" then .ok .position
  else if type = "orientation" then .ok .orientation
  else if type = "both" then .ok .both
  else .error .runtimeError

/-- How a manipulability type is given. kinematics_solver.cpp 166-193. -/
inductive ManipArgs where
  | index (frame : Nat) (type : ManipType)
  | name (frame : String) (type : String)

/-- kinematics_solver.cpp 166-193. -/
def ManipArgs.resolve (frames : List String) : ManipArgs → Except Err (Nat × ManipType)
  | .index f t => .ok (f, t)
  | .name f t => do
    let t ← manipType t
    let f ← frameIndex frames f
    pure (f, t)

/-- The calls of the kinematics solver that add an object, kinematics_solver.cpp 23-247, that remove one (451-484) and `clear` (423-444). -/
inductive KCall (K V R : Type) where
  | position (frame : FrameRef) (target : V)
  | relPosition (frames : FramesRef) (target : V)
  | com (target : V)
  | orientation (frame : FrameRef) (target : R)
  | relOrientation (frames : FramesRef) (target : R)
  | frame (frame : FrameRef) (target : Placement V R)
  | relFrame (frames : FramesRef) (target : Placement V R)
  | axisAlign (frame : FrameRef) (axis target : V)
  | joints (targets : List (String × K))
  | distance (frames : FramesRef) (target : K)
  | momentum (target : V)
  | gear
  | wheel (joint : String) (radius : K) (omniwheel : Bool)
  | regularization (magnitude : K)
  | manipulability (args : ManipArgs) (lambda : K)
  | kineticEnergy (magnitude : K)
  | selfCollisions
  | comPolygon (polygon : List (K × K)) (margin : K)
  | halfSpaces (A : List (List K)) (b : List K)
  | cone (frames : FramesRef) (angleMax : K)
  | yaw (frames : FramesRef) (angleMax : K)
  | distanceMax (frames : FramesRef) (max : K)
  | removeTask (i : Nat)
  | removeConstraint (i : Nat)
  | clear

/-- The tail of the overloads by name: the frame is looked up, then the overload by index is called.
kinematics_solver.cpp 28-31, 40-44 and so on. -/
def withFrame {A : Type} (s : Objects K V R) (r : Except Err A) (f : A → Objects K V R) : Objects K V R × Option Err :=
  match r with
  | .ok a => (f a, none)
  | .error e => (s, some e)

/-- The state reached and the exception. kinematics_solver.cpp 23-247, 423-484. -/
def Objects.step (frames : List String) (s : Objects K V R) : KCall K V R → Objects K V R × Option Err
  | .position f t => withFrame s (f.resolve frames) fun i => s.addTask (.position i t)
  | .relPosition f t => withFrame s (f.resolve frames) fun p => s.addTask (.relPosition p.1 p.2 t)
  | .com t => (s.addTask (.com t), none)
  | .orientation f t => withFrame s (f.resolve frames) fun i => s.addTask (.orientation i t)
  | .relOrientation f t => withFrame s (f.resolve frames) fun p => s.addTask (.relOrientation p.1 p.2 t)
  | .frame f T => withFrame s (f.resolve frames) fun i =>
      (s.addTask (.position i T.translation)).addTask (.orientation i T.rotation)
  | .relFrame f T => withFrame s (f.resolve frames) fun p =>
      (s.addTask (.relPosition p.1 p.2 T.translation)).addTask (.relOrientation p.1 p.2 T.rotation)
  | .axisAlign f a t => withFrame s (f.resolve frames) fun i => s.addTask (.axisAlign i a t)
  | .joints l => (s.addTask (.joints (assignAll l fun _ => none)), none)
  | .distance f d => withFrame s (f.resolve frames) fun p => s.addTask (.distance p.1 p.2 d)
  | .momentum L => (s.addTask (.momentum L), none)
  | .gear => (s.addTask .gear, none)
  | .wheel j r o => (s.addTask (.wheel j r o), none)
  | .regularization m => (s.addTaskAs (.regularization m) "regularization" 1, none)
  | .manipulability a l => withFrame s (a.resolve frames) fun p => s.addTask (.manipulability p.1 p.2 l)
  | .kineticEnergy m => (s.addTaskAs .kineticEnergy "kinetic_energy_regularization" m, none)
  | .selfCollisions => (s.addConstraint .selfCollisions, none)
  | .comPolygon p m => (s.addConstraint (.comPolygon p m), none)
  | .halfSpaces A b => (s.addConstraint (.halfSpaces A b), none)
  | .cone f a => withFrame s (f.resolve frames) fun p => s.addConstraint (.cone p.1 p.2 a)
  | .yaw f a => withFrame s (f.resolve frames) fun p => s.addConstraint (.yaw p.1 p.2 a)
  | .distanceMax f d => withFrame s (f.resolve frames) fun p => s.addConstraint (.distanceMax p.1 p.2 d)
  | .removeTask i => ({ s with tasks := s.tasks.eraseIdx i }, none)
  | .removeConstraint i => ({ s with constraints := s.constraints.eraseIdx i }, none)
  | .clear => ({ s with tasks := [], constraints := [] }, none)

/-- A program that goes on after the exceptions. -/
def Objects.run (frames : List String) (s : Objects K V R) (calls : List (KCall K V R)) : Objects K V R :=
  calls.foldl (fun s c => (s.step frames c).1) s

/-! ## The dynamics solver -/

/-- `pinocchio::ReferenceFrame`. pinocchio. -/
inductive Reference where
  | world
  | localFrame
  | localWorldAligned
  deriving DecidableEq

/-- `string_to_reference`, robot_wrapper.cpp 535-555. -/
def stringToReference (reference : String) : Except Err Reference :=
  if reference = "local_world_aligned" then .ok .localWorldAligned
  else if reference = "local" then .ok .localFrame
  else if reference = "world" then .ok .world
  else .error .runtimeError

/-- How the wrench of an external contact is given. dynamics_solver.cpp 38-60. -/
inductive WrenchArgs where
  | index (frame : Nat) (reference : Reference)
  | name (frame reference : String)

/-- `add_external_wrench_contact`, dynamics_solver.cpp 44-60: "world" is the frame with the axes of the world. -/
def WrenchArgs.resolve (frames : List String) : WrenchArgs → Except Err (Nat × Reference)
  | .index f r => .ok (f, r)
  | .name f r =>
    if r = "world" then do
      let f ← frameIndex frames f
      pure (f, .localWorldAligned)
    else if r = "local" then do
      let f ← frameIndex frames f
      pure (f, .localFrame)
    else .error .runtimeError

/-- The contacts, with the arguments of their constructors; tasks are designated by their rank of creation.
dynamics_solver.cpp 8-70, contacts.cpp 41-46, 89-94, 154-160, 229-233, 245-258. -/
inductive ContactObj where
  | point (task : Nat) (unilateral : Bool)
  | contact6D (position orientation : Nat) (unilateral : Bool)
  | line (position orientation : Nat) (unilateral : Bool)
  | externalWrench (frame : Nat) (reference : Reference)
  | puppet
  | task (task : Nat)
  deriving DecidableEq

/-- The objects of the dynamics solver. dynamics_solver.h 507-535. -/
structure DObjects (K V R : Type) extends Objects K V R where
  contacts : List ContactObj := []

/-- The calls of the dynamics solver that add an object. dynamics_solver.cpp 8-171. -/
inductive DCall (K V R : Type) where
  | point (task : Nat)
  | unilateralPoint (task : Nat)
  | planar (position orientation : Nat)
  | fixed (position orientation : Nat)
  | line (position orientation : Nat)
  | unilateralLine (position orientation : Nat)
  | externalWrench (args : WrenchArgs)
  | puppet
  | taskContact (task : Nat)
  | selfCollisions
  | position (frame : FrameRef) (target : V)
  | relPosition (frames : FramesRef) (target : V)
  | relOrientation (frames : FramesRef) (target : R)
  | relFrame (frames : FramesRef) (target : Placement V R)
  | com (target : V)
  | joints
  | torque
  | gear
  | orientation (frame : FrameRef) (target : R)
  | frame (frame : FrameRef) (target : Placement V R)

/-- The template `add_contact(T*)`, dynamics_solver.h 497-505. -/
def DObjects.addContact (s : DObjects K V R) (c : ContactObj) : DObjects K V R := { s with contacts := s.contacts ++ [c] }

/-- `add_task` and `add_constraint` leave the contacts. dynamics_solver.h 459-490. -/
def DObjects.lift (s : DObjects K V R) (r : Objects K V R × Option Err) : DObjects K V R × Option Err :=
  ({ s with toObjects := r.1 }, r.2)

/-- The state reached and the exception. dynamics_solver.cpp 8-171. The calls that add tasks are those of the kinematics solver on the
tasks of the dynamics solver. -/
def DObjects.step (frames : List String) (s : DObjects K V R) : DCall K V R → DObjects K V R × Option Err
  | .point t => (s.addContact (.point t false), none)
  | .unilateralPoint t => (s.addContact (.point t true), none)
  | .planar p o => (s.addContact (.contact6D p o true), none)
  | .fixed p o => (s.addContact (.contact6D p o false), none)
  | .line p o => (s.addContact (.line p o false), none)
  | .unilateralLine p o => (s.addContact (.line p o true), none)
  | .externalWrench a =>
    match a.resolve frames with
    | .ok (f, r) => (s.addContact (.externalWrench f r), none)
    | .error e => (s, some e)
  | .puppet => (s.addContact .puppet, none)
  | .taskContact t => (s.addContact (.task t), none)
  | .selfCollisions => s.lift (s.toObjects.addConstraint .selfCollisions, none)
  | .position f t => s.lift (withFrame s.toObjects (f.resolve frames) fun i => s.toObjects.addTask (.position i t))
  | .relPosition f t => s.lift (withFrame s.toObjects (f.resolve frames) fun p => s.toObjects.addTask (.relPosition p.1 p.2 t))
  | .relOrientation f t => s.lift (withFrame s.toObjects (f.resolve frames) fun p => s.toObjects.addTask (.relOrientation p.1 p.2 t))
  | .relFrame f T => s.lift (withFrame s.toObjects (f.resolve frames) fun p =>
      (s.toObjects.addTask (.relPosition p.1 p.2 T.translation)).addTask (.relOrientation p.1 p.2 T.rotation))
  | .com t => s.lift (s.toObjects.addTask (.com t), none)
  | .joints => s.lift (s.toObjects.addTask (.joints fun _ => none), none)
  | .torque => s.lift (s.toObjects.addTask .torque, none)
  | .gear => s.lift (s.toObjects.addTask .gear, none)
  | .orientation f t => s.lift (withFrame s.toObjects (f.resolve frames) fun i => s.toObjects.addTask (.orientation i t))
  | .frame f T => s.lift (withFrame s.toObjects (f.resolve frames) fun i =>
      (s.toObjects.addTask (.position i T.translation)).addTask (.orientation i T.rotation))

end Verif.Kinematics
