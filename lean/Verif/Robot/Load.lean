/-
Model of the construction of a `RobotWrapper`: which files are read, which collision pairs are kept, what the position limits and
the state are.
  /repo/src/placo/model/robot_wrapper.cpp 22-157 (constructor), 169-172 (reset), 342-352 (neutral_state)
  /repo/src/placo/tools/utils.cpp 113-117 (file_exists)

Paths are strings, files are found by their location in the tree of directories: a list of names from the root. Symbolic links and
`..` are left out. Parsers (URDF, MJCF, JSON), geometry and the neutral configuration are pinocchio's: parameters. The self collisions
printed at the end are not modelled (they change nothing).
-/
import Mathlib.Algebra.Field.Basic
import Init.Data.List.SplitOn.Lemmas
import Verif.Robot.Collisions

namespace Verif.Robot
open Verif.Problem

/-! ## Paths (boost::filesystem, POSIX) -/

/-- `std::string` as its characters. -/
abbrev Chars := List Char

/-- The names of a path: its parts between `/`, without the empty ones and `.`. POSIX path resolution. -/
def partsOf (p : Chars) : List Chars := (p.splitOn '/').filter fun c => c ≠ [] ∧ c ≠ ['.']

/-- The location of a path, for a process in directory `cwd`. POSIX path resolution. -/
def locate (cwd : List Chars) (p : Chars) : List Chars :=
  if p.head? = some '/' then partsOf p else cwd ++ partsOf p

/-- `path.parent_path()`: what is before the last name, without the slashes that separate them.
boost::filesystem, used in robot_wrapper.cpp 27-32; the two leading slashes of network paths are left out. -/
def parentPath (p : Chars) : Chars :=
  let r := p.reverse.dropWhile (· ≠ '/')
  if r = [] then [] else
  let s := r.dropWhile (· = '/')
  if s = [] then ['/'] else s.reverse

/-- What is at a location. The file system. -/
inductive FileKind where
  | file
  | directory
  deriving DecidableEq

/-- The file system and the current directory. -/
structure Disk where
  cwd : List Chars
  at' : List Chars → Option FileKind

/-- `fs::is_regular_file(p)`: the last name is the one of a file, a path that ends with `/` or `/.` is not one.
boost::filesystem, used in robot_wrapper.cpp 27. -/
def Disk.isFile (d : Disk) (p : Chars) : Bool :=
  let name := (p.reverse.takeWhile (· ≠ '/')).reverse
  decide (name ≠ [] ∧ name ≠ ['.'] ∧ d.at' (locate d.cwd p) = some .file)

/-- `tools::file_exists(p)`, utils.cpp 113-117: `stat` succeeds, also for directories. -/
def Disk.exists (d : Disk) (p : Chars) : Bool := decide (p ≠ [] ∧ d.at' (locate d.cwd p) ≠ none)

/-! ## What is read -/

/-- Where a model is read from: a file, or the text given to the constructor. robot_wrapper.cpp 47-72. -/
inductive Source where
  | path (p : Chars)
  | text (t : Chars)
  deriving DecidableEq

/-- The geometries that pinocchio is asked to build. pinocchio::GeometryType, used in robot_wrapper.cpp 47-113. -/
inductive GeomType where
  | collision
  | visual
  deriving DecidableEq

/-- A call of `buildGeom`; `packages` is the directory of the meshes, that only the parser of URDF is given.
robot_wrapper.cpp 57-113. -/
structure GeomRequest where
  mjcf : Bool
  source : Source
  type : GeomType
  packages : Option Chars
  deriving DecidableEq

/-- The flags of the constructor, robot_wrapper.h 23-41: the bits of an integer. -/
structure Flags where
  collisionAsVisual : Bool
  ignoreCollisions : Bool
  mjcf : Bool

/-- `flags & COLLISION_AS_VISUAL`, `flags & IGNORE_COLLISIONS`, `flags & MJCF`. robot_wrapper.h 23-41, robot_wrapper.cpp 36, 49, 63,
76, 116. -/
def Flags.ofNat (flags : Nat) : Flags := ⟨flags &&& 1 ≠ 0, flags &&& 2 ≠ 0, flags &&& 4 ≠ 0⟩

/-- "/robot.xml". robot_wrapper.cpp 38. -/
def robotXml : Chars := ['/', 'r', 'o', 'b', 'o', 't', '.', 'x', 'm', 'l']

/-- "/robot.urdf". robot_wrapper.cpp 42. -/
def robotUrdf : Chars := ['/', 'r', 'o', 'b', 'o', 't', '.', 'u', 'r', 'd', 'f']

/-- "/collisions.json". robot_wrapper.cpp 118-120. -/
def collisionsJson : Chars := ['/', 'c', 'o', 'l', 'l', 'i', 's', 'i', 'o', 'n', 's', '.', 'j', 's', 'o', 'n']

/-- The file of the model and the directory, robot_wrapper.cpp 25-45. The parameter `model_directory` is assigned; the member of the
same name, hidden by it, keeps the argument and is never read. -/
def modelPaths (d : Disk) (flags : Flags) (dir : Chars) : Chars × Chars :=
  if d.isFile dir then (dir, parentPath dir)
  else if flags.mjcf then (dir ++ robotXml, dir)
  else (dir ++ robotUrdf, dir)

/-- The three requests (model, collision geometry, visual geometry), robot_wrapper.cpp 47-113. -/
structure Requests where
  mjcf : Bool
  model : Source
  collision : GeomRequest
  visual : GeomRequest
  deriving DecidableEq

/-- robot_wrapper.cpp 47-113. -/
def requests (d : Disk) (flags : Flags) (dir text : Chars) : Except Err Requests :=
  let urdf := (modelPaths d flags dir).1
  let packages := (modelPaths d flags dir).2
  let type := if flags.collisionAsVisual then GeomType.collision else GeomType.visual
  if text ≠ [] then
    if flags.mjcf then .error .runtimeError
    else .ok ⟨false, .text text, ⟨false, .text text, .collision, some packages⟩, ⟨false, .text text, type, some packages⟩⟩
  else if flags.mjcf then
    .ok ⟨true, .path urdf, ⟨true, .path urdf, .collision, none⟩, ⟨true, .path urdf, type, none⟩⟩
  else
    .ok ⟨false, .path urdf, ⟨false, .path urdf, .collision, some packages⟩, ⟨false, .path urdf, type, some packages⟩⟩

/-- The collision pairs to use: none, those of a file, all. robot_wrapper.cpp 115-126. -/
inductive PairsFrom where
  | none
  | file (p : Chars)
  | all
  deriving DecidableEq

/-- robot_wrapper.cpp 115-126. -/
def pairsFrom (d : Disk) (flags : Flags) (dir : Chars) : PairsFrom :=
  let path := (modelPaths d flags dir).2 ++ collisionsJson
  if flags.ignoreCollisions then .none
  else if d.exists path then .file path
  else .all

/-! ## The robot -/

/-- A geometry object: the name of its parent frame and its parent joint. pinocchio. -/
structure LoadedGeom where
  frame : Option String
  parentJoint : Nat

/-- `addAllCollisionPairs()`: the objects of different joints, two by two. pinocchio, used in robot_wrapper.cpp 124. -/
def allPairs (geoms : List LoadedGeom) : List (Nat × Nat) :=
  (List.range geoms.length).flatMap fun i =>
    ((List.range geoms.length).filter fun j => i < j ∧ (geoms[i]?).map (·.parentJoint) ≠ (geoms[j]?).map (·.parentJoint)).map
      fun j => (i, j)

/-- What the parsers give. pinocchio, used in robot_wrapper.cpp 47-113. -/
structure Parsed (K : Type) where
  nq : Nat
  nv : Nat
  lower : Nat → K
  upper : Nat → K
  neutral : Nat → K

/-- The external calls: parsers, content of the JSON files and the extreme doubles.
Used in robot_wrapper.cpp 47-141. -/
structure Externals (K : Type) where
  model : Bool → Source → Except Err (Parsed K)
  geoms : GeomRequest → Except Err (List LoadedGeom)
  json : Chars → JsonFile
  lowest : K
  max : K

/-- The robot built: the members that the constructor sets. robot_wrapper.h 96, 660-700. -/
structure LoadedRobot (K : Type) where
  nq : Nat
  nv : Nat
  collision : List LoadedGeom
  visual : List LoadedGeom
  pairs : List (Nat × Nat)
  lower : Nat → K
  upper : Nat → K
  q : Vec K
  qd : Vec K
  qdd : Vec K

/-- The pairs of the collision model, robot_wrapper.cpp 115-126. `buildGeom` adds no pair. -/
def loadPairs {K : Type} (x : Externals K) (geoms : List LoadedGeom) : PairsFrom → Except Err (List (Nat × Nat))
  | .none => .ok []
  | .all => .ok (allPairs geoms)
  | .file p =>
    match CollisionModel.load ⟨geoms.map (·.frame), []⟩ (x.json p) with
    | (_, some e) => .error e
    | (m, none) => .ok m.pairs

/-- The loop on the limits, robot_wrapper.cpp 131-141. -/
def freeLimit {K : Type} [Zero K] [DecidableEq K] (x : Externals K) (p : Parsed K) (k : Nat) : K × K :=
  if k < p.nq ∧ p.lower k = 0 ∧ p.upper k = 0 then (x.lowest, x.max) else (p.lower k, p.upper k)

/-- The constructor, robot_wrapper.cpp 22-157, with `reset` (169-172) and `neutral_state` (342-352). -/
def construct {K : Type} [Zero K] [DecidableEq K] (x : Externals K) (d : Disk) (dir : Chars) (flags : Nat) (text : Chars) :
    Except Err (LoadedRobot K) := do
  let r ← requests d (Flags.ofNat flags) dir text
  let m ← x.model r.mjcf r.model
  let collision ← x.geoms r.collision
  let visual ← x.geoms r.visual
  let pairs ← loadPairs x collision (pairsFrom d (Flags.ofNat flags) dir)
  pure { nq := m.nq, nv := m.nv, collision := collision, visual := visual, pairs := pairs,
         lower := fun k => (freeLimit x m k).1, upper := fun k => (freeLimit x m k).2,
         q := ⟨m.nq, m.neutral⟩, qd := ⟨m.nv, fun _ => 0⟩, qdd := ⟨m.nv, fun _ => 0⟩ }

end Verif.Robot
