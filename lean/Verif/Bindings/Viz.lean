import Verif.Tools.Utils
import Verif.Tools.UtilsProps

/-! Model of the drawing functions of `/repo/python/placo_utils/visualization.py`.

The viewer (meshcat, external) is seen as the map from paths to what is drawn there:
`set_object`/`set_transform` define the entry, `delete` removes it. Colours, radii and
materials are not modelled. -/

namespace Verif.Bindings

open Verif.Tools

/-- A level of the viewer whose entries are numbered: `vis[...][f"{name}_{k}"]`.
visualization.py 122-127, 171, 298. -/
abbrev Shown (P : Type) := ℕ → Option P

/-- `while k < n: vis[...][f"..._{k}"].delete(); k += 1` (visualization.py 128-130 and
353-355). -/
def deleteFrom {P : Type} (f : Shown P) (k n : ℕ) : Shown P :=
  if k < n then deleteFrom (Function.update f k none) (k + 1) n else f
termination_by n - k

/-- `for point in points: ...; k += 1` of `points_viz`, visualization.py 121-127. Returns
the viewer and the last value of `k`. -/
def drawPoints {P : Type} (f : Shown P) (k : ℕ) : List P → Shown P × ℕ
  | [] => (f, k)
  | p :: ps => drawPoints (Function.update f k (some p)) (k + 1) ps

/-- The viewer below `points`, and the global `points_sizes` (`get(name, 0)`),
visualization.py 105. -/
structure PointsSt (P : Type) where
  shown : String → Shown P
  sizes : String → ℕ

/-- When the module is loaded. visualization.py 105. -/
def PointsSt.init {P : Type} : PointsSt P := ⟨fun _ _ => none, fun _ => 0⟩

/-- `points_viz`, visualization.py 108-131. Names are taken as plain keys (meshcat splits
them at `/`). -/
def PointsSt.viz {P : Type} (s : PointsSt P) (name : String) (points : List P) : PointsSt P :=
  let r := drawPoints (s.shown name) 0 points
  ⟨Function.update s.shown name (deleteFrom r.1 r.2 (s.sizes name)),
   Function.update s.sizes name points.length⟩

/-- The viewer below `footsteps`, and the global `steps`, visualization.py 144. -/
structure StepsSt (P : Type) where
  shown : Shown (List P)
  steps : ℕ

/-- When the module is loaded, visualization.py 144. -/
def StepsSt.init {P : Type} : StepsSt P := ⟨fun _ => none, 0⟩

/-- The loop of `footsteps_viz`, visualization.py 156-173: `k` is incremented, then the
polygon, with its last vertex repeated (`polygon[-1]` raises when there is none), is
set below `str(k)`. -/
def drawSteps {P : Type} (f : Shown (List P)) (k : ℕ) : List (List P) → Shown (List P) × Option Err
  | [] => (f, none)
  | polygon :: rest =>
    match polygon.getLast? with
    | none => (f, some .outOfRange)
    | some last => drawSteps (Function.update f (k + 1) (some (polygon ++ [last]))) (k + 1) rest

/-- `footsteps_viz`, visualization.py 147-173, given the support polygons of the footsteps
(after `T`). -/
def StepsSt.viz {P : Type} (s : StepsSt P) (footsteps : List (List P)) : StepsSt P × Option Err :=
  let f := if footsteps.length < s.steps then (fun _ => none) else s.shown
  let r := drawSteps f 0 footsteps
  (⟨r.1, footsteps.length⟩, r.2)

/-- What `contacts_viz` reads from a contact: whether it is active and, for the four
kinds it knows (`PointContact`, `Contact6D`, `LineContact`, `ExternalWrenchContact`), the
arrow; `none` for the others (`PuppetContact`, `TaskContact`). visualization.py 291-347. -/
structure VizContact (A : Type) where
  active : Bool
  arrow : Option A

/-- The viewer below `arrows` (the entries `contact_k`) and the global
`previous_contacts`, visualization.py 280. -/
structure ContactsSt (A : Type) where
  shown : Shown A
  previous : ℕ

/-- When the module is loaded, visualization.py 280. -/
def ContactsSt.init {A : Type} : ContactsSt A := ⟨fun _ => none, 0⟩

/-- The loop of `contacts_viz`, visualization.py 289-349: `n` iterations left; the contact
read is number `k`, and `continue` is taken before `k += 1`. -/
def drawContacts {A : Type} (contacts : List (VizContact A)) : ℕ → Shown A → ℕ → Except Err (Shown A × ℕ)
  | 0, f, k => .ok (f, k)
  | n + 1, f, k =>
    match contacts[k]? with
    | none => .error .outOfRange
    | some c =>
      if c.active then
        match c.arrow with
        | some a => drawContacts contacts n (Function.update f k (some a)) (k + 1)
        | none => drawContacts contacts n f (k + 1)
      else drawContacts contacts n f k

/-- `contacts_viz`, visualization.py 283-356. -/
def ContactsSt.viz {A : Type} (s : ContactsSt A) (contacts : List (VizContact A)) :
    Except Err (ContactsSt A) := do
  let r ← drawContacts contacts contacts.length s.shown 0
  pure ⟨deleteFrom r.1 r.2 s.previous, r.2⟩

/-- A shape of meshcat drawn along its `y` axis: `g.Cylinder(height, …)` is centred on the
origin, and its transform is an affine map. visualization.py 75, 235, 260-261. -/
structure Cylinder where
  height : ℝ
  T : Affine

/-- The composition `@` of transforms. numpy, used in visualization.py 81-84, 240-241, 269-270. -/
def compose (a b : Affine) : Affine :=
  ⟨a.linear * b.linear, a.linear.mulVec b.translation + a.translation⟩

/-- `tf.translation_matrix`. meshcat, used in visualization.py 84, 240, 263-270. -/
def translationMatrix (v : V3) : Affine := ⟨1, v⟩

/-- `arrow_viz`, visualization.py 245-277: the cylinder and the head (whose radius is 0 on
the side of positive `y`). -/
noncomputable def arrowViz (pointFrom pointTo : V3) (radius : ℝ) : Except Err (Cylinder × Cylinder) := do
  let headLength := radius * 3
  let d : V3 := pointTo - pointFrom
  let length := max (1 / 1000) (norm3 d - headLength)
  let R : M3 ← (if norm3 d > 1 / 1000000 then rotationFromAxis "y" (fun i => d i / norm3 d) else .ok 1)
  let T : Affine := ⟨R, pointFrom⟩
  pure (⟨length, compose T (translationMatrix ![0, length / 2, 0])⟩,
    ⟨headLength, compose T (translationMatrix ![0, length + headLength / 2, 0])⟩)

/-- `tf.rotation_matrix(angle, [1, 0, 0])`. meshcat, used in visualization.py 65, 83, 241. -/
noncomputable def rotMatX (a : ℝ) : M3 :=
  !![1, 0, 0; 0, Real.cos a, -Real.sin a; 0, Real.sin a, Real.cos a]

/-- `tf.rotation_matrix(angle, [0, 1, 0])`. meshcat, used in visualization.py 64, 83. -/
noncomputable def rotMatY (a : ℝ) : M3 :=
  !![Real.cos a, 0, Real.sin a; 0, 1, 0; -Real.sin a, 0, Real.cos a]

/-- `tf.scale_matrix(scale)`. meshcat, used in visualization.py 82. -/
noncomputable def scaleMatrix (scale : ℝ) : Affine := ⟨scale • (1 : M3), 0⟩

/-- The rotation of `axises[axis_name]`, visualization.py 62-66: the axes are numbered
x, y, z. -/
noncomputable def axisRotation : Fin 3 → M3
  | 0 => rotZ (-Real.pi / 2)
  | 1 => rotMatY 0
  | 2 => rotMatX (Real.pi / 2)

/-- `frame_viz`, visualization.py 54-85: the cylinder of an axis. -/
noncomputable def frameViz (T : Affine) (scale : ℝ) (axis : Fin 3) : Cylinder :=
  ⟨1 / 10, compose (compose (compose T (scaleMatrix scale)) ⟨axisRotation axis, 0⟩)
    (translationMatrix ![0, 1 / 20, 0])⟩

/-- `cylinder_viz`, visualization.py 225-242. -/
noncomputable def cylinderViz (position : ℝ × ℝ) (length : ℝ) : Cylinder :=
  ⟨length, compose (translationMatrix ![position.1, position.2, length / 2]) ⟨rotMatX (Real.pi / 2), 0⟩⟩

end Verif.Bindings
