/-
Model of `placo::tools::CubicSpline` and `CubicSpline3D`.
  /repo/src/placo/tools/cubic_spline.{h,cpp}, cubic_spline_3d.{h,cpp}
-/
import Mathlib.LinearAlgebra.Matrix.NonsingularInverse
import Mathlib.LinearAlgebra.Matrix.Notation
import Mathlib.Algebra.Order.Field.Basic
import Verif.Base

namespace Verif.Tools

/-- `CubicSpline::Point`, cubic_spline.h 15-20. -/
structure SPoint (K : Type) where
  t : K
  x : K
  dx : K

/-- `CubicSpline::Polynom`. cubic_spline.h 80-86. -/
structure SPoly (K : Type) where
  a : K
  b : K
  c : K
  d : K

/-- `CubicSpline::Spline`. cubic_spline.h 88-93. -/
structure Spline (K : Type) where
  poly : SPoly K
  tStart : K
  tEnd : K

/-- `CubicSpline::ValueType`. cubic_spline.h 62-67. -/
inductive ValueType where
  | value | speed | acceleration

/-- Members of `CubicSpline`. cubic_spline.h 77-105. -/
structure SplineSt (K : Type) where
  angular : Bool
  dirty : Bool
  points : List (SPoint K)
  splines : List (Spline K)

/-- Constructor, cubic_spline.cpp 11-13 (`dirty = true` in the header). -/
def SplineSt.init {K : Type} (angular : Bool) : SplineSt K := ⟨angular, true, [], []⟩

section
variable {K : Type} [Field K]

/-- cubic_spline.cpp 127-130 -/
def polyValue (t : K) (p : SPoly K) : K := p.d + t * (t * (p.a * t + p.b) + p.c)

/-- cubic_spline.cpp 132-135 -/
def polyDiff (t : K) (p : SPoly K) : K := t * (3 * p.a * t + 2 * p.b) + p.c

/-- cubic_spline.cpp 137-140 -/
def polyDiff2 (t : K) (p : SPoly K) : K := 6 * p.a * t + 2 * p.b

/-- The matrix of `fit`, cubic_spline.cpp 145-154. -/
def fitMatrix (t1 t2 : K) : Matrix (Fin 4) (Fin 4) K :=
  !![t1 * t1 * t1, t1 * t1, t1, 1;
     3 * (t1 * t1), 2 * t1, 1, 0;
     t2 * t2 * t2, t2 * t2, t2, 1;
     3 * (t2 * t2), 2 * t2, 1, 0]

/-- `CubicSpline::fit`, cubic_spline.cpp 142-164. Eigen's `inverse()` is the exact
inverse of Mathlib. -/
noncomputable def fit (t1 x1 dx1 t2 x2 dx2 : K) : SPoly K :=
  let abcd := (fitMatrix t1 t2)⁻¹.mulVec ![x1, dx1, x2, dx2]
  ⟨abcd 0, abcd 1, abcd 2, abcd 3⟩

/-- Spline between two consecutive points, body of the loop of cubic_spline.cpp 174-182. -/
noncomputable def mkSpline (p q : SPoint K) : Spline K :=
  let tStart := p.t
  ⟨fit (p.t - tStart) p.x p.dx (q.t - tStart) q.x q.dx, p.t, q.t⟩

/-- `CubicSpline::compute_splines`, cubic_spline.cpp 166-183. -/
noncomputable def computeSplines : List (SPoint K) → List (Spline K)
  | [] => []
  | [_] => []
  | p :: q :: rest => mkSpline p q :: computeSplines (q :: rest)

variable [LinearOrder K]

/-- `CubicSpline::add_point`, cubic_spline.cpp 15-31. `wrap` is `tools::wrap_angle`. -/
def SplineSt.addPoint (wrap : K → K) (s : SplineSt K) (t x dx : K) : Except Err (SplineSt K) :=
  match s.points.getLast? with
  | none => .ok { s with points := s.points ++ [⟨t, x, dx⟩], dirty := true }
  | some last =>
    let x := if s.angular then last.x + wrap (x - last.x) else x
    if t ≤ last.t then .error .runtimeError
    else .ok { s with points := s.points ++ [⟨t, x, dx⟩], dirty := true }

/-- `CubicSpline::clear`, cubic_spline.cpp 33-37. -/
def SplineSt.clear (s : SplineSt K) : SplineSt K := { s with points := [], splines := [] }

/-- `CubicSpline::duration`, cubic_spline.cpp 39-42: no update of the splines, and
undefined when there is none. -/
def SplineSt.duration (s : SplineSt K) : Except Err K :=
  match s.splines.getLast?, s.splines.head? with
  | some l, some f => .ok (l.tEnd - f.tStart)
  | _, _ => .error .ub

/-- `if (dirty) { compute_splines(); dirty = false; }`, cubic_spline.cpp 50-54. -/
noncomputable def SplineSt.refresh (s : SplineSt K) : SplineSt K :=
  if s.dirty then { s with splines := computeSplines s.points, dirty := false } else s

/-- Value of a spline, cubic_spline.cpp 84-95. -/
def evalSpline (sp : Spline K) (t : K) : ValueType → K
  | .value => polyValue (t - sp.tStart) sp.poly
  | .speed => polyDiff (t - sp.tStart) sp.poly
  | .acceleration => polyDiff2 (t - sp.tStart) sp.poly

/-- The result of `interpolation` once the splines are up to date, cubic_spline.cpp 56-101
(`front()` of an empty vector is undefined). -/
def lookup (points : List (SPoint K)) (splines : List (Spline K)) (t : K) (ty : ValueType) : Except Err K :=
  match points with
  | [] => .ok 0
  | [p] =>
    match ty with
    | .value => .ok p.x
    | _ => .ok p.dx
  | _ :: _ :: _ =>
    match splines.head?, splines.getLast? with
    | some front, some back =>
      let t := if t < front.tStart then front.tStart else t
      let t := if back.tEnd < t then back.tEnd else t
      match splines.find? (fun sp => decide (sp.tStart ≤ t ∧ t ≤ sp.tEnd)) with
      | some sp => .ok (evalSpline sp t ty)
      | none => .ok 0
    | _, _ => .error .ub

/-- `CubicSpline::interpolation`, cubic_spline.cpp 48-102: new state and result. -/
noncomputable def SplineSt.interpolation (s : SplineSt K) (t : K) (ty : ValueType) : SplineSt K × Except Err K :=
  let s := s.refresh
  (s, lookup s.points s.splines t ty)

/-- Public calls. cubic_spline.h 26-74. -/
inductive SplOp (K : Type) where
  | addPoint (t x dx : K)
  | clear
  | read (t : K) (ty : ValueType)
  | duration

/-- State after a call; a call that raises leaves the state reached so far, which here
is the state before the call. cubic_spline.cpp 15-117. -/
noncomputable def splStep (wrap : K → K) (s : SplineSt K) : SplOp K → SplineSt K
  | .addPoint t x dx => match s.addPoint wrap t x dx with
    | .ok s' => s'
    | .error _ => s
  | .clear => s.clear
  | .read t ty => (s.interpolation t ty).1
  | .duration => s

/-- State after a history. A program that calls the library. -/
noncomputable def splRun (wrap : K → K) (angular : Bool) (ops : List (SplOp K)) : SplineSt K :=
  ops.foldl (splStep wrap) (SplineSt.init angular)

/-! ### CubicSpline3D -/

/-- Members of `CubicSpline3D`: three non-angular splines. cubic_spline_3d.h 54-56. -/
structure Spline3 (K : Type) where
  x : SplineSt K
  y : SplineSt K
  z : SplineSt K

/-- Default constructor. cubic_spline_3d.h 10-56. -/
def Spline3.init : Spline3 K := ⟨.init false, .init false, .init false⟩

/-- `CubicSpline3D::add_point`, cubic_spline_3d.cpp 21-26: state reached (possibly by an
exception) and whether it raised. -/
def Spline3.addPoint (wrap : K → K) (s : Spline3 K) (t : K) (v d : Fin 3 → K) : Spline3 K × Option Err :=
  match s.x.addPoint wrap t (v 0) (d 0) with
  | .error e => (s, some e)
  | .ok x =>
    let s := { s with x := x }
    match s.y.addPoint wrap t (v 1) (d 1) with
    | .error e => (s, some e)
    | .ok y =>
      let s := { s with y := y }
      match s.z.addPoint wrap t (v 2) (d 2) with
      | .error e => (s, some e)
      | .ok z => ({ s with z := z }, none)

/-- `CubicSpline3D::clear`, cubic_spline_3d.cpp 9-14. -/
def Spline3.clear (s : Spline3 K) : Spline3 K := ⟨s.x.clear, s.y.clear, s.z.clear⟩

/-- `pos`/`vel`/`acc`, cubic_spline_3d.cpp 29-42. -/
noncomputable def Spline3.interpolation (s : Spline3 K) (t : K) (ty : ValueType) :
    Spline3 K × Except Err (Fin 3 → K) :=
  let rx := s.x.interpolation t ty
  let ry := s.y.interpolation t ty
  let rz := s.z.interpolation t ty
  (⟨rx.1, ry.1, rz.1⟩, do
    let a ← rx.2
    let b ← ry.2
    let c ← rz.2
    pure ![a, b, c])

/-- Calls on a 3D spline. cubic_spline_3d.cpp 9-41. -/
inductive Spl3Op (K : Type) where
  | addPoint (t : K) (v d : Fin 3 → K)
  | clear
  | read (t : K) (ty : ValueType)

/-- State after a call. cubic_spline_3d.cpp 9-41. -/
noncomputable def spl3Step (wrap : K → K) (s : Spline3 K) : Spl3Op K → Spline3 K
  | .addPoint t v d => (s.addPoint wrap t v d).1
  | .clear => s.clear
  | .read t ty => (s.interpolation t ty).1

end
end Verif.Tools
