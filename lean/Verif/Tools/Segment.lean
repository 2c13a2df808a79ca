/-
Model of `placo::tools::Segment`.
  /repo/src/placo/tools/segment.{h,cpp}

Over the reals. A division by zero in the code gives NaN or an infinity; both make
the comparisons below false. Where this can happen the model says so explicitly.
-/
import Mathlib.Analysis.SpecialFunctions.Sqrt
import Verif.Base

namespace Verif.Tools

/-- `Eigen::Vector2d`. segment.h 13-14. -/
@[ext] structure V2 where
  x : ℝ
  y : ℝ

/-- Eigen subtraction, used in segment.cpp 14-90. -/
def V2.sub (a b : V2) : V2 := ⟨a.x - b.x, a.y - b.y⟩
/-- Eigen `dot`, used in segment.cpp 14-90. -/
def V2.dot (a b : V2) : ℝ := a.x * b.x + a.y * b.y
/-- Eigen `norm`, used in segment.cpp 14-90. -/
noncomputable def V2.norm (a : V2) : ℝ := Real.sqrt (a.x * a.x + a.y * a.y)

/-- `Segment`, segment.h 7-14. -/
structure Segment where
  start : V2
  fin : V2

/-- Default tolerance, segment.h 23. -/
noncomputable def segEps : ℝ := 1 / 100000

open Classical in
/-- `Segment::is_parallel`, segment.cpp 19-24. With a zero length segment the quotient is
`0/0`, not a number, and the comparison is false. -/
noncomputable def Segment.isParallel (a s : Segment) (epsilon : ℝ) : Bool :=
  let v1 := a.fin.sub a.start
  let v2 := s.fin.sub s.start
  if v1.norm * v2.norm = 0 then false
  else decide (|v1.x * v2.y - v1.y * v2.x| / (v1.norm * v2.norm) < epsilon)

open Classical in
/-- `Segment::is_point_aligned`, segment.cpp 26-33. -/
noncomputable def Segment.isPointAligned (a : Segment) (point : V2) (epsilon : ℝ) : Bool :=
  if |(a.start.sub point).norm| < epsilon then true
  else a.isParallel ⟨a.start, point⟩ epsilon

/-- `Segment::is_segment_aligned`, segment.cpp 35-38. -/
noncomputable def Segment.isSegmentAligned (a s : Segment) (epsilon : ℝ) : Bool :=
  a.isPointAligned s.start epsilon && a.isPointAligned s.fin epsilon

open Classical in
/-- `Segment::is_point_in_segment`, segment.cpp 40-45. -/
noncomputable def Segment.isPointInSegment (a : Segment) (point : V2) (epsilon : ℝ) : Bool :=
  let v1 := a.fin.sub a.start
  let v2 := point.sub a.start
  a.isSegmentAligned ⟨a.start, point⟩ epsilon && (decide (0 ≤ v1.dot v2) && decide (v1.dot v2 ≤ v1.dot v1))

open Classical in
/-- `Segment::get_lambdas`, segment.cpp 56-71; `none` when `det = 0` (values that are not
finite numbers). -/
noncomputable def Segment.getLambdas (a s : Segment) : Except Err (Option (ℝ × ℝ)) :=
  if a.isParallel s segEps then .error .runtimeError
  else
    let v1 := a.fin.sub a.start
    let v2 := s.fin.sub s.start
    let p1 := a.start
    let p2 := s.start
    let det := v1.x * v2.y - v1.y * v2.x
    if det = 0 then .ok none
    else
      let l1 := (v2.y * (p2.x - p1.x) + v2.x * (p1.y - p2.y)) / det
      let l2 := (v1.y * (p2.x - p1.x) + v1.x * (p1.y - p2.y)) / det
      .ok (some (l1, l2))

open Classical in
/-- `Segment::line_pass_through`, segment.cpp 73-77. -/
noncomputable def Segment.linePassThrough (a s : Segment) : Except Err Bool := do
  match ← a.getLambdas s with
  | none => pure false
  | some l => pure (decide (0 ≤ l.1) && decide (l.1 ≤ 1))

open Classical in
/-- `Segment::half_line_pass_through`, segment.cpp 79-83. -/
noncomputable def Segment.halfLinePassThrough (a s : Segment) : Except Err Bool := do
  match ← a.getLambdas s with
  | none => pure false
  | some l => pure (decide (0 ≤ l.1) && decide (l.1 ≤ 1) && decide (0 ≤ l.2))

/-- `Segment::lines_intersection`, segment.cpp 85-90; `none` when not finite. -/
noncomputable def Segment.linesIntersection (a s : Segment) : Except Err (Option V2) := do
  match ← a.getLambdas s with
  | none => pure none
  | some l =>
    let v := a.fin.sub a.start
    pure (some ⟨a.start.x + l.1 * v.x, a.start.y + l.1 * v.y⟩)

/-- `Segment::intersects`, segment.cpp 47-54 (`&&` is lazy). -/
noncomputable def Segment.intersects (a s : Segment) : Except Err Bool :=
  if a.isParallel s segEps then .error .runtimeError
  else do
    if ← a.linePassThrough s then s.linePassThrough a else pure false

end Verif.Tools
