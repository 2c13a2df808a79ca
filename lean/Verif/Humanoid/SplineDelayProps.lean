/-
Property C220: programs using cubic splines do not depend on when they are.
  /repo/src/placo/tools/cubic_spline.cpp 15-117, cubic_spline_3d.cpp 9-42
-/
import Verif.Humanoid.DelayWalkProps

namespace Verif.Humanoid
open Verif.Problem Verif.Tools Verif.Robot Finset

/-- The answer of a call on a spline: an error, a value, or nothing. cubic_spline.h 26-74. -/
noncomputable def splAnswer (wrap : ℝ → ℝ) (s : SplineSt ℝ) : SplOp ℝ → Except Err (Option ℝ)
  | .addPoint t x dx => (s.addPoint wrap t x dx).map fun _ => none
  | .clear => .ok none
  | .read t ty => (s.interpolation t ty).2.map some
  | .duration => s.duration.map some

/-- The answers of a program that calls the library (cubic_spline.h 26-74), going on after errors. -/
noncomputable def splAnswers (wrap : ℝ → ℝ) : SplineSt ℝ → List (SplOp ℝ) → List (Except Err (Option ℝ))
  | _, [] => []
  | s, op :: ops => splAnswer wrap s op :: splAnswers wrap (splStep wrap s op) ops

/-- The answer of a call on a 3D spline. cubic_spline_3d.cpp 9-42. -/
noncomputable def spl3Answer (wrap : ℝ → ℝ) (s : Spline3 ℝ) : Spl3Op ℝ → Except Err (Option (Fin 3 → ℝ))
  | .addPoint t v d => match (s.addPoint wrap t v d).2 with
    | some e => .error e
    | none => .ok none
  | .clear => .ok none
  | .read t ty => (s.interpolation t ty).2.map some

/-- The answers of a program that calls the library (cubic_spline_3d.cpp 9-42), going on after errors. -/
noncomputable def spl3Answers (wrap : ℝ → ℝ) : Spline3 ℝ → List (Spl3Op ℝ) → List (Except Err (Option (Fin 3 → ℝ)))
  | _, [] => []
  | s, op :: ops => spl3Answer wrap s op :: spl3Answers wrap (spl3Step wrap s op) ops

/-! ## Specification -/

/-- The call, later (specification only, no code in /repo). -/
def laterCall (τ : ℝ) : SplOp ℝ → SplOp ℝ
  | .addPoint t x dx => .addPoint (t + τ) x dx
  | .clear => .clear
  | .read t ty => .read (t + τ) ty
  | .duration => .duration

/-- The call on a 3D spline, later (specification only, no code in /repo). -/
def laterCall3 (τ : ℝ) : Spl3Op ℝ → Spl3Op ℝ
  | .addPoint t v d => .addPoint (t + τ) v d
  | .clear => .clear
  | .read t ty => .read (t + τ) ty

/-! ## Proofs -/

private theorem refresh_later (τ : ℝ) (s : SplineSt ℝ) (t : ℝ) (ty : ValueType) :
    ((laterSpline τ s).interpolation (t + τ) ty).1 = laterSpline τ (s.interpolation t ty).1 := by
  unfold SplineSt.interpolation SplineSt.refresh
  dsimp only
  by_cases hd : s.dirty = true
  · have hd' : (laterSpline τ s).dirty = true := hd
    rw [if_pos hd, if_pos hd']
    have := computeSplines_later τ s.points
    simp only [laterSpline, this]
  · have hd' : ¬ (laterSpline τ s).dirty = true := hd
    rw [if_neg hd, if_neg hd']

private theorem duration_later (τ : ℝ) (s : SplineSt ℝ) : (laterSpline τ s).duration = s.duration := by
  unfold SplineSt.duration
  have h1 : (laterSpline τ s).splines.getLast? = s.splines.getLast?.map (laterPiece τ) := List.getLast?_map
  have h2 : (laterSpline τ s).splines.head? = s.splines.head?.map (laterPiece τ) := List.head?_map
  rw [h1, h2]
  cases s.splines.getLast? with
  | none => rfl
  | some l =>
    cases s.splines.head? with
    | none => rfl
    | some f => simp only [Option.map_some, laterPiece]; congr 1; ring

private theorem call_later (τ : ℝ) (wrap : ℝ → ℝ) (s : SplineSt ℝ) (op : SplOp ℝ) :
    splAnswer wrap (laterSpline τ s) (laterCall τ op) = splAnswer wrap s op ∧
    splStep wrap (laterSpline τ s) (laterCall τ op) = laterSpline τ (splStep wrap s op) := by
  cases op with
  | addPoint t x dx =>
    simp only [splAnswer, splStep, laterCall]
    have h := addPoint_later τ wrap s t x dx
    generalize s.addPoint wrap t x dx = r at h
    generalize (laterSpline τ s).addPoint wrap (t + τ) x dx = r' at h
    cases h with
    | err e => exact ⟨rfl, rfl⟩
    | ok h => subst h; exact ⟨rfl, rfl⟩
  | clear => exact ⟨rfl, rfl⟩
  | read t ty =>
    simp only [splAnswer, splStep, laterCall]
    exact ⟨by rw [interpolation_later], refresh_later τ s t ty⟩
  | duration =>
    simp only [splAnswer, splStep, laterCall]
    exact ⟨by rw [duration_later], trivial⟩

/-- **C220.** The answers of all programs using a spline, errors included, are those of the program whose times are all later. -/
theorem C220 (τ : ℝ) (wrap : ℝ → ℝ) (angular : Bool) (ops : List (SplOp ℝ)) :
    splAnswers wrap (SplineSt.init angular) (ops.map (laterCall τ)) = splAnswers wrap (SplineSt.init angular) ops := by
  have key : ∀ (l : List (SplOp ℝ)) (s : SplineSt ℝ),
      splAnswers wrap (laterSpline τ s) (l.map (laterCall τ)) = splAnswers wrap s l := by
    intro l
    induction l with
    | nil => intro s; rfl
    | cons op l ih =>
      intro s
      have h := call_later τ wrap s op
      rw [List.map_cons, splAnswers, splAnswers, h.1, h.2, ih]
  exact key ops (SplineSt.init angular)

private def later3 (τ : ℝ) (s : Spline3 ℝ) : Spline3 ℝ := ⟨laterSpline τ s.x, laterSpline τ s.y, laterSpline τ s.z⟩

private theorem add3_later (τ : ℝ) (wrap : ℝ → ℝ) (s : Spline3 ℝ) (t : ℝ) (v d : Fin 3 → ℝ) :
    (later3 τ s).addPoint wrap (t + τ) v d = (later3 τ (s.addPoint wrap t v d).1, (s.addPoint wrap t v d).2) := by
  unfold Spline3.addPoint
  dsimp only [later3]
  have hx := addPoint_later τ wrap s.x t (v 0) (d 0)
  have hy := addPoint_later τ wrap s.y t (v 1) (d 1)
  have hz := addPoint_later τ wrap s.z t (v 2) (d 2)
  generalize s.x.addPoint wrap t (v 0) (d 0) = rx at hx
  generalize (laterSpline τ s.x).addPoint wrap (t + τ) (v 0) (d 0) = rx' at hx
  generalize s.y.addPoint wrap t (v 1) (d 1) = ry at hy
  generalize (laterSpline τ s.y).addPoint wrap (t + τ) (v 1) (d 1) = ry' at hy
  generalize s.z.addPoint wrap t (v 2) (d 2) = rz at hz
  generalize (laterSpline τ s.z).addPoint wrap (t + τ) (v 2) (d 2) = rz' at hz
  cases hx with
  | err e => rfl
  | ok hx =>
    subst hx
    cases hy with
    | err e => rfl
    | ok hy =>
      subst hy
      cases hz with
      | err e => rfl
      | ok hz => subst hz; rfl

private theorem call3_later (τ : ℝ) (wrap : ℝ → ℝ) (s : Spline3 ℝ) (op : Spl3Op ℝ) :
    spl3Answer wrap (later3 τ s) (laterCall3 τ op) = spl3Answer wrap s op ∧
    spl3Step wrap (later3 τ s) (laterCall3 τ op) = later3 τ (spl3Step wrap s op) := by
  cases op with
  | addPoint t v d =>
    simp only [spl3Answer, spl3Step, laterCall3, add3_later, and_self]
  | clear => exact ⟨rfl, rfl⟩
  | read t ty =>
    simp only [spl3Answer, spl3Step, laterCall3, Spline3.interpolation, later3, interpolation_later, refresh_later,
      and_self]

/-- **C220, 3D splines.** -/
theorem C220_3d (τ : ℝ) (wrap : ℝ → ℝ) (ops : List (Spl3Op ℝ)) :
    spl3Answers wrap Spline3.init (ops.map (laterCall3 τ)) = spl3Answers wrap Spline3.init ops := by
  have key : ∀ (l : List (Spl3Op ℝ)) (s : Spline3 ℝ),
      spl3Answers wrap (later3 τ s) (l.map (laterCall3 τ)) = spl3Answers wrap s l := by
    intro l
    induction l with
    | nil => intro s; rfl
    | cons op l ih =>
      intro s
      have h := call3_later τ wrap s op
      rw [List.map_cons, spl3Answers, spl3Answers, h.1, h.2, ih]
  exact key ops Spline3.init

/-- C220 on a program with two points, a point in the past that is refused, and a read. -/
example (wrap : ℝ → ℝ) :
    splAnswers wrap (SplineSt.init false) [.addPoint 10 0 0, .addPoint 11 1 0, .addPoint 10 2 0, .read 11 .value, .duration] =
    splAnswers wrap (SplineSt.init false) [.addPoint 0 0 0, .addPoint 1 1 0, .addPoint 0 2 0, .read 1 .value, .duration] := by
  have h := C220 10 wrap false [.addPoint 0 0 0, .addPoint 1 1 0, .addPoint 0 2 0, .read 1 .value, .duration]
  norm_num [laterCall] at h
  exact h

end Verif.Humanoid
