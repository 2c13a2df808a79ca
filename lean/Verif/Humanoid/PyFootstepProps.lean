/-
C205: the polygon of a Python footstep.
-/
import Verif.Humanoid.PyFootstep
import Verif.Humanoid.CacheProps
import Verif.Humanoid.OverlapProps

namespace Verif.Humanoid
open Verif.Tools Verif.Robot

/-! ## Specification: the attributes alone, without the polygon -/

/-- The place and size that the program last assigned. -/
structure Place where
  length : ℝ
  width : ℝ
  frame : Affine

noncomputable def Place.after (q : Place) : PyStepOp → Place
  | .setLength x => { q with length := x }
  | .setWidth x => { q with width := x }
  | .setFrame T => { q with frame := T }
  | .setFrameXY x y => { q with frame := ⟨q.frame.linear, ![x, y, q.frame.translation 2]⟩ }
  | _ => q

noncomputable def Place.afterAll (q : Place) (ops : List PyStepOp) : Place := ops.foldl Place.after q

/-- The corner `(sx, sy)` of the foot at that place, seen from above. -/
noncomputable def Place.corner (q : Place) (sx sy : ℝ) : V2 :=
  ⟨q.frame.linear 0 0 * (sx * (q.length / 2)) + q.frame.linear 0 1 * (sy * (q.width / 2)) + q.frame.translation 0,
   q.frame.linear 1 0 * (sx * (q.length / 2)) + q.frame.linear 1 1 * (sy * (q.width / 2)) + q.frame.translation 1⟩

/-- The outline of the foot at that place. -/
noncomputable def Place.outline (q : Place) : List V2 := [q.corner (-1) 1, q.corner 1 1, q.corner 1 (-1), q.corner (-1) (-1)]

def Footstep.place (f : Footstep) : Place := ⟨f.length, f.width, f.frame⟩

/-- The operation reads the polygon. -/
def PyStepOp.reads : PyStepOp → Prop
  | .supportPolygon => True
  | _ => False

/-! ## Proof -/

theorem outline_place (f : Footstep) : outline f = f.place.outline := rfl

theorem pyStep_place (f : Footstep) (op : PyStepOp) : (pyStep f op).place = f.place.after op := by
  cases op <;> try rfl
  show f.supportPolygon.1.place = f.place
  unfold Footstep.supportPolygon
  cases f.computed <;> rfl

theorem pyRun_place (f : Footstep) (ops : List PyStepOp) : (pyRun f ops).place = f.place.afterAll ops := by
  induction ops generalizing f with
  | nil => rfl
  | cons op ops ih =>
    show (pyRun (pyStep f op) ops).place = (f.place.after op).afterAll ops
    rw [ih, pyStep_place]

theorem pyStep_cache (f : Footstep) (op : PyStepOp) (h : f.computed = true) :
    (pyStep f op).computed = true ∧ (pyStep f op).polygon = f.polygon := by
  cases op <;> try exact ⟨h, rfl⟩
  show f.supportPolygon.1.computed = true ∧ f.supportPolygon.1.polygon = f.polygon
  unfold Footstep.supportPolygon
  rw [if_pos h]
  exact ⟨h, rfl⟩

theorem pyRun_cache (f : Footstep) (ops : List PyStepOp) (h : f.computed = true) :
    (pyRun f ops).computed = true ∧ (pyRun f ops).polygon = f.polygon := by
  induction ops generalizing f with
  | nil => exact ⟨h, rfl⟩
  | cons op ops ih =>
    obtain ⟨h1, h2⟩ := pyStep_cache f op h
    obtain ⟨h3, h4⟩ := ih _ h1
    exact ⟨h3, h4.trans h2⟩

theorem pyRun_fresh (f : Footstep) (ops : List PyStepOp) (h : f.computed = false) (hr : ∀ op ∈ ops, ¬ op.reads) :
    (pyRun f ops).computed = false := by
  induction ops generalizing f with
  | nil => exact h
  | cons op ops ih =>
    refine ih _ ?_ fun o ho => hr o (by simp [ho])
    have := hr op (by simp)
    cases op <;> first | exact h | exact absurd trivial this

/-! ## The property -/

/-- **C205_partial.** Missing: reads after an assignment that follows another read (`C205_exact`, `C205_refuted`). For every
footstep whose polygon was not read, and every sequence of operations of Python without a read: the polygon is that of the
place and size that were assigned. -/
theorem C205_partial (f : Footstep) (h0 : f.computed = false) (ops : List PyStepOp) (hr : ∀ op ∈ ops, ¬ op.reads) :
    (pyRun f ops).supportPolygon.2 = (f.place.afterAll ops).outline := by
  have h := pyRun_fresh f ops h0 hr
  rw [← pyRun_place, ← outline_place, ← computePolygon_outline]
  unfold Footstep.supportPolygon
  rw [if_neg (by rw [h]; exact Bool.false_ne_true)]

/-- **C205_exact.** For every sequence of operations before the first read, and every sequence after it, the polygon is that of
the place and size at the time of the first read. -/
theorem C205_exact (f : Footstep) (h0 : f.computed = false) (before after : List PyStepOp) (hr : ∀ op ∈ before, ¬ op.reads) :
    (pyRun f (before ++ .supportPolygon :: after)).supportPolygon.2 = (f.place.afterAll before).outline := by
  have h1 : pyRun f (before ++ .supportPolygon :: after) = pyRun (pyRun f before).supportPolygon.1 after := by
    unfold pyRun
    rw [List.foldl_append]
    rfl
  have h2 := pyRun_fresh f before h0 hr
  have h3 : (pyRun f before).supportPolygon.1.computed = true := by
    unfold Footstep.supportPolygon
    rw [if_neg (by rw [h2]; exact Bool.false_ne_true)]
  have h4 : (pyRun f before).supportPolygon.1.polygon = (pyRun f before).supportPolygon.2 := by
    unfold Footstep.supportPolygon
    rw [if_neg (by rw [h2]; exact Bool.false_ne_true)]
  obtain ⟨h5, h6⟩ := pyRun_cache _ after h3
  rw [h1]
  unfold Footstep.supportPolygon at h5 h6 ⊢
  rw [if_pos h5, h6]
  rw [← C205_partial f h0 before hr]
  exact h4

/-- **C205, the frame.** The attributes themselves are always those assigned: only the polygon is out of date. In particular
writing in the array `footstep.frame` changes nothing. -/
theorem C205_frame (f : Footstep) (ops : List PyStepOp) :
    (pyRun f ops).frame = (f.place.afterAll ops).frame ∧ (pyRun f ops).length = (f.place.afterAll ops).length ∧
    (pyRun f ops).width = (f.place.afterAll ops).width := by
  rw [← pyRun_place]
  exact ⟨rfl, rfl, rfl⟩

/-- **C205, overlaps.** The test of overlap never uses the polygon that was read: two histories that assign the same place and
size give the same answer, on either side, whatever polygons were read on the way. -/
theorem C205_overlap (f g other : Footstep) (opsF opsG : List PyStepOp) (h : f.place.afterAll opsF = g.place.afterAll opsG) (m : ℝ) :
    (pyRun f opsF).overlap other m = (pyRun g opsG).overlap other m ∧
    other.overlap (pyRun f opsF) m = other.overlap (pyRun g opsG) m := by
  rw [← pyRun_place, ← pyRun_place] at h
  generalize pyRun f opsF = a at h
  generalize pyRun g opsG = b at h
  simp only [Footstep.place, Place.mk.injEq] at h
  have hc : a.computePolygon m = b.computePolygon m := by
    unfold Footstep.computePolygon
    rw [h.1, h.2.1, h.2.2]
  unfold Footstep.overlap
  rw [hc]
  exact ⟨rfl, rfl⟩

/-- Moving a foot along the ground moves its outline. -/
theorem outline_moves (q : Place) (x y : ℝ) :
    (q.after (.setFrameXY x y)).outline = q.outline ↔ x = q.frame.translation 0 ∧ y = q.frame.translation 1 := by
  constructor
  · intro h
    have h1 := congrArg (fun l => l[0]?) h
    simp only [Place.outline, List.getElem?_cons_zero, Option.some.injEq] at h1
    have hx := congrArg V2.x h1
    have hy := congrArg V2.y h1
    simp only [Place.corner, Place.after, Matrix.cons_val_zero, Matrix.cons_val_one] at hx hy
    exact ⟨by linarith, by linarith⟩
  · rintro ⟨rfl, rfl⟩
    simp [Place.outline, Place.corner, Place.after]

/-- **C205 is false of the code.** For every footstep, whatever was done before: once the polygon has been read, `set_frame_xy` to
any other place gives a polygon that is not that of the footstep. -/
theorem C205_refuted (f : Footstep) (h0 : f.computed = false) (before : List PyStepOp) (hr : ∀ op ∈ before, ¬ op.reads) (x y : ℝ)
    (hm : x ≠ (f.place.afterAll before).frame.translation 0 ∨ y ≠ (f.place.afterAll before).frame.translation 1) :
    (pyRun f (before ++ [.supportPolygon, .setFrameXY x y])).supportPolygon.2 ≠
      (f.place.afterAll (before ++ [.supportPolygon, .setFrameXY x y])).outline := by
  rw [C205_exact f h0 before _ hr]
  have : f.place.afterAll (before ++ [.supportPolygon, .setFrameXY x y]) = (f.place.afterAll before).after (.setFrameXY x y) := by
    unfold Place.afterAll
    rw [List.foldl_append]
    rfl
  rw [this]
  intro h
  obtain ⟨h1, h2⟩ := (outline_moves _ _ _).1 h.symm
  rcases hm with hm | hm
  · exact hm h1
  · exact hm h2

/-! ## The hypotheses are met -/

/-- A foot of 10 by 5 centimetres at the origin, moved by one metre after its polygon was read: the polygon stays around the
origin. -/
example : (pyRun { width := 0.05, length := 0.1, side := .left, frame := .one }
      [.setSide .right, .supportPolygon, .setFrameXY 1 0]).supportPolygon.2 =
    [⟨-0.05, 0.025⟩, ⟨0.05, 0.025⟩, ⟨0.05, -0.025⟩, ⟨-0.05, -0.025⟩] := by
  have := C205_exact { width := 0.05, length := 0.1, side := .left, frame := .one } rfl [.setSide .right] [.setFrameXY 1 0]
    (by simp [PyStepOp.reads])
  refine this.trans ?_
  simp [Place.afterAll, Place.after, Place.outline, Place.corner, Footstep.place, Affine.one]
  norm_num
example : ∃ x : ℝ, x ≠ (Place.afterAll ⟨1, 1, .one⟩ [.setSide .right]).frame.translation 0 := ⟨1, by simp [Place.afterAll, Place.after, Affine.one]⟩

end Verif.Humanoid
