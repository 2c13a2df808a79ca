/-
The footstep planners in a mirror (C197) and from elsewhere (C198).
  /repo/src/placo/humanoid/footsteps_planner.cpp 19-94, 289-371; footsteps_planner_repetitive.cpp 15-32; footsteps_planner_naive.cpp 31-157
-/
import Verif.Humanoid.ClipProps
import Verif.Humanoid.OverlapProps
import Verif.Humanoid.QueriesProps
import Verif.Humanoid.StraightProps

namespace Verif.Humanoid
open Verif.Tools Verif.Problem Verif.Robot

/-! ## Specification -/

/-- The image of a point in the mirror of the plane `y = 0`. -/
def mirrorPoint (v : V3) : V3 := ![v 0, -v 1, v 2]

/-- The image of a transform in the mirror, coordinate by coordinate: what `T` does to `v`, this does to the image of `v`
(`mirror_apply`). -/
def mirrorFrame (T : Affine) : Affine :=
  ⟨!![T.linear 0 0, -T.linear 0 1, T.linear 0 2; -T.linear 1 0, T.linear 1 1, -T.linear 1 2; T.linear 2 0, -T.linear 2 1, T.linear 2 2],
    mirrorPoint T.translation⟩

/-- The image of a footstep: the other foot, on the other side. -/
def mirrorFoot (f : Footstep) : Footstep := { f with side := f.side.other, frame := mirrorFrame f.frame }

/-- The image of a step. -/
def mirrorStep (s : Step) : Step := ⟨s.x, -s.y, -s.z⟩

/-- The image of the targets of a naive planner. -/
def mirrorNaive (c : Naive) : Naive := { c with targetLeft := mirrorFrame c.targetRight, targetRight := mirrorFrame c.targetLeft }

/-- The middle of the targets of the feet, seen from the middle of the feet when `support` is at `T`. -/
noncomputable def Naive.seen (c : Naive) (support : Side) (T : Affine) : V3 :=
  worldPoint T.inv (fun i => (c.targetLeft.translation i + c.targetRight.translation i) / 2) -
    ![0, (match support with | .left => -1 | .right => 1) * (c.params.feetSpacing / 2), 0]

/-- The direction of the target of the flying foot, seen from the support. -/
noncomputable def Naive.heading (c : Naive) (support : Side) (T : Affine) : V3 :=
  (T.inv.linear * (match support with | .left => c.targetRight | .right => c.targetLeft).linear).mulVec ![1, 0, 0]

/-- A direction that is not exactly backwards. -/
def NotBehind (v : V3) : Prop := ¬ (v 1 = 0 ∧ v 0 < 0)

/-- The support foot of a state. -/
def NaiveSt.ground (s : NaiveSt) : Affine :=
  match s.support with
  | .left => s.left
  | .right => s.right

/-! ## Mirrors -/

private theorem mulVec_three (A : M3) (v : V3) (i : Fin 3) : A.mulVec v i = A i 0 * v 0 + A i 1 * v 1 + A i 2 * v 2 := by
  simp [Matrix.mulVec, dotProduct, Fin.sum_univ_three]

theorem mirror_apply (T : Affine) (v : V3) : worldPoint (mirrorFrame T) (mirrorPoint v) = mirrorPoint (worldPoint T v) := by
  funext i
  fin_cases i <;> simp [worldPoint, mirrorFrame, mirrorPoint]
  ring

theorem mirror_mirror (T : Affine) : mirrorFrame (mirrorFrame T) = T := by
  refine Affine.ext ?_ ?_
  · ext i j; fin_cases i <;> fin_cases j <;> simp [mirrorFrame]
  · ext i; fin_cases i <;> simp [mirrorFrame, mirrorPoint]

private theorem mirror_mul (A B : Affine) : mirrorFrame (A.mul B) = (mirrorFrame A).mul (mirrorFrame B) := by
  refine Affine.ext ?_ ?_
  · ext i j
    fin_cases i <;> fin_cases j <;> simp [mirrorFrame, Affine.mul, Matrix.mul_apply, Fin.sum_univ_three] <;> ring
  · ext i
    have e : ∀ A B : Affine, (A.mul B).translation i = A.linear.mulVec B.translation i + A.translation i := fun _ _ => rfl
    rw [e, mulVec_three]
    fin_cases i
    · show (A.linear.mulVec B.translation + A.translation) 0 = _
      simp [mulVec_three, mirrorFrame, mirrorPoint]
    · show -((A.linear.mulVec B.translation + A.translation) 1) = _
      simp [mulVec_three, mirrorFrame, mirrorPoint]; ring
    · show (A.linear.mulVec B.translation + A.translation) 2 = _
      simp [mulVec_three, mirrorFrame, mirrorPoint]

private theorem mirror_translation (v : V3) : mirrorFrame ⟨1, v⟩ = ⟨1, mirrorPoint v⟩ := by
  refine Affine.ext ?_ rfl
  ext i j; fin_cases i <;> fin_cases j <;> simp [mirrorFrame]

private theorem mirror_rotZ (a : ℝ) (v : V3) : mirrorFrame ⟨rotZ a, v⟩ = ⟨rotZ (-a), mirrorPoint v⟩ := by
  refine Affine.ext ?_ rfl
  ext i j; fin_cases i <;> fin_cases j <;> simp [mirrorFrame, rotZ]

private theorem rotZ_zero_vec (a : ℝ) : mirrorFrame ⟨rotZ a, 0⟩ = ⟨rotZ (-a), 0⟩ := by
  rw [mirror_rotZ]
  congr 1
  ext i; fin_cases i <;> simp [mirrorPoint]

private theorem opposite_mirror (p : Params) (side : Side) (T : Affine) (dx dy dtheta : ℝ) :
    p.oppositeFrame side.other (mirrorFrame T) dx (-dy) (-dtheta) = mirrorFrame (p.oppositeFrame side T dx dy dtheta) := by
  have hv : ∀ x y : ℝ, mirrorPoint ![x, y, 0] = ![x, -y, 0] := by
    intro x y; ext i; fin_cases i <;> simp [mirrorPoint]
  cases side <;>
    simp only [Params.oppositeFrame, Side.other, rotateZ, translate, mirror_mul, rotZ_zero_vec, mirror_translation, hv, neg_neg]

private theorem oppositeFootstep_mirror (p : Params) (f : Footstep) (s : Step) :
    p.oppositeFootstep (mirrorFoot f) (mirrorStep s).x (mirrorStep s).y (mirrorStep s).z = mirrorFoot (p.oppositeFootstep f s.x s.y s.z) := by
  simp only [Params.oppositeFootstep, mirrorFoot, mirrorStep, opposite_mirror]

private theorem clip_mirror (p : Params) (c : Clipping) (s : Step) : p.clip c (mirrorStep s) = mirrorStep (p.clip c s) := by
  have gen : ∀ norm : Step → ℝ, (∀ s, norm (mirrorStep s) = norm s) →
      Params.clipWith norm p (mirrorStep s) = mirrorStep (Params.clipWith norm p s) := by
    intro norm hn
    have ef : p.factorX (mirrorStep s) = p.factorX s := rfl
    obtain ⟨s1, h1⟩ : ∃ s1 : Step, s1 = ⟨s.x / p.factorX s, s.y / p.maxDy, s.z / p.maxDtheta⟩ := ⟨_, rfl⟩
    have e : (⟨(mirrorStep s).x / p.factorX s, (mirrorStep s).y / p.maxDy, (mirrorStep s).z / p.maxDtheta⟩ : Step) = mirrorStep s1 := by
      rw [h1]; exact Step.ext rfl (neg_div _ _) (neg_div _ _)
    unfold Params.clipWith
    simp only [ef]
    rw [e, ← h1, hn]
    by_cases h : 1 < norm s1
    · simp only [if_pos h]
      exact Step.ext rfl (by simp [mirrorStep, neg_div]) (by simp [mirrorStep, neg_div])
    · simp only [if_neg h]
      exact Step.ext rfl (by simp [mirrorStep]) (by simp [mirrorStep])
  cases c
  · exact gen (fun s => Real.sqrt (s.x * s.x + s.y * s.y + s.z * s.z)) fun s => by simp [mirrorStep]
  · exact gen (fun s => |s.x| + |s.y| + |s.z|) fun s => by simp [mirrorStep]
  · exact gen (fun s => Real.sqrt (s.x * s.x + s.y * s.y) + |s.z|) fun s => by simp [mirrorStep]

private theorem clippedStep_mirror (p : Params) (c : Clipping) (side : Side) (dx dy dtheta : ℝ) :
    p.clippedStep c side.other dx (-dy) (-dtheta) = mirrorStep (p.clippedStep c side dx dy dtheta) := by
  unfold Params.clippedStep
  rw [← clip_mirror]
  congr 1
  cases side <;> simp [Side.other, mirrorStep] <;> ring

/-! ## Overlaps -/

/-- The value tested by `polygon_contains` for an edge. -/
private def edge (a b pt : V2) : ℝ := (b.y - a.y) * (pt.x - a.x) - (b.x - a.x) * (pt.y - a.y)

private theorem contains_four (a b c d pt : V2) : polygonContains [a, b, c, d] pt = .ok true ↔
    0 ≤ edge d a pt ∧ 0 ≤ edge a b pt ∧ 0 ≤ edge b c pt ∧ 0 ≤ edge c d pt := by
  have e : ∀ a b : V2, V2.dot ⟨(b.sub a).y, -(b.sub a).x⟩ (pt.sub a) = edge a b pt := by
    intro a b; simp only [V2.dot, V2.sub, edge]; ring
  simp only [polygonContains, List.getLast?_cons_cons, List.getLast?_singleton, containsLoop, e, Except.ok.injEq]
  by_cases h1 : edge d a pt < 0 <;> by_cases h2 : edge a b pt < 0 <;> by_cases h3 : edge b c pt < 0 <;> by_cases h4 : edge c d pt < 0 <;>
    simp [h1, h2, h3, h4, not_lt.1, not_le.2]

private noncomputable def corner (f : Footstep) (m a b : ℝ) : V2 := planar f.frame (a * (m + f.length / 2)) (b * (m + f.width / 2))

private theorem polygon_corners (f : Footstep) (m : ℝ) :
    f.computePolygon m = [corner f m (-1) 1, corner f m 1 1, corner f m 1 (-1), corner f m (-1) (-1)] := rfl

/-- Two footsteps overlap as two others when a map of the floor brings the corners of the ones on the corners of the others,
and keeps which points are in the polygons. -/
private theorem overlap_congr {f g f' g' : Footstep} {m : ℝ}
    (h1 : (∃ pt, IsCorner f' m pt ∧ polygonContains (g'.computePolygon m) pt = .ok true) ↔
      ∃ pt, IsCorner f m pt ∧ polygonContains (g.computePolygon m) pt = .ok true)
    (h2 : (∃ pt, IsCorner g' m pt ∧ polygonContains (f'.computePolygon m) pt = .ok true) ↔
      ∃ pt, IsCorner g m pt ∧ polygonContains (f.computePolygon m) pt = .ok true) : f'.overlap g' m = f.overlap g m := by
  obtain ⟨b, hb⟩ := overlap_ok f g m
  obtain ⟨b', hb'⟩ := overlap_ok f' g' m
  have e1 := overlap_iff f g m
  have e2 := overlap_iff f' g' m
  rw [h1, h2, ← e1, hb, hb'] at e2
  rw [hb, hb']
  cases b <;> cases b' <;> simp at e2 ⊢

private def flip (v : V2) : V2 := ⟨v.x, -v.y⟩

private theorem corner_mirror (f : Footstep) (m a b : ℝ) : corner (mirrorFoot f) m a b = flip (corner f m a (-b)) := by
  simp only [corner, planar_eq, flip, mirrorFoot, mirrorFrame, mirrorPoint]
  refine V2.ext ?_ ?_ <;> simp
  ring

private theorem edge_flip (a b pt : V2) : edge (flip a) (flip b) (flip pt) = edge b a pt := by
  simp only [edge, flip]; ring

private theorem contains_mirror (f : Footstep) (m : ℝ) (pt : V2) : polygonContains ((mirrorFoot f).computePolygon m) (flip pt) = .ok true ↔
    polygonContains (f.computePolygon m) pt = .ok true := by
  rw [polygon_corners, polygon_corners, contains_four, contains_four]
  simp only [corner_mirror, edge_flip, neg_neg]
  constructor <;> rintro ⟨a, b, c, d⟩ <;> exact ⟨by assumption, by assumption, by assumption, by assumption⟩

private theorem isCorner_mirror (f : Footstep) (m : ℝ) (pt : V2) : IsCorner (mirrorFoot f) m (flip pt) ↔ IsCorner f m pt := by
  have inj : ∀ a b : V2, flip a = flip b ↔ a = b := by
    intro a b
    constructor
    · intro h
      have h1 := congrArg V2.x h
      have h2 := congrArg V2.y h
      simp only [flip, neg_inj] at h1 h2
      exact V2.ext h1 h2
    · rintro rfl; rfl
  unfold IsCorner
  rw [polygon_corners, polygon_corners]
  simp only [corner_mirror, List.mem_cons, inj, neg_neg, List.not_mem_nil, or_false]
  constructor <;> (rintro (h | h | h | h) <;> simp [h])

private theorem overlap_mirror (f g : Footstep) (m : ℝ) : (mirrorFoot f).overlap (mirrorFoot g) m = f.overlap g m := by
  have ex : ∀ P : V2 → Prop, (∃ pt, P pt) ↔ ∃ pt, P (flip pt) := fun P =>
    ⟨fun ⟨pt, h⟩ => ⟨flip pt, by rw [show flip (flip pt) = pt by simp [flip]]; exact h⟩, fun ⟨pt, h⟩ => ⟨_, h⟩⟩
  refine overlap_congr ?_ ?_ <;> rw [ex] <;> simp only [isCorner_mirror, contains_mirror]

/-! ## The repetitive planner in a mirror -/

private theorem shrink_mirror (p : Params) (f : Footstep) (k : Nat) (s : Step) :
    p.shrinkLoop (mirrorFoot f) k (mirrorStep s) = (p.shrinkLoop f k s).map mirrorFoot := by
  induction k generalizing s with
  | zero =>
    simp only [Params.shrinkLoop, oppositeFootstep_mirror, Except.map]
  | succ k ih =>
    rw [Params.shrinkLoop, Params.shrinkLoop]
    simp only [oppositeFootstep_mirror, overlap_mirror]
    obtain ⟨b, hb⟩ := overlap_ok (p.oppositeFootstep f s.x s.y s.z) f (1 / 100)
    have e : (mirrorStep s).scale (9 / 10) = mirrorStep (s.scale (9 / 10)) := by simp [mirrorStep, Step.scale]
    rw [hb, e, ih]
    cases b <;> rfl

private theorem clipped_mirror (p : Params) (c : Clipping) (f : Footstep) (dx dy dtheta : ℝ) :
    p.clippedOppositeFootstep c (mirrorFoot f) dx (-dy) (-dtheta) = (p.clippedOppositeFootstep c f dx dy dtheta).map mirrorFoot := by
  unfold Params.clippedOppositeFootstep
  rw [show (mirrorFoot f).side = f.side.other from rfl, clippedStep_mirror, shrink_mirror]

private theorem repLoop_mirror (p : Params) (c : Clipping) (dx dy dtheta : ℝ) (n : Nat) (f : Footstep) :
    p.repLoop c dx (-dy) (-dtheta) n (mirrorFoot f) =
      (p.repLoop c dx dy dtheta n f).map fun r => (mirrorFoot r.1, r.2.map mirrorFoot) := by
  induction n generalizing f with
  | zero => rfl
  | succ n ih =>
    rw [Params.repLoop, Params.repLoop, clipped_mirror]
    cases p.clippedOppositeFootstep c f dx dy dtheta with
    | error e => rfl
    | ok g =>
      simp only [Except.map, Bind.bind, Except.bind, ih]
      cases p.repLoop c dx dy dtheta n g with
      | error e => rfl
      | ok r => rfl

private theorem initial_mirror (p : Params) (flying : Side) (L R : Affine) :
    p.initialFootsteps flying.other (mirrorFrame R) (mirrorFrame L) = (p.initialFootsteps flying L R).map mirrorFoot := by
  cases flying <;> rfl

/-- **C197.** The repetitive planner plans in a mirror as it plans, for all parameters, clippings, steps and initial feet: the image of the
plan is the plan of the image, with the other foot, the steps of the other side and the turns of the other sense. -/
theorem C197_repetitive (p : Params) (c : Clipping) (dx dy dtheta : ℝ) (nbSteps : Int) (flying : Side) (T_left T_right : Affine) :
    p.planRepetitive c dx (-dy) (-dtheta) nbSteps flying.other (mirrorFrame T_right) (mirrorFrame T_left) =
      (p.planRepetitive c dx dy dtheta nbSteps flying T_left T_right).map (List.map mirrorFoot) := by
  unfold Params.planRepetitive
  rw [initial_mirror]
  generalize hfs : p.initialFootsteps flying T_left T_right = fs
  have : p.repImpl c dx (-dy) (-dtheta) nbSteps (fs.map mirrorFoot) = (p.repImpl c dx dy dtheta nbSteps fs).map (List.map mirrorFoot) := by
    unfold Params.repImpl
    have hat : at' (fs.map mirrorFoot) 1 = (at' fs 1).map mirrorFoot := by
      rw [← hfs]; cases flying <;> rfl
    rw [hat]
    cases at' fs 1 with
    | error e => rfl
    | ok f =>
      simp only [Except.map, Bind.bind, Except.bind]
      split
      · rw [repLoop_mirror]
        cases p.repLoop c dx dy dtheta (nbSteps - 1).toNat f with
        | error e => rfl
        | ok r =>
          simp only [Except.map]
          have h0 := clipped_mirror p c r.1 0 0 0
          rw [neg_zero] at h0
          rw [h0]
          cases p.clippedOppositeFootstep c r.1 0 0 0 with
          | error e => rfl
          | ok g => simp [Except.map]
      · rfl
  dsimp only
  rw [this]
  cases p.repImpl c dx dy dtheta nbSteps fs with
  | error e => rfl
  | ok more => simp [Except.map, Bind.bind, Except.bind]

/-! ## The naive planner in a mirror -/

private theorem mirror_mulVec (A : Affine) (v : V3) : (mirrorFrame A).linear.mulVec (mirrorPoint v) = mirrorPoint (A.linear.mulVec v) := by
  ext i
  rw [mulVec_three]
  fin_cases i
  · show _ = A.linear.mulVec v 0
    rw [mulVec_three]; simp [mirrorFrame, mirrorPoint]
  · show _ = -A.linear.mulVec v 1
    rw [mulVec_three]; simp [mirrorFrame, mirrorPoint]; ring
  · show _ = A.linear.mulVec v 2
    rw [mulVec_three]; simp [mirrorFrame, mirrorPoint]

private theorem mirror_inv (T : Affine) : (mirrorFrame T).inv = mirrorFrame T.inv := by
  let D : M3 := !![1, 0, 0; 0, -1, 0; 0, 0, 1]
  have hD : D * D = 1 := by
    ext i j; fin_cases i <;> fin_cases j <;> simp [D, Matrix.mul_apply, Fin.sum_univ_three]
  have hl : ∀ A : Affine, (mirrorFrame A).linear = D * A.linear * D := by
    intro A
    ext i j; fin_cases i <;> fin_cases j <;> simp [D, mirrorFrame, Matrix.mul_apply, Matrix.vecMul, dotProduct, Fin.sum_univ_three]
  have ht : ∀ v : V3, mirrorPoint v = D.mulVec v := by
    intro v
    ext i
    rw [mulVec_three]
    fin_cases i <;> simp [D, mirrorPoint]
  have hDi : D⁻¹ = D := Matrix.inv_eq_left_inv hD
  have hinv : (mirrorFrame T).linear⁻¹ = D * T.linear⁻¹ * D := by
    rw [hl, Matrix.mul_inv_rev, Matrix.mul_inv_rev, hDi, Matrix.mul_assoc]
  refine Affine.ext ?_ ?_
  · rw [hl]; exact hinv
  · show -((mirrorFrame T).linear⁻¹.mulVec (mirrorPoint T.translation)) = mirrorPoint (-(T.linear⁻¹.mulVec T.translation))
    rw [hinv, ht, ht, Matrix.mulVec_mulVec, Matrix.mul_assoc, hD, Matrix.mul_one, Matrix.mulVec_neg, Matrix.mulVec_mulVec]

private theorem rescale_mirror (e a : ℝ) (st : ℝ × Bool) : rescaleAxis (-e) a st = rescaleAxis e a st := by
  unfold rescaleAxis
  have h1 : -e < -a ↔ a < e := neg_lt_neg_iff
  have h2 : a < -e ↔ e < -a := lt_neg
  have e1 : -a / -e = a / e := neg_div_neg_eq a e
  have e2 : a / -e = -a / e := by rw [div_neg, neg_div]
  simp only [h1, h2, e1, e2]
  by_cases p : a < e <;> by_cases q : e < -a <;> simp [p, q, min_assoc, min_comm (a / e)]

private theorem clamp_mirror (y a : ℝ) (ha : 0 ≤ a) (b : Bool) : clampYaw (-y) a b = (-(clampYaw y a b).1, (clampYaw y a b).2) := by
  unfold clampYaw
  by_cases p : y < -a
  · have q : ¬ -y < -a := by linarith
    have r : a < -y := by linarith
    have t : ¬ a < -a := by linarith
    simp [p, q, r, t]
  · by_cases q : a < y
    · have q' : -y < -a := by linarith
      have t : ¬ a < -a := by linarith
      simp [p, q, q', t]
    · have q' : ¬ -y < -a := by linarith
      have r : ¬ a < -y := by linarith
      simp only [if_neg p, if_neg q, if_neg q', if_neg r]

private theorem atan2_mirror (y x : ℝ) (h : ¬ (y = 0 ∧ x < 0)) : atan2 (-y) x = -atan2 y x := by
  unfold atan2
  have e : (⟨x, -y⟩ : ℂ) = (starRingEnd ℂ) ⟨x, y⟩ := by apply Complex.ext <;> simp
  rw [e, Complex.arg_conj, if_neg]
  rw [Complex.arg_eq_pi_iff]
  rintro ⟨h1, h2⟩
  exact h ⟨h2, h1⟩

private theorem norm3_mirror (x y z : ℝ) : norm3 ![x, -y, z] = norm3 ![x, y, z] := by simp [norm3]

/-- A step of the naive planner, in the mirror. -/
private theorem step_mirror (c : Naive) (ha : 0 ≤ c.params.maxDtheta) (support : Side) (T : Affine) (h1 : NotBehind (c.seen support T))
    (h2 : NotBehind (c.heading support T)) :
    (mirrorNaive c).step support.other (mirrorFrame T) = (mirrorFrame (c.step support T).1, (c.step support T).2) := by
  have hrel : (mirrorFrame T).inv.mul ((mirrorNaive c).targetOf support.other) = mirrorFrame (T.inv.mul (c.targetOf support)) := by
    rw [mirror_inv, mirror_mul]
    cases support <;> rfl
  have hidle : (mirrorNaive c).idleY support.other = -c.idleY support := by
    cases support <;> simp [Naive.idleY, mirrorNaive, Side.other]
  have hpar : (mirrorNaive c).params = c.params := rfl
  generalize hR : T.inv.mul (c.targetOf support) = R at hrel
  have hcenter : ((mirrorFrame T).inv.linear.mulVec
        (fun i => (mirrorNaive c).targetLeft.translation i * (1 - 1 / 2) + (mirrorNaive c).targetRight.translation i * (1 / 2)) +
      (mirrorFrame T).inv.translation - ![0, (mirrorNaive c).idleY support.other / 2, 0] : V3) =
      mirrorPoint (T.inv.linear.mulVec
        (fun i => c.targetLeft.translation i * (1 - 1 / 2) + c.targetRight.translation i * (1 / 2)) + T.inv.translation
        - ![0, c.idleY support / 2, 0]) := by
    have hv : (fun i => (mirrorNaive c).targetLeft.translation i * (1 - 1 / 2) + (mirrorNaive c).targetRight.translation i * (1 / 2)) =
        mirrorPoint (fun i => c.targetLeft.translation i * (1 - 1 / 2) + c.targetRight.translation i * (1 / 2)) := by
      ext i
      fin_cases i <;> simp [mirrorNaive, mirrorFrame, mirrorPoint] <;> ring
    rw [mirror_inv, hidle, hv, mirror_mulVec]
    generalize T.inv.linear.mulVec _ = w
    ext i
    fin_cases i <;> simp [mirrorFrame, mirrorPoint] <;> ring
  have hseen : (T.inv.linear.mulVec
        (fun i => c.targetLeft.translation i * (1 - 1 / 2) + c.targetRight.translation i * (1 / 2)) + T.inv.translation
        - ![0, c.idleY support / 2, 0] : V3) = c.seen support T := by
    unfold Naive.seen
    rw [show (fun i => (c.targetLeft.translation i + c.targetRight.translation i) / 2) =
      fun i => c.targetLeft.translation i * (1 - 1 / 2) + c.targetRight.translation i * (1 / 2) by funext i; ring]
    have hw : ∀ v, worldPoint T.inv v = T.inv.linear.mulVec v + T.inv.translation := by
      intro v; funext i; rw [Pi.add_apply, mulVec_three]; rfl
    rw [hw]
    congr 2
    cases support <;> simp [Naive.idleY] <;> ring
  have hhead : R.linear.mulVec ![1, 0, 0] = c.heading support T := by
    rw [← hR]
    unfold Naive.heading
    cases support <;> rfl
  have hyaw : ∀ dist, (mirrorNaive c).errorYaw dist (mirrorPoint (c.seen support T)) (mirrorFrame R).linear =
      -c.errorYaw dist (c.seen support T) R.linear := by
    intro dist
    have e0 : frameYaw (mirrorFrame R).linear = -frameYaw R.linear := by
      unfold frameYaw
      have a0 : (mirrorFrame R).linear.mulVec ![1, 0, 0] 0 = R.linear.mulVec ![1, 0, 0] 0 := by simp [mulVec_three, mirrorFrame]
      have a1 : (mirrorFrame R).linear.mulVec ![1, 0, 0] 1 = -R.linear.mulVec ![1, 0, 0] 1 := by simp [mulVec_three, mirrorFrame]
      dsimp only
      rw [a0, a1]
      refine atan2_mirror _ _ ?_
      rw [hhead]
      exact h2
    unfold Naive.errorYaw
    rw [e0, show (mirrorNaive c).placeThreshold = c.placeThreshold from rfl,
      show mirrorPoint (c.seen support T) 1 = -c.seen support T 1 from rfl,
      show mirrorPoint (c.seen support T) 0 = c.seen support T 0 from rfl, atan2_mirror _ _ h1]
    split <;> rfl
  have t0 : (mirrorFrame R).translation 0 = R.translation 0 := rfl
  have t1 : (mirrorFrame R).translation 1 = -R.translation 1 := rfl
  rw [hidle, hseen] at hcenter
  unfold Naive.step
  simp only [hrel, hR, hidle, hcenter, hseen, hpar, t0, t1, Matrix.cons_val_zero, Matrix.cons_val_one, Matrix.cons_val]
  rw [show -R.translation 1 - -c.idleY support = -(R.translation 1 - c.idleY support) by ring, rescale_mirror, norm3_mirror, hyaw,
    clamp_mirror _ _ ha]
  generalize rescaleAxis (R.translation 1 - c.idleY support) c.params.maxDy (rescaleAxis (R.translation 0) c.params.maxDxForward (1, true)) = r
  generalize clampYaw _ _ _ = y
  have hclip := clip_mirror c.params .ellipsoid ⟨R.translation 0 * r.1, (R.translation 1 - c.idleY support) * r.1, y.1⟩
  simp only [Params.clip, mirrorStep] at hclip
  rw [neg_mul, hclip]
  generalize c.params.ellipsoidClip _ = s
  refine Prod.ext ?_ rfl
  show (mirrorFrame T).mul _ = mirrorFrame (T.mul _)
  rw [mirror_mul, mirror_rotZ]
  congr 2
  ext i; fin_cases i <;> simp [mirrorPoint]
  ring

/-- The image of a state of the loop. -/
private def mirrorSt (s : NaiveSt) : NaiveSt :=
  { left := mirrorFrame s.right, right := mirrorFrame s.left, support := s.support.other, leftArrived := s.rightArrived,
    rightArrived := s.leftArrived }

private theorem turn_mirror (c : Naive) (ha : 0 ≤ c.params.maxDtheta) (s : NaiveSt) (h1 : NotBehind (c.seen s.support s.ground))
    (h2 : NotBehind (c.heading s.support s.ground)) :
    (mirrorNaive c).turn (mirrorSt s) = (mirrorSt (c.turn s).1, mirrorFoot (c.turn s).2) := by
  obtain ⟨L, R, side, bl, br⟩ := s
  cases side
  · have := step_mirror c ha .left L h1 h2
    simp only [Naive.turn, mirrorSt, Side.other] at this ⊢
    rw [this]
    rfl
  · have := step_mirror c ha .right R h1 h2
    simp only [Naive.turn, mirrorSt, Side.other] at this ⊢
    rw [this]
    rfl

/-- The support foot after each turn of the loop never has the targets exactly behind it. -/
def Naive.FacesTargets (c : Naive) (flying : Side) (T_left T_right : Affine) : Prop :=
  ∀ k : Nat, (k : Int) < c.maxSteps → ∀ s, s = (fun s => (c.turn s).1)^[k] { left := T_left, right := T_right, support := flying.other } →
    NotBehind (c.seen s.support s.ground) ∧ NotBehind (c.heading s.support s.ground)

private theorem loop_mirror (c : Naive) (ha : 0 ≤ c.params.maxDtheta) (n : Nat) (s : NaiveSt)
    (h : ∀ k : Nat, k < n → ∀ s', s' = (fun s => (c.turn s).1)^[k] s →
      NotBehind (c.seen s'.support s'.ground) ∧ NotBehind (c.heading s'.support s'.ground)) :
    (mirrorNaive c).loop n (mirrorSt s) = (c.loop n s).map mirrorFoot := by
  induction n generalizing s with
  | zero => rfl
  | succ n ih =>
    obtain ⟨h1, h2⟩ := h 0 (by omega) s rfl
    rw [Naive.loop, Naive.loop, turn_mirror c ha s h1 h2]
    have e : ((mirrorSt s).leftArrived && (mirrorSt s).rightArrived) = (s.leftArrived && s.rightArrived) := Bool.and_comm _ _
    rw [e]
    split
    · rfl
    · rw [ih _ fun k hk s' hs => h (k + 1) (by omega) s' (by rw [hs, Function.iterate_succ_apply]), List.map_cons]

/-- **C197** for the naive planner, as long as the targets are never exactly behind the robot: the image of the plan is the plan of the image.
Missing: the targets exactly behind (`C197_refuted`). -/
theorem C197_naive_partial (c : Naive) (ha : 0 ≤ c.params.maxDtheta) (flying : Side) (T_left T_right : Affine)
    (h : c.FacesTargets flying T_left T_right) :
    (mirrorNaive c).plan flying.other (mirrorFrame T_right) (mirrorFrame T_left) = (c.plan flying T_left T_right).map mirrorFoot := by
  unfold Naive.plan
  rw [show (mirrorNaive c).params = c.params from rfl, initial_mirror, List.map_append]
  congr 1
  exact loop_mirror c ha c.maxSteps.toNat _ fun k hk => h k (by omega)

/-- A robot that walks straight ahead (C194) never has its targets behind: it meets the hypothesis of `C197_naive_partial`. -/
theorem ahead_faces (c : Naive) (hp : c.params.Limits) (W : Affine) (hW : Rigid W) (X x : ℝ) (hc : c.Ahead W X) (hx : x ≤ X)
    (flying : Side) (T_left T_right : Affine)
    (hs : (match flying.other with | .left => T_left | .right => T_right) = onLine W c.params.feetSpacing flying.other x) :
    c.FacesTargets flying T_left T_right := by
  have inv : ∀ k : Nat, ∃ x', x' ≤ X ∧ ((fun s => (c.turn s).1)^[k] { left := T_left, right := T_right, support := flying.other }).ground =
      onLine W c.params.feetSpacing
        ((fun s => (c.turn s).1)^[k] { left := T_left, right := T_right, support := flying.other }).support x' := by
    intro k
    induction k with
    | zero => exact ⟨x, hx, by cases flying <;> exact hs⟩
    | succ k ih =>
      obtain ⟨x', hx', ih⟩ := ih
      rw [Function.iterate_succ_apply']
      generalize (fun s => (c.turn s).1)^[k] { left := T_left, right := T_right, support := flying.other } = s at ih ⊢
      have hst := straight_step c hp W hW X x' hc hx' s.support
      rw [← ih] at hst
      refine ⟨_, min_le_left X (x' + c.params.maxDxForward), ?_⟩
      obtain ⟨L, R, side, bl, br⟩ := s
      cases side
      · exact congrArg Prod.fst hst
      · exact congrArg Prod.fst hst
  intro k _ s rfl
  obtain ⟨x', hx', h⟩ := inv k
  generalize (fun s => (c.turn s).1)^[k] { left := T_left, right := T_right, support := flying.other } = s at h ⊢
  rw [h]
  have hr : Rigid (onLine W c.params.feetSpacing s.support x') := by
    show IsRotation (W.linear * 1)
    rw [mul_one]
    exact hW
  constructor
  · have : c.seen s.support (onLine W c.params.feetSpacing s.support x') 0 = X - x' := by
      have e : (fun i => (c.targetLeft.translation i + c.targetRight.translation i) / 2) =
          ((onLine W c.params.feetSpacing s.support x').mul
            ⟨1, ![X - x', match s.support with | .left => -(c.params.feetSpacing / 2) | .right => c.params.feetSpacing / 2, 0]⟩).translation := by
        rw [hc.1, hc.2]
        unfold onLine
        rw [mul_assoc']
        funext i
        show ((W.linear.mulVec _ + W.translation) i + (W.linear.mulVec _ + W.translation) i) / 2 =
          (W.linear.mulVec ((1 : M3).mulVec _ + _) + W.translation) i
        rw [Matrix.one_mulVec, Pi.add_apply, Pi.add_apply, Pi.add_apply, mulVec_three, mulVec_three, mulVec_three]
        cases s.support <;> simp <;> ring
      unfold Naive.seen
      rw [e]
      have key : worldPoint (onLine W c.params.feetSpacing s.support x').inv ((onLine W c.params.feetSpacing s.support x').mul
            ⟨1, ![X - x', match s.support with | .left => -(c.params.feetSpacing / 2) | .right => c.params.feetSpacing / 2, 0]⟩).translation =
          ![X - x', match s.support with | .left => -(c.params.feetSpacing / 2) | .right => c.params.feetSpacing / 2, 0] := by
        have := congrArg Affine.translation (mul_assoc' (onLine W c.params.feetSpacing s.support x').inv (onLine W c.params.feetSpacing s.support x')
          ⟨1, ![X - x', match s.support with | .left => -(c.params.feetSpacing / 2) | .right => c.params.feetSpacing / 2, 0]⟩)
        rw [inv_mul' hr, one_mul'] at this
        rw [← apply_eq]
        exact this.symm
      rw [key]
      simp
    rintro ⟨-, h0⟩
    rw [this] at h0
    linarith
  · have hl : (onLine W c.params.feetSpacing s.support x').inv.linear *
        (match s.support with | .left => c.targetRight | .right => c.targetLeft).linear = 1 := by
      have e : (match s.support with | .left => c.targetRight | .right => c.targetLeft).linear =
          (onLine W c.params.feetSpacing s.support x').linear := by
        cases s.support
        · exact (congrArg Affine.linear hc.2 : c.targetRight.linear = W.linear * 1)
        · exact (congrArg Affine.linear hc.1 : c.targetLeft.linear = W.linear * 1)
      rw [e]
      exact congrArg Affine.linear (inv_mul' hr)
    unfold Naive.heading NotBehind
    rw [hl, Matrix.one_mulVec]
    rintro ⟨-, h0⟩
    norm_num at h0

/-- Such a robot. -/
example : ∃ (c : Naive) (T_left T_right : Affine), 0 ≤ c.params.maxDtheta ∧ c.FacesTargets .left T_left T_right ∧
    (c.plan .left T_left T_right).length = 16 := by
  have hr : Rigid Affine.one := ⟨by simp [Affine.one], by simp [Affine.one]⟩
  refine ⟨{ params := {}, targetLeft := onLine Affine.one ({} : Params).feetSpacing .left 1
            targetRight := onLine Affine.one ({} : Params).feetSpacing .right 1 },
    onLine Affine.one ({} : Params).feetSpacing .left 0, onLine Affine.one ({} : Params).feetSpacing .right 0, by norm_num, ?_, ?_⟩
  · exact ahead_faces _ default_limits Affine.one hr 1 0 ⟨rfl, rfl⟩ (by norm_num) .left _ _ rfl
  · obtain ⟨l, hl, hn, -⟩ := C194 { params := {}, targetLeft := onLine Affine.one ({} : Params).feetSpacing .left 1
                                    targetRight := onLine Affine.one ({} : Params).feetSpacing .right 1 }
      default_limits Affine.one hr 1 0 ⟨rfl, rfl⟩ (by norm_num) .left
      (onLine Affine.one ({} : Params).feetSpacing .left 0) (onLine Affine.one ({} : Params).feetSpacing .right 0) rfl
    rw [hl, List.length_append, hn]
    have : ⌈((1 : ℝ) - 0) / (8 / 100)⌉₊ = 13 := by
      rw [Nat.ceil_eq_iff (by norm_num)]
      norm_num
    show 2 + min 100 (max 1 ⌈((1 : ℝ) - 0) / (8 / 100)⌉₊ + 1) = 16
    rw [this]
    rfl

/-- A robot with its back to its targets. -/
noncomputable def backNaive : Naive :=
  { params := {}, targetLeft := ⟨1, ![-10, 75 / 1000, 0]⟩, targetRight := ⟨1, ![-10, -75 / 1000, 0]⟩ }

/-- **C197 is false** when the targets are exactly behind: this robot is its own image, with feet that are the images of each other, and turns
to the left whichever foot flies first. -/
theorem C197_refuted : ∃ (c : Naive) (T_left T_right : Affine), c.params.Limits ∧ mirrorNaive c = c ∧ mirrorFrame T_right = T_left ∧
    mirrorFrame T_left = T_right ∧
    c.plan (Side.other .left) (mirrorFrame T_right) (mirrorFrame T_left) ≠ (c.plan .left T_left T_right).map mirrorFoot := by
  have hm : ∀ y : ℝ, ∀ x : ℝ, mirrorFrame ⟨1, ![x, y, 0]⟩ = ⟨1, ![x, -y, 0]⟩ := by
    intro y x
    rw [mirror_translation]
    rfl
  have hstep : ∀ side : Side, ∃ z v, 0 < z ∧ z ≤ 35 / 100 ∧
      (backNaive.step side ⟨1, ![0, match side with | .left => 75 / 1000 | .right => -75 / 1000, 0]⟩).1 = ⟨rotZ z, v⟩ := by
    intro side
    obtain ⟨y0, hy0⟩ : ∃ y0 : ℝ, y0 = match side with | .left => 75 / 1000 | .right => -75 / 1000 := ⟨_, rfl⟩
    rw [← hy0]
    have hinv : (⟨1, ![0, y0, 0]⟩ : Affine).inv = ⟨1, ![0, -y0, 0]⟩ := by
      refine Affine.ext inv_one ?_
      show -((1 : M3)⁻¹.mulVec ![0, y0, 0]) = _
      rw [inv_one, Matrix.one_mulVec]
      ext i; fin_cases i <;> simp
    have hrel : (⟨1, ![0, y0, 0]⟩ : Affine).inv.mul (backNaive.targetOf side) = ⟨1, ![-10, backNaive.idleY side, 0]⟩ := by
      rw [hinv]
      cases side <;> simp only at hy0 <;> subst hy0 <;>
        (refine Affine.ext (mul_one _) ?_
         show (1 : M3).mulVec _ + _ = _
         rw [Matrix.one_mulVec]
         ext i; fin_cases i <;> simp [backNaive, Naive.targetOf, Naive.idleY] <;> norm_num)
    have hcen : (⟨1, ![0, y0, 0]⟩ : Affine).inv.linear.mulVec
        (fun i => backNaive.targetLeft.translation i * (1 - 1 / 2) + backNaive.targetRight.translation i * (1 / 2)) +
        (⟨1, ![0, y0, 0]⟩ : Affine).inv.translation - ![0, backNaive.idleY side / 2, 0] = ![-10, 0, 0] := by
      have hv : (fun i => backNaive.targetLeft.translation i * (1 - 1 / 2) + backNaive.targetRight.translation i * (1 / 2)) =
          (![-10, 0, 0] : V3) := by
        funext i
        fin_cases i <;> simp [backNaive] <;> norm_num
      rw [hinv, hv]
      dsimp only
      rw [Matrix.one_mulVec]
      ext i
      cases side <;> simp only at hy0 <;> subst hy0 <;> fin_cases i <;> simp [backNaive, Naive.idleY] <;> norm_num
    have hyaw : ∀ M, backNaive.errorYaw (norm3 ![-10, 0, 0]) ![-10, 0, 0] M = Real.pi := by
      intro M
      have hn : norm3 ![-10, 0, 0] = 10 := by
        unfold norm3
        rw [show (![-10, 0, 0] : V3) 0 * (![-10, 0, 0] : V3) 0 + (![-10, 0, 0] : V3) 1 * (![-10, 0, 0] : V3) 1 +
          (![-10, 0, 0] : V3) 2 * (![-10, 0, 0] : V3) 2 = 10 ^ 2 by simp; norm_num, Real.sqrt_sq (by norm_num)]
      unfold Naive.errorYaw
      rw [hn, if_pos (by norm_num [backNaive])]
      show atan2 0 (-10) = _
      unfold atan2
      rw [Complex.arg_eq_pi_iff]
      constructor <;> norm_num
    have hclamp : ∀ b, clampYaw Real.pi (35 / 100) b = (35 / 100, false) := by
      intro b
      unfold clampYaw
      have h3 := Real.two_le_pi
      have a : ¬ Real.pi < -(35 / 100) := by linarith
      have b : (35 / 100 : ℝ) < Real.pi := by linarith
      simp only [if_neg a, if_pos b]
    have hz : ∀ x, 0 < (backNaive.params.ellipsoidClip ⟨x, 0, 35 / 100⟩).z ∧ (backNaive.params.ellipsoidClip ⟨x, 0, 35 / 100⟩).z ≤ 35 / 100 := by
      intro x
      obtain ⟨k, k0, k1, hk⟩ := (C77 backNaive.params default_limits .ellipsoid ⟨x, 0, 35 / 100⟩).2.2.2.1
      have hk' : backNaive.params.ellipsoidClip ⟨x, 0, 35 / 100⟩ = Step.scale k ⟨x, 0, 35 / 100⟩ := hk
      rw [hk']
      show 0 < k * (35 / 100) ∧ k * (35 / 100) ≤ 35 / 100
      constructor <;> nlinarith
    have hpar : backNaive.params.maxDtheta = 35 / 100 := rfl
    have hlin : ∃ x, (backNaive.step side ⟨1, ![0, y0, 0]⟩).1.linear = rotZ (backNaive.params.ellipsoidClip ⟨x, 0, 35 / 100⟩).z := by
      refine ⟨-10 * (rescaleAxis 0 backNaive.params.maxDy (rescaleAxis (-10) backNaive.params.maxDxForward (1, true))).1, ?_⟩
      unfold Naive.step
      simp only [hrel, hcen, Matrix.cons_val_zero, Matrix.cons_val_one, Matrix.cons_val, sub_self, hyaw, hpar, hclamp, zero_mul]
      exact one_mul _
    obtain ⟨x, hx⟩ := hlin
    exact ⟨_, (backNaive.step side ⟨1, ![0, y0, 0]⟩).1.translation, (hz x).1, (hz x).2, Affine.ext hx rfl⟩
  refine ⟨backNaive, ⟨1, ![0, 75 / 1000, 0]⟩, ⟨1, ![0, -75 / 1000, 0]⟩, ?_, ?_, ?_, ?_, ?_⟩
  · unfold Params.Limits; norm_num [backNaive]
  · unfold mirrorNaive backNaive
    simp only [hm]
    norm_num
  · rw [hm]; norm_num
  · rw [hm]; norm_num
  · have e1 : mirrorFrame ⟨1, ![0, -75 / 1000, 0]⟩ = ⟨1, ![0, 75 / 1000, 0]⟩ := by rw [hm]; norm_num
    have e2 : mirrorFrame ⟨1, ![0, 75 / 1000, 0]⟩ = ⟨1, ![0, -75 / 1000, 0]⟩ := by rw [hm]; norm_num
    rw [e1, e2]
    intro h
    obtain ⟨z, v, z0, z1, hz⟩ := hstep .left
    obtain ⟨z', v', z0', z1', hz'⟩ := hstep .right
    have hthird : ∀ (flying : Side) (L R : Affine), (backNaive.plan flying L R)[2]? =
        some (backNaive.turn { left := L, right := R, support := flying.other }).2 := by
      intro flying L R
      unfold Naive.plan
      rw [show backNaive.maxSteps.toNat = 99 + 1 from rfl, Naive.loop]
      rfl
    have hl := congrArg (fun l : List Footstep => l[2]?) h
    simp only [List.getElem?_map, hthird, Option.map_some, Option.some.injEq] at hl
    have hf := congrArg (fun f : Footstep => f.frame.linear 1 0) hl
    simp only [Naive.turn, Side.other, mirrorFoot, Params.createFootstep] at hf
    rw [hz, hz', mirror_rotZ] at hf
    simp only [rotZ, Matrix.of_apply, Matrix.cons_val', Matrix.cons_val_zero, Matrix.cons_val_one, Real.sin_neg] at hf
    have h3 := Real.two_le_pi
    have s1 := Real.sin_pos_of_pos_of_lt_pi z0 (by linarith)
    have s2 := Real.sin_pos_of_pos_of_lt_pi z0' (by linarith)
    linarith

/-! ## Planning from elsewhere -/

/-- A footstep of a robot that is moved by `T`. -/
def movedFoot (T : Affine) (f : Footstep) : Footstep := { f with frame := T.mul f.frame }

/-- The targets of a naive planner, moved by `T`. -/
def movedNaive (T : Affine) (c : Naive) : Naive := { c with targetLeft := T.mul c.targetLeft, targetRight := T.mul c.targetRight }

private theorem oppositeFootstep_moved (p : Params) (T : Affine) (f : Footstep) (x y z : ℝ) :
    p.oppositeFootstep (movedFoot T f) x y z = movedFoot T (p.oppositeFootstep f x y z) := by
  unfold Params.oppositeFootstep movedFoot Params.oppositeFrame rotateZ translate
  cases f.side <;> simp only [mul_assoc']

private theorem corner_moved (T : Affine) (a : ℝ) (hT : Upright T a) (f : Footstep) (m u v : ℝ) :
    corner (movedFoot T f) m u v = ⟨Real.cos a * (corner f m u v).x - Real.sin a * (corner f m u v).y + T.translation 0,
      Real.sin a * (corner f m u v).x + Real.cos a * (corner f m u v).y + T.translation 1⟩ := by
  have l : ∀ i j, (T.mul f.frame).linear i j = T.linear i 0 * f.frame.linear 0 j + T.linear i 1 * f.frame.linear 1 j +
      T.linear i 2 * f.frame.linear 2 j := by
    intro i j; simp [Affine.mul, Matrix.mul_apply, Fin.sum_univ_three]
  have t : ∀ i, (T.mul f.frame).translation i = T.linear i 0 * f.frame.translation 0 + T.linear i 1 * f.frame.translation 1 +
      T.linear i 2 * f.frame.translation 2 + T.translation i := by
    intro i
    show (T.linear.mulVec f.frame.translation + T.translation) i = _
    rw [Pi.add_apply, mulVec_three]
  have e : ∀ i j, T.linear i j = rotZ a i j := fun i j => by rw [hT]
  simp only [corner, planar_eq, movedFoot, l, t, e]
  refine V2.ext ?_ ?_ <;> simp [rotZ] <;> ring

private theorem overlap_moved (T : Affine) (a : ℝ) (hT : Upright T a) (f g : Footstep) (m : ℝ) :
    (movedFoot T f).overlap (movedFoot T g) m = f.overlap g m := by
  obtain ⟨φ, hφ⟩ : ∃ φ : V2 → V2, φ = fun p => ⟨Real.cos a * p.x - Real.sin a * p.y + T.translation 0,
      Real.sin a * p.x + Real.cos a * p.y + T.translation 1⟩ := ⟨_, rfl⟩
  have hcs := Real.sin_sq_add_cos_sq a
  have hcorner : ∀ f u v, corner (movedFoot T f) m u v = φ (corner f m u v) := by
    intro f u v; rw [corner_moved T a hT, hφ]
  have hedge : ∀ p q r, edge (φ p) (φ q) (φ r) = edge p q r := by
    intro p q r
    rw [hφ]
    simp only [edge]
    linear_combination ((q.y - p.y) * (r.x - p.x) - (q.x - p.x) * (r.y - p.y)) * hcs
  have hcont : ∀ f pt, polygonContains ((movedFoot T f).computePolygon m) (φ pt) = .ok true ↔
      polygonContains (f.computePolygon m) pt = .ok true := by
    intro f pt
    rw [polygon_corners, polygon_corners, contains_four, contains_four]
    simp only [hcorner, hedge]
  have key : ∀ f g, (∃ pt, IsCorner (movedFoot T f) m pt ∧ polygonContains ((movedFoot T g).computePolygon m) pt = .ok true) ↔
      ∃ pt, IsCorner f m pt ∧ polygonContains (g.computePolygon m) pt = .ok true := by
    intro f g
    unfold IsCorner
    rw [polygon_corners f, polygon_corners (movedFoot T f)]
    simp only [hcorner, List.mem_cons, List.not_mem_nil, or_false, or_and_right, exists_or, exists_eq_left, hcont]
  exact overlap_congr (key f g) (key g f)

private theorem clipped_moved (p : Params) (c : Clipping) (T : Affine) (a : ℝ) (hT : Upright T a) (f : Footstep) (dx dy dtheta : ℝ) :
    p.clippedOppositeFootstep c (movedFoot T f) dx dy dtheta = (p.clippedOppositeFootstep c f dx dy dtheta).map (movedFoot T) := by
  unfold Params.clippedOppositeFootstep
  rw [show (movedFoot T f).side = f.side from rfl]
  generalize p.clippedStep c f.side dx dy dtheta = s
  generalize 32 = k
  induction k generalizing s with
  | zero => simp only [Params.shrinkLoop, oppositeFootstep_moved, Except.map]
  | succ k ih =>
    rw [Params.shrinkLoop, Params.shrinkLoop]
    simp only [oppositeFootstep_moved, overlap_moved T a hT]
    obtain ⟨b, hb⟩ := overlap_ok (p.oppositeFootstep f s.x s.y s.z) f (1 / 100)
    rw [hb, ih]
    cases b <;> rfl

private theorem repLoop_moved (p : Params) (c : Clipping) (T : Affine) (a : ℝ) (hT : Upright T a) (dx dy dtheta : ℝ) (n : Nat) (f : Footstep) :
    p.repLoop c dx dy dtheta n (movedFoot T f) =
      (p.repLoop c dx dy dtheta n f).map fun r => (movedFoot T r.1, r.2.map (movedFoot T)) := by
  induction n generalizing f with
  | zero => rfl
  | succ n ih =>
    rw [Params.repLoop, Params.repLoop, clipped_moved p c T a hT]
    cases p.clippedOppositeFootstep c f dx dy dtheta with
    | error e => rfl
    | ok g =>
      simp only [Except.map, Bind.bind, Except.bind, ih]
      cases p.repLoop c dx dy dtheta n g with
      | error e => rfl
      | ok r => rfl

private theorem initial_moved (p : Params) (T : Affine) (flying : Side) (L R : Affine) :
    p.initialFootsteps flying (T.mul L) (T.mul R) = (p.initialFootsteps flying L R).map (movedFoot T) := by
  cases flying <;> rfl

/-- **C198.** The repetitive planner plans the same walk wherever the robot is on the floor and wherever it looks: moved by any transform that
keeps the vertical, it plans the moved footsteps. -/
theorem C198_repetitive (p : Params) (c : Clipping) (T : Affine) (a : ℝ) (hT : Upright T a) (dx dy dtheta : ℝ) (nbSteps : Int) (flying : Side)
    (T_left T_right : Affine) :
    p.planRepetitive c dx dy dtheta nbSteps flying (T.mul T_left) (T.mul T_right) =
      (p.planRepetitive c dx dy dtheta nbSteps flying T_left T_right).map (List.map (movedFoot T)) := by
  unfold Params.planRepetitive
  rw [initial_moved]
  generalize hfs : p.initialFootsteps flying T_left T_right = fs
  have : p.repImpl c dx dy dtheta nbSteps (fs.map (movedFoot T)) = (p.repImpl c dx dy dtheta nbSteps fs).map (List.map (movedFoot T)) := by
    unfold Params.repImpl
    have hat : at' (fs.map (movedFoot T)) 1 = (at' fs 1).map (movedFoot T) := by
      rw [← hfs]; cases flying <;> rfl
    rw [hat]
    cases at' fs 1 with
    | error e => rfl
    | ok f =>
      simp only [Except.map, Bind.bind, Except.bind]
      split
      · rw [repLoop_moved p c T a hT]
        cases p.repLoop c dx dy dtheta (nbSteps - 1).toNat f with
        | error e => rfl
        | ok r =>
          simp only [Except.map]
          rw [clipped_moved p c T a hT]
          cases p.clippedOppositeFootstep c r.1 0 0 0 with
          | error e => rfl
          | ok g => simp [Except.map]
      · rfl
  dsimp only
  rw [this]
  cases p.repImpl c dx dy dtheta nbSteps fs with
  | error e => rfl
  | ok more => simp [Except.map, Bind.bind, Except.bind]

private theorem inv_mul_mul {T : Affine} (h : Rigid T) (A B : Affine) : (T.mul A).inv.mul (T.mul B) = A.inv.mul B := by
  have hinv : (T.mul A).inv = A.inv.mul T.inv := by
    have e : (T.linear * A.linear)⁻¹ = A.linear⁻¹ * T.linear⁻¹ := Matrix.mul_inv_rev _ _
    refine Affine.ext e ?_
    show -((T.linear * A.linear)⁻¹.mulVec (T.linear.mulVec A.translation + T.translation)) =
      A.linear⁻¹.mulVec (-(T.linear⁻¹.mulVec T.translation)) + -(A.linear⁻¹.mulVec A.translation)
    rw [e, Matrix.mulVec_add, Matrix.mulVec_mulVec, Matrix.mul_assoc, Matrix.nonsing_inv_mul _ (rot_unit h), Matrix.mul_one,
      Matrix.mulVec_neg, Matrix.mulVec_mulVec, neg_add, add_comm]
  rw [hinv, mul_assoc', ← mul_assoc' T.inv, inv_mul' h, one_mul']

private theorem step_moved (c : Naive) (T : Affine) (h : Rigid T) (support : Side) (A : Affine) :
    (movedNaive T c).step support (T.mul A) = (T.mul (c.step support A).1, (c.step support A).2) := by
  have hrel : (T.mul A).inv.mul ((movedNaive T c).targetOf support) = A.inv.mul (c.targetOf support) := by
    cases support <;> exact inv_mul_mul h _ _
  have hidle : (movedNaive T c).idleY support = c.idleY support := by cases support <;> rfl
  have hpar : (movedNaive T c).params = c.params := rfl
  have hcenter : (T.mul A).inv.linear.mulVec
        (fun i => (movedNaive T c).targetLeft.translation i * (1 - 1 / 2) + (movedNaive T c).targetRight.translation i * (1 / 2)) +
      (T.mul A).inv.translation =
      A.inv.linear.mulVec (fun i => c.targetLeft.translation i * (1 - 1 / 2) + c.targetRight.translation i * (1 / 2)) + A.inv.translation := by
    have e : (fun i => (movedNaive T c).targetLeft.translation i * (1 - 1 / 2) + (movedNaive T c).targetRight.translation i * (1 / 2)) =
        (T.mul ⟨1, fun i => c.targetLeft.translation i * (1 - 1 / 2) + c.targetRight.translation i * (1 / 2)⟩).translation := by
      funext i
      show (T.linear.mulVec c.targetLeft.translation + T.translation) i * (1 - 1 / 2) +
        (T.linear.mulVec c.targetRight.translation + T.translation) i * (1 / 2) =
        (T.linear.mulVec (fun i => c.targetLeft.translation i * (1 - 1 / 2) + c.targetRight.translation i * (1 / 2)) + T.translation) i
      rw [Pi.add_apply, Pi.add_apply, Pi.add_apply, mulVec_three, mulVec_three, mulVec_three]
      ring
    rw [e]
    exact congrArg Affine.translation (inv_mul_mul h A ⟨1, _⟩)
  have hyaw : ∀ d v M, (movedNaive T c).errorYaw d v M = c.errorYaw d v M := fun _ _ _ => rfl
  unfold Naive.step
  simp only [hrel, hidle, hpar, hcenter, hyaw, mul_assoc']

private def movedSt (T : Affine) (s : NaiveSt) : NaiveSt := { s with left := T.mul s.left, right := T.mul s.right }

/-- **C198** for the naive planner: moved with its targets by any rigid transform, it plans the moved footsteps. -/
theorem C198_naive (c : Naive) (T : Affine) (h : Rigid T) (flying : Side) (T_left T_right : Affine) :
    (movedNaive T c).plan flying (T.mul T_left) (T.mul T_right) = (c.plan flying T_left T_right).map (movedFoot T) := by
  have hturn : ∀ s, (movedNaive T c).turn (movedSt T s) = (movedSt T (c.turn s).1, movedFoot T (c.turn s).2) := by
    intro s
    obtain ⟨L, R, side, bl, br⟩ := s
    cases side
    · simp only [Naive.turn, movedSt, step_moved c T h]; rfl
    · simp only [Naive.turn, movedSt, step_moved c T h]; rfl
  have hloop : ∀ n s, (movedNaive T c).loop n (movedSt T s) = (c.loop n s).map (movedFoot T) := by
    intro n
    induction n with
    | zero => intro s; rfl
    | succ n ih =>
      intro s
      rw [Naive.loop, Naive.loop, hturn]
      rw [show ((movedSt T s).leftArrived && (movedSt T s).rightArrived) = (s.leftArrived && s.rightArrived) from rfl]
      split
      · rfl
      · rw [ih, List.map_cons]
  unfold Naive.plan
  rw [show (movedNaive T c).params = c.params from rfl, initial_moved, List.map_append]
  congr 1
  exact hloop c.maxSteps.toNat { left := T_left, right := T_right, support := flying.other }

/-- A transform that meets both hypotheses: a quarter turn and a translation. -/
example : ∃ T : Affine, Upright T (Real.pi / 2) ∧ Rigid T ∧ T ≠ Affine.one := by
  refine ⟨⟨rotZ (Real.pi / 2), ![1, 2, 3]⟩, rfl, rotZ_isRotation _, fun h => ?_⟩
  have := congrFun (congrArg Affine.translation h) 0
  norm_num [Affine.one] at this

end Verif.Humanoid
