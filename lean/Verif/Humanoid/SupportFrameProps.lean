/-
C137: the frame of a support.  C138: moving supports.
-/
import Verif.Humanoid.Footsteps
import Verif.Robot.SlerpProps

namespace Verif.Humanoid
open Verif.Tools Verif.Robot

/-! ## C137: the frame of a support -/

/-- Specification: the barycentre of the footsteps, on one axis. -/
noncomputable def barycentre (fs : List Footstep) (i : Fin 3) : ℝ := (fs.map fun f => f.frame.translation i).sum / fs.length

theorem frameLoop_translation (slerp : M3 → M3 → ℝ → M3) (i : Fin 3) : ∀ (fs : List Footstep) (f : Affine) (n : Nat), 1 ≤ n →
    (frameLoop slerp f (n + 1) fs).translation i =
      (n * f.translation i + (fs.map fun f => f.frame.translation i).sum) / (n + fs.length : ℝ)
  | [], f, n, hn => by
    have h : (n : ℝ) ≠ 0 := by exact_mod_cast (by omega : n ≠ 0)
    simp only [frameLoop, List.map_nil, List.sum_nil, List.length_nil, Nat.cast_zero]
    field_simp
    ring
  | g :: gs, f, n, hn => by
    unfold frameLoop
    rw [frameLoop_translation slerp i gs _ (n + 1) (by omega)]
    have h : (n : ℝ) + 1 ≠ 0 := by exact_mod_cast (by omega : n + 1 ≠ 0)
    simp only [interpolateFrames, List.map_cons, List.sum_cons, List.length_cons]
    push_cast
    congr 1
    · field_simp
      ring
    · ring

/-- **C137.** A support has a frame as soon as it has a footstep. Its origin is the barycentre of the footsteps, whatever
their number; for one footstep the frame is that of the footstep; for two, the orientation is halfway between theirs. -/
theorem C137 (slerp : M3 → M3 → ℝ → M3) (s : Support) (hs : s.footsteps ≠ []) :
    ∃ F, s.frame slerp = .ok F ∧ (∀ i, F.translation i = barycentre s.footsteps i) ∧
      (∀ f, s.footsteps = [f] → F = f.frame) ∧
      (∀ f g, s.footsteps = [f, g] → F.linear = slerp f.frame.linear g.frame.linear (1 / 2)) := by
  unfold Support.frame
  cases hf : s.footsteps with
  | nil => exact absurd hf hs
  | cons a l =>
    refine ⟨_, rfl, fun i => ?_, ?_, ?_⟩
    · have := frameLoop_translation slerp i l a.frame 1 le_rfl
      rw [this]
      unfold barycentre
      simp only [List.map_cons, List.sum_cons, List.length_cons]
      push_cast
      rw [one_mul, add_comm (1 : ℝ)]
    · intro f h
      obtain ⟨rfl, rfl⟩ := List.cons.inj h
      rfl
    · intro f g h
      obtain ⟨rfl, rfl⟩ := List.cons.inj h
      show slerp _ _ (1 / ((2 : Nat) : ℝ)) = _
      norm_num

/-- **C137 (halfway).** With Eigen's interpolation, the orientation of a double support is the first one turned by half of
the angle that leads to the second one, when they are not almost equal. -/
theorem C137_halfway (eps : ℝ) (he : 0 < eps) (he1 : eps ≤ 1) (s : Support) (f g : Footstep) (hs : s.footsteps = [f, g])
    (hf : IsRotation f.frame.linear) (hg : IsRotation g.frame.linear)
    (hfar : (g.frame.linear * f.frame.linear.transpose).trace < 4 * (1 - eps) ^ 2 - 1) :
    ∃ (F : Affine) (u : V3) (a : ℝ), s.frame (Robot.slerp eps) = .ok F ∧ u 0 * u 0 + u 1 * u 1 + u 2 * u 2 = 1 ∧
      0 ≤ a ∧ a ≤ Real.pi ∧ g.frame.linear = turn u a * f.frame.linear ∧ F.linear = turn u (1 / 2 * a) * f.frame.linear := by
  obtain ⟨F, hF, -, -, h2⟩ := C137 (Robot.slerp eps) s (by rw [hs]; exact List.cons_ne_nil _ _)
  obtain ⟨-, -, u, a, hu, h0, h1, hB, hall, -⟩ := C128 eps he he1 f.frame.linear g.frame.linear hf hg
  exact ⟨F, u, a, hF, hu, h0, h1, hB, by rw [h2 f g hs, hall hfar]⟩

/-- Two feet 0.2 m apart: the frame is in the middle. -/
example (slerp : M3 → M3 → ℝ → M3) (f g : Footstep) (hf : f.frame.translation 1 = 1 / 10) (hg : g.frame.translation 1 = -(1 / 10)) :
    ∃ F, ({ footsteps := [f, g] } : Support).frame slerp = .ok F ∧ F.translation 1 = 0 := by
  obtain ⟨F, hF, h, -⟩ := C137 slerp { footsteps := [f, g] } (List.cons_ne_nil _ _)
  refine ⟨F, hF, ?_⟩
  rw [h 1]
  simp [barycentre, hf, hg]

/-! ## C138: moving supports -/

/-- Specification: the point of the world that has coordinates `p` in the frame. -/
def worldPoint (T : Affine) (p : V3) : V3 := fun i => T.linear i 0 * p 0 + T.linear i 1 * p 1 + T.linear i 2 * p 2 + T.translation i

theorem worldPoint_mul (A B : Affine) (p : V3) : worldPoint (A.mul B) p = worldPoint A (worldPoint B p) := by
  funext i
  simp only [worldPoint, Affine.mul, Matrix.mul_apply, Fin.sum_univ_three, Pi.add_apply, Matrix.mulVec, dotProduct]
  ring

/-- Specification: `s'` is `s` with its footsteps displaced by `φ`, points of the feet included, with the same sides, sizes, times and flags. -/
structure Displaced (φ : V3 → V3) (s s' : Support) : Prop where
  length : s'.footsteps.length = s.footsteps.length
  foot : ∀ (i : Nat) (h : i < s.footsteps.length) (h' : i < s'.footsteps.length),
    (∀ p, worldPoint s'.footsteps[i].frame p = φ (worldPoint s.footsteps[i].frame p)) ∧
    s'.footsteps[i].side = s.footsteps[i].side ∧ s'.footsteps[i].width = s.footsteps[i].width ∧
    s'.footsteps[i].length = s.footsteps[i].length
  times : s'.tStart = s.tStart ∧ s'.elapsedRatio = s.elapsedRatio ∧ s'.timeRatio = s.timeRatio
  flags : s'.start = s.start ∧ s'.isEnd = s.isEnd

/-- **C138.** `T * support` displaces every point of every foot by `T`, `apply_offset(o)` by the translation `o` of the floor;
the sides, sizes, times and flags are kept. Two moves make one. The frame of a side that stands moves with it, and asking for a
side that does not stand raises, before and after. -/
theorem C138 (s : Support) (T U : Affine) (o o' : V2) :
    Displaced (worldPoint T) s (s.moved T) ∧
    Displaced (fun x => ![x 0 + o.x, x 1 + o.y, x 2]) s (s.applyOffset o) ∧
    (s.moved T).moved U = s.moved (U.mul T) ∧
    (s.applyOffset o).applyOffset o' = s.applyOffset ⟨o.x + o'.x, o.y + o'.y⟩ ∧
    (∀ σ, (s.moved T).footstepFrame σ = (s.footstepFrame σ).map T.mul) ∧
    (s.moved T).side = s.side ∧ (s.moved T).isBoth = s.isBoth ∧ (s.applyOffset o).side = s.side := by
  have hpoint : ∀ (f : Footstep) (p : V3), worldPoint (f.moved T).frame p = worldPoint T (worldPoint f.frame p) := by
    intro f p
    exact worldPoint_mul T f.frame p
  have hoff : ∀ (f : Footstep) (p : V3), worldPoint (f.offset o).frame p =
      ![worldPoint f.frame p 0 + o.x, worldPoint f.frame p 1 + o.y, worldPoint f.frame p 2] := by
    intro f p
    funext i
    fin_cases i
    · simp only [worldPoint, Footstep.offset, Fin.zero_eta, Matrix.cons_val_zero]; ring
    · simp only [worldPoint, Footstep.offset, Fin.mk_one, Matrix.cons_val_one, Matrix.cons_val_zero]; ring
    · simp [worldPoint, Footstep.offset]
  refine ⟨⟨?_, fun i h h' => ?_, ⟨rfl, rfl, rfl⟩, rfl, rfl⟩, ⟨?_, fun i h h' => ?_, ⟨rfl, rfl, rfl⟩, rfl, rfl⟩, ?_, ?_, ?_,
    ?_, ?_, ?_⟩
  · simp [Support.moved]
  · simp only [Support.moved, List.getElem_map]
    exact ⟨hpoint _, rfl, rfl, rfl⟩
  · simp [Support.applyOffset]
  · simp only [Support.applyOffset, List.getElem_map]
    exact ⟨hoff _, rfl, rfl, rfl⟩
  · simp only [Support.moved, List.map_map]
    congr 1
    refine List.map_congr_left fun f _ => ?_
    simp only [Function.comp, Footstep.moved, mul_assoc']
  · simp only [Support.applyOffset, List.map_map]
    congr 1
    refine List.map_congr_left fun f _ => ?_
    simp only [Function.comp, Footstep.offset, Matrix.cons_val_zero, Matrix.cons_val_one, add_assoc]
    rfl
  · intro σ
    unfold Support.footstepFrame
    simp only [Support.moved, List.find?_map]
    have : ((fun f : Footstep => decide (f.side = σ)) ∘ fun f : Footstep => f.moved T) = fun f : Footstep => decide (f.side = σ) := rfl
    rw [this]
    cases s.footsteps.find? (fun f => decide (f.side = σ)) <;> rfl
  · unfold Support.side
    simp only [Support.moved, List.length_map]
    cases s.footsteps <;> rfl
  · simp [Support.isBoth, Support.moved]
  · unfold Support.side
    simp only [Support.applyOffset, List.length_map]
    cases s.footsteps <;> rfl

/-- **C138 (side).** `side()` answers for a single support only: the side of its footstep; it raises for two footsteps or more. -/
theorem C138_side (s : Support) :
    (∀ f, s.footsteps = [f] → s.side = .ok f.side ∧ s.isBoth = false) ∧
    (2 ≤ s.footsteps.length → s.side = .error .runtimeError) ∧
    (s.isBoth = true ↔ ∃ f g, s.footsteps = [f, g]) := by
  refine ⟨fun f h => ?_, fun h => ?_, ?_⟩
  · unfold Support.side Support.isBoth
    rw [h]
    exact ⟨rfl, rfl⟩
  · unfold Support.side
    rw [if_pos (by omega)]
  · unfold Support.isBoth
    rw [beq_iff_eq, List.length_eq_two]

/-- A support moved by a quarter of a turn and 1 m to the left: its point `(1, 0, 0)` comes to `(0, 2, 0)`. -/
example : worldPoint ((⟨rotZ (Real.pi / 2), ![0, 1, 0]⟩ : Affine).mul Affine.one) ![1, 0, 0] = ![0, 2, 0] := by
  rw [worldPoint_mul]
  funext i
  fin_cases i <;> simp [worldPoint, Affine.one, rotZ] <;> norm_num

end Verif.Humanoid
