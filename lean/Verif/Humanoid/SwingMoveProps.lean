/-
The swing of a foot (SwingFoot) does not depend on when it is, and moves with its points
over the floor, whatever the number of times it is made again.
  /repo/src/placo/humanoid/swing_foot.cpp 27-119
-/
import Mathlib.LinearAlgebra.Matrix.NonsingularInverse
import Mathlib.LinearAlgebra.Matrix.Notation
import Mathlib.Tactic.Ring
import Mathlib.Tactic.FieldSimp
import Mathlib.Tactic.NormNum
import Verif.Humanoid.Swing

namespace Verif.Humanoid
open Verif.Tools

variable {K : Type} [Field K]

/-- A program using swing_foot.cpp 27-102: a swing is made, then made again at some times
toward some targets. -/
noncomputable def swingSession (tStart tEnd height : K) (start target : Fin 3 → K)
    (again : List (K × (Fin 3 → K))) : SwingFoot K :=
  again.foldl (fun s r => s.remake r.1 r.2) (SwingFoot.make tStart tEnd height start target)

/-! ### Specification -/

/-- A vector turned about the vertical, `c` and `s` being the cosine and sine of the angle
(specification only, no code in /repo). -/
def swingTurned (c s : K) (p : Fin 3 → K) : Fin 3 → K := ![c * p 0 - s * p 1, s * p 0 + c * p 1, p 2]

/-- A point turned about the vertical then moved by `m` (specification only, no code in
/repo). -/
def swingPlaced (c s : K) (m p : Fin 3 → K) : Fin 3 → K :=
  ![c * p 0 - s * p 1 + m 0, s * p 0 + c * p 1 + m 1, p 2 + m 2]

/-- The same trajectory, later by `τ` (specification only, no code in /repo). -/
def SwingDelayed (τ : K) (s s' : SwingFoot K) : Prop :=
  s'.tStart = s.tStart + τ ∧ s'.tEnd = s.tEnd + τ ∧
  ∀ t, s'.pos (t + τ) = s.pos t ∧ s'.vel (t + τ) = s.vel t

/-- The same trajectory, placed elsewhere (specification only, no code in /repo). -/
def SwingPlacedAs (c s : K) (m : Fin 3 → K) (w w' : SwingFoot K) : Prop :=
  w'.tStart = w.tStart ∧ w'.tEnd = w.tEnd ∧
  ∀ t, w'.pos t = swingPlaced c s m (w.pos t) ∧ w'.vel t = swingTurned c s (w.vel t)

/-! ### Delay -/

/-- The coefficients are the same, the times later. -/
private structure Later (τ : K) (s s' : SwingFoot K) : Prop where
  tStart : s'.tStart = s.tStart + τ
  tEnd : s'.tEnd = s.tEnd + τ
  a : s'.a = s.a
  b : s'.b = s.b
  c : s'.c = s.c
  d : s'.d = s.d

private theorem Later.pos {τ : K} {s s' : SwingFoot K} (h : Later τ s s') (t : K) :
    s'.pos (t + τ) = s.pos t ∧ s'.vel (t + τ) = s.vel t := by
  have e : t + τ - s'.tStart = t - s.tStart := by rw [h.tStart]; ring
  constructor <;> funext i <;> simp only [SwingFoot.pos, SwingFoot.vel, e, h.a, h.b, h.c, h.d]

private theorem later_make (τ tStart tEnd height : K) (start target : Fin 3 → K) :
    Later τ (SwingFoot.make tStart tEnd height start target)
      (SwingFoot.make (tStart + τ) (tEnd + τ) height start target) := by
  have e : tEnd + τ - (tStart + τ) = tEnd - tStart := by ring
  constructor <;> simp only [SwingFoot.make, e]

private theorem later_remake {τ : K} {s s' : SwingFoot K} (h : Later τ s s') (t : K) (target : Fin 3 → K) :
    Later τ (s.remake t target) (s'.remake (t + τ) target) := by
  have e : t + τ - s'.tStart = t - s.tStart := by rw [h.tStart]; ring
  have e' : s'.tEnd - s'.tStart = s.tEnd - s.tStart := by rw [h.tStart, h.tEnd]; ring
  have p := h.pos t
  constructor <;> simp only [SwingFoot.remake, e, e', p.1, p.2, h.a, h.b, h.c, h.d]
  · exact h.tStart
  · exact h.tEnd

/-- C218: a swing made later, and made again later, is the same one later. -/
theorem C218 (τ tStart tEnd height : K) (start target : Fin 3 → K) (again : List (K × (Fin 3 → K))) :
    SwingDelayed τ (swingSession tStart tEnd height start target again)
      (swingSession (tStart + τ) (tEnd + τ) height start target (again.map fun r => (r.1 + τ, r.2))) := by
  have key : ∀ (l : List (K × (Fin 3 → K))) (s s' : SwingFoot K), Later τ s s' →
      Later τ (l.foldl (fun s r => s.remake r.1 r.2) s)
        ((l.map fun r => (r.1 + τ, r.2)).foldl (fun s r => s.remake r.1 r.2) s') := by
    intro l
    induction l with
    | nil => intro s s' h; exact h
    | cons r l ih => intro s s' h; exact ih _ _ (later_remake h r.1 r.2)
  have h := key again _ _ (later_make τ tStart tEnd height start target)
  exact ⟨h.tStart, h.tEnd, h.pos⟩

/-! ### Translation -/

private theorem swing_det (s e : K) :
    (columns (positionCoefficients s) (positionCoefficients e) (velocityCoefficients s)
      (velocityCoefficients e)).transpose.det = -(e - s) ^ 4 := by
  simp [Matrix.det_succ_row_zero, Fin.sum_univ_succ, columns, positionCoefficients, velocityCoefficients,
    Fin.succAbove]
  ring

/-- Moving both ends moves the constant coefficient only, and the coefficients turn with
the ends. -/
private theorem swing_shift (t e c s x : K) (r r' r'' : Fin 4 → K) (h : t ≠ e)
    (hr : r'' = c • r + s • r' + ![x, x, 0, 0]) :
    (columns (positionCoefficients t) (positionCoefficients e) (velocityCoefficients t)
      (velocityCoefficients e)).transpose⁻¹.mulVec r'' =
    c • (columns (positionCoefficients t) (positionCoefficients e) (velocityCoefficients t)
      (velocityCoefficients e)).transpose⁻¹.mulVec r +
    s • (columns (positionCoefficients t) (positionCoefficients e) (velocityCoefficients t)
      (velocityCoefficients e)).transpose⁻¹.mulVec r' + ![0, 0, 0, x] := by
  have hd := swing_det t e
  have hm : (columns (positionCoefficients t) (positionCoefficients e) (velocityCoefficients t)
      (velocityCoefficients e)).transpose.mulVec ![0, 0, 0, x] = ![x, x, 0, 0] := by
    funext i
    fin_cases i <;>
      simp [Matrix.mulVec, dotProduct, Fin.sum_univ_succ, columns, positionCoefficients, velocityCoefficients]
  generalize (columns (positionCoefficients t) (positionCoefficients e) (velocityCoefficients t)
      (velocityCoefficients e)).transpose = A at hd hm ⊢
  have hu : IsUnit A.det := by
    rw [hd]
    exact (neg_ne_zero.2 (pow_ne_zero 4 (sub_ne_zero.2 (Ne.symm h)))).isUnit
  rw [hr, ← hm, Matrix.mulVec_add, Matrix.mulVec_add, Matrix.mulVec_smul, Matrix.mulVec_smul,
    Matrix.mulVec_mulVec, Matrix.nonsing_inv_mul A hu, Matrix.one_mulVec]

private theorem swing_det_height (T : K) (h2 : (2 : K) ≠ 0) :
    (columns (positionCoefficients 0) (positionCoefficients (1 / 4 * T)) (positionCoefficients (3 / 4 * T))
      (positionCoefficients T)).transpose.det = 9 / 512 * T ^ 6 := by
  have h4 : (4 : K) ≠ 0 := by
    have : (4 : K) = 2 * 2 := by norm_num
    rw [this]; exact mul_ne_zero h2 h2
  have h512 : (512 : K) ≠ 0 := by
    have : (512 : K) = 2 ^ 9 := by norm_num
    rw [this]; exact pow_ne_zero 9 h2
  simp [Matrix.det_succ_row_zero, Fin.sum_univ_succ, columns, positionCoefficients, Fin.succAbove]
  field_simp
  ring

private theorem swing_shift_height [CharZero K] (T z p q r w : K) (h : T ≠ 0) :
    (columns (positionCoefficients 0) (positionCoefficients (1 / 4 * T)) (positionCoefficients (3 / 4 * T))
      (positionCoefficients T)).transpose⁻¹.mulVec ![p + z, q + z, r + z, w + z] =
    (columns (positionCoefficients 0) (positionCoefficients (1 / 4 * T)) (positionCoefficients (3 / 4 * T))
      (positionCoefficients T)).transpose⁻¹.mulVec ![p, q, r, w] + ![0, 0, 0, z] := by
  have hd := swing_det_height T two_ne_zero
  have hm : (columns (positionCoefficients 0) (positionCoefficients (1 / 4 * T)) (positionCoefficients (3 / 4 * T))
      (positionCoefficients T)).transpose.mulVec ![0, 0, 0, z] = ![z, z, z, z] := by
    funext i
    fin_cases i <;>
      simp [Matrix.mulVec, dotProduct, Fin.sum_univ_succ, columns, positionCoefficients]
  generalize (columns (positionCoefficients 0) (positionCoefficients (1 / 4 * T))
      (positionCoefficients (3 / 4 * T)) (positionCoefficients T)).transpose = A at hd hm ⊢
  have hu : IsUnit A.det := by
    rw [hd]
    exact (mul_ne_zero (by norm_num) (pow_ne_zero 6 h)).isUnit
  have e1 : ![p + z, q + z, r + z, w + z] = ![p, q, r, w] + A.mulVec ![0, 0, 0, z] := by
    rw [hm]; funext i; fin_cases i <;> simp
  rw [e1, Matrix.mulVec_add, Matrix.mulVec_mulVec, Matrix.nonsing_inv_mul A hu, Matrix.one_mulVec]

/-- The coefficients turn, and the constant one moves. -/
private structure Moved (c s : K) (m : Fin 3 → K) (w w' : SwingFoot K) : Prop where
  tStart : w'.tStart = w.tStart
  tEnd : w'.tEnd = w.tEnd
  ha : w'.a = swingTurned c s w.a
  hb : w'.b = swingTurned c s w.b
  hc : w'.c = swingTurned c s w.c
  hd : w'.d = swingPlaced c s m w.d

private theorem Moved.pos {c s : K} {m : Fin 3 → K} {w w' : SwingFoot K} (h : Moved c s m w w') (t : K) :
    w'.pos t = swingPlaced c s m (w.pos t) ∧ w'.vel t = swingTurned c s (w.vel t) := by
  constructor
  · funext i
    simp only [SwingFoot.pos, h.tStart, h.ha, h.hb, h.hc, h.hd]
    fin_cases i <;> simp [swingTurned, swingPlaced, SwingFoot.pos] <;> ring
  · funext i
    simp only [SwingFoot.vel, h.tStart, h.ha, h.hb, h.hc]
    fin_cases i <;> simp [swingTurned, SwingFoot.vel] <;> ring

private theorem moved_make [CharZero K] (c s : K) (m : Fin 3 → K) (tStart tEnd height : K)
    (start target : Fin 3 → K) (h : tStart ≠ tEnd) :
    Moved c s m (SwingFoot.make tStart tEnd height start target)
      (SwingFoot.make tStart tEnd (height + m 2) (swingPlaced c s m start) (swingPlaced c s m target)) := by
  have h0 : (0 : K) ≠ tEnd - tStart := (sub_ne_zero.2 (Ne.symm h)).symm
  have e0 := swing_shift 0 (tEnd - tStart) c (-s) (m 0) ![start 0, target 0, 0, 0] ![start 1, target 1, 0, 0]
    ![swingPlaced c s m start 0, swingPlaced c s m target 0, 0, 0] h0
    (by funext i; fin_cases i <;> simp [swingPlaced] <;> ring)
  have e1 := swing_shift 0 (tEnd - tStart) s c (m 1) ![start 0, target 0, 0, 0] ![start 1, target 1, 0, 0]
    ![swingPlaced c s m start 1, swingPlaced c s m target 1, 0, 0] h0
    (by funext i; fin_cases i <;> simp [swingPlaced])
  have e2 := swing_shift_height (tEnd - tStart) (m 2) (start 2) height height (target 2) h0.symm
  have o2 : ∀ p : Fin 3 → K, swingPlaced c s m p 2 = p 2 + m 2 := fun _ => rfl
  constructor <;> simp only [SwingFoot.make, o2, e0, e1, e2] <;> funext i <;> fin_cases i <;>
    simp [swingPlaced, swingTurned] <;> ring

private theorem moved_remake {c s : K} {m : Fin 3 → K} {w w' : SwingFoot K} (h : Moved c s m w w') (t : K)
    (target : Fin 3 → K) (ht : t ≠ w.tEnd) :
    Moved c s m (w.remake t target) (w'.remake t (swingPlaced c s m target)) := by
  have h0 : t - w.tStart ≠ w.tEnd - w.tStart := fun e => ht (sub_left_injective e)
  have p := h.pos t
  have e0 := swing_shift (t - w.tStart) (w.tEnd - w.tStart) c (-s) (m 0) ![w.pos t 0, target 0, w.vel t 0, 0]
    ![w.pos t 1, target 1, w.vel t 1, 0]
    ![swingPlaced c s m (w.pos t) 0, swingPlaced c s m target 0, swingTurned c s (w.vel t) 0, 0] h0
    (by funext i; fin_cases i <;> simp [swingPlaced, swingTurned] <;> ring)
  have e1 := swing_shift (t - w.tStart) (w.tEnd - w.tStart) s c (m 1) ![w.pos t 0, target 0, w.vel t 0, 0]
    ![w.pos t 1, target 1, w.vel t 1, 0]
    ![swingPlaced c s m (w.pos t) 1, swingPlaced c s m target 1, swingTurned c s (w.vel t) 1, 0] h0
    (by funext i; fin_cases i <;> simp [swingPlaced, swingTurned])
  constructor
  · exact h.tStart
  · exact h.tEnd
  all_goals
    simp only [SwingFoot.remake, h.tStart, h.tEnd, p.1, p.2, e0, e1, h.ha, h.hb, h.hc, h.hd]
    funext i
    fin_cases i <;> simp [swingPlaced, swingTurned] <;> ring

/-- C218, placements: a swing whose points are turned about the vertical and moved (its
height moving with them) is turned and moved like them, when it does not start, and is not
made again, at the very time it ends. -/
theorem C218_placed [CharZero K] (c s : K) (m : Fin 3 → K) (tStart tEnd height : K) (start target : Fin 3 → K)
    (again : List (K × (Fin 3 → K))) (h : tStart ≠ tEnd) (ha : ∀ r ∈ again, r.1 ≠ tEnd) :
    SwingPlacedAs c s m (swingSession tStart tEnd height start target again)
      (swingSession tStart tEnd (height + m 2) (swingPlaced c s m start) (swingPlaced c s m target)
        (again.map fun r => (r.1, swingPlaced c s m r.2))) := by
  have key : ∀ (l : List (K × (Fin 3 → K))) (w w' : SwingFoot K), Moved c s m w w' →
      (∀ r ∈ l, r.1 ≠ w.tEnd) →
      Moved c s m (l.foldl (fun s r => s.remake r.1 r.2) w)
        ((l.map fun r => (r.1, swingPlaced c s m r.2)).foldl (fun s r => s.remake r.1 r.2) w') := by
    intro l
    induction l with
    | nil => intro w w' h _; exact h
    | cons r l ih =>
      intro w w' h hl
      exact ih _ _ (moved_remake h r.1 r.2 (hl r List.mem_cons_self))
        (fun q hq => hl q (List.mem_cons_of_mem _ hq))
  have h := key again _ _ (moved_make c s m tStart tEnd height start target h) ha
  exact ⟨h.tStart, h.tEnd, h.pos⟩

/-- C218_placed's hypotheses hold of a swing of one second made again at its middle, turned
by a quarter of a turn and moved. -/
example : SwingPlacedAs (0 : ℚ) 1 ![5, 7, 1] (swingSession 0 1 (1 / 10) ![0, 0, 0] ![1, 0, 0] [(1 / 2, ![2, 1, 0])])
    (swingSession 0 1 (1 / 10 + 1) (swingPlaced 0 1 ![5, 7, 1] ![0, 0, 0]) (swingPlaced 0 1 ![5, 7, 1] ![1, 0, 0])
      [(1 / 2, swingPlaced 0 1 ![5, 7, 1] ![2, 1, 0])]) :=
  C218_placed 0 1 ![5, 7, 1] 0 1 (1 / 10) _ _ [(1 / 2, ![2, 1, 0])] (by norm_num)
    (by intro r hr; simp only [List.mem_singleton] at hr; subst hr; norm_num)

end Verif.Humanoid
