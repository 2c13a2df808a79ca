/-
Properties C87 and C88 of the swing foot trajectories.
-/
import Mathlib.LinearAlgebra.Matrix.Determinant.Basic
import Mathlib.Tactic.Ring
import Mathlib.Tactic.Linarith
import Mathlib.Tactic.FieldSimp
import Mathlib.Tactic.LinearCombination
import Mathlib.Tactic.NormNum
import Mathlib.Tactic.Positivity
import Verif.Humanoid.Swing
import Verif.Tools.CubicSplineProps

namespace Verif.Humanoid
open Verif.Tools

/-! ### C88 -/

section
variable {K : Type} [Field K] [LinearOrder K] [IsStrictOrderedRing K]

/-- Value at `t` of the polynomial with the given coefficients. -/
private def pv (v : Fin 4 → K) (t : K) : K := v 0 * (t * t * t) + v 1 * (t * t) + v 2 * t + v 3
/-- Derivative at `t`. -/
private def pd (v : Fin 4 → K) (t : K) : K := 3 * v 0 * (t * t) + 2 * v 1 * t + v 2

private theorem hermite_det (s e : K) :
    (columns (positionCoefficients s) (positionCoefficients e) (velocityCoefficients s)
      (velocityCoefficients e)).transpose.det = -(e - s) ^ 4 := by
  simp [Matrix.det_succ_row_zero, Fin.sum_univ_succ, columns, positionCoefficients, velocityCoefficients,
    Fin.succAbove]
  ring

private theorem hermite (s e : K) (h : s < e) (r : Fin 4 → K) :
    let v := (columns (positionCoefficients s) (positionCoefficients e) (velocityCoefficients s)
      (velocityCoefficients e)).transpose⁻¹.mulVec r
    pv v s = r 0 ∧ pv v e = r 1 ∧ pd v s = r 2 ∧ pd v e = r 3 := by
  intro v
  have hdet : IsUnit (columns (positionCoefficients s) (positionCoefficients e) (velocityCoefficients s)
      (velocityCoefficients e)).transpose.det := by
    rw [hermite_det, isUnit_iff_ne_zero]
    exact neg_ne_zero.2 (pow_ne_zero _ (sub_ne_zero.2 h.ne'))
  have hv : (columns (positionCoefficients s) (positionCoefficients e) (velocityCoefficients s)
      (velocityCoefficients e)).transpose.mulVec v = r := by
    rw [Matrix.mulVec_mulVec, Matrix.mul_nonsing_inv _ hdet, Matrix.one_mulVec]
  have h0 := congrFun hv 0
  have h1 := congrFun hv 1
  have h2 := congrFun hv 2
  have h3 := congrFun hv 3
  simp [Matrix.mulVec, dotProduct, Fin.sum_univ_four, columns, positionCoefficients,
    velocityCoefficients] at h0 h1 h2 h3
  refine ⟨?_, ?_, ?_, ?_⟩ <;> simp only [pv, pd]
  · rw [← h0]; ring
  · rw [← h1]; ring
  · rw [← h2]; ring
  · rw [← h3]; ring

private theorem lagrange_det (T : K) :
    (columns (positionCoefficients 0) (positionCoefficients (1 / 4 * T)) (positionCoefficients (3 / 4 * T))
      (positionCoefficients T)).transpose.det = 9 / 512 * T ^ 6 := by
  simp [Matrix.det_succ_row_zero, Fin.sum_univ_succ, columns, positionCoefficients, Fin.succAbove]
  ring

private theorem lagrange (T : K) (h : 0 < T) (r : Fin 4 → K) :
    let v := (columns (positionCoefficients 0) (positionCoefficients (1 / 4 * T)) (positionCoefficients (3 / 4 * T))
      (positionCoefficients T)).transpose⁻¹.mulVec r
    pv v 0 = r 0 ∧ pv v (1 / 4 * T) = r 1 ∧ pv v (3 / 4 * T) = r 2 ∧ pv v T = r 3 := by
  intro v
  have hdet : IsUnit (columns (positionCoefficients 0) (positionCoefficients (1 / 4 * T))
      (positionCoefficients (3 / 4 * T)) (positionCoefficients T)).transpose.det := by
    rw [lagrange_det, isUnit_iff_ne_zero]
    positivity
  have hv : (columns (positionCoefficients 0) (positionCoefficients (1 / 4 * T))
      (positionCoefficients (3 / 4 * T)) (positionCoefficients T)).transpose.mulVec v = r := by
    rw [Matrix.mulVec_mulVec, Matrix.mul_nonsing_inv _ hdet, Matrix.one_mulVec]
  have h0 := congrFun hv 0
  have h1 := congrFun hv 1
  have h2 := congrFun hv 2
  have h3 := congrFun hv 3
  simp only [Matrix.mulVec, dotProduct, Fin.sum_univ_four, columns, positionCoefficients,
    Matrix.transpose_apply, Matrix.of_apply, Matrix.cons_val] at h0 h1 h2 h3
  refine ⟨?_, ?_, ?_, ?_⟩ <;> simp only [pv]
  · rw [← h0]; ring
  · rw [← h1]; ring
  · rw [← h2]; ring
  · rw [← h3]; ring

/-- C88, construction: starts at `start`, ends at `target`, at rest horizontally at both
ends, at the requested height at 1/4 and 3/4 of the time. -/
theorem C88_make (tStart tEnd height : K) (start target : Fin 3 → K) (h : tStart < tEnd) :
    let s := SwingFoot.make tStart tEnd height start target
    s.pos tStart = start ∧ s.pos tEnd = target ∧
    (∀ i : Fin 3, i ≠ 2 → s.vel tStart i = 0 ∧ s.vel tEnd i = 0) ∧
    s.pos (tStart + (tEnd - tStart) / 4) 2 = height ∧
    s.pos (tStart + 3 * (tEnd - tStart) / 4) 2 = height := by
  intro s
  have hT : 0 < tEnd - tStart := sub_pos.2 h
  obtain ⟨x0, x1, x2, x3⟩ := hermite 0 (tEnd - tStart) hT ![start 0, target 0, 0, 0]
  obtain ⟨y0, y1, y2, y3⟩ := hermite 0 (tEnd - tStart) hT ![start 1, target 1, 0, 0]
  obtain ⟨z0, z1, z2, z3⟩ := lagrange (tEnd - tStart) hT ![start 2, height, height, target 2]
  have e4 : tStart + (tEnd - tStart) / 4 - tStart = 1 / 4 * (tEnd - tStart) := by ring
  have e34 : tStart + 3 * (tEnd - tStart) / 4 - tStart = 3 / 4 * (tEnd - tStart) := by ring
  refine ⟨?_, ?_, ?_, ?_, ?_⟩
  · funext i
    simp only [SwingFoot.pos, s, SwingFoot.make, sub_self]
    fin_cases i
    · exact x0
    · exact y0
    · exact z0
  · funext i
    simp only [SwingFoot.pos, s, SwingFoot.make]
    fin_cases i
    · exact x1
    · exact y1
    · exact z3
  · intro i hi
    simp only [SwingFoot.vel, s, SwingFoot.make, sub_self]
    fin_cases i
    · exact ⟨x2, x3⟩
    · exact ⟨y2, y3⟩
    · exact absurd rfl hi
  · simp only [SwingFoot.pos, s, SwingFoot.make, e4]
    exact z1
  · simp only [SwingFoot.pos, s, SwingFoot.make, e34]
    exact z2

/-- C88, replanning: for every earlier trajectory and every replanning time before its end,
the horizontal position and velocity at that time are kept and the new target is reached
at rest; the vertical motion and the time range are those of the earlier trajectory. -/
theorem C88_remake (old : SwingFoot K) (t : K) (target : Fin 3 → K) (h : t < old.tEnd) :
    let s := old.remake t target
    s.tStart = old.tStart ∧ s.tEnd = old.tEnd ∧
    (∀ i : Fin 3, i ≠ 2 → s.pos t i = old.pos t i ∧ s.vel t i = old.vel t i ∧
      s.pos old.tEnd i = target i ∧ s.vel old.tEnd i = 0) ∧
    (∀ t', s.pos t' 2 = old.pos t' 2 ∧ s.vel t' 2 = old.vel t' 2) := by
  intro s
  have hT : t - old.tStart < old.tEnd - old.tStart := sub_lt_sub_right h _
  obtain ⟨x0, x1, x2, x3⟩ := hermite _ _ hT ![old.pos t 0, target 0, old.vel t 0, 0]
  obtain ⟨y0, y1, y2, y3⟩ := hermite _ _ hT ![old.pos t 1, target 1, old.vel t 1, 0]
  refine ⟨rfl, rfl, ?_, fun t' => ⟨rfl, rfl⟩⟩
  intro i hi
  fin_cases i
  · exact ⟨x0, x2, x1, x3⟩
  · exact ⟨y0, y2, y1, y3⟩
  · exact absurd rfl hi

/-- The landing height is not replanned: the vertical target is ignored. -/
theorem remake_ignores_height (old : SwingFoot K) (t : K) (target target' : Fin 3 → K)
    (h0 : target 0 = target' 0) (h1 : target 1 = target' 1) : old.remake t target = old.remake t target' := by
  simp only [SwingFoot.remake, h0, h1]

/-! ### C87 -/

/-- The points of a spline being filled. -/
def Filled (s : SplineSt K) (pts : List (SPoint K)) : Prop :=
  s.points = pts ∧ s.dirty = true ∧ s.angular = false ∧ Increasing pts

private theorem filled_first (wrap : K → K) (t x dx : K) :
    ∃ s, (SplineSt.init (K := K) false).addPoint wrap t x dx = .ok s ∧ Filled s [⟨t, x, dx⟩] :=
  ⟨_, rfl, rfl, rfl, rfl, List.pairwise_singleton _ _⟩

private theorem filled_next (wrap : K → K) (s : SplineSt K) (pre : List (SPoint K)) (last : SPoint K) (t x dx : K)
    (h : Filled s (pre ++ [last])) (ht : last.t < t) :
    ∃ s', s.addPoint wrap t x dx = .ok s' ∧ Filled s' ((pre ++ [last]) ++ [⟨t, x, dx⟩]) := by
  obtain ⟨hp, hd, ha, hi⟩ := h
  have hl : s.points.getLast? = some last := by rw [hp]; simp
  refine ⟨{ s with points := s.points ++ [⟨t, x, dx⟩], dirty := true }, ?_, ?_, rfl, ha, ?_⟩
  · unfold SplineSt.addPoint
    rw [hl]
    simp only [ha, not_le.2 ht, Bool.false_eq_true, if_false]
  · show s.points ++ _ = _
    rw [hp]
  · refine List.pairwise_append.2 ⟨hi, List.pairwise_singleton _ _, ?_⟩
    intro a ha' b hb
    rw [List.mem_singleton] at hb
    subst hb
    rcases List.mem_append.1 ha' with hm | hm
    · exact ((List.pairwise_append.1 hi).2.2 a hm last (by simp)).trans ht
    · rw [List.mem_singleton] at hm
      subst hm
      exact ht

private theorem filled_rejects (wrap : K → K) (s : SplineSt K) (pre : List (SPoint K)) (last : SPoint K) (t x dx : K)
    (h : Filled s (pre ++ [last])) (ht : t ≤ last.t) : s.addPoint wrap t x dx = .error .runtimeError := by
  obtain ⟨hp, -, ha, -⟩ := h
  have hl : s.points.getLast? = some last := by rw [hp]; simp
  unfold SplineSt.addPoint
  rw [hl]
  simp only [ha, Bool.false_eq_true, if_false, if_pos ht]

theorem filled_read (s : SplineSt K) (pre : List (SPoint K)) (p q : SPoint K) (post : List (SPoint K))
    (h : Filled s (pre ++ p :: q :: post)) (t : K) (h0 : p.t ≤ t) (h1 : t ≤ q.t) :
    (s.interpolation t .value).2 = .ok (evalSpline (mkSpline p q) t .value) ∧
    (s.interpolation t .speed).2 = .ok (evalSpline (mkSpline p q) t .speed) := by
  obtain ⟨hp, hd, -, hi⟩ := h
  unfold SplineSt.interpolation SplineSt.refresh
  simp only [hd, if_true, hp]
  exact lookup_inside pre p q post hi t h0 h1

theorem flat_spline (p q : SPoint K) (h : p.t < q.t) (hx : q.x = p.x) (hp : p.dx = 0) (hq : q.dx = 0) (t : K) :
    evalSpline (mkSpline p q) t .value = p.x ∧ evalSpline (mkSpline p q) t .speed = 0 := by
  have e := fit_eq (q.t - p.t) p.x p.dx q.x q.dx (sub_ne_zero.2 h.ne')
  simp only [evalSpline, mkSpline, sub_self]
  rw [e, hx, hp, hq]
  simp [polyValue, polyDiff]

variable (wrap : K → K) (tStart d height rise : K) (start target : Fin 3 → K) (el : K) (vel : Fin 3 → K)

/-- The whole content of a trajectory built with `0 < rise_ratio < 1`, `0 ≤ elapsed_ratio < 1`
and a positive duration. -/
theorem make_filled (hd : 0 < d) (hr0 : 0 < rise) (hr1 : rise < 1) (hel1 : el < 1) :
    ∃ s : CubicSwing K, CubicSwing.make wrap tStart d height rise start target el vel = .ok s ∧
      Filled s.x [⟨tStart, start 0, vel 0⟩, ⟨tStart + (1 - el) * d, target 0, 0⟩] ∧
      Filled s.y [⟨tStart, start 1, vel 1⟩, ⟨tStart + (1 - el) * d, target 1, 0⟩] ∧
      ((tStart < tStart - el * d + d / 2 - d / 2 * rise ∧
        Filled s.z [⟨tStart, start 2, vel 2⟩, ⟨tStart - el * d + d / 2 - d / 2 * rise, height, 0⟩,
          ⟨tStart - el * d + d / 2 + d / 2 * rise, height, 0⟩, ⟨tStart + (1 - el) * d, target 2, 0⟩]) ∨
       (tStart - el * d + d / 2 - d / 2 * rise ≤ tStart ∧ tStart < tStart - el * d + d / 2 + d / 2 * rise ∧
        Filled s.z [⟨tStart, start 2, vel 2⟩,
          ⟨tStart - el * d + d / 2 + d / 2 * rise, height, 0⟩, ⟨tStart + (1 - el) * d, target 2, 0⟩]) ∨
       (tStart - el * d + d / 2 + d / 2 * rise ≤ tStart ∧
        Filled s.z [⟨tStart, start 2, vel 2⟩, ⟨tStart + (1 - el) * d, target 2, 0⟩])) := by
  have hend : tStart < tStart + (1 - el) * d := lt_add_of_pos_right _ (mul_pos (sub_pos.2 hel1) hd)
  have hdr : 0 < d / 2 * rise := by positivity
  have hdr1 : d / 2 * rise < d / 2 := mul_lt_of_lt_one_right (by positivity) hr1
  have h12 : tStart - el * d + d / 2 - d / 2 * rise < tStart - el * d + d / 2 + d / 2 * rise := by linarith
  have h2e : tStart - el * d + d / 2 + d / 2 * rise < tStart + (1 - el) * d := by
    have : tStart + (1 - el) * d = tStart - el * d + d / 2 + d / 2 := by ring
    rw [this]; linarith
  obtain ⟨x0, ex0, fx0⟩ := filled_first wrap tStart (start 0) (vel 0)
  obtain ⟨x1, ex1, fx1⟩ := filled_next wrap x0 [] _ (tStart + (1 - el) * d) (target 0) 0 fx0 hend
  obtain ⟨y0, ey0, fy0⟩ := filled_first wrap tStart (start 1) (vel 1)
  obtain ⟨y1, ey1, fy1⟩ := filled_next wrap y0 [] _ (tStart + (1 - el) * d) (target 1) 0 fy0 hend
  obtain ⟨z0, ez0, fz0⟩ := filled_first wrap tStart (start 2) (vel 2)
  have hpl : plateauTimes tStart d rise el
      = [tStart - el * d + d / 2 - d / 2 * rise, tStart - el * d + d / 2 + d / 2 * rise] := by
    simp only [plateauTimes, if_pos hr0]
  by_cases c1 : tStart < tStart - el * d + d / 2 - d / 2 * rise
  · have c2 := c1.trans h12
    obtain ⟨z1, ez1, fz1⟩ := filled_next wrap z0 [] _ _ height 0 fz0 c1
    obtain ⟨z2, ez2, fz2⟩ := filled_next wrap z1 [⟨tStart, start 2, vel 2⟩] _ _ height 0 fz1 h12
    obtain ⟨z3, ez3, fz3⟩ := filled_next wrap z2
      [⟨tStart, start 2, vel 2⟩, ⟨tStart - el * d + d / 2 - d / 2 * rise, height, 0⟩] _ _ (target 2) 0 fz2 h2e
    refine ⟨⟨x1, y1, z3⟩, ?_, fx1, fy1, Or.inl ⟨c1, fz3⟩⟩
    simp only [CubicSwing.make, ex0, ex1, ey0, ey1, ez0, hpl, addPlateau, if_pos c1, if_pos c2, ez1, ez2, ez3,
      bind, Except.bind, pure, Except.pure]
  · by_cases c2 : tStart < tStart - el * d + d / 2 + d / 2 * rise
    · obtain ⟨z2, ez2, fz2⟩ := filled_next wrap z0 [] _ _ height 0 fz0 c2
      obtain ⟨z3, ez3, fz3⟩ := filled_next wrap z2 [⟨tStart, start 2, vel 2⟩] _ _ (target 2) 0 fz2 h2e
      refine ⟨⟨x1, y1, z3⟩, ?_, fx1, fy1, Or.inr (Or.inl ⟨not_lt.1 c1, c2, fz3⟩)⟩
      simp only [CubicSwing.make, ex0, ex1, ey0, ey1, ez0, hpl, addPlateau, if_neg c1, if_pos c2, ez2, ez3,
        bind, Except.bind, pure, Except.pure]
    · obtain ⟨z3, ez3, fz3⟩ := filled_next wrap z0 [] _ _ (target 2) 0 fz0 hend
      refine ⟨⟨x1, y1, z3⟩, ?_, fx1, fy1, Or.inr (Or.inr ⟨not_lt.1 c2, fz3⟩)⟩
      simp only [CubicSwing.make, ex0, ex1, ey0, ey1, ez0, hpl, addPlateau, if_neg c1, if_neg c2, ez3,
        bind, Except.bind, pure, Except.pure]

private theorem read_first (s : SplineSt K) (p q : SPoint K) (post : List (SPoint K))
    (h : Filled s (p :: q :: post)) :
    (s.interpolation p.t .value).2 = .ok p.x ∧ (s.interpolation p.t .speed).2 = .ok p.dx := by
  have hpq : p.t < q.t := (List.pairwise_cons.1 h.2.2.2).1 q (by simp)
  obtain ⟨a, b⟩ := filled_read s [] p q post h p.t le_rfl hpq.le
  obtain ⟨e1, e2, -, -⟩ := mkSpline_ends p q hpq
  rw [e1] at a; rw [e2] at b
  exact ⟨a, b⟩

private theorem read_last (s : SplineSt K) (pre : List (SPoint K)) (p q : SPoint K)
    (h : Filled s (pre ++ [p, q])) :
    (s.interpolation q.t .value).2 = .ok q.x ∧ (s.interpolation q.t .speed).2 = .ok q.dx := by
  have hpq : p.t < q.t :=
    (List.pairwise_cons.1 (List.pairwise_append.1 h.2.2.2).2.1).1 q (by simp)
  obtain ⟨a, b⟩ := filled_read s pre p q [] h q.t hpq.le le_rfl
  obtain ⟨-, -, e1, e2⟩ := mkSpline_ends p q hpq
  rw [e1] at a; rw [e2] at b
  exact ⟨a, b⟩

private theorem vec3 (v : Fin 3 → K) : ![v 0, v 1, v 2] = v := by
  funext i; fin_cases i <;> rfl

theorem read_of (s : CubicSwing K) (t : K) (ty : ValueType) (a b c : K)
    (ha : (s.x.interpolation t ty).2 = .ok a) (hb : (s.y.interpolation t ty).2 = .ok b)
    (hc : (s.z.interpolation t ty).2 = .ok c) : s.read t ty = .ok ![a, b, c] := by
  simp only [CubicSwing.read, ha, hb, hc, bind, Except.bind, pure, Except.pure]

/-- Position and velocity at the two ends, for every admissible ratio. -/
theorem C87_ends (hd : 0 < d) (hr0 : 0 < rise) (hr1 : rise < 1) (hel1 : el < 1) :
    ∃ s : CubicSwing K, CubicSwing.make wrap tStart d height rise start target el vel = .ok s ∧
      s.read tStart .value = .ok start ∧ s.read tStart .speed = .ok vel ∧
      s.read (tStart + (1 - el) * d) .value = .ok target ∧
      s.read (tStart + (1 - el) * d) .speed = .ok 0 := by
  obtain ⟨s, hs, fx, fy, fz⟩ := make_filled wrap tStart d height rise start target el vel hd hr0 hr1 hel1
  refine ⟨s, hs, ?_⟩
  have x0 := read_first s.x _ _ _ fx
  have y0 := read_first s.y _ _ _ fy
  have x1 := read_last s.x [] ⟨tStart, start 0, vel 0⟩ ⟨tStart + (1 - el) * d, target 0, 0⟩ fx
  have y1 := read_last s.y [] ⟨tStart, start 1, vel 1⟩ ⟨tStart + (1 - el) * d, target 1, 0⟩ fy
  have z0 : (s.z.interpolation tStart .value).2 = .ok (start 2) ∧ (s.z.interpolation tStart .speed).2 = .ok (vel 2) := by
    rcases fz with ⟨-, f⟩ | ⟨-, -, f⟩ | ⟨-, f⟩
    · exact read_first s.z ⟨tStart, start 2, vel 2⟩ _ _ f
    · exact read_first s.z ⟨tStart, start 2, vel 2⟩ _ _ f
    · exact read_first s.z ⟨tStart, start 2, vel 2⟩ _ _ f
  have z1 : (s.z.interpolation (tStart + (1 - el) * d) .value).2 = .ok (target 2) ∧
      (s.z.interpolation (tStart + (1 - el) * d) .speed).2 = .ok 0 := by
    rcases fz with ⟨-, f⟩ | ⟨-, -, f⟩ | ⟨-, f⟩
    · exact read_last s.z [⟨tStart, start 2, vel 2⟩, ⟨tStart - el * d + d / 2 - d / 2 * rise, height, 0⟩]
        ⟨tStart - el * d + d / 2 + d / 2 * rise, height, 0⟩ ⟨tStart + (1 - el) * d, target 2, 0⟩ f
    · exact read_last s.z [⟨tStart, start 2, vel 2⟩]
        ⟨tStart - el * d + d / 2 + d / 2 * rise, height, 0⟩ ⟨tStart + (1 - el) * d, target 2, 0⟩ f
    · exact read_last s.z [] ⟨tStart, start 2, vel 2⟩ ⟨tStart + (1 - el) * d, target 2, 0⟩ f
  have hz : (![0, 0, 0] : Fin 3 → K) = 0 := by funext i; fin_cases i <;> rfl
  refine ⟨?_, ?_, ?_, ?_⟩
  · rw [read_of s _ _ _ _ _ x0.1 y0.1 z0.1, vec3]
  · rw [read_of s _ _ _ _ _ x0.2 y0.2 z0.2, vec3]
  · rw [read_of s _ _ _ _ _ x1.1 y1.1 z1.1, vec3]
  · rw [read_of s _ _ _ _ _ x1.2 y1.2 z1.2, hz]

/-- Height on what remains of the plateau. What is missing from C87: when the swing is
(re)started inside the plateau, the foot must already be at rest at the requested height
(`C87_refuted` shows that this is needed). -/
theorem C87_partial (hd : 0 < d) (hr0 : 0 < rise) (hr1 : rise < 1) (hel1 : el < 1)
    (hstart : tStart - el * d + d * (1 - rise) / 2 ≤ tStart → start 2 = height ∧ vel 2 = 0) :
    ∃ s : CubicSwing K, CubicSwing.make wrap tStart d height rise start target el vel = .ok s ∧
      ∀ t, tStart ≤ t → tStart - el * d + d * (1 - rise) / 2 ≤ t → t ≤ tStart - el * d + d * (1 + rise) / 2 →
        ∃ p v, s.read t .value = .ok p ∧ p 2 = height ∧ s.read t .speed = .ok v ∧ v 2 = 0 := by
  obtain ⟨s, hs, fx, fy, fz⟩ := make_filled wrap tStart d height rise start target el vel hd hr0 hr1 hel1
  refine ⟨s, hs, fun t ht0 ht1 ht2 => ?_⟩
  have e1 : tStart - el * d + d * (1 - rise) / 2 = tStart - el * d + d / 2 - d / 2 * rise := by ring
  have e2 : tStart - el * d + d * (1 + rise) / 2 = tStart - el * d + d / 2 + d / 2 * rise := by ring
  rw [e1] at ht1 hstart
  rw [e2] at ht2
  have hdr : 0 < d / 2 * rise := by positivity
  have hdr1 : d / 2 * rise < d / 2 := mul_lt_of_lt_one_right (by positivity) hr1
  have h12 : tStart - el * d + d / 2 - d / 2 * rise < tStart - el * d + d / 2 + d / 2 * rise := by linarith
  have hte : t ≤ tStart + (1 - el) * d := by
    have : tStart + (1 - el) * d = tStart - el * d + d / 2 + d / 2 := by ring
    rw [this]; linarith
  obtain ⟨x0, x1⟩ := filled_read s.x [] _ _ [] fx t ht0 hte
  obtain ⟨y0, y1⟩ := filled_read s.y [] _ _ [] fy t ht0 hte
  have hz : (s.z.interpolation t .value).2 = .ok height ∧ (s.z.interpolation t .speed).2 = .ok 0 := by
    rcases fz with ⟨-, f⟩ | ⟨c1, c2, f⟩ | ⟨c2, f⟩
    · obtain ⟨a, b⟩ := filled_read s.z [_] _ _ [_] f t ht1 ht2
      obtain ⟨g1, g2⟩ := flat_spline (K := K) ⟨tStart - el * d + d / 2 - d / 2 * rise, height, 0⟩
        ⟨tStart - el * d + d / 2 + d / 2 * rise, height, 0⟩ h12 rfl rfl rfl t
      rw [g1] at a; rw [g2] at b
      exact ⟨a, b⟩
    · obtain ⟨hh, hv⟩ := hstart c1
      obtain ⟨a, b⟩ := filled_read s.z [] _ _ [_] f t ht0 ht2
      obtain ⟨g1, g2⟩ := flat_spline (K := K) ⟨tStart, start 2, vel 2⟩
        ⟨tStart - el * d + d / 2 + d / 2 * rise, height, 0⟩ c2 hh.symm hv rfl t
      rw [g1, hh] at a; rw [g2] at b
      exact ⟨a, b⟩
    · -- the plateau is over: only its last instant may remain
      have htt : t = tStart := le_antisymm (ht2.trans c2) ht0
      obtain ⟨hh, hv⟩ := hstart (h12.le.trans c2)
      subst htt
      obtain ⟨a, b⟩ := read_first _ _ _ _ f
      simp only [hh, hv] at a b
      exact ⟨a, b⟩
  refine ⟨_, _, read_of s t .value _ _ _ x0 y0 hz.1, rfl, read_of s t .speed _ _ _ x1 y1 hz.2, rfl⟩

/-- With a height below which nothing forces the foot to be (for instance a foot that has not
risen yet), a swing restarted inside the plateau is not at the requested height. -/
theorem C87_refuted : ∃ s : CubicSwing ℚ,
    CubicSwing.make (fun a => a) 0 2 1 (1 / 2) ![0, 0, 0] ![1, 0, 0] (1 / 2) ![0, 0, 0] = .ok s ∧
    (0 : ℚ) - 1 / 2 * 2 + 2 * (1 - 1 / 2) / 2 ≤ 0 ∧ (0 : ℚ) ≤ 0 - 1 / 2 * 2 + 2 * (1 + 1 / 2) / 2 ∧
    ∃ p, s.read 0 .value = .ok p ∧ p 2 ≠ 1 := by
  obtain ⟨s, hs, h0, -⟩ := C87_ends (K := ℚ) (fun a => a) 0 2 1 (1 / 2) ![0, 0, 0] ![1, 0, 0] (1 / 2) ![0, 0, 0]
    (by norm_num) (by norm_num) (by norm_num) (by norm_num)
  exact ⟨s, hs, by norm_num, by norm_num, _, h0, by simp⟩

/-- Without rise ratio, the foot is at the requested height, at rest vertically, at the
middle of the swing, when the middle is still ahead. -/
theorem swing_peak (hd : 0 < d) (hr0 : rise ≤ 0) (hel : el < 1 / 2) :
    ∃ s : CubicSwing K, CubicSwing.make wrap tStart d height rise start target el vel = .ok s ∧
      (s.z.interpolation (tStart + (1 / 2 - el) * d) .value).2 = .ok height ∧
      (s.z.interpolation (tStart + (1 / 2 - el) * d) .speed).2 = .ok 0 := by
  have hel1 : el < 1 := hel.trans (by norm_num)
  have hend : tStart < tStart + (1 - el) * d := lt_add_of_pos_right _ (mul_pos (sub_pos.2 hel1) hd)
  have em : tStart + (1 / 2 - el) * d = tStart - el * d + d / 2 := by ring
  have c1 : tStart < tStart - el * d + d / 2 := by
    rw [← em]; exact lt_add_of_pos_right _ (mul_pos (sub_pos.2 hel) hd)
  have c2 : tStart - el * d + d / 2 < tStart + (1 - el) * d := by
    have : tStart + (1 - el) * d = tStart - el * d + d / 2 + d / 2 := by ring
    rw [this]; linarith
  obtain ⟨x0, ex0, fx0⟩ := filled_first wrap tStart (start 0) (vel 0)
  obtain ⟨x1, ex1, fx1⟩ := filled_next wrap x0 [] _ (tStart + (1 - el) * d) (target 0) 0 fx0 hend
  obtain ⟨y0, ey0, fy0⟩ := filled_first wrap tStart (start 1) (vel 1)
  obtain ⟨y1, ey1, fy1⟩ := filled_next wrap y0 [] _ (tStart + (1 - el) * d) (target 1) 0 fy0 hend
  obtain ⟨z0, ez0, fz0⟩ := filled_first wrap tStart (start 2) (vel 2)
  obtain ⟨z2, ez2, fz2⟩ := filled_next wrap z0 [] _ _ height 0 fz0 c1
  obtain ⟨z3, ez3, fz3⟩ := filled_next wrap z2 [⟨tStart, start 2, vel 2⟩] _ _ (target 2) 0 fz2 c2
  have hpl : plateauTimes tStart d rise el = [tStart - el * d + d / 2] := by
    simp only [plateauTimes, if_neg (not_lt.2 hr0)]
  refine ⟨⟨x1, y1, z3⟩, ?_, ?_⟩
  · simp only [CubicSwing.make, ex0, ex1, ey0, ey1, ez0, hpl, addPlateau, if_pos c1, ez2, ez3,
      bind, Except.bind, pure, Except.pure]
  · rw [em]
    obtain ⟨a, b⟩ := filled_read z3 [⟨tStart, start 2, vel 2⟩] _ _ [] fz3 (tStart - el * d + d / 2) le_rfl c2.le
    obtain ⟨e1, e2, -, -⟩ := mkSpline_ends (K := K) ⟨tStart - el * d + d / 2, height, 0⟩
      ⟨tStart + (1 - el) * d, target 2, 0⟩ c2
    simp only at e1 e2
    rw [e1] at a; rw [e2] at b
    exact ⟨a, b⟩

/-- A swing with nothing left to do is refused: the last point would not be later than the
first one. -/
theorem swing_finished (hd : 0 ≤ d) (hel : 1 ≤ el) :
    CubicSwing.make wrap tStart d height rise start target el vel = .error .runtimeError := by
  have hend : tStart + (1 - el) * d ≤ tStart := by
    have := mul_nonneg (sub_nonneg.2 hel) hd
    have e : (1 - el) * d = -((el - 1) * d) := by ring
    rw [e]; linarith
  obtain ⟨x0, ex0, fx0⟩ := filled_first wrap tStart (start 0) (vel 0)
  have := filled_rejects wrap x0 [] _ (tStart + (1 - el) * d) (target 0) 0 fx0 hend
  simp only [CubicSwing.make, ex0, this, bind, Except.bind]

end

/-- Hypotheses of C87 met by a swing restarted during its rise. -/
example : ∃ s : CubicSwing ℚ,
    CubicSwing.make (fun a => a) 3 2 1 (1 / 2) ![0, 0, 1 / 3] ![1, 2, 0] (1 / 8) ![1, 0, 2] = .ok s ∧
    s.read 3 .speed = .ok ![1, 0, 2] ∧ s.read (3 + (1 - 1 / 8) * 2) .value = .ok ![1, 2, 0] := by
  obtain ⟨s, h, -, h2, h3, -⟩ := C87_ends (K := ℚ) (fun a => a) 3 2 1 (1 / 2) ![0, 0, 1 / 3] ![1, 2, 0] (1 / 8)
    ![1, 0, 2] (by norm_num) (by norm_num) (by norm_num) (by norm_num)
  exact ⟨s, h, h2, h3⟩

example : ∃ s : CubicSwing ℚ,
    CubicSwing.make (fun a => a) 3 2 1 (1 / 2) ![0, 0, 1 / 3] ![1, 2, 0] (1 / 8) ![1, 0, 2] = .ok s ∧
    ∃ p v, s.read 4 .value = .ok p ∧ p 2 = 1 ∧ s.read 4 .speed = .ok v ∧ v 2 = 0 := by
  obtain ⟨s, h, h2⟩ := C87_partial (K := ℚ) (fun a => a) 3 2 1 (1 / 2) ![0, 0, 1 / 3] ![1, 2, 0] (1 / 8)
    ![1, 0, 2] (by norm_num) (by norm_num) (by norm_num) (by norm_num) (by norm_num)
  exact ⟨s, h, h2 4 (by norm_num) (by norm_num) (by norm_num)⟩

/-- Hypotheses of C88 met by a step and its replanning in mid-flight. -/
example : (SwingFoot.make (K := ℚ) 1 3 (1 / 20) ![0, 0, 0] ![1, 0, 0]).pos 3 = ![1, 0, 0] :=
  (C88_make (K := ℚ) 1 3 (1 / 20) ![0, 0, 0] ![1, 0, 0] (by norm_num)).2.1

example : ((SwingFoot.make (K := ℚ) 1 3 (1 / 20) ![0, 0, 0] ![1, 0, 0]).remake 2 ![2, 1, 0]).pos 3 0 = 2 :=
  ((C88_remake (SwingFoot.make (K := ℚ) 1 3 (1 / 20) ![0, 0, 0] ![1, 0, 0]) 2 ![2, 1, 0]
    (show (2 : ℚ) < 3 by norm_num)).2.2.1 0 (by decide)).2.2.1

end Verif.Humanoid
