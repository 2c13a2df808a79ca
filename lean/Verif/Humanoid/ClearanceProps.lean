/-
How low and how high the swing foot goes, for the three trajectories of the library (C192).
  /repo/src/placo/humanoid/swing_foot.cpp, swing_foot_quintic.cpp, swing_foot_cubic.cpp
-/
import Verif.Humanoid.SwingProps
import Verif.Humanoid.QuinticProps
import Mathlib.Tactic.LinearCombination
import Mathlib.Tactic.Positivity
import Mathlib.Tactic.Linarith
import Mathlib.Tactic.FieldSimp

namespace Verif.Humanoid
open Verif.Tools

/-! ### Two bounds on polynomials -/

section
variable {K : Type} [Field K] [LinearOrder K] [IsStrictOrderedRing K]

/-- A height `h` reached at a quarter and at three quarters, with weights `A` and `B` for the two ends that are nonnegative
outside of the plateau and nonpositive inside. -/
private theorem weighted_bounds (h z0 z1 A B c : K) (h0 : z0 ≤ h) (h1 : z1 ≤ h) (hc : 0 ≤ c)
    (hs : 0 ≤ A ∧ 0 ≤ B ∨ A ≤ 0 ∧ B ≤ 0) (hup : A + B ≤ 1) (hlo : -c ≤ A + B) :
    min z0 z1 ≤ h + (z0 - h) * A + (z1 - h) * B ∧ h + (z0 - h) * A + (z1 - h) * B ≤ h + c * (h - min z0 z1) := by
  have m0 : min z0 z1 ≤ z0 := min_le_left _ _
  have m1 : min z0 z1 ≤ z1 := min_le_right _ _
  have mh : min z0 z1 ≤ h := m0.trans h0
  rcases hs with ⟨hA, hB⟩ | ⟨hA, hB⟩
  · constructor
    · nlinarith [mul_nonneg (sub_nonneg.2 m0) hA, mul_nonneg (sub_nonneg.2 m1) hB, mul_nonneg (sub_nonneg.2 mh) (sub_nonneg.2 hup)]
    · nlinarith [mul_nonneg (sub_nonneg.2 h0) hA, mul_nonneg (sub_nonneg.2 h1) hB, mul_nonneg hc (sub_nonneg.2 mh)]
  · constructor
    · nlinarith [mul_nonneg (sub_nonneg.2 h0) (neg_nonneg.2 hA), mul_nonneg (sub_nonneg.2 h1) (neg_nonneg.2 hB)]
    · have hlo' : 0 ≤ c + (A + B) := by linarith
      nlinarith [mul_nonneg (sub_nonneg.2 m0) (neg_nonneg.2 hA), mul_nonneg (sub_nonneg.2 m1) (neg_nonneg.2 hB),
        mul_nonneg (sub_nonneg.2 mh) hlo']

omit [IsStrictOrderedRing K] in
private theorem quarter_sign (s : K) : 0 ≤ (s - 1 / 4) * (s - 3 / 4) ∨ (s - 1 / 4) * (s - 3 / 4) ≤ 0 := le_total _ _

/-- The share of a swing that is done after the fraction `s` of its duration. -/
def smoothstep (s : K) : K := 3 * s ^ 2 - 2 * s ^ 3

/-- The same for a trajectory whose acceleration also vanishes at the ends. -/
def smootherstep (s : K) : K := 10 * s ^ 3 - 15 * s ^ 4 + 6 * s ^ 5

theorem smoothstep_range (s : K) (h0 : 0 ≤ s) (h1 : s ≤ 1) : 0 ≤ smoothstep s ∧ smoothstep s ≤ 1 := by
  have h1' : 0 ≤ 1 - s := sub_nonneg.2 h1
  constructor
  · have e : smoothstep s = s ^ 2 * (1 + 2 * (1 - s)) := by unfold smoothstep; ring
    rw [e]; positivity
  · have e : 1 - smoothstep s = (1 - s) ^ 2 * (1 + 2 * s) := by unfold smoothstep; ring
    have : 0 ≤ 1 - smoothstep s := by rw [e]; positivity
    linarith

theorem smootherstep_range (s : K) (h0 : 0 ≤ s) (h1 : s ≤ 1) : 0 ≤ smootherstep s ∧ smootherstep s ≤ 1 := by
  have h1' : 0 ≤ 1 - s := sub_nonneg.2 h1
  constructor
  · have e : smootherstep s = s ^ 3 * (1 + 3 * (1 - s) + 6 * (1 - s) ^ 2) := by unfold smootherstep; ring
    rw [e]; positivity
  · have e : 1 - smootherstep s = (1 - s) ^ 3 * (1 + 3 * s + 6 * s ^ 2) := by unfold smootherstep; ring
    have : 0 ≤ 1 - smootherstep s := by rw [e]; positivity
    linarith

/-! ### SwingFoot -/

/-- The whole content of `SwingFoot::make_trajectory`, at the fraction `s` of the swing. -/
theorem swing_shape (tStart tEnd height : K) (start target : Fin 3 → K) (h : tStart < tEnd) (s : K) :
    let p := (SwingFoot.make tStart tEnd height start target).pos (tStart + s * (tEnd - tStart))
    p 0 = start 0 + smoothstep s * (target 0 - start 0) ∧ p 1 = start 1 + smoothstep s * (target 1 - start 1) ∧
    p 2 = height + (start 2 - height) * (16 / 3 * ((s - 1 / 4) * (s - 3 / 4)) * (1 - s)) +
      (target 2 - height) * (16 / 3 * ((s - 1 / 4) * (s - 3 / 4)) * s) := by
  intro p
  obtain ⟨p0, p1, pv, pa, pb⟩ := C88_make tStart tEnd height start target h
  set w := SwingFoot.make tStart tEnd height start target with hw
  have hst : w.tStart = tStart := rfl
  have q0 := fun i => congrFun p0 i
  have q1 := fun i => congrFun p1 i
  have v0 := fun i hi => (pv i hi).1
  have v1 := fun i hi => (pv i hi).2
  simp only [SwingFoot.pos, SwingFoot.vel, hst, sub_self] at q0 q1 v0 v1 pa pb
  have gen : ∀ i : Fin 3, i ≠ 2 → p i = start i + smoothstep s * (target i - start i) := by
    intro i hi
    have a0 := q0 i
    have a1 := q1 i
    have b0 := v0 i hi
    have b1 := v1 i hi
    show w.pos (tStart + s * (tEnd - tStart)) i = _
    simp only [SwingFoot.pos, hst, smoothstep]
    linear_combination (1 - 3 * s ^ 2 + 2 * s ^ 3) * a0 + (3 * s ^ 2 - 2 * s ^ 3) * a1 +
      (tEnd - tStart) * (s - 2 * s ^ 2 + s ^ 3) * b0 + (tEnd - tStart) * (s ^ 3 - s ^ 2) * b1
  refine ⟨gen 0 (by decide), gen 1 (by decide), ?_⟩
  have a0 := q0 2
  have a1 := q1 2
  show w.pos (tStart + s * (tEnd - tStart)) 2 = _
  simp only [SwingFoot.pos, hst]
  linear_combination (16 / 3 * ((s - 1 / 4) * (s - 3 / 4)) * (1 - s)) * a0 + (16 / 3 * ((s - 1 / 4) * (s - 3 / 4)) * s) * a1 +
    (32 / 3 * s * (s - 3 / 4) * (s - 1)) * pa + (-32 / 3 * s * (s - 1 / 4) * (s - 1)) * pb

/-- `SwingFoot`: the foot never goes below the lower end, exceeds the requested height by at most a third of the rise, and
follows the segment between the two ends. -/
theorem C192_swing (tStart tEnd height : K) (start target : Fin 3 → K) (h : tStart < tEnd)
    (h0 : start 2 ≤ height) (h1 : target 2 ≤ height) (t : K) (ht0 : tStart ≤ t) (ht1 : t ≤ tEnd) :
    let p := (SwingFoot.make tStart tEnd height start target).pos t
    min (start 2) (target 2) ≤ p 2 ∧ p 2 ≤ height + 1 / 3 * (height - min (start 2) (target 2)) ∧
    ∃ r, 0 ≤ r ∧ r ≤ 1 ∧ p 0 = start 0 + r * (target 0 - start 0) ∧ p 1 = start 1 + r * (target 1 - start 1) := by
  intro p
  have hT : 0 < tEnd - tStart := sub_pos.2 h
  obtain ⟨s, hs⟩ : ∃ s, t = tStart + s * (tEnd - tStart) := ⟨(t - tStart) / (tEnd - tStart), by field_simp; ring⟩
  have s0 : 0 ≤ s := by
    by_contra c
    nlinarith [not_le.1 c]
  have s1 : s ≤ 1 := by
    by_contra c
    nlinarith [not_le.1 c]
  obtain ⟨e0, e1, e2⟩ := swing_shape tStart tEnd height start target h s
  rw [← hs] at e0 e1 e2
  obtain ⟨r0, r1⟩ := smoothstep_range s s0 s1
  have hb := weighted_bounds height (start 2) (target 2) (16 / 3 * ((s - 1 / 4) * (s - 3 / 4)) * (1 - s))
    (16 / 3 * ((s - 1 / 4) * (s - 3 / 4)) * s) (1 / 3) h0 h1 (by norm_num)
    (by
      have s1' : 0 ≤ 1 - s := sub_nonneg.2 s1
      rcases quarter_sign s with c | c
      · left; constructor <;> positivity
      · right
        constructor
        · exact mul_nonpos_of_nonpos_of_nonneg (by linarith) s1'
        · exact mul_nonpos_of_nonpos_of_nonneg (by linarith) s0)
    (by nlinarith [mul_nonneg s0 (sub_nonneg.2 s1)]) (by nlinarith [sq_nonneg (s - 1 / 2)])
  rw [← e2] at hb
  exact ⟨hb.1, hb.2, _, r0, r1, e0, e1⟩

/-- Half way, it is above the requested height by a third of the mean rise: the bound of `C192_swing` is reached by every
step on a flat ground. -/
theorem C192_swing_middle (tStart tEnd height : K) (start target : Fin 3 → K) (h : tStart < tEnd) :
    (SwingFoot.make tStart tEnd height start target).pos ((tStart + tEnd) / 2) 2 =
      height + 1 / 3 * (height - (start 2 + target 2) / 2) := by
  obtain ⟨-, -, e⟩ := swing_shape tStart tEnd height start target h (1 / 2)
  have ht : tStart + 1 / 2 * (tEnd - tStart) = (tStart + tEnd) / 2 := by ring
  rw [ht] at e
  rw [e]; ring

end

/-! ### SwingFootQuintic -/

/-- The whole content of `SwingFootQuintic::make_trajectory`, at the fraction `s` of the swing. -/
theorem quintic_shape (t0 t1 height : ℝ) (start target : Fin 3 → ℝ) (h : t0 ≠ t1) (q : Quintic ℝ)
    (hq : Quintic.make t0 t1 height start target = some q) (s : ℝ) :
    let p := q.pos (t0 + s * (t1 - t0))
    p 0 = start 0 + smootherstep s * (target 0 - start 0) ∧ p 1 = start 1 + smootherstep s * (target 1 - start 1) ∧
    p 2 = height + (start 2 - height) * (16 / 3 * ((s - 1 / 4) * (s - 3 / 4)) * ((1 - s) ^ 2 * (1 + 22 / 3 * s))) +
      (target 2 - height) * (16 / 3 * ((s - 1 / 4) * (s - 3 / 4)) * (s ^ 2 * (1 + 22 / 3 * (1 - s)))) := by
  intro p
  obtain ⟨q', hq', p0, p1, -, v0, v1, ha, pa, pb⟩ := (C124 t0 t1 height start target).1 h
  rw [hq] at hq'
  obtain rfl := Option.some.inj hq'
  have acc : ∀ i t, HasDerivAt (fun t => q.vel t i) (20 * q.a i * t ^ 3 + 12 * q.b i * t ^ 2 + 6 * q.c i * t + 2 * q.d i) t := by
    intro i t
    have e := (((((hasDerivAt_pow 4 t).const_mul (5 * q.a i)).add ((hasDerivAt_pow 3 t).const_mul (4 * q.b i))).add
      ((hasDerivAt_pow 2 t).const_mul (3 * q.c i))).add ((hasDerivAt_id t).const_mul (2 * q.d i))).add_const (q.e i)
    refine (e.congr_of_eventuallyEq (Filter.Eventually.of_forall fun x => ?_)).congr_deriv ?_
    · simp only [Quintic.vel, Pi.add_apply, id]
      ring
    · simp only [Nat.cast_ofNat]
      ring
  have q0 := fun i => congrFun p0 i
  have q1 := fun i => congrFun p1 i
  have w0 := fun i => congrFun v0 i
  have w1 := fun i => congrFun v1 i
  simp only [Quintic.pos, Quintic.vel, Pi.zero_apply] at q0 q1 w0 w1 pa pb
  have gen : ∀ i : Fin 3, i ≠ 2 → p i = start i + smootherstep s * (target i - start i) := by
    intro i hi
    have a0 := q0 i
    have a1 := q1 i
    have b0 := w0 i
    have b1 := w1 i
    have c0 := (acc i t0).unique (ha i hi).1
    have c1 := (acc i t1).unique (ha i hi).2
    simp only [p, Quintic.pos, smootherstep]
    linear_combination (1 - 10 * s ^ 3 + 15 * s ^ 4 - 6 * s ^ 5) * a0 + (10 * s ^ 3 - 15 * s ^ 4 + 6 * s ^ 5) * a1 +
      (t1 - t0) * (s - 6 * s ^ 3 + 8 * s ^ 4 - 3 * s ^ 5) * b0 + (t1 - t0) * (-4 * s ^ 3 + 7 * s ^ 4 - 3 * s ^ 5) * b1 +
      (t1 - t0) ^ 2 * (1 / 2 * s ^ 2 - 3 / 2 * s ^ 3 + 3 / 2 * s ^ 4 - 1 / 2 * s ^ 5) * c0 +
      (t1 - t0) ^ 2 * (1 / 2 * s ^ 3 - s ^ 4 + 1 / 2 * s ^ 5) * c1
  refine ⟨gen 0 (by decide), gen 1 (by decide), ?_⟩
  have a0 := q0 2
  have a1 := q1 2
  have b0 := w0 2
  have b1 := w1 2
  simp only [p, Quintic.pos]
  linear_combination (16 / 3 * ((s - 1 / 4) * (s - 3 / 4)) * ((1 - s) ^ 2 * (1 + 22 / 3 * s))) * a0 +
    (16 / 3 * ((s - 1 / 4) * (s - 3 / 4)) * (s ^ 2 * (1 + 22 / 3 * (1 - s)))) * a1 +
    (t1 - t0) * (16 / 3 * (s * (1 - s) ^ 2 * ((s - 1 / 4) * (s - 3 / 4)))) * b0 -
    (t1 - t0) * (16 / 3 * (s ^ 2 * (1 - s) * ((s - 1 / 4) * (s - 3 / 4)))) * b1 +
    (512 / 9 * (s ^ 2 * (1 - s) ^ 2 * (3 / 4 - s))) * pa + (512 / 9 * (s ^ 2 * (1 - s) ^ 2 * (s - 1 / 4))) * pb

/-- `SwingFootQuintic`: the same, the excess being at most seven ninths of the rise. -/
theorem C192_quintic (t0 t1 height : ℝ) (start target : Fin 3 → ℝ) (h : t0 < t1) (q : Quintic ℝ)
    (hq : Quintic.make t0 t1 height start target = some q)
    (h0 : start 2 ≤ height) (h1 : target 2 ≤ height) (t : ℝ) (ht0 : t0 ≤ t) (ht1 : t ≤ t1) :
    min (start 2) (target 2) ≤ q.pos t 2 ∧ q.pos t 2 ≤ height + 7 / 9 * (height - min (start 2) (target 2)) ∧
    ∃ r, 0 ≤ r ∧ r ≤ 1 ∧ q.pos t 0 = start 0 + r * (target 0 - start 0) ∧
      q.pos t 1 = start 1 + r * (target 1 - start 1) := by
  have hT : 0 < t1 - t0 := sub_pos.2 h
  obtain ⟨s, hs⟩ : ∃ s, t = t0 + s * (t1 - t0) := ⟨(t - t0) / (t1 - t0), by field_simp; ring⟩
  have s0 : 0 ≤ s := by
    by_contra c
    nlinarith [not_le.1 c]
  have s1 : s ≤ 1 := by
    by_contra c
    nlinarith [not_le.1 c]
  obtain ⟨e0, e1, e2⟩ := quintic_shape t0 t1 height start target h.ne q hq s
  rw [← hs] at e0 e1 e2
  obtain ⟨r0, r1⟩ := smootherstep_range s s0 s1
  have s1' : 0 ≤ 1 - s := sub_nonneg.2 s1
  have hu : 0 ≤ s * (1 - s) := mul_nonneg s0 s1'
  have hu4 : s * (1 - s) ≤ 1 / 4 := by nlinarith [sq_nonneg (s - 1 / 2)]
  have hsum : 16 / 3 * ((s - 1 / 4) * (s - 3 / 4)) * ((1 - s) ^ 2 * (1 + 22 / 3 * s)) +
      16 / 3 * ((s - 1 / 4) * (s - 3 / 4)) * (s ^ 2 * (1 + 22 / 3 * (1 - s))) = 1 - 256 / 9 * (s * (1 - s)) ^ 2 := by ring
  have hb := weighted_bounds height (start 2) (target 2)
    (16 / 3 * ((s - 1 / 4) * (s - 3 / 4)) * ((1 - s) ^ 2 * (1 + 22 / 3 * s)))
    (16 / 3 * ((s - 1 / 4) * (s - 3 / 4)) * (s ^ 2 * (1 + 22 / 3 * (1 - s)))) (7 / 9) h0 h1 (by norm_num)
    (by
      rcases quarter_sign s with c | c
      · left; constructor <;> positivity
      · right
        constructor
        · exact mul_nonpos_of_nonpos_of_nonneg (by linarith) (by positivity)
        · exact mul_nonpos_of_nonpos_of_nonneg (by linarith) (by positivity))
    (by rw [hsum]; nlinarith [sq_nonneg (s * (1 - s))]) (by rw [hsum]; nlinarith)
  rw [← e2] at hb
  exact ⟨hb.1, hb.2, _, r0, r1, e0, e1⟩

/-- Half way, it is above the requested height by seven ninths of the mean rise. -/
theorem C192_quintic_middle (t0 t1 height : ℝ) (start target : Fin 3 → ℝ) (h : t0 < t1) (q : Quintic ℝ)
    (hq : Quintic.make t0 t1 height start target = some q) :
    q.pos ((t0 + t1) / 2) 2 = height + 7 / 9 * (height - (start 2 + target 2) / 2) := by
  obtain ⟨-, -, e⟩ := quintic_shape t0 t1 height start target h.ne q hq (1 / 2)
  have ht : t0 + 1 / 2 * (t1 - t0) = (t0 + t1) / 2 := by ring
  rw [ht] at e
  rw [e]; ring

/-! ### SwingFootCubic -/

section
variable {K : Type} [Field K] [LinearOrder K] [IsStrictOrderedRing K]

omit [IsStrictOrderedRing K] in
/-- A segment of a spline, at the fraction `s` of its duration. -/
theorem spline_shape (p q : SPoint K) (h : p.t < q.t) (s : K) :
    evalSpline (mkSpline p q) (p.t + s * (q.t - p.t)) .value =
      p.x + smoothstep s * (q.x - p.x) + (q.t - p.t) * (p.dx * (s * (1 - s) ^ 2) - q.dx * (s ^ 2 * (1 - s))) := by
  have hh : q.t - p.t ≠ 0 := sub_ne_zero.2 h.ne'
  have e := fit_eq (q.t - p.t) p.x p.dx q.x q.dx hh
  simp only [evalSpline, mkSpline, sub_self]
  rw [e]
  generalize q.t - p.t = T at *
  simp only [polyValue, smoothstep, add_sub_cancel_left]
  field_simp
  ring

/-- A segment between two points where the velocity vanishes stays between them. -/
theorem spline_rest (p q : SPoint K) (h : p.t < q.t) (hp : p.dx = 0) (hq : q.dx = 0) (t : K) (h0 : p.t ≤ t) (h1 : t ≤ q.t) :
    ∃ r, 0 ≤ r ∧ r ≤ 1 ∧ r = smoothstep ((t - p.t) / (q.t - p.t)) ∧ evalSpline (mkSpline p q) t .value = p.x + r * (q.x - p.x) := by
  have hT : 0 < q.t - p.t := sub_pos.2 h
  have e := spline_shape p q h ((t - p.t) / (q.t - p.t))
  have ht : p.t + (t - p.t) / (q.t - p.t) * (q.t - p.t) = t := by field_simp; ring
  rw [ht, hp, hq] at e
  obtain ⟨r0, r1⟩ := smoothstep_range ((t - p.t) / (q.t - p.t)) (div_nonneg (sub_nonneg.2 h0) hT.le)
    ((div_le_one hT).2 (by linarith))
  exact ⟨_, r0, r1, rfl, by rw [e]; ring⟩

/-- `SwingFootCubic`, for a swing planned from its beginning (a foot at rest and nothing elapsed): the foot never goes below the
lower end nor above the requested height, and follows the segment between the two ends. -/
theorem C192_partial (wrap : K → K) (tStart d height rise : K) (start target : Fin 3 → K) (hd : 0 < d) (hr0 : 0 < rise)
    (hr1 : rise < 1) (h0 : start 2 ≤ height) (h1 : target 2 ≤ height) :
    ∃ s : CubicSwing K, CubicSwing.make wrap tStart d height rise start target 0 0 = .ok s ∧
      ∀ t, tStart ≤ t → t ≤ tStart + d → ∃ p, s.read t .value = .ok p ∧
        min (start 2) (target 2) ≤ p 2 ∧ p 2 ≤ height ∧
        ∃ r, 0 ≤ r ∧ r ≤ 1 ∧ p 0 = start 0 + r * (target 0 - start 0) ∧ p 1 = start 1 + r * (target 1 - start 1) := by
  obtain ⟨s, hs, fx, fy, fz⟩ := make_filled wrap tStart d height rise start target 0 0 hd hr0 hr1 one_pos
  refine ⟨s, hs, fun t ht0 ht1 => ?_⟩
  have hte : t ≤ tStart + (1 - 0) * d := by linarith
  have hend : tStart < tStart + (1 - 0) * d := by linarith
  have hdr : 0 < d / 2 * rise := by positivity
  have hdr1 : d / 2 * rise < d / 2 := mul_lt_of_lt_one_right (by positivity) hr1
  have x0 := (filled_read s.x [] _ _ [] fx t ht0 hte).1
  have y0 := (filled_read s.y [] _ _ [] fy t ht0 hte).1
  obtain ⟨r, r0, r1, rd, ex⟩ := spline_rest (K := K) ⟨tStart, start 0, (0 : Fin 3 → K) 0⟩ ⟨tStart + (1 - 0) * d, target 0, 0⟩
    hend rfl rfl t ht0 hte
  obtain ⟨r', -, -, rd', ey⟩ := spline_rest (K := K) ⟨tStart, start 1, (0 : Fin 3 → K) 1⟩ ⟨tStart + (1 - 0) * d, target 1, 0⟩
    hend rfl rfl t ht0 hte
  have rr : r' = r := rd'.trans rd.symm
  subst rr
  rw [ex] at x0
  rw [ey] at y0
  have m0 : min (start 2) (target 2) ≤ start 2 := min_le_left _ _
  have m1 : min (start 2) (target 2) ≤ target 2 := min_le_right _ _
  have hz : ∃ z, (s.z.interpolation t .value).2 = .ok z ∧ min (start 2) (target 2) ≤ z ∧ z ≤ height := by
    rcases fz with ⟨c1, f⟩ | ⟨c1, -, -⟩ | ⟨c2, -⟩
    · rcases le_total t (tStart - 0 * d + d / 2 - d / 2 * rise) with a | a
      · have z0 := (filled_read s.z [] _ _ _ f t ht0 a).1
        obtain ⟨u, u0, u1, -, ez⟩ := spline_rest (K := K) ⟨tStart, start 2, (0 : Fin 3 → K) 2⟩
          ⟨tStart - 0 * d + d / 2 - d / 2 * rise, height, 0⟩ c1 rfl rfl t ht0 a
        rw [ez] at z0
        exact ⟨_, z0, by nlinarith [mul_nonneg u0 (sub_nonneg.2 h0)],
          by nlinarith [mul_nonneg (sub_nonneg.2 u1) (sub_nonneg.2 h0)]⟩
      · rcases le_total t (tStart - 0 * d + d / 2 + d / 2 * rise) with b | b
        · have z0 := (filled_read s.z [_] _ _ [_] f t a b).1
          obtain ⟨u, u0, u1, -, ez⟩ := spline_rest (K := K) ⟨tStart - 0 * d + d / 2 - d / 2 * rise, height, 0⟩
            ⟨tStart - 0 * d + d / 2 + d / 2 * rise, height, 0⟩ (by dsimp only; linarith) rfl rfl t a b
          rw [ez] at z0
          refine ⟨_, z0, ?_, ?_⟩
          · dsimp only
            rw [sub_self, mul_zero, add_zero]
            exact m0.trans h0
          · dsimp only
            rw [sub_self, mul_zero, add_zero]
        · have z0 := (filled_read s.z [_, _] _ _ [] f t b hte).1
          obtain ⟨u, u0, u1, -, ez⟩ := spline_rest (K := K) ⟨tStart - 0 * d + d / 2 + d / 2 * rise, height, 0⟩
            ⟨tStart + (1 - 0) * d, target 2, 0⟩ (by dsimp only; linarith) rfl rfl t b hte
          rw [ez] at z0
          exact ⟨_, z0, by nlinarith [mul_nonneg (sub_nonneg.2 u1) (sub_nonneg.2 h1)],
            by nlinarith [mul_nonneg u0 (sub_nonneg.2 h1)]⟩
    · exact absurd c1 (by linarith)
    · exact absurd c2 (by linarith)
  obtain ⟨z, ez, z1, z2⟩ := hz
  exact ⟨_, read_of s t .value _ _ _ x0 y0 ez, z1, z2, r', r0, r1, rfl, rfl⟩

/-- `SwingFootCubic`, for a swing made again after its plateau, with the height and the velocity of the foot: it stays above the
ground where it lands exactly when it starts above and three times the remaining descent covers what the velocity alone would do
during the remaining time. -/
theorem C192_remade (wrap : K → K) (tStart d height rise el : K) (start target vel : Fin 3 → K) (hd : 0 < d) (hr0 : 0 < rise)
    (hr1 : rise < 1) (hel1 : el < 1) (hpast : tStart - el * d + d * (1 + rise) / 2 ≤ tStart) :
    ∃ s : CubicSwing K, CubicSwing.make wrap tStart d height rise start target el vel = .ok s ∧
      ((∀ t, tStart ≤ t → t ≤ tStart + (1 - el) * d → ∃ p, s.read t .value = .ok p ∧ target 2 ≤ p 2) ↔
        target 2 ≤ start 2 ∧ 0 ≤ 3 * (start 2 - target 2) + (1 - el) * d * vel 2) := by
  obtain ⟨s, hs, fx, fy, fz⟩ := make_filled wrap tStart d height rise start target el vel hd hr0 hr1 hel1
  refine ⟨s, hs, ?_⟩
  have e2 : tStart - el * d + d * (1 + rise) / 2 = tStart - el * d + d / 2 + d / 2 * rise := by ring
  rw [e2] at hpast
  have hdr : 0 < d / 2 * rise := by positivity
  have hR : 0 < (1 - el) * d := mul_pos (sub_pos.2 hel1) hd
  have fz' : Filled s.z [⟨tStart, start 2, vel 2⟩, ⟨tStart + (1 - el) * d, target 2, 0⟩] := by
    rcases fz with ⟨c1, -⟩ | ⟨-, c2, -⟩ | ⟨-, f⟩
    · exact absurd c1 (by linarith)
    · exact absurd c2 (by linarith)
    · exact f
  clear fz
  set R := (1 - el) * d with hRdef
  have hread : ∀ u, 0 ≤ u → u ≤ 1 → ∃ p, s.read (tStart + u * R) .value = .ok p ∧
      p 2 = target 2 + (1 - u) ^ 2 * ((start 2 - target 2) * (1 + 2 * u) + R * vel 2 * u) := by
    intro u u0 u1
    have a0 : tStart ≤ tStart + u * R := by nlinarith
    have a1 : tStart + u * R ≤ tStart + R := by nlinarith
    have x0 := (filled_read s.x [] _ _ [] fx _ a0 a1).1
    have y0 := (filled_read s.y [] _ _ [] fy _ a0 a1).1
    have z0 := (filled_read s.z [] _ _ [] fz' _ a0 a1).1
    have e := spline_shape (K := K) ⟨tStart, start 2, vel 2⟩ ⟨tStart + R, target 2, 0⟩ (by dsimp only; linarith) u
    have e' : tStart + u * (tStart + R - tStart) = tStart + u * R := by ring
    dsimp only at e
    rw [e'] at e
    refine ⟨_, read_of s _ .value _ _ _ x0 y0 z0, ?_⟩
    refine e.trans ?_
    unfold smoothstep
    ring
  constructor
  · intro hall
    have start_above : target 2 ≤ start 2 := by
      obtain ⟨p, hp, hp2⟩ := hread 0 le_rfl zero_le_one
      obtain ⟨p', hp', h'⟩ := hall (tStart + 0 * R) (by linarith) (by linarith)
      rw [hp] at hp'
      obtain rfl := Except.ok.inj hp'
      rw [hp2] at h'
      linarith
    refine ⟨start_above, ?_⟩
    by_contra hneg
    have hneg := not_le.1 hneg
    set A := start 2 - target 2 with hA
    have A0 : 0 ≤ A := sub_nonneg.2 start_above
    set B := 3 * A + R * vel 2 with hB
    have hAB : 0 < A - B := by linarith
    have u0 : 0 ≤ (A - B / 2) / (A - B) := div_nonneg (by linarith) hAB.le
    have u1 : (A - B / 2) / (A - B) < 1 := (div_lt_one hAB).2 (by linarith)
    have hu : (A - B / 2) / (A - B) * (A - B) = A - B / 2 := div_mul_cancel₀ _ hAB.ne'
    set u := (A - B / 2) / (A - B) with hudef
    obtain ⟨p, hp, hp2⟩ := hread u u0 u1.le
    obtain ⟨p', hp', h'⟩ := hall (tStart + u * R) (by nlinarith) (by nlinarith)
    rw [hp] at hp'
    obtain rfl := Except.ok.inj hp'
    have hlin : A * (1 + 2 * u) + R * vel 2 * u = B / 2 := by
      have : R * vel 2 = B - 3 * A := by rw [hB]; ring
      rw [this]
      linear_combination -hu
    rw [hp2, hlin] at h'
    have : 0 < (1 - u) ^ 2 := by
      have : 0 < 1 - u := sub_pos.2 u1
      positivity
    nlinarith
  · rintro ⟨hge, hv⟩ t ht0 ht1
    have u0 : 0 ≤ (t - tStart) / R := div_nonneg (sub_nonneg.2 ht0) hR.le
    have u1 : (t - tStart) / R ≤ 1 := (div_le_one hR).2 (by linarith)
    have ht : tStart + (t - tStart) / R * R = t := by field_simp; ring
    obtain ⟨p, hp, hp2⟩ := hread _ u0 u1
    rw [ht] at hp
    refine ⟨p, hp, ?_⟩
    rw [hp2]
    generalize (t - tStart) / R = u at u0 u1
    have hf : 0 ≤ (start 2 - target 2) * (1 + 2 * u) + R * vel 2 * u := by
      nlinarith [mul_nonneg u0 hv, mul_nonneg (sub_nonneg.2 hge) (sub_nonneg.2 u1)]
    have := mul_nonneg (sq_nonneg (1 - u)) hf
    linarith

end

/-- The two other trajectories exceed the requested height in every step on a flat ground: by a third of the rise and by seven
ninths of it. -/
theorem C192_refuted (t0 t1 height : ℝ) (start target : Fin 3 → ℝ) (h : t0 < t1) (hz : start 2 = target 2) (hh : start 2 < height) :
    (∃ t, t0 ≤ t ∧ t ≤ t1 ∧
      height < (SwingFoot.make t0 t1 height start target).pos t 2 ∧
      (SwingFoot.make t0 t1 height start target).pos t 2 - start 2 = 4 / 3 * (height - start 2)) ∧
    ∃ q, Quintic.make t0 t1 height start target = some q ∧
      ∃ t, t0 ≤ t ∧ t ≤ t1 ∧ height < q.pos t 2 ∧ q.pos t 2 - start 2 = 16 / 9 * (height - start 2) := by
  refine ⟨⟨(t0 + t1) / 2, by linarith, by linarith, ?_⟩, ?_⟩
  · rw [C192_swing_middle t0 t1 height start target h, ← hz]
    exact ⟨by linarith, by ring⟩
  · obtain ⟨q, hq, -⟩ := (C124 t0 t1 height start target).1 h.ne
    refine ⟨q, hq, (t0 + t1) / 2, by linarith, by linarith, ?_⟩
    rw [C192_quintic_middle t0 t1 height start target h q hq, ← hz]
    exact ⟨by linarith, by ring⟩

/-- A step of 8 cm lifting the foot by 5 cm, over 0.4 s. -/
example : (0 : ℝ) < 4 / 10 ∧ (![0, 0, 0] : Fin 3 → ℝ) 2 ≤ 5 / 100 ∧ (![8 / 100, 0, 0] : Fin 3 → ℝ) 2 ≤ 5 / 100 ∧
    (![0, 0, 0] : Fin 3 → ℝ) 2 = (![8 / 100, 0, 0] : Fin 3 → ℝ) 2 := by
  refine ⟨by norm_num, ?_, ?_, ?_⟩ <;> simp [div_nonneg]

/-- Such a step made again after 0.35 s, 1 cm above the ground: it stays above the ground when going down at 0.5 m/s, and not at
0.7 m/s. -/
example : ((35 / 100 : ℝ) - 7 / 8 * (4 / 10) + 4 / 10 * (1 + 1 / 2) / 2 ≤ 35 / 100) ∧
    0 ≤ 3 * ((1 / 100 : ℝ) - 0) + (1 - 7 / 8) * (4 / 10) * (-1 / 2) ∧ ¬ 0 ≤ 3 * ((1 / 100 : ℝ) - 0) + (1 - 7 / 8) * (4 / 10) * (-7 / 10) := by
  norm_num

end Verif.Humanoid
