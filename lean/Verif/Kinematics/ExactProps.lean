/-
Exact forms of C53 (distance constraint), C54 (half-spaces) and C101 (self-collisions), in the cases that are left out by the partial
theorems.
-/
import Mathlib.Analysis.Calculus.Deriv.Slope
import Verif.Kinematics.ConstraintsProps2

namespace Verif.Kinematics
open Finset Verif.Problem Verif.Tools

theorem norm3_smul (a : ℝ) (v : V3) (h : 0 ≤ a) : norm3 (fun k => a * v k) = a * norm3 v := by
  unfold norm3
  have : a * v 0 * (a * v 0) + a * v 1 * (a * v 1) + a * v 2 * (a * v 2) = a ^ 2 * (v 0 * v 0 + v 1 * v 1 + v 2 * v 2) := by ring
  rw [this, Real.sqrt_mul (sq_nonneg a), Real.sqrt_sq h]

theorem norm3_zero : norm3 (fun _ => (0 : ℝ)) = 0 := by simp [norm3]

/-- The length of a vector that leaves zero grows at the length of its velocity. -/
theorem norm3_leaves {c : ℝ → V3} {v : V3} (h : Through c (fun _ => 0) v) :
    HasDerivWithinAt (fun t => norm3 (c t)) (norm3 v) (Set.Ici 0) 0 := by
  rw [← hasDerivWithinAt_Ioi_iff_Ici, hasDerivWithinAt_iff_tendsto_slope' (by simp)]
  have hk : ∀ k, Filter.Tendsto (fun t => t⁻¹ * c t k) (nhdsWithin 0 (Set.Ioi 0)) (nhds (v k)) := by
    intro k
    have := (hasDerivWithinAt_iff_tendsto_slope' (s := Set.Ioi (0 : ℝ)) (by simp)).1 (h.2 k).hasDerivWithinAt
    refine this.congr fun t => ?_
    simp only [slope, vsub_eq_sub, sub_zero, smul_eq_mul]
    rw [h.1]; simp
  have hn : Filter.Tendsto (fun t => norm3 (fun k => t⁻¹ * c t k)) (nhdsWithin 0 (Set.Ioi 0)) (nhds (norm3 v)) := by
    unfold norm3
    exact (Real.continuous_sqrt.tendsto _).comp ((((hk 0).mul (hk 0)).add ((hk 1).mul (hk 1))).add ((hk 2).mul (hk 2)))
  refine hn.congr' ?_
  filter_upwards [self_mem_nhdsWithin] with t ht
  have ht : (0 : ℝ) < t := ht
  rw [norm3_smul _ _ (inv_nonneg.2 ht.le)]
  simp only [slope, vsub_eq_sub, sub_zero, smul_eq_mul]
  rw [h.1, norm3_zero, sub_zero]

/-- **C53, exactly, for frames that coincide.** Every step satisfies the constraint as soon as `distance_max` is not negative, whereas
the distance grows at the norm of the relative velocity: its first-order prediction is this norm. -/
theorem C53_exact (p : DistanceC) (nv : Nat) (pa pb : RState ℝ → V3) (Ja Jb : RState ℝ → J3) (s : KState ℝ)
    (he : pa s.robot = pb s.robot) :
    ∃ c, (p.toConstraint nv pa pb Ja Jb).add s = .ok [c] ∧
      ∀ dq (ca cb : ℝ → V3), Through ca (pa s.robot) (jvel nv (Ja s.robot) dq) →
        Through cb (pb s.robot) (jvel nv (Jb s.robot) dq) →
        (c.Sat dq ↔ 0 ≤ p.distanceMax) ∧
        HasDerivWithinAt (fun t => norm3 (fun k => cb t k - ca t k))
          (norm3 fun k => jvel nv (Jb s.robot) dq k - jvel nv (Ja s.robot) dq k) (Set.Ici 0) 0 := by
  have h0 : (fun k => pb s.robot k - pa s.robot k) = fun _ => (0 : ℝ) := by funext k; rw [he]; simp
  unfold DistanceC.toConstraint
  simp only [h0]
  generalize hee : (⟨1, nv, _, _⟩ : Expr ℝ) = e
  obtain ⟨c, h1, h2, h3, h4⟩ := leDouble_spec e p.distanceMax
  rw [h1]
  refine ⟨_, rfl, fun dq ca cb hca hcb => ⟨?_, ?_⟩⟩
  · rw [configured_sat, h4]
    subst hee
    simp only [Nat.lt_one_iff, forall_eq, Expr.rowVal, distanceRow_sum, norm3_zero, add_zero]
    have : normalize3 (fun _ => (0 : ℝ)) = fun _ => 0 := by
      unfold normalize3
      rw [norm3_zero, if_neg (lt_irrefl _)]
    rw [this]
    simp [dot3]
  · have := hca.sub hcb
    rw [h0] at this
    exact norm3_leaves this

/-- **C54, exactly.** With matrices of the right sizes, the constraint is defined if and only if the robot has as many position as
velocity coordinates after its floating base. -/
theorem C54_exact {K : Type} [Field K] [LinearOrder K] [IsStrictOrderedRing K] (p : HalfSpaces K) (r : Robot K) (hL : r.Layout) (s : KState K)
    (h1 : p.A.rows = p.b.size) (h2 : p.A.cols = r.nq) :
    ((∃ l, (p.toConstraint r).add s = .ok l) ↔ (r.joints.map (·.nQ)).sum = (r.joints.map (·.nV)).sum) ∧
    (¬ (∃ l, (p.toConstraint r).add s = .ok l) → (p.toConstraint r).add s = .error .ub) := by
  have hnq := hL.nq
  have hnv := hL.nv
  have key : (r.joints.map (·.nQ)).sum = (r.joints.map (·.nV)).sum ↔ (7 ≤ p.A.cols ∧ 6 ≤ r.nv ∧ p.A.cols - 7 = r.nv - 6) := by
    rw [h2, hnq, hnv]; omega
  by_cases hc : 7 ≤ p.A.cols ∧ 6 ≤ r.nv ∧ p.A.cols - 7 = r.nv - 6
  · have hok : ∃ l, (p.toConstraint r).add s = .ok l := by
      unfold HalfSpaces.toConstraint
      rw [h2] at hc
      simp only [h1, h2, ne_eq, not_true_eq_false, if_false]
      rw [if_neg (not_not.2 hc)]
      generalize he : (⟨p.b.size, r.nv, _, _⟩ : Expr K) = e
      obtain ⟨c, e1, e2, e3⟩ := leVec_spec e p.b (by rw [← he])
      rw [e1]
      exact ⟨_, rfl⟩
    exact ⟨⟨fun _ => key.2 hc, fun _ => hok⟩, fun h => absurd hok h⟩
  · have hub : (p.toConstraint r).add s = .error .ub := by
      unfold HalfSpaces.toConstraint
      simp only [ne_eq, h1, not_true_eq_false, if_false, hc, not_false_eq_true, if_true]
      rw [if_neg (by simp [h2])]
      rfl
    refine ⟨⟨fun ⟨l, hl⟩ => ?_, fun h => absurd (key.1 h) hc⟩, fun _ => hub⟩
    rw [hub] at hl; cases hl

/-- **C101, exactly.** The constraint holds at a step if and only if, among the pairs closer than the trigger, the first-order
prediction of the signed distance is at least `margin` for those that are not exactly in contact, and `margin` is not positive if
there is one in contact. -/
theorem C101_exact (p : SelfCollisions) (nv : Nat) (distances : RState ℝ → List CollisionPair) (s : KState ℝ)
    (hc : ∀ d ∈ distances s.robot, d.minDistance < p.trigger → d.Consistent) :
    ∃ l, (p.toConstraint nv distances).add s = .ok l ∧
      ∀ dq, (∀ c ∈ l, c.Sat dq) ↔ ∀ d ∈ distances s.robot, d.minDistance < p.trigger →
        (d.minDistance = 0 → p.margin ≤ 0) ∧
        (d.minDistance ≠ 0 → ∀ ca cb : ℝ → V3, Through ca d.pointA (jvel nv d.JA dq) → Through cb d.pointB (jvel nv d.JB dq) →
          ∃ d', HasDerivAt (fun t => (if d.minDistance < 0 then -1 else 1) * norm3 (fun k => cb t k - ca t k)) d' 0 ∧
            p.margin ≤ d.minDistance + d') := by
  unfold SelfCollisions.toConstraint
  simp only
  set near := (distances s.robot).filter fun d => d.minDistance < p.trigger with hnear
  have hmem : ∀ d, d ∈ near ↔ d ∈ distances s.robot ∧ d.minDistance < p.trigger := by
    intro d; simp [hnear]
  have hder : ∀ d, d ∈ near → d.minDistance ≠ 0 → ∀ dq (ca cb : ℝ → V3), Through ca d.pointA (jvel nv d.JA dq) →
      Through cb d.pointB (jvel nv d.JB dq) →
      HasDerivAt (fun t => (if d.minDistance < 0 then -1 else 1) * norm3 (fun k => cb t k - ca t k))
        (∑ j ∈ range nv, dot3 d.normal (fun k => d.JB k j - d.JA k j) * dq j) 0 := by
    intro d hd h2 dq ca cb hca hcb
    have h1 := hc d ((hmem d).1 hd).1 ((hmem d).1 hd).2
    have hne : (fun k => d.pointB k - d.pointA k) ≠ (0 : V3) := by
      intro h0
      apply h2
      rw [h1, h0]; simp [norm3]
    have := (hasDerivAt_norm3 (hca.sub hcb) hne).const_mul (if d.minDistance < 0 then -1 else 1 : ℝ)
    refine this.congr_deriv ?_
    have hrow := distanceRow_sum (fun k => d.pointB k - d.pointA k) d.JA d.JB nv dq
    unfold distanceRow at hrow
    rw [← hrow, Finset.mul_sum]
    refine Finset.sum_congr rfl fun j _ => ?_
    unfold CollisionPair.normal dot3
    by_cases hneg : d.minDistance < 0
    · simp only [if_pos hneg]; ring
    · simp only [if_neg hneg]; ring
  have hzero : ∀ d, d ∈ near → d.minDistance = 0 → ∀ dq : Nat → ℝ,
      ∑ j ∈ range nv, dot3 d.normal (fun k => d.JB k j - d.JA k j) * dq j = 0 := by
    intro d hd hz dq
    have h1 := hc d ((hmem d).1 hd).1 ((hmem d).1 hd).2
    unfold CollisionPair.Consistent at h1
    rw [hz, if_neg (lt_irrefl _), one_mul] at h1
    have hp : (fun k => d.pointB k - d.pointA k) = (0 : V3) := by
      by_contra hne
      have := (norm3_pos_iff _).2 hne
      rw [← h1] at this
      exact lt_irrefl _ this
    have hn : d.normal = fun _ => 0 := by
      unfold CollisionPair.normal
      simp only [hz, lt_irrefl, if_false, hp]
      unfold normalize3
      have : norm3 (0 : V3) = 0 := norm3_zero
      rw [this, if_neg (lt_irrefl _)]
      rfl
    exact Finset.sum_eq_zero fun j _ => by rw [hn]; simp [dot3]
  have hcurve : ∀ a v : V3, Through (fun t k => a k + t * v k) a v := by
    intro a v
    refine ⟨by funext k; simp, fun k => ?_⟩
    have := ((hasDerivAt_id (0 : ℝ)).mul_const (v k)).const_add (a k)
    simpa using this
  by_cases h0 : near.length = 0
  · rw [if_pos h0]
    refine ⟨[], rfl, fun dq => ?_⟩
    simp only [List.not_mem_nil, false_imp_iff, implies_true, true_iff]
    intro d h1 h2
    have : d ∈ near := (hmem d).2 ⟨h1, h2⟩
    rw [List.length_eq_zero_iff] at h0
    rw [h0] at this
    cases this
  · rw [if_neg h0]
    generalize he : (⟨near.length, nv, _, _⟩ : Expr ℝ) = e
    obtain ⟨⟨c, g1, g2⟩, -⟩ := C02_double e 0
    rw [g1]
    refine ⟨_, rfl, fun dq => ?_⟩
    have hsat : (∀ c' ∈ [c.configureP (if p.priority = .soft then .soft else .hard) p.weight], c'.Sat dq) ↔ c.Sat dq := by
      simp only [List.mem_singleton, forall_eq]; exact Iff.rfl
    rw [hsat, g2]
    have hrow : ∀ i, (hi : i < near.length) → e.rowVal dq i =
        ∑ j ∈ range nv, dot3 near[i].normal (fun k => near[i].JB k j - near[i].JA k j) * dq j + (near[i].minDistance - p.margin) := by
      intro i hi
      subst he
      simp only [Expr.rowVal, List.getElem?_eq_getElem hi, Option.map_some, Option.getD_some]
    have her : e.rows = near.length := by rw [← he]
    simp only [Expr.value, List.mem_map, List.mem_range, her]
    constructor
    · intro h d hd1 hd2
      have hd := (hmem d).2 ⟨hd1, hd2⟩
      obtain ⟨i, hi, rfl⟩ := List.getElem_of_mem hd
      have hthis := h _ ⟨i, hi, rfl⟩
      rw [hrow i hi] at hthis
      refine ⟨fun hz => ?_, fun hnz ca cb hca hcb => ⟨_, hder _ hd hnz dq ca cb hca hcb, by linarith⟩⟩
      rw [hzero _ hd hz dq, hz] at hthis
      linarith
    · rintro h y ⟨i, hi, rfl⟩
      have hd : near[i] ∈ near := List.getElem_mem _
      obtain ⟨hz, hnz⟩ := h near[i] ((hmem _).1 hd).1 ((hmem _).1 hd).2
      rw [hrow i hi]
      by_cases h00 : near[i].minDistance = 0
      · rw [hzero _ hd h00 dq, h00]
        linarith [hz h00]
      · obtain ⟨d', hd1, hd2⟩ := hnz h00 _ _ (hcurve _ _) (hcurve _ _)
        have := hd1.unique (hder _ hd h00 dq _ _ (hcurve _ _) (hcurve _ _))
        rw [this] at hd2
        linarith

/-- Hypotheses of C101_exact: a pair exactly in contact, reported consistently. -/
example : (⟨fun _ => 1, fun _ => 1, 0, fun _ _ => 1, fun _ _ => 2⟩ : CollisionPair).Consistent := by
  unfold CollisionPair.Consistent
  simp [norm3]

/-- Hypotheses of C54_exact, both cases: a robot with a hinge and the robot with a wheel. -/
example : wheelRobot.Layout ∧ (wheelRobot.joints.map (·.nQ)).sum ≠ (wheelRobot.joints.map (·.nV)).sum :=
  ⟨wheelRobot_ok.1, by decide⟩

end Verif.Kinematics
