/-
Properties of the distance, half-spaces and self-collision constraints (C53, C54, C98, C101).
-/
import Verif.Kinematics.ConstraintsProps
import Verif.Kinematics.TasksProps2

namespace Verif.Kinematics
open Finset Verif.Problem Verif.Tools

/-! ## Derivative of a norm -/

theorem norm3_pos_iff (p : V3) : 0 < norm3 p ↔ p ≠ 0 := by
  unfold norm3
  rw [Real.sqrt_pos]
  constructor
  · rintro h rfl; simp at h
  · intro h
    by_contra hn
    apply h
    have h0 : p 0 * p 0 = 0 := by nlinarith [mul_self_nonneg (p 0), mul_self_nonneg (p 1), mul_self_nonneg (p 2)]
    have h1 : p 1 * p 1 = 0 := by nlinarith [mul_self_nonneg (p 0), mul_self_nonneg (p 1), mul_self_nonneg (p 2)]
    have h2 : p 2 * p 2 = 0 := by nlinarith [mul_self_nonneg (p 0), mul_self_nonneg (p 1), mul_self_nonneg (p 2)]
    funext i
    fin_cases i
    · exact mul_self_eq_zero.1 h0
    · exact mul_self_eq_zero.1 h1
    · exact mul_self_eq_zero.1 h2

/-- The curve `c` passes through `p` with velocity `v` at time 0. -/
def Through (c : ℝ → V3) (p v : V3) : Prop := c 0 = p ∧ ∀ k, HasDerivAt (fun t => c t k) (v k) 0

theorem Through.sub {a b : ℝ → V3} {p q v w : V3} (ha : Through a p v) (hb : Through b q w) :
    Through (fun t k => b t k - a t k) (fun k => q k - p k) (fun k => w k - v k) := by
  refine ⟨?_, fun k => (hb.2 k).sub (ha.2 k)⟩
  funext k; show b 0 k - a 0 k = _; rw [ha.1, hb.1]

theorem hasDerivAt_norm3 {c : ℝ → V3} {p v : V3} (h : Through c p v) (hp : p ≠ 0) :
    HasDerivAt (fun t => norm3 (c t)) (dot3 (normalize3 p) v) 0 := by
  have hn := (norm3_pos_iff p).2 hp
  have hsq : HasDerivAt (fun t => c t 0 * c t 0 + c t 1 * c t 1 + c t 2 * c t 2)
      (2 * (p 0 * v 0 + p 1 * v 1 + p 2 * v 2)) 0 := by
    have := (((h.2 0).mul (h.2 0)).add ((h.2 1).mul (h.2 1))).add ((h.2 2).mul (h.2 2))
    refine this.congr_deriv ?_
    rw [h.1]; ring
  have hne : c 0 0 * c 0 0 + c 0 1 * c 0 1 + c 0 2 * c 0 2 ≠ 0 := by
    rw [h.1]
    unfold norm3 at hn
    exact (Real.sqrt_pos.1 hn).ne'
  have := hsq.sqrt hne
  refine this.congr_deriv ?_
  rw [h.1]
  unfold dot3 normalize3
  rw [if_pos hn]
  have hnn : norm3 p ≠ 0 := hn.ne'
  show 2 * (p 0 * v 0 + p 1 * v 1 + p 2 * v 2) / (2 * norm3 p) = p 0 / norm3 p * v 0 + p 1 / norm3 p * v 1 + p 2 / norm3 p * v 2
  field_simp

theorem distanceRow_sum (ab : V3) (Ja Jb : J3) (nv : Nat) (dq : Nat → ℝ) :
    ∑ j ∈ range nv, distanceRow ab Ja Jb j * dq j = dot3 (normalize3 ab) (fun k => jvel nv Jb dq k - jvel nv Ja dq k) := by
  unfold distanceRow dot3 jvel
  simp only [← Finset.sum_sub_distrib]
  rw [Finset.mul_sum, Finset.mul_sum, Finset.mul_sum, ← Finset.sum_add_distrib, ← Finset.sum_add_distrib]
  exact Finset.sum_congr rfl fun j _ => by ring

/-! ## C53, C98 -/

/-- C53, for frames that do not coincide: the constraint holds at a step exactly when the first-order prediction of the distance
(value plus derivative, along any motion of the frames with the velocities `J dq`) is at most
`distance_max`. -/
theorem C53_partial (p : DistanceC) (nv : Nat) (pa pb : RState ℝ → V3) (Ja Jb : RState ℝ → J3) (s : KState ℝ)
    (hne : pa s.robot ≠ pb s.robot) :
    ∃ c, (p.toConstraint nv pa pb Ja Jb).add s = .ok [c] ∧ (c.priority = .hard ↔ p.priority = .hard) ∧ c.weight = p.weight ∧
      c.ty = .inequality ∧ c.expr.cols = nv ∧
      ∀ dq (ca cb : ℝ → V3), Through ca (pa s.robot) (jvel nv (Ja s.robot) dq) →
        Through cb (pb s.robot) (jvel nv (Jb s.robot) dq) →
        ∃ d', HasDerivAt (fun t => norm3 (fun k => cb t k - ca t k)) d' 0 ∧
          (c.Sat dq ↔ norm3 (fun k => cb 0 k - ca 0 k) + d' ≤ p.distanceMax) := by
  unfold DistanceC.toConstraint
  simp only
  generalize he : (⟨1, nv, _, _⟩ : Expr ℝ) = e
  obtain ⟨c, h1, h2, h3, h4⟩ := leDouble_spec e p.distanceMax
  rw [h1]
  refine ⟨_, rfl, configured_hard _ _ _, rfl, h3, ?_, fun dq ca cb hca hcb => ⟨_, hasDerivAt_norm3 (hca.sub hcb) ?_, ?_⟩⟩
  · show c.expr.cols = nv
    rw [h2, ← he]
  · intro h0
    apply hne
    funext k
    have := congrFun h0 k
    simp only [Pi.zero_apply] at this
    linarith
  · rw [configured_sat, h4, hca.1, hcb.1]
    subst he
    simp only [Nat.lt_one_iff, forall_eq, Expr.rowVal, distanceRow_sum]
    rw [add_comm]

/-- C53 is false for coinciding frames: the constraint holds whatever the relative velocity, while the distance grows as fast as the
frames separate. -/
theorem C53_refuted : ∃ (p : DistanceC) (nv : Nat) (pa pb : RState ℝ → V3) (Ja Jb : RState ℝ → J3) (s : KState ℝ) (dq : Nat → ℝ)
    (c : Constr ℝ) (ca cb : ℝ → V3),
    (p.toConstraint nv pa pb Ja Jb).add s = .ok [c] ∧ c.Sat dq ∧
    Through ca (pa s.robot) (jvel nv (Ja s.robot) dq) ∧ Through cb (pb s.robot) (jvel nv (Jb s.robot) dq) ∧
    (∀ t, 0 ≤ t → norm3 (fun k => cb t k - ca t k) = 5 * t) ∧ p.distanceMax = 1 := by
  have h0 : norm3 (fun _ => (0 : ℝ)) = 0 := by simp [norm3]
  let e : Expr ℝ := ⟨1, 1, fun _ j => distanceRow (fun k => (0 : V3) k - (0 : V3) k) (fun _ _ => 0)
    (fun k j => if k = 0 then 1 else 0) j, fun _ => norm3 (fun k => (0 : V3) k - (0 : V3) k)⟩
  obtain ⟨c, h1, -, -, h4⟩ := leDouble_spec e 1
  refine ⟨⟨1, .hard, 1⟩, 1, fun _ => 0, fun _ => 0, fun _ _ _ => 0, fun _ k j => if k = 0 then 1 else 0,
    ⟨⟨fun _ => 0, fun _ => 0, fun _ => 0⟩, (0, []), none, none, [], false, true, false, 0, 0, false⟩, fun _ => 5,
    configured .hard 1 c, fun _ => 0, fun t k => if k = 0 then 5 * t else 0, ?_, ?_, ?_, ?_, ?_, rfl⟩
  · show (do let c ← e.leDouble 1; pure [configured .hard 1 c] : Except Err (List (Constr ℝ))) = _
    rw [h1]; rfl
  · rw [configured_sat, h4]
    intro i _
    have : normalize3 (fun _ => (0 : ℝ)) = fun _ => 0 := by unfold normalize3; rw [h0, if_neg (lt_irrefl _)]
    simp [e, Expr.rowVal, distanceRow, dot3, this, h0]
  · refine ⟨rfl, fun k => ?_⟩
    simp only [jvel, Finset.sum_range_one, zero_mul]
    exact hasDerivAt_const _ _
  · refine ⟨?_, fun k => ?_⟩
    · funext k; simp
    · simp only [jvel, Finset.sum_range_one]
      by_cases hk : k = 0
      · simp only [hk, if_true, one_mul]
        simpa using (hasDerivAt_id (0 : ℝ)).const_mul 5
      · simp only [hk, if_false, zero_mul]
        exact hasDerivAt_const _ _
  · intro t ht
    simp only [norm3, Pi.zero_apply, sub_zero, if_true, one_ne_zero, if_false]
    simp only [show ¬ ((2 : Fin 3) = 0) by decide, if_false, mul_zero, add_zero]
    rw [Real.sqrt_mul_self (by positivity)]

/-- C98: the distance task is met by a step exactly when the first-order prediction of the distance is the
target (for frames that do not coincide). -/
theorem C98 (distance : ℝ) (nv : Nat) (pa pb : RState ℝ → V3) (Ja Jb : RState ℝ → J3) (s : RState ℝ) (hne : pa s ≠ pb s) :
    ∃ M, distanceTask distance nv pa pb Ja Jb s = .ok M ∧
      ∀ dq (ca cb : ℝ → V3), Through ca (pa s) (jvel nv (Ja s) dq) → Through cb (pb s) (jvel nv (Jb s) dq) →
        ∃ d', HasDerivAt (fun t => norm3 (fun k => cb t k - ca t k)) d' 0 ∧
          (M.Met dq ↔ norm3 (fun k => cb 0 k - ca 0 k) + d' = distance) := by
  refine ⟨_, rfl, fun dq ca cb hca hcb => ⟨_, hasDerivAt_norm3 (hca.sub hcb) ?_, ?_⟩⟩
  · intro h0
    apply hne
    funext k
    have := congrFun h0 k
    simp only [Pi.zero_apply] at this
    linarith
  · unfold TaskMat.Met TaskMat.app
    rw [hca.1, hcb.1]
    simp only [Nat.lt_one_iff, forall_eq, distanceRow_sum]
    constructor <;> intro h <;> linarith

/-! ## C54 -/

section
variable {K : Type} [Field K] [LinearOrder K] [IsStrictOrderedRing K]

theorem C54_sizes (p : HalfSpaces K) (r : Robot K) (s : KState K) (h : p.A.rows ≠ p.b.size ∨ p.A.cols ≠ r.nq) :
    (p.toConstraint r).add s = .error .runtimeError := by
  unfold HalfSpaces.toConstraint
  by_cases h1 : p.A.rows = p.b.size
  · simp only [h1, ne_eq, not_true_eq_false, if_false, pure_bind]
    rw [if_pos (h.resolve_left fun h => h h1)]; rfl
  · simp only [ne_eq, h1, not_false_eq_true, if_true]; rfl

/-- C54, for robots whose joints all have one coordinate: matrices of the right size are accepted, and a step satisfies the
constraint exactly when the actuated configuration after the step (`integrate`) satisfies `A q <= b`. The floating base columns
of `A` are ignored. -/
theorem C54_partial (p : HalfSpaces K) (r : Robot K) (hL : r.Layout) (hI : r.IntegrateOK) (hS : ∀ j ∈ r.joints, j.Simple)
    (s : KState K) (h1 : p.A.rows = p.b.size) (h2 : p.A.cols = r.nq) :
    ∃ c, (p.toConstraint r).add s = .ok [c] ∧ (c.priority = .hard ↔ p.priority = .hard) ∧ c.weight = p.weight ∧
      ∀ dq, c.Sat dq ↔ ∀ i, i < p.A.rows →
        (r.joints.map fun j => p.A.m i j.idxQ * r.integrate s.robot.q dq j.idxQ).sum ≤ p.b.v i := by
  have hlen : (r.joints.map (·.nQ)).sum = r.joints.length ∧ (r.joints.map (·.nV)).sum = r.joints.length := by
    have : ∀ l : List Joint, (∀ j ∈ l, j.Simple) → (l.map (·.nQ)).sum = l.length ∧ (l.map (·.nV)).sum = l.length := by
      intro l
      induction l with
      | nil => intro _; exact ⟨rfl, rfl⟩
      | cons j l ih =>
        intro h
        obtain ⟨i1, i2⟩ := ih fun k hk => h k (List.mem_cons_of_mem _ hk)
        obtain ⟨s1, s2⟩ := h j (List.mem_cons_self ..)
        simp only [List.map_cons, List.sum_cons, List.length_cons, i1, i2, s1, s2]
        omega
    exact this _ hS
  have hnq := hL.nq
  have hnv := hL.nv
  have hidx : ∀ k, (hk : k < r.joints.length) → (r.joints[k]).idxQ = 7 + k ∧ (r.joints[k]).idxV = 6 + k := by
    intro k hk
    have hsplit : r.joints = r.joints.take k ++ r.joints[k] :: r.joints.drop (k + 1) := by
      rw [List.getElem_cons_drop, List.take_append_drop]
    obtain ⟨a, b⟩ := hL.idx _ _ _ hsplit
    have : ∀ l : List Joint, (∀ j ∈ l, j.Simple) → (l.map (·.nQ)).sum = l.length ∧ (l.map (·.nV)).sum = l.length := by
      intro l
      induction l with
      | nil => intro _; exact ⟨rfl, rfl⟩
      | cons j l ih =>
        intro h
        obtain ⟨i1, i2⟩ := ih fun k hk => h k (List.mem_cons_of_mem _ hk)
        obtain ⟨s1, s2⟩ := h j (List.mem_cons_self ..)
        simp only [List.map_cons, List.sum_cons, List.length_cons, i1, i2, s1, s2]
        omega
    obtain ⟨t1, t2⟩ := this (r.joints.take k) fun j hj => hS j (List.mem_of_mem_take hj)
    rw [t1, List.length_take, min_eq_left hk.le] at a
    rw [t2, List.length_take, min_eq_left hk.le] at b
    exact ⟨a, b⟩
  unfold HalfSpaces.toConstraint
  simp only [h1, h2, ne_eq, not_true_eq_false, if_false, pure_bind]
  rw [if_neg (by omega)]
  generalize he : (⟨p.b.size, r.nv, _, _⟩ : Expr K) = e
  obtain ⟨c, e1, e2, e3⟩ := leVec_spec e p.b (by rw [← he])
  rw [e1]
  refine ⟨_, rfl, configured_hard _ _ _, rfl, fun dq => ?_⟩
  rw [configured_sat, e3, ← he]
  simp only
  refine forall_congr' fun i => forall_congr' fun hi => ?_
  suffices Expr.rowVal (⟨p.b.size, r.nv, fun i j => if 6 ≤ j then p.A.m i (7 + (j - 6)) else 0,
      fun i => ∑ k ∈ range (r.nv - 6), p.A.m i (7 + k) * s.robot.q (7 + k)⟩ : Expr K) dq i =
      (r.joints.map fun j => p.A.m i j.idxQ * r.integrate s.robot.q dq j.idxQ).sum by rw [this]
  unfold Expr.rowVal
  simp only
  have hN : r.nv = 6 + r.joints.length := by omega
  have hl6 : r.nv - 6 = r.joints.length := by omega
  rw [hl6, hN, Finset.sum_range_add]
  have hz : ∑ x ∈ range 6, (if 6 ≤ x then p.A.m i (7 + (x - 6)) else 0) * dq x = 0 :=
    Finset.sum_eq_zero fun x hx => by
      rw [if_neg (by have := Finset.mem_range.1 hx; omega), zero_mul]
  rw [hz, zero_add, ← Finset.sum_add_distrib, ← Fin.sum_univ_eq_sum_range
    (fun k => (if 6 ≤ 6 + k then p.A.m i (7 + (6 + k - 6)) else 0) * dq (6 + k) + p.A.m i (7 + k) * s.robot.q (7 + k))]
  rw [← Fin.sum_univ_fun_getElem]
  refine Finset.sum_congr rfl fun k _ => ?_
  obtain ⟨q1, q2⟩ := hidx k k.2
  have hm : r.joints[(k : Nat)] ∈ r.joints := List.getElem_mem _
  rw [hI _ hm (hS _ hm).1 (hS _ hm).2, q1, q2, if_pos (by omega), show 6 + (k : Nat) - 6 = k by omega]
  ring

end

/-- C54 is false for a robot with a continuous joint: a matrix of the right size is not accepted (the block
assignment is out of range). -/
theorem C54_refuted : ∃ (r : Robot ℚ) (p : HalfSpaces ℚ) (s : KState ℚ), r.Layout ∧ p.A.rows = p.b.size ∧ p.A.cols = r.nq ∧
    (p.toConstraint r).add s = .error .ub := by
  refine ⟨wheelRobot, ⟨⟨1, 11, fun _ _ => 0⟩, ⟨1, fun _ => 1⟩, .hard, 1⟩,
    ⟨⟨fun _ => 0, fun _ => 0, fun _ => 0⟩, (0, []), none, none, [], false, true, false, 0, 0, false⟩,
    wheelRobot_ok.1, rfl, rfl, rfl⟩

/-! ## C101: self-collisions -/

/-- What the collision library reports of a pair: the distance is the one of the two points, negative if
the bodies interpenetrate. -/
def CollisionPair.Consistent (d : CollisionPair) : Prop :=
  d.minDistance = (if d.minDistance < 0 then -1 else 1) * norm3 (fun k => d.pointB k - d.pointA k)

/-- C101: with pairs not exactly in contact, the constraint holds at a step exactly when, for every pair closer than the
trigger, the first-order prediction of the signed distance of the two points is at least `margin`; farther pairs are
not constrained. -/
theorem C101_partial (p : SelfCollisions) (nv : Nat) (distances : RState ℝ → List CollisionPair) (s : KState ℝ)
    (hc : ∀ d ∈ distances s.robot, d.minDistance < p.trigger → d.Consistent ∧ d.minDistance ≠ 0) :
    ∃ l, (p.toConstraint nv distances).add s = .ok l ∧ (∀ c ∈ l, (c.priority = .soft ↔ p.priority = .soft) ∧ c.weight = p.weight) ∧
      ∀ dq, (∀ c ∈ l, c.Sat dq) ↔ ∀ d ∈ distances s.robot, d.minDistance < p.trigger →
        ∀ ca cb : ℝ → V3, Through ca d.pointA (jvel nv d.JA dq) → Through cb d.pointB (jvel nv d.JB dq) →
        ∃ d', HasDerivAt (fun t => (if d.minDistance < 0 then -1 else 1) * norm3 (fun k => cb t k - ca t k)) d' 0 ∧
          p.margin ≤ d.minDistance + d' := by
  unfold SelfCollisions.toConstraint
  simp only
  set near := (distances s.robot).filter fun d => d.minDistance < p.trigger with hnear
  have hmem : ∀ d, d ∈ near ↔ d ∈ distances s.robot ∧ d.minDistance < p.trigger := by
    intro d; simp [hnear]
  -- the derivative of the signed distance of a pair
  have hder : ∀ d, d ∈ near → ∀ dq (ca cb : ℝ → V3), Through ca d.pointA (jvel nv d.JA dq) → Through cb d.pointB (jvel nv d.JB dq) →
      HasDerivAt (fun t => (if d.minDistance < 0 then -1 else 1) * norm3 (fun k => cb t k - ca t k))
        (∑ j ∈ range nv, dot3 d.normal (fun k => d.JB k j - d.JA k j) * dq j) 0 := by
    intro d hd dq ca cb hca hcb
    obtain ⟨h1, h2⟩ := hc d ((hmem d).1 hd).1 ((hmem d).1 hd).2
    have hne : (fun k => d.pointB k - d.pointA k) ≠ (0 : V3) := by
      intro h0
      apply h2
      rw [h1, h0]; simp [norm3]
    have := (hasDerivAt_norm3 (hca.sub hcb) hne).const_mul (if d.minDistance < 0 then -1 else 1 : ℝ)
    refine this.congr_deriv ?_
    have hrow := distanceRow_sum (fun k => d.pointB k - d.pointA k) d.JA d.JB nv dq
    unfold distanceRow at hrow
    rw [← hrow, Finset.mul_sum]
    refine Finset.sum_congr rfl fun j _ => ?_
    unfold CollisionPair.normal dot3
    by_cases hneg : d.minDistance < 0
    · simp only [if_pos hneg]; ring
    · simp only [if_neg hneg]; ring
  have hcurve : ∀ a v : V3, Through (fun t k => a k + t * v k) a v := by
    intro a v
    refine ⟨by funext k; simp, fun k => ?_⟩
    have := ((hasDerivAt_id (0 : ℝ)).mul_const (v k)).const_add (a k)
    simpa using this
  by_cases h0 : near.length = 0
  · rw [if_pos h0]
    refine ⟨[], rfl, by simp, fun dq => ?_⟩
    simp only [List.not_mem_nil, false_imp_iff, implies_true, true_iff]
    intro d h1 h2
    have : d ∈ near := (hmem d).2 ⟨h1, h2⟩
    rw [List.length_eq_zero_iff] at h0
    rw [h0] at this
    cases this
  · rw [if_neg h0]
    generalize he : (⟨near.length, nv, _, _⟩ : Expr ℝ) = e
    obtain ⟨⟨c, g1, g2⟩, -⟩ := C02_double e 0
    rw [g1]
    refine ⟨_, rfl, ?_, fun dq => ?_⟩
    · intro c' hc'
      simp only [List.mem_singleton] at hc'
      subst hc'
      refine ⟨?_, rfl⟩
      unfold Constr.configureP
      by_cases h : p.priority = .soft <;> simp [h]
    · have hsat : (∀ c' ∈ [c.configureP (if p.priority = .soft then .soft else .hard) p.weight], c'.Sat dq) ↔ c.Sat dq := by
        simp only [List.mem_singleton, forall_eq]; exact Iff.rfl
      rw [hsat, g2]
      have hrow : ∀ i, (hi : i < near.length) → e.rowVal dq i =
          ∑ j ∈ range nv, dot3 near[i].normal (fun k => near[i].JB k j - near[i].JA k j) * dq j + (near[i].minDistance - p.margin) := by
        intro i hi
        subst he
        simp only [Expr.rowVal, List.getElem?_eq_getElem hi, Option.map_some, Option.getD_some]
      have her : e.rows = near.length := by rw [← he]
      simp only [Expr.value, List.mem_map, List.mem_range, her]
      constructor
      · intro h d hd1 hd2 ca cb hca hcb
        have hd := (hmem d).2 ⟨hd1, hd2⟩
        obtain ⟨i, hi, rfl⟩ := List.getElem_of_mem hd
        refine ⟨_, hder _ hd dq ca cb hca hcb, ?_⟩
        have := h _ ⟨i, hi, rfl⟩
        rw [hrow i hi] at this
        linarith
      · rintro h y ⟨i, hi, rfl⟩
        have hd : near[i] ∈ near := List.getElem_mem _
        obtain ⟨d', hd1, hd2⟩ := h near[i] ((hmem _).1 hd).1 ((hmem _).1 hd).2 _ _ (hcurve _ _) (hcurve _ _)
        have := hd1.unique (hder _ hd dq _ _ (hcurve _ _) (hcurve _ _))
        rw [hrow i hi]
        rw [this] at hd2
        linarith

/-- With a pair exactly in contact (distance 0) and a positive margin, the constraint cannot be satisfied by any step. -/
theorem C101_contact (p : SelfCollisions) (nv : Nat) (distances : RState ℝ → List CollisionPair) (s : KState ℝ)
    (d : CollisionPair) (hd : d ∈ distances s.robot) (hz : d.minDistance = 0) (hp : d.pointA = d.pointB)
    (ht : 0 < p.trigger) (hm : 0 < p.margin) :
    ∃ c, (p.toConstraint nv distances).add s = .ok [c] ∧ ∀ dq, ¬ c.Sat dq := by
  unfold SelfCollisions.toConstraint
  simp only
  set near := (distances s.robot).filter fun d => d.minDistance < p.trigger with hnear
  have hmem : d ∈ near := by simp [hnear, hd, hz, ht]
  have h0 : ¬ near.length = 0 := by
    intro h
    rw [List.length_eq_zero_iff] at h
    rw [h] at hmem; cases hmem
  rw [if_neg h0]
  generalize he : (⟨near.length, nv, _, _⟩ : Expr ℝ) = e
  obtain ⟨⟨c, g1, g2⟩, -⟩ := C02_double e 0
  rw [g1]
  refine ⟨_, rfl, fun dq hs => ?_⟩
  have hs : c.Sat dq := hs
  rw [g2] at hs
  obtain ⟨i, hi, hdi⟩ := List.getElem_of_mem hmem
  have h1 := hs (e.rowVal dq i) (by
    simp only [Expr.value, List.mem_map, List.mem_range]
    exact ⟨i, by rw [← he]; exact hi, rfl⟩)
  subst he
  simp only [Expr.rowVal, List.getElem?_eq_getElem hi, Option.map_some, Option.getD_some, hdi] at h1
  have hn : d.normal = fun _ => 0 := by
    unfold CollisionPair.normal
    simp only [hp, sub_self, hz, lt_irrefl, if_false]
    unfold normalize3
    have : norm3 (fun _ => (0 : ℝ)) = 0 := by simp [norm3]
    rw [this, if_neg (lt_irrefl _)]
  simp only [hn, dot3, zero_mul, add_zero, Finset.sum_const_zero, hz] at h1
  linarith

end Verif.Kinematics
