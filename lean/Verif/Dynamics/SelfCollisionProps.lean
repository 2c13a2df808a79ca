/-
Property C123: the self-collision constraint of the dynamics solver.
-/
import Mathlib.Analysis.SpecialFunctions.Trigonometric.Deriv
import Verif.Dynamics.FrameTasks
import Verif.Dynamics.OrientationProps
import Verif.Kinematics.ConstraintsProps2

namespace Verif.Dynamics
open Finset Verif.Problem Verif.Tools Verif.Kinematics Verif.Robot
open scoped Topology

/-! ## Specification -/

/-- The curve `c` is the motion, from `p`, of a point fixed to a body: the velocities of the robot are `qd` at time 0, and its
accelerations `x`. The velocity of the body is given, in the world, by its linear velocity `v` at the origin of the world and its
angular velocity `w`; `Lin` and `Ang` are the rows of the world Jacobian of the body, `dLin` and `dAng` the ones of its time
variation. -/
def BodyPoint (N : Nat) (Lin Ang dLin dAng : J3) (qd x : Nat → ℝ) (p : V3) (c : ℝ → V3) : Prop :=
  ∃ v w : ℝ → V3, v 0 = app N Lin qd ∧ w 0 = app N Ang qd ∧
    HasDerivAt v (app N Lin x + app N dLin qd) 0 ∧ HasDerivAt w (app N Ang x + app N dAng qd) 0 ∧
    c 0 = p ∧ ∀ τ, HasDerivAt c (v τ + cross3 (w τ) (c τ)) τ

/-- The two points of a pair move. -/
def DynPair.Moving (d : DynPair) (N : Nat) (qd x : Nat → ℝ) (cA cB : ℝ → V3) : Prop :=
  BodyPoint N d.ALin d.AAng d.dALin d.dAAng qd x d.pointA cA ∧ BodyPoint N d.BLin d.BAng d.dBLin d.dBAng qd x d.pointB cB

/-- The signed distance of the two points. -/
noncomputable def DynPair.dist (d : DynPair) (cA cB : ℝ → V3) (τ : ℝ) : ℝ :=
  (if d.minDistance < 0 then -1 else 1) * norm3 (fun k => cB τ k - cA τ k)

/-- The first and second derivatives, at time 0, of a function. -/
def Rates (f : ℝ → ℝ) (f1 f2 : ℝ) : Prop := ∃ g : ℝ → ℝ, (∀ᶠ τ in 𝓝 0, HasDerivAt f (g τ) τ) ∧ g 0 = f1 ∧ HasDerivAt g f2 0

/-- What the collision library reports of a pair which is not exactly in contact. -/
def DynPair.Consistent (d : DynPair) : Prop :=
  d.minDistance = (if d.minDistance < 0 then -1 else 1) * norm3 (fun k => d.pointB k - d.pointA k) ∧ d.minDistance ≠ 0

/-- Half of the deceleration of the distance that the joints can produce: the joints are those after the floating base, and
`qddSafe` their safe accelerations; `rate k` is the rate of the distance when joint `k` moves at unit velocity. -/
noncomputable def safeDeceleration (N : Nat) (rate qddSafe : Nat → ℝ) : ℝ := (∑ k ∈ Ico 6 N, |rate k| * qddSafe k) / 2

/-- The vector which is `1` at `k`. -/
def unitAt (k : Nat) : Nat → ℝ := fun j => if j = k then 1 else 0

/-! ## The distance of two moving points -/

theorem atPoint_app (N : Nat) (p : V3) (Lin Ang : J3) (x : Nat → ℝ) :
    app N (atPoint p Lin Ang) x = app N Lin x + cross3 (app N Ang x) p := by
  unfold atPoint
  rw [app_plus, app_cross]
  congr 1
  generalize app N Ang x = w
  funext i; fin_cases i <;> simp [cross3] <;> ring

/-- Velocity and acceleration of a point fixed to a body. -/
theorem BodyPoint.acc {N : Nat} {Lin Ang dLin dAng : J3} {qd x : Nat → ℝ} {p : V3} {c : ℝ → V3}
    (h : BodyPoint N Lin Ang dLin dAng qd x p c) :
    ∃ u : ℝ → V3, (∀ τ, HasDerivAt c (u τ) τ) ∧ c 0 = p ∧ u 0 = app N (atPoint p Lin Ang) qd ∧
      HasDerivAt u (app N (atPoint p Lin Ang) x + app N (atPoint p dLin dAng) qd +
        cross3 (app N Ang qd) (app N (atPoint p Lin Ang) qd)) 0 := by
  obtain ⟨v, w, hv, hw, hv', hw', hc, hd⟩ := h
  have hu0 : v 0 + cross3 (w 0) (c 0) = app N (atPoint p Lin Ang) qd := by rw [hv, hw, hc, atPoint_app]
  refine ⟨fun τ => v τ + cross3 (w τ) (c τ), hd, hc, hu0, ?_⟩
  have := hv'.fun_add (hasDerivAt_cross hw' (hd 0))
  rw [hu0, hc, hw] at this
  refine this.congr_deriv ?_
  simp only [atPoint_app]
  generalize app N Lin x = l1
  generalize app N dLin qd = l2
  generalize app N Ang x = l3
  generalize app N dAng qd = l4
  generalize app N Ang qd = l5
  generalize app N Lin qd = l6
  funext i; fin_cases i <;> simp [cross3, Matrix.vecHead, Matrix.vecTail] <;> ring

/-- First and second derivatives of the norm of a moving vector. -/
theorem norm3_rates {c u : ℝ → V3} {a : V3} (hc : ∀ τ, HasDerivAt c (u τ) τ) (hu : HasDerivAt u a 0) (h0 : c 0 ≠ 0) :
    Rates (fun τ => norm3 (c τ)) (dot3 (normalize3 (c 0)) (u 0))
      (dot3 (normalize3 (c 0)) a + (dot3 (u 0) (u 0) - dot3 (normalize3 (c 0)) (u 0) ^ 2) / norm3 (c 0)) := by
  have hpos := (norm3_pos_iff (c 0)).2 h0
  have hci := fun τ => hasDerivAt_pi.1 (hc τ)
  have hui := hasDerivAt_pi.1 hu
  have hcont : ContinuousAt (fun τ => norm3 (c τ)) 0 := by
    have : ContinuousAt c 0 := (hc 0).continuousAt
    unfold norm3
    exact Real.continuous_sqrt.continuousAt.comp
      (f := fun τ => c τ 0 * c τ 0 + c τ 1 * c τ 1 + c τ 2 * c τ 2)
      ((((hci 0 0).fun_mul (hci 0 0)).fun_add ((hci 0 1).fun_mul (hci 0 1))).fun_add
        ((hci 0 2).fun_mul (hci 0 2))).continuousAt
  have hev : ∀ᶠ τ in 𝓝 0, 0 < norm3 (c τ) := hcont.eventually (lt_mem_nhds hpos)
  have hnorm : ∀ v w : V3, 0 < norm3 v → dot3 (normalize3 v) w = dot3 v w / norm3 v := by
    intro v w hv
    unfold normalize3
    rw [if_pos hv]
    simp only [dot3, Matrix.cons_val_zero, Matrix.cons_val_one, Matrix.cons_val]
    field_simp
  have hd : ∀ τ, 0 < norm3 (c τ) → HasDerivAt (fun τ => norm3 (c τ)) (dot3 (c τ) (u τ) / norm3 (c τ)) τ := by
    intro τ hτ
    have hsq : norm3 (c τ) ^ 2 = c τ 0 * c τ 0 + c τ 1 * c τ 1 + c τ 2 * c τ 2 := by
      have := norm3_sq (c τ); rw [pow_two]; linarith [this]
    have h1 := (((hci τ 0).fun_mul (hci τ 0)).fun_add ((hci τ 1).fun_mul (hci τ 1))).fun_add ((hci τ 2).fun_mul (hci τ 2))
    have hne : c τ 0 * c τ 0 + c τ 1 * c τ 1 + c τ 2 * c τ 2 ≠ 0 := by rw [← hsq]; positivity
    have h2 := h1.sqrt hne
    unfold norm3
    refine h2.congr_deriv ?_
    simp only [dot3]
    have : Real.sqrt (c τ 0 * c τ 0 + c τ 1 * c τ 1 + c τ 2 * c τ 2) = norm3 (c τ) := rfl
    rw [this]
    field_simp
    ring
  refine ⟨fun τ => dot3 (c τ) (u τ) / norm3 (c τ), hev.mono hd, ?_, ?_⟩
  · rw [hnorm _ _ hpos]
  · have h1 : HasDerivAt (fun τ => dot3 (c τ) (u τ)) (dot3 (u 0) (u 0) + dot3 (c 0) a) 0 := by
      have := (((hci 0 0).fun_mul (hui 0)).fun_add ((hci 0 1).fun_mul (hui 1))).fun_add ((hci 0 2).fun_mul (hui 2))
      refine this.congr_deriv ?_
      simp only [dot3]; ring
    have h2 := h1.fun_div (hd 0 hpos) hpos.ne'
    refine h2.congr_deriv ?_
    rw [hnorm _ _ hpos, hnorm _ _ hpos]
    field_simp
    ring

/-- The rate of the signed distance, and its derivative. -/
theorem dist_rates (d : DynPair) (hd : d.Consistent) (N : Nat) (qd x : Nat → ℝ) (cA cB : ℝ → V3) (h : d.Moving N qd x cA cB) :
    Rates (d.dist cA cB) (∑ j ∈ range N, d.J j * qd j)
      (∑ j ∈ range N, d.J j * x j + d.drift N qd +
        dot3 d.normal (cross3 (app N d.BAng qd) (app N (atPoint d.pointB d.BLin d.BAng) qd) -
          cross3 (app N d.AAng qd) (app N (atPoint d.pointA d.ALin d.AAng) qd)) +
        (dot3 (app N (atPoint d.pointB d.BLin d.BAng) qd - app N (atPoint d.pointA d.ALin d.AAng) qd)
            (app N (atPoint d.pointB d.BLin d.BAng) qd - app N (atPoint d.pointA d.ALin d.AAng) qd) -
          (∑ j ∈ range N, d.J j * qd j) ^ 2) / d.minDistance) := by
  obtain ⟨uA, hA, hA0, hAu, hAa⟩ := h.1.acc
  obtain ⟨uB, hB, hB0, hBu, hBa⟩ := h.2.acc
  have hc : ∀ τ, HasDerivAt (fun τ => cB τ - cA τ) (uB τ - uA τ) τ := fun τ => (hB τ).fun_sub (hA τ)
  have hne : cB 0 - cA 0 ≠ 0 := by
    rw [hA0, hB0]
    intro h0
    apply hd.2
    have : (fun k => d.pointB k - d.pointA k) = (0 : V3) := h0
    rw [hd.1, this]; simp [norm3]
  obtain ⟨g, hg, hg0, hg'⟩ := norm3_rates hc (hBa.fun_sub hAa) hne
  have hJ : ∀ y : Nat → ℝ, ∑ j ∈ range N, d.J j * y j = (if d.minDistance < 0 then -1 else 1) *
      dot3 (normalize3 (d.pointB - d.pointA)) (app N (atPoint d.pointB d.BLin d.BAng) y - app N (atPoint d.pointA d.ALin d.AAng) y) := by
    intro y
    unfold DynPair.J DynPair.normal
    rw [← app_sub]
    generalize normalize3 (d.pointB - d.pointA) = n
    simp only [app, dot3, mul_sum, ← sum_add_distrib]
    refine sum_congr rfl fun j _ => ?_
    by_cases hneg : d.minDistance < 0
    · simp only [if_pos hneg, Pi.neg_apply]; ring
    · simp only [if_neg hneg]; ring
  have hD : d.drift N qd = (if d.minDistance < 0 then -1 else 1) *
      dot3 (normalize3 (d.pointB - d.pointA)) (app N (atPoint d.pointB d.dBLin d.dBAng) qd - app N (atPoint d.pointA d.dALin d.dAAng) qd) := by
    unfold DynPair.drift DynPair.normal
    rw [← app_sub]
    generalize normalize3 (d.pointB - d.pointA) = n
    simp only [app, dot3, mul_sum, ← sum_add_distrib]
    refine sum_congr rfl fun j _ => ?_
    by_cases hneg : d.minDistance < 0
    · simp only [if_pos hneg, Pi.neg_apply]; ring
    · simp only [if_neg hneg]; ring
  have hn : norm3 (cB 0 - cA 0) = (if d.minDistance < 0 then -1 else 1) * d.minDistance := by
    have h1 := hd.1
    rw [hA0, hB0]
    by_cases hneg : d.minDistance < 0
    · rw [if_pos hneg] at h1 ⊢; rw [h1]; simp; rfl
    · rw [if_neg hneg] at h1 ⊢; rw [one_mul] at h1 ⊢; rw [h1]; rfl
  have hnz := hd.2
  refine ⟨fun τ => (if d.minDistance < 0 then -1 else 1) * g τ, hg.mono fun τ h => h.const_mul _, ?_, ?_⟩
  · simp only
    rw [hg0, hA0, hB0, hAu, hBu, hJ]
  · refine (hg'.const_mul _).congr_deriv ?_
    rw [hJ, hJ, hD, hn, hA0, hB0, hAu, hBu]
    unfold DynPair.normal
    generalize normalize3 (d.pointB - d.pointA) = n
    generalize app N (atPoint d.pointB d.BLin d.BAng) qd = vB
    generalize app N (atPoint d.pointA d.ALin d.AAng) qd = vA
    generalize app N (atPoint d.pointB d.BLin d.BAng) x = aB
    generalize app N (atPoint d.pointA d.ALin d.AAng) x = aA
    generalize app N (atPoint d.pointB d.dBLin d.dBAng) qd = bB
    generalize app N (atPoint d.pointA d.dALin d.dAAng) qd = bA
    generalize cross3 (app N d.BAng qd) vB = wB
    generalize cross3 (app N d.AAng qd) vA = wA
    by_cases hneg : d.minDistance < 0
    · simp only [if_pos hneg, dot3, Pi.sub_apply, Pi.add_apply, Pi.neg_apply]
      field_simp
      ring
    · simp only [if_neg hneg, dot3, Pi.sub_apply, Pi.add_apply]
      field_simp
      ring

/-- There is a motion of a point fixed to a body for all velocities and accelerations. -/
theorem BodyPoint.exists (N : Nat) (Lin Ang dLin dAng : J3) (qd x : Nat → ℝ) (p : V3) :
    ∃ c, BodyPoint N Lin Ang dLin dAng qd x p c := by
  set w0 := app N Ang qd with hw0
  set w1 := app N Ang x + app N dAng qd with hw1
  set v1 := app N Lin x + app N dLin qd with hv1
  set u := app N Lin qd + cross3 w0 p with hu
  set a := v1 + cross3 w1 p + cross3 w0 u with ha
  have hc : ∀ τ : ℝ, HasDerivAt (fun τ : ℝ => p + τ • u + (τ ^ 2 / 2) • a) (u + τ • a) τ := by
    intro τ
    refine hasDerivAt_pi.2 fun i => ?_
    have h1 := ((hasDerivAt_id' τ).mul_const (u i)).const_add (p i)
    have h2 := ((hasDerivAt_pow 2 τ).div_const 2).mul_const (a i)
    refine (h1.fun_add h2).congr_deriv ?_
    simp
  have hw : HasDerivAt (fun τ : ℝ => w0 + τ • w1) w1 0 := by
    refine hasDerivAt_pi.2 fun i => ?_
    refine (((hasDerivAt_id' (0 : ℝ)).mul_const (w1 i)).const_add (w0 i)).congr_deriv ?_
    simp
  have hva : HasDerivAt (fun τ : ℝ => u + τ • a) a 0 := by
    refine hasDerivAt_pi.2 fun i => ?_
    refine (((hasDerivAt_id' (0 : ℝ)).mul_const (a i)).const_add (u i)).congr_deriv ?_
    simp
  refine ⟨fun τ => p + τ • u + (τ ^ 2 / 2) • a,
    fun τ => u + τ • a - cross3 (w0 + τ • w1) (p + τ • u + (τ ^ 2 / 2) • a), fun τ => w0 + τ • w1, ?_, ?_, ?_, ?_, ?_, ?_⟩
  · simp [hu]
  · simp [hw0]
  · refine (hva.fun_sub (hasDerivAt_cross hw (hc 0))).congr_deriv ?_
    simp [ha, ← hv1]
  · exact hw
  · simp
  · intro τ
    refine (hc τ).congr_deriv ?_
    simp

theorem Moving.exists (d : DynPair) (N : Nat) (qd x : Nat → ℝ) : ∃ cA cB, d.Moving N qd x cA cB := by
  obtain ⟨cA, hA⟩ := BodyPoint.exists N d.ALin d.AAng d.dALin d.dAAng qd x d.pointA
  obtain ⟨cB, hB⟩ := BodyPoint.exists N d.BLin d.BAng d.dBLin d.dBAng qd x d.pointB
  exact ⟨cA, cB, hA, hB⟩

theorem Rates.unique {f : ℝ → ℝ} {a b a' b' : ℝ} (h : Rates f a b) (h' : Rates f a' b') : a = a' ∧ b = b' := by
  obtain ⟨g, h1, h2, h3⟩ := h
  obtain ⟨g', h1', h2', h3'⟩ := h'
  have he : g =ᶠ[𝓝 0] g' := by
    filter_upwards [h1, h1'] with τ e e'
    exact e.unique e'
  exact ⟨by rw [← h2, ← h2']; exact he.self_of_nhds, h3.unique (h3'.congr_of_eventuallyEq he)⟩

/-! ## C123 -/

/-- `r` is the rate of the distance of a pair when joint `k` moves at unit velocity. -/
def DynPair.RateOf (d : DynPair) (N k : Nat) (r : ℝ) : Prop :=
  ∀ x cA cB, d.Moving N (unitAt k) x cA cB → ∃ r2, Rates (d.dist cA cB) r r2

theorem rateOf_iff (d : DynPair) (hd : d.Consistent) (N k : Nat) (hk : k < N) (r : ℝ) : d.RateOf N k r ↔ r = d.J k := by
  have hsum : ∑ j ∈ range N, d.J j * unitAt k j = d.J k := by
    simp [unitAt, hk]
  constructor
  · intro h
    obtain ⟨cA, cB, hm⟩ := Moving.exists d N (unitAt k) 0
    obtain ⟨r2, h2⟩ := h 0 cA cB hm
    have := (h2.unique (dist_rates d hd N _ _ cA cB hm)).1
    rw [this, hsum]
  · rintro rfl x cA cB hm
    have := dist_rates d hd N _ _ cA cB hm
    rw [hsum] at this
    exact ⟨_, this⟩

theorem xddSafe_eq (d : DynPair) (hd : d.Consistent) (N : Nat) (qddSafe rate : Nat → ℝ)
    (h : ∀ k, 6 ≤ k → k < N → d.RateOf N k (rate k)) : d.xddSafe N qddSafe = safeDeceleration N rate qddSafe := by
  unfold DynPair.xddSafe safeDeceleration
  have : ∑ k ∈ Ico 6 N, |d.J k| * qddSafe k = ∑ k ∈ Ico 6 N, |rate k| * qddSafe k := by
    refine sum_congr rfl fun k hk => ?_
    have hk := mem_Ico.1 hk
    rw [(rateOf_iff d hd N k hk.2 (rate k)).1 (h k hk.1 hk.2)]
  rw [this]; ring

/-- What the constraint imposes in every case, in terms of the matrices it uses. -/
theorem selfCollisions_rows (p : SelfCollisions) (N : Nat) (distances : RState ℝ → List DynPair) (s : DState ℝ) (tau : Expr ℝ)
    (hdt : s.dt ≠ 0) :
    ∃ l, (selfCollisions p N distances).add s tau = .ok l ∧
      (∀ c ∈ l, (c.priority = .soft ↔ p.priority = .soft) ∧ c.weight = p.weight) ∧
      ∀ x, (∀ c ∈ l, c.Sat x) ↔ ∀ d ∈ distances s.robot, d.minDistance < p.trigger →
        0 ≤ ∑ j ∈ range N, (d.row p.margin N s).1 j * x j + (d.row p.margin N s).2 := by
  unfold selfCollisions
  simp only [if_neg hdt]
  set near := (distances s.robot).filter fun d => d.minDistance < p.trigger with hnear
  have hmem : ∀ d, d ∈ near ↔ d ∈ distances s.robot ∧ d.minDistance < p.trigger := by
    intro d; simp [hnear]
  by_cases h0 : near.length = 0
  · rw [if_pos h0]
    refine ⟨[], rfl, by simp, fun x => ?_⟩
    simp only [List.not_mem_nil, false_imp_iff, implies_true, true_iff]
    intro d h1 h2
    have : d ∈ near := (hmem d).2 ⟨h1, h2⟩
    rw [List.length_eq_zero_iff] at h0
    rw [h0] at this
    cases this
  · rw [if_neg h0]
    generalize he : (⟨near.length, N, _, _⟩ : Expr ℝ) = e
    obtain ⟨⟨c, g1, g2⟩, -⟩ := C02_double e 0
    rw [g1]
    refine ⟨_, rfl, ?_, fun x => ?_⟩
    · intro c' hc'
      simp only [List.mem_singleton] at hc'
      subst hc'
      refine ⟨?_, rfl⟩
      unfold Constr.configureP
      by_cases h : p.priority = .soft <;> simp [h]
    · have hsat : (∀ c' ∈ [c.configureP (if p.priority = .soft then .soft else .hard) p.weight], c'.Sat x) ↔ c.Sat x := by
        simp only [List.mem_singleton, forall_eq]; exact Iff.rfl
      rw [hsat, g2]
      have hrow : ∀ i, (hi : i < near.length) → e.rowVal x i =
          ∑ j ∈ range N, (near[i].row p.margin N s).1 j * x j + (near[i].row p.margin N s).2 := by
        intro i hi
        subst he
        simp only [Expr.rowVal, List.getElem?_eq_getElem hi, Option.map_some, Option.getD_some]
      have her : e.rows = near.length := by rw [← he]
      simp only [Expr.value, List.mem_map, List.mem_range, her]
      constructor
      · intro h d hd1 hd2
        obtain ⟨i, hi, rfl⟩ := List.getElem_of_mem ((hmem d).2 ⟨hd1, hd2⟩)
        have := h _ ⟨i, hi, rfl⟩
        rwa [hrow i hi] at this
      · rintro h y ⟨i, hi, rfl⟩
        have hd : near[i] ∈ near := List.getElem_mem _
        rw [hrow i hi]
        exact h _ ((hmem _).1 hd).1 ((hmem _).1 hd).2

theorem row_iff (d : DynPair) (margin : ℝ) (N : Nat) (s : DState ℝ) (x : Nat → ℝ) :
    0 ≤ ∑ j ∈ range N, (d.row margin N s).1 j * x j + (d.row margin N s).2 ↔
      (margin ≤ d.minDistance → -Real.sqrt (2 * (d.minDistance - margin) * d.xddSafe N s.qddSafe) ≤
        ∑ j ∈ range N, d.J j * s.robot.qd j + s.dt * (∑ j ∈ range N, d.J j * x j + d.drift N s.robot.qd)) ∧
      (d.minDistance < margin → d.xddSafe N s.qddSafe ≤ ∑ j ∈ range N, d.J j * x j) := by
  unfold DynPair.row
  by_cases h : margin ≤ d.minDistance
  · rw [if_pos h]
    have : ∑ j ∈ range N, s.dt * d.J j * x j = s.dt * ∑ j ∈ range N, d.J j * x j := by
      rw [mul_sum]; exact sum_congr rfl fun j _ => by ring
    simp only [this, h, not_lt.2 h, true_imp_iff, false_imp_iff, and_true]
    constructor <;> intro h <;> linarith
  · rw [if_neg h]
    simp only [h, not_le.1 h, true_imp_iff, false_imp_iff, true_and]
    constructor <;> intro h <;> linarith

/-- **C123** (the part that holds). With the time step set and the robot at rest, accelerations `x` satisfy the constraint
exactly when, for each pair closer than the trigger and all motions of the two points with these accelerations: outside the
margin, the rate of the distance predicted after one step does not exceed the approach speed that can be cancelled before
the margin; inside the margin, the distance accelerates by at least the safe value. Farther pairs are not constrained. -/
theorem C123_partial (p : SelfCollisions) (N : Nat) (distances : RState ℝ → List DynPair) (s : DState ℝ) (tau : Expr ℝ)
    (hc : ∀ d ∈ distances s.robot, d.minDistance < p.trigger → d.Consistent) :
    (s.dt = 0 → (selfCollisions p N distances).add s tau = .error .runtimeError) ∧
    (s.dt ≠ 0 → (∀ j, j < N → s.robot.qd j = 0) → ∃ l, (selfCollisions p N distances).add s tau = .ok l ∧
      (∀ c ∈ l, (c.priority = .soft ↔ p.priority = .soft) ∧ c.weight = p.weight) ∧
      ∀ x, (∀ c ∈ l, c.Sat x) ↔ ∀ d ∈ distances s.robot, d.minDistance < p.trigger →
        ∀ rate : Nat → ℝ, (∀ k, 6 ≤ k → k < N → d.RateOf N k (rate k)) →
        ∀ cA cB, d.Moving N s.robot.qd x cA cB → ∃ r1 r2, Rates (d.dist cA cB) r1 r2 ∧
          (p.margin ≤ d.minDistance →
            -Real.sqrt (2 * (d.minDistance - p.margin) * safeDeceleration N rate s.qddSafe) ≤ r1 + s.dt * r2) ∧
          (d.minDistance < p.margin → safeDeceleration N rate s.qddSafe ≤ r2)) := by
  refine ⟨fun hdt => ?_, fun hdt hrest => ?_⟩
  · unfold selfCollisions
    simp only [if_pos hdt]
    rfl
  · obtain ⟨l, h1, h2, h3⟩ := selfCollisions_rows p N distances s tau hdt
    refine ⟨l, h1, h2, fun x => ?_⟩
    rw [h3]
    have happ : ∀ J : J3, app N J s.robot.qd = 0 := by
      intro J; funext i
      simp only [app]
      exact sum_eq_zero fun j hj => by rw [hrest j (mem_range.1 hj), mul_zero]
    have hsum : ∀ f : Nat → ℝ, ∑ j ∈ range N, f j * s.robot.qd j = 0 :=
      fun f => sum_eq_zero fun j hj => by rw [hrest j (mem_range.1 hj), mul_zero]
    have hrates : ∀ d : DynPair, d.Consistent → ∀ cA cB, d.Moving N s.robot.qd x cA cB →
        Rates (d.dist cA cB) 0 (∑ j ∈ range N, d.J j * x j) := by
      intro d hd cA cB hm
      have h := dist_rates d hd N _ _ cA cB hm
      have hdr : d.drift N s.robot.qd = 0 := hsum _
      simp only [happ, hsum, hdr] at h
      have hz : cross3 (0 : V3) 0 = 0 := by funext i; fin_cases i <;> simp [cross3]
      rw [hz] at h
      simpa [dot3] using h
    refine forall_congr' fun d => forall_congr' fun hd => forall_congr' fun ht => ?_
    have hcd := hc d hd ht
    rw [row_iff, hsum]
    have hdr : d.drift N s.robot.qd = 0 := hsum _
    rw [hdr, add_zero]
    constructor
    · intro h rate hrate cA cB hm
      rw [xddSafe_eq d hcd N s.qddSafe rate hrate] at h
      exact ⟨_, _, hrates d hcd cA cB hm, h⟩
    · intro h
      have hrate : ∀ k, 6 ≤ k → k < N → d.RateOf N k (d.J k) := fun k _ hk => (rateOf_iff d hcd N k hk _).2 rfl
      obtain ⟨cA, cB, hm⟩ := Moving.exists d N s.robot.qd x
      obtain ⟨r1, r2, hr, h4⟩ := h d.J hrate cA cB hm
      obtain ⟨e1, e2⟩ := hr.unique (hrates d hcd cA cB hm)
      rw [xddSafe_eq d hcd N s.qddSafe d.J hrate]
      rw [e1, e2] at h4
      exact h4

theorem dot3_le (n u : V3) (hn : dot3 n n = 1) : dot3 n u ^ 2 ≤ dot3 u u := by
  unfold dot3 at *
  have e : (u 0 * u 0 + u 1 * u 1 + u 2 * u 2) - (n 0 * u 0 + n 1 * u 1 + n 2 * u 2) ^ 2 =
      (n 0 * u 1 - n 1 * u 0) ^ 2 + (n 1 * u 2 - n 2 * u 1) ^ 2 + (n 2 * u 0 - n 0 * u 2) ^ 2 := by
    linear_combination -(u 0 * u 0 + u 1 * u 1 + u 2 * u 2) * hn
  nlinarith [sq_nonneg (n 0 * u 1 - n 1 * u 0), sq_nonneg (n 1 * u 2 - n 2 * u 1), sq_nonneg (n 2 * u 0 - n 0 * u 2)]

theorem normal_unit (d : DynPair) (hd : d.Consistent) : dot3 d.normal d.normal = 1 := by
  have hne : d.pointB - d.pointA ≠ 0 := by
    intro h0
    apply hd.2
    have : (fun k => d.pointB k - d.pointA k) = (0 : V3) := h0
    rw [hd.1, this]; simp [norm3]
  have h := (normalize3_unit _ hne).1
  unfold DynPair.normal dot3
  by_cases hneg : d.minDistance < 0
  · simp only [if_pos hneg, Pi.neg_apply]; nlinarith [h]
  · simp only [if_neg hneg]; nlinarith [h]

/-- Outside the margin, whatever the velocities of the joints, the bound on the approach speed holds when the two bodies do not
rotate (it is then conservative: the distance of two points grows with their relative velocity across it). -/
theorem C123_partial_translation (p : SelfCollisions) (N : Nat) (distances : RState ℝ → List DynPair) (s : DState ℝ)
    (tau : Expr ℝ) (hdt : 0 < s.dt) (l : List (Constr ℝ)) (hl : (selfCollisions p N distances).add s tau = .ok l) (x : Nat → ℝ)
    (hx : ∀ c ∈ l, c.Sat x) (d : DynPair) (hd : d ∈ distances s.robot) (ht : d.minDistance < p.trigger) (hc : d.Consistent)
    (hm : p.margin ≤ d.minDistance) (hpos : 0 < d.minDistance)
    (hA : app N d.AAng s.robot.qd = 0) (hB : app N d.BAng s.robot.qd = 0)
    (rate : Nat → ℝ) (hr : ∀ k, 6 ≤ k → k < N → d.RateOf N k (rate k)) (cA cB : ℝ → V3)
    (hmov : d.Moving N s.robot.qd x cA cB) :
    ∃ r1 r2, Rates (d.dist cA cB) r1 r2 ∧
      -Real.sqrt (2 * (d.minDistance - p.margin) * safeDeceleration N rate s.qddSafe) ≤ r1 + s.dt * r2 := by
  obtain ⟨l', h1, -, h3⟩ := selfCollisions_rows p N distances s tau hdt.ne'
  rw [h1] at hl
  cases hl
  have hrow := (row_iff d p.margin N s x).1 ((h3 x).1 hx d hd ht)
  rw [xddSafe_eq d hc N s.qddSafe rate hr] at hrow
  have hrow := hrow.1 hm
  have hrates := dist_rates d hc N _ _ cA cB hmov
  rw [hA, hB] at hrates
  have hz : ∀ v : V3, cross3 (0 : V3) v = 0 := by intro v; funext i; fin_cases i <;> simp [cross3]
  rw [hz, hz] at hrates
  refine ⟨_, _, hrates, ?_⟩
  have hJ : ∑ j ∈ range N, d.J j * s.robot.qd j = dot3 d.normal
      (app N (atPoint d.pointB d.BLin d.BAng) s.robot.qd - app N (atPoint d.pointA d.ALin d.AAng) s.robot.qd) := by
    rw [← app_sub]
    unfold DynPair.J
    simp only [app, dot3, mul_sum, ← sum_add_distrib]
    exact sum_congr rfl fun j _ => by ring
  have hge : 0 ≤ (dot3 (app N (atPoint d.pointB d.BLin d.BAng) s.robot.qd - app N (atPoint d.pointA d.ALin d.AAng) s.robot.qd)
      (app N (atPoint d.pointB d.BLin d.BAng) s.robot.qd - app N (atPoint d.pointA d.ALin d.AAng) s.robot.qd) -
      (∑ j ∈ range N, d.J j * s.robot.qd j) ^ 2) / d.minDistance := by
    apply div_nonneg _ hpos.le
    rw [hJ]
    linarith [dot3_le d.normal (app N (atPoint d.pointB d.BLin d.BAng) s.robot.qd -
      app N (atPoint d.pointA d.ALin d.AAng) s.robot.qd) (normal_unit d hc)]
  have hdot : dot3 d.normal (0 - 0) = 0 := by simp [dot3]
  rw [hdot]
  nlinarith [mul_nonneg hdt.le hge]

/-- A pair exactly in contact is not pushed apart: all accelerations satisfy its row. -/
theorem C123_contact (p : SelfCollisions) (N : Nat) (s : DState ℝ) (tau : Expr ℝ) (hdt : s.dt ≠ 0) (d : DynPair)
    (hz : d.minDistance = 0) (hp : d.pointA = d.pointB) (hm : 0 < p.margin) :
    ∃ l, (selfCollisions p N fun _ => [d]).add s tau = .ok l ∧ ∀ x, ∀ c ∈ l, c.Sat x := by
  obtain ⟨l, h1, -, h3⟩ := selfCollisions_rows p N (fun _ => [d]) s tau hdt
  refine ⟨l, h1, fun x => (h3 x).2 fun d' hd' _ => ?_⟩
  have hd' : d' = d := by simpa using hd'
  subst hd'
  have hn : d'.normal = 0 := by
    unfold DynPair.normal
    simp only [hp, sub_self, hz, lt_irrefl, if_false]
    unfold normalize3
    rw [if_neg (by simp [norm3])]
  have hJ : ∀ j, d'.J j = 0 := by intro j; unfold DynPair.J; rw [hn]; simp [dot3]
  rw [row_iff]
  refine ⟨fun h => absurd hm (by rw [hz] at h; exact not_lt.2 h), fun _ => ?_⟩
  unfold DynPair.xddSafe
  simp [hJ]

/-! ### The bounds are not those of the distance when the robot moves -/

/-- A fixed point, and the tip of an arm of length 1 around the vertical axis (joint 6, after the floating base): the world
Jacobian of the arm is constant. -/
def armPair : DynPair where
  pointA := ![-1, 0, 0]
  pointB := ![1, 0, 0]
  minDistance := 2
  ALin := fun _ _ => 0
  AAng := fun _ _ => 0
  dALin := fun _ _ => 0
  dAAng := fun _ _ => 0
  BLin := fun _ _ => 0
  BAng := fun i j => if j = 6 ∧ i = 2 then 1 else 0
  dBLin := fun _ _ => 0
  dBAng := fun _ _ => 0

theorem armPair_consistent : armPair.Consistent := by
  have h : norm3 (fun k => armPair.pointB k - armPair.pointA k) = 2 := by
    have : Real.sqrt 4 = 2 := by rw [show (4 : ℝ) = 2 ^ 2 by norm_num]; exact Real.sqrt_sq (by norm_num)
    simp [norm3, armPair]
    norm_num [this]
  constructor
  · rw [h]; norm_num [armPair]
  · norm_num [armPair]

theorem armPair_normal : armPair.normal = ![1, 0, 0] := by
  unfold DynPair.normal
  have h2 : (armPair.pointB - armPair.pointA) = ![2, 0, 0] := by
    funext i; fin_cases i <;> norm_num [armPair]
  have h3 : norm3 ![2, 0, 0] = 2 := by
    simp [norm3]
  rw [h2]
  unfold normalize3
  rw [h3]
  simp [armPair]

theorem armPair_J (j : Nat) : armPair.J j = 0 := by
  unfold DynPair.J
  rw [armPair_normal]
  simp [dot3, atPoint, armPair, cross3]

/-- The hypotheses of `C123_partial` are met by this arm at rest. -/
example (p : SelfCollisions) (s : DState ℝ) (hdt : s.dt ≠ 0) (hs : s.robot.qd = fun _ => 0) :
    (∀ d ∈ [armPair], d.minDistance < p.trigger → d.Consistent) ∧ s.dt ≠ 0 ∧ ∀ j, j < 7 → s.robot.qd j = 0 :=
  ⟨fun d hd _ => by rw [List.mem_singleton.1 hd]; exact armPair_consistent, hdt, fun j _ => by rw [hs]⟩

/-- The arm turns at constant velocity. -/
theorem armPair_moving : armPair.Moving 7 (unitAt 6) (fun _ => 0) (fun _ => ![-1, 0, 0]) (fun τ => ![Real.cos τ, Real.sin τ, 0]) := by
  have h0 : ∀ x, app 7 (fun _ _ => 0) x = 0 := fun x => app_zero 7 x
  have h1 : app 7 armPair.BAng (unitAt 6) = ![0, 0, 1] := by
    funext i; fin_cases i <;> simp [app, armPair, unitAt]
  have h2 : app 7 armPair.BAng (fun _ => 0) = 0 := by funext i; simp [app]
  refine ⟨⟨fun _ => 0, fun _ => 0, (h0 _).symm, (h0 _).symm, ?_, ?_, rfl, fun τ => ?_⟩,
    ⟨fun _ => 0, fun _ => ![0, 0, 1], (h0 _).symm, h1.symm, ?_, ?_, ?_, fun τ => ?_⟩⟩
  · exact (hasDerivAt_const (0 : ℝ) (0 : V3)).congr_deriv (by rw [show armPair.ALin = fun _ _ => 0 from rfl,
      show armPair.dALin = fun _ _ => 0 from rfl, h0, h0, add_zero])
  · exact (hasDerivAt_const (0 : ℝ) (0 : V3)).congr_deriv (by rw [show armPair.AAng = fun _ _ => 0 from rfl,
      show armPair.dAAng = fun _ _ => 0 from rfl, h0, h0, add_zero])
  · refine (hasDerivAt_const τ _).congr_deriv ?_
    funext i; fin_cases i <;> simp [cross3]
  · exact (hasDerivAt_const (0 : ℝ) (0 : V3)).congr_deriv (by rw [show armPair.BLin = fun _ _ => 0 from rfl,
      show armPair.dBLin = fun _ _ => 0 from rfl, h0, h0, add_zero])
  · exact (hasDerivAt_const (0 : ℝ) _).congr_deriv (by rw [show armPair.dBAng = fun _ _ => 0 from rfl, h2, h0, add_zero])
  · simp [armPair]
  · refine hasDerivAt_pi.2 fun i => ?_
    fin_cases i
    · refine (Real.hasDerivAt_cos τ).congr_deriv ?_
      simp [cross3]
    · refine (Real.hasDerivAt_sin τ).congr_deriv ?_
      simp [cross3]
    · refine (hasDerivAt_const τ (0 : ℝ)).congr_deriv ?_
      simp [cross3]

/-- **C123 is false when the robot moves**, in both cases: an arm turns at constant velocity about a fixed vertical axis, and
the distance of its tip to a fixed point on the other side of the axis is at a maximum (its rate is 0 and its acceleration
negative). The accelerations 0 satisfy the constraint, with a margin of 2 (the pair is exactly at the margin: no approach
speed is safe) and with a larger one (the pair is inside the margin, and should be pushed apart). -/
theorem C123_refuted (s : DState ℝ) (hs : s.robot.qd = unitAt 6) (hdt : 0 < s.dt) (tau : Expr ℝ) (p : SelfCollisions)
    (ht : 2 < p.trigger) (hm : 2 ≤ p.margin) :
    armPair.Consistent ∧ armPair.Moving 7 s.robot.qd (fun _ => 0) (fun _ => ![-1, 0, 0]) (fun τ => ![Real.cos τ, Real.sin τ, 0]) ∧
    (∀ k, k < 7 → armPair.RateOf 7 k 0) ∧ safeDeceleration 7 (fun _ => 0) s.qddSafe = 0 ∧
    (∃ l, (selfCollisions p 7 fun _ => [armPair]).add s tau = .ok l ∧ ∀ c ∈ l, c.Sat fun _ => 0) ∧
    ∃ r1 r2, Rates (armPair.dist (fun _ => ![-1, 0, 0]) fun τ => ![Real.cos τ, Real.sin τ, 0]) r1 r2 ∧
      armPair.minDistance < p.trigger ∧ armPair.minDistance ≤ p.margin ∧
      r1 + s.dt * r2 < -Real.sqrt (2 * (armPair.minDistance - p.margin) * safeDeceleration 7 (fun _ => 0) s.qddSafe) ∧
      r2 < safeDeceleration 7 (fun _ => 0) s.qddSafe := by
  have hsafe : safeDeceleration 7 (fun _ => 0) s.qddSafe = 0 := by simp [safeDeceleration]
  have hd := armPair_consistent
  refine ⟨hd, by rw [hs]; exact armPair_moving, fun k hk => (rateOf_iff _ hd 7 k hk 0).2 (armPair_J k).symm, hsafe, ?_, ?_⟩
  · obtain ⟨l, h1, -, h3⟩ := selfCollisions_rows p 7 (fun _ => [armPair]) s tau hdt.ne'
    refine ⟨l, h1, (h3 _).2 fun d hd' _ => ?_⟩
    have hd' : d = armPair := by simpa using hd'
    subst hd'
    rw [row_iff]
    have hdr : armPair.drift 7 s.robot.qd = 0 := by
      unfold DynPair.drift
      refine sum_eq_zero fun j _ => ?_
      simp [atPoint, armPair, dot3, cross3]
    simp only [DynPair.xddSafe, armPair_J, hdr]
    simp
  · have hr := dist_rates armPair hd 7 _ _ _ _ armPair_moving
    have hdr : armPair.drift 7 (unitAt 6) = 0 := by
      unfold DynPair.drift
      refine sum_eq_zero fun j _ => ?_
      simp [atPoint, armPair, dot3, cross3]
    have hA : app 7 (atPoint armPair.pointA armPair.ALin armPair.AAng) (unitAt 6) = 0 := by
      rw [atPoint_app, show armPair.ALin = fun _ _ => 0 from rfl, show armPair.AAng = fun _ _ => 0 from rfl, app_zero]
      funext i; fin_cases i <;> simp [cross3]
    have hB1 : app 7 armPair.BAng (unitAt 6) = ![0, 0, 1] := by
      funext i; fin_cases i <;> simp [app, armPair, unitAt]
    have hB : app 7 (atPoint armPair.pointB armPair.BLin armPair.BAng) (unitAt 6) = ![0, 1, 0] := by
      rw [atPoint_app, hB1, show armPair.BLin = fun _ _ => 0 from rfl, app_zero]
      funext i; fin_cases i <;> simp [cross3, armPair]
    rw [hdr, hA, hB, hB1, armPair_normal] at hr
    simp only [armPair_J, zero_mul, Finset.sum_const_zero] at hr
    refine ⟨_, _, hr, ht, hm, ?_, ?_⟩
    · rw [hsafe, mul_zero, Real.sqrt_zero]
      simp [dot3, cross3, armPair]
      nlinarith
    · rw [hsafe]
      simp [dot3, cross3, armPair]
      norm_num

end Verif.Dynamics
