/-
Property C182: a torque task with a stiffness and a damping acts as a passive spring (docs/dynamics/torque_task.rst 32-42).
The sign of the stiffness is wrong in the code: it acts as a passive element exactly when the stiffness given is negative (or zero).
-/
import Verif.Dynamics.Spring
import Verif.Dynamics.TotalProps
import Mathlib.Analysis.SpecialFunctions.Integrals.Basic
import Mathlib.Analysis.SpecialFunctions.Trigonometric.Deriv
import Mathlib.MeasureTheory.Integral.IntervalIntegral.FundThmCalculus

namespace Verif.Dynamics
open Finset Verif.Problem Verif.Kinematics

/-! ## The targets after a session -/

section
variable {K : Type}

/-- Specification: what the last call for a joint asks (history given last call first). -/
def lastTorque (name : String) : List (TorqueCall K) → Option (TargetTau K)
  | [] => none
  | .set joint torque kp kd :: before => if name = joint then some ⟨torque, kp, kd⟩ else lastTorque name before
  | .reset joint :: before => if name = joint then none else lastTorque name before

theorem erase_find (m : SMap String (TargetTau K)) (k name : String) :
    SMap.find? (SMap.erase m k) name = if name = k then none else SMap.find? m name := by
  induction m with
  | nil => simp [SMap.erase, SMap.find?]
  | cons p m ih =>
    obtain ⟨a, b⟩ := p
    unfold SMap.erase at ih ⊢
    by_cases h : a = k
    · subst h
      rw [List.filter_cons_of_neg (by simp), ih]
      by_cases h2 : name = a
      · simp [h2]
      · simp [SMap.find?, h2]
    · rw [List.filter_cons_of_pos (by simpa using h)]
      simp only [SMap.find?]
      rw [ih]
      by_cases h2 : name = a
      · have : name ≠ k := by rw [h2]; exact h
        simp [h2, h]
      · simp [h2]

theorem torquesAfter_spec (calls : List (TorqueCall K)) : SMap.WF (torquesAfter calls) ∧
    ∀ name, SMap.find? (torquesAfter calls) name = lastTorque name calls.reverse := by
  unfold torquesAfter
  induction calls using List.reverseRecOn with
  | nil => exact ⟨SMap.WF_nil, fun _ => rfl⟩
  | append_singleton l c ih =>
    rw [List.foldl_append, List.reverse_append]
    cases c with
    | set joint torque kp kd =>
      refine ⟨SMap.WF_set _ _ _ ih.1, fun name => ?_⟩
      show SMap.find? (SMap.set joint (⟨torque, kp, kd⟩ : TargetTau K) _) name = _
      rw [SMap.find?_set, ih.2 name]
      rfl
    | reset joint =>
      refine ⟨List.Pairwise.filter _ ih.1, fun name => ?_⟩
      show SMap.find? (SMap.erase _ joint) name = _
      rw [erase_find, ih.2 name]
      rfl

/-- The rows of the task ask exactly for the torques of the joints whose last call is `set_torque`: a joint that was reset is free. -/
theorem C182_session [Field K] [LinearOrder K] [IsStrictOrderedRing K] (r : Robot K) (hn : ∀ name j, r.vJoint name = .ok j → j.idxV < r.nv)
    (calls : List (TorqueCall K)) (s : RState K) (M : TaskMat K) (hM : torqueUpdate r (torquesAfter calls) s = .ok M) (tau : Nat → K) :
    M.Met tau ↔ ∀ name t j, lastTorque name calls.reverse = some t → r.vJoint name = .ok j →
      tau j.idxV = t.torque + t.kp * s.q j.idxQ - t.kd * s.qd j.idxV := by
  obtain ⟨hw, hf⟩ := torquesAfter_spec calls
  rw [torque_met r hn _ s M hM tau]
  constructor
  · intro H name t j ht hj
    exact H (name, t) ((SMap.mem_iff_find? _ hw name t).2 (by rw [hf]; exact ht)) j hj
  · rintro H ⟨name, t⟩ hp j hj
    refine H name t j ?_ hj
    rw [← hf]
    exact (SMap.mem_iff_find? _ hw name t).1 hp

end

/-! ## Passive elements -/

/-- A motion of a joint: its position and its velocity over time. -/
structure JointMotion where
  q : ℝ → ℝ
  v : ℝ → ℝ
  deriv : ∀ t, HasDerivAt q (v t) t
  cont : Continuous v

/-- Specification. A torque that depends on the position and on the velocity of a joint is passive when the energy that can be taken from it
is bounded: from each position, whatever the motion and however long it lasts, the work it does is at most some amount. -/
def Passive (law : ℝ → ℝ → ℝ) : Prop :=
  ∀ q0, ∃ B, ∀ (m : JointMotion) (T : ℝ), m.q 0 = q0 → 0 ≤ T → ∫ t in (0 : ℝ)..T, law (m.q t) (m.v t) * m.v t ≤ B

/-- The torque that a target of a torque task asks for. -/
def TargetTau.law (t : TargetTau ℝ) (q v : ℝ) : ℝ := t.torque + t.kp * q - t.kd * v

/-- Energy balance: the work is the change of `torque q + kp q² / 2`, less what is dissipated. -/
theorem law_work (t : TargetTau ℝ) (m : JointMotion) (T : ℝ) :
    ∫ x in (0 : ℝ)..T, t.law (m.q x) (m.v x) * m.v x =
      (t.torque * m.q T + t.kp * m.q T ^ 2 / 2) - (t.torque * m.q 0 + t.kp * m.q 0 ^ 2 / 2) - t.kd * ∫ x in (0 : ℝ)..T, m.v x ^ 2 := by
  have hq : Continuous m.q := continuous_iff_continuousAt.2 fun x => (m.deriv x).continuousAt
  have h1 : ∫ x in (0 : ℝ)..T, (t.torque + t.kp * m.q x) * m.v x =
      (t.torque * m.q T + t.kp * m.q T ^ 2 / 2) - (t.torque * m.q 0 + t.kp * m.q 0 ^ 2 / 2) := by
    refine intervalIntegral.integral_eq_sub_of_hasDerivAt (f := fun x => t.torque * m.q x + t.kp * m.q x ^ 2 / 2) (fun x _ => ?_)
      (Continuous.intervalIntegrable (by have := m.cont; fun_prop) _ _)
    have := ((m.deriv x).const_mul t.torque).add ((((m.deriv x).pow 2).const_mul t.kp).div_const 2)
    refine this.congr_deriv ?_
    push_cast
    ring
  rw [← h1, ← intervalIntegral.integral_const_mul, ← intervalIntegral.integral_sub]
  · refine intervalIntegral.integral_congr fun x _ => ?_
    show t.law (m.q x) (m.v x) * m.v x = _
    unfold TargetTau.law
    ring
  · exact Continuous.intervalIntegrable (by have := m.cont; fun_prop) _ _
  · exact Continuous.intervalIntegrable (by have := m.cont; fun_prop) _ _

/-- A motion at constant velocity. -/
noncomputable def rampMotion (c : ℝ) : JointMotion where
  q := fun t => c * t
  v := fun _ => c
  deriv := fun t => by simpa using (hasDerivAt_id t).const_mul c
  cont := continuous_const

theorem ramp_work (t : TargetTau ℝ) (c T : ℝ) :
    ∫ x in (0 : ℝ)..T, t.law ((rampMotion c).q x) ((rampMotion c).v x) * (rampMotion c).v x =
      t.torque * (c * T) + t.kp * (c * T) ^ 2 / 2 - t.kd * c ^ 2 * T := by
  rw [law_work]
  simp only [rampMotion]
  rw [intervalIntegral.integral_const]
  simp
  ring

/-- An oscillation. -/
noncomputable def sineMotion : JointMotion where
  q := Real.sin
  v := Real.cos
  deriv := Real.hasDerivAt_sin
  cont := Real.continuous_cos

/-- **C182, exact.** The torque asked for by a torque task is passive exactly when the damping is not negative and the stiffness is negative,
or zero without constant torque. -/
theorem C182_exact (t : TargetTau ℝ) : Passive t.law ↔ 0 ≤ t.kd ∧ (t.kp < 0 ∨ t.kp = 0 ∧ t.torque = 0) := by
  constructor
  · intro h
    obtain ⟨B, hB⟩ := h 0
    have hkd : 0 ≤ t.kd := by
      by_contra hneg
      have hneg := not_le.1 hneg
      obtain ⟨n, hn⟩ := exists_nat_gt (B / (-t.kd * Real.pi))
      have hpos : 0 < -t.kd * Real.pi := mul_pos (by linarith) Real.pi_pos
      rw [div_lt_iff₀ hpos] at hn
      have hT : 0 ≤ (n : ℝ) * (2 * Real.pi) := by have := Real.pi_pos; positivity
      have := hB sineMotion ((n : ℝ) * (2 * Real.pi)) Real.sin_zero hT
      rw [law_work] at this
      simp only [sineMotion] at this
      rw [integral_cos_sq] at this
      have hs : Real.sin ((n : ℝ) * (2 * Real.pi)) = 0 := by
        have := Real.sin_nat_mul_pi (2 * n)
        rw [← this]
        push_cast
        ring_nf
      rw [hs, Real.sin_zero] at this
      norm_num at this
      nlinarith
    refine ⟨hkd, ?_⟩
    rcases lt_trichotomy t.kp 0 with hk | hk | hk
    · exact .inl hk
    · refine .inr ⟨hk, ?_⟩
      by_contra ht
      have hpos : 0 < t.torque ^ 2 / (t.kd + 1) ^ 2 := by positivity
      have hTn : 0 ≤ (|B| + 1) / (t.torque ^ 2 / (t.kd + 1) ^ 2) := by positivity
      have := hB (rampMotion (t.torque / (t.kd + 1))) _ (by simp [rampMotion]) hTn
      rw [ramp_work, hk] at this
      generalize hT : (|B| + 1) / (t.torque ^ 2 / (t.kd + 1) ^ 2) = T at this
      have e : t.torque * (t.torque / (t.kd + 1) * T) + 0 * (t.torque / (t.kd + 1) * T) ^ 2 / 2 - t.kd * (t.torque / (t.kd + 1)) ^ 2 * T =
          t.torque ^ 2 / (t.kd + 1) ^ 2 * T := by
        field_simp
        ring
      rw [e, ← hT, mul_div_cancel₀ _ hpos.ne'] at this
      have := le_abs_self B
      linarith
    · exfalso
      have hTn : 0 ≤ (2 * (|B| + |t.torque| + t.kd + 1) / t.kp + 1) := by positivity
      have := hB (rampMotion 1) _ (by simp [rampMotion]) hTn
      rw [ramp_work] at this
      generalize hT : 2 * (|B| + |t.torque| + t.kd + 1) / t.kp + 1 = T at this hTn
      have h1 : t.kp * (T - 1) = 2 * (|B| + |t.torque| + t.kd + 1) := by rw [← hT]; field_simp; ring
      have hT1 : 1 ≤ T := by rw [← hT]; have : 0 ≤ 2 * (|B| + |t.torque| + t.kd + 1) / t.kp := by positivity
                             linarith
      have h2 := le_abs_self B
      have h3 := neg_abs_le t.torque
      have h4 := abs_nonneg B
      have h5 : (|B| + |t.torque| + t.kd + 1) * 1 ≤ (|B| + |t.torque| + t.kd + 1) * T :=
        mul_le_mul_of_nonneg_left hT1 (by positivity)
      have h6 : t.torque * T ≥ -|t.torque| * T := mul_le_mul_of_nonneg_right h3 hTn
      nlinarith [abs_nonneg t.torque]
  · rintro ⟨hkd, hk⟩ q0
    have hdis : ∀ (m : JointMotion) (T : ℝ), 0 ≤ T → 0 ≤ t.kd * ∫ x in (0 : ℝ)..T, m.v x ^ 2 := fun m T hT =>
      mul_nonneg hkd (intervalIntegral.integral_nonneg hT fun x _ => sq_nonneg _)
    rcases hk with hk | ⟨hk, ht⟩
    · refine ⟨-(t.torque ^ 2 / (2 * t.kp)) - (t.torque * q0 + t.kp * q0 ^ 2 / 2), fun m T h0 hT => ?_⟩
      rw [law_work, h0]
      have := hdis m T hT
      have hsq : t.torque * m.q T + t.kp * m.q T ^ 2 / 2 = -(t.torque ^ 2 / (2 * t.kp)) + t.kp / 2 * (m.q T + t.torque / t.kp) ^ 2 := by
        have := hk.ne
        field_simp
        ring
      have : t.kp / 2 * (m.q T + t.torque / t.kp) ^ 2 ≤ 0 := mul_nonpos_of_nonpos_of_nonneg (by linarith) (sq_nonneg _)
      linarith
    · refine ⟨0, fun m T h0 hT => ?_⟩
      rw [law_work, hk, ht]
      have := hdis m T hT
      linarith

/-- **C182, partial.** Without stiffness the joint acts as a damper, and with a negative stiffness as a passive spring. Missing: the
stiffnesses that the documentation uses, which are positive (`C182_refuted`). -/
theorem C182_partial (kp kd : ℝ) (hk : kp ≤ 0) (hd : 0 ≤ kd) : Passive (TargetTau.law ⟨0, kp, kd⟩) := by
  rcases hk.lt_or_eq with h | h
  · exact (C182_exact ⟨0, kp, kd⟩).2 ⟨hd, .inl h⟩
  · exact (C182_exact ⟨0, kp, kd⟩).2 ⟨hd, .inr ⟨h, rfl⟩⟩

/-- The torque of a successful solve is the one of the last call for the joint, and its work along a motion follows the energy balance of a
spring of stiffness `-kp`. -/
theorem C182_work (env : DEnv ℝ) (hS : env.toQPEnv.Sound) (r : DynRobot ℝ) (hn : ∀ name j, r.toRobot.vJoint name = .ok j → j.idxV < r.nv)
    (tasks : List (DTask ℝ)) (contacts : List (Contact ℝ)) (cons : List (DConstraint ℝ)) (integrate : Bool) (calls : List (TorqueCall ℝ)) (w : ℝ)
    (ht : (⟨.hard, w, true, torqueUpdate r.toRobot (torquesAfter calls)⟩ : DTask ℝ) ∈ tasks)
    (hall : ∀ name t, lastTorque name calls.reverse = some t → ∃ j, r.toRobot.vJoint name = .ok j)
    (name : String) (t : TargetTau ℝ) (hlast : lastTorque name calls.reverse = some t) (j : Joint) (hj : r.toRobot.vJoint name = .ok j)
    (m : JointMotion) (s : ℝ → DState ℝ) (hq : ∀ x, (s x).robot.q j.idxQ = m.q x) (hv : ∀ x, (s x).robot.qd j.idxV = m.v x)
    (res : ℝ → Result ℝ) (h : ∀ x, (solve env r tasks contacts cons integrate (s x)).2 = .ok (res x)) (hok : ∀ x, (res x).success = true) (T : ℝ) :
    (∀ x, (res x).tau j.idxV = t.law (m.q x) (m.v x)) ∧
    ∫ x in (0 : ℝ)..T, (res x).tau j.idxV * m.v x =
      (t.torque * m.q T + t.kp * m.q T ^ 2 / 2) - (t.torque * m.q 0 + t.kp * m.q 0 ^ 2 / 2) - t.kd * ∫ x in (0 : ℝ)..T, m.v x ^ 2 := by
  obtain ⟨hw, hf⟩ := torquesAfter_spec calls
  have h1 : ∀ x, (res x).tau j.idxV = t.law (m.q x) (m.v x) := by
    intro x
    obtain ⟨rs, hrs⟩ : ∃ rs, solve env r tasks contacts cons integrate (s x) = (rs, .ok (res x)) := ⟨_, Prod.ext rfl (h x)⟩
    rw [C103 env hS r hn tasks contacts cons integrate (s x) rs (res x) hrs (hok x) _ w ht name t
      ((SMap.mem_iff_find? _ hw name t).2 (by rw [hf]; exact hlast)) j hj ?_, hq, hv]
    · rfl
    · rintro ⟨n', t'⟩ hp
      exact hall n' t' (by rw [← hf]; exact (SMap.mem_iff_find? _ hw n' t').1 hp)
  refine ⟨h1, ?_⟩
  rw [← law_work]
  refine intervalIntegral.integral_congr fun x _ => ?_
  show (res x).tau j.idxV * m.v x = _
  rw [h1 x]

/-! ## A positive stiffness gives energy away -/

/-- The hinge at a position and a velocity. -/
noncomputable def hingeAt (q v : ℝ) : DState ℝ :=
  { hingeDState with robot := ⟨fun i => if i = 7 then q else 0, fun i => if i = 6 then v else 0, fun _ => 0⟩ }

/-- The hard torque task of the documentation: no torque, a stiffness and a damping, on the hinge. -/
noncomputable def springTask (kp kd : ℝ) : DTask ℝ :=
  ⟨.hard, 1, true, torqueUpdate hingeDyn.toRobot (torquesAfter [.set "hinge" 0 kp kd])⟩

theorem spring_update (kp kd q v : ℝ) : (springTask kp kd).update (hingeAt q v).robot =
    .ok ⟨1, 7, fun k j => if j = ([((6 : Nat), kp * q - kd * v)].getD k (0, 0)).1 then 1 else 0,
      fun k => ([((6 : Nat), kp * q - kd * v)].getD k (0, 0)).2⟩ := by
  have h : (hingeDyn.toRobot.vJoint "hinge") = .ok ⟨"hinge", 7, 1, 6, 1⟩ := by
    simp [Robot.vJoint, hingeDyn, hingeRobot]
  show torqueUpdate hingeDyn.toRobot [("hinge", ⟨0, kp, kd⟩)] (hingeAt q v).robot = _
  unfold torqueUpdate
  simp only [List.mapM_cons, List.mapM_nil, torqueRow, h, Bind.bind, Except.bind, pure, Except.pure]
  simp only [hingeAt, if_true, zero_add]
  rfl

/-- The hinge with this task can be solved at every position and velocity. -/
theorem spring_solves (env : DEnv ℝ) (hex : env.toQPEnv.Exact) (hreg : 0 < env.regularization) (htol : 0 ≤ env.tol) (kp kd q v : ℝ) :
    ∃ res, (solve env hingeDyn [springTask kp kd] [] [] false (hingeAt q v)).2 = .ok res ∧ res.success = true := by
  refine (C166_partial env hingeDyn (by decide) [springTask kp kd] [] false (hingeAt q v) (by simp) ?_ ?_ zero_le_one (fun f h => (by cases h))
    (fun _ => one_ne_zero) hreg htol hex fun _ => ?_).1.2 ?_
  · intro t ht
    rw [List.mem_singleton.1 ht]
    exact ⟨by simp [springTask], _, spring_update kp kd q v, rfl⟩
  · intro t ht h
    rw [List.mem_singleton.1 ht] at h
    cases h
  · intro rs es u hrs hes
    obtain ⟨p, rfl, hp⟩ := List.map_eq_singleton_iff.1 hrs
    have hes : es = [] := List.map_eq_nil_iff.1 hes
    subst hes
    refine ⟨fun k => if k = 6 then p.2 0 else u k, fun k => if k = 6 then p.2 0 else u k, [], [], rfl, fun i hi => ?_, .nil, fun _ i hi => ?_,
      fun h => (by cases h), fun p' hp' _ M hM i hi => ?_⟩
    · rw [hinge_mass_mul _ _ i hi]
      simp [generalised]
    · simp only
      rw [if_neg (by omega)]
    · rw [List.mem_singleton.1 hp'] at hM ⊢
      rw [hp, spring_update] at hM
      cases hM
      have hi : i < 1 := hi
      obtain rfl : i = 0 := by omega
      simp [hp, springTask, Finset.sum_range_succ]
  · refine ⟨fun k => if k = 6 then kp * q - kd * v else 0, fun k => if k = 6 then kp * q - kd * v else 0, [], ⟨⟨[], rfl, fun i hi => ?_⟩, .nil,
      fun _ i hi => ?_, fun h => (by cases h), fun t ht _ M hM i hi => ?_, ⟨fun h => (by cases h), fun h => (by cases h), fun h => (by cases h),
        fun h => (by cases h), fun h => (by cases h)⟩⟩⟩
    · rw [hinge_mass_mul _ _ i hi]
      simp [hingeAt, hingeDState, hingeDyn, generalised]
    · show (if i = 6 then kp * q - kd * v else 0) = 0
      rw [if_neg (by omega)]
    · rw [List.mem_singleton.1 ht] at hM ⊢
      rw [spring_update] at hM
      cases hM
      have hi : i < 1 := hi
      obtain rfl : i = 0 := by omega
      simp [springTask]

/-- **C182 is false** of every positive stiffness (the documentation uses 1, with a damping of 0.1): the torque is not passive. On the hinge,
solved at every instant of a motion that starts at zero, the torque of the solver does as much work as wanted. -/
theorem C182_refuted (env : DEnv ℝ) (hex : env.toQPEnv.Exact) (hreg : 0 < env.regularization) (htol : 0 ≤ env.tol) (kp kd : ℝ) (hk : 0 < kp) :
    ¬ Passive (TargetTau.law ⟨0, kp, kd⟩) ∧
    ∀ B, ∃ (m : JointMotion) (T : ℝ), m.q 0 = 0 ∧ 0 ≤ T ∧
      (∀ t, ∃ res, (solve env hingeDyn [springTask kp kd] [] [] false (hingeAt (m.q t) (m.v t))).2 = .ok res ∧ res.success = true) ∧
      ∀ res : ℝ → Result ℝ, (∀ t, (solve env hingeDyn [springTask kp kd] [] [] false (hingeAt (m.q t) (m.v t))).2 = .ok (res t) ∧
        (res t).success = true) → B < ∫ t in (0 : ℝ)..T, (res t).tau 6 * m.v t := by
  constructor
  · intro h
    rcases ((C182_exact ⟨0, kp, kd⟩).1 h).2 with h | h
    · exact absurd h (not_lt.2 hk.le)
    · exact hk.ne' h.1
  · intro B
    have hT1 : 0 ≤ 2 * (|B| + |kd| + 1) / kp := by positivity
    refine ⟨rampMotion 1, 2 * (|B| + |kd| + 1) / kp + 1, by simp [rampMotion], by linarith,
      fun t => spring_solves env hex hreg htol kp kd _ _, fun res hres => ?_⟩
    have hw := C182_work env hex.sound hingeDyn (fun name j hj => ?_) [springTask kp kd] [] [] false [.set "hinge" 0 kp kd] 1
      (List.mem_singleton.2 rfl) (fun name t h => ?_) "hinge" ⟨0, kp, kd⟩ (by simp [lastTorque]) ⟨"hinge", 7, 1, 6, 1⟩
      (by simp [Robot.vJoint, hingeDyn, hingeRobot]) (rampMotion 1) (fun t => hingeAt ((rampMotion 1).q t) ((rampMotion 1).v t))
      (fun x => by simp [hingeAt]) (fun x => by simp [hingeAt]) res (fun x => (hres x).1) (fun x => (hres x).2)
      (2 * (|B| + |kd| + 1) / kp + 1)
    · rw [hw.2, ← law_work, ramp_work]
      generalize hT : 2 * (|B| + |kd| + 1) / kp + 1 = T
      have h1 : kp * (T - 1) = 2 * (|B| + |kd| + 1) := by rw [← hT]; field_simp; ring
      have hTT : 1 ≤ T := by rw [← hT]; linarith
      have h2 := le_abs_self B
      have h3 := le_abs_self kd
      have h5 : (|B| + |kd| + 1) * 1 ≤ (|B| + |kd| + 1) * T := mul_le_mul_of_nonneg_left hTT (by positivity)
      have h6 : kd * T ≤ |kd| * T := mul_le_mul_of_nonneg_right h3 (by linarith)
      simp only
      nlinarith [abs_nonneg B, abs_nonneg kd]
    · unfold Robot.vJoint at hj
      simp only [hingeDyn, hingeRobot, List.find?_cons, List.find?_nil] at hj
      split at hj
      · split at *
        all_goals cases hj
        all_goals simp_all [hingeDyn, hingeRobot]
        all_goals (rename_i h; subst h; show 6 < 7; omega)
      · cases hj
    · simp only [List.reverse_singleton, lastTorque] at h
      split at h
      · rename_i hname
        exact ⟨⟨"hinge", 7, 1, 6, 1⟩, by subst hname; simp [Robot.vJoint, hingeDyn, hingeRobot]⟩
      · cases h

/-- A stiffness is lost energy in the wrong direction: released near zero, a joint of inertia `I` under the torque of a positive stiffness runs
away to infinity, whatever the damping. -/
theorem C182_unstable (I kp kd ε : ℝ) (hI : 0 < I) (hk : 0 < kp) (hε : 0 < ε) :
    ∃ (m : JointMotion) (a : ℝ → ℝ), m.q 0 = ε ∧ (∀ t, HasDerivAt m.v (a t) t) ∧
      (∀ t, I * a t = TargetTau.law ⟨0, kp, kd⟩ (m.q t) (m.v t)) ∧ Filter.Tendsto m.q Filter.atTop Filter.atTop := by
  have hdisc : 0 < kd ^ 2 + 4 * I * kp := by positivity
  let l := (-kd + Real.sqrt (kd ^ 2 + 4 * I * kp)) / (2 * I)
  have hl : 0 < l := by
    refine div_pos ?_ (by linarith)
    have : |kd| < Real.sqrt (kd ^ 2 + 4 * I * kp) := by
      rw [← Real.sqrt_sq_eq_abs]
      exact Real.sqrt_lt_sqrt (sq_nonneg _) (by nlinarith)
    linarith [le_abs_self kd]
  have hq : I * l ^ 2 = kp - kd * l := by
    have hs := Real.sq_sqrt hdisc.le
    show I * ((-kd + Real.sqrt (kd ^ 2 + 4 * I * kp)) / (2 * I)) ^ 2 = kp - kd * ((-kd + Real.sqrt (kd ^ 2 + 4 * I * kp)) / (2 * I))
    generalize Real.sqrt (kd ^ 2 + 4 * I * kp) = z at hs
    field_simp
    linear_combination hs
  have he : ∀ t, HasDerivAt (fun t => Real.exp (l * t)) (Real.exp (l * t) * l) t := fun t => by
    simpa using ((hasDerivAt_id t).const_mul l).exp
  refine ⟨⟨fun t => ε * Real.exp (l * t), fun t => ε * (Real.exp (l * t) * l), fun t => (he t).const_mul ε, by fun_prop⟩,
    fun t => ε * (Real.exp (l * t) * l * l), by simp, fun t => ((he t).mul_const l).const_mul ε, fun t => ?_, ?_⟩
  · simp only [TargetTau.law]
    linear_combination ε * Real.exp (l * t) * hq
  · exact (Real.tendsto_exp_atTop.comp (Filter.tendsto_id.const_mul_atTop hl)).const_mul_atTop hε

/-- A session: the knee is set and reset, the hip is set twice. -/
example : lastTorque "knee" [TorqueCall.set "knee" (1 : ℝ) 0 0, .set "hip" 2 0 0, .reset "knee", .set "hip" 3 1 (1 / 2)].reverse = none ∧
    lastTorque "hip" [TorqueCall.set "knee" (1 : ℝ) 0 0, .set "hip" 2 0 0, .reset "knee", .set "hip" 3 1 (1 / 2)].reverse = some ⟨3, 1, 1 / 2⟩ := by
  constructor <;> simp [lastTorque]

/-- The hypotheses of `C182_refuted` are met by exact solvers. -/
example : ∃ env : DEnv ℝ, env.toQPEnv.Exact ∧ 0 < env.regularization ∧ 0 ≤ env.tol := by
  obtain ⟨env, hex, -, -, hreg, -, -, htol⟩ := exact_env_exists 1 0 0 true
  exact ⟨⟨env, Real.sqrt⟩, hex, by show 0 < env.regularization; rw [hreg]; exact one_pos, by show 0 ≤ env.tol; rw [htol]⟩

end Verif.Dynamics
