/-
Properties C155 and C156: histories of settings by joint name, integration of the motion.
-/
import Mathlib.Tactic.Ring
import Mathlib.Tactic.FieldSimp
import Mathlib.Tactic.LinearCombination
import Mathlib.Algebra.Order.Field.Basic
import Verif.Robot.Accessors
import Verif.Dynamics.SolverLemmas

namespace Verif.Robot
open Verif.Problem

/-! ## C155 -/

/-- Joints as pinocchio lays them out: unique names, and (apart from the universe) different coordinates. -/
structure JointsOK (joints : List Kinematics.Joint) : Prop where
  names : ∀ j ∈ joints, ∀ k ∈ joints, j.name = k.name → j = k
  distinct : ∀ j ∈ joints, ∀ k ∈ joints, j.name ≠ "universe" → k.name ≠ "universe" → j.idxQ = k.idxQ ∨ j.idxV = k.idxV → j = k

/-- The calls name joints of the robot, other than the universe. -/
def ParamCall.Legal {K : Type} (joints : List Kinematics.Joint) : ParamCall K → Prop
  | .set _ name _ => name ≠ "universe" ∧ ∃ j ∈ joints, j.name = name
  | .limits name _ _ => name ≠ "universe" ∧ ∃ j ∈ joints, j.name = name
  | .velocities _ => True

/-- What a call sets for a parameter of a joint. -/
def ParamCall.value {K : Type} (f : Param) (name : String) : ParamCall K → Option K
  | .set f' name' v => if f' = f ∧ name' = name then some v else none
  | .limits name' lower upper => if name' = name then (if f = .lower then some lower else if f = .upper then some upper else none) else none
  | .velocities v => if f = .velocityLimit ∧ name ≠ "universe" ∧ name ≠ "root_joint" then some v else none

/-- The last value set, `x` if there is none. -/
def lastSet {K : Type} (f : Param) (name : String) : List (ParamCall K) → K → K
  | [], x => x
  | c :: cs, x => lastSet f name cs ((c.value f name).getD x)

theorem find_known {joints : List Kinematics.Joint} (hj : JointsOK joints) {j : Kinematics.Joint} (h : j ∈ joints) :
    joints.find? (fun k => k.name = j.name) = some j := by
  cases h' : joints.find? (fun k => k.name = j.name) with
  | none =>
    rw [List.find?_eq_none] at h'
    exact absurd (h' j h) (by simp)
  | some k =>
    have h1 := List.find?_some h'
    have h2 := List.mem_of_find?_eq_some h'
    rw [hj.names k h2 j h (by simpa using h1)]

/-- The index of the parameter of a joint. -/
def Param.at (f : Param) (j : Kinematics.Joint) : Nat :=
  match f with
  | .q | .lower | .upper => j.idxQ
  | _ => j.idxV

theorem index_known {joints : List Kinematics.Joint} (hj : JointsOK joints) {j : Kinematics.Joint} (h : j ∈ joints) (f : Param) :
    f.index joints j.name = .ok (f.at j) := by
  have hf := find_known hj h
  cases f <;> simp [Param.index, Param.at, jointOffset, jointUnchecked, hf, Except.map]

theorem at_distinct {joints : List Kinematics.Joint} (hj : JointsOK joints) {j k : Kinematics.Joint} (h : j ∈ joints) (hk : k ∈ joints)
    (h1 : j.name ≠ "universe") (h2 : k.name ≠ "universe") (f : Param) (e : f.at j = f.at k) : j = k := by
  refine hj.distinct j h k hk h1 h2 ?_
  cases f <;> first | exact Or.inl e | exact Or.inr e

variable {K : Type}

/-- The value of a parameter after a call, for each joint. -/
def Updates (joints : List Kinematics.Joint) (val : Param → String → Option K) (s s' : Params K) : Prop :=
  ∀ f, ∀ j ∈ joints, j.name ≠ "universe" → s' f (f.at j) = (val f j.name).getD (s f (f.at j))

theorem write_spec {joints : List Kinematics.Joint} (hj : JointsOK joints) {k : Kinematics.Joint} (hk : k ∈ joints)
    (hu : k.name ≠ "universe") (s : Params K) (f : Param) (v : K) :
    Updates joints (fun f' n => if f = f' ∧ k.name = n then some v else none) s (s.write f (f.at k) v) := by
  intro f' j hjm hju
  unfold Params.write
  dsimp only
  by_cases h : f = f' ∧ k.name = j.name
  · rw [if_pos h]
    obtain ⟨rfl, h2⟩ := h
    rw [hj.names k hk j hjm h2, if_pos ⟨rfl, rfl⟩]
    rfl
  · rw [if_neg h, if_neg]
    · rfl
    · rintro ⟨rfl, h2⟩
      exact h ⟨rfl, by rw [at_distinct hj hk hjm hu hju f' h2.symm]⟩

theorem velocities_spec {joints : List Kinematics.Joint} (hj : JointsOK joints) (v : K) (l : List String)
    (hl : ∀ n ∈ l, n ≠ "universe" ∧ ∃ j ∈ joints, j.name = n) : ∀ s : Params K, ∃ s', Params.setVelocityLimitsOn joints v l s = .ok s' ∧
      Updates joints (fun f n => if f = .velocityLimit ∧ n ∈ l then some v else none) s s' ∧
      ∀ f i, (f = .velocityLimit → ∀ j ∈ joints, j.name ∈ l → j.idxV ≠ i) → s' f i = s f i := by
  induction l with
  | nil => intro s; exact ⟨s, rfl, fun f j _ _ => by simp, fun _ _ _ => rfl⟩
  | cons n l ih =>
    intro s
    obtain ⟨hu, k, hk, rfl⟩ := hl n List.mem_cons_self
    have hset : s.set joints .velocityLimit k.name v = .ok (s.write .velocityLimit (Param.at .velocityLimit k) v) := by
      unfold Params.set
      rw [index_known hj hk]
      rfl
    obtain ⟨s', e, h1, h2⟩ := ih (fun n hn => hl n (List.mem_cons_of_mem _ hn)) (s.write .velocityLimit (Param.at .velocityLimit k) v)
    refine ⟨s', ?_, fun f j hjm hju => ?_, fun f i hi => ?_⟩
    · unfold Params.setVelocityLimitsOn
      simp only [hset, Bind.bind, Except.bind]
      exact e
    · rw [h1 f j hjm hju, write_spec hj hk hu s .velocityLimit v f j hjm hju]
      by_cases hf : f = .velocityLimit
      · subst hf
        by_cases hjl : j.name ∈ l
        · simp [hjl]
        · by_cases hkj : k.name = j.name
          · simp [hjl, hkj]
          · have : j.name ≠ k.name := fun h => hkj h.symm
            simp [hjl, hkj, this]
      · have : ¬ (Param.velocityLimit = f) := fun h => hf h.symm
        simp [hf, this]
    · rw [h2 f i fun hf j hjm hjl => hi hf j hjm (List.mem_cons_of_mem _ hjl)]
      unfold Params.write
      refine if_neg ?_
      rintro ⟨hf, rfl⟩
      exact hi hf k hk List.mem_cons_self rfl

theorem namesOf_mem (joints : List Kinematics.Joint) (n : String) :
    n ∈ namesOf joints ↔ (∃ j ∈ joints, j.name = n) ∧ n ≠ "universe" ∧ n ≠ "root_joint" := by
  unfold namesOf
  simp only [List.mem_filter, List.mem_map, ne_eq, decide_not, Bool.not_eq_eq_eq_not, Bool.not_true, decide_eq_false_iff_not, and_assoc]

theorem call_spec {joints : List Kinematics.Joint} (hj : JointsOK joints) (c : ParamCall K) (hc : c.Legal joints) (s : Params K) :
    ∃ s', s.step joints c = .ok s' ∧ Updates joints (fun f n => c.value f n) s s' := by
  cases c with
  | set f name v =>
    obtain ⟨hu, k, hk, rfl⟩ := hc
    refine ⟨s.write f (f.at k) v, ?_, write_spec hj hk hu s f v⟩
    show s.set joints f k.name v = _
    unfold Params.set
    rw [index_known hj hk]
    rfl
  | limits name lower upper =>
    obtain ⟨hu, k, hk, rfl⟩ := hc
    refine ⟨(s.write .lower k.idxQ lower).write .upper k.idxQ upper, ?_, fun f j hjm hju => ?_⟩
    · show s.setJointLimits joints k.name lower upper = _
      unfold Params.setJointLimits
      rw [show jointOffset joints k.name = .ok k.idxQ from index_known hj hk .q]
      rfl
    · have h1 := write_spec hj hk hu s .lower lower f j hjm hju
      have h2 := write_spec hj hk hu (s.write .lower k.idxQ lower) .upper upper f j hjm hju
      refine h2.trans ?_
      rw [show (s.write .lower k.idxQ lower) f (f.at j) = _ from h1]
      unfold ParamCall.value
      by_cases hn : k.name = j.name
      · cases f <;> simp [hn]
      · simp [hn]
  | velocities v =>
    obtain ⟨s', e, h, -⟩ := velocities_spec hj v (namesOf joints) (fun n hn => by
      obtain ⟨h1, h2, -⟩ := (namesOf_mem joints n).1 hn
      exact ⟨h2, h1⟩) s
    refine ⟨s', e, fun f j hjm hju => ?_⟩
    rw [h f j hjm hju]
    unfold ParamCall.value
    have : j.name ∈ namesOf joints ↔ j.name ≠ "universe" ∧ j.name ≠ "root_joint" := by
      rw [namesOf_mem]
      exact ⟨fun h => h.2, fun h => ⟨⟨j, hjm, rfl⟩, h⟩⟩
    simp only [this]

/-- **C155, what is true.** After any sequence of calls by name, each parameter read by the name of a joint is the last value set for
that joint (alone, by `set_joint_limits`, or by `set_velocity_limits` when it is neither the universe nor the floating base), or the
initial one; no call fails. Missing for the full C155: the coordinates of joints with several velocities (`C155_refuted`). -/
theorem C155_partial (joints : List Kinematics.Joint) (hj : JointsOK joints) (cs : List (ParamCall K)) :
    ∀ s : Params K, (∀ c ∈ cs, c.Legal joints) → ∃ s', Params.run joints cs s = .ok s' ∧
      ∀ f, ∀ j ∈ joints, j.name ≠ "universe" → ∃ x, s.get joints f j.name = .ok x ∧ s'.get joints f j.name = .ok (lastSet f j.name cs x) := by
  induction cs with
  | nil =>
    intro s _
    refine ⟨s, rfl, fun f j hjm _ => ⟨s f (f.at j), ?_, ?_⟩⟩ <;>
    · unfold Params.get
      rw [index_known hj hjm]
      rfl
  | cons c cs ih =>
    intro s hl
    obtain ⟨s1, e1, h1⟩ := call_spec hj c (hl c List.mem_cons_self) s
    obtain ⟨s', e2, h2⟩ := ih s1 fun c hc => hl c (List.mem_cons_of_mem _ hc)
    refine ⟨s', ?_, fun f j hjm hju => ⟨s f (f.at j), ?_, ?_⟩⟩
    · unfold Params.run
      simp only [e1, Bind.bind, Except.bind]
      exact e2
    · unfold Params.get
      rw [index_known hj hjm]
      rfl
    · obtain ⟨x, hx, hx'⟩ := h2 f j hjm hju
      have : x = (c.value f j.name).getD (s f (f.at j)) := by
        unfold Params.get at hx
        rw [index_known hj hjm] at hx
        injection hx with hx
        rw [← hx]
        exact h1 f j hjm hju
      rw [hx', this]
      rfl

/-- C155: unknown names. Positions and position limits raise a `runtime_error`, nothing else does (undefined behaviour). -/
theorem C155_unknown (joints : List Kinematics.Joint) (name : String) (h : ∀ j ∈ joints, j.name ≠ name) (s : Params K) (f : Param) (v : K) :
    s.set joints f name v = .error (if f = .q ∨ f = .lower ∨ f = .upper then .runtimeError else .ub) := by
  have hf : joints.find? (fun j => j.name = name) = none := by
    rw [List.find?_eq_none]
    intro j hj
    simpa using h j hj
  cases f <;> simp [Params.set, Param.index, jointOffset, jointUnchecked, hf, Except.map]

/-- **C155 is false** for joints with several velocities: `set_velocity_limits` changes the first one only. -/
theorem C155_refuted (joints : List Kinematics.Joint) (hj : JointsOK joints) (s : Params K) (v : K) (i : Nat)
    (hi : ∀ j ∈ joints, j.name ≠ "universe" → j.name ≠ "root_joint" → j.idxV ≠ i) (hv : s .velocityLimit i ≠ v) :
    ∃ s', s.setVelocityLimits joints v = .ok s' ∧ s' .velocityLimit i ≠ v := by
  obtain ⟨s', e, -, h⟩ := velocities_spec hj v (namesOf joints) (fun n hn => by
      obtain ⟨h1, h2, -⟩ := (namesOf_mem joints n).1 hn
      exact ⟨h2, h1⟩) s
  refine ⟨s', e, ?_⟩
  rw [h .velocityLimit i fun _ j hjm hjn => hi j hjm ((namesOf_mem joints _).1 hjn).2.1 ((namesOf_mem joints _).1 hjn).2.2]
  exact hv

/-! ## C156 -/

variable [Field K]

theorem integrate_ok (nv : Nat) (hnv : nv ≠ 0) (vel : Nat → Option Nat) (dt : K) (s : Motion K) (h1 : s.qd.size = nv) (h2 : s.qdd.size = nv) :
    s.integrate nv vel dt = .ok ⟨fun i => match vel i with
        | some k => s.q i + (s.qd.v k + dt * s.qdd.v k) * dt
        | none => s.q i, ⟨nv, fun i => s.qd.v i + dt * s.qdd.v i⟩, s.qdd⟩ := by
  obtain ⟨q, ⟨n, qd⟩, ⟨n', qdd⟩⟩ := s
  dsimp only at h1 h2
  subst h1 h2
  simp [Motion.integrate, hnv]
  rfl

/-- **C156, exact.** `n` steps of `dt` at constant acceleration: the velocities are exact, and the positions are those of the exact
motion plus `n dt² qdd / 2`, that is half a step times the change of velocity. -/
theorem C156_partial [CharZero K] (nv : Nat) (hnv : nv ≠ 0) (vel : Nat → Option Nat) (dt : K) (n : Nat) : ∀ s : Motion K, s.qd.size = nv →
    s.qdd.size = nv → ∃ s', Motion.steps nv vel dt n s = .ok s' ∧ s'.qdd = s.qdd ∧ s'.qd.size = nv ∧
      (∀ k, s'.qd.v k = s.qd.v k + n * dt * s.qdd.v k) ∧
      (∀ i k, vel i = some k → s'.q i = s.q i + n * dt * s.qd.v k + (n * dt) ^ 2 / 2 * s.qdd.v k + n * dt ^ 2 / 2 * s.qdd.v k) ∧
      ∀ i, vel i = none → s'.q i = s.q i := by
  induction n with
  | zero => intro s h1 _; exact ⟨s, rfl, rfl, h1, by simp, by simp, fun _ _ => rfl⟩
  | succ n ih =>
    intro s h1 h2
    have e := integrate_ok nv hnv vel dt s h1 h2
    obtain ⟨s', e', a1, a2, a3, a4, a5⟩ := ih ⟨fun i => match vel i with
        | some k => s.q i + (s.qd.v k + dt * s.qdd.v k) * dt
        | none => s.q i, ⟨nv, fun i => s.qd.v i + dt * s.qdd.v i⟩, s.qdd⟩ rfl h2
    refine ⟨s', ?_, a1, a2, fun k => ?_, fun i k hi => ?_, fun i hi => ?_⟩
    · unfold Motion.steps
      simp only [e, Bind.bind, Except.bind]
      exact e'
    · rw [a3]; push_cast; ring
    · rw [a4 i k hi]
      simp only [hi]
      push_cast
      field_simp
      ring
    · rw [a5 i hi]
      simp only [hi]

/-- C156: without acceleration (`qdd` of size 0) the velocities are kept and the positions are exact. A robot whose velocities are
not set does not move. -/
theorem C156_uniform (nv : Nat) (vel : Nat → Option Nat) (dt : K) (n : Nat) : ∀ s : Motion K, (s.qd.size = nv ∨ s.qd.size = 0) →
    s.qdd.size = 0 → ∃ s', Motion.steps nv vel dt n s = .ok s' ∧
      ∀ i k, vel i = some k → s'.q i = s.q i + n * dt * (if s.qd.size = 0 then 0 else s.qd.v k) := by
  induction n with
  | zero => intro s _ _; exact ⟨s, rfl, by simp⟩
  | succ n ih =>
    intro s h1 h2
    by_cases h0 : s.qd.size = 0
    · have e : s.integrate nv vel dt = .ok ⟨fun i => match vel i with
          | some _ => s.q i + 0 * dt
          | none => s.q i, ⟨nv, fun _ => 0⟩, s.qdd⟩ := by
        unfold Motion.integrate
        simp [h0, h2]
        rfl
      obtain ⟨s', e', a⟩ := ih ⟨fun i => match vel i with
          | some _ => s.q i + 0 * dt
          | none => s.q i, ⟨nv, fun _ => 0⟩, s.qdd⟩ (Or.inl rfl) h2
      refine ⟨s', ?_, fun i k hi => ?_⟩
      · unfold Motion.steps
        simp only [e, Bind.bind, Except.bind]
        exact e'
      · rw [a i k hi, if_pos h0]
        simp [hi]
    · have hnv : s.qd.size = nv := h1.resolve_right h0
      have e : s.integrate nv vel dt = .ok ⟨fun i => match vel i with
          | some k => s.q i + s.qd.v k * dt
          | none => s.q i, s.qd, s.qdd⟩ := by
        unfold Motion.integrate
        simp [h2, hnv, hnv ▸ h0]
        rfl
      obtain ⟨s', e', a⟩ := ih ⟨fun i => match vel i with
          | some k => s.q i + s.qd.v k * dt
          | none => s.q i, s.qd, s.qdd⟩ (Or.inl hnv) h2
      refine ⟨s', ?_, fun i k hi => ?_⟩
      · unfold Motion.steps
        simp only [e, Bind.bind, Except.bind]
        exact e'
      · rw [a i k hi]
        dsimp only
        rw [if_neg h0, hi]
        push_cast
        ring

/-- **C156 is false**: with a non-zero step and acceleration, no positive number of steps gives the exact position. -/
theorem C156_refuted [CharZero K] (nv : Nat) (hnv : nv ≠ 0) (vel : Nat → Option Nat) (dt : K) (hdt : dt ≠ 0) (n : Nat) (hn : n ≠ 0)
    (s s' : Motion K) (h1 : s.qd.size = nv) (h2 : s.qdd.size = nv) (i k : Nat) (hi : vel i = some k) (ha : s.qdd.v k ≠ 0)
    (e : Motion.steps nv vel dt n s = .ok s') :
    s'.q i ≠ s.q i + n * dt * s.qd.v k + (n * dt) ^ 2 / 2 * s.qdd.v k := by
  obtain ⟨s'', e', -, -, -, a, -⟩ := C156_partial nv hnv vel dt n s h1 h2
  rw [e] at e'
  injection e' with e'
  rw [e', a i k hi]
  intro h
  have h3 : (n : K) * dt ^ 2 / 2 * s.qdd.v k = 0 := by linear_combination h
  have hn' : (n : K) ≠ 0 := Nat.cast_ne_zero.2 hn
  have : (n : K) * dt ^ 2 / 2 * s.qdd.v k ≠ 0 := by
    refine mul_ne_zero (div_ne_zero (mul_ne_zero hn' (pow_ne_zero 2 hdt)) two_ne_zero) ha
  exact this h3

/-! ## Concrete cases -/

/-- A robot with a hinge and a ball joint. -/
def hingeBall : List Kinematics.Joint :=
  [⟨"universe", 0, 0, 0, 0⟩, ⟨"root_joint", 0, 7, 0, 6⟩, ⟨"hinge", 7, 1, 6, 1⟩, ⟨"ball", 8, 4, 7, 3⟩]

theorem hingeBall_ok : JointsOK hingeBall := ⟨by decide, by decide⟩

example : ∃ s', Params.run hingeBall [.set .q "hinge" 2, .velocities 5, .limits "hinge" (-1) 1, .set .velocityLimit "hinge" 3]
    (fun _ _ => (0 : ℚ)) = .ok s' ∧ s'.get hingeBall .velocityLimit "hinge" = .ok 3 ∧ s'.get hingeBall .velocityLimit "ball" = .ok 5 ∧
    s'.get hingeBall .upper "hinge" = .ok 1 := ⟨_, rfl, rfl, rfl, rfl⟩

/-- C155: the second velocity of the ball joint has no limit set. -/
example : ∃ s', Params.setVelocityLimits (fun _ _ => (0 : ℚ)) hingeBall 5 = .ok s' ∧ s' .velocityLimit 8 ≠ 5 :=
  C155_refuted hingeBall hingeBall_ok _ 5 8 (by decide) (by norm_num)

/-- C156: one step of 1 at acceleration 2 from rest gives 2, the exact position is 1. -/
example : ∃ s', Motion.steps 1 (fun i => if i = 0 then some 0 else none) 1 1 (⟨fun _ => 0, ⟨1, fun _ => 0⟩, ⟨1, fun _ => 2⟩⟩ : Motion ℚ) = .ok s' ∧
    s'.q 0 = 2 := ⟨_, rfl, by norm_num⟩

end Verif.Robot
