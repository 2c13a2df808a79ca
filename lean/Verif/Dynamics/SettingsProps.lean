/-
Properties of the settings of the dynamics solver and of its tasks (C149): after any sequence of calls, each joint has the
value of the last call for it, and nothing else has changed.
-/
import Verif.Dynamics.ContactWorkProps
import Verif.Dynamics.Examples

namespace Verif.Dynamics
open Finset Verif.Problem Verif.Kinematics

section
variable {K : Type} [Field K]

/-! ## `set_qdd_safe` and `set_torque_limit` -/

/-- Specification: where the velocity of a joint is. -/
def velocityAt (r : Robot K) (name : String) : Option Nat := (r.joints.find? (fun j => j.name = name)).map (·.idxV)

/-- Specification: the value of the last of the calls about the velocity `k`, `init` if there is none. -/
def lastValue {α : Type} (r : Robot K) (k : Nat) (init : α) (calls : List (String × α)) : α :=
  (((calls.filter fun c => velocityAt r c.1 = some k).getLast?).map Prod.snd).getD init

theorem vJoint_some {r : Robot K} {name : String} {k : Nat} (h : velocityAt r name = some k) :
    ∃ j, r.vJoint name = .ok j ∧ j.idxV = k := by
  unfold velocityAt at h
  unfold Robot.vJoint
  cases hf : r.joints.find? (fun j => j.name = name) with
  | none => rw [hf] at h; cases h
  | some j => rw [hf] at h; cases h; exact ⟨j, rfl, rfl⟩

theorem vJoint_none {r : Robot K} {name : String} (h : velocityAt r name = none) : r.vJoint name = .error .ub := by
  unfold velocityAt at h
  unfold Robot.vJoint
  cases hf : r.joints.find? (fun j => j.name = name) with
  | none => rfl
  | some j => rw [hf] at h; cases h

theorem lastValue_append {α : Type} (r : Robot K) (k : Nat) (init : α) (calls : List (String × α)) (c : String × α) :
    lastValue r k init (calls ++ [c]) = if velocityAt r c.1 = some k then c.2 else lastValue r k init calls := by
  unfold lastValue
  rw [List.filter_append]
  by_cases h : velocityAt r c.1 = some k
  · rw [if_pos h]; simp [h]
  · rw [if_neg h]; simp [h]

/-- **C149 (safe accelerations).** After any sequence of `set_qdd_safe` for joints of the robot, the safe acceleration of
every velocity is the one of the last call for it, the initial one if there was none, and nothing else has changed. -/
theorem C149_qdd (r : DynRobot K) (s : DState K) (calls : List (String × K))
    (hk : ∀ c ∈ calls, velocityAt r.toRobot c.1 ≠ none) :
    calls.foldl (fun s c => (setQddSafe r s c.1 c.2).1) s =
      { s with qddSafe := fun k => lastValue r.toRobot k (s.qddSafe k) calls } := by
  induction calls using List.reverseRecOn with
  | nil => rfl
  | append_singleton calls c ih =>
    rw [List.foldl_append, ih fun c hc => hk c (List.mem_append_left _ hc)]
    obtain ⟨i, hi⟩ := Option.ne_none_iff_exists'.1 (hk c (by simp))
    obtain ⟨j, hj, hv⟩ := vJoint_some hi
    simp only [List.foldl_cons, List.foldl_nil, setQddSafe, hj]
    congr 1
    funext k
    rw [lastValue_append, hi, hv]
    by_cases h : k = i
    · subst h; simp
    · rw [if_neg h, if_neg (by simpa using Ne.symm h)]

/-- **C149 (torque limits).** The same for `set_torque_limit`: the overrides are those of the last calls. -/
theorem C149_torque (r : DynRobot K) (s : DState K) (calls : List (String × K))
    (hk : ∀ c ∈ calls, velocityAt r.toRobot c.1 ≠ none) :
    calls.foldl (fun s c => (setTorqueLimit r s c.1 c.2).1) s =
      { s with overrides := fun k => lastValue r.toRobot k (s.overrides k) (calls.map fun c => (c.1, some c.2)) } := by
  induction calls using List.reverseRecOn with
  | nil => rfl
  | append_singleton calls c ih =>
    rw [List.foldl_append, ih fun c hc => hk c (List.mem_append_left _ hc)]
    obtain ⟨i, hi⟩ := Option.ne_none_iff_exists'.1 (hk c (by simp))
    obtain ⟨j, hj, hv⟩ := vJoint_some hi
    simp only [List.foldl_cons, List.foldl_nil, setTorqueLimit, hj]
    congr 1
    funext k
    rw [List.map_append, List.map_singleton, lastValue_append, hi, hv]
    by_cases h : k = i
    · subst h; simp
    · rw [if_neg h, if_neg (by simpa using Ne.symm h)]

/-- Settings of joints the robot does not have are never reached: the look-up is undefined. -/
theorem C149_unknown (r : DynRobot K) (s : DState K) (name : String) (v : K) (h : velocityAt r.toRobot name = none) :
    setQddSafe r s name v = (s, some .ub) ∧ setTorqueLimit r s name v = (s, some .ub) := by
  unfold setQddSafe setTorqueLimit
  rw [vJoint_none h]
  exact ⟨rfl, rfl⟩

/-! ## `JointsTask::get_joint` -/

/-- **C149 (targets).** After any sequence of `set_joint`, `get_joint` returns the target of the last call for the joint,
and raises if there was none. -/
theorem C149_target [LinearOrder K] [IsStrictOrderedRing K] (kp kd : K) (calls : List (JointCall K)) (name : String) :
    (∀ c, lastCall name calls.reverse = some c → (jointsAfter kp kd calls).getJoint name = .ok c.target) ∧
    ((∀ c ∈ calls, c.joint ≠ name) → (jointsAfter kp kd calls).getJoint name = .error .runtimeError) := by
  have h := ((jointsAfter_spec kp kd calls).2.2.2 name).1
  have hnone : ∀ l : List (JointCall K), (∀ c ∈ l, c.joint ≠ name) → lastCall name l = none := by
    intro l
    induction l with
    | nil => intro _; rfl
    | cons c l ih =>
      intro hc
      unfold lastCall
      rw [if_neg fun he => hc c (by simp) he.symm]
      exact ih fun c hc' => hc c (List.mem_cons_of_mem _ hc')
  constructor
  · intro c hc
    unfold JointsTask.getJoint
    rw [h, hc]
    rfl
  · intro hc
    unfold JointsTask.getJoint
    rw [h, hnone calls.reverse fun c hc' => hc c (List.mem_reverse.1 hc')]
    rfl

/-! ## Gears -/

/-- A call of `set_gear` (`clear`) or `add_gear`. -/
structure GearCall (K : Type) where
  clear : Bool
  target : String
  source : String
  ratio : K

/-- The gears after a sequence of calls. -/
def dynGearsAfter (r : Robot K) (calls : List (GearCall K)) : Gears K :=
  calls.foldl (fun g c => if c.clear then (dynSetGear r c.target c.source c.ratio).1
    else (addGear r g c.target c.source c.ratio).1) []

/-- Specification: the ratio between two velocities, `set_gear` (of any target) forgetting all the gears. History given
last call first. -/
def lastGear (r : Robot K) (t s : Nat) : List (GearCall K) → Option K
  | [] => none
  | c :: before =>
    if velocityAt r c.target = some t ∧ velocityAt r c.source = some s then some c.ratio
    else if c.clear then none else lastGear r t s before

/-- The ratio stored for a target and a source. -/
def gearRatio (g : Gears K) (t s : Nat) : Option K := (SMap.find? g t).bind fun m => SMap.find? m s

theorem gearRatio_put (g : Gears K) (t s : Nat) (ratio : K) (t' s' : Nat) :
    gearRatio (g.put t s ratio) t' s' = if t' = t ∧ s' = s then some ratio else gearRatio g t' s' := by
  unfold gearRatio Gears.put
  rw [SMap.find?_set]
  by_cases h : t' = t
  · subst h
    rw [if_pos rfl, Option.bind_some, SMap.find?_set]
    by_cases hs : s' = s
    · subst hs; simp
    · rw [if_neg hs, if_neg (by simp [hs])]
      cases SMap.find? g t' with
      | none => rfl
      | some m => rfl
  · rw [if_neg h, if_neg (by simp [h])]

/-- **C149 (gears).** After any sequence of `set_gear` and `add_gear` between joints of the robot, the ratio between any two
velocities is the one of the last call for them, if no later `set_gear` was called for any target. -/
theorem C149_gears (r : Robot K) (calls : List (GearCall K))
    (hk : ∀ c ∈ calls, velocityAt r c.target ≠ none ∧ velocityAt r c.source ≠ none) (t s : Nat) :
    gearRatio (dynGearsAfter r calls) t s = lastGear r t s calls.reverse := by
  induction calls using List.reverseRecOn with
  | nil => rfl
  | append_singleton calls c ih =>
    have ih := ih fun c hc => hk c (List.mem_append_left _ hc)
    have hstep : dynGearsAfter r (calls ++ [c]) = if c.clear then (dynSetGear r c.target c.source c.ratio).1
        else (addGear r (dynGearsAfter r calls) c.target c.source c.ratio).1 := by
      unfold dynGearsAfter
      rw [List.foldl_append]; rfl
    obtain ⟨h1, h2⟩ := hk c (by simp)
    obtain ⟨i, hi⟩ := Option.ne_none_iff_exists'.1 h1
    obtain ⟨k, hk'⟩ := Option.ne_none_iff_exists'.1 h2
    obtain ⟨jt, ht, hti⟩ := vJoint_some hi
    obtain ⟨js, hs, hsk⟩ := vJoint_some hk'
    rw [hstep, List.reverse_append, List.reverse_singleton, List.singleton_append]
    unfold lastGear
    rw [hi, hk']
    have hcond : (some i = some t ∧ some k = some s) ↔ (t = i ∧ s = k) := by
      simp only [Option.some.injEq]
      exact ⟨fun h => ⟨h.1.symm, h.2.symm⟩, fun h => ⟨h.1.symm, h.2.symm⟩⟩
    cases hcl : c.clear with
    | true =>
      simp only [if_true]
      unfold dynSetGear addGear
      simp only [ht, hs]
      rw [gearRatio_put, hti, hsk]
      by_cases h : t = i ∧ s = k
      · rw [if_pos h, if_pos (hcond.2 h)]
      · rw [if_neg h, if_neg (fun h' => h (hcond.1 h'))]
        rfl
    | false =>
      simp only [Bool.false_eq_true, if_false]
      unfold addGear
      simp only [ht, hs]
      rw [gearRatio_put, hti, hsk, ih]
      by_cases h : t = i ∧ s = k
      · rw [if_pos h, if_pos (hcond.2 h)]
      · rw [if_neg h, if_neg (fun h' => h (hcond.1 h'))]

/-- The set of targets is exactly the set of those with a gear: `set_gear` leaves one target only. -/
theorem C149_set_gear (r : Robot K) (target source : String) (ratio : K) (t s : Nat)
    (ht : velocityAt r target = some t) (hs : velocityAt r source = some s) :
    dynSetGear r target source ratio = ([(t, [(s, ratio)])], none) := by
  obtain ⟨jt, h1, rfl⟩ := vJoint_some ht
  obtain ⟨js, h2, rfl⟩ := vJoint_some hs
  unfold dynSetGear addGear
  simp only [h1, h2]
  rfl

end

/-! ## Examples -/

/-- C148 is not vacuous: an external wrench of 10 upwards carries the robot. -/
example : seenRes (solve demoEnv demo demoTasks
    [⟨.external idJac ⟨6, fun i => if i = 2 then 10 else 0⟩, true, 1, 0, 0, 0⟩] [] true demoState) =
    some (true, 1, 1, some 10, 1 / 2) := by
  decide +kernel

/-- A wrong external wrench makes the solve fail. -/
example : seenRes (solve demoEnv demo demoTasks
    [⟨.external idJac ⟨6, fun i => if i = 2 then 11 else 0⟩, true, 1, 0, 0, 0⟩] [] true demoState) =
    some (false, 0, 0, none, -1 / 2) := by
  decide +kernel

/-- The hypotheses of `C148_costs` hold for a planar contact with the three weights. -/
example : ∃ (c : Contact ℚ) (J : Mat ℚ) (f : Expr ℚ) (l : List (Constr ℚ)), c.update 7 demoState.robot = .ok J ∧
    f.rows = J.rows ∧ 0 < f.cols ∧ c.constraints f = .ok l ∧
    wrenchCost 7 demoState.robot c (fun i => i) = 1 * (0 + 1 + 4) + 2 * (1 + 4) + 3 * (9 + 16 + 25) := by
  refine ⟨⟨.planar idJac true 1 1, true, 1, 1, 2, 3⟩, ⟨6, 7, idJac demoState.robot⟩, ⟨6, 13, fun i j => if j = 7 + i then 1 else 0,
    fun _ => 0⟩, _, rfl, rfl, by decide, rfl, ?_⟩
  norm_num [wrenchCost]

/-- The joint of the demo robot has a velocity, so the hypotheses of C149 hold for calls about it. -/
example : velocityAt demo.toRobot "arm" = some 6 ∧ velocityAt demo.toRobot "leg" = none ∧
    lastValue demo.toRobot 6 1 [("arm", (2 : ℚ)), ("arm", 3)] = 3 ∧ lastValue demo.toRobot 5 1 [("arm", (2 : ℚ))] = 1 := by
  decide +kernel

/-- A robot with two joints: the second `set_gear` forgets the gear of the other target. -/
def twoJoints : Robot ℚ := { demo.toRobot with joints := [⟨"arm", 7, 1, 6, 1⟩, ⟨"leg", 8, 1, 7, 1⟩] }

example : gearRatio (dynGearsAfter twoJoints [⟨true, "arm", "leg", 2⟩, ⟨false, "leg", "arm", 3⟩]) 6 7 = some 2 ∧
    gearRatio (dynGearsAfter twoJoints [⟨true, "arm", "leg", 2⟩, ⟨true, "leg", "arm", 3⟩]) 6 7 = none := by
  decide +kernel

end Verif.Dynamics
