/-
Property C176: a new dynamics solver, and the settings that `solve` uses.
-/
import Verif.Dynamics.Config
import Verif.Dynamics.SettingsProps

namespace Verif.Dynamics
open Finset Verif.Problem Verif.Kinematics

section
variable {K : Type} [Field K] [LinearOrder K] [IsStrictOrderedRing K]

/-! ## Specification -/

/-- The last value that the calls give to a setting, `init` if none does. -/
def lastSet {α β : Type} (gives : α → Option β) (init : β) : List α → β
  | [] => init
  | op :: ops => lastSet gives ((gives op).getD init) ops

/-- The calls name joints of the robot. -/
def ConfigOp.Known (r : Robot K) : ConfigOp K → Prop
  | .setQddSafe joint _ => velocityAt r joint ≠ none
  | .setTorqueLimit joint _ => velocityAt r joint ≠ none
  | _ => True

/-- The safe acceleration that a call gives to the velocity `k`. -/
def ConfigOp.safe (r : Robot K) (k : Nat) : ConfigOp K → Option K
  | .setQddSafe joint qdd => if velocityAt r joint = some k then some qdd else none
  | _ => none

/-- The torque limit that a call gives to the velocity `k`. -/
def ConfigOp.limit (r : Robot K) (k : Nat) : ConfigOp K → Option (Option K)
  | .setTorqueLimit joint limit => if velocityAt r joint = some k then some (some limit) else none
  | _ => none

/-- The velocity `k` is the first one of a joint. -/
def FirstVelocity (r : Robot K) (k : Nat) : Prop := ∃ j ∈ r.joints, j.idxV = k

/-- The joints have different names. -/
def NamesDiffer (r : Robot K) : Prop := (r.joints.map (·.name)).Nodup

/-! ## Construction -/

omit [Field K] [LinearOrder K] [IsStrictOrderedRing K] in
theorem velocityAt_joint {r : Robot K} (h : NamesDiffer r) {j : Joint} (hj : j ∈ r.joints) : velocityAt r j.name = some j.idxV := by
  unfold velocityAt
  cases hf : r.joints.find? (fun i => i.name = j.name) with
  | none => exact absurd (List.find?_eq_none.1 hf j hj) (by simp)
  | some i =>
    have h1 := List.mem_of_find?_eq_some hf
    have h2 : i.name = j.name := by simpa using List.find?_some hf
    have : i = j := List.inj_on_of_nodup_map h h1 hj h2
    rw [this]; rfl

omit [Field K] [LinearOrder K] [IsStrictOrderedRing K] in
theorem velocityAt_first {r : Robot K} {name : String} {k : Nat} (h : velocityAt r name = some k) : FirstVelocity r k := by
  unfold velocityAt at h
  cases hf : r.joints.find? (fun i => i.name = name) with
  | none => rw [hf] at h; cases h
  | some i => rw [hf] at h; cases h; exact ⟨i, List.mem_of_find?_eq_some hf, rfl⟩

omit [LinearOrder K] [IsStrictOrderedRing K] in
/-- **C176, construction.** A new solver has every limit disabled, no mask, no damping, a cost of a thousandth on the torques, no time step,
and the safe acceleration of a velocity is 1 exactly when it is the first one of its joint; otherwise it is 0. -/
theorem C176_exact (r : DynRobot K) (hn : NamesDiffer r.toRobot) (robot : RState K) :
    (∀ k, FirstVelocity r.toRobot k → (DState.construct r robot).qddSafe k = 1) ∧
    (∀ k, ¬ FirstVelocity r.toRobot k → (DState.construct r robot).qddSafe k = 0) ∧
    { DState.construct r robot with qddSafe := fun _ => 0 } =
      { robot := robot, dt := 0, damping := 0, torqueCost := 1 / 1000, maskedFbase := false, gravityOnly := false
        torqueLimits := false, jointLimits := false, velocityLimits := false, velocityVsTorque := false
        qddSafe := fun _ => 0, overrides := fun _ => none, extraForce := none } := by
  have gen : ∀ (l : List Joint) (s : DState K), (∀ j ∈ l, j ∈ r.joints) →
      (∀ k, (l.foldl (fun s j => (setQddSafe r s j.name 1).1) s).qddSafe k = if ∃ j ∈ l, j.idxV = k then 1 else s.qddSafe k) ∧
      { l.foldl (fun s j => (setQddSafe r s j.name 1).1) s with qddSafe := fun _ => 0 } = { s with qddSafe := fun _ => 0 } := by
    intro l
    induction l with
    | nil => exact fun s _ => ⟨fun k => by simp, rfl⟩
    | cons j l ih =>
      intro s hl
      obtain ⟨i, hi, hv⟩ := vJoint_some (velocityAt_joint hn (hl j List.mem_cons_self))
      have hs : setQddSafe r s j.name 1 = ({ s with qddSafe := fun k => if k = j.idxV then 1 else s.qddSafe k }, none) := by
        unfold setQddSafe
        rw [hi, ← hv]
      obtain ⟨a1, a2⟩ := ih (setQddSafe r s j.name 1).1 fun j hj => hl j (List.mem_cons_of_mem _ hj)
      rw [List.foldl_cons]
      refine ⟨fun k => ?_, by rw [a2, hs]⟩
      rw [a1, hs]
      by_cases h1 : ∃ i ∈ l, i.idxV = k
      · obtain ⟨i, hi, e⟩ := h1
        rw [if_pos ⟨i, hi, e⟩, if_pos ⟨i, List.mem_cons_of_mem _ hi, e⟩]
      · rw [if_neg h1]
        by_cases h2 : k = j.idxV
        · rw [if_pos ⟨j, List.mem_cons_self, h2.symm⟩]
          dsimp only
          rw [if_pos h2]
        · rw [if_neg]
          · dsimp only
            rw [if_neg h2]
          · rintro ⟨i, hi, e⟩
            rcases List.mem_cons.1 hi with rfl | hi
            · exact h2 e.symm
            · exact h1 ⟨i, hi, e⟩
  obtain ⟨a1, a2⟩ := gen r.joints (DState.fresh robot) fun _ h => h
  refine ⟨fun k hk => ?_, fun k hk => ?_, a2⟩
  · exact (a1 k).trans (if_pos hk)
  · exact (a1 k).trans (if_neg hk)

/-! ## Sessions -/

omit [IsStrictOrderedRing K] in
/-- **C176, sessions.** After any calls that name joints of the robot, among which any solves, whatever they raised: every setting is the
last one given for it, and the others are those before. -/
theorem C176_session (env : DEnv K) (r : DynRobot K) (ops : List (ConfigOp K)) : ∀ (s : DState K),
    (∀ op ∈ ops, op.Known r.toRobot) →
    let s' := ops.foldl (DState.config env r) s
    s'.jointLimits = lastSet (fun | .enableJointLimits b => some b | _ => none) s.jointLimits ops ∧
    s'.velocityLimits = lastSet (fun | .enableVelocityLimits b => some b | _ => none) s.velocityLimits ops ∧
    s'.velocityVsTorque = lastSet (fun | .enableVelocityVsTorque b => some b | _ => none) s.velocityVsTorque ops ∧
    s'.torqueLimits = lastSet (fun | .enableTorqueLimits b => some b | _ => none) s.torqueLimits ops ∧
    s'.maskedFbase = lastSet (fun | .maskFbase b => some b | _ => none) s.maskedFbase ops ∧
    s'.dt = lastSet (fun | .setDt x => some x | _ => none) s.dt ops ∧
    s'.damping = lastSet (fun | .setDamping x => some x | _ => none) s.damping ops ∧
    s'.torqueCost = lastSet (fun | .setTorqueCost x => some x | _ => none) s.torqueCost ops ∧
    s'.gravityOnly = lastSet (fun | .setGravityOnly b => some b | _ => none) s.gravityOnly ops ∧
    s'.extraForce = lastSet (fun | .setExtraForce f => some f | _ => none) s.extraForce ops ∧
    (∀ k, s'.qddSafe k = lastSet (ConfigOp.safe r.toRobot k) (s.qddSafe k) ops) ∧
    (∀ k, s'.overrides k = lastSet (ConfigOp.limit r.toRobot k) (s.overrides k) ops) := by
  induction ops with
  | nil => exact fun s _ => ⟨rfl, rfl, rfl, rfl, rfl, rfl, rfl, rfl, rfl, rfl, fun _ => rfl, fun _ => rfl⟩
  | cons op ops ih =>
    intro s hk s'
    have h := ih (s.config env r op) fun o ho => hk o (List.mem_cons_of_mem _ ho)
    have hop := hk op List.mem_cons_self
    cases op with
    | setQddSafe joint qdd =>
      obtain ⟨i, hi⟩ := Option.ne_none_iff_exists'.1 hop
      obtain ⟨j, hj, hv⟩ := vJoint_some hi
      have e : s.config env r (.setQddSafe joint qdd) = { s with qddSafe := fun k => if k = j.idxV then qdd else s.qddSafe k } := by
        show (setQddSafe r s joint qdd).1 = _
        unfold setQddSafe
        rw [hj]
      rw [e] at h
      obtain ⟨h1, h2, h3, h4, h5, h6, h7, h8, h9, h10, h11, h12⟩ := h
      have hs : s' = ops.foldl (DState.config env r) { s with qddSafe := fun k => if k = j.idxV then qdd else s.qddSafe k } := by
        show ops.foldl (DState.config env r) _ = _
        rw [e]
      rw [← hs] at h1 h2 h3 h4 h5 h6 h7 h8 h9 h10 h11 h12
      refine ⟨h1, h2, h3, h4, h5, h6, h7, h8, h9, h10, fun k => ?_, h12⟩
      rw [h11 k, lastSet]
      congr 1
      show _ = (if velocityAt r.toRobot joint = some k then some qdd else none).getD (s.qddSafe k)
      rw [hi, hv]
      by_cases hki : k = i
      · subst hki; simp
      · dsimp only
        rw [if_neg hki, if_neg (by simpa using Ne.symm hki)]; rfl
    | setTorqueLimit joint limit =>
      obtain ⟨i, hi⟩ := Option.ne_none_iff_exists'.1 hop
      obtain ⟨j, hj, hv⟩ := vJoint_some hi
      have e : s.config env r (.setTorqueLimit joint limit) =
          { s with overrides := fun k => if k = j.idxV then some limit else s.overrides k } := by
        show (setTorqueLimit r s joint limit).1 = _
        unfold setTorqueLimit
        rw [hj]
      rw [e] at h
      obtain ⟨h1, h2, h3, h4, h5, h6, h7, h8, h9, h10, h11, h12⟩ := h
      have hs : s' = ops.foldl (DState.config env r) { s with overrides := fun k => if k = j.idxV then some limit else s.overrides k } := by
        show ops.foldl (DState.config env r) _ = _
        rw [e]
      rw [← hs] at h1 h2 h3 h4 h5 h6 h7 h8 h9 h10 h11 h12
      refine ⟨h1, h2, h3, h4, h5, h6, h7, h8, h9, h10, h11, fun k => ?_⟩
      rw [h12 k, lastSet]
      congr 1
      show _ = (if velocityAt r.toRobot joint = some k then some (some limit) else none).getD (s.overrides k)
      rw [hi, hv]
      by_cases hki : k = i
      · subst hki; simp
      · dsimp only
        rw [if_neg hki, if_neg (by simpa using Ne.symm hki)]; rfl
    | _ => exact h

theorem lastSet_none {α β : Type} (gives : α → Option β) (init : β) (ops : List α) (h : ∀ op ∈ ops, gives op = none) :
    lastSet gives init ops = init := by
  induction ops with
  | nil => rfl
  | cons op ops ih =>
    rw [lastSet, h op List.mem_cons_self]
    exact ih fun o ho => h o (List.mem_cons_of_mem _ ho)

omit [IsStrictOrderedRing K] in
/-- **C176, partial.** When every actuated velocity is the first one of a joint, every joint can brake after the construction and any
calls: its safe acceleration is the last one given for it, 1 if none was. Missing for the full C176: joints with several velocities
(`C176_frozen_refuted`). -/
theorem C176_partial (env : DEnv K) (r : DynRobot K) (hn : NamesDiffer r.toRobot) (robot : RState K) (ops : List (ConfigOp K))
    (hk : ∀ op ∈ ops, op.Known r.toRobot) (hf : ∀ k, 6 ≤ k → k < r.nv → FirstVelocity r.toRobot k) (k : Nat) (h6 : 6 ≤ k) (hkn : k < r.nv) :
    (ops.foldl (DState.config env r) (DState.construct r robot)).qddSafe k = lastSet (ConfigOp.safe r.toRobot k) 1 ops := by
  have h := (C176_session env r ops (DState.construct r robot) hk).2.2.2.2.2.2.2.2.2.2.1 k
  rw [h, (C176_exact r hn robot).1 k (hf k h6 hkn)]

/-- **C176 is false** of joints with several velocities: only the first one has a safe acceleration, no call gives one to the others, and
once the joint limits are enabled each of these velocities is stopped by every solve that succeeds while its coordinate is inside the
limits (`sqrt 0 = 0`). -/
theorem C176_frozen_refuted (env : DEnv K) (hS : env.toQPEnv.Sound) (h0 : env.sqrt 0 = 0) (r : DynRobot K) (hn : NamesDiffer r.toRobot)
    (robot : RState K) (ops : List (ConfigOp K)) (hk : ∀ op ∈ ops, op.Known r.toRobot) (k : Nat) (hkn : k + 6 < r.nv)
    (hf : ¬ FirstVelocity r.toRobot (k + 6)) (tasks : List (DTask K)) (contacts : List (Contact K)) (cons : List (DConstraint K))
    (integrate : Bool) (rs : RState K) (res : Result K) :
    let s := ops.foldl (DState.config env r) (DState.construct r robot)
    s.qddSafe (k + 6) = 0 ∧
    (s.jointLimits = true → r.lower (k + 7) ≤ s.robot.q (k + 7) → s.robot.q (k + 7) ≤ r.upper (k + 7) →
      solve env r tasks contacts cons integrate s = (rs, .ok res) → res.success = true →
      s.robot.qd (k + 6) + s.dt * res.qdd (k + 6) = 0) := by
  intro s
  have hq : s.qddSafe (k + 6) = 0 := by
    have h := (C176_session env r ops (DState.construct r robot) hk).2.2.2.2.2.2.2.2.2.2.1 (k + 6)
    rw [show s.qddSafe (k + 6) = _ from h, (C176_exact r hn robot).2.1 (k + 6) hf]
    refine lastSet_none _ _ _ fun op _ => ?_
    cases op with
    | setQddSafe joint qdd =>
      show (if velocityAt r.toRobot joint = some (k + 6) then some qdd else none) = none
      rw [if_neg fun hv => hf (velocityAt_first hv)]
    | _ => rfl
  refine ⟨hq, fun hj hl hu h hok => ?_⟩
  rcases solve_cases env r tasks contacts cons integrate s rs _ h with ⟨-, hfl⟩ | ⟨p, x, hb, hres, -, -, hsat, -⟩
  · rw [hfl res rfl] at hok; cases hok
  cases hres
  have P := build_spec env r tasks contacts cons s p hb
  have hnv := P.chain.le
  obtain ⟨-, -, hR⟩ := solve_limits env hS r tasks contacts cons integrate s p x hb hsat
  have H := hR k hkn
  have hx : p.qdd.rowVal x (k + 6) = x (k + 6) := by rw [P.qdd, qddExpr_rowVal _ _ _ hkn]
  unfold limitRows at H
  simp only [hj, if_true] at H
  have a := H _ (List.mem_append_right _ List.mem_cons_self)
  have b := H _ (List.mem_append_right _ (List.mem_cons_of_mem _ List.mem_cons_self))
  rw [if_neg (not_lt.2 hu), unitRow_val _ _ (by omega), hq, mul_zero, h0] at a
  rw [if_neg (not_lt.2 hl), unitRow_val _ _ (by omega), hq, mul_zero, h0] at b
  show s.robot.qd (k + 6) + s.dt * p.qdd.rowVal x (k + 6) = 0
  rw [hx]
  linarith

end

/-- The hypotheses are met by a robot with one arm (`demo`), whose settings are changed twice. -/
example : NamesDiffer demo.toRobot ∧ (∀ k, 6 ≤ k → k < demo.nv → FirstVelocity demo.toRobot k) ∧
    (∀ op ∈ [ConfigOp.setQddSafe "arm" (2 : ℚ), .enableJointLimits true, .setQddSafe "arm" 3], op.Known demo.toRobot) := by
  refine ⟨by unfold NamesDiffer; decide, fun k h6 hk => ⟨⟨"arm", 7, 1, 6, 1⟩, by decide, ?_⟩, ?_⟩
  · have : demo.nv = 7 := rfl
    show 6 = k
    omega
  · intro op hop
    simp only [List.mem_cons, List.not_mem_nil, or_false] at hop
    rcases hop with rfl | rfl | rfl
    · exact (by decide : velocityAt demo.toRobot "arm" ≠ none)
    · trivial
    · exact (by decide : velocityAt demo.toRobot "arm" ≠ none)

/-- A robot with one joint that has three velocities: two of them are not first ones. -/
example : ¬ FirstVelocity (⟨11, 9, [⟨"ball", 7, 4, 6, 3⟩], fun _ => 0, fun _ => 0, fun _ => 0, fun q _ => q, fun q _ => q⟩ : Robot ℚ) 7 := by
  rintro ⟨j, hj, e⟩
  simp only [List.mem_singleton] at hj
  subst hj
  cases e

end Verif.Dynamics
