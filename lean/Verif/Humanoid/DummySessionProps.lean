/-
Property C173 of the robot moved by the kinematic walk.
-/
import Verif.Humanoid.DummySession
import Verif.Humanoid.DummyWalkProps
import Verif.Robot.BaseProps

namespace Verif.Humanoid
open Verif.Tools Verif.Robot

/-! ## Specification -/

/-- The configuration has a unit quaternion. -/
def UnitBase (q : Nat → ℝ) : Prop := (⟨q 3, q 4, q 5, q 6⟩ : Quat).Unit

/-- What is assumed of the robot and of its solver: rigid placements, feet that are not attached to the world, and configurations with a
unit quaternion. -/
structure DummyEnv.OK (e : DummyEnv) : Prop where
  model : e.model.OK
  leftFoot : e.model.world e.leftFoot = none
  rightFoot : e.model.world e.rightFoot = none
  neutral : UnitBase e.neutral
  noise : ∀ k q, UnitBase q → UnitBase (e.noise k q)
  ik : ∀ rw a b c q, Robot.Inv rw → e.ik rw a b c = .ok q → UnitBase q

/-- The calls, one after the other; the exceptions raised are caught. -/
noncomputable def dummySession (e : DummyEnv) (c : WalkConfig) : DummySession → List DummyOp → DummySession
  | s, [] => s
  | s, op :: ops => dummySession e c (s.step e c op).1 ops

/-- The foot of the robot on the ground. -/
def DummySession.foot (e : DummyEnv) (s : DummySession) : Nat := if s.walk.supportLeft then e.leftFoot else e.rightFoot

/-- The placements that are read from the robot are those of its configuration. -/
def DummySession.Fresh (e : DummyEnv) (s : DummySession) : Prop := s.rw.oMf = e.model.fk s.rw.q

/-- The call does not move the joints of the robot. -/
def DummyOp.Placing : DummyOp → Prop
  | .nextStep _ _ _ => True
  | .updateTWorldSupport _ => True
  | _ => False

/-- What is kept. -/
structure SessionInv (c : WalkConfig) (s : DummySession) : Prop where
  walk : DummyInv c s.walk
  robot : Robot.Inv s.rw

/-! ## Lemmas -/

theorem solveLoop_walk (e : DummyEnv) (n : Nat) : ∀ s : DummySession, (s.solveLoop e n).1.walk = s.walk := by
  induction n with
  | zero => exact fun s => rfl
  | succ n ih =>
    intro s
    rw [DummySession.solveLoop]
    dsimp only
    split
    · rfl
    · rw [ih]

theorem solveLoop_inv {e : DummyEnv} (he : e.OK) (n : Nat) : ∀ s : DummySession, Robot.Inv s.rw → Robot.Inv (s.solveLoop e n).1.rw := by
  induction n with
  | zero => exact fun s h => h
  | succ n ih =>
    intro s h
    have h1 : Robot.Inv (e.model.updateKinematics { s.rw with q := e.noise s.draws s.rw.q }) :=
      inv_update he.model ⟨he.noise _ _ h.1, h.2⟩
    rw [DummySession.solveLoop]
    dsimp only
    split
    · exact h1
    · rename_i q hq
      exact ih _ ⟨he.ik _ _ _ _ _ h1 hq, h1.2⟩

/-- The last iteration of the loop. -/
theorem solveLoop_last {e : DummyEnv} (he : e.OK) (n : Nat) : ∀ s : DummySession, Robot.Inv s.rw →
    ((s.solveLoop e (n + 1)).2 = none → ∃ q, UnitBase q ∧ e.ik ⟨q, e.model.fk q⟩ s.walk.tLeft s.walk.tRight s.walk.tTrunk =
        .ok (s.solveLoop e (n + 1)).1.rw.q ∧ (s.solveLoop e (n + 1)).1.rw.oMf = e.model.fk q) ∧
    ∀ err, (s.solveLoop e (n + 1)).2 = some err → (s.solveLoop e (n + 1)).1.Fresh e ∧
      e.ik (s.solveLoop e (n + 1)).1.rw s.walk.tLeft s.walk.tRight s.walk.tTrunk = .error err := by
  induction n with
  | zero =>
    intro s hs
    rw [DummySession.solveLoop]
    dsimp only
    split
    · rename_i err he
      refine ⟨fun h => (by cases h), fun err' h => ?_⟩
      cases h
      exact ⟨rfl, he⟩
    · rename_i q hq
      exact ⟨fun _ => ⟨_, he.noise s.draws s.rw.q hs.1, hq, rfl⟩, fun err h => (by cases h)⟩
  | succ n ih =>
    intro s hs
    have h1 : Robot.Inv (e.model.updateKinematics { s.rw with q := e.noise s.draws s.rw.q }) :=
      inv_update he.model ⟨he.noise _ _ hs.1, hs.2⟩
    rw [DummySession.solveLoop]
    dsimp only
    split
    · rename_i err he
      refine ⟨fun h => (by cases h), fun err' h => ?_⟩
      cases h
      exact ⟨rfl, he⟩
    · rename_i q hq
      exact ih _ ⟨he.ik _ _ _ _ _ h1 hq, h1.2⟩

theorem SessionInv.reset {e : DummyEnv} (he : e.OK) {c : WalkConfig} (hl : c.params.Limits) (h0 : 0 < c.riseRatio)
    (h1 : c.riseRatio < 1) {s : DummySession} (hs : Robot.Inv s.rw) (ha : s.walk.lift.angular = false) (b : Bool) :
    SessionInv c (s.reset e c b).1 ∧ (s.reset e c b).1.walk.supportLeft = b := by
  obtain ⟨r, er, r1, -, -, -, -, -, rW⟩ := (C129_reset c hl s.walk ha b).1 h0 h1
  unfold DummySession.reset
  rw [er]
  dsimp only
  have hrw : Robot.Inv (match (addPoints s.walk.lift.clear c.liftPoints).2 with
      | some _ => s.rw
      | none => e.resetRobot s.rw) := by
    split
    · exact hs
    · exact inv_update he.model ⟨he.neutral, hs.2⟩
  refine ⟨⟨?_, solveLoop_inv he 4 _ hrw⟩, ?_⟩
  · rw [solveLoop_walk]; exact rW
  · rw [solveLoop_walk]; exact r1

/-- What a placing call does to the robot. -/
theorem support_spec {e : DummyEnv} (he : e.OK) {c : WalkConfig} {s : DummySession} (h : SessionInv c s) (T : Affine) :
    (s.updateTWorldSupport e T).walk.support = flattenOnFloor T ∧ (s.updateTWorldSupport e T).foot e = s.foot e ∧
    SessionInv c (s.updateTWorldSupport e T) ∧ (s.updateTWorldSupport e T).Fresh e ∧
    (s.updateTWorldSupport e T).rw = e.model.updateKinematics (e.model.setTWorldFrame s.rw (s.foot e) (flattenOnFloor T)) := by
  obtain ⟨a1, -, -, -, a5, a6⟩ := C129_support c s.walk h.walk T
  have hrw : (s.updateTWorldSupport e T).rw = e.model.updateKinematics (e.model.setTWorldFrame s.rw (s.foot e) (flattenOnFloor T)) := by
    unfold DummySession.updateTWorldSupport DummySession.foot
    dsimp only
    rw [← a1]
    unfold DummyWalk.support
    rw [a5]
    cases s.walk.supportLeft <;> rfl
  refine ⟨a1, ?_, ⟨a6, ?_⟩, ?_, hrw⟩
  · show (if (s.walk.updateTWorldSupport T).supportLeft then _ else _) = _
    rw [a5]; rfl
  · rw [hrw]
    exact inv_update he.model (inv_step he.model h.robot (.setFrame _ _) (OnFloor.flatten T).rigid)
  · unfold DummySession.Fresh
    rw [hrw]; rfl

theorem SessionInv.step {e : DummyEnv} (he : e.OK) {c : WalkConfig} (hl : c.params.Limits) (h0 : 0 < c.riseRatio)
    (h1 : c.riseRatio < 1) {s : DummySession} (h : SessionInv c s) (op : DummyOp) : SessionInv c (s.step e c op).1 := by
  cases op with
  | reset b => exact (SessionInv.reset he hl h0 h1 h.robot h.walk.plain b).1
  | nextStep dx dy dtheta =>
    obtain ⟨r, er, -, -, -, -, -, -, rW⟩ := h.walk.nextStep hl dx dy dtheta
    unfold DummySession.step
    dsimp only
    rw [er]
    exact ⟨rW, h.robot⟩
  | update t =>
    obtain ⟨r, er, -, -, -, -, -, -, -, rW⟩ := h.walk.update h0 h1 t
    show SessionInv c (s.update e c t).1
    unfold DummySession.update
    rw [er]
    dsimp only
    refine ⟨?_, solveLoop_inv he 4 _ h.robot⟩
    rw [solveLoop_walk]; exact rW
  | updateTWorldSupport T => exact (support_spec he h T).2.2.1

theorem SessionInv.run {e : DummyEnv} (he : e.OK) {c : WalkConfig} (hl : c.params.Limits) (h0 : 0 < c.riseRatio)
    (h1 : c.riseRatio < 1) (ops : List DummyOp) : ∀ {s : DummySession}, SessionInv c s → SessionInv c (dummySession e c s ops) := by
  induction ops with
  | nil => exact fun h => h
  | cons op ops ih => exact fun h => ih (h.step he hl h0 h1 op)

theorem construct_inv {e : DummyEnv} (he : e.OK) {c : WalkConfig} (hl : c.params.Limits) (h0 : 0 < c.riseRatio)
    (h1 : c.riseRatio < 1) (rw : RW) (hr : Robot.Inv rw) : SessionInv c (DummySession.construct e c rw).1 :=
  (SessionInv.reset he hl h0 h1 hr rfl false).1

/-! ## C173 -/

/-- **C173, solving.** After any calls, and when it does not raise, `update(t)` leaves the robot in the configuration given by the inverse
kinematics for the targets of the walk, computed from placements that were those of the robot at that time; the placements that are
read from the robot afterwards are those of the configuration before that last solution. When the solver raises, the exception is that of
the solver, for these targets, and the placements are those of the robot. -/
theorem C173_update {e : DummyEnv} (he : e.OK) (c : WalkConfig) (hl : c.params.Limits) (h0 : 0 < c.riseRatio)
    (h1 : c.riseRatio < 1) (rw : RW) (hr : Robot.Inv rw) (ops : List DummyOp) (t : ℝ) :
    let s := dummySession e c (DummySession.construct e c rw).1 ops
    let r := s.step e c (.update t)
    (r.2 = none → ∃ q, UnitBase q ∧ e.ik ⟨q, e.model.fk q⟩ r.1.walk.tLeft r.1.walk.tRight r.1.walk.tTrunk = .ok r.1.rw.q ∧
      r.1.rw.oMf = e.model.fk q) ∧
    ∀ err, r.2 = some err → r.1.Fresh e ∧ e.ik r.1.rw r.1.walk.tLeft r.1.walk.tRight r.1.walk.tTrunk = .error err := by
  intro s r
  have hs : SessionInv c s := (construct_inv he hl h0 h1 rw hr).run he hl h0 h1 ops
  obtain ⟨w, ew, -, -, -, -, -, -, -, -⟩ := hs.walk.update h0 h1 t
  have hr' : r = DummySession.solveLoop e 4 { s with walk := w } := by
    show s.update e c t = _
    unfold DummySession.update
    rw [ew]
  have hw : r.1.walk = w := by rw [hr', solveLoop_walk]
  rw [hw, hr']
  exact solveLoop_last he 3 _ hs.robot

/-- **C173, exact.** After any calls since the construction, whatever was raised: `update_T_world_support(T)` sets the support of the walk
on the flattened `T`, and puts the support foot of the robot there exactly when that foot is where the last update of the kinematics
computed it. The joints do not move, and the placements that are read are then those of the robot. -/
theorem C173_exact {e : DummyEnv} (he : e.OK) (c : WalkConfig) (hl : c.params.Limits) (h0 : 0 < c.riseRatio)
    (h1 : c.riseRatio < 1) (rw : RW) (hr : Robot.Inv rw) (ops : List DummyOp) (T : Affine) :
    let s := dummySession e c (DummySession.construct e c rw).1 ops
    let s' := (s.step e c (.updateTWorldSupport T)).1
    s'.walk.support = flattenOnFloor T ∧ s'.foot e = s.foot e ∧ s'.Fresh e ∧ (∀ k, 7 ≤ k → s'.rw.q k = s.rw.q k) ∧
    (s'.rw.getTWorldFrame (s'.foot e) = flattenOnFloor T ↔ e.model.fk s.rw.q (s.foot e) = s.rw.getTWorldFrame (s.foot e)) := by
  intro s s'
  have hs : SessionInv c s := (construct_inv he hl h0 h1 rw hr).run he hl h0 h1 ops
  obtain ⟨a1, a2, a3, a4, a5⟩ := support_spec he hs T
  have hf : e.model.world (s.foot e) = none := by
    unfold DummySession.foot
    split
    · exact he.leftFoot
    · exact he.rightFoot
  have hT := (OnFloor.flatten T).rigid
  obtain ⟨b1, b2⟩ := setFrame_spec he.model hs.robot (s.foot e) hf (flattenOnFloor T) hT
  refine ⟨a1, a2, a4, ?_, ?_⟩
  · intro k hk
    show (s.updateTWorldSupport e T).rw.q k = _
    rw [a5]
    exact b2 k hk
  · show (s.updateTWorldSupport e T).rw.getTWorldFrame ((s.updateTWorldSupport e T).foot e) = _ ↔ _
    rw [a2, a5, b1]
    have hc : Rigid (s.rw.getTWorldFrame (s.foot e)) := hs.robot.2 _
    constructor
    · intro h
      have h1 : (flattenOnFloor T).inv.mul ((flattenOnFloor T).mul ((s.rw.getTWorldFrame (s.foot e)).inv.mul (e.model.fk s.rw.q (s.foot e)))) =
          (flattenOnFloor T).inv.mul (flattenOnFloor T) := by rw [h]
      rw [← mul_assoc', inv_mul' hT, one_mul'] at h1
      have h2 : (s.rw.getTWorldFrame (s.foot e)).mul ((s.rw.getTWorldFrame (s.foot e)).inv.mul (e.model.fk s.rw.q (s.foot e))) =
          (s.rw.getTWorldFrame (s.foot e)).mul Affine.one := by rw [h1]
      rw [← mul_assoc', mul_inv' hc, one_mul', mul_one'] at h2
      exact h2
    · intro h
      rw [h, inv_mul' hc, mul_one']

theorem fresh_placing {e : DummyEnv} (he : e.OK) (c : WalkConfig) (hl : c.params.Limits) (h0 : 0 < c.riseRatio)
    (h1 : c.riseRatio < 1) (ops : List DummyOp) : ∀ (s : DummySession), SessionInv c s → s.Fresh e → (∀ op ∈ ops, op.Placing) →
      (dummySession e c s ops).Fresh e := by
  induction ops with
  | nil => exact fun s _ h _ => h
  | cons op ops ih =>
    intro s hs h hp
    refine ih _ (hs.step he hl h0 h1 op) ?_ fun o ho => hp o (List.mem_cons_of_mem _ ho)
    have := hp op List.mem_cons_self
    cases op with
    | reset b => exact this.elim
    | update t => exact this.elim
    | nextStep dx dy dtheta => exact h
    | updateTWorldSupport T => exact (support_spec he hs T).2.2.2.1

theorem dummySession_append (e : DummyEnv) (c : WalkConfig) (a b : List DummyOp) : ∀ s,
    dummySession e c s (a ++ b) = dummySession e c (dummySession e c s a) b := by
  induction a with
  | nil => exact fun s => rfl
  | cons op a ih => exact fun s => ih _

/-- **C173, what is true**: once the support was placed, and as long as the inverse kinematics is not solved again, every further
`update_T_world_support(T)` puts the support foot of the robot on the flattened `T`. Missing for the full C173: after `update` (or
`reset`), it does so only if the last solution did not move that foot (`C173_exact`, `C173_refuted`). -/
theorem C173_partial {e : DummyEnv} (he : e.OK) (c : WalkConfig) (hl : c.params.Limits) (h0 : 0 < c.riseRatio)
    (h1 : c.riseRatio < 1) (rw : RW) (hr : Robot.Inv rw) (ops mid : List DummyOp) (hm : ∀ op ∈ mid, op.Placing) (T₀ T : Affine) :
    let s := dummySession e c (DummySession.construct e c rw).1 (ops ++ .updateTWorldSupport T₀ :: mid)
    let s' := (s.step e c (.updateTWorldSupport T)).1
    s'.walk.support = flattenOnFloor T ∧ s'.rw.getTWorldFrame (s'.foot e) = flattenOnFloor T := by
  intro s s'
  obtain ⟨a1, -, -, -, a5⟩ := C173_exact he c hl h0 h1 rw hr (ops ++ .updateTWorldSupport T₀ :: mid) T
  refine ⟨a1, a5.2 ?_⟩
  have hs := (construct_inv he hl h0 h1 rw hr).run he hl h0 h1 ops
  obtain ⟨-, -, b3, b4, -⟩ := support_spec he hs T₀
  have hf : s.Fresh e := by
    show (dummySession e c (DummySession.construct e c rw).1 (ops ++ .updateTWorldSupport T₀ :: mid)).Fresh e
    rw [dummySession_append]
    exact fresh_placing he c hl h0 h1 mid _ b3 b4 hm
  exact (congrFun hf (s.foot e)).symm

/-- A robot reduced to its base, that is both feet, and whose inverse kinematics moves one metre forward. -/
noncomputable def slidingEnv : DummyEnv :=
  { model := Robot.plain, leftFoot := 0, rightFoot := 0, neutral := fun k => if k = 6 then 1 else 0, noise := fun _ q => q
    ik := fun rw _ _ _ => .ok fun k => if k = 0 then rw.q 0 + 1 else rw.q k }

theorem sliding_ok : slidingEnv.OK :=
  { model := Robot.plain_ok, leftFoot := rfl, rightFoot := rfl, neutral := by simp [UnitBase, slidingEnv, Quat.Unit]
    noise := fun _ _ h => h
    ik := by
      intro rw a b c q h hq
      cases hq
      simpa [UnitBase] using h.1 }

/-- **C173 is false**: right after the construction of the walk, `update_T_world_support` leaves the support foot of the robot away from
the requested place, since the inverse kinematics moved the robot after the last update of its kinematics. -/
theorem C173_refuted : ∃ (e : DummyEnv) (c : WalkConfig) (rw : RW), e.OK ∧ c.params.Limits ∧ 0 < c.riseRatio ∧ c.riseRatio < 1 ∧
    Robot.Inv rw ∧ (DummySession.construct e c rw).2 = none ∧ ∀ T,
      let s' := ((DummySession.construct e c rw).1.step e c (.updateTWorldSupport T)).1
      s'.walk.support = flattenOnFloor T ∧ s'.rw.getTWorldFrame (s'.foot e) ≠ flattenOnFloor T := by
  let c : WalkConfig := ⟨{}, .ellipsoid, 2 / 10, 4 / 100, 3 / 10, 15 / 100, 5 / 100, slerp (1 / 2 ^ 52)⟩
  have h0 : 0 < c.riseRatio := by norm_num [c]
  have h1 : c.riseRatio < 1 := by norm_num [c]
  have hr := Robot.inv_initial Robot.plain_ok
  let s : DummySession := ⟨⟨false, .init false, .one, .one, .one, 0, 0, 0, .one, .one, .one, none⟩, Robot.initial Robot.plain, 0⟩
  obtain ⟨w, ew, -⟩ := (C129_reset c default_limits s.walk rfl false).1 h0 h1
  obtain ⟨l, el, -⟩ := addPoints_ok c s.walk.lift rfl h0 h1
  have hc : DummySession.construct slidingEnv c (Robot.initial Robot.plain) =
      DummySession.solveLoop slidingEnv 4 ⟨w, slidingEnv.resetRobot s.rw, 0⟩ := by
    show DummySession.reset slidingEnv c s false = _
    unfold DummySession.reset
    rw [ew, el]
  have hi : Robot.Inv (slidingEnv.resetRobot s.rw) := inv_update sliding_ok.model ⟨sliding_ok.neutral, hr.2⟩
  have hn : (DummySession.construct slidingEnv c (Robot.initial Robot.plain)).2 = none := by rw [hc]; rfl
  refine ⟨slidingEnv, c, Robot.initial Robot.plain, sliding_ok, default_limits, h0, h1, hr, hn, fun T => ?_⟩
  obtain ⟨a1, -, -, -, a5⟩ := C173_exact sliding_ok c default_limits h0 h1 _ hr [] T
  refine ⟨a1, fun h => ?_⟩
  have h2 := a5.1 h
  obtain ⟨q, -, b1, b2⟩ := (solveLoop_last sliding_ok 3 _ hi).1 (by rw [← hc]; exact hn)
  rw [← hc] at b1 b2
  have hq : (DummySession.construct slidingEnv c (Robot.initial Robot.plain)).1.rw.q = fun k => if k = 0 then q 0 + 1 else q k := by
    exact (Except.ok.inj b1).symm
  have h3 : slidingEnv.model.fk (DummySession.construct slidingEnv c (Robot.initial Robot.plain)).1.rw.q
      ((DummySession.construct slidingEnv c (Robot.initial Robot.plain)).1.foot slidingEnv) = slidingEnv.model.fk q
      ((DummySession.construct slidingEnv c (Robot.initial Robot.plain)).1.foot slidingEnv) := h2.trans (congrFun b2 _)
  rw [hq] at h3
  have h4 := congrArg (fun T => T.translation 0) h3
  simp [slidingEnv, KinModel.fk, Robot.plain, Affine.mul, Affine.one, baseOf] at h4

end Verif.Humanoid
