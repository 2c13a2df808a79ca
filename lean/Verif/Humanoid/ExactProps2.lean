/-
Exact forms of properties about the support of the humanoid robot, the overlap clipping, the CoM velocity and the integration
(C139, C150, C152, C156).
-/
import Verif.Humanoid.ReplayProps
import Verif.Humanoid.OverlapClipProps
import Verif.Robot.AccessorsProps

namespace Verif.Humanoid
open Verif.Tools Verif.Problem Verif.Robot

/-! ## C152 -/

/-- The support (side and frame) that a call asks for. -/
noncomputable def asked (m : ReplayModel) : HumanoidOp → Option (Side × Nat)
  | .support side => some (side, m.foot side)
  | .supportFrame side frame => some (side, frame)
  | .read h _ _ _ => some (heavier h, m.foot (heavier h))
  | _ => none

/-- `x` opens the last run of supports on the same frame. -/
def OpensLastRun (x : Side × Nat) (l : List (Side × Nat)) : Prop :=
  ∃ pre run, l = pre ++ x :: run ∧ (∀ y ∈ run, y.2 = x.2) ∧ ∀ y ∈ pre.getLast?, y.2 ≠ x.2

theorem opensLastRun_append {x y : Side × Nat} {l : List (Side × Nat)} (h : OpensLastRun x l) :
    OpensLastRun (if y.2 ≠ x.2 then y else x) (l ++ [y]) := by
  obtain ⟨pre, run, rfl, h1, h2⟩ := h
  by_cases e : y.2 = x.2
  · rw [if_neg (not_not.mpr e)]
    refine ⟨pre, run ++ [y], by simp, ?_, h2⟩
    intro z hz
    rcases List.mem_append.mp hz with hz | hz
    · exact h1 z hz
    · rw [List.mem_singleton.mp hz]; exact e
  · rw [if_pos e]
    refine ⟨pre ++ x :: run, [], rfl, by simp, ?_⟩
    intro z hz
    rw [List.getLast?_append_of_ne_nil _ (by simp)] at hz
    have hz' : z ∈ x :: run := List.mem_of_getLast? hz
    have : z.2 = x.2 := by
      rcases List.mem_cons.mp hz' with rfl | hz'
      · rfl
      · exact h1 z hz'
    rw [this]; exact fun h => e h.symm

theorem updateSupport_support (s : Replay) (side : Side) (frame : Nat) :
    ((s.updateSupport side frame).side, (s.updateSupport side frame).hr.supportFrame) =
      if frame ≠ s.hr.supportFrame then (side, frame) else (s.side, s.hr.supportFrame) := by
  unfold Replay.updateSupport
  by_cases h : frame ≠ s.hr.supportFrame
  · rw [if_pos h, if_pos h]
    unfold HR.updateSupport
    rw [if_pos h]
  · rw [if_neg h, if_neg h]

theorem readVelocity_support {m : ReplayModel} {qdJoints : Vec ℝ} {name : String} {s s' : Replay}
    (e : m.readVelocity qdJoints name s = .ok s') : s'.side = s.side ∧ s'.hr.supportFrame = s.hr.supportFrame := by
  unfold ReplayModel.readVelocity at e
  split at e
  · obtain ⟨j, -, e2⟩ := Dynamics.bind_ok e
    split at e2
    · cases e2
    · injection e2 with e2; subst e2; exact ⟨rfl, rfl⟩
  · injection e with e; subst e; exact ⟨rfl, rfl⟩

theorem readJoints_support {m : ReplayModel} {h : Histories} {source : String} {qdJoints : Vec ℝ} (names : List String) :
    ∀ {s s' : Replay}, m.readJoints h source qdJoints names s = .ok s' →
      s'.side = s.side ∧ s'.hr.supportFrame = s.hr.supportFrame := by
  induction names with
  | nil => intro s s' e; injection e with e; subst e; exact ⟨rfl, rfl⟩
  | cons n ns ih =>
    intro s s' e
    obtain ⟨k, -, e2⟩ := Dynamics.bind_ok e
    obtain ⟨s1, e3, e4⟩ := Dynamics.bind_ok e2
    obtain ⟨a1, a2⟩ := readVelocity_support e3
    obtain ⟨b1, b2⟩ := ih e4
    exact ⟨b1.trans a1, b2.trans a2⟩

theorem read_support {m : ReplayModel} {h : Histories} {source : String} {useImu : Bool} {qdJoints : Vec ℝ} {s s' : Replay}
    (e : m.read h source useImu qdJoints s = .ok s') :
    (s'.side, s'.hr.supportFrame) = if m.foot (heavier h) ≠ s.hr.supportFrame then (heavier h, m.foot (heavier h))
      else (s.side, s.hr.supportFrame) := by
  obtain ⟨s1, e1, e2⟩ := Dynamics.bind_ok e
  obtain ⟨a1, a2⟩ := readJoints_support _ e1
  have hu := updateSupport_support s1 (heavier h) (m.foot (heavier h))
  rw [a1, a2] at hu
  rw [← hu]
  have hb : ∀ {s2 s3 : Replay}, (if 1 < qdJoints.size then m.baseVelocity h qdJoints s2 else .ok s2) = .ok s3 →
      (s3.side, s3.hr.supportFrame) = (s2.side, s2.hr.supportFrame) := by
    intro s2 s3 e3
    split at e3
    · unfold ReplayModel.baseVelocity at e3
      dsimp only at e3
      split at e3
      · cases e3
      · split at e3
        · cases e3
        · injection e3 with e3; subst e3; rfl
    · injection e3 with e3; subst e3; rfl
  rw [hb e2]
  have hh : (if h.pressure "right" < h.pressure "left" then Side.left else Side.right) = heavier h := heavier_eq h
  have hm : m.updateSupportSide s1 (heavier h) = s1.updateSupport (heavier h) (m.foot (heavier h)) := by
    unfold ReplayModel.updateSupportSide
    cases heavier h <;> rfl
  rw [hh, hm]
  cases useImu
  · rw [if_neg (by decide)]; rfl
  · rw [if_pos rfl]; rfl

theorem step_support {m : ReplayModel} {s s' : Replay} (op : HumanoidOp) (e : m.step s op = .ok s') :
    (s'.side, s'.hr.supportFrame) = match asked m op with
      | none => (s.side, s.hr.supportFrame)
      | some y => if y.2 ≠ s.hr.supportFrame then y else (s.side, s.hr.supportFrame) := by
  cases op with
  | robot op => injection e with e; subst e; rfl
  | support side => injection e with e; subst e; cases side <;> exact updateSupport_support s _ _
  | supportFrame side frame => injection e with e; subst e; exact updateSupport_support s side frame
  | onFloor => injection e with e; subst e; rfl
  | oriented R => injection e with e; subst e; rfl
  | read h source useImu qdJoints => exact read_support e

theorem session_support {m : ReplayModel} (ops : List HumanoidOp) : ∀ {s s' : Replay} (l : List (Side × Nat)),
    OpensLastRun (s.side, s.hr.supportFrame) l → m.session ops s = .ok s' →
    OpensLastRun (s'.side, s'.hr.supportFrame) (l ++ ops.filterMap (asked m)) := by
  induction ops with
  | nil => intro s s' l h e; injection e with e; subst e; simpa using h
  | cons op ops ih =>
    intro s s' l h e
    obtain ⟨s1, e1, e2⟩ := Dynamics.bind_ok e
    have hs := step_support op e1
    cases ha : asked m op with
    | none =>
      rw [ha] at hs
      rw [List.filterMap_cons_none ha]
      refine ih l ?_ e2
      rw [hs]; exact h
    | some y =>
      rw [ha] at hs
      rw [List.filterMap_cons_some ha]
      have := ih (l ++ [y]) (by rw [hs]; exact opensLastRun_append (y := y) h) e2
      simpa using this

/-- **C152, exact.** After any session, with supports chosen by side, by frame or by readings: the support frame is the one last
asked for, and the support side is the one that was given when that frame became the support frame; the sides given by the later
calls that ask for the same frame are ignored. -/
theorem C152_exact (m : ReplayModel) (ops : List HumanoidOp) (s : Replay) (hs : m.session ops m.init = .ok s) :
    OpensLastRun (s.side, s.hr.supportFrame) ((.left, m.left) :: ops.filterMap (asked m)) ∧
    s.hr.supportFrame = (((.left, m.left) :: ops.filterMap (asked m)).getLast (by simp)).2 := by
  have h0 : OpensLastRun (m.init.side, m.init.hr.supportFrame) [(.left, m.left)] := ⟨[], [], rfl, by simp, by simp⟩
  have h1 := session_support ops _ h0 hs
  refine ⟨h1, ?_⟩
  obtain ⟨pre, run, h2, h3, -⟩ := h1
  have h2' : (Side.left, m.left) :: ops.filterMap (asked m) = pre ++ (s.side, s.hr.supportFrame) :: run := h2
  have hl : (((Side.left, m.left) :: ops.filterMap (asked m)).getLast (by simp)) ∈ (s.side, s.hr.supportFrame) :: run := by
    simp only [h2']
    rw [List.getLast_append_of_ne_nil _ (by simp)]
    exact List.getLast_mem _
  rcases List.mem_cons.mp hl with e | e
  · rw [e]
  · rw [h3 _ e]

/-- The session of `C152_refuted` on the robot `twoLegs`: the frame 2 is asked for with the side left, then with the side right. -/
example : OpensLastRun (.left, 2) ((.left, twoLegs.left) ::
    [HumanoidOp.supportFrame .left 2, .onFloor, .support .right].filterMap (asked twoLegs)) :=
  ⟨[(.left, 1)], [(.right, 2)], rfl, by simp, by simp⟩

/-! ## C150 -/

/-- **C150, exact.** `get_com_velocity` computes a velocity for exactly the robots with 26 velocities (20 joints) whose stacked
Jacobian is invertible. -/
theorem C150_exact (nv : Nat) (JC Jc Ji : Nat → Nat → ℝ) (omega : V3) (qd : Nat → ℝ) :
    (∃ c, comVelocity nv JC Jc Ji omega qd = .ok c) ↔ nv = 26 ∧ (base66 (stackedJ Jc Ji)).det ≠ 0 := by
  by_cases h : nv = 26
  · subst h
    by_cases hd : (base66 (stackedJ Jc Ji)).det = 0
    · rw [(C150_partial JC Jc Ji omega qd).2 hd]
      simp [hd]
    · obtain ⟨c, hc, -⟩ := (C150_partial JC Jc Ji omega qd).1 hd
      exact ⟨fun _ => ⟨rfl, hd⟩, fun _ => ⟨c, hc⟩⟩
  · rw [C150_refuted nv h]
    simp [h]

/-! ## C139 -/

/-- **C139, exact.** `overlap_clip` returns a step unchanged exactly when the step is in the envelope, does not turn (or there is no
extra spacing when turning), and keeps the feet clear (or is the null step). -/
theorem C139_exact (p : Params) (h : p.Limits) (hz : p.maxDtheta < Real.pi) (c : Clipping) (support : Side) (d : Step) :
    p.overlapClip c support d = .ok d ↔ Inside p c d ∧ (p.dthetaSpacing = 0 ∨ d.z = 0) ∧
      (d = ⟨0, 0, 0⟩ ∨ (placed p support d).overlap (standing p support) (1 / 100) = .ok false) := by
  have hspaced : (p.dthetaSpacing = 0 ∨ d.z = 0) → spaced p support d = d := by
    intro hs
    have : p.dthetaSpacing * |d.z| = 0 := by
      rcases hs with e | e
      · rw [e, zero_mul]
      · rw [e, abs_zero, mul_zero]
    unfold spaced
    ext
    · rfl
    · cases support
      · show d.y - p.dthetaSpacing * |d.z| = d.y
        rw [this, sub_zero]
      · show d.y + p.dthetaSpacing * |d.z| = d.y
        rw [this, add_zero]
    · rfl
  constructor
  · intro hr
    have hs : p.dthetaSpacing = 0 ∨ d.z = 0 := by
      by_contra hc
      rw [not_or] at hc
      exact C139_refuted p h hz c support d hc.1 hc.2 hr
    obtain ⟨d', j, hr', hin, -, he, hclear, -⟩ := C139_partial p h hz c support d
    rw [hr] at hr'
    obtain rfl := Except.ok.inj hr'
    refine ⟨hin, hs, ?_⟩
    rw [hspaced hs, (C77 p h c d).2.2.1 hin] at he
    by_cases hj : j = 0
    · exact .inr (hclear (by omega))
    · left
      have hk : ((9 : ℝ) / 10) ^ j < 1 := pow_lt_one₀ (by norm_num) (by norm_num) hj
      have key : ∀ x : ℝ, x = (9 / 10) ^ j * x → x = 0 := by
        intro x hx
        have : (1 - (9 / 10 : ℝ) ^ j) * x = 0 := by linarith
        rcases mul_eq_zero.mp this with h1 | h1
        · linarith
        · exact h1
      ext
      · exact key d.x (congrArg Step.x he)
      · exact key d.y (congrArg Step.y he)
      · exact key d.z (congrArg Step.z he)
  · rintro ⟨hin, hs, hd | hc⟩
    · obtain ⟨d', j, hr', -, -, he, -, -⟩ := C139_partial p h hz c support d
      rw [hspaced hs, (C77 p h c d).2.2.1 hin] at he
      rw [hr', he, hd]
      simp [Step.scale]
    · exact C139_kept p h hz c support d hin hs hc

end Verif.Humanoid

namespace Verif.Robot

/-! ## C156 -/

/-- **C156, exact.** After `n` steps at constant acceleration the position of a joint is that of the exact motion if and only if no
step was made, the steps are null or the joint does not accelerate. -/
theorem C156_exact {K : Type} [Field K] [CharZero K] (nv : Nat) (hnv : nv ≠ 0) (vel : Nat → Option Nat) (dt : K) (n : Nat)
    (s s' : Motion K) (h1 : s.qd.size = nv) (h2 : s.qdd.size = nv) (i k : Nat) (hi : vel i = some k)
    (e : Motion.steps nv vel dt n s = .ok s') :
    s'.q i = s.q i + n * dt * s.qd.v k + (n * dt) ^ 2 / 2 * s.qdd.v k ↔ n = 0 ∨ dt = 0 ∨ s.qdd.v k = 0 := by
  obtain ⟨s1, e1, -, -, -, hq, -⟩ := C156_partial nv hnv vel dt n s h1 h2
  rw [e] at e1
  obtain rfl := Except.ok.inj e1
  rw [hq i k hi]
  constructor
  · intro h
    have h0 : (n : K) * dt ^ 2 / 2 * s.qdd.v k = 0 := by linear_combination h
    rcases mul_eq_zero.mp h0 with h0 | h0
    · rcases div_eq_zero_iff.mp h0 with h0 | h0
      · rcases mul_eq_zero.mp h0 with h0 | h0
        · exact .inl (by exact_mod_cast h0)
        · exact .inr (.inl (pow_eq_zero_iff (by norm_num) |>.mp h0))
      · exact absurd h0 (by norm_num)
    · exact .inr (.inr h0)
  · rintro (h | h | h)
    · subst h; simp
    · rw [h]; ring
    · rw [h]; ring

/-! ## C155 -/

theorem write_other {K : Type} (s : Params K) {f g : Param} {k i : Nat} (v : K) (h : g = f → i ≠ k) : s.write f k v g i = s g i := by
  unfold Params.write
  exact if_neg fun e => h e.1 e.2

theorem call_other {K : Type} {joints : List Kinematics.Joint} (hj : JointsOK joints) (c : ParamCall K) (hc : c.Legal joints)
    (s s' : Params K) (e : s.step joints c = .ok s') (f : Param) (i : Nat)
    (hi : ∀ j ∈ joints, j.name ≠ "universe" → f.at j ≠ i) : s' f i = s f i := by
  cases c with
  | set g name v =>
    obtain ⟨hu, k, hk, rfl⟩ := hc
    have e' : s.set joints g k.name v = .ok (s.write g (g.at k) v) := by
      unfold Params.set
      rw [index_known hj hk]
      rfl
    rw [show s.step joints (.set g k.name v) = s.set joints g k.name v from rfl, e'] at e
    obtain rfl := Except.ok.inj e
    refine write_other s v ?_
    rintro rfl h
    exact hi k hk hu h.symm
  | limits name lower upper =>
    obtain ⟨hu, k, hk, rfl⟩ := hc
    have e' : s.setJointLimits joints k.name lower upper = .ok ((s.write .lower k.idxQ lower).write .upper k.idxQ upper) := by
      unfold Params.setJointLimits
      rw [show jointOffset joints k.name = .ok k.idxQ from index_known hj hk .q]
      rfl
    rw [show s.step joints (.limits k.name lower upper) = s.setJointLimits joints k.name lower upper from rfl, e'] at e
    obtain rfl := Except.ok.inj e
    rw [write_other, write_other]
    · rintro rfl h
      exact hi k hk hu h.symm
    · rintro rfl h
      exact hi k hk hu h.symm
  | velocities v =>
    obtain ⟨s1, e1, -, h⟩ := velocities_spec hj v (namesOf joints) (fun n hn => by
      obtain ⟨h1, h2, -⟩ := (namesOf_mem joints n).1 hn
      exact ⟨h2, h1⟩) s
    rw [show s.step joints (.velocities v) = s.setVelocityLimits joints v from rfl,
      show s.setVelocityLimits joints v = .ok s1 from e1] at e
    obtain rfl := Except.ok.inj e
    refine h f i ?_
    rintro rfl j hjm hjn
    exact hi j hjm ((namesOf_mem joints _).1 hjn).2.1

/-- **C155, exact.** After any sequence of calls by name, for every vector of the robot: the first coordinate of each joint holds the
last value set for that joint, or the initial one; every other coordinate holds its initial value, whatever was called. -/
theorem C155_exact {K : Type} (joints : List Kinematics.Joint) (hj : JointsOK joints) (cs : List (ParamCall K)) :
    ∀ s : Params K, (∀ c ∈ cs, c.Legal joints) → ∃ s', Params.run joints cs s = .ok s' ∧
      ∀ f, (∀ j ∈ joints, j.name ≠ "universe" → s' f (f.at j) = lastSet f j.name cs (s f (f.at j))) ∧
        ∀ i, (∀ j ∈ joints, j.name ≠ "universe" → f.at j ≠ i) → s' f i = s f i := by
  induction cs with
  | nil => intro s _; exact ⟨s, rfl, fun f => ⟨fun _ _ _ => rfl, fun _ _ => rfl⟩⟩
  | cons c cs ih =>
    intro s hl
    obtain ⟨s1, e1, h1⟩ := call_spec hj c (hl c List.mem_cons_self) s
    obtain ⟨s', e2, h2⟩ := ih s1 fun c hc => hl c (List.mem_cons_of_mem _ hc)
    refine ⟨s', ?_, fun f => ⟨fun j hjm hju => ?_, fun i hi => ?_⟩⟩
    · unfold Params.run
      simp only [e1, Bind.bind, Except.bind]
      exact e2
    · rw [(h2 f).1 j hjm hju, h1 f j hjm hju]
      rfl
    · rw [(h2 f).2 i hi, call_other hj c (hl c List.mem_cons_self) s s1 e1 f i hi]

end Verif.Robot
