/-
Property C170: reaching the initial pose.
-/
import Verif.Humanoid.InitialPose
import Verif.Humanoid.WalkTasksProps
import Verif.Robot.TorqueProps
import Verif.Kinematics.SolverProps

namespace Verif.Humanoid
open Verif.Tools Verif.Problem Verif.Robot

/-! ## The targets -/

/-- Contract of `pinocchio::rpy::matrixToRpy`: its third angle is the yaw of a decomposition of the rotation whose pitch is at
most a quarter turn. -/
def YawOK (yaw : M3 → ℝ) : Prop :=
  ∀ R : M3, R.transpose * R = 1 → R.det = 1 → ∃ p r : ℝ, |p| ≤ Real.pi / 2 ∧ R = rotZ (yaw R) * turnY p * turnX r

theorem turnX_zero : turnX 0 = 1 := by
  ext i j
  fin_cases i <;> fin_cases j <;> simp [turnX]

theorem rotZ_orth (a : ℝ) : (rotZ a).transpose * rotZ a = 1 ∧ (rotZ a).det = 1 := by
  have h := Real.sin_sq_add_cos_sq a
  constructor
  · ext i j
    fin_cases i <;> fin_cases j <;> simp [rotZ, Matrix.mul_apply, Fin.sum_univ_three, Matrix.transpose_apply] <;> nlinarith
  · simp [rotZ, Matrix.det_fin_three]; nlinarith

theorem turnY_orth (a : ℝ) : (turnY a).transpose * turnY a = 1 ∧ (turnY a).det = 1 := by
  have h := Real.sin_sq_add_cos_sq a
  constructor
  · ext i j
    fin_cases i <;> fin_cases j <;> simp [turnY, Matrix.mul_apply, Fin.sum_univ_three, Matrix.transpose_apply] <;> nlinarith
  · simp [turnY, Matrix.det_fin_three]; nlinarith

/-- **C170, the pose aimed at**: the left foot is where it was asked; the right foot has the orientation of the left one, and
stands `spacing` away on its right; the CoM is above the middle of the two feet at the height asked; the trunk leans forward
by `pitch`, does not roll, and faces where the left foot points. -/
theorem C170_pose (slerp : M3 → M3 → ℝ → M3) (yaw : M3 → ℝ) (hy : YawOK yaw) (left : Affine) (spacing height pitch : ℝ)
    (hR : left.linear.transpose * left.linear = 1) (hd : left.linear.det = 1) :
    let T := initialTargets slerp yaw left spacing height pitch
    T.left = left ∧ T.right.linear = left.linear ∧
    (∀ i, T.right.translation i = left.translation i - spacing * left.linear i 1) ∧
    2 * T.com 0 = T.left.translation 0 + T.right.translation 0 ∧
    2 * T.com 1 = T.left.translation 1 + T.right.translation 1 ∧ T.com 2 = height ∧
    T.trunk.transpose * T.trunk = 1 ∧ T.trunk.det = 1 ∧ T.trunk 2 0 = -Real.sin pitch ∧ T.trunk 2 1 = 0 ∧
    T.trunk 2 2 = Real.cos pitch ∧
    T.trunk 0 1 * left.linear 0 0 + T.trunk 1 1 * left.linear 1 0 = 0 ∧
    (0 ≤ Real.cos pitch → 0 ≤ T.trunk 0 0 * left.linear 0 0 + T.trunk 1 0 * left.linear 1 0) := by
  intro T
  obtain ⟨p, r, hp, hdec⟩ := hy left.linear hR hd
  have hcp : 0 ≤ Real.cos p := Real.cos_nonneg_of_mem_Icc ⟨by linarith [(abs_le.1 hp).1], (abs_le.1 hp).2⟩
  have hT : T.trunk = rotZ (yaw left.linear) * turnY pitch := by
    show rotZ _ * turnY pitch * turnX 0 = _
    rw [turnX_zero, mul_one]
  set y := yaw left.linear with hyd
  have e00 : left.linear 0 0 = Real.cos y * Real.cos p := by
    rw [hdec]; simp [rotZ, turnY, turnX, Matrix.mul_apply, Fin.sum_univ_three]
  have e10 : left.linear 1 0 = Real.sin y * Real.cos p := by
    rw [hdec]; simp [rotZ, turnY, turnX, Matrix.mul_apply, Fin.sum_univ_three]
  refine ⟨rfl, rfl, ?_, ?_, ?_, rfl, ?_, ?_, ?_, ?_, ?_, ?_, ?_⟩
  · intro i
    show left.translation i + left.linear.mulVec ![0, -spacing, 0] i = _
    simp [Matrix.mulVec, dotProduct, Fin.sum_univ_three]
    ring
  · simp only [T, initialTargets, interpolateFrames, Matrix.cons_val_zero]; ring
  · simp only [T, initialTargets, interpolateFrames, Matrix.cons_val_one, Matrix.cons_val_zero]; ring
  · rw [hT, Matrix.transpose_mul, ← Matrix.mul_assoc, Matrix.mul_assoc (turnY pitch).transpose, (rotZ_orth y).1, mul_one,
      (turnY_orth pitch).1]
  · rw [hT, Matrix.det_mul, (rotZ_orth y).2, (turnY_orth pitch).2, one_mul]
  · rw [hT]; simp [rotZ, turnY, Matrix.mul_apply, Fin.sum_univ_three]
  · rw [hT]; simp [rotZ, turnY, Matrix.mul_apply, Fin.sum_univ_three]
  · rw [hT]; simp [rotZ, turnY, Matrix.mul_apply, Fin.sum_univ_three]
  · rw [hT, e00, e10]; simp [rotZ, turnY, Matrix.mul_apply, Fin.sum_univ_three]; ring
  · intro hc
    rw [hT, e00, e10]; simp [rotZ, turnY, Matrix.mul_apply, Fin.sum_univ_three]
    have e : Real.cos y * Real.cos pitch * (Real.cos y * Real.cos p) + Real.sin y * Real.cos pitch * (Real.sin y * Real.cos p) =
        Real.cos pitch * Real.cos p := by linear_combination (Real.cos pitch * Real.cos p) * Real.sin_sq_add_cos_sq y
    rw [e]; positivity

/-- **C170 for a foot lying flat**: the trunk has the orientation of the left foot, leaning forward by `pitch`. -/
theorem C170_flat (slerp : M3 → M3 → ℝ → M3) (yaw : M3 → ℝ) (hy : YawOK yaw) (left : Affine) (spacing height pitch θ : ℝ)
    (hf : left.linear = rotZ θ) :
    (initialTargets slerp yaw left spacing height pitch).trunk = left.linear * turnY pitch := by
  obtain ⟨p, r, hp, hdec⟩ := hy left.linear (by rw [hf]; exact (rotZ_orth θ).1) (by rw [hf]; exact (rotZ_orth θ).2)
  have hcp : 0 ≤ Real.cos p := Real.cos_nonneg_of_mem_Icc ⟨by linarith [(abs_le.1 hp).1], (abs_le.1 hp).2⟩
  show rotZ (yaw left.linear) * turnY pitch * turnX 0 = _
  rw [turnX_zero, mul_one]
  set y := yaw left.linear with hyd
  have h20 : (0 : ℝ) = -Real.sin p := by
    have : left.linear 2 0 = -Real.sin p := by rw [hdec]; simp [rotZ, turnY, turnX, Matrix.mul_apply, Fin.sum_univ_three]
    rw [← this, hf]; simp [rotZ]
  have hp1 : Real.cos p = 1 := by nlinarith [Real.sin_sq_add_cos_sq p]
  have e00 : Real.cos θ = Real.cos y := by
    have : left.linear 0 0 = Real.cos y * Real.cos p := by
      rw [hdec]; simp [rotZ, turnY, turnX, Matrix.mul_apply, Fin.sum_univ_three]
    rw [hp1, mul_one] at this; rw [← this, hf]; simp [rotZ]
  have e10 : Real.sin θ = Real.sin y := by
    have : left.linear 1 0 = Real.sin y * Real.cos p := by
      rw [hdec]; simp [rotZ, turnY, turnX, Matrix.mul_apply, Fin.sum_univ_three]
    rw [hp1, mul_one] at this; rw [← this, hf]; simp [rotZ]
  have : rotZ y = rotZ θ := by unfold rotZ; rw [e00, e10]
  rw [this, hf]

/-! ## The loop -/

section
variable {K : Type} [Field K] [LinearOrder K] [IsStrictOrderedRing K]
open Kinematics (QPEnv KState KConstraint RState VarsOK TasksFit)

/-- The robot state after the noise of iteration `i`: in the eleven first iterations each coordinate behind the floating base
which has two limits goes towards a random one by the fraction `noise`; nothing else changes. -/
def Noisy (r : Kinematics.Robot K) (lowest max noise : K) (random : Nat → Nat → K) (i : Nat) (a b : RState K) : Prop :=
  b.qd = a.qd ∧ b.qdd = a.qdd ∧ ∀ k, b.q k =
    if i < 11 ∧ 7 ≤ k ∧ k < r.nq ∧ r.lower k ≠ lowest ∧ r.upper k ≠ max then (1 - noise) * a.q k + noise * random i k else a.q k

/-- **C170, the loop**: when nothing is raised, `n` solves were made, each from the state left by the one before, to which
noise was added in the eleven first iterations and only in these. -/
theorem C170_loop (env : QPEnv K) (r : Kinematics.Robot K) (lowest max noise : K) (random : Nat → Nat → K)
    (tasks : List (Kinematics.Task K)) (cons : List (KConstraint K)) : ∀ (n i : Nat) (s s' : KState K),
    reachLoop env r lowest max noise random tasks cons i n s = (s', none) →
    ∃ seq : Nat → KState K, seq 0 = s ∧ seq n = s' ∧ ∀ m < n, ∃ rs dq,
      Noisy r lowest max noise random (i + m) (seq m).robot rs ∧
      Kinematics.solve env r tasks cons true { seq m with robot := rs } = (seq (m + 1), .ok dq) := by
  intro n
  induction n with
  | zero => intro i s s' h; cases h; exact ⟨fun _ => s, rfl, rfl, fun m hm => absurd hm (by omega)⟩
  | succ n ih =>
    intro i s s' h
    rw [reachLoop] at h
    dsimp only at h
    generalize hs1 : (if i ≤ 10 then
        { s with robot := { s.robot with q := addQNoise r.nq lowest max r.lower r.upper (random i) noise s.robot.q } }
      else s : KState K) = s1 at h
    have hN : Noisy r lowest max noise random i s.robot s1.robot ∧ s1 = { s with robot := s1.robot } := by
      by_cases hi : i ≤ 10
      · rw [if_pos hi] at hs1
        subst hs1
        refine ⟨⟨rfl, rfl, fun k => ?_⟩, rfl⟩
        show addQNoise _ _ _ _ _ _ _ _ k = _
        unfold addQNoise
        by_cases hk : 7 ≤ k ∧ k < r.nq
        · rw [if_pos hk]
          by_cases hl : r.lower k = lowest ∨ r.upper k = max
          · rw [if_pos hl, if_neg]
            rintro ⟨-, -, -, g1, g2⟩
            exact hl.elim g1 g2
          · rw [if_neg hl, if_pos ⟨by omega, hk.1, hk.2, fun g => hl (Or.inl g), fun g => hl (Or.inr g)⟩]
            ring
        · rw [if_neg hk, if_neg]
          rintro ⟨-, g1, g2, -⟩
          exact hk ⟨g1, g2⟩
      · rw [if_neg hi] at hs1
        subst hs1
        exact ⟨⟨rfl, rfl, fun k => by rw [if_neg (by omega)]⟩, rfl⟩
    cases hr : Kinematics.solve env r tasks cons true s1 with
    | mk s2 res =>
      cases res with
      | error e => rw [hr] at h; cases h
      | ok dq =>
        rw [hr] at h
        dsimp only at h
        obtain ⟨seq, h0, hn, hall⟩ := ih (i + 1) s2 s' h
        refine ⟨fun m => match m with | 0 => s | m + 1 => seq m, rfl, hn, ?_⟩
        intro m hm
        cases m with
        | zero =>
          refine ⟨s1.robot, dq, hN.1, ?_⟩
          show Kinematics.solve env r tasks cons true { s with robot := s1.robot } = (seq 0, _)
          rw [← hN.2, hr, h0]
        | succ m =>
          obtain ⟨rs, dq', g1, g2⟩ := hall m (by omega)
          refine ⟨rs, dq', ?_, g2⟩
          rw [show i + (m + 1) = i + 1 + m by omega]
          exact g1

/-- **C170, the limits**: with joint limits enabled, a joint which starts in its limits is in them when the loop ends, whether it
ends by itself or by an exception; and when it ends by itself after at least one iteration, wherever the joint started. -/
theorem C170_limits (env : QPEnv K) (hS : env.Sound) (r : Kinematics.Robot K) (hL : r.Layout) (hI : r.IntegrateOK)
    (hsize : ∀ j ∈ r.joints, j.nV ≤ j.nQ)
    (pre post : List Kinematics.Joint) (j : Kinematics.Joint) (hj : r.joints = pre ++ j :: post) (h1 : j.Simple)
    (hpost : ∀ j' ∈ post, j'.nQ = j'.nV) (lowest max noise : K) (hn0 : 0 ≤ noise) (hn1 : noise ≤ 1) (random : Nat → Nat → K)
    (hrand : ∀ i, r.InLimits j (random i)) (tasks : List (Kinematics.Task K)) (cons : List (KConstraint K))
    (hfit : ∀ rs, TasksFit r.nv rs tasks) : ∀ (n i : Nat) (s s' : KState K) (res : Option Err),
    VarsOK r.nv s.prob s.qdVar s.scaleVar → s.jointLimits = true →
    reachLoop env r lowest max noise random tasks cons i n s = (s', res) →
    (r.InLimits j s.robot.q → r.InLimits j s'.robot.q) ∧ (res = none → 0 < n → r.InLimits j s'.robot.q) := by
  intro n
  induction n with
  | zero => intro i s s' res _ _ h; cases h; exact ⟨id, fun _ h => absurd h (by omega)⟩
  | succ n ih =>
    intro i s s' res hv hlim h
    rw [reachLoop] at h
    dsimp only at h
    generalize hs1 : (if i ≤ 10 then
        { s with robot := { s.robot with q := addQNoise r.nq lowest max r.lower r.upper (random i) noise s.robot.q } }
      else s : KState K) = s1 at h
    have hv1 : VarsOK r.nv s1.prob s1.qdVar s1.scaleVar := by
      subst hs1; split <;> exact hv
    have hl1 : s1.jointLimits = true := by subst hs1; split <;> exact hlim
    have hin1 : r.InLimits j s.robot.q → r.InLimits j s1.robot.q := by
      intro hin
      subst hs1
      split
      · exact (C74_partial r.nq lowest max r.lower r.upper (random i) s.robot.q noise hn0 hn1 j.idxQ).2.2
          (hrand i).1 (hrand i).2 hin.1 hin.2
      · exact hin
    have hspec := Kinematics.solve_spec' env r tasks cons true s1 hv1 (hfit _)
    cases hr : Kinematics.solve env r tasks cons true s1 with
    | mk s2 o =>
      rw [hr] at h hspec
      cases o with
      | error e =>
        cases h
        have hsame : s'.robot = s1.robot := hspec.2.2.1 e rfl
        exact ⟨fun hin => by rw [hsame]; exact hin1 hin, fun h => by cases h⟩
      | ok dq =>
        dsimp only at h
        have hin2 := (Kinematics.C43_step env hS r hL hI hsize pre post j hj h1 hpost tasks cons s1 s2 dq hv1 (hfit _) hl1 hr).1
        have := (ih (i + 1) s2 s' res hspec.1 (hspec.2.1.jointLimits.trans hl1) h).1 hin2
        exact ⟨fun _ => this, fun _ _ => this⟩

end

/-! ## The whole call -/

/-- The write made before `update_tasks` keeps the tasks held. -/
theorem Holds.aim {w0 : World} {s : WalkSt} {mode : Bool} {lp lo rp ro tr x : Nat} (hw : Sane w0)
    (h : Holds w0 s mode lp lo rp ro tr x) (slerp : M3 → M3 → ℝ → M3) (yaw : M3 → ℝ) (r : RobotView) (left : Affine)
    (spacing height pitch : ℝ) :
    ∃ s' x', s.aimAtInitialPose slerp yaw r left spacing height pitch = .ok s' ∧
      Holds w0 s' s.t.trunkMode lp lo rp ro tr x' ∧
      Tracks s'.w lp lo rp ro tr x' (initialTargets slerp yaw left spacing height pitch)
        (r.trunk.linear.mulVec ![s.t.comX, s.t.comY, 0]) := by
  obtain ⟨w, ew, nw, tw, ow, xw, kw⟩ := write_ok h.ktr
    (fun o => { o with rotation := (initialTargets slerp yaw left spacing height pitch).trunk }) (fun _ => rfl)
  have hw' : Holds w0 { s with w := w } mode lp lo rp ro tr x := by
    refine ⟨h.bound, h.hlp, h.hlo, h.hrp, h.hro, h.htr, h.hcom, h.htrunk, ?_, h.nodup, ?_, kw _ _ h.klp,
      kw _ _ h.klo, kw _ _ h.krp, kw _ _ h.kro, kw _ _ h.ktr, kw _ _ h.kx, ?_, ?_⟩
    · show w.tasks.Perm _
      rw [tw]; exact h.perm
    · intro a ha
      show w0.next ≤ a ∧ a < w.next
      rw [nw]; exact h.fresh a ha
    · intro a ha
      have ha' := ha
      simp only [List.mem_cons, List.not_mem_nil, or_false, not_or] at ha'
      show w.heap a = _
      rw [ow a ha'.2.2.2.2.1]
      exact h.others a ha
    · intro a ha
      have ha' : s.w.next ≤ a := by have e : w.next ≤ a := ha; rw [nw] at e; exact e
      have := h.fresh tr (by simp)
      show w.heap a = _
      rw [ow a (by omega)]
      exact h.unborn a ha'
  obtain ⟨s', x', e1, e2, -, e3⟩ := hw'.update hw r (initialTargets slerp yaw left spacing height pitch)
  refine ⟨s', x', ?_, e2, e3⟩
  unfold WalkSt.aimAtInitialPose
  simp only [h.htr, deref, ew, Bind.bind, Except.bind]
  exact e1

/-- **C170**: after `initialize_tasks` and any calls, `reach_initial_pose` gives the six tasks the targets of `C170_pose` (the CoM
offset being turned with the orientation the trunk has when the call is made), then runs its 100 iterations with exactly
these tasks and a noise of one hundredth. -/
theorem C170 (e : ReachEnv) (w0 : World) (hw : Sane w0) (t : WalkTasks) (hc : t.com = none) (ht : t.trunk = none) (r : RobotView)
    (ops : List WalkOp) (s0 s : WalkSt) (h0 : WalkSt.initialize r ⟨w0, t⟩ = .ok s0) (hs : s0.run ops = .ok s)
    (left : Affine) (spacing height pitch : ℝ) (k : Kinematics.KState ℝ) :
    ∃ s' k' res, reachInitialPose e left spacing height pitch s k = (s', k', res) ∧
      (∀ a ∈ s'.w.tasks, a ∉ w0.tasks → ∃ o, s'.w.heap a = some o ∧
        (o.kind = .position "left_foot" → o.target = left.translation) ∧
        (o.kind = .orientation "left_foot" → o.rotation = left.linear) ∧
        (o.kind = .position "right_foot" → ∀ i, o.target i = left.translation i - spacing * left.linear i 1) ∧
        (o.kind = .orientation "right_foot" → o.rotation = left.linear) ∧
        (o.kind = .orientation "trunk" → o.rotation = rotZ (e.yaw left.linear) * turnY pitch) ∧
        (o.kind = .com ∨ o.kind = .position "trunk" →
          o.target = ![left.translation 0 - spacing * left.linear 0 1 / 2, left.translation 1 - spacing * left.linear 1 1 / 2, height] +
            (e.look k.robot).trunk.linear.mulVec ![s.t.comX, s.t.comY, 0])) ∧
      reachLoop e.env e.robot e.lowest e.max (1 / 100) e.random (e.tasksOf s'.w) e.cons 0 100 k = (k', res) := by
  obtain ⟨s0', lp, lo, rp, ro, tr, x, h1, h2, h3⟩ := holds_initialize hw t hc ht r
  rw [h0] at h1; cases h1
  obtain ⟨s1, x', h4, h5⟩ := Holds.run hw lp lo rp ro tr ops s0 _ x h2
  rw [hs] at h4; cases h4
  obtain ⟨s', x'', h6, h7, h8⟩ := h5.aim hw e.slerp e.yaw (e.look k.robot) left spacing height pitch
  have hright : ∀ i, (initialTargets e.slerp e.yaw left spacing height pitch).right.translation i =
      left.translation i - spacing * left.linear i 1 := by
    intro i
    show left.translation i + left.linear.mulVec ![0, -spacing, 0] i = _
    simp [Matrix.mulVec, dotProduct, Fin.sum_univ_three]
    ring
  have hcom : (initialTargets e.slerp e.yaw left spacing height pitch).com =
      ![left.translation 0 - spacing * left.linear 0 1 / 2, left.translation 1 - spacing * left.linear 1 1 / 2, height] := by
    have a0 := hright 0
    have a1 := hright 1
    ext i
    fin_cases i
    · show left.translation 0 * (1 - 1 / 2) + (initialTargets e.slerp e.yaw left spacing height pitch).right.translation 0 * (1 / 2) =
        left.translation 0 - spacing * left.linear 0 1 / 2
      rw [a0]; ring
    · show left.translation 1 * (1 - 1 / 2) + (initialTargets e.slerp e.yaw left spacing height pitch).right.translation 1 * (1 / 2) =
        left.translation 1 - spacing * left.linear 1 1 / 2
      rw [a1]; ring
    · rfl
  have htrunk : (initialTargets e.slerp e.yaw left spacing height pitch).trunk = rotZ (e.yaw left.linear) * turnY pitch := by
    show rotZ _ * turnY pitch * turnX 0 = _
    rw [turnX_zero, mul_one]
  refine ⟨s', (reachLoop e.env e.robot e.lowest e.max (1 / 100) e.random (e.tasksOf s'.w) e.cons 0 100 k).1,
    (reachLoop e.env e.robot e.lowest e.max (1 / 100) e.random (e.tasksOf s'.w) e.cons 0 100 k).2, ?_, ?_, rfl⟩
  · unfold reachInitialPose
    rw [h6]
  intro a ha hna
  have hm : a = lp ∨ a = lo ∨ a = rp ∨ a = ro ∨ a = tr ∨ a = x'' := by
    have := h7.perm.mem_iff.1 ha
    simp only [List.mem_cons, hna, or_false] at this
    exact this
  have pick : ∀ {b k} {P : TaskObj → Prop}, s'.w.Has b k → (∃ o, s'.w.heap b = some o ∧ P o) →
      ∃ o, s'.w.heap b = some o ∧ o.kind = k ∧ P o := by
    rintro b k P ⟨o, g1, g2⟩ ⟨o', g3, g4⟩
    rw [g1] at g3; cases g3
    exact ⟨o, g1, g2, g4⟩
  have hll : (initialTargets e.slerp e.yaw left spacing height pitch).left = left := rfl
  have hrl : (initialTargets e.slerp e.yaw left spacing height pitch).right.linear = left.linear := rfl
  rcases hm with rfl | rfl | rfl | rfl | rfl | rfl
  · obtain ⟨o, g1, g2, g3⟩ := pick h7.klp h8.lp
    exact ⟨o, g1, by simp [g2, g3, hll]⟩
  · obtain ⟨o, g1, g2, g3⟩ := pick h7.klo h8.lo
    exact ⟨o, g1, by simp [g2, g3, hll]⟩
  · obtain ⟨o, g1, g2, g3⟩ := pick h7.krp h8.rp
    exact ⟨o, g1, by simp [g2, g3, hright]⟩
  · obtain ⟨o, g1, g2, g3⟩ := pick h7.kro h8.ro
    exact ⟨o, g1, by simp [g2, g3, hrl]⟩
  · obtain ⟨o, g1, g2, g3⟩ := pick h7.ktr h8.tr
    exact ⟨o, g1, by simp [g2, g3, htrunk]⟩
  · obtain ⟨o, g1, g2, g3⟩ := pick h7.kx h8.x
    refine ⟨o, g1, ?_⟩
    rw [g2, g3, hcom]
    cases s.t.trunkMode <;> simp

/-- Called before `initialize_tasks`, it dereferences a null pointer. -/
theorem C170_uninitialised (e : ReachEnv) (s : WalkSt) (h : s.t.trunkOrientation = none) (left : Affine)
    (spacing height pitch : ℝ) (k : Kinematics.KState ℝ) :
    reachInitialPose e left spacing height pitch s k = (s, k, some .ub) := by
  unfold reachInitialPose WalkSt.aimAtInitialPose
  simp only [h, deref, Bind.bind, Except.bind]

/-! ## Examples -/

/-- A vector of the plane in polar coordinates. -/
theorem polar (a b c : ℝ) (hc : 0 ≤ c) (h : a ^ 2 + b ^ 2 = c ^ 2) : ∃ y, a = Real.cos y * c ∧ b = Real.sin y * c := by
  rcases hc.eq_or_lt with h0 | h0
  · rw [← h0] at h ⊢
    exact ⟨0, by nlinarith, by nlinarith⟩
  · set z : ℂ := ⟨a, b⟩ with hz
    have hn : ‖z‖ = c := by
      rw [Complex.norm_def, Complex.normSq_apply]
      show Real.sqrt (a * a + b * b) = c
      rw [show a * a + b * b = c ^ 2 by nlinarith, Real.sqrt_sq hc]
    have hz0 : z ≠ 0 := by intro e; rw [e, norm_zero] at hn; linarith
    refine ⟨Complex.arg z, ?_, ?_⟩
    · rw [Complex.cos_arg hz0, hn]; field_simp
      rfl
    · rw [Complex.sin_arg, hn]; field_simp
      rfl

/-- A rotation which keeps the first axis. -/
theorem about_x (M : M3) (hMo : M.transpose * M = 1) (hMd : M.det = 1) (m00 : M 0 0 = 1) (m10 : M 1 0 = 0) (m20 : M 2 0 = 0) :
    ∃ r, M = turnX r := by
  have ent : ∀ i j, ∑ k, M k i * M k j = if i = j then 1 else 0 := by
    intro i j
    have := congrFun (congrFun hMo i) j
    rw [Matrix.mul_apply] at this
    simp only [Matrix.transpose_apply, Matrix.one_apply] at this
    exact this
  have m01 : M 0 1 = 0 := by
    have := ent 0 1
    simpa [Fin.sum_univ_three, m00, m10, m20] using this
  have m02 : M 0 2 = 0 := by
    have := ent 0 2
    simpa [Fin.sum_univ_three, m00, m10, m20] using this
  have m11 : M 1 1 * M 1 1 + M 2 1 * M 2 1 = 1 := by
    have := ent 1 1
    simpa [Fin.sum_univ_three, m01] using this
  have m22 : M 1 2 * M 1 2 + M 2 2 * M 2 2 = 1 := by
    have := ent 2 2
    simpa [Fin.sum_univ_three, m02] using this
  have hdet : M 1 1 * M 2 2 - M 1 2 * M 2 1 = 1 := by
    rw [Matrix.det_fin_three, m00, m10, m20, m01, m02] at hMd
    linarith
  have hz : (M 2 2 - M 1 1) ^ 2 + (M 1 2 + M 2 1) ^ 2 = 0 := by linear_combination m11 + m22 - 2 * hdet
  have q1 := sq_nonneg (M 2 2 - M 1 1)
  have q2 := sq_nonneg (M 1 2 + M 2 1)
  have z1 : M 2 2 = M 1 1 := by
    have : M 2 2 - M 1 1 = 0 := pow_eq_zero_iff (two_ne_zero) |>.1 (le_antisymm (by linarith) q1)
    linarith
  have z2 : M 1 2 = -M 2 1 := by
    have : M 1 2 + M 2 1 = 0 := pow_eq_zero_iff (two_ne_zero) |>.1 (le_antisymm (by linarith) q2)
    linarith
  obtain ⟨r, r1, r2⟩ := polar (M 1 1) (M 2 1) 1 zero_le_one (by linear_combination m11)
  rw [mul_one] at r1 r2
  refine ⟨r, ?_⟩
  ext i j
  fin_cases i <;> fin_cases j
  · exact m00
  · exact m01
  · exact m02
  · exact m10
  · exact r1
  · show M 1 2 = -Real.sin r
    rw [z2, r2]
  · exact m20
  · exact r2
  · show M 2 2 = Real.cos r
    rw [z1, r1]

/-- The contract on `matrixToRpy` can be met: every rotation has such a decomposition. -/
theorem yawOK_exists : ∃ yaw, YawOK yaw := by
  have key : ∀ R : M3, R.transpose * R = 1 → R.det = 1 →
      ∃ y p r : ℝ, |p| ≤ Real.pi / 2 ∧ R = rotZ y * turnY p * turnX r := by
    intro R hR hd
    have hcol : R 0 0 ^ 2 + R 1 0 ^ 2 + R 2 0 ^ 2 = 1 := by
      have := congrFun (congrFun hR 0) 0
      simp [Matrix.mul_apply, Fin.sum_univ_three, Matrix.transpose_apply] at this
      nlinarith
    have hb : -1 ≤ -R 2 0 ∧ -R 2 0 ≤ 1 := by constructor <;> nlinarith [sq_nonneg (R 0 0), sq_nonneg (R 1 0)]
    set p := Real.arcsin (-R 2 0) with hp
    have hsp : Real.sin p = -R 2 0 := Real.sin_arcsin hb.1 hb.2
    have hcp : 0 ≤ Real.cos p := Real.cos_arcsin_nonneg _
    obtain ⟨y, e0, e1⟩ := polar (R 0 0) (R 1 0) (Real.cos p) hcp (by
      have := Real.sin_sq_add_cos_sq p
      rw [hsp] at this
      nlinarith)
    set Q := rotZ y * turnY p with hQ
    have hQo : Q.transpose * Q = 1 := by
      rw [hQ, Matrix.transpose_mul, ← Matrix.mul_assoc, Matrix.mul_assoc (turnY p).transpose, (rotZ_orth y).1, mul_one,
        (turnY_orth p).1]
    have hQd : Q.det = 1 := by rw [hQ, Matrix.det_mul, (rotZ_orth y).2, (turnY_orth p).2, one_mul]
    have hQo' : Q * Q.transpose = 1 := mul_eq_one_comm.1 hQo
    set M := Q.transpose * R with hM
    have hRM : R = Q * M := by rw [hM, ← Matrix.mul_assoc, hQo', one_mul]
    have hMo : M.transpose * M = 1 := by
      rw [hM, Matrix.transpose_mul, Matrix.transpose_transpose, Matrix.mul_assoc, ← Matrix.mul_assoc Q, hQo', one_mul, hR]
    have hMd : M.det = 1 := by rw [hM, Matrix.det_mul, Matrix.det_transpose, hQd, hd, one_mul]
    have hs1 := Real.sin_sq_add_cos_sq y
    have hs2 := Real.sin_sq_add_cos_sq p
    have m0 : M 0 0 = 1 ∧ M 1 0 = 0 ∧ M 2 0 = 0 := by
      have e2 : R 2 0 = -Real.sin p := by rw [hsp]; ring
      refine ⟨?_, ?_, ?_⟩ <;>
        simp only [hM, hQ, Matrix.mul_apply, Fin.sum_univ_three, Matrix.transpose_apply, e0, e1, e2] <;>
        simp [rotZ, turnY]
      · linear_combination (Real.cos p) ^ 2 * hs1 + hs2
      · ring
      · linear_combination (Real.sin p * Real.cos p) * hs1
    obtain ⟨m00, m10, m20⟩ := m0
    obtain ⟨r, hX⟩ := about_x M hMo hMd m00 m10 m20
    refine ⟨y, p, r, abs_le.2 ⟨Real.neg_pi_div_two_le_arcsin _, Real.arcsin_le_pi_div_two _⟩, ?_⟩
    rw [hRM, hX]
  classical
  refine ⟨fun R => if h : R.transpose * R = 1 ∧ R.det = 1 then Classical.choose (key R h.1 h.2) else 0, fun R hR hd => ?_⟩
  have h : R.transpose * R = 1 ∧ R.det = 1 := ⟨hR, hd⟩
  beta_reduce
  rw [dif_pos h]
  exact Classical.choose_spec (key R hR hd)

/-- The walking tasks can be initialised, and called after it. -/
example : ∃ s0, WalkSt.initialize someRobot ⟨emptyWorld, {}⟩ = .ok s0 ∧ s0.run [] = .ok s0 := by
  obtain ⟨s0, lp, lo, rp, ro, tr, x, h1, -, -⟩ := holds_initialize emptyWorld_sane {} rfl rfl someRobot
  exact ⟨s0, h1, rfl⟩

/-- A foot turned by `θ`, the right foot one tenth away from it: the targets are those of a robot standing there. -/
example (slerp : M3 → M3 → ℝ → M3) (yaw : M3 → ℝ) (hy : YawOK yaw) (θ : ℝ) :
    (initialTargets slerp yaw ⟨rotZ θ, 0⟩ (1 / 10) (3 / 10) 0).trunk = rotZ θ := by
  rw [C170_flat slerp yaw hy _ _ _ _ θ rfl]
  have : turnY 0 = 1 := by
    ext i j
    fin_cases i <;> fin_cases j <;> simp [turnY]
  rw [this, mul_one]

end Verif.Humanoid
