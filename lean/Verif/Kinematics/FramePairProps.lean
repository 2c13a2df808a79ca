/-
Property C127: the frame tasks.
-/
import Verif.Kinematics.FramePair
import Verif.Kinematics.FrameTasksProps

namespace Verif.Kinematics
open Finset Verif.Problem Verif.Tools Verif.Robot Verif.Dynamics

/-- A mask that keeps the three axes, in a custom frame that is a frame. -/
def FullMask (mask : Mask ℝ) : Prop :=
  (∀ a, a ∈ mask.indices) ∧ IsRotation (Matrix.of mask.rCustomWorld) ∧ IsRotation (Matrix.of mask.rLocalWorld)

/-- The error of a task, seen by the solver: its vector `b`. -/
def NoError (M : TaskMat ℝ) : Prop := ∀ i, i < M.rows → M.b i = 0

theorem noError_iff (N : Nat) (mask : Mask ℝ) (J : J3) (v : V3) (hm : FullMask mask) :
    NoError (maskedTask N mask J v) ↔ v = 0 := by
  have h := maskedTask_met N mask J v (fun _ => 0)
  have hz : (maskedTask N mask J v).Met (fun _ => 0) ↔ NoError (maskedTask N mask J v) := by
    unfold TaskMat.Met TaskMat.app NoError
    simp only [mul_zero, sum_const_zero]
    exact ⟨fun h i hi => (h i hi).symm, fun h i hi => (h i hi).symm⟩
  rw [← hz, h]
  simp only [mul_zero, sum_const_zero]
  have rot : ∀ R : M3, IsRotation R → (∀ a, ∑ k, R a k * v k = 0) → v = 0 := by
    intro R hR h
    have h1 : R.mulVec v = 0 := funext h
    calc v = R.transpose.mulVec (R.mulVec v) := by rw [Matrix.mulVec_mulVec, hR.1, Matrix.one_mulVec]
      _ = 0 := by rw [h1, Matrix.mulVec_zero]
  constructor
  · intro h
    have h' : ∀ a, maskFrame mask v a = maskFrame mask (fun _ => 0) a := fun a => (h a (hm.1 a)).symm
    unfold maskFrame at h'
    cases hf : mask.frame <;> simp only [hf, mul_zero, sum_const_zero] at h'
    · exact funext h'
    · exact rot _ hm.2.2 h'
    · exact rot _ hm.2.1 h'
  · rintro rfl a _
    rfl

/-- **C127**, configuration: with a known priority both tasks get it, with names derived from the given name and their own
weights, and the targets do not change; with an unknown one an exception is raised, the orientation task and the targets are
unchanged, and only the name of the position task has changed. -/
theorem C127_configure (p : FramePair) (name priority : String) (wp wo : ℝ) :
    (∀ pr, ((priority = "soft" ∧ pr = Tools.Priority.soft) ∨ (priority = "hard" ∧ pr = Tools.Priority.hard) ∨
        (priority = "scaled" ∧ pr = Tools.Priority.scaled)) →
      p.configure name priority wp wo =
        (⟨⟨name ++ "_position", pr, wp⟩, ⟨name ++ "_orientation", pr, wo⟩, p.target, p.R⟩, none)) ∧
    (priority ≠ "soft" → priority ≠ "hard" → priority ≠ "scaled" →
      p.configure name priority wp wo =
        (⟨⟨name ++ "_position", p.position.priority, p.position.weight⟩, p.orientation, p.target, p.R⟩, some .runtimeError)) := by
  constructor
  · rintro pr (⟨rfl, rfl⟩ | ⟨rfl, rfl⟩ | ⟨rfl, rfl⟩) <;>
      simp [FramePair.configure, Prioritized.configureStr, priorityFromString]
  · intro h1 h2 h3
    simp [FramePair.configure, Prioritized.configureStr, priorityFromString, h1, h2, h3]

/-- **C127**, targets: a frame task made with or given a placement gives it back and changes nothing else; the last placement
given counts. The orientation of a new task is a rotation whatever the matrix given, when `Affine3d::rotation()` gives one. -/
theorem C127_target (p : FramePair) (T T' : Affine) (rotation : M3 → M3) (hrot : ∀ R, IsRotation R → rotation R = R) :
    (p.setT T).getT = T ∧ (p.setT T).position = p.position ∧ (p.setT T).orientation = p.orientation ∧
    p.setT p.getT = p ∧ (p.setT T').setT T = p.setT T ∧
    (IsRotation T.linear → (FramePair.create rotation T).getT = T) ∧
    ((∀ R, IsRotation (rotation R)) → IsRotation (FramePair.create rotation T).getT.linear) := by
  refine ⟨rfl, rfl, rfl, rfl, rfl, fun h => ?_, fun h => h _⟩
  unfold FramePair.create FramePair.getT
  simp only [hrot _ h]

/-- **C127**, new tasks: until it is configured, a frame task is made of two soft tasks of weight 1. -/
theorem C127_new (rotation : M3 → M3) (T : Affine) :
    ∀ t ∈ [(FramePair.create rotation T).position, (FramePair.create rotation T).orientation], t.priority = Tools.Priority.soft ∧ t.weight = 1 := by
  intro t ht
  simp only [List.mem_cons, List.not_mem_nil, or_false] at ht
  rcases ht with rfl | rfl <;> exact ⟨rfl, rfl⟩

theorem log_error {log3 : M3 → V3} (hlog : LogOK log3) (h1 : log3 1 = 0) {R S : M3} (hR : IsRotation R) (hS : IsRotation S) :
    log3 (R * S.transpose) = 0 ↔ S = R := by
  have he : exp3 0 = 1 := by unfold exp3; rw [if_pos (by simp [norm3])]
  constructor
  · intro h
    have h2 := hlog _ (isRotation_mul hR (isRotation_transpose hS))
    rw [h, he] at h2
    calc S = 1 * S := (one_mul S).symm
      _ = R := by rw [h2, Matrix.mul_assoc, hS.1, mul_one]
  · rintro rfl
    rw [(mul_eq_one_comm.1 hS.1 : S * S.transpose = 1), h1]

/-- **C127**, meaning: when both masks keep the three axes, the two tasks of a frame task given the placement `T` have no error
exactly when the frame is at `T`; the two tasks of a relative frame task exactly when `b` is at `T` in `a`. -/
theorem C127_reached (log3 : M3 → V3) (hlog : LogOK log3) (h1 : log3 1 = 0) (N : Nat) (mp mo : Mask ℝ) (hp : FullMask mp) (ho : FullMask mo)
    (p : FramePair) (T : Affine) (hT : IsRotation T.linear) :
    (∀ (T_world_frame : Affine) (JLin JAng : J3), IsRotation T_world_frame.linear →
      (NoError (positionTask N mp (p.setT T).target T_world_frame JLin) ∧
        NoError (orientationTask log3 N mo (p.setT T).R T_world_frame JAng) ↔ T_world_frame = T)) ∧
    (∀ f : TwoFrames, IsRotation f.Ta.linear → IsRotation f.Tb.linear →
      (NoError (relativePositionTask N mp (p.setT T).target f) ∧
        NoError (relativeOrientationTask log3 N mo (p.setT T).R f) ↔ f.Tb = f.Ta.mul T)) := by
  have hmask : ∀ (m : Mask ℝ) (R : M3), FullMask m → IsRotation R → FullMask { m with rLocalWorld := R.transpose } :=
    fun m R h hR => ⟨h.1, h.2.1, isRotation_transpose hR⟩
  constructor
  · intro Tf JLin JAng hTf
    unfold positionTask orientationTask
    rw [show (p.setT T).R = T.linear from rfl, noError_iff _ _ _ _ (hmask _ _ hp hTf), noError_iff _ _ _ _ (hmask _ _ ho hT),
      sub_eq_zero, log_error hlog h1 hT hTf]
    constructor
    · rintro ⟨h, h'⟩
      exact Affine.ext h' h.symm
    · rintro rfl
      exact ⟨rfl, rfl⟩
  · intro f ha hb
    unfold relativePositionTask relativeOrientationTask
    have hab : IsRotation f.Tab.linear := by
      show IsRotation (f.Ta.linear⁻¹ * f.Tb.linear)
      rw [isRotation_inv ha]
      exact isRotation_mul (isRotation_transpose ha) hb
    rw [noError_iff _ _ _ _ hp, noError_iff _ _ _ _ ho, sub_eq_zero, show (p.setT T).R = T.linear from rfl,
      log_error hlog h1 hT hab]
    have key : f.Tab = T ↔ f.Tb = f.Ta.mul T := by
      constructor
      · intro h
        rw [← h]
        show f.Tb = f.Ta.mul (f.Ta.inv.mul f.Tb)
        rw [← mul_assoc', mul_inv' ha, one_mul']
      · intro h
        show f.Ta.inv.mul f.Tb = T
        rw [h, ← mul_assoc', inv_mul' ha, one_mul']
    rw [← key]
    constructor
    · rintro ⟨h, h'⟩
      exact Affine.ext h' h.symm
    · rintro rfl
      exact ⟨rfl, rfl⟩

/-- The default mask. -/
theorem fullMask_init : FullMask Mask.init := by
  have : IsRotation (Matrix.of fun i j : Fin 3 => if i = j then (1 : ℝ) else 0) := by
    have e : (Matrix.of fun i j : Fin 3 => if i = j then (1 : ℝ) else 0) = 1 := by
      ext i j; simp [Matrix.one_apply]
    rw [e]
    exact isRotation_one
  exact ⟨fun a => by fin_cases a <;> simp [Mask.init], this, this⟩

/-- The hypotheses are met: the logarithm exists. -/
example : ∃ log3, LogOK log3 ∧ log3 1 = 0 ∧ FullMask Mask.init ∧ IsRotation (rotZ 1) := by
  classical
  refine ⟨fun R => if R = 1 then 0 else if h : IsRotation R then (exp3_surj R h).choose else 0, fun R hR => ?_, if_pos rfl,
    fullMask_init, rotZ_isRotation 1⟩
  simp only
  by_cases h : R = 1
  · rw [if_pos h, h]
    unfold exp3; rw [if_pos (by simp [norm3])]
  · rw [if_neg h, dif_pos hR]
    exact (exp3_surj R hR).choose_spec

end Verif.Kinematics
