/-
Property C44, whole programs: the bound on the steps is that of the settings given last.
-/
import Verif.Kinematics.SolverProps

namespace Verif.Kinematics
open Finset Verif.Problem

section
variable {K : Type} [Field K] [LinearOrder K] [IsStrictOrderedRing K]

/-! ## Specification -/

/-- The value given last to `dt` in a (reversed) history, 0 at first. -/
def LastDt : List (Op K) → K
  | [] => 0
  | .setDt dt :: _ => dt
  | _ :: before => LastDt before

/-- The last `enable_velocity_limits` call of a (reversed) history had argument true. -/
def LastVelocity : List (Op K) → Prop
  | [] => False
  | .enableVelocityLimits b :: _ => b = true
  | _ :: before => LastVelocity before

/-- The last `enable_joint_limits` call of a (reversed) history had argument true; joint limits are enabled at first. -/
def LastJoint : List (Op K) → Prop
  | [] => True
  | .enableJointLimits b :: _ => b = true
  | _ :: before => LastJoint before

/-! ## The property -/

/-- After any history the settings are those given last. -/
theorem C44_history (env : QPEnv K) (r : Robot K) (s : KState K) (hs : s.Fresh) (hd : s.dt = 0) (ops : List (Op K)) (hf : OpsFit r.nv ops) :
    (run env r s ops).dt = LastDt ops.reverse ∧ ((run env r s ops).velocityLimits = true ↔ LastVelocity ops.reverse) ∧
    ((run env r s ops).jointLimits = true ↔ LastJoint ops.reverse) := by
  induction ops using List.reverseRecOn with
  | nil => simp [run, hd, hs.2.2.2.2.2.1, hs.2.2.2.2.2.2, LastDt, LastVelocity, LastJoint]
  | append_singleton ops op ih =>
    have hf' : OpsFit r.nv ops := fun t c a hm => hf t c a (List.mem_append_left _ hm)
    have ih := ih hf'
    have hv := run_vars env r ops s hf' (hs.vars _)
    rw [run_snoc, List.reverse_append, List.reverse_singleton, List.singleton_append]
    cases op with
    | mask n => simp only [step, LastDt, LastVelocity, LastJoint]; rw [maskDof_frame]; exact ih
    | unmask n => simp only [step, LastDt, LastVelocity, LastJoint]; rw [unmaskDof_frame]; exact ih
    | setDt dt => exact ⟨rfl, ih.2⟩
    | enableVelocityLimits b => exact ⟨ih.1, Iff.rfl, ih.2.2⟩
    | enableJointLimits b => exact ⟨ih.1, ih.2.1, Iff.rfl⟩
    | solve t c a =>
      have := (solve_spec' env r t c a _ hv (hf t c a (by simp) _)).2.1
      simp only [step, LastDt, LastVelocity, LastJoint]
      rw [this.dt, this.velocityLimits, this.jointLimits]
      exact ih
    | _ => exact ih

/-- **C44, whole programs.** After any history of calls, if the velocity limits were enabled last, every step of a solve is within the
velocity limits of the robot times the time step given last, which is not 0. -/
theorem C44_session (env : QPEnv K) (hS : env.Sound) (r : Robot K) (hL : r.Layout) (hsize : ∀ j ∈ r.joints, j.nV ≤ j.nQ)
    (s : KState K) (hs : s.Fresh) (hd : s.dt = 0) (ops : List (Op K)) (hf : OpsFit r.nv ops) (tasks : List (Task K))
    (cons : List (KConstraint K)) (apply : Bool) (hfit : ∀ rs, TasksFit r.nv rs tasks) (hlast : LastVelocity ops.reverse) (s' : KState K)
    (dq : Nat → K) (h : solve env r tasks cons apply (run env r s ops) = (s', .ok dq)) :
    LastDt ops.reverse ≠ 0 ∧
    ∀ k, 6 ≤ k → k < r.nv → -(LastDt ops.reverse * r.vlim k) ≤ dq k ∧ dq k ≤ LastDt ops.reverse * r.vlim k := by
  obtain ⟨h1, h2, -⟩ := C44_history env r s hs hd ops hf
  rw [← h1]
  exact C44 env hS r hL hsize tasks cons apply _ s' dq (run_vars env r ops s hf (hs.vars _)) (hfit _) (h2.2 hlast) h

/-- A history in which everything is given twice. -/
example : LastDt ([.setDt 1, .enableVelocityLimits false, .setDt (1 / 2), .enableVelocityLimits true] : List (Op ℚ)).reverse = 1 / 2 ∧
    LastVelocity ([.setDt 1, .enableVelocityLimits false, .setDt (1 / 2), .enableVelocityLimits true] : List (Op ℚ)).reverse := ⟨rfl, rfl⟩

end

end Verif.Kinematics
