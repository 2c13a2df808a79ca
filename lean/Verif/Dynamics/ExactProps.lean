/-
Exact forms of C60 (line contacts) and C66 (relative position task of the dynamics solver).
-/
import Verif.Dynamics.ContactsProps
import Verif.Dynamics.RelPosProps

namespace Verif.Dynamics
open Finset Verif.Problem Verif.Kinematics Verif.Tools

section
variable {K : Type} [Field K] [LinearOrder K] [IsStrictOrderedRing K]

/-- C60, the masks: the update of a line contact whose orientation task has `N` columns is reported if and only if this task does not have
two rows, and that of a point contact if and only if its position task does not have three. Otherwise the Jacobians have five and three
rows. -/
theorem C60_masks (c : Contact K) (N : Nat) (robot : RState K) :
    (∀ jac oriA R uni length, c.kind = .line jac oriA R uni length → (oriA robot).cols = N →
      (c.update N robot = .error .logicError ↔ (oriA robot).rows ≠ 2) ∧
      ((oriA robot).rows = 2 → ∃ J, c.update N robot = .ok J ∧ J.rows = 5 ∧ J.cols = N)) ∧
    (∀ posA R uni, c.kind = .point posA R uni →
      (c.update N robot = .error .logicError ↔ (posA robot).rows ≠ 3) ∧
      ((posA robot).rows = 3 → ∃ J, c.update N robot = .ok J ∧ J.rows = 3)) := by
  constructor
  · intro jac oriA R uni length hk hN
    unfold Contact.update
    rw [hk]
    dsimp only
    by_cases h : (oriA robot).rows = 2
    · have h' : ¬ (oriA robot).rows ≠ 2 := fun hn => hn h
      have hN' : ¬ (oriA robot).cols ≠ N := fun hn => hn hN
      rw [if_neg h', if_neg hN']
      exact ⟨⟨fun he => (by cases he), fun hn => absurd h hn⟩, fun _ => ⟨_, rfl, rfl, rfl⟩⟩
    · rw [if_pos h]
      exact ⟨⟨fun _ => h, fun _ => rfl⟩, fun h2 => absurd h2 h⟩
  · intro posA R uni hk
    unfold Contact.update
    rw [hk]
    dsimp only
    by_cases h : (posA robot).rows = 3
    · have h' : ¬ (posA robot).rows ≠ 3 := fun hn => hn h
      rw [if_neg h']
      exact ⟨⟨fun he => (by cases he), fun hn => absurd h hn⟩, fun _ => ⟨_, rfl, h⟩⟩
    · rw [if_pos h]
      exact ⟨⟨fun _ => h, fun _ => rfl⟩, fun h3 => absurd h3 h⟩

/-- **C60, exactly.** The constraints of a line contact are defined if and only if the contact is not unilateral and has neither force
nor tangential weight. Otherwise a unilateral contact of null length is reported, and every other one multiplies a 3 × 3 rotation with
its 5 forces. -/
theorem C60_exact (c : Contact K) (jac : RState K → Nat → Nat → K) (oriA : RState K → Mat K) (R : Nat → Nat → K) (uni : Bool)
    (length : K) (hk : c.kind = .line jac oriA R uni length) (N : Nat) (robot : RState K) (J : Mat K)
    (hJ : c.update N robot = .ok J) (f : Expr K) (hf : f.rows = J.rows) :
    ((∃ l, c.constraints f = .ok l) ↔ uni = false ∧ c.weightForces ≤ 0 ∧ c.weightTangentials ≤ 0) ∧
    (c.constraints f = .error .logicError ↔ uni = true ∧ length = 0) ∧
    ((¬ ∃ l, c.constraints f = .ok l) → ¬ (uni = true ∧ length = 0) → c.constraints f = .error .ub) := by
  have h5 : f.rows = 5 := by
    have hJ := hJ
    unfold Contact.update at hJ
    rw [hk] at hJ
    simp only at hJ
    split at hJ
    · cases hJ
    · split at hJ
      · cases hJ
      · cases hJ; exact hf
  have hm : Expr.matMul (rotT R) f = .error .ub := by
    unfold Expr.matMul
    rw [if_neg (by show ¬ (3 = f.rows); omega)]
  cases uni with
  | true =>
    by_cases hlen : length = 0
    · have he : c.constraints f = .error .logicError := by
        unfold Contact.constraints
        rw [hk]
        simp only [lineConstraints, addIf, if_true, lineUnilateral, if_pos hlen]
        rfl
      simp [he, hlen]
    · have he := C60_refuted c jac oriA R length hk hlen N robot J hJ f hf
      simp [he, hlen]
  | false =>
    by_cases hw : c.weightForces ≤ 0 ∧ c.weightTangentials ≤ 0
    · obtain ⟨l, hl, -⟩ := C60_partial c jac oriA R length hk hw.1 hw.2 N robot J hJ f hf
      simp [hl, hw]
    · have he : c.constraints f = .error .ub := by
        unfold Contact.constraints
        rw [hk]
        by_cases h1 : 0 < c.weightForces
        · simp only [lineConstraints, addIf, softZero, Bool.false_eq_true, if_false, if_pos h1, hm]
          rfl
        · have h2 : 0 < c.weightTangentials := by
            by_contra h2
            exact hw ⟨not_lt.1 h1, not_lt.1 h2⟩
          simp only [lineConstraints, addIf, softZero, Bool.false_eq_true, if_false, if_neg h1, if_pos h2, hm]
          rfl
      simp only [he, reduceCtorEq, exists_false, true_and, false_iff, Bool.false_eq_true, false_and, not_false_eq_true,
        implies_true, and_true]
      exact ⟨hw, Iff.intro (fun h => by cases h) (fun h => False.elim h)⟩

end

/-- **C66, exactly.** When the task is met along a motion, the position of `b` seen from `a` has the desired acceleration if and only if
the terms that the task gets wrong, `Ω × (Ω × y) + Rᵀ ((dJb - dJa)_angular - (dJb - dJa)_linear) qd`, cancel out. -/
theorem C66_exact {N : Nat} {k : ℝ → RelKin} {s : ℝ → RState ℝ} (h : RelMotion N k s) (kp kd : ℝ)
    (target dtarget ddtarget : V3) (t : ℝ)
    (hmet : (relPosUpdate N Mask.init kp kd target dtarget ddtarget (k t) (s t)).Met (s t).qdd)
    (v : ℝ → V3) (hv : ∀ t, HasDerivAt (fun t => seen (k t)) (v t) t) :
    HasDerivAt v (kp • (target - seen (k t)) + (if kd < 0 then 2 * Real.sqrt kp else kd) • (dtarget - v t) + ddtarget) t ↔
      cross3 ((k t).omega N (s t).qd) (cross3 ((k t).omega N (s t).qd) (seen (k t)))
        + (k t).Ra.transpose.mulVec ((app N (k t).dJbAng (s t).qd - app N (k t).dJaAng (s t).qd)
            - (app N (k t).dJbLin (s t).qd - app N (k t).dJaLin (s t).qd)) = 0 := by
  obtain ⟨w, h1, h2⟩ := C66_partial h kp kd target dtarget ddtarget t hmet
  have e : v = w := by funext t; exact (hv t).unique (h1 t)
  subst e
  constructor
  · intro h3
    have := h3.unique h2
    rw [eq_comm, sub_eq_self] at this
    exact this
  · intro h0
    rw [h0, sub_zero] at h2
    exact h2

end Verif.Dynamics
