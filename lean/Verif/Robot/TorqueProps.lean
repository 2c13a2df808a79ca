/-
Properties C70 to C74 and C107: accessors, Jacobians, torques, noise, mass matrix.
-/
import Mathlib.Algebra.BigOperators.Fin
import Mathlib.Tactic.LinearCombination
import Mathlib.Tactic.IntervalCases
import Verif.Robot.Wrapper

namespace Verif.Robot
open Finset Verif.Problem

/-! ## C70 -/

/-- The name is not the name of a joint. -/
def Unknown (joints : List Kinematics.Joint) (name : String) : Prop := ∀ j ∈ joints, j.name ≠ name

theorem find_unknown {joints : List Kinematics.Joint} {name : String} (h : Unknown joints name) :
    joints.find? (fun j => j.name = name) = none := by
  rw [List.find?_eq_none]
  intro j hj
  simpa using h j hj

/-- **C70, exact.** For an unknown joint, the accessors of positions and position limits raise a `runtime_error`; all the others
(sizes, velocities, accelerations, velocity and torque limits, rotor inertia, gear ratio) have undefined behaviour. Missing for
the full C70: the second part. -/
theorem C70_partial (joints : List Kinematics.Joint) (name : String) (h : Unknown joints name) (a : Accessor) :
    (a ∈ [Accessor.getJoint, .setJoint, .getJointOffset, .setJointLimits, .getJointLimits] →
      a.index joints name = .error .runtimeError) ∧
    (a ∉ [Accessor.getJoint, .setJoint, .getJointOffset, .setJointLimits, .getJointLimits] →
      a.index joints name = .error .ub) := by
  have hf := find_unknown h
  cases a <;> simp [Accessor.index, jointOffset, jointUnchecked, hf, Except.map]

/-- C70: a known joint never raises (names are unique in pinocchio), and each accessor uses the index of that joint. -/
theorem C70_known (joints : List Kinematics.Joint) (j : Kinematics.Joint) (hj : j ∈ joints)
    (hu : ∀ k ∈ joints, k.name = j.name → k = j) (a : Accessor) :
    a.index joints j.name = .ok (if a ∈ [Accessor.getJoint, .setJoint, .getJointOffset, .setJointLimits, .getJointLimits]
      then j.idxQ else if a = .getJointSize then j.nQ else if a = .getJointVSize then j.nV else j.idxV) := by
  have hf : joints.find? (fun k => k.name = j.name) = some j := by
    cases h : joints.find? (fun k => k.name = j.name) with
    | none =>
      rw [List.find?_eq_none] at h
      exact absurd (h j hj) (by simp)
    | some k =>
      have h1 := List.find?_some h
      have h2 := List.mem_of_find?_eq_some h
      rw [hu k h2 (by simpa using h1)]
  cases a <;> simp [Accessor.index, jointOffset, jointUnchecked, hf, Except.map]

/-- **C70 is false**: for the robot with a single joint, reading the velocity of another one is undefined behaviour. -/
theorem C70_refuted : ∃ (joints : List Kinematics.Joint) (name : String) (a : Accessor), Unknown joints name ∧
    a.index joints name = .error .ub :=
  ⟨[⟨"arm", 7, 1, 6, 1⟩], "leg", .getJointVelocity, by simp [Unknown], rfl⟩

/-! ## C71 -/

/-- **C71, exact**: by name and by index agree exactly when the Jacobian is equal to its time variation. -/
theorem C71_partial {K : Type} (d : JointData K) (getJointId : String → Nat) (joint : String) :
    d.timeVariationByName getJointId joint = d.timeVariation (getJointId joint) ↔ d.J (getJointId joint) = d.dJ (getJointId joint) :=
  Iff.rfl

/-- **C71 is false**: a joint whose axis is fixed has a non-zero Jacobian and a zero time variation. -/
theorem C71_refuted : ∃ (d : JointData ℚ) (getJointId : String → Nat) (joint : String),
    d.timeVariationByName getJointId joint ≠ d.timeVariation (getJointId joint) := by
  refine ⟨⟨fun _ _ _ => 1, fun _ _ _ => 0⟩, fun _ => 1, "arm", fun h => ?_⟩
  have := congrFun (congrFun h 0) 0
  simp [JointData.timeVariationByName, JointData.timeVariation, JointData.jacobian] at this

/-! ## C72 -/

section
variable {K : Type} [Field K]

/-- **C72**, gravity compensation: `g - Jᵀ f` for a wrench `f`, and zero on the base; that wrench is the only one. -/
theorem C72_gravity (g : Nat → K) (J : Nat → Nat → K) (h : IsUnit (base66 J).det) :
    ∃ f : Fin 6 → K, (∀ i, gravityTorques g J i = g i - ∑ k : Fin 6, J k i * f k) ∧
      (∀ i, i < 6 → gravityTorques g J i = 0) ∧
      ∀ f' : Fin 6 → K, (∀ i, i < 6 → g i - ∑ k : Fin 6, J k i * f' k = 0) → f' = f := by
  have hT : IsUnit (base66 J).transpose.det := by rwa [Matrix.det_transpose]
  refine ⟨(base66 J).transpose⁻¹.mulVec (head6 g), fun i => rfl, fun i hi => ?_, fun f' hf' => ?_⟩
  · have : (base66 J).transpose.mulVec ((base66 J).transpose⁻¹.mulVec (head6 g)) = head6 g := by
      rw [Matrix.mulVec_mulVec, Matrix.mul_nonsing_inv _ hT, Matrix.one_mulVec]
    have := congrFun this ⟨i, hi⟩
    unfold gravityTorques
    show g i - _ = 0
    rw [sub_eq_zero]
    exact this.symm
  · have : (base66 J).transpose.mulVec f' = head6 g := by
      funext i
      have := hf' i i.2
      rw [sub_eq_zero] at this
      exact this.symm
    rw [← this, Matrix.mulVec_mulVec, Matrix.nonsing_inv_mul _ hT, Matrix.one_mulVec]

theorem sum_base (nv : Nat) (h6 : 6 ≤ nv) (F : Nat → K) :
    ∑ j ∈ range nv, F j = ∑ j : Fin 6, F j + ∑ j ∈ range (nv - 6), F (j + 6) := by
  obtain ⟨n, rfl⟩ := Nat.exists_eq_add_of_le h6
  rw [sum_range_add, Fin.sum_univ_eq_sum_range (fun j => F j) 6, Nat.add_sub_cancel_left]
  congr 1
  exact sum_congr rfl fun j _ => by rw [add_comm]

/-- **C72**, `get_torques`: the torques satisfy the equation of motion with the given contact forces and joint accelerations, for
some acceleration of the base, and are zero on the base. -/
theorem C72_torques (nv nf : Nat) (h6 : 6 ≤ nv) (M : Nat → Nat → K) (h : Nat → K) (Jc : Nat → Nat → K)
    (acc_a forces : Nat → K) (hM : IsUnit (base66 M).det) :
    ∃ acc : Nat → K, (∀ i, acc (i + 6) = acc_a i) ∧
      (∀ i, (∑ j ∈ range nv, M i j * acc j) + h i = (getTorques nv nf M h Jc acc_a forces).2 i + ∑ k ∈ range nf, Jc i k * forces k) ∧
      ∀ i, i < 6 → (getTorques nv nf M h Jc acc_a forces).2 i = 0 := by
  refine ⟨(getTorques nv nf M h Jc acc_a forces).1, fun i => ?_, fun i => ?_, fun i hi => ?_⟩
  · unfold getTorques
    dsimp only
    rw [dif_neg (by omega), Nat.add_sub_cancel]
  · unfold getTorques
    dsimp only
    ring
  · have hacc : ∀ j : Fin 6, (getTorques nv nf M h Jc acc_a forces).1 j =
        (base66 M)⁻¹.mulVec (fun i : Fin 6 => (∑ k ∈ range nf, Jc i k * forces k) - h i - ∑ j ∈ range (nv - 6), M i (j + 6) * acc_a j) j := by
      intro j
      unfold getTorques
      dsimp only
      rw [dif_pos j.2]
    have hacc' : ∀ j, (getTorques nv nf M h Jc acc_a forces).1 (j + 6) = acc_a j := by
      intro j
      unfold getTorques
      dsimp only
      rw [dif_neg (by omega), Nat.add_sub_cancel]
    have htau : (getTorques nv nf M h Jc acc_a forces).2 i =
        (∑ j ∈ range nv, M i j * (getTorques nv nf M h Jc acc_a forces).1 j) + h i - ∑ k ∈ range nf, Jc i k * forces k := rfl
    rw [htau, sum_base nv h6]
    simp only [hacc, hacc']
    have := congrFun (show (base66 M).mulVec ((base66 M)⁻¹.mulVec (fun i : Fin 6 => (∑ k ∈ range nf, Jc i k * forces k) - h i -
        ∑ j ∈ range (nv - 6), M i (j + 6) * acc_a j)) = _ by
      rw [Matrix.mulVec_mulVec, Matrix.mul_nonsing_inv _ hM, Matrix.one_mulVec]) ⟨i, hi⟩
    have hrow : ∑ j : Fin 6, M i j * (base66 M)⁻¹.mulVec (fun i : Fin 6 => (∑ k ∈ range nf, Jc i k * forces k) - h i -
        ∑ j ∈ range (nv - 6), M i (j + 6) * acc_a j) j =
        (∑ k ∈ range nf, Jc i k * forces k) - h i - ∑ j ∈ range (nv - 6), M i (j + 6) * acc_a j := this
    rw [hrow]
    ring

/-! ## C73 -/

/-- Specification: with the frame held fixed (`J qdd + dJ qd = 0`, `drift = dJ qd`) by a wrench, the torques give the
requested joint accelerations. -/
def HoldsFixed (nv : Nat) (M : Nat → Nat → K) (h : Nat → K) (J : Nat → Nat → K) (drift : Fin 6 → K) (qdd_a tau : Nat → K) : Prop :=
  ∃ (qdd : Nat → K) (f : Fin 6 → K), (∀ i, i < nv - 6 → qdd (i + 6) = qdd_a i) ∧
    (∀ k : Fin 6, (∑ j ∈ range nv, J k j * qdd j) + drift k = 0) ∧
    ∀ i, i < nv → (∑ j ∈ range nv, M i j * qdd j) + h i = (if i < 6 then 0 else tau (i - 6)) + ∑ k : Fin 6, J k i * f k

/-- The acceleration of the base that keeps the frame fixed. -/
noncomputable def baseAcc (nv : Nat) (J : Nat → Nat → K) (drift : Fin 6 → K) (qdd_a : Nat → K) : Fin 6 → K :=
  (base66 J)⁻¹.mulVec fun k => -(∑ j ∈ range (nv - 6), J k (j + 6) * qdd_a j) - drift k

/-- The part of the wrench due to the accelerations, which the code leaves out. -/
noncomputable def accWrench (nv : Nat) (M J : Nat → Nat → K) (drift : Fin 6 → K) (qdd_a : Nat → K) : Fin 6 → K :=
  (base66 J).transpose⁻¹.mulVec fun i => (∑ j : Fin 6, M i j * baseAcc nv J drift qdd_a j) + ∑ j ∈ range (nv - 6), M i (j + 6) * qdd_a j

/-- **C73, exact**: the returned torques are right exactly when, on each joint, the inertial torque due to the base acceleration
balances the part of the wrench due to the accelerations. -/
theorem C73_exact (nv : Nat) (h6 : 6 ≤ nv) (M : Nat → Nat → K) (h : Nat → K) (J : Nat → Nat → K) (drift : Fin 6 → K)
    (qdd_a : Nat → K) (hJ : IsUnit (base66 J).det) :
    HoldsFixed nv M h J drift qdd_a (fixedFrameTorques nv M h J qdd_a) ↔
      ∀ i, i < nv - 6 → ∑ j : Fin 6, M (i + 6) j * baseAcc nv J drift qdd_a j =
        ∑ k : Fin 6, J k (i + 6) * accWrench nv M J drift qdd_a k := by
  have hT : IsUnit (base66 J).transpose.det := by rwa [Matrix.det_transpose]
  set f0 : Fin 6 → K := (base66 J).transpose⁻¹.mulVec (head6 h) with hf0
  have hf0' : (base66 J).transpose.mulVec f0 = head6 h := by
    rw [hf0, Matrix.mulVec_mulVec, Matrix.mul_nonsing_inv _ hT, Matrix.one_mulVec]
  have hw : (base66 J).transpose.mulVec (accWrench nv M J drift qdd_a) = fun i : Fin 6 =>
      (∑ j : Fin 6, M i j * baseAcc nv J drift qdd_a j) + ∑ j ∈ range (nv - 6), M i (j + 6) * qdd_a j := by
    unfold accWrench
    rw [Matrix.mulVec_mulVec, Matrix.mul_nonsing_inv _ hT, Matrix.one_mulVec]
  have hb : (base66 J).mulVec (baseAcc nv J drift qdd_a) = fun k : Fin 6 =>
      -(∑ j ∈ range (nv - 6), J k (j + 6) * qdd_a j) - drift k := by
    unfold baseAcc
    rw [Matrix.mulVec_mulVec, Matrix.mul_nonsing_inv _ hJ, Matrix.one_mulVec]
  have hcode : ∀ i, fixedFrameTorques nv M h J qdd_a i =
      (∑ j ∈ range (nv - 6), M (i + 6) (j + 6) * qdd_a j) + h (i + 6) - ∑ k : Fin 6, J k (i + 6) * f0 k := fun i => rfl
  constructor
  · rintro ⟨qdd, f, hq, hfix, heom⟩ i hi
    have hsplit : ∀ A : Nat → K, ∑ j ∈ range nv, A j * qdd j = ∑ j : Fin 6, A j * qdd j + ∑ j ∈ range (nv - 6), A (j + 6) * qdd_a j := by
      intro A
      rw [sum_base nv h6]
      congr 1
      exact sum_congr rfl fun j hj => by rw [hq j (mem_range.1 hj)]
    have hbase : (fun j : Fin 6 => qdd j) = baseAcc nv J drift qdd_a := by
      have : (base66 J).mulVec (fun j : Fin 6 => qdd j) = (base66 J).mulVec (baseAcc nv J drift qdd_a) := by
        rw [hb]
        funext k
        have := hfix k
        rw [hsplit] at this
        show ∑ j : Fin 6, J k j * qdd j = _
        linear_combination this
      have := congrArg (base66 J)⁻¹.mulVec this
      rwa [Matrix.mulVec_mulVec, Matrix.mulVec_mulVec, Matrix.nonsing_inv_mul _ hJ, Matrix.one_mulVec, Matrix.one_mulVec] at this
    have hbase' : ∀ j : Fin 6, qdd j = baseAcc nv J drift qdd_a j := fun j => congrFun hbase j
    have hfeq : f = accWrench nv M J drift qdd_a + f0 := by
      have : (base66 J).transpose.mulVec f = (base66 J).transpose.mulVec (accWrench nv M J drift qdd_a + f0) := by
        rw [Matrix.mulVec_add, hw, hf0']
        funext i
        have := heom i (lt_of_lt_of_le i.2 h6)
        rw [hsplit, if_pos i.2] at this
        simp only [hbase'] at this
        show ∑ k : Fin 6, J k i * f k = _ + h i
        linear_combination -this
      have := congrArg (base66 J).transpose⁻¹.mulVec this
      rwa [Matrix.mulVec_mulVec, Matrix.mulVec_mulVec, Matrix.nonsing_inv_mul _ hT, Matrix.one_mulVec, Matrix.one_mulVec] at this
    have := heom (i + 6) (by omega)
    rw [hsplit, if_neg (by omega), Nat.add_sub_cancel, hcode, hfeq] at this
    simp only [hbase', Pi.add_apply, mul_add, sum_add_distrib] at this
    linear_combination this
  · intro hcond
    refine ⟨fun j => if h : j < 6 then baseAcc nv J drift qdd_a ⟨j, h⟩ else qdd_a (j - 6),
      accWrench nv M J drift qdd_a + f0, fun i _ => ?_, fun k => ?_, fun i hi => ?_⟩
    · have : ¬ i + 6 < 6 := by omega
      simp [this]
    · rw [sum_base nv h6]
      simp only [Fin.is_lt, dite_true, Fin.eta, show ∀ j, ¬ j + 6 < 6 from fun j => by omega, dite_false, Nat.add_sub_cancel]
      have := congrFun hb k
      have h1 : ∑ j : Fin 6, J k j * baseAcc nv J drift qdd_a j = _ := this
      rw [h1]; ring
    · rw [sum_base nv h6]
      simp only [Fin.is_lt, dite_true, Fin.eta, show ∀ j, ¬ j + 6 < 6 from fun j => by omega, dite_false, Nat.add_sub_cancel,
        Pi.add_apply, mul_add, sum_add_distrib]
      by_cases h : i < 6
      · rw [if_pos h]
        have h1 := congrFun hw ⟨i, h⟩
        have h2 := congrFun hf0' ⟨i, h⟩
        have h1' : ∑ k : Fin 6, J k i * accWrench nv M J drift qdd_a k = _ := h1
        have h2' : ∑ k : Fin 6, J k i * f0 k = _ := h2
        rw [h1', h2']
        simp only [head6]
        ring
      · rw [if_neg h, hcode]
        have := hcond (i - 6) (by omega)
        have hi6 : i - 6 + 6 = i := by omega
        rw [hi6] at this ⊢
        rw [this]
        ring

/-- **C73, what is true**: at rest (no drift) and without joint acceleration, the torques are right. Missing for the full C73: the
inertial terms (`C73_exact`, `C73_refuted`). -/
theorem C73_partial (nv : Nat) (h6 : 6 ≤ nv) (M : Nat → Nat → K) (h : Nat → K) (J : Nat → Nat → K) (hJ : IsUnit (base66 J).det) :
    HoldsFixed nv M h J 0 0 (fixedFrameTorques nv M h J 0) := by
  rw [C73_exact nv h6 M h J 0 0 hJ]
  intro i _
  have hb : baseAcc nv J 0 (0 : Nat → K) = 0 := by
    unfold baseAcc
    simp only [Pi.zero_apply, mul_zero, sum_const_zero, neg_zero, sub_zero]
    exact Matrix.mulVec_zero _
  have hw : accWrench nv M J 0 (0 : Nat → K) = 0 := by
    unfold accWrench
    rw [hb]
    simp only [Pi.zero_apply, mul_zero, sum_const_zero, add_zero]
    exact Matrix.mulVec_zero _
  rw [hb, hw]
  simp

end

/-- **C73 is false**: unit masses, a frame that moves by 1 along `x` with the joint. The torque for a unit acceleration is 2, the
code returns 1. -/
theorem C73_refuted : ∃ (nv : Nat) (M J : Nat → Nat → ℚ) (h qdd_a : Nat → ℚ), 6 ≤ nv ∧ IsUnit (base66 J).det ∧
    ¬ HoldsFixed nv M h J 0 qdd_a (fixedFrameTorques nv M h J qdd_a) := by
  let J : Nat → Nat → ℚ := fun i j => if i = j ∨ (i = 0 ∧ j = 6) then 1 else 0
  have hJ1 : base66 J = 1 := by
    ext i j
    rw [Matrix.one_apply]
    unfold base66
    show (if _ then _ else _) = _
    by_cases hij : i = j
    · subst hij; simp
    · have : (i : Nat) ≠ j := fun h => hij (Fin.ext h)
      rw [if_neg hij, if_neg]
      rintro (h | ⟨-, h⟩)
      · exact this h
      · exact absurd j.2 (by omega)
  have hJ : IsUnit (base66 J).det := by rw [hJ1]; simp
  refine ⟨7, fun i j => if i = j then 1 else 0, J, fun _ => 0, fun _ => 1, by norm_num, hJ, ?_⟩
  rw [C73_exact 7 (by norm_num) _ _ _ _ _ hJ]
  intro hc
  have := hc 0 (by norm_num)
  unfold accWrench baseAcc at this
  rw [hJ1] at this
  simp [Fin.sum_univ_succ, J] at this

/-! ## C74 -/

section
variable {K : Type} [Field K] [LinearOrder K] [IsStrictOrderedRing K]

/-- **C74, what is true**: for coordinates with real limits, inside which `randomConfiguration` draws, the noise keeps the joint
in its limits; coordinates with an infinite limit and the base are kept. Missing for the full C74: a continuous joint has finite
limits on its cosine and sine (`C74_refuted`). -/
theorem C74_partial (nq : Nat) (lowest max : K) (lower upper random q : Nat → K) (noise : K) (h0 : 0 ≤ noise) (h1 : noise ≤ 1)
    (k : Nat) :
    (k < 7 → addQNoise nq lowest max lower upper random noise q k = q k) ∧
    (lower k = lowest ∨ upper k = max → addQNoise nq lowest max lower upper random noise q k = q k) ∧
    (lower k ≤ random k → random k ≤ upper k → lower k ≤ q k → q k ≤ upper k →
      lower k ≤ addQNoise nq lowest max lower upper random noise q k ∧
      addQNoise nq lowest max lower upper random noise q k ≤ upper k) := by
  refine ⟨fun hk => ?_, fun hk => ?_, fun a1 a2 b1 b2 => ?_⟩
  · exact if_neg (by omega)
  · unfold addQNoise
    rw [if_pos hk]
    split <;> rfl
  · unfold addQNoise
    have e : q k + (random k - q k) * noise = (1 - noise) * q k + noise * random k := by ring
    split
    · split
      · exact ⟨b1, b2⟩
      · rw [e]
        have hn : 0 ≤ 1 - noise := by linarith
        constructor <;> nlinarith [mul_nonneg hn (sub_nonneg.2 b1), mul_nonneg h0 (sub_nonneg.2 a1), mul_nonneg hn (sub_nonneg.2 b2),
          mul_nonneg h0 (sub_nonneg.2 a2)]
    · exact ⟨b1, b2⟩

/-- C74 exact amount: a coordinate with limits moves towards the random one, by the fraction `noise`. -/
theorem C74_amount (nq : Nat) (lowest max : K) (lower upper random q : Nat → K) (noise : K) (k : Nat) (h7 : 7 ≤ k) (hk : k < nq)
    (hl : lower k ≠ lowest) (hu : upper k ≠ max) :
    addQNoise nq lowest max lower upper random noise q k - random k = (1 - noise) * (q k - random k) := by
  unfold addQNoise
  rw [if_pos ⟨h7, hk⟩, if_neg (by simp [hl, hu])]
  ring

/-- The limits loaded from the model: a joint with both limits at zero gets infinite limits, and only such a joint. -/
theorem C74_limits (lowest max : K) (lower upper : Nat → K) (k : Nat) :
    ((loadLimits lowest max lower upper).1 k, (loadLimits lowest max lower upper).2 k) =
      if lower k = 0 ∧ upper k = 0 then (lowest, max) else (lower k, upper k) := by
  unfold loadLimits
  dsimp only
  split <;> rfl

end

/-- **C74 is false**: for a continuous joint (cosine at 7, sine at 8, limits 1.01 as pinocchio sets them), half a turn of random
draw and noise 1/2 give a null vector: the unbounded joint is touched and its coordinates no longer encode an angle. -/
theorem C74_refuted : ∃ (lower upper random q : Nat → ℚ) (noise : ℚ), 0 ≤ noise ∧ noise ≤ 1 ∧
    (∀ k, lower k ≤ random k ∧ random k ≤ upper k ∧ lower k ≤ q k ∧ q k ≤ upper k) ∧
    q 7 ^ 2 + q 8 ^ 2 = 1 ∧ random 7 ^ 2 + random 8 ^ 2 = 1 ∧
    addQNoise 9 (-1000) 1000 lower upper random noise q 7 = 0 ∧ addQNoise 9 (-1000) 1000 lower upper random noise q 8 = 0 := by
  refine ⟨fun _ => -101 / 100, fun _ => 101 / 100, fun k => if k = 7 then -1 else 0, fun k => if k = 7 then 1 else 0, 1 / 2,
    by norm_num, by norm_num, fun k => ?_, by norm_num, by norm_num, by norm_num [addQNoise], by norm_num [addQNoise]⟩
  by_cases hk : k = 7 <;> simp [hk] <;> norm_num

/-! ## C107: mass matrix -/

section
variable {K : Type} [Field K] [LinearOrder K] [IsStrictOrderedRing K]

/-- **C107.** The mass matrix is symmetric, and its quadratic form is the one of the symmetric matrix read from `crba` plus the rotor
energies `Σ (gear ratio)² (rotor inertia) v²`; with non-negative rotor inertias it is at least the one without rotors. -/
theorem C107 (crba : Nat → Nat → K) (gearRatio rotorInertia : Nat → K) :
    (∀ i j, massMatrix crba gearRatio rotorInertia i j = massMatrix crba gearRatio rotorInertia j i) ∧
    (∀ i j, i ≤ j → i ≠ j → massMatrix crba gearRatio rotorInertia i j = crba i j) ∧
    (∀ n (v : Nat → K), ∑ i ∈ range n, ∑ j ∈ range n, v i * massMatrix crba gearRatio rotorInertia i j * v j =
      (∑ i ∈ range n, ∑ j ∈ range n, v i * (if j < i then crba j i else crba i j) * v j) +
        ∑ i ∈ range n, gearRatio i ^ 2 * rotorInertia i * v i ^ 2) ∧
    ((∀ i, 0 ≤ rotorInertia i) → ∀ n (v : Nat → K),
      ∑ i ∈ range n, ∑ j ∈ range n, v i * (if j < i then crba j i else crba i j) * v j ≤
        ∑ i ∈ range n, ∑ j ∈ range n, v i * massMatrix crba gearRatio rotorInertia i j * v j) := by
  have hq : ∀ n (v : Nat → K), ∑ i ∈ range n, ∑ j ∈ range n, v i * massMatrix crba gearRatio rotorInertia i j * v j =
      (∑ i ∈ range n, ∑ j ∈ range n, v i * (if j < i then crba j i else crba i j) * v j) +
        ∑ i ∈ range n, gearRatio i ^ 2 * rotorInertia i * v i ^ 2 := by
    intro n v
    rw [← sum_add_distrib]
    refine sum_congr rfl fun i hi => ?_
    have : ∀ j, v i * massMatrix crba gearRatio rotorInertia i j * v j =
        v i * (if j < i then crba j i else crba i j) * v j + if i = j then gearRatio i ^ 2 * rotorInertia i * v i ^ 2 else 0 := by
      intro j
      unfold massMatrix
      dsimp only
      by_cases hij : i = j
      · subst hij; simp; ring
      · rw [if_neg hij, if_neg hij, add_zero]
    simp only [this]
    rw [sum_add_distrib, sum_ite_eq, if_pos hi]
  refine ⟨fun i j => ?_, fun i j hij hne => ?_, hq, fun hr n v => ?_⟩
  · unfold massMatrix
    dsimp only
    by_cases h : i = j
    · subst h; rfl
    · rw [if_neg h, if_neg (Ne.symm h)]
      by_cases h1 : j < i
      · rw [if_pos h1, if_neg (by omega)]
      · rw [if_neg h1, if_pos (by omega)]
  · unfold massMatrix
    dsimp only
    rw [if_neg hne, if_neg (by omega)]
  · rw [hq]
    have : 0 ≤ ∑ i ∈ range n, gearRatio i ^ 2 * rotorInertia i * v i ^ 2 :=
      sum_nonneg fun i _ => mul_nonneg (mul_nonneg (sq_nonneg _) (hr i)) (sq_nonneg _)
    linarith

end

/-! ## Concrete cases -/

/-- C72: the identity Jacobian is invertible on the base; a weight of 10 is balanced by the wrench. -/
example : IsUnit (base66 (fun i j => if i = j then (1 : ℚ) else 0)).det := by
  have : base66 (fun i j => if i = j then (1 : ℚ) else 0) = 1 := by
    ext i j
    rw [Matrix.one_apply]
    show (if (i : Nat) = j then (1 : ℚ) else 0) = _
    by_cases h : i = j
    · subst h; simp
    · rw [if_neg h, if_neg fun h' => h (Fin.ext h')]
  rw [this]; simp

/-- C74 on a concrete bounded joint. -/
example : addQNoise 8 (-1000) 1000 (fun _ => -1) (fun _ => 1) (fun _ => 1) (1 / 4 : ℚ) (fun _ => 0) 7 = 1 / 4 ∧
    addQNoise 8 (-1000) 1000 (fun _ => -1000) (fun _ => 1) (fun _ => 1) (1 / 4 : ℚ) (fun _ => 0) 7 = 0 := by
  constructor <;> decide +kernel

/-- C70 for a robot with one joint. -/
example : Unknown [⟨"arm", 7, 1, 6, 1⟩] "leg" ∧
    Accessor.index [⟨"arm", 7, 1, 6, 1⟩] "arm" .getJointVelocity = .ok 6 := ⟨by simp [Unknown], rfl⟩

end Verif.Robot
