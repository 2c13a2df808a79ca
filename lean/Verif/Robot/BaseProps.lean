/-
Properties C67, C68, C69: placement of the floating base.
-/
import Mathlib.LinearAlgebra.Matrix.Adjugate
import Mathlib.Tactic.FieldSimp
import Mathlib.Tactic.LinearCombination
import Verif.Tools.UtilsProps
import Verif.Robot.Wrapper

namespace Verif.Robot
open Finset Verif.Tools Verif.Problem

/-! ## Rigid transforms -/

/-- A rigid transform: its linear part is a rotation. -/
def Rigid (T : Affine) : Prop := IsRotation T.linear

theorem isRotation_mul {A B : M3} (ha : IsRotation A) (hb : IsRotation B) : IsRotation (A * B) := by
  refine ⟨?_, by rw [Matrix.det_mul, ha.2, hb.2, mul_one]⟩
  rw [Matrix.transpose_mul, Matrix.mul_assoc, ← Matrix.mul_assoc A.transpose, ha.1, Matrix.one_mul, hb.1]

theorem isRotation_inv {A : M3} (h : IsRotation A) : A⁻¹ = A.transpose := Matrix.inv_eq_left_inv h.1

theorem isRotation_transpose {A : M3} (h : IsRotation A) : IsRotation A.transpose := by
  refine ⟨?_, by rw [Matrix.det_transpose, h.2]⟩
  rw [Matrix.transpose_transpose]
  exact mul_eq_one_comm.1 h.1

theorem isRotation_one : IsRotation (1 : M3) := ⟨by simp, by simp⟩

theorem rigid_mul {a b : Affine} (ha : Rigid a) (hb : Rigid b) : Rigid (a.mul b) := isRotation_mul ha hb

theorem rigid_inv {a : Affine} (ha : Rigid a) : Rigid a.inv := by
  show IsRotation a.linear⁻¹
  rw [isRotation_inv ha]; exact isRotation_transpose ha

theorem mul_assoc' (a b c : Affine) : (a.mul b).mul c = a.mul (b.mul c) := by
  refine Affine.ext (Matrix.mul_assoc _ _ _) ?_
  show (a.linear * b.linear).mulVec c.translation + (a.linear.mulVec b.translation + a.translation) =
    a.linear.mulVec (b.linear.mulVec c.translation + b.translation) + a.translation
  rw [Matrix.mulVec_add, Matrix.mulVec_mulVec, add_assoc]

theorem one_mul' (a : Affine) : Affine.one.mul a = a := by
  refine Affine.ext (Matrix.one_mul _) ?_
  show (1 : M3).mulVec a.translation + 0 = _
  rw [Matrix.one_mulVec, add_zero]

theorem mul_one' (a : Affine) : a.mul Affine.one = a := by
  refine Affine.ext (Matrix.mul_one _) ?_
  show a.linear.mulVec 0 + a.translation = _
  rw [Matrix.mulVec_zero, zero_add]

theorem rot_unit {A : M3} (h : IsRotation A) : IsUnit A.det := by rw [h.2]; exact isUnit_one

theorem inv_mul' {a : Affine} (h : Rigid a) : a.inv.mul a = Affine.one := by
  refine Affine.ext (Matrix.nonsing_inv_mul _ (rot_unit h)) ?_
  show a.linear⁻¹.mulVec a.translation + -(a.linear⁻¹.mulVec a.translation) = 0
  rw [add_neg_cancel]

theorem mul_inv' {a : Affine} (h : Rigid a) : a.mul a.inv = Affine.one := by
  refine Affine.ext (Matrix.mul_nonsing_inv _ (rot_unit h)) ?_
  show a.linear.mulVec (-(a.linear⁻¹.mulVec a.translation)) + a.translation = 0
  rw [Matrix.mulVec_neg, Matrix.mulVec_mulVec, Matrix.mul_nonsing_inv _ (rot_unit h), Matrix.one_mulVec, neg_add_cancel]

theorem rigid_one : Rigid Affine.one := isRotation_one

/-- The point `T` sends `x` to. -/
noncomputable def Affine.app (T : Affine) (x : V3) : V3 := T.linear.mulVec x + T.translation

/-! ## Quaternions -/

/-- Unit quaternions. -/
def Quat.Unit (p : Quat) : Prop := p.x ^ 2 + p.y ^ 2 + p.z ^ 2 + p.w ^ 2 = 1

theorem toMatrix_rotation (p : Quat) (h : p.Unit) : IsRotation p.toMatrix := by
  unfold Quat.Unit at h
  constructor
  · ext i j
    fin_cases i <;> fin_cases j <;> simp [Quat.toMatrix, Matrix.mul_apply, Fin.sum_univ_three] <;> grind
  · rw [Matrix.det_fin_three]
    simp [Quat.toMatrix]
    grind

/-- The entries of a rotation: unit rows and columns, and cofactors. -/
structure RotEqs (m : M3) : Prop where
  r0 : m 0 0 ^ 2 + m 0 1 ^ 2 + m 0 2 ^ 2 = 1
  r1 : m 1 0 ^ 2 + m 1 1 ^ 2 + m 1 2 ^ 2 = 1
  r2 : m 2 0 ^ 2 + m 2 1 ^ 2 + m 2 2 ^ 2 = 1
  k0 : m 0 0 ^ 2 + m 1 0 ^ 2 + m 2 0 ^ 2 = 1
  k1 : m 0 1 ^ 2 + m 1 1 ^ 2 + m 2 1 ^ 2 = 1
  k2 : m 0 2 ^ 2 + m 1 2 ^ 2 + m 2 2 ^ 2 = 1
  c00 : m 0 0 = m 1 1 * m 2 2 - m 1 2 * m 2 1
  c01 : m 0 1 = m 1 2 * m 2 0 - m 1 0 * m 2 2
  c02 : m 0 2 = m 1 0 * m 2 1 - m 1 1 * m 2 0
  c10 : m 1 0 = m 0 2 * m 2 1 - m 0 1 * m 2 2
  c11 : m 1 1 = m 0 0 * m 2 2 - m 0 2 * m 2 0
  c12 : m 1 2 = m 0 1 * m 2 0 - m 0 0 * m 2 1
  c20 : m 2 0 = m 0 1 * m 1 2 - m 0 2 * m 1 1
  c21 : m 2 1 = m 0 2 * m 1 0 - m 0 0 * m 1 2
  c22 : m 2 2 = m 0 0 * m 1 1 - m 0 1 * m 1 0
  o01 : m 0 0 * m 1 0 + m 0 1 * m 1 1 + m 0 2 * m 1 2 = 0
  o02 : m 0 0 * m 2 0 + m 0 1 * m 2 1 + m 0 2 * m 2 2 = 0
  o12 : m 1 0 * m 2 0 + m 1 1 * m 2 1 + m 1 2 * m 2 2 = 0
  p01 : m 0 0 * m 0 1 + m 1 0 * m 1 1 + m 2 0 * m 2 1 = 0
  p02 : m 0 0 * m 0 2 + m 1 0 * m 1 2 + m 2 0 * m 2 2 = 0
  p12 : m 0 1 * m 0 2 + m 1 1 * m 1 2 + m 2 1 * m 2 2 = 0

theorem rotEqs (m : M3) (h : IsRotation m) : RotEqs m := by
  have h1 : m * m.transpose = 1 := mul_eq_one_comm.1 h.1
  have hadj : m.adjugate = m.transpose := by
    calc m.adjugate = m.adjugate * (m * m.transpose) := by rw [h1, mul_one]
      _ = m.transpose := by rw [← mul_assoc, Matrix.adjugate_mul, h.2, one_smul, one_mul]
  rw [Matrix.adjugate_fin_three] at hadj
  have a : ∀ i j, m j i = _ := fun i j => congrFun (congrFun hadj.symm i) j
  have a00 := a 0 0; have a01 := a 0 1; have a02 := a 0 2
  have a10 := a 1 0; have a11 := a 1 1; have a12 := a 1 2
  have a20 := a 2 0; have a21 := a 2 1; have a22 := a 2 2
  have e : ∀ i j, (m.transpose * m) i j = (1 : M3) i j := fun i j => by rw [h.1]
  have e' : ∀ i j, (m * m.transpose) i j = (1 : M3) i j := fun i j => by rw [h1]
  have k00 := e 0 0; have k01 := e 0 1; have k02 := e 0 2; have k11 := e 1 1; have k12 := e 1 2; have k22 := e 2 2
  have r00 := e' 0 0; have r01 := e' 0 1; have r02 := e' 0 2; have r11 := e' 1 1; have r12 := e' 1 2; have r22 := e' 2 2
  simp [Matrix.mul_apply, Fin.sum_univ_three] at *
  constructor <;> grind

theorem quat_case {s : ℝ} (hs : 0 < s) : ∃ t r : ℝ, Real.sqrt s = t ∧ 1 / 2 / t = r ∧ t * t = s ∧ r * t = 1 / 2 ∧ 4 * (r * r) * s = 1 := by
  have ht : 0 < Real.sqrt s := Real.sqrt_pos.2 hs
  have hm := Real.mul_self_sqrt hs.le
  refine ⟨_, _, rfl, rfl, hm, by field_simp, ?_⟩
  field_simp
  nlinarith

theorem matrix_eq {a b : M3} (h00 : a 0 0 = b 0 0) (h01 : a 0 1 = b 0 1) (h02 : a 0 2 = b 0 2) (h10 : a 1 0 = b 1 0)
    (h11 : a 1 1 = b 1 1) (h12 : a 1 2 = b 1 2) (h20 : a 2 0 = b 2 0) (h21 : a 2 1 = b 2 1) (h22 : a 2 2 = b 2 2) : a = b := by
  ext i j
  fin_cases i <;> fin_cases j <;> assumption

theorem ofMatrix_spec (m : M3) (h : IsRotation m) : (Quat.ofMatrix m).Unit ∧ (Quat.ofMatrix m).toMatrix = m := by
  obtain ⟨r0, r1, r2, k0, k1, k2, c00, c01, c02, c10, c11, c12, c20, c21, c22, o01, o02, o12, p01, p02, p12⟩ := rotEqs m h
  by_cases h0 : 0 < m 0 0 + m 1 1 + m 2 2
  · have hq : Quat.ofMatrix m = _ := if_pos h0
    obtain ⟨t, r, e1, e2, ht, hrt, hr⟩ := quat_case (show 0 < m 0 0 + m 1 1 + m 2 2 + 1 by linarith)
    simp only [e1, e2] at hq
    rw [hq]
    refine ⟨?_, matrix_eq ?_ ?_ ?_ ?_ ?_ ?_ ?_ ?_ ?_⟩
    · simp only [Quat.Unit]; grind
    all_goals simp only [Quat.toMatrix, Matrix.of_apply, Matrix.cons_val', Matrix.cons_val_zero, Matrix.cons_val_one, Matrix.cons_val]
    · grind
    · grind
    · grind
    · grind
    · grind
    · grind
    · grind
    · grind
    · grind
  · have htr := not_lt.1 h0
    have hq : Quat.ofMatrix m = _ := if_neg h0
    by_cases hA : (if m (if m 0 0 < m 1 1 then 1 else 0 : Fin 3) (if m 0 0 < m 1 1 then 1 else 0 : Fin 3) < m 2 2 then 2
        else (if m 0 0 < m 1 1 then 1 else 0 : Fin 3)) = 0
    · have hmax : m 1 1 ≤ m 0 0 ∧ m 2 2 ≤ m 0 0 := by
        by_cases hb : m 0 0 < m 1 1
        · simp only [if_pos hb] at hA
          split at hA <;> simp at hA
        · simp only [if_neg hb] at hA
          by_cases hc : m 0 0 < m 2 2
          · rw [if_pos hc] at hA; simp at hA
          · exact ⟨not_lt.1 hb, not_lt.1 hc⟩
      obtain ⟨t, r, e1, e2, ht, hrt, hr⟩ := quat_case (show 0 < m 0 0 - m 1 1 - m 2 2 + 1 by linarith [hmax.1, hmax.2])
      have hq := hq.trans (if_pos hA)
      simp only [e1, e2] at hq
      rw [hq]
      refine ⟨?_, matrix_eq ?_ ?_ ?_ ?_ ?_ ?_ ?_ ?_ ?_⟩
      · simp only [Quat.Unit]; grind
      all_goals simp only [Quat.toMatrix, Matrix.of_apply, Matrix.cons_val', Matrix.cons_val_zero, Matrix.cons_val_one, Matrix.cons_val]
      all_goals grind
    · have hq := hq.trans (if_neg hA)
      by_cases hB : (if m (if m 0 0 < m 1 1 then 1 else 0 : Fin 3) (if m 0 0 < m 1 1 then 1 else 0 : Fin 3) < m 2 2 then 2
          else (if m 0 0 < m 1 1 then 1 else 0 : Fin 3)) = 1
      · have hmax : m 0 0 ≤ m 1 1 ∧ m 2 2 ≤ m 1 1 := by
          by_cases hb : m 0 0 < m 1 1
          · simp only [if_pos hb] at hB
            by_cases hc : m 1 1 < m 2 2
            · rw [if_pos hc] at hB; simp at hB
            · exact ⟨hb.le, not_lt.1 hc⟩
          · simp only [if_neg hb] at hB
            split at hB <;> simp at hB
        obtain ⟨t, r, e1, e2, ht, hrt, hr⟩ := quat_case (show 0 < m 1 1 - m 2 2 - m 0 0 + 1 by linarith [hmax.1, hmax.2])
        have hq := hq.trans (if_pos hB)
        simp only [e1, e2] at hq
        rw [hq]
        refine ⟨?_, matrix_eq ?_ ?_ ?_ ?_ ?_ ?_ ?_ ?_ ?_⟩
        · simp only [Quat.Unit]; grind
        all_goals simp only [Quat.toMatrix, Matrix.of_apply, Matrix.cons_val', Matrix.cons_val_zero, Matrix.cons_val_one, Matrix.cons_val]
        all_goals grind
      · have hmax : m 0 0 ≤ m 2 2 ∧ m 1 1 ≤ m 2 2 := by
          by_cases hb : m 0 0 < m 1 1
          · simp only [if_pos hb] at hA hB
            by_cases hc : m 1 1 < m 2 2
            · exact ⟨by linarith, hc.le⟩
            · rw [if_neg hc] at hB; simp at hB
          · simp only [if_neg hb] at hA hB
            by_cases hc : m 0 0 < m 2 2
            · exact ⟨hc.le, by linarith [not_lt.1 hb]⟩
            · rw [if_neg hc] at hA; simp at hA
        obtain ⟨t, r, e1, e2, ht, hrt, hr⟩ := quat_case (show 0 < m 2 2 - m 0 0 - m 1 1 + 1 by linarith [hmax.1, hmax.2])
        have hq := hq.trans (if_neg hB)
        simp only [e1, e2] at hq
        rw [hq]
        refine ⟨?_, matrix_eq ?_ ?_ ?_ ?_ ?_ ?_ ?_ ?_ ?_⟩
        · simp only [Quat.Unit]; grind
        all_goals simp only [Quat.toMatrix, Matrix.of_apply, Matrix.cons_val', Matrix.cons_val_zero, Matrix.cons_val_one, Matrix.cons_val]
        all_goals grind

/-! ## C69 -/

/-- **C69.** Setting the pose of the base then reading it gives the pose back, for every rigid transform and every rigid root
placement, from any state; and the base is then stored with a unit quaternion. -/
theorem C69 (m : KinModel) (hP : Rigid m.placement) (s : RW) (T : Affine) (hT : Rigid T) :
    m.getTWorldFbase (m.setTWorldFbase s T) = T ∧
    (⟨(m.setTWorldFbase s T).q 3, (m.setTWorldFbase s T).q 4, (m.setTWorldFbase s T).q 5,
      (m.setTWorldFbase s T).q 6⟩ : Quat).Unit ∧
    ∀ k, 7 ≤ k → (m.setTWorldFbase s T).q k = s.q k := by
  have hR : Rigid (m.placement.inv.mul T) := rigid_mul (rigid_inv hP) hT
  obtain ⟨hu, hm⟩ := ofMatrix_spec _ hR
  have hb : baseOf (m.setTWorldFbase s T).q = m.placement.inv.mul T := by
    refine Affine.ext hm ?_
    funext i
    fin_cases i <;> rfl
  refine ⟨?_, hu, ?_⟩
  · unfold KinModel.getTWorldFbase
    rw [hb, ← mul_assoc', mul_inv' hP, one_mul']
  · intro k hk
    obtain ⟨j, rfl⟩ : ∃ j, k = j + 7 := ⟨k - 7, by omega⟩
    rfl

/-! ## C67 and C68 -/

/-- What is assumed of the robot: rigid placements. -/
structure KinModel.OK (m : KinModel) : Prop where
  placement : Rigid m.placement
  world : ∀ f T, m.world f = some T → Rigid T
  rel : ∀ f q, Rigid (m.rel f q)

/-- Changes of the state by the user. -/
inductive Op where
  | update
  | setFrame (f : Nat) (T : Affine)
  | setFbase (T : Affine)
  | setJoint (k : Nat) (v : ℝ)
  | assign (q : Nat → ℝ)

/-- The transforms given are rigid, joints are not in the base, and configurations have a unit quaternion. -/
def Op.Legal : Op → Prop
  | .update => True
  | .setFrame _ T => Rigid T
  | .setFbase T => Rigid T
  | .setJoint k _ => 7 ≤ k
  | .assign q => (⟨q 3, q 4, q 5, q 6⟩ : Quat).Unit

noncomputable def step (m : KinModel) (s : RW) : Op → RW
  | .update => m.updateKinematics s
  | .setFrame f T => m.setTWorldFrame s f T
  | .setFbase T => m.setTWorldFbase s T
  | .setJoint k v => { s with q := fun i => if i = k then v else s.q i }
  | .assign q => { s with q := q }

noncomputable def run (m : KinModel) (s : RW) (ops : List Op) : RW := ops.foldl (step m) s

/-- The state after construction: neutral configuration, kinematics updated. -/
noncomputable def initial (m : KinModel) : RW := m.updateKinematics ⟨fun k => if k = 6 then 1 else 0, fun _ => Affine.one⟩

/-- Invariant: unit quaternion, and rigid placements in the cache. -/
def Inv (s : RW) : Prop := (⟨s.q 3, s.q 4, s.q 5, s.q 6⟩ : Quat).Unit ∧ ∀ f, Rigid (s.oMf f)

theorem rigid_base {q : Nat → ℝ} (h : (⟨q 3, q 4, q 5, q 6⟩ : Quat).Unit) : Rigid (baseOf q) := toMatrix_rotation _ h

theorem rigid_fk {m : KinModel} (hm : m.OK) {q : Nat → ℝ} (h : (⟨q 3, q 4, q 5, q 6⟩ : Quat).Unit) (f : Nat) :
    Rigid (m.fk q f) := by
  unfold KinModel.fk
  cases hw : m.world f with
  | some T => exact hm.world f T hw
  | none => exact rigid_mul (rigid_mul hm.placement (rigid_base h)) (hm.rel _ _)

theorem inv_update {m : KinModel} (hm : m.OK) {s : RW} (h : Inv s) : Inv (m.updateKinematics s) :=
  ⟨h.1, fun f => rigid_fk hm h.1 f⟩

theorem rigid_target {m : KinModel} (hm : m.OK) {s : RW} (h : Inv s) (f : Nat) {T : Affine} (hT : Rigid T) :
    Rigid (T.mul ((s.getTWorldFrame f).inv.mul (m.getTWorldFbase s))) :=
  rigid_mul hT (rigid_mul (rigid_inv (h.2 f)) (rigid_mul hm.placement (rigid_base h.1)))

theorem inv_step {m : KinModel} (hm : m.OK) {s : RW} (h : Inv s) (op : Op) (hl : op.Legal) : Inv (step m s op) := by
  cases op with
  | update => exact inv_update hm h
  | setFrame f T => exact ⟨(C69 m hm.placement s _ (rigid_target hm h f hl)).2.1, h.2⟩
  | setFbase T => exact ⟨(C69 m hm.placement s T hl).2.1, h.2⟩
  | setJoint k v =>
    have hk : 7 ≤ k := hl
    have e : ∀ i, i < 7 → (step m s (.setJoint k v)).q i = s.q i := by
      intro i hi
      exact if_neg (by omega)
    unfold Inv
    rw [e 3 (by omega), e 4 (by omega), e 5 (by omega), e 6 (by omega)]
    exact h
  | assign q => exact ⟨hl, h.2⟩

theorem inv_run {m : KinModel} (hm : m.OK) (ops : List Op) : ∀ {s : RW}, Inv s → (∀ op ∈ ops, op.Legal) → Inv (run m s ops) := by
  induction ops with
  | nil => intro s h _; exact h
  | cons op ops ih =>
    intro s h hl
    exact ih (inv_step hm h op (hl op List.mem_cons_self)) fun o ho => hl o (List.mem_cons_of_mem _ ho)

theorem inv_initial {m : KinModel} (hm : m.OK) : Inv (initial m) := by
  have hu : (⟨0, 0, 0, 1⟩ : Quat).Unit := by simp [Quat.Unit]
  exact ⟨hu, fun f => rigid_fk hm hu f⟩

/-- Where a frame of the robot is after `set_T_world_frame` and an update: at the target, corrected by what the frame had moved
since the last update. -/
theorem setFrame_spec {m : KinModel} (hm : m.OK) {s : RW} (h : Inv s) (f : Nat) (hf : m.world f = none) (T : Affine)
    (hT : Rigid T) :
    (m.updateKinematics (m.setTWorldFrame s f T)).getTWorldFrame f = T.mul ((s.getTWorldFrame f).inv.mul (m.fk s.q f)) ∧
    ∀ k, 7 ≤ k → (m.setTWorldFrame s f T).q k = s.q k := by
  obtain ⟨h1, -, h3⟩ := C69 m hm.placement s _ (rigid_target hm h f hT)
  refine ⟨?_, h3⟩
  have hfk : ∀ q, m.fk q f = (m.placement.mul (baseOf q)).mul (m.rel f fun k => q (k + 7)) := by
    intro q; unfold KinModel.fk; rw [hf]
  show m.fk (m.setTWorldFbase s _).q f = _
  rw [hfk, hfk]
  have hrel : (fun k => (m.setTWorldFbase s (T.mul ((s.getTWorldFrame f).inv.mul (m.getTWorldFbase s)))).q (k + 7)) =
      fun k => s.q (k + 7) := rfl
  have hb : m.placement.mul (baseOf (m.setTWorldFbase s (T.mul ((s.getTWorldFrame f).inv.mul (m.getTWorldFbase s)))).q) =
      T.mul ((s.getTWorldFrame f).inv.mul (m.getTWorldFbase s)) := h1
  rw [hrel, hb]
  unfold KinModel.getTWorldFbase
  rw [mul_assoc', mul_assoc', mul_assoc' ]

/-- The joints and the relative placements of the frames of the robot are kept by `set_T_world_frame`. -/
theorem setFrame_relative {m : KinModel} (hm : m.OK) {s : RW} (h : Inv s) (f : Nat) (T : Affine) (hT : Rigid T)
    (a b : Nat) (ha : m.world a = none) (hb : m.world b = none) :
    (m.updateKinematics (m.setTWorldFrame s f T)).getTab a b = (m.updateKinematics s).getTab a b := by
  have key : ∀ s : RW, Inv s → (m.updateKinematics s).getTab a b =
      (m.rel a fun k => s.q (k + 7)).inv.mul (m.rel b fun k => s.q (k + 7)) := by
    intro s h
    show (m.fk s.q a).inv.mul (m.fk s.q b) = _
    unfold KinModel.fk
    rw [ha, hb]
    dsimp only
    have hB : Rigid (m.placement.mul (baseOf s.q)) := rigid_mul hm.placement (rigid_base h.1)
    have hA := hm.rel a fun k => s.q (k + 7)
    generalize m.placement.mul (baseOf s.q) = B at *
    generalize m.rel a (fun k => s.q (k + 7)) = A at *
    generalize m.rel b (fun k => s.q (k + 7)) = C
    have hi : (B.mul A).inv = A.inv.mul B.inv := by
      have h1 := inv_mul' (rigid_mul hB hA)
      have h2 : (B.mul A).inv.mul ((B.mul A).mul (A.inv.mul B.inv)) = (B.mul A).inv := by
        rw [mul_assoc' B A, ← mul_assoc' A A.inv, mul_inv' hA, one_mul', mul_inv' hB, mul_one']
      rw [← h2, ← mul_assoc' (B.mul A).inv, h1, one_mul']
    rw [hi, mul_assoc', ← mul_assoc' B.inv, inv_mul' hB, one_mul']
  have hs : Inv (m.setTWorldFrame s f T) := inv_step hm h (.setFrame f T) hT
  rw [key _ hs, key _ h]
  rfl

/-- **C67.** After any history of legal calls: update, `set_T_world_frame(f, T)`, update places the frame at `T`, keeps the
joint values and the relative placements of the frames. `f` is a frame of the robot (not attached to the world). -/
theorem C67 (m : KinModel) (hm : m.OK) (ops : List Op) (hl : ∀ op ∈ ops, op.Legal) (f : Nat) (hf : m.world f = none)
    (T : Affine) (hT : Rigid T) :
    let s := run m (initial m) ops
    let s' := m.updateKinematics (m.setTWorldFrame (m.updateKinematics s) f T)
    s'.getTWorldFrame f = T ∧ (∀ k, 7 ≤ k → s'.q k = s.q k) ∧
    ∀ a b, m.world a = none → m.world b = none → s'.getTab a b = (m.updateKinematics s).getTab a b := by
  intro s s'
  have hI : Inv s := inv_run hm ops (inv_initial hm) hl
  have hU := inv_update hm hI
  obtain ⟨h1, h2⟩ := setFrame_spec hm hU f hf T hT
  refine ⟨?_, h2, fun a b ha hb => setFrame_relative hm hU f T hT a b ha hb⟩
  rw [h1]
  have hc : (m.updateKinematics s).getTWorldFrame f = m.fk (m.updateKinematics s).q f := rfl
  rw [hc, inv_mul' (rigid_fk hm hU.1 f), mul_one']

/-- C67 through `ensure_on_floor`: the support frame is where it should be. -/
theorem C67_floor (m : KinModel) (hm : m.OK) (ops : List Op) (hl : ∀ op ∈ ops, op.Legal) (f : Nat) (hf : m.world f = none)
    (T : Affine) (hT : Rigid T) :
    let s := run m (initial m) ops
    ((m.ensureOnFloor ⟨s, f, T⟩).rw.getTWorldFrame f = T) ∧ ∀ k, 7 ≤ k → (m.ensureOnFloor ⟨s, f, T⟩).rw.q k = s.q k :=
  ⟨(C67 m hm ops hl f hf T hT).1, (C67 m hm ops hl f hf T hT).2.1⟩

/-- C67: a frame attached to the world does not move, whatever is requested. -/
theorem C67_world (m : KinModel) (s : RW) (f : Nat) (T W : Affine) (hf : m.world f = some W) :
    (m.updateKinematics (m.setTWorldFrame s f T)).getTWorldFrame f = W := by
  show m.fk _ f = W
  unfold KinModel.fk
  rw [hf]

/-- **C68, exact.** After any history, a call of `set_T_world_frame` without update puts the frame at the target exactly when
the frame is where the last update computed it. -/
theorem C68_exact (m : KinModel) (hm : m.OK) (ops : List Op) (hl : ∀ op ∈ ops, op.Legal) (f : Nat) (hf : m.world f = none)
    (T : Affine) (hT : Rigid T) :
    let s := run m (initial m) ops
    (m.updateKinematics (m.setTWorldFrame s f T)).getTWorldFrame f = T ↔ m.fk s.q f = s.getTWorldFrame f := by
  intro s
  have hI : Inv s := inv_run hm ops (inv_initial hm) hl
  have hc : Rigid (s.getTWorldFrame f) := hI.2 f
  rw [(setFrame_spec hm hI f hf T hT).1]
  constructor
  · intro h
    have h1 : T.inv.mul (T.mul ((s.getTWorldFrame f).inv.mul (m.fk s.q f))) = T.inv.mul T := by rw [h]
    rw [← mul_assoc', inv_mul' hT, one_mul'] at h1
    have h2 : (s.getTWorldFrame f).mul ((s.getTWorldFrame f).inv.mul (m.fk s.q f)) = (s.getTWorldFrame f).mul Affine.one := by
      rw [h1]
    rw [← mul_assoc', mul_inv' hc, one_mul', mul_one'] at h2
    exact h2
  · intro h
    rw [h, inv_mul' hc, mul_one']

/-- **C68, what is true**: with an update before each call, any number of calls leaves the last requested frame where it was
requested. Missing for the full C68: without the update, it is false (`C68_refuted`). -/
theorem C68_partial (m : KinModel) (hm : m.OK) (ops : List Op) (hl : ∀ op ∈ ops, op.Legal) (f g : Nat)
    (hg : m.world g = none) (T T' : Affine) (hT : Rigid T) (hT' : Rigid T') :
    let s := run m (initial m) (ops ++ [.update, .setFrame f T, .update, .setFrame g T', .update])
    s.getTWorldFrame g = T' := by
  have := (C67 m hm (ops ++ [.update, .setFrame f T]) (by
    intro op ho
    rcases List.mem_append.1 ho with ho | ho
    · exact hl op ho
    · rcases List.mem_cons.1 ho with rfl | ho
      · trivial
      · rw [List.mem_singleton.1 ho]; exact hT) g hg T' hT').1
  intro s
  have hs : s = m.updateKinematics (m.setTWorldFrame (m.updateKinematics (run m (initial m) (ops ++ [.update, .setFrame f T]))) g T') := by
    show run m (initial m) _ = _
    simp [run, step]
  rw [hs]; exact this

/-- A robot with a root placement at the origin and one frame, the base itself. -/
noncomputable def plain : KinModel := ⟨Affine.one, fun _ => none, fun _ _ => Affine.one⟩

theorem plain_ok : plain.OK := ⟨rigid_one, fun _ _ h => (by cases h), fun _ _ => rigid_one⟩

/-- **C68 is false**: the same request made twice in a row, without update, moves the frame away. -/
theorem C68_refuted : ∃ (m : KinModel) (f : Nat) (T : Affine), m.OK ∧ m.world f = none ∧ Rigid T ∧
    (m.updateKinematics (m.setTWorldFrame (m.setTWorldFrame (initial m) f T) f T)).getTWorldFrame f ≠ T := by
  refine ⟨plain, 0, ⟨1, ![1, 0, 0]⟩, plain_ok, rfl, isRotation_one, ?_⟩
  have hT : Rigid ⟨1, ![1, 0, 0]⟩ := isRotation_one
  have h := (C68_exact plain plain_ok [.setFrame 0 ⟨1, ![1, 0, 0]⟩] (by
    intro op ho; rw [List.mem_singleton.1 ho]; exact hT) 0 rfl ⟨1, ![1, 0, 0]⟩ hT).not.2
  refine h ?_
  have h1 := (setFrame_spec plain_ok (inv_initial plain_ok) 0 rfl ⟨1, ![1, 0, 0]⟩ hT).1
  have hc : (initial plain).getTWorldFrame 0 = plain.fk (initial plain).q 0 := rfl
  rw [hc, inv_mul' (rigid_fk plain_ok (inv_initial plain_ok).1 0), mul_one'] at h1
  have h1' : plain.fk (plain.setTWorldFrame (initial plain) 0 ⟨1, ![1, 0, 0]⟩).q 0 = ⟨1, ![1, 0, 0]⟩ := h1
  show plain.fk (plain.setTWorldFrame (initial plain) 0 ⟨1, ![1, 0, 0]⟩).q 0 ≠ plain.fk (initial plain).q 0
  rw [h1']
  intro heq
  have := congrArg (fun T => T.translation 0) heq
  simp [initial, KinModel.updateKinematics, KinModel.fk, plain, Affine.mul, Affine.one, baseOf] at this

/-! ## C105 and C106: support and orientation -/

/-- **C105.** `ensure_on_floor_oriented(R)` and `update_from_imu(R)`: the trunk takes the orientation `R`, the origin of the
support frame is at the position of `T_world_support`, which is kept, and the joints do not move. -/
theorem C105 (m : KinModel) (hm : m.OK) (ops : List Op) (hl : ∀ op ∈ ops, op.Legal) (f trunk : Nat) (hf : m.world f = none)
    (ht : m.world trunk = none) (T : Affine) (R : M3) (hR : IsRotation R) :
    let s := run m (initial m) ops
    let s' := m.ensureOriented ⟨s, f, T⟩ trunk R
    (s'.rw.getTWorldFrame trunk).linear = R ∧ (s'.rw.getTWorldFrame f).translation = T.translation ∧
    s'.rw.getTWorldFrame f = s'.worldSupport ∧ s'.worldSupport.translation = T.translation ∧ s'.supportFrame = f ∧
    ∀ k, 7 ≤ k → s'.rw.q k = s.q k := by
  intro s s'
  have hI : Inv s := inv_run hm ops (inv_initial hm) hl
  have hU := inv_update hm hI
  have hft : Rigid ((m.updateKinematics s).getTWorldFrame f) := hU.2 f
  have htt : Rigid ((m.updateKinematics s).getTWorldFrame trunk) := hU.2 trunk
  have hab : Rigid ((m.updateKinematics s).getTab trunk f) := rigid_mul (rigid_inv htt) hft
  have hW : Rigid s'.worldSupport := isRotation_mul hR hab
  obtain ⟨h1, h2, h3⟩ := C67 m hm ops hl f hf s'.worldSupport hW
  have h1' : s'.rw.getTWorldFrame f = s'.worldSupport := h1
  refine ⟨?_, by rw [h1']; rfl, h1', rfl, rfl, h2⟩
  have hrel : s'.rw.getTab trunk f = (m.updateKinematics s).getTab trunk f := h3 trunk f ht hf
  have hI' : Inv s'.rw := inv_update hm (inv_step hm hU (.setFrame f s'.worldSupport) hW)
  have htr : Rigid (s'.rw.getTWorldFrame trunk) := hI'.2 trunk
  have h4 : (s'.rw.getTWorldFrame trunk).linear * (s'.rw.getTab trunk f).linear = s'.worldSupport.linear := by
    rw [← h1']
    show (s'.rw.getTWorldFrame trunk).linear * ((s'.rw.getTWorldFrame trunk).linear⁻¹ * (s'.rw.getTWorldFrame f).linear) = _
    rw [← Matrix.mul_assoc, Matrix.mul_nonsing_inv _ (rot_unit htr), Matrix.one_mul]
  rw [hrel] at h4
  have h5 : s'.worldSupport.linear = R * ((m.updateKinematics s).getTab trunk f).linear := rfl
  rw [h5] at h4
  have h6 := congrArg (· * ((m.updateKinematics s).getTab trunk f).linear⁻¹) h4
  simp only [Matrix.mul_assoc, Matrix.mul_nonsing_inv _ (rot_unit hab), Matrix.mul_one] at h6
  exact h6

/-- A transform flat on the floor: horizontal, at height 0. -/
def OnFloor (T : Affine) : Prop := flattenOnFloor T = T

/-- **C106.** Changing the support frame then calling `ensure_on_floor`: the new support frame is placed at the projection on the
floor of its last placement; when it was already on the floor and the kinematics up to date, no frame of the robot moves.
Asking for the current support frame changes nothing. -/
theorem C106 (m : KinModel) (hm : m.OK) (ops : List Op) (hl : ∀ op ∈ ops, op.Legal) (f g : Nat) (T : Affine)
    (hg : m.world g = none) (hne : g ≠ f) :
    let s := m.updateKinematics (run m (initial m) ops)
    let s' := m.ensureOnFloor ((⟨s, f, T⟩ : HR).updateSupport g)
    s'.supportFrame = g ∧ s'.rw.getTWorldFrame g = flattenOnFloor (s.getTWorldFrame g) ∧
    (OnFloor (s.getTWorldFrame g) → ∀ a, s'.rw.getTWorldFrame a = s.getTWorldFrame a) ∧
    (⟨s, g, T⟩ : HR).updateSupport g = ⟨s, g, T⟩ := by
  intro s s'
  have hup : (⟨s, f, T⟩ : HR).updateSupport g = ⟨s, g, flattenOnFloor (s.getTWorldFrame g)⟩ := if_pos hne
  have hrig : Rigid (flattenOnFloor (s.getTWorldFrame g)) := rotZ_isRotation _
  have hs' : s' = m.ensureOnFloor ⟨s, g, flattenOnFloor (s.getTWorldFrame g)⟩ := by
    show m.ensureOnFloor _ = _
    rw [hup]
  have hl' : ∀ op ∈ ops ++ [.update], op.Legal := by
    intro op ho
    rcases List.mem_append.1 ho with ho | ho
    · exact hl op ho
    · rw [List.mem_singleton.1 ho]; trivial
  have hrun : run m (initial m) (ops ++ [.update]) = s := by
    simp [run, step, s]
  obtain ⟨h1, h2, h3⟩ := C67 m hm _ hl' g hg _ hrig
  simp only [hrun] at h1 h2 h3
  refine ⟨by rw [hs']; rfl, by rw [hs']; exact h1, fun hfl a => ?_, if_neg (by simp)⟩
  have hI : Inv s := inv_update hm (inv_run hm ops (inv_initial hm) hl)
  have hidem : m.updateKinematics s = s := rfl
  cases ha : m.world a with
  | some W =>
    rw [hs']
    show m.fk _ a = m.fk _ a
    unfold KinModel.fk
    rw [ha]
  | none =>
    have hr := h3 g a hg ha
    rw [hidem] at h1 hr
    have hfl' : flattenOnFloor (s.getTWorldFrame g) = s.getTWorldFrame g := hfl
    rw [hs']
    show (m.updateKinematics (m.setTWorldFrame (m.updateKinematics s) g (flattenOnFloor (s.getTWorldFrame g)))).getTWorldFrame a = _
    rw [hidem]
    generalize m.updateKinematics (m.setTWorldFrame s g (flattenOnFloor (s.getTWorldFrame g))) = u at *
    rw [hfl'] at h1
    have hG : Rigid (s.getTWorldFrame g) := hI.2 g
    have h4 : (s.getTWorldFrame g).mul (u.getTab g a) = (s.getTWorldFrame g).mul (s.getTab g a) := by rw [hr]
    unfold RW.getTab at h4
    rw [h1, ← mul_assoc', ← mul_assoc', mul_inv' hG, one_mul', one_mul'] at h4
    exact h4

/-! ## Concrete case -/

/-- A robot with a turned root placement, whose frame `f` turns with the first joint. -/
noncomputable def turning : KinModel := ⟨⟨rotZ 1, ![1, 2, 3]⟩, fun _ => none, fun f q => ⟨rotZ (q 0), ![f, 0, 0]⟩⟩

example : turning.OK ∧ (∀ op ∈ [Op.setJoint 7 2, .setFrame 1 ⟨rotZ 3, ![0, 1, 0]⟩, .update], op.Legal) ∧
    turning.world 2 = none ∧ Rigid ⟨rotZ 2, ![0, 0, 0]⟩ := by
  refine ⟨⟨rotZ_isRotation _, fun _ _ h => (by cases h), fun _ _ => rotZ_isRotation _⟩, ?_, rfl, rotZ_isRotation _⟩
  intro op ho
  simp only [List.mem_cons, List.not_mem_nil, or_false] at ho
  rcases ho with rfl | rfl | rfl
  · exact Nat.le_refl 7
  · exact rotZ_isRotation 3
  · trivial

/-- C106: the identity is on the floor. -/
example : OnFloor Affine.one := by
  unfold OnFloor flattenOnFloor Affine.one
  refine Affine.ext ?_ ?_
  · show rotZ (frameYaw 1) = 1
    have : frameYaw 1 = 0 := by rw [frameYaw_eq]; exact Complex.arg_one
    rw [this]
    ext i j
    fin_cases i <;> fin_cases j <;> simp [rotZ]
  · funext i
    fin_cases i <;> rfl

end Verif.Robot
