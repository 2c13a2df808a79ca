/-
Properties C150, C151 and C152: velocity of the CoM, replay of histories, sessions of a humanoid robot.
-/
import Verif.Humanoid.Replay
import Verif.Robot.TorqueProps
import Verif.Dynamics.SolverLemmas

namespace Verif.Humanoid
open Finset Verif.Tools Verif.Problem Verif.Robot Verif.Kinematics

/-! ## Velocity of the base -/

/-- The base velocity computed is the only one that, with the given joint velocities, satisfies six equations. -/
theorem base_unique (nv : Nat) (h6 : 6 ≤ nv) (J : Nat → Nat → ℝ) (hdet : (base66 J).det ≠ 0) (b : Fin 6 → ℝ) (a v : Nat → ℝ)
    (hv : ∀ j, j < nv - 6 → v (j + 6) = a j) :
    (∀ i : Fin 6, ∑ j ∈ range nv, J i j * v j = b i) ↔
      ∀ j : Fin 6, v j = (base66 J)⁻¹.mulVec (fun i => b i - ∑ j ∈ range (nv - 6), J i (j + 6) * a j) j := by
  have hU : IsUnit (base66 J).det := isUnit_iff_ne_zero.2 hdet
  have hsplit : ∀ i : Fin 6, ∑ j ∈ range nv, J i j * v j =
      (base66 J).mulVec (fun j : Fin 6 => v j) i + ∑ j ∈ range (nv - 6), J i (j + 6) * a j := by
    intro i
    rw [sum_base nv h6]
    congr 1
    exact sum_congr rfl fun j hj => by rw [hv j (mem_range.1 hj)]
  simp only [hsplit]
  constructor
  · intro h j
    have h1 : (base66 J).mulVec (fun j : Fin 6 => v j) = fun i => b i - ∑ j ∈ range (nv - 6), J i (j + 6) * a j := by
      funext i; linarith [h i]
    rw [← h1, Matrix.mulVec_mulVec, Matrix.nonsing_inv_mul _ hU, Matrix.one_mulVec]
  · intro h i
    have h1 : (fun j : Fin 6 => v j) = (base66 J)⁻¹.mulVec (fun i => b i - ∑ j ∈ range (nv - 6), J i (j + 6) * a j) := funext h
    rw [h1, Matrix.mulVec_mulVec, Matrix.mul_nonsing_inv _ hU, Matrix.one_mulVec]
    ring

/-- A velocity of the robot: the foot does not translate, the trunk turns at `omega`, the joints have the velocities `a`. -/
structure Moves (nv : Nat) (Jc Ji : Nat → Nat → ℝ) (omega : V3) (a v : Nat → ℝ) : Prop where
  joints : ∀ j, j < nv - 6 → v (j + 6) = a j
  foot : ∀ i, i < 3 → ∑ j ∈ range nv, Jc i j * v j = 0
  trunk : ∀ i : Fin 3, ∑ j ∈ range nv, Ji (3 + i) j * v j = omega i

theorem stacked_iff (nv : Nat) (Jc Ji : Nat → Nat → ℝ) (omega : V3) (v : Nat → ℝ) :
    (∀ i : Fin 6, ∑ j ∈ range nv, stackedJ Jc Ji i j * v j = gyroVector omega i) ↔
      (∀ i, i < 3 → ∑ j ∈ range nv, Jc i j * v j = 0) ∧ ∀ i : Fin 3, ∑ j ∈ range nv, Ji (3 + i) j * v j = omega i := by
  constructor
  · intro h
    constructor
    · intro i hi
      have := h ⟨i, by omega⟩
      simp only [stackedJ, if_pos hi] at this
      rw [this]
      interval_cases i <;> rfl
    · intro i
      have := h ⟨3 + i, by omega⟩
      have h3 : ¬ (3 + (i : Nat) < 3) := by omega
      simp only [stackedJ, if_neg h3] at this
      rw [this]
      fin_cases i <;> rfl
  · rintro ⟨h1, h2⟩ i
    by_cases hi : (i : Nat) < 3
    · simp only [stackedJ, if_pos hi]
      rw [h1 i hi]
      obtain ⟨i, hi6⟩ := i
      dsimp only at hi
      interval_cases i <;> rfl
    · simp only [stackedJ, if_neg hi]
      have h3 := h2 ⟨i - 3, by omega⟩
      have e : 3 + ((i : Nat) - 3) = i := by omega
      simp only [e] at h3
      rw [h3]
      obtain ⟨i, hi6⟩ := i
      dsimp only at hi
      interval_cases i <;> first | rfl | omega

/-- With an invertible stacked Jacobian, exactly one velocity of the robot is possible. -/
theorem moves_iff (nv : Nat) (h6 : 6 ≤ nv) (Jc Ji : Nat → Nat → ℝ) (omega : V3) (hdet : (base66 (stackedJ Jc Ji)).det ≠ 0) (a v : Nat → ℝ) :
    Moves nv Jc Ji omega a v ↔ (∀ j, j < nv - 6 → v (j + 6) = a j) ∧ ∀ j : Fin 6, v j =
      (base66 (stackedJ Jc Ji))⁻¹.mulVec
        (fun i => gyroVector omega i - ∑ j ∈ range (nv - 6), stackedJ Jc Ji i (j + 6) * a j) j := by
  constructor
  · intro h
    exact ⟨h.joints, (base_unique nv h6 _ hdet _ a v h.joints).1 ((stacked_iff nv Jc Ji omega v).2 ⟨h.foot, h.trunk⟩)⟩
  · rintro ⟨h1, h2⟩
    have h3 := (stacked_iff nv Jc Ji omega v).1 ((base_unique nv h6 _ hdet _ a v h1).2 h2)
    exact ⟨h1, h3.1, h3.2⟩

/-! ## C150 -/

/-- **C150, what is true.** For a robot with 26 velocities (20 joints): the velocity returned is the one of the CoM for the only
velocity of the robot with the joint velocities of the state, a support foot that does not translate and a trunk that turns at
`omega`; it is computed exactly when the stacked Jacobian is invertible. Missing for the full C150: every other robot
(`C150_refuted`). -/
theorem C150_partial (JC Jc Ji : Nat → Nat → ℝ) (omega : V3) (qd : Nat → ℝ) :
    ((base66 (stackedJ Jc Ji)).det ≠ 0 → ∃ c, comVelocity 26 JC Jc Ji omega qd = .ok c ∧
      (∃ v, Moves 26 Jc Ji omega (fun j => qd (6 + j)) v) ∧
      ∀ v, Moves 26 Jc Ji omega (fun j => qd (6 + j)) v → ∀ k : Fin 3, c k = ∑ j ∈ range 26, JC k j * v j) ∧
    ((base66 (stackedJ Jc Ji)).det = 0 → comVelocity 26 JC Jc Ji omega qd = .error .ub) := by
  constructor
  · intro hdet
    have hc : comVelocity 26 JC Jc Ji omega qd = .ok _ := (if_neg (by omega)).trans (if_neg hdet)
    refine ⟨_, hc, ?_, ?_⟩
    · refine ⟨fun j => if h : j < 6 then (base66 (stackedJ Jc Ji))⁻¹.mulVec
        (fun i => gyroVector omega i - ∑ j ∈ range (26 - 6), stackedJ Jc Ji i (j + 6) * qd (6 + j)) ⟨j, h⟩ else qd j, ?_⟩
      rw [moves_iff 26 (by omega) Jc Ji omega hdet]
      refine ⟨fun j _ => ?_, fun j => ?_⟩
      · rw [dif_neg (by omega), Nat.add_comm]
      · rw [dif_pos j.2]
    · intro v hv k
      obtain ⟨h1, h2⟩ := (moves_iff 26 (by omega) Jc Ji omega hdet _ v).1 hv
      rw [sum_base 26 (by omega)]
      have e1 : ∑ j ∈ range (26 - 6), JC k (j + 6) * v (j + 6) = ∑ j ∈ range 20, JC k (j + 6) * qd (6 + j) :=
        sum_congr rfl fun j hj => by rw [h1 j (mem_range.1 hj)]
      rw [e1]
      simp only [h2]
      set B := (base66 (stackedJ Jc Ji))⁻¹ with hB
      have e2 : ∀ i : Fin 6, B.mulVec (fun i => gyroVector omega i - ∑ j ∈ range (26 - 6), stackedJ Jc Ji i (j + 6) * qd (6 + j)) i =
          B.mulVec (gyroVector omega) i - ∑ j ∈ range 20, B.mulVec (fun r => stackedJ Jc Ji r (j + 6)) i * qd (6 + j) := by
        intro i
        simp only [Matrix.mulVec, dotProduct, mul_sub, sum_sub_distrib, mul_sum, sum_mul]
        congr 1
        rw [sum_comm]
        exact sum_congr rfl fun j _ => sum_congr rfl fun r _ => by ring
      simp only [e2, mul_sub, sum_sub_distrib, sub_mul, mul_sum, sum_mul]
      have e3 : ∀ j, 6 + j = j + 6 := fun j => by omega
      simp only [e3]
      rw [sum_comm (s := (univ : Finset (Fin 6)))]
      have e4 : ∀ j (i : Fin 6), JC k i * (B.mulVec (fun r => stackedJ Jc Ji r (j + 6)) i * qd (j + 6)) =
          JC k i * B.mulVec (fun r => stackedJ Jc Ji r (j + 6)) i * qd (j + 6) := fun j i => by ring
      simp only [e4]
      ring
  · intro hdet
    exact (if_neg (by omega)).trans (if_pos hdet)

/-- **C150 is false** for every robot whose number of velocities is not 26: the sizes of the products do not match. -/
theorem C150_refuted (nv : Nat) (hnv : nv ≠ 26) (JC Jc Ji : Nat → Nat → ℝ) (omega : V3) (qd : Nat → ℝ) :
    comVelocity nv JC Jc Ji omega qd = .error .ub := if_pos (by omega)

/-! ## Placement on the floor from any proper state -/

theorem floor_spec {m : KinModel} (hm : m.OK) {s : HR} (hI : Inv s.rw) (hT : Rigid s.worldSupport) (hf : m.world s.supportFrame = none) :
    Inv (m.ensureOnFloor s).rw ∧ (m.ensureOnFloor s).rw.oMf s.supportFrame = s.worldSupport ∧
    (∀ k, 7 ≤ k → (m.ensureOnFloor s).rw.q k = s.rw.q k) ∧ (m.ensureOnFloor s).rw.oMf = m.fk (m.ensureOnFloor s).rw.q := by
  have hU := inv_update hm hI
  obtain ⟨h1, h2⟩ := setFrame_spec hm hU s.supportFrame hf _ hT
  refine ⟨inv_update hm (inv_step hm hU (.setFrame s.supportFrame s.worldSupport) hT), ?_, h2, rfl⟩
  refine Eq.trans h1 ?_
  have hc : (m.updateKinematics s.rw).getTWorldFrame s.supportFrame = m.fk (m.updateKinematics s.rw).q s.supportFrame := rfl
  rw [hc, inv_mul' (rigid_fk hm hU.1 _), mul_one']

theorem oriented_spec {m : KinModel} (hm : m.OK) {s : HR} (hI : Inv s.rw) (hf : m.world s.supportFrame = none) (trunk : Nat)
    (ht : m.world trunk = none) (R : M3) (hR : IsRotation R) :
    Inv (m.ensureOriented s trunk R).rw ∧ Rigid (m.ensureOriented s trunk R).worldSupport ∧
    (m.ensureOriented s trunk R).rw.oMf s.supportFrame = (m.ensureOriented s trunk R).worldSupport ∧
    ((m.ensureOriented s trunk R).rw.oMf trunk).linear = R ∧
    (∀ k, 7 ≤ k → (m.ensureOriented s trunk R).rw.q k = s.rw.q k) ∧
    (m.ensureOriented s trunk R).rw.oMf = m.fk (m.ensureOriented s trunk R).rw.q := by
  have hU := inv_update hm hI
  set s' := m.ensureOriented s trunk R with hs'
  have hab : Rigid ((m.updateKinematics s.rw).getTab trunk s.supportFrame) := rigid_mul (rigid_inv (hU.2 trunk)) (hU.2 _)
  have hW : Rigid s'.worldSupport := isRotation_mul hR hab
  obtain ⟨h1, h2⟩ := setFrame_spec hm hU s.supportFrame hf _ hW
  have hc : (m.updateKinematics s.rw).getTWorldFrame s.supportFrame = m.fk (m.updateKinematics s.rw).q s.supportFrame := rfl
  rw [hc, inv_mul' (rigid_fk hm hU.1 _), mul_one'] at h1
  have h1' : s'.rw.getTWorldFrame s.supportFrame = s'.worldSupport := h1
  have hI' : Inv s'.rw := inv_update hm (inv_step hm hU (.setFrame s.supportFrame s'.worldSupport) hW)
  refine ⟨hI', hW, h1', ?_, h2, rfl⟩
  have hrel : s'.rw.getTab trunk s.supportFrame = (m.updateKinematics s.rw).getTab trunk s.supportFrame :=
    setFrame_relative hm hU s.supportFrame _ hW trunk s.supportFrame ht hf
  have h4 : (s'.rw.getTWorldFrame trunk).linear * (s'.rw.getTab trunk s.supportFrame).linear = s'.worldSupport.linear := by
    rw [← h1']
    show (s'.rw.getTWorldFrame trunk).linear * ((s'.rw.getTWorldFrame trunk).linear⁻¹ * (s'.rw.getTWorldFrame s.supportFrame).linear) = _
    have htr : Rigid (s'.rw.getTWorldFrame trunk) := hI'.2 trunk
    rw [← Matrix.mul_assoc, Matrix.mul_nonsing_inv _ (rot_unit htr), Matrix.one_mul]
  rw [hrel] at h4
  have h5 : s'.worldSupport.linear = R * ((m.updateKinematics s.rw).getTab trunk s.supportFrame).linear := rfl
  rw [h5] at h4
  have h6 := congrArg (· * ((m.updateKinematics s.rw).getTab trunk s.supportFrame).linear⁻¹) h4
  simp only [Matrix.mul_assoc, Matrix.mul_nonsing_inv _ (rot_unit hab), Matrix.mul_one] at h6
  exact h6

theorem turnY_isRotation (a : ℝ) : IsRotation (turnY a) := by
  have h := Real.sin_sq_add_cos_sq a
  constructor
  · ext i j
    fin_cases i <;> fin_cases j <;> simp [turnY, Matrix.mul_apply, Fin.sum_univ_three] <;> linarith
  · rw [Matrix.det_fin_three]
    simp [turnY]
    linarith

theorem turnX_isRotation (a : ℝ) : IsRotation (turnX a) := by
  have h := Real.sin_sq_add_cos_sq a
  constructor
  · ext i j
    fin_cases i <;> fin_cases j <;> simp [turnX, Matrix.mul_apply, Fin.sum_univ_three] <;> linarith
  · rw [Matrix.det_fin_three]
    simp [turnX]
    linarith

theorem imu_isRotation (h : Histories) : IsRotation h.imu :=
  isRotation_mul (isRotation_mul (rotZ_isRotation _) (turnY_isRotation _)) (turnX_isRotation _)

/-! ## C151 -/

/-- A joint of the robot other than the universe and the floating base. -/
def Actuated (j : Joint) : Prop := j.name ≠ "universe" ∧ j.name ≠ "root_joint"

/-- What is assumed of the robot: rigid placements, joints with one coordinate each after the base, two feet and a trunk that are
frames of the robot. -/
structure ReplayModel.OK (m : ReplayModel) : Prop where
  kin : m.kin.OK
  names : ∀ j ∈ m.joints, ∀ k ∈ m.joints, j.name = k.name → j = k
  nodup : (m.joints.map (·.name)).Nodup
  base : ∀ j ∈ m.joints, Actuated j → 7 ≤ j.idxQ ∧ 6 ≤ j.idxV ∧ j.idxV < m.nv
  distinct : ∀ j ∈ m.joints, ∀ k ∈ m.joints, Actuated j → Actuated k → j.idxQ = k.idxQ ∨ j.idxV = k.idxV → j = k
  all : ∀ i, 6 ≤ i → i < m.nv → ∃ j ∈ m.joints, Actuated j ∧ j.idxV = i
  floating : 6 ≤ m.nv
  feet : m.left ≠ m.right
  left : m.kin.world m.left = none
  right : m.kin.world m.right = none
  trunk : m.kin.world m.trunk = none

/-- The foot of a side. -/
def ReplayModel.foot (m : ReplayModel) : Side → Nat
  | .left => m.left
  | .right => m.right

theorem ReplayModel.OK.foot_world {m : ReplayModel} (hm : m.OK) (s : Side) : m.kin.world (m.foot s) = none := by
  cases s
  · exact hm.left
  · exact hm.right

/-- A proper state: unit quaternion, rigid placements, and a support frame that is the foot of the support side. -/
structure Proper (m : ReplayModel) (s : Replay) : Prop where
  inv : Robot.Inv s.hr.rw
  rigid : Rigid s.hr.worldSupport
  foot : s.hr.supportFrame = m.foot s.side

theorem find_joint {m : ReplayModel} (hm : m.OK) {j : Joint} (hj : j ∈ m.joints) :
    m.joints.find? (fun k => k.name = j.name) = some j := by
  cases h : m.joints.find? (fun k => k.name = j.name) with
  | none =>
    rw [List.find?_eq_none] at h
    exact absurd (h j hj) (by simp)
  | some k =>
    have h1 := List.find?_some h
    have h2 := List.mem_of_find?_eq_some h
    rw [hm.names k h2 j hj (by simpa using h1)]

/-- The state after the values of one joint. -/
def readOne (h : Histories) (source : String) (qdJoints : Vec ℝ) (j : Joint) (s : Replay) : Replay :=
  { s with
    hr := { s.hr with rw := { s.hr.rw with
      q := fun i => if i = j.idxQ then h.number (source ++ ":" ++ j.name) else s.hr.rw.q i } }
    qd := if 1 < qdJoints.size then fun i => if i = j.idxV then qdJoints.v (j.idxV - 6) else s.qd i else s.qd }

theorem readJoints_cons {m : ReplayModel} (hm : m.OK) (h : Histories) (source : String) (qdJoints : Vec ℝ)
    (hsize : 1 < qdJoints.size → qdJoints.size = m.nv - 6) {j : Joint} (hj : j ∈ m.joints) (ha : Actuated j) (rest : List String) (s : Replay) :
    m.readJoints h source qdJoints (j.name :: rest) s = m.readJoints h source qdJoints rest (readOne h source qdJoints j s) := by
  have hf := find_joint hm hj
  have hb := hm.base j hj ha
  have h1 : jointOffset m.joints j.name = .ok j.idxQ := by simp [jointOffset, hf]
  have h2 : jointUnchecked m.joints j.name = .ok j := by simp [jointUnchecked, hf]
  rw [ReplayModel.readJoints]
  simp only [h1, Bind.bind, Except.bind]
  by_cases hs : 1 < qdJoints.size
  · have h3 : ¬ (j.idxV < 6 ∨ qdJoints.size ≤ j.idxV - 6) := by
      have := hsize hs; omega
    simp only [ReplayModel.readVelocity, if_pos hs, h2, Bind.bind, Except.bind, if_neg h3, readOne]
  · simp only [ReplayModel.readVelocity, if_neg hs, readOne]

structure ReadSpec (m : ReplayModel) (h : Histories) (source : String) (qdJoints : Vec ℝ) (l : List String) (s s' : Replay) : Prop where
  side : s'.side = s.side
  frame : s'.hr.supportFrame = s.hr.supportFrame
  world : s'.hr.worldSupport = s.hr.worldSupport
  oMf : s'.hr.rw.oMf = s.hr.rw.oMf
  q : ∀ i, i < 7 → s'.hr.rw.q i = s.hr.rw.q i
  read : ∀ j ∈ m.joints, Actuated j → j.name ∈ l → s'.hr.rw.q j.idxQ = h.number (source ++ ":" ++ j.name) ∧
    (1 < qdJoints.size → s'.qd j.idxV = qdJoints.v (j.idxV - 6))
  kept : ∀ j ∈ m.joints, Actuated j → j.name ∉ l → s'.hr.rw.q j.idxQ = s.hr.rw.q j.idxQ ∧ s'.qd j.idxV = s.qd j.idxV
  still : ¬ 1 < qdJoints.size → s'.qd = s.qd

theorem readJoints_spec {m : ReplayModel} (hm : m.OK) (h : Histories) (source : String) (qdJoints : Vec ℝ)
    (hsize : 1 < qdJoints.size → qdJoints.size = m.nv - 6) (l : List String) (hn : l.Nodup)
    (hl : ∀ n ∈ l, ∃ j ∈ m.joints, Actuated j ∧ j.name = n) (s : Replay) :
    ∃ s', m.readJoints h source qdJoints l s = .ok s' ∧ ReadSpec m h source qdJoints l s s' := by
  induction l generalizing s with
  | nil =>
    exact ⟨s, rfl, rfl, rfl, rfl, rfl, fun _ _ => rfl, fun _ _ _ h => absurd h (by simp), fun _ _ _ _ => ⟨rfl, rfl⟩, fun _ => rfl⟩
  | cons n l ih =>
    obtain ⟨j, hj, ha, rfl⟩ := hl n List.mem_cons_self
    obtain ⟨hn1, hn2⟩ := List.nodup_cons.1 hn
    rw [readJoints_cons hm h source qdJoints hsize hj ha]
    obtain ⟨s', h1, h2⟩ := ih hn2 (fun n hn => hl n (List.mem_cons_of_mem _ hn)) (readOne h source qdJoints j s)
    have hb := hm.base j hj ha
    refine ⟨s', h1, h2.side, h2.frame, h2.world, h2.oMf, fun i hi => ?_, fun k hk hka hkn => ?_, fun k hk hka hkn => ?_, fun hs => ?_⟩
    · rw [h2.q i hi]
      exact if_neg (by omega)
    · by_cases hkl : k.name ∈ l
      · exact h2.read k hk hka hkl
      · have hkj : k = j := by
          rcases List.mem_cons.1 hkn with e | e
          · exact hm.names k hk j hj e
          · exact absurd e hkl
        subst hkj
        obtain ⟨e1, e2⟩ := h2.kept k hk hka hkl
        refine ⟨by rw [e1]; exact if_pos rfl, fun hs => ?_⟩
        rw [e2]
        simp only [readOne, if_pos hs, if_true]
    · have hkl : k.name ∉ l := fun e => hkn (List.mem_cons_of_mem _ e)
      have hkj : k ≠ j := fun e => hkn (by rw [e]; exact List.mem_cons_self)
      obtain ⟨e1, e2⟩ := h2.kept k hk hka hkl
      have d1 : k.idxQ ≠ j.idxQ := fun e => hkj (hm.distinct k hk j hj hka ha (Or.inl e))
      have d2 : k.idxV ≠ j.idxV := fun e => hkj (hm.distinct k hk j hj hka ha (Or.inr e))
      refine ⟨by rw [e1]; exact if_neg d1, ?_⟩
      rw [e2]
      simp only [readOne]
      split
      · exact if_neg d2
      · rfl
    · rw [h2.still hs]
      exact if_neg hs

theorem jointNames_mem (joints : List Joint) (n : String) :
    n ∈ jointNames joints ↔ ∃ j ∈ joints, Actuated j ∧ j.name = n := by
  unfold jointNames
  simp only [List.mem_filter, List.mem_map, ne_eq, decide_not, Bool.not_eq_eq_eq_not, Bool.not_true, decide_eq_false_iff_not]
  constructor
  · rintro ⟨⟨⟨j, hj, rfl⟩, h1⟩, h2⟩
    exact ⟨j, hj, ⟨h1, h2⟩, rfl⟩
  · rintro ⟨j, hj, h, rfl⟩
    exact ⟨⟨⟨j, hj, rfl⟩, h.1⟩, h.2⟩

theorem jointNames_nodup {joints : List Joint} (h : (joints.map (·.name)).Nodup) : (jointNames joints).Nodup :=
  (h.filter _).filter _

/-- Specification: the side of the foot with the larger pressure, the sum of its four sensors; the right one when they are equal. -/
noncomputable def heavier (h : Histories) : Side :=
  if (["right_pressure_0", "right_pressure_1", "right_pressure_2", "right_pressure_3"].map h.number).sum <
    (["left_pressure_0", "left_pressure_1", "left_pressure_2", "left_pressure_3"].map h.number).sum then .left else .right

theorem heavier_eq (h : Histories) : (if h.pressure "right" < h.pressure "left" then Side.left else Side.right) = heavier h := by
  have e : ∀ foot, h.pressure foot = ([foot ++ "_pressure_0", foot ++ "_pressure_1", foot ++ "_pressure_2", foot ++ "_pressure_3"].map h.number).sum := by
    intro foot
    simp only [Histories.pressure, List.map_cons, List.map_nil, List.sum_cons, List.sum_nil]
    ring
  rw [e, e]
  rfl

/-- Specification: the orientation of roll `r`, pitch `p` and yaw `y`: turns about the fixed axes X, Y and Z, in this order. -/
noncomputable def rollPitchYaw (r p y : ℝ) : M3 :=
  !![Real.cos y * Real.cos p, Real.cos y * Real.sin p * Real.sin r - Real.sin y * Real.cos r,
      Real.cos y * Real.sin p * Real.cos r + Real.sin y * Real.sin r;
    Real.sin y * Real.cos p, Real.sin y * Real.sin p * Real.sin r + Real.cos y * Real.cos r,
      Real.sin y * Real.sin p * Real.cos r - Real.cos y * Real.sin r;
    -Real.sin p, Real.cos p * Real.sin r, Real.cos p * Real.cos r]

theorem imu_rollPitchYaw (h : Histories) : h.imu = rollPitchYaw (h.angle "imu_roll") (h.angle "imu_pitch") (h.angle "imu_yaw") := by
  unfold Histories.imu rollPitchYaw rotZ turnY turnX
  ext i j
  fin_cases i <;> fin_cases j <;> simp [Matrix.mul_apply, Fin.sum_univ_three] <;> ring

/-- Where the support foot has to be: where it was asked to be if it was already the support, otherwise at the projection on the
floor of its last placement. -/
noncomputable def landing (m : ReplayModel) (h : Histories) (s : Replay) : Affine :=
  if heavier h = s.side then s.hr.worldSupport else flattenOnFloor (s.hr.rw.oMf (m.foot (heavier h)))

theorem updateSupportSide_spec {m : ReplayModel} (hm : m.OK) {s : Replay} (hs : Proper m s) (side : Side) :
    Proper m (m.updateSupportSide s side) ∧ (m.updateSupportSide s side).side = side ∧
    (m.updateSupportSide s side).hr.rw = s.hr.rw ∧ (m.updateSupportSide s side).qd = s.qd ∧
    (m.updateSupportSide s side).hr.worldSupport =
      if side = s.side then s.hr.worldSupport else flattenOnFloor (s.hr.rw.oMf (m.foot side)) := by
  have hfoot : (if side = .left then m.left else m.right) = m.foot side := by cases side <;> rfl
  unfold ReplayModel.updateSupportSide
  rw [hfoot]
  by_cases h : side = s.side
  · have e : ¬ m.foot side ≠ s.hr.supportFrame := by rw [hs.foot, h]; simp
    have e' : s.updateSupport side (m.foot side) = s := if_neg e
    rw [e', if_pos h]
    exact ⟨hs, h.symm, rfl, rfl, rfl⟩
  · have e : m.foot side ≠ s.hr.supportFrame := by
      rw [hs.foot]
      have hf := hm.feet
      cases side <;> cases hss : s.side <;> simp_all [ReplayModel.foot] <;> exact fun h => hf h.symm
    have e' : s.updateSupport side (m.foot side) = { s with hr := s.hr.updateSupport (m.foot side), side := side } := if_pos e
    have e2 : s.hr.updateSupport (m.foot side) =
      { s.hr with supportFrame := m.foot side, worldSupport := flattenOnFloor (s.hr.rw.oMf (m.foot side)) } := if_pos e
    rw [e', e2, if_neg h]
    exact ⟨⟨hs.inv, rotZ_isRotation _, rfl⟩, rfl, rfl, rfl, rfl⟩

/-- What a reading does to the robot, apart from the velocities. -/
structure Replayed (m : ReplayModel) (h : Histories) (source : String) (useImu : Bool) (s s' : Replay) : Prop where
  proper : Proper m s'
  side : s'.side = heavier h
  joints : ∀ j ∈ m.joints, Actuated j → s'.hr.rw.q j.idxQ = h.number (source ++ ":" ++ j.name)
  updated : s'.hr.rw.oMf = m.kin.fk s'.hr.rw.q
  support : s'.hr.rw.oMf (m.foot (heavier h)) = s'.hr.worldSupport
  position : s'.hr.worldSupport.translation = (landing m h s).translation
  placed : useImu = false → s'.hr.worldSupport = landing m h s
  oriented : useImu = true → (s'.hr.rw.oMf m.trunk).linear =
    rollPitchYaw (h.angle "imu_roll") (h.angle "imu_pitch") (h.angle "imu_yaw")

/-- The state before the velocity of the base is computed. -/
theorem read_base {m : ReplayModel} (hm : m.OK) (h : Histories) (source : String) (useImu : Bool) (qdJoints : Vec ℝ)
    (hsize : 1 < qdJoints.size → qdJoints.size = m.nv - 6) {s : Replay} (hs : Proper m s) :
    ∃ s0, m.read h source useImu qdJoints s = (if 1 < qdJoints.size then m.baseVelocity h qdJoints s0 else .ok s0) ∧
      Replayed m h source useImu s s0 ∧
      (1 < qdJoints.size → ∀ j ∈ m.joints, Actuated j → s0.qd j.idxV = qdJoints.v (j.idxV - 6)) ∧
      (¬ 1 < qdJoints.size → s0.qd = s.qd) := by
  obtain ⟨s1, h1, r1⟩ := readJoints_spec hm h source qdJoints hsize (jointNames m.joints) (jointNames_nodup hm.nodup)
    (fun n hn => (jointNames_mem m.joints n).1 hn) s
  have p1 : Proper m s1 := by
    refine ⟨?_, by rw [r1.world]; exact hs.rigid, by rw [r1.frame, r1.side]; exact hs.foot⟩
    unfold Robot.Inv
    rw [r1.q 3 (by omega), r1.q 4 (by omega), r1.q 5 (by omega), r1.q 6 (by omega), r1.oMf]
    exact hs.inv
  have hj1 : ∀ j ∈ m.joints, Actuated j → s1.hr.rw.q j.idxQ = h.number (source ++ ":" ++ j.name) ∧
      (1 < qdJoints.size → s1.qd j.idxV = qdJoints.v (j.idxV - 6)) := fun j hj ha =>
    r1.read j hj ha ((jointNames_mem m.joints _).2 ⟨j, hj, ha, rfl⟩)
  obtain ⟨p2, e2, e2rw, e2qd, e2w⟩ := updateSupportSide_spec hm p1 (heavier h)
  set s2 := m.updateSupportSide s1 (heavier h) with hs2
  have hw : s2.hr.worldSupport = landing m h s := by
    rw [e2w, r1.side, r1.world, r1.oMf]; rfl
  have hf2 : m.kin.world s2.hr.supportFrame = none := by rw [p2.foot]; exact hm.foot_world _
  obtain ⟨f1, f2, f3, f4⟩ := floor_spec hm.kin p2.inv p2.rigid hf2
  set s3 : Replay := { s2 with hr := m.kin.ensureOnFloor s2.hr } with hs3
  have e3f : s3.hr.supportFrame = s2.hr.supportFrame := rfl
  have hread : m.read h source useImu qdJoints s = (if 1 < qdJoints.size then m.baseVelocity h qdJoints
      (if useImu then { s3 with hr := m.kin.ensureOriented s3.hr m.trunk h.imu } else s3) else
      .ok (if useImu then { s3 with hr := m.kin.ensureOriented s3.hr m.trunk h.imu } else s3)) := by
    unfold ReplayModel.read
    simp only [h1, Bind.bind, Except.bind, heavier_eq]
    rfl
  refine ⟨_, hread, ?_, ?_, ?_⟩
  · cases useImu
    · refine ⟨⟨f1, p2.rigid, p2.foot⟩, e2, fun j hj ha => ?_, f4, ?_, congrArg _ hw, fun _ => hw, fun h => absurd h (by simp)⟩
      · have := f3 j.idxQ (hm.base j hj ha).1
        show s3.hr.rw.q j.idxQ = _
        rw [show s3.hr.rw.q j.idxQ = s2.hr.rw.q j.idxQ from this, e2rw]
        exact (hj1 j hj ha).1
      · rw [← e2, ← p2.foot]; exact f2
    · obtain ⟨o1, o2, o3, o4, o5, o6⟩ := oriented_spec (s := s3.hr) hm.kin f1 hf2 m.trunk hm.trunk h.imu (imu_isRotation h)
      refine ⟨⟨o1, o2, p2.foot⟩, e2, fun j hj ha => ?_, o6, ?_, (congrArg Affine.translation hw :),  fun h => absurd h (by simp),
        fun _ => o4.trans (imu_rollPitchYaw h)⟩
      · have h7 := (hm.base j hj ha).1
        show (m.kin.ensureOriented s3.hr m.trunk h.imu).rw.q j.idxQ = _
        rw [o5 j.idxQ h7, show s3.hr.rw.q j.idxQ = s2.hr.rw.q j.idxQ from f3 j.idxQ h7, e2rw]
        exact (hj1 j hj ha).1
      · rw [← e2, ← p2.foot]; exact o3
  · intro h1s j hj ha
    have : (if useImu then { s3 with hr := m.kin.ensureOriented s3.hr m.trunk h.imu } else s3).qd = s2.qd := by
      cases useImu <;> rfl
    rw [this, e2qd]
    exact (hj1 j hj ha).2 h1s
  · intro h1s
    have : (if useImu then { s3 with hr := m.kin.ensureOriented s3.hr m.trunk h.imu } else s3).qd = s2.qd := by
      cases useImu <;> rfl
    rw [this, e2qd]
    exact r1.still h1s

/-- The rotation speeds measured. -/
def Histories.gyro (h : Histories) : V3 := ![h.number "gyro_x", h.number "gyro_y", h.number "gyro_z"]

/-- **C151, positions.** Without velocities: the reading never fails, the joints take the values read, the support is the foot with
the larger pressure, placed where it has to be (its orientation, with the IMU, being the one that gives the trunk the orientation
measured), the frames are up to date, and the velocities are kept. -/
theorem C151_positions (m : ReplayModel) (hm : m.OK) (h : Histories) (source : String) (useImu : Bool) (qdJoints : Vec ℝ)
    (hsize : qdJoints.size ≤ 1) (s : Replay) (hs : Proper m s) :
    ∃ s', m.read h source useImu qdJoints s = .ok s' ∧ Replayed m h source useImu s s' ∧ s'.qd = s.qd := by
  have h1 : ¬ 1 < qdJoints.size := by omega
  obtain ⟨s0, e, r, -, r2⟩ := read_base hm h source useImu qdJoints (fun h => absurd h h1) hs
  exact ⟨s0, by rw [e, if_neg h1], r, r2 h1⟩

/-- **C151, velocities, what is true.** With the velocities of at least two joints: the same for the positions; the velocities
obtained are the only ones with the joint velocities given, a support foot that does not translate and a trunk that turns as
measured, at the final configuration. The reading fails exactly when the stacked Jacobian is singular there. Missing for the full
C151: robots with one joint (`C151_refuted`). -/
theorem C151_partial (m : ReplayModel) (hm : m.OK) (h : Histories) (source : String) (useImu : Bool) (qdJoints : Vec ℝ)
    (h2 : 2 ≤ qdJoints.size) (hsize : qdJoints.size = m.nv - 6) (s : Replay) (hs : Proper m s) :
    (∀ s', m.read h source useImu qdJoints s = .ok s' →
      Replayed m h source useImu s s' ∧
      Moves m.nv (m.jac s'.hr.rw.q (m.foot (heavier h))) (m.jac s'.hr.rw.q m.trunk) h.gyro qdJoints.v s'.qd ∧
      ∀ v, Moves m.nv (m.jac s'.hr.rw.q (m.foot (heavier h))) (m.jac s'.hr.rw.q m.trunk) h.gyro qdJoints.v v →
        ∀ j, j < m.nv → v j = s'.qd j) ∧
    (∃ s0, Replayed m h source useImu s s0 ∧ ((∃ s', m.read h source useImu qdJoints s = .ok s' ∧ s'.hr = s0.hr) ∨
      (m.read h source useImu qdJoints s = .error .ub ∧
        (base66 (stackedJ (m.jac s0.hr.rw.q (m.foot (heavier h))) (m.jac s0.hr.rw.q m.trunk))).det = 0))) := by
  have h1 : 1 < qdJoints.size := by omega
  obtain ⟨s0, e, r, r2, -⟩ := read_base hm h source useImu qdJoints (fun _ => hsize) hs
  rw [if_pos h1] at e
  have hfoot : s0.hr.supportFrame = m.foot (heavier h) := by rw [r.proper.foot, r.side]
  have ha : ∀ j, j < m.nv - 6 → s0.qd (j + 6) = qdJoints.v j := by
    intro j hj
    obtain ⟨k, hk, hka, hkj⟩ := hm.all (j + 6) (by omega) (by omega)
    have := r2 h1 k hk hka
    rw [hkj, Nat.add_sub_cancel] at this
    exact this
  have hb : m.baseVelocity h qdJoints s0 =
      if (base66 (stackedJ (m.jac s0.hr.rw.q (m.foot (heavier h))) (m.jac s0.hr.rw.q m.trunk))).det = 0 then .error .ub
      else .ok { s0 with qd := fun i => if hi : i < 6 then
        (base66 (stackedJ (m.jac s0.hr.rw.q (m.foot (heavier h))) (m.jac s0.hr.rw.q m.trunk)))⁻¹.mulVec (fun i => gyroVector h.gyro i -
          ∑ j ∈ range (m.nv - 6), stackedJ (m.jac s0.hr.rw.q (m.foot (heavier h))) (m.jac s0.hr.rw.q m.trunk) i (j + 6) * qdJoints.v j) ⟨i, hi⟩ else s0.qd i } := by
    unfold ReplayModel.baseVelocity
    rw [hfoot]
    exact if_neg (by simp [hsize])
  rw [hb] at e
  by_cases hdet : (base66 (stackedJ (m.jac s0.hr.rw.q (m.foot (heavier h))) (m.jac s0.hr.rw.q m.trunk))).det = 0
  · rw [if_pos hdet] at e
    refine ⟨fun s' hs' => ?_, s0, r, Or.inr ⟨e, hdet⟩⟩
    rw [e] at hs'
    cases hs'
  · rw [if_neg hdet] at e
    refine ⟨fun s' hs' => ?_, s0, r, Or.inl ⟨_, e, rfl⟩⟩
    rw [e] at hs'
    injection hs' with hs'
    have e1 : s'.hr = s0.hr := by rw [← hs']
    have e2 : s'.side = s0.side := by rw [← hs']
    have e3 : ∀ j, j < m.nv - 6 → s'.qd (j + 6) = qdJoints.v j := by
      intro j hj
      have h6 : ¬ j + 6 < 6 := by omega
      rw [← hs', ← ha j hj]
      simp only [dif_neg h6]
    have e4 : ∀ j : Fin 6, s'.qd j = (base66 (stackedJ (m.jac s0.hr.rw.q (m.foot (heavier h))) (m.jac s0.hr.rw.q m.trunk)))⁻¹.mulVec (fun i =>
        gyroVector h.gyro i - ∑ j ∈ range (m.nv - 6), stackedJ (m.jac s0.hr.rw.q (m.foot (heavier h))) (m.jac s0.hr.rw.q m.trunk) i (j + 6) *
        qdJoints.v j) j := by
      intro j
      rw [← hs']
      exact dif_pos j.2
    rw [e1]
    refine ⟨⟨⟨by rw [e1]; exact r.proper.inv, by rw [e1]; exact r.proper.rigid, by rw [e1, e2]; exact r.proper.foot⟩, by rw [e2]; exact r.side,
      by rw [e1]; exact r.joints, by rw [e1]; exact r.updated, by rw [e1]; exact r.support, by rw [e1]; exact r.position,
      by rw [e1]; exact r.placed, by rw [e1]; exact r.oriented⟩, (moves_iff m.nv hm.floating _ _ _ hdet _ _).2 ⟨e3, e4⟩, ?_⟩
    intro v hv j hj
    obtain ⟨v1, v2⟩ := (moves_iff m.nv hm.floating _ _ _ hdet _ v).1 hv
    by_cases h6 : j < 6
    · rw [v2 ⟨j, h6⟩, e4 ⟨j, h6⟩]
    · have : j - 6 + 6 = j := by omega
      rw [← this, v1 (j - 6) (by omega), e3 (j - 6) (by omega)]

/-- **C151 is false** for every robot with one joint: the velocity given is ignored, and the one of the state is kept. -/
theorem C151_refuted (m : ReplayModel) (hm : m.OK) (hnv : m.nv = 7) (h : Histories) (source : String) (useImu : Bool) (qdJoints : Vec ℝ)
    (hsize : qdJoints.size = m.nv - 6) (s : Replay) (hs : Proper m s) (hqd : s.qd 6 ≠ qdJoints.v 0) :
    ∃ s', m.read h source useImu qdJoints s = .ok s' ∧ s'.qd 6 ≠ qdJoints.v 0 := by
  obtain ⟨s', e, -, hq⟩ := C151_positions m hm h source useImu qdJoints (by omega) s hs
  exact ⟨s', e, by rw [hq]; exact hqd⟩

/-! ## C152 -/

/-- Calls made with rotations, rigid transforms, frames of the robot and the right number of velocities. -/
def HumanoidOp.Legal (m : ReplayModel) : HumanoidOp → Prop
  | .robot op => op.Legal
  | .support _ => True
  | .supportFrame _ frame => m.kin.world frame = none
  | .onFloor => True
  | .oriented R => IsRotation R
  | .read _ _ _ qdJoints => qdJoints.size ≤ 1 ∨ qdJoints.size = m.nv - 6

/-- The support is only chosen by its side. -/
def HumanoidOp.BySide : HumanoidOp → Prop
  | .supportFrame _ _ => False
  | _ => True

/-- The side last requested (by the user, or by the pressures of a reading). -/
noncomputable def requested : List HumanoidOp → Side → Side
  | [], s => s
  | .support side :: ops, _ => requested ops side
  | .supportFrame side _ :: ops, _ => requested ops side
  | .read h _ _ _ :: ops, _ => requested ops (heavier h)
  | _ :: ops, s => requested ops s

theorem flatten_height (T : Affine) : (flattenOnFloor T).translation 2 = 0 := rfl

theorem read_proper {m : ReplayModel} (hm : m.OK) (h : Histories) (source : String) (useImu : Bool) (qdJoints : Vec ℝ)
    (hsize : qdJoints.size ≤ 1 ∨ qdJoints.size = m.nv - 6) {s s' : Replay} (hs : Proper m s)
    (e : m.read h source useImu qdJoints s = .ok s') : Replayed m h source useImu s s' := by
  by_cases h1 : qdJoints.size ≤ 1
  · obtain ⟨s0, e0, r, -⟩ := C151_positions m hm h source useImu qdJoints h1 s hs
    rw [e0] at e
    injection e with e
    rw [← e]; exact r
  · have h2 : qdJoints.size = m.nv - 6 := by
      rcases hsize with h | h
      · exact absurd h h1
      · exact h
    exact ((C151_partial m hm h source useImu qdJoints (by omega) h2 s hs).1 s' e).1

theorem step_proper {m : ReplayModel} (hm : m.OK) {s s' : Replay} (hs : Proper m s) (op : HumanoidOp) (hl : op.Legal m) (hb : op.BySide)
    (e : m.step s op = .ok s') : Proper m s' ∧ (s.hr.worldSupport.translation 2 = 0 → s'.hr.worldSupport.translation 2 = 0) ∧
      ∀ ops, requested (op :: ops) s.side = requested ops s'.side := by
  cases op with
  | robot op =>
    injection e with e
    subst e
    exact ⟨⟨inv_step hm.kin hs.inv op hl, hs.rigid, hs.foot⟩, fun h => h, fun _ => rfl⟩
  | support side =>
    injection e with e
    subst e
    obtain ⟨h1, h2, -, -, h5⟩ := updateSupportSide_spec hm hs side
    refine ⟨h1, fun h => ?_, fun ops => by rw [h2]; rfl⟩
    rw [h5]
    split
    · exact h
    · rfl
  | supportFrame side frame => exact hb.elim
  | onFloor =>
    injection e with e
    subst e
    have hf : m.kin.world s.hr.supportFrame = none := by rw [hs.foot]; exact hm.foot_world _
    exact ⟨⟨(floor_spec hm.kin hs.inv hs.rigid hf).1, hs.rigid, hs.foot⟩, fun h => h, fun _ => rfl⟩
  | oriented R =>
    injection e with e
    subst e
    have hf : m.kin.world s.hr.supportFrame = none := by rw [hs.foot]; exact hm.foot_world _
    obtain ⟨o1, o2, -⟩ := oriented_spec hm.kin hs.inv hf m.trunk hm.trunk R hl
    exact ⟨⟨o1, o2, hs.foot⟩, fun h => h, fun _ => rfl⟩
  | read h source useImu qdJoints =>
    have r := read_proper hm h source useImu qdJoints hl hs e
    refine ⟨r.proper, fun h0 => ?_, fun ops => by rw [r.side]; rfl⟩
    rw [r.position]
    unfold landing
    split
    · exact h0
    · rfl

theorem init_proper {m : ReplayModel} (hm : m.OK) : Proper m m.init ∧ m.init.hr.worldSupport.translation 2 = 0 ∧ m.init.side = .left :=
  ⟨⟨(floor_spec (s := ⟨Robot.initial m.kin, m.left, Affine.one⟩) hm.kin (inv_initial hm.kin) rigid_one hm.left).1, rigid_one, rfl⟩, rfl, rfl⟩

theorem session_proper {m : ReplayModel} (hm : m.OK) (ops : List HumanoidOp) : ∀ {s s' : Replay}, Proper m s →
    s.hr.worldSupport.translation 2 = 0 → (∀ op ∈ ops, op.Legal m ∧ op.BySide) → m.session ops s = .ok s' →
    Proper m s' ∧ s'.hr.worldSupport.translation 2 = 0 ∧ s'.side = requested ops s.side := by
  induction ops with
  | nil =>
    intro s s' hs h0 _ e
    injection e with e
    subst e
    exact ⟨hs, h0, rfl⟩
  | cons op ops ih =>
    intro s s' hs h0 hl e
    obtain ⟨s1, e1, e2⟩ := Dynamics.bind_ok e
    obtain ⟨hl1, hl2⟩ := hl op List.mem_cons_self
    obtain ⟨p1, p2, p3⟩ := step_proper hm hs op hl1 hl2 e1
    obtain ⟨q1, q2, q3⟩ := ih p1 (p2 h0) (fun o ho => hl o (List.mem_cons_of_mem _ ho)) e2
    exact ⟨q1, q2, by rw [q3, p3]⟩

/-- **C152, what is true.** In any session where supports are chosen by their side, starting from a robot just constructed: the
support side is the one last requested, the support frame is the foot of that side, and `ensure_on_floor` puts that foot at
`T_world_support`, at height 0. Missing for the full C152: the overload that takes a frame (`C152_refuted`). -/
theorem C152_partial (m : ReplayModel) (hm : m.OK) (ops : List HumanoidOp) (hl : ∀ op ∈ ops, op.Legal m ∧ op.BySide) (s : Replay)
    (hs : m.session ops m.init = .ok s) :
    s.side = requested ops .left ∧ s.hr.supportFrame = m.foot (requested ops .left) ∧
    ∃ s', m.step s .onFloor = .ok s' ∧ s'.side = s.side ∧ s'.hr.rw.oMf (m.foot s.side) = s.hr.worldSupport ∧
      (s'.hr.rw.oMf (m.foot s.side)).translation 2 = 0 ∧ ∀ k, 7 ≤ k → s'.hr.rw.q k = s.hr.rw.q k := by
  obtain ⟨i1, i2, i3⟩ := init_proper hm
  obtain ⟨p1, p2, p3⟩ := session_proper hm ops i1 i2 hl hs
  rw [i3] at p3
  have hf : m.kin.world s.hr.supportFrame = none := by rw [p1.foot]; exact hm.foot_world _
  obtain ⟨f1, f2, f3, -⟩ := floor_spec hm.kin p1.inv p1.rigid hf
  have f2' : (m.kin.ensureOnFloor s.hr).rw.oMf (m.foot s.side) = s.hr.worldSupport := by rw [← p1.foot]; exact f2
  exact ⟨p3, by rw [p1.foot, p3], _, rfl, rfl, f2', by show ((m.kin.ensureOnFloor s.hr).rw.oMf (m.foot s.side)).translation 2 = 0; rw [f2', p2], f3⟩

/-- **C152 is false** with the overload that takes a frame, on every robot: after `update_support_side(Left, right_foot)`, the call
`update_support_side(Right)` leaves the support side at left, while the robot stands on the right foot. -/
theorem C152_refuted (m : ReplayModel) (hm : m.OK) :
    ∃ ops : List HumanoidOp, (∀ op ∈ ops, op.Legal m) ∧ ∃ s, m.session ops m.init = .ok s ∧ requested ops .left = .right ∧
      s.side = .left ∧ s.hr.supportFrame = m.foot .right := by
  have h1 : m.right ≠ m.init.hr.supportFrame := fun h => hm.feet h.symm
  have e1 : m.init.updateSupport .left m.right = { m.init with hr := m.init.hr.updateSupport m.right, side := .left } := if_pos h1
  have e2 : m.init.hr.updateSupport m.right =
    { m.init.hr with supportFrame := m.right, worldSupport := flattenOnFloor (m.init.hr.rw.oMf m.right) } := if_pos h1
  refine ⟨[.supportFrame .left m.right, .support .right], ?_, (m.init.updateSupport .left m.right).updateSupport .right m.right, rfl, rfl, ?_⟩
  · intro op ho
    simp only [List.mem_cons, List.not_mem_nil, or_false] at ho
    rcases ho with rfl | rfl
    · exact hm.right
    · trivial
  · have e3 : (m.init.updateSupport .left m.right).updateSupport .right m.right = m.init.updateSupport .left m.right := by
      refine if_neg ?_
      rw [e1, e2]
      simp
    rw [e3, e1, e2]
    exact ⟨rfl, rfl⟩

/-! ## Concrete cases -/

/-- A robot with two joints; the frames 1 and 2 are the feet and the frame 0 is the trunk. -/
noncomputable def twoLegs : ReplayModel where
  kin := ⟨Affine.one, fun _ => none, fun f q => ⟨rotZ (q f), ![0, f, -1]⟩⟩
  joints := [⟨"universe", 0, 0, 0, 0⟩, ⟨"root_joint", 0, 7, 0, 6⟩, ⟨"left_hip", 7, 1, 6, 1⟩, ⟨"right_hip", 8, 1, 7, 1⟩]
  nv := 8
  left := 1
  right := 2
  trunk := 0
  jac := fun _ _ i j => if i = j ∨ (i = 0 ∧ j = 6) then 1 else 0

theorem twoLegs_ok : twoLegs.OK where
  kin := ⟨rigid_one, fun _ _ h => (by cases h), fun _ _ => rotZ_isRotation _⟩
  names := by decide
  nodup := by decide
  base := by
    unfold Actuated
    decide
  distinct := by
    unfold Actuated
    decide
  all := by
    intro i h6 h8
    have h8 : i < 8 := h8
    have : i = 6 ∨ i = 7 := by omega
    unfold Actuated
    rcases this with rfl | rfl <;> decide
  floating := by decide
  feet := by decide
  left := rfl
  right := rfl
  trunk := rfl

theorem twoLegs_det (q : Nat → ℝ) (f : Nat) : (base66 (stackedJ (twoLegs.jac q f) (twoLegs.jac q twoLegs.trunk))).det ≠ 0 := by
  have : base66 (stackedJ (twoLegs.jac q f) (twoLegs.jac q twoLegs.trunk)) = 1 := by
    ext i j
    rw [Matrix.one_apply]
    unfold base66 stackedJ twoLegs
    dsimp only
    rw [ite_self]
    by_cases hij : i = j
    · subst hij; simp
    · have : (i : Nat) ≠ j := fun h => hij (Fin.ext h)
      rw [if_neg hij, if_neg]
      rintro (h | ⟨-, h⟩)
      · exact this h
      · exact absurd j.2 (by omega)
  rw [this]; simp

/-- C151 and C152 on that robot: a reading with the IMU and velocities succeeds after any session. -/
example (h : Histories) (qd : Nat → ℝ) : ∃ s, twoLegs.session [.robot (.setJoint 7 1), .support .right, .oriented 1, .onFloor] twoLegs.init = .ok s ∧
    ∃ s', twoLegs.read h "goal" true ⟨2, qd⟩ s = .ok s' := by
  refine ⟨_, rfl, ?_⟩
  obtain ⟨i1, i2, -⟩ := init_proper twoLegs_ok
  have hp := (session_proper twoLegs_ok [.robot (.setJoint 7 1), .support .right, .oriented 1, .onFloor] i1 i2 (by
    intro op ho
    simp only [List.mem_cons, List.not_mem_nil, or_false] at ho
    rcases ho with rfl | rfl | rfl | rfl
    · exact ⟨Nat.le_refl 7, trivial⟩
    · exact ⟨trivial, trivial⟩
    · exact ⟨isRotation_one, trivial⟩
    · exact ⟨trivial, trivial⟩) rfl).1
  obtain ⟨-, s0, -, h⟩ := C151_partial twoLegs twoLegs_ok h "goal" true ⟨2, qd⟩ (Nat.le_refl 2) rfl _ hp
  rcases h with ⟨s', h1, -⟩ | ⟨-, h1⟩
  · exact ⟨s', h1⟩
  · exact absurd h1 (twoLegs_det _ _)

/-- C150: a stacked Jacobian that is invertible. -/
example : (base66 (stackedJ (twoLegs.jac (fun _ => 0) 1) (twoLegs.jac (fun _ => 0) 0))).det ≠ 0 := twoLegs_det _ _

/-- C151: a robot with one joint, whose velocity is at 0 while 1 is given. -/
example (h : Histories) : ∃ m : ReplayModel, m.OK ∧ m.nv = 7 ∧
    ∃ s', m.read h "goal" true ⟨1, fun _ => 1⟩ m.init = .ok s' ∧ s'.qd 6 ≠ 1 := by
  let m : ReplayModel := { twoLegs with
    joints := [⟨"universe", 0, 0, 0, 0⟩, ⟨"root_joint", 0, 7, 0, 6⟩, ⟨"left_hip", 7, 1, 6, 1⟩], nv := 7 }
  have hm : m.OK :=
    { kin := twoLegs_ok.kin
      names := by decide
      nodup := by decide
      base := by unfold Actuated; decide
      distinct := by unfold Actuated; decide
      all := by
        intro i h6 h7
        have h7 : i < 7 := h7
        have : i = 6 := by omega
        unfold Actuated
        subst this
        decide
      floating := by decide
      feet := by decide
      left := rfl
      right := rfl
      trunk := rfl }
  refine ⟨m, hm, rfl, C151_refuted m hm rfl h "goal" true ⟨1, fun _ => 1⟩ rfl m.init (init_proper hm).1 ?_⟩
  show (0 : ℝ) ≠ 1
  norm_num

end Verif.Humanoid
