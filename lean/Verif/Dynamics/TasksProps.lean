/-
Properties of the tasks of the dynamics solver: gains (C65), exact tasks (C102), torque task (C103) and point tasks
(C104).
-/
import Mathlib.Analysis.Calculus.MeanValue
import Mathlib.Analysis.SpecialFunctions.ExpDeriv
import Mathlib.Analysis.SpecialFunctions.Exp
import Mathlib.Tactic.FieldSimp
import Mathlib.Tactic.LinearCombination
import Verif.Dynamics.Tasks
import Verif.Dynamics.ContactsProps
import Verif.Kinematics.TasksProps2

namespace Verif.Dynamics
open Finset Verif.Problem Verif.Kinematics

/-! ## Lists of rows with a single 1 -/

section
variable {K : Type} [Field K] [LinearOrder K] [IsStrictOrderedRing K]

theorem rows_met (nv : Nat) (rows : List (Nat × K)) (hcol : ∀ p ∈ rows, p.1 < nv) (x : Nat → K) :
    TaskMat.Met ⟨rows.length, nv, fun k j => if j = (rows.getD k (0, 0)).1 then 1 else 0, fun k => (rows.getD k (0, 0)).2⟩ x ↔
      ∀ p ∈ rows, x p.1 = p.2 := by
  unfold TaskMat.Met TaskMat.app
  simp only
  have hrow : ∀ i (hi : i < rows.length), ∑ j ∈ range nv, (if j = (rows.getD i (0, 0)).1 then 1 else 0) * x j = x (rows[i]).1 := by
    intro i hi
    rw [show rows.getD i (0, 0) = rows[i] by simp [List.getD, hi]]
    exact sum_pick _ _ (hcol _ (List.getElem_mem hi)) x
  constructor
  · intro h p hp
    obtain ⟨i, hi, rfl⟩ := List.getElem_of_mem hp
    have := h i hi
    rw [hrow i hi] at this
    rw [this]
    simp [List.getD, hi]
  · intro h i hi
    rw [hrow i hi, h _ (List.getElem_mem hi)]
    simp [List.getD, hi]

end

section
variable {K : Type} [Field K] [LinearOrder K] [IsStrictOrderedRing K]

/-! ## Joints task -/

/-- A call of `set_joint`. -/
structure JointCall (K : Type) where
  joint : String
  target : K
  velocity : K
  acceleration : K

/-- The task after a sequence of calls. -/
def jointsAfter (kp kd : K) (calls : List (JointCall K)) : JointsTask K :=
  calls.foldl (fun t c => t.setJoint c.joint c.target c.velocity c.acceleration) ⟨kp, kd, [], [], []⟩

/-- Specification: the last call for a joint (history given last call first). -/
def lastCall (name : String) : List (JointCall K) → Option (JointCall K)
  | [] => none
  | c :: before => if name = c.joint then some c else lastCall name before

theorem jointsAfter_spec (kp kd : K) (calls : List (JointCall K)) :
    (jointsAfter kp kd calls).kp = kp ∧ (jointsAfter kp kd calls).kd = kd ∧
    SMap.WF (jointsAfter kp kd calls).joints ∧
    ∀ name, SMap.find? (jointsAfter kp kd calls).joints name = (lastCall name calls.reverse).map (·.target) ∧
      SMap.find? (jointsAfter kp kd calls).djoints name = (lastCall name calls.reverse).map (·.velocity) ∧
      SMap.find? (jointsAfter kp kd calls).ddjoints name = (lastCall name calls.reverse).map (·.acceleration) := by
  induction calls using List.reverseRecOn with
  | nil => exact ⟨rfl, rfl, SMap.WF_nil, fun _ => ⟨rfl, rfl, rfl⟩⟩
  | append_singleton calls c ih =>
    have hstep : jointsAfter kp kd (calls ++ [c]) =
        (jointsAfter kp kd calls).setJoint c.joint c.target c.velocity c.acceleration := by
      unfold jointsAfter
      rw [List.foldl_append]; rfl
    obtain ⟨i1, i2, i3, i4⟩ := ih
    rw [hstep, List.reverse_append, List.reverse_singleton, List.singleton_append]
    refine ⟨i1, i2, SMap.WF_set _ _ _ i3, fun name => ?_⟩
    obtain ⟨j1, j2, j3⟩ := i4 name
    simp only [JointsTask.setJoint, SMap.find?_set, j1, j2, j3, lastCall]
    by_cases h : name = c.joint <;> simp [h]

/-- The joints task is met exactly if each joint named by a call accelerates as asked by its last call. -/
theorem joints_met (sqrt : K → K) (r : Robot K) (hn : ∀ j ∈ r.joints, j.idxV < r.nv) (kp kd : K) (calls : List (JointCall K))
    (s : RState K) (M : TaskMat K) (hM : (jointsAfter kp kd calls).update sqrt r s = .ok M) (x : Nat → K) :
    M.Met x ↔ ∀ name c j, lastCall name calls.reverse = some c → r.joints.find? (fun j => j.name = name) = some j →
      x j.idxV = kp * (c.target - s.q j.idxQ) + getKd sqrt kp kd * (c.velocity - s.qd j.idxV) + c.acceleration := by
  obtain ⟨hkp, hkd, hwf, hhist⟩ := jointsAfter_spec kp kd calls
  generalize jointsAfter kp kd calls = t at *
  unfold JointsTask.update at hM
  obtain ⟨rows, h1, h⟩ := bind_ok hM
  cases h
  have hf := mapM_cases _ _ _ h1
  have hmem : ∀ p, p ∈ rows ↔ ∃ name c j, lastCall name calls.reverse = some c ∧
      r.joints.find? (fun j => j.name = name) = some j ∧ p = (j.idxV,
        kp * (c.target - s.q j.idxQ) + getKd sqrt kp kd * (c.velocity - s.qd j.idxV) + c.acceleration) := by
    have hrow : ∀ name v, (name, v) ∈ t.joints → ∀ p, t.row sqrt r s (name, v) = .ok p → ∃ c j,
        lastCall name calls.reverse = some c ∧ r.joints.find? (fun j => j.name = name) = some j ∧ p = (j.idxV,
        kp * (c.target - s.q j.idxQ) + getKd sqrt kp kd * (c.velocity - s.qd j.idxV) + c.acceleration) := by
      intro name v hv p hp
      have hv := (SMap.mem_iff_find? _ hwf name v).1 hv
      obtain ⟨e1, e2, e3⟩ := hhist name
      rw [hv] at e1
      cases hl : lastCall name calls.reverse with
      | none => rw [hl] at e1; cases e1
      | some c =>
        rw [hl] at e1 e2 e3
        cases e1
        unfold JointsTask.row at hp
        simp only [e2, e3, hkp, hkd] at hp
        split at hp
        · cases hp
        · rename_i j hj
          cases hp
          exact ⟨c, j, rfl, hj, rfl⟩
    intro p
    constructor
    · intro hp
      obtain ⟨i, hi, rfl⟩ := List.getElem_of_mem hp
      have hi' : i < t.joints.length := by rw [hf.length_eq]; exact hi
      have := (List.forall₂_iff_get.1 hf).2 i hi' hi
      simp only [List.get_eq_getElem] at this
      have hm := List.getElem_mem hi'
      generalize t.joints[i] = q at this hm
      obtain ⟨name, v⟩ := q
      obtain ⟨c, j, a, b, d⟩ := hrow name v hm _ this
      exact ⟨name, c, j, a, b, d⟩
    · rintro ⟨name, c, j, a, b, rfl⟩
      obtain ⟨e1, -⟩ := hhist name
      rw [a] at e1
      have hm := (SMap.mem_iff_find? _ hwf name c.target).2 e1
      obtain ⟨i, hi, he⟩ := List.getElem_of_mem hm
      have hi' : i < rows.length := by rw [← hf.length_eq]; exact hi
      have := (List.forall₂_iff_get.1 hf).2 i hi hi'
      simp only [List.get_eq_getElem, he] at this
      obtain ⟨c', j', a', b', d'⟩ := hrow name _ hm _ this
      rw [a] at a'; cases a'
      rw [b] at b'; cases b'
      rw [← d']
      exact List.getElem_mem hi'
  have hcol : ∀ p ∈ rows, p.1 < r.nv := by
    intro p hp
    obtain ⟨name, c, j, -, b, rfl⟩ := (hmem p).1 hp
    exact hn j (List.mem_of_find?_eq_some b)
  rw [rows_met r.nv rows hcol x]
  constructor
  · intro H name c j a b
    exact H _ ((hmem _).2 ⟨name, c, j, a, b, rfl⟩)
  · intro H p hp
    obtain ⟨name, c, j, a, b, rfl⟩ := (hmem p).1 hp
    exact H name c j a b

/-! ## Gear task -/

/-- One row of the dynamics gear task, when the target is not one of its sources: the error
`e = q_target - Σ ratio q_source` is given the acceleration `-kp e - kd e'`. -/
theorem dyn_gear_row (t n : Nat) (ht : t < n) (m : SMap Nat K) (hm : SMap.WF m) (hn : ∀ p ∈ m, p.1 < n)
    (hself : SMap.find? m t = none) (kp d : K) (q qd x : Nat → K) :
    (∑ j ∈ range n, gearRow t m j * x j = kp * gearB q t m + d * gearB (fun i => qd (i - 1)) t m) ↔
      x t - ∑ s ∈ range n, coef m s * x s =
        -kp * (q (t + 1) - ∑ s ∈ range n, coef m s * q (s + 1)) - d * (qd t - ∑ s ∈ range n, coef m s * qd s) := by
  have h1 := gear_row_met t n ht m hm hn hself (fun _ => 0) x
  have hrow : ∑ j ∈ range n, gearRow t m j * x j = -x t + ∑ s ∈ range n, coef m s * x s := by
    have hrow : ∀ j, gearRow t m j = (if j = t then -1 else 0) + coef m j := by
      intro j
      unfold gearRow
      rw [gearRow_spec t m hm]
      unfold coef
      by_cases h : j = t
      · subst h; rw [hself]; simp
      · simp [h]
    simp only [hrow, add_mul, sum_add_distrib]
    rw [Finset.sum_eq_single_of_mem t (Finset.mem_range.2 ht) fun j _ hj => by simp [hj]]
    simp
  have hb : ∀ f : Nat → K, gearB f t m = f (t + 1) - ∑ s ∈ range n, coef m s * f (s + 1) := by
    intro f
    unfold gearB
    rw [foldl_sub, sum_map_eq m hm n hn fun s => f (s + 1)]
  rw [hrow, hb, hb]
  simp only [Nat.add_sub_cancel]
  constructor <;> intro h <;> linear_combination -h

/-! ## C102: exact tasks -/

theorem mapM_mem {α β : Type} {f : α → Except Err β} {l : List α} {r : List β} (h : l.mapM f = .ok r) {a : α} (ha : a ∈ l) :
    ∃ b ∈ r, f a = .ok b := by
  have hf := mapM_cases _ _ _ h
  clear h
  induction hf with
  | nil => cases ha
  | cons hab _ ih =>
    rcases List.mem_cons.1 ha with rfl | ha
    · exact ⟨_, List.mem_cons_self, hab⟩
    · obtain ⟨b, hb, e⟩ := ih ha
      exact ⟨b, List.mem_cons_of_mem _ hb, e⟩

theorem zip_mem {α β : Type} {f : α → Except Err β} {l : List α} {r : List β} (h : l.mapM f = .ok r) {a : α} (ha : a ∈ l) :
    ∃ b, f a = .ok b ∧ (a, b) ∈ l.zip r := by
  have hf := mapM_cases _ _ _ h
  clear h
  induction hf with
  | nil => cases ha
  | cons hab _ ih =>
    rcases List.mem_cons.1 ha with rfl | ha
    · exact ⟨_, hab, by simp⟩
    · obtain ⟨b, e, hb⟩ := ih ha
      exact ⟨b, e, by simp [hb]⟩

/-- **C102.** After a successful solve every hard task is met exactly: by the accelerations, or by the torques for a
`tau` task. (A task whose matrix has not the size of the robot is undefined behaviour and is excluded.) -/
theorem C102 (env : DEnv K) (hS : env.toQPEnv.Sound) (r : DynRobot K) (tasks : List (DTask K))
    (contacts : List (Contact K)) (cons : List (DConstraint K)) (integrate : Bool) (s : DState K) (rs : RState K)
    (res : Result K) (h : solve env r tasks contacts cons integrate s = (rs, .ok res)) (hok : res.success = true)
    (task : DTask K) (ht : task ∈ tasks) (hp : task.priority = .hard) (M : TaskMat K) (hM : task.update s.robot = .ok M)
    (hcols : M.cols = r.nv) : M.Met (if task.tauTask then res.tau else res.qdd) := by
  rcases solve_cases env r tasks contacts cons integrate s rs _ h with ⟨-, hf⟩ | ⟨p, x, hb, hres, -, -, hsat, -⟩
  · rw [hf res rfl] at hok; cases hok
  cases hres
  have P := build_spec env r tasks contacts cons s p hb
  obtain ⟨cm, cc, cl, mats, ct, cu, cf, c, hcs, -, -, -, hmats, hct, -⟩ := P.parts
  obtain ⟨M', hM', hz⟩ := zip_mem hmats ht
  rw [hM] at hM'; cases hM'
  obtain ⟨l, hl, hlc⟩ := mapM_mem hct hz
  have hl' : HardSat l x := fun k hk hp => hsat hS k (by
    rw [hcs]
    simp only [List.mem_append, List.mem_flatten]
    exact .inl (.inl (.inl (.inr ⟨l, hl, hk⟩)))) hp
  unfold dtaskConstraint at hlc
  simp only [hp] at hlc
  intro i hi
  rw [if_neg (by omega), if_neg (by decide)] at hlc
  obtain ⟨e, h1, hlc⟩ := bind_ok hlc
  obtain ⟨k, h2, hlc⟩ := bind_ok hlc
  cases hlc
  have h6 := P.six
  have hle := P.chain.le
  obtain ⟨k', k1, k2, k3, k4⟩ := eqDouble_zero e (0 : K)
  rw [k1] at h2; cases h2
  have hs := (HardSat_single _ _).1 hl' rfl
  have hs : k.Sat x := hs
  rw [sat_equality _ k2] at hs
  unfold taskExpr at h1
  cases htau : task.tauTask with
  | false =>
    rw [htau] at h1
    simp only [Bool.false_eq_true, if_false] at h1 ⊢
    cases h1
    obtain ⟨r1, -, r2⟩ := k4 (show 0 < M.cols by omega)
    have := hs i (by rw [r1]; exact hi)
    rw [r2, sub_zero] at this
    unfold TaskMat.app
    have hq : ∀ j ∈ range M.cols, M.A i j * (readResult p.qdd p.js p.tau x).qdd j = M.A i j * x j := by
      intro j hj
      show _ * p.qdd.rowVal x j = _
      rw [P.qdd, qddExpr_rowVal _ _ _ (by rw [← hcols]; exact mem_range.1 hj)]
    rw [sum_congr rfl hq]
    simp only [plainExpr, Expr.rowVal] at this
    linear_combination this
  | true =>
    rw [htau] at h1
    simp only [if_true] at h1 ⊢
    obtain ⟨m, h3, h1⟩ := bind_ok h1
    obtain ⟨m1, m2, m3, m4⟩ := matMul_ok h3
    obtain ⟨n1, n2, n3, n4⟩ := subVec_ok h1
    obtain ⟨r1, -, r2⟩ := k4 (show 0 < e.cols by rw [n3, m3, P.tauCols]; omega)
    have := hs i (by rw [r1, n2, m2]; exact hi)
    rw [r2, sub_zero, n4, m4] at this
    unfold TaskMat.app
    have e1 : M.cols = p.tau.rows := m1
    rw [e1]
    show ∑ j ∈ range p.tau.rows, M.A i j * p.tau.rowVal x j = _
    linear_combination this

/-! ## C103: torque task -/

theorem torque_met (r : Robot K) (hn : ∀ name j, r.vJoint name = .ok j → j.idxV < r.nv) (m : SMap String (TargetTau K))
    (s : RState K) (M : TaskMat K) (hM : torqueUpdate r m s = .ok M) (tau : Nat → K) :
    M.Met tau ↔ ∀ p ∈ m, ∀ j, r.vJoint p.1 = .ok j → tau j.idxV = p.2.torque + p.2.kp * s.q j.idxQ - p.2.kd * s.qd j.idxV := by
  unfold torqueUpdate at hM
  obtain ⟨rows, h1, h⟩ := bind_ok hM
  cases h
  have hf := mapM_cases _ _ _ h1
  clear h1 hM
  have hrow : ∀ p row, torqueRow r s p = .ok row → ∃ j, r.vJoint p.1 = .ok j ∧
      row = (j.idxV, p.2.torque + p.2.kp * s.q j.idxQ - p.2.kd * s.qd j.idxV) := by
    intro p row hp
    unfold torqueRow at hp
    obtain ⟨j, hj, hp⟩ := bind_ok hp
    cases hp
    exact ⟨j, hj, rfl⟩
  have hcol : ∀ p ∈ rows, p.1 < r.nv := by
    induction hf with
    | nil => simp
    | cons hab _ ih =>
      intro q hq
      rcases List.mem_cons.1 hq with rfl | hq
      · obtain ⟨j, hj, e⟩ := hrow _ _ hab
        rw [e]; exact hn _ j hj
      · exact ih q hq
  rw [rows_met r.nv rows hcol tau]
  clear hcol
  induction hf with
  | nil => simp
  | cons hab _ ih =>
    obtain ⟨j, hj, e⟩ := hrow _ _ hab
    rw [List.forall_mem_cons, List.forall_mem_cons]
    refine and_congr ?_ ih
    rw [e]
    constructor
    · intro H j' hj'
      rw [hj] at hj'; cases hj'
      exact H
    · intro H
      exact H j hj

/-- **C103.** A hard torque task applies to each named joint exactly the torque `torque + kp q - kd qd`, in a successful
solve. -/
theorem C103 (env : DEnv K) (hS : env.toQPEnv.Sound) (r : DynRobot K)
    (hn : ∀ name j, r.toRobot.vJoint name = .ok j → j.idxV < r.nv) (tasks : List (DTask K))
    (contacts : List (Contact K)) (cons : List (DConstraint K)) (integrate : Bool) (s : DState K) (rs : RState K)
    (res : Result K) (h : solve env r tasks contacts cons integrate s = (rs, .ok res)) (hok : res.success = true)
    (m : SMap String (TargetTau K)) (w : K) (ht : (⟨.hard, w, true, torqueUpdate r.toRobot m⟩ : DTask K) ∈ tasks)
    (name : String) (t : TargetTau K) (hmem : (name, t) ∈ m) (j : Joint) (hj : r.toRobot.vJoint name = .ok j)
    (hall : ∀ p ∈ m, ∃ j, r.toRobot.vJoint p.1 = .ok j) :
    res.tau j.idxV = t.torque + t.kp * s.robot.q j.idxQ - t.kd * s.robot.qd j.idxV := by
  have hM : ∃ M, torqueUpdate r.toRobot m s.robot = .ok M ∧ M.cols = r.nv := by
    have : ∀ l : SMap String (TargetTau K), (∀ p ∈ l, ∃ j, r.toRobot.vJoint p.1 = .ok j) →
        ∃ rows, l.mapM (torqueRow r.toRobot s.robot) = .ok rows := by
      intro l
      induction l with
      | nil => intro _; exact ⟨[], rfl⟩
      | cons p l ih =>
        intro h
        obtain ⟨rows, h1⟩ := ih fun q hq => h q (List.mem_cons_of_mem _ hq)
        obtain ⟨j, hj⟩ := h p List.mem_cons_self
        have hrow : torqueRow r.toRobot s.robot p =
            .ok (j.idxV, p.2.torque + p.2.kp * s.robot.q j.idxQ - p.2.kd * s.robot.qd j.idxV) := by
          unfold torqueRow; rw [hj]; rfl
        exact ⟨_, by rw [List.mapM_cons, h1, hrow]; rfl⟩
    obtain ⟨rows, hrows⟩ := this m hall
    unfold torqueUpdate
    rw [hrows]
    exact ⟨_, rfl, rfl⟩
  obtain ⟨M, hM, hc⟩ := hM
  have := C102 env hS r tasks contacts cons integrate s rs res h hok _ ht rfl M hM hc
  simp only [if_true] at this
  exact (torque_met r.toRobot hn m s.robot M hM res.tau).1 this (name, t) hmem j hj

/-! ## C104: tasks on points -/

/-- A vector expressed in the frame of the mask. -/
def maskFrame (mask : Tools.Mask K) (v : Fin 3 → K) (a : Fin 3) : K :=
  match mask.frame with
  | .task => v a
  | .loc => ∑ k, mask.rLocalWorld a k * v k
  | .custom => ∑ k, mask.rCustomWorld a k * v k

theorem maskFrame_add (mask : Tools.Mask K) (u v : Fin 3 → K) (a : Fin 3) :
    maskFrame mask (fun i => u i + v i) a = maskFrame mask u a + maskFrame mask v a := by
  unfold maskFrame
  split
  · rfl
  all_goals (rw [← sum_add_distrib]; exact sum_congr rfl fun k _ => by ring)

theorem maskedTask_met (N : Nat) (mask : Tools.Mask K) (J : Fin 3 → Nat → K) (v : Fin 3 → K) (x : Nat → K) :
    (maskedTask N mask J v).Met x ↔
      ∀ a ∈ mask.indices, maskFrame mask (fun i => ∑ j ∈ range N, J i j * x j) a = maskFrame mask v a := by
  unfold maskedTask TaskMat.Met TaskMat.app Tools.Mask.apply
  simp only
  have hswap : ∀ (R : Fin 3 → Fin 3 → K) a, ∑ j ∈ range N, (∑ k, R a k * J k j) * x j =
      ∑ k, R a k * ∑ j ∈ range N, J k j * x j := by
    intro R a
    simp only [sum_mul, mul_sum]
    rw [sum_comm]
    exact sum_congr rfl fun k _ => sum_congr rfl fun j _ => by ring
  have hrow : ∀ i (hi : i < mask.indices.length),
      (∑ j ∈ range N, ((mask.indices.map (match mask.frame with
        | .custom => fun i j => ∑ k, mask.rCustomWorld i k * J k j
        | .loc => fun i j => ∑ k, mask.rLocalWorld i k * J k j
        | .task => J)).getD i (fun _ => 0)) j * x j =
        maskFrame mask (fun i => ∑ j ∈ range N, J i j * x j) mask.indices[i]) ∧
      (((mask.indices.map (match mask.frame with
        | .custom => fun i (_ : Nat) => ∑ k, mask.rCustomWorld i k * v k
        | .loc => fun i _ => ∑ k, mask.rLocalWorld i k * v k
        | .task => fun i _ => v i)).getD i (fun _ => 0)) 0 = maskFrame mask v mask.indices[i]) := by
    intro i hi
    unfold maskFrame
    cases mask.frame <;> simp [List.getD, hi, hswap]
  constructor
  · intro h a ha
    obtain ⟨i, hi, rfl⟩ := List.getElem_of_mem ha
    have := h i hi
    obtain ⟨e1, e2⟩ := hrow i hi
    rw [← e1, ← e2]
    exact this
  · intro h i hi
    obtain ⟨e1, e2⟩ := hrow i hi
    refine e1.trans (Eq.trans ?_ e2.symm)
    exact h _ (List.getElem_mem hi)

/-- **C104.** A position or centre-of-mass task met by accelerations `x` gives the point, on each selected axis of the
frame of the mask, the acceleration `kp (target - p) + kd (dtarget - v) + ddtarget`, where the acceleration of the point
is `J x + dJ qd` and its velocity is `J qd`. -/
theorem C104 (sqrt : K → K) (N : Nat) (mask : Tools.Mask K) (kp kd : K) (target dtarget ddtarget p : Fin 3 → K)
    (J dJ : Fin 3 → Nat → K) (s : RState K) (x : Nat → K) (vel acc : Fin 3 → K)
    (hvel : ∀ i, vel i = ∑ j ∈ range N, J i j * s.qd j)
    (hacc : ∀ i, acc i = ∑ j ∈ range N, J i j * x j + ∑ j ∈ range N, dJ i j * s.qd j) :
    (pointTaskUpdate sqrt N mask kp kd target dtarget ddtarget p J dJ s).Met x ↔
      ∀ a ∈ mask.indices, maskFrame mask acc a = maskFrame mask
        (fun i => kp * (target i - p i) + (if kd < 0 then 2 * sqrt kp else kd) * (dtarget i - vel i) + ddtarget i) a := by
  unfold pointTaskUpdate
  rw [maskedTask_met]
  refine forall_congr' fun a => forall_congr' fun _ => ?_
  have e1 : maskFrame mask acc a = maskFrame mask (fun i => ∑ j ∈ range N, J i j * x j) a +
      maskFrame mask (fun i => ∑ j ∈ range N, dJ i j * s.qd j) a := by
    rw [← maskFrame_add]
    congr 1
    funext i
    exact hacc i
  have e2 := maskFrame_add mask (fun i => (kp * (target i - p i) + getKd sqrt kp kd * (dtarget i - ∑ j ∈ range N, J i j * s.qd j)
      + ddtarget i) - ∑ j ∈ range N, dJ i j * s.qd j) (fun i => ∑ j ∈ range N, dJ i j * s.qd j) a
  simp only [sub_add_cancel] at e2
  have e3 : (fun i => kp * (target i - p i) + (if kd < 0 then 2 * sqrt kp else kd) * (dtarget i - vel i) + ddtarget i) =
      fun i => (kp * (target i - p i) + getKd sqrt kp kd * (dtarget i - ∑ j ∈ range N, J i j * s.qd j)
      + ddtarget i) := by
    funext i
    rw [hvel]; rfl
  rw [e1, e3, e2]
  constructor
  · intro h; rw [h]
  · intro h; exact add_right_cancel h

end

/-! ## C65: gains -/

/-- **C65**, gains: an explicit non-negative `kd` is used as given, and the default (negative) one is `2 sqrt(kp)`. -/
theorem C65_kd (kp kd : ℝ) :
    (0 ≤ kd → getKd Real.sqrt kp kd = kd) ∧ (kd < 0 → 0 ≤ kp → getKd Real.sqrt kp kd ^ 2 = 4 * kp ∧ 0 ≤ getKd Real.sqrt kp kd) := by
  unfold getKd
  constructor
  · intro h; rw [if_neg (not_lt.2 h)]
  · intro h hk
    rw [if_pos h]
    refine ⟨?_, by positivity⟩
    rw [mul_pow, Real.sq_sqrt hk]; norm_num

/-- The solutions of `e'' = -kp e - 2 sqrt(kp) e'`. -/
theorem C65_solutions (kp : ℝ) (hk : 0 ≤ kp) (e e' : ℝ → ℝ) (h1 : ∀ t, HasDerivAt e (e' t) t)
    (h2 : ∀ t, HasDerivAt e' (-kp * e t - 2 * Real.sqrt kp * e' t) t) (t : ℝ) :
    e t = (e 0 + (e' 0 + Real.sqrt kp * e 0) * t) * Real.exp (-Real.sqrt kp * t) := by
  set w := Real.sqrt kp with hw
  have hww : w * w = kp := Real.mul_self_sqrt hk
  have hexp : ∀ t, HasDerivAt (fun t => Real.exp (w * t)) (Real.exp (w * t) * w) t := by
    intro t
    have := ((hasDerivAt_id t).const_mul w).exp
    simpa using this
  have hg : ∀ t, HasDerivAt (fun t => (e' t + w * e t) * Real.exp (w * t)) 0 t := by
    intro t
    have := ((h2 t).fun_add ((h1 t).const_mul w)).fun_mul (hexp t)
    refine this.congr_deriv ?_
    rw [← hww]
    ring
  have hgc : ∀ t, (e' t + w * e t) * Real.exp (w * t) = e' 0 + w * e 0 := by
    intro t
    have := is_const_of_deriv_eq_zero (fun t => (hg t).differentiableAt) (fun t => (hg t).deriv) t 0
    simpa using this
  have hh : ∀ t, HasDerivAt (fun t => e t * Real.exp (w * t) - (e' 0 + w * e 0) * t) 0 t := by
    intro t
    have := ((h1 t).fun_mul (hexp t)).fun_sub ((hasDerivAt_id t).const_mul (e' 0 + w * e 0))
    refine this.congr_deriv ?_
    have := hgc t
    linear_combination this
  have hhc := is_const_of_deriv_eq_zero (fun t => (hh t).differentiableAt) (fun t => (hh t).deriv) t 0
  simp only [mul_zero, Real.exp_zero, mul_one, sub_zero] at hhc
  have he : Real.exp (w * t) * Real.exp (-w * t) = 1 := by
    rw [← Real.exp_add]; simp
  have hkey : e t * Real.exp (w * t) = e 0 + (e' 0 + w * e 0) * t := by linear_combination hhc
  calc e t = e t * (Real.exp (w * t) * Real.exp (-w * t)) := by rw [he, mul_one]
    _ = _ := by rw [← mul_assoc, hkey]

/-- These solutions converge to 0 when `kp > 0`. -/
theorem C65_converges (kp a b : ℝ) (hk : 0 < kp) :
    Filter.Tendsto (fun t : ℝ => (a + b * t) * Real.exp (-Real.sqrt kp * t)) Filter.atTop (nhds 0) := by
  have hw : 0 < Real.sqrt kp := Real.sqrt_pos.2 hk
  have hlin : Filter.Tendsto (fun t : ℝ => Real.sqrt kp * t) Filter.atTop Filter.atTop :=
    Filter.tendsto_id.const_mul_atTop hw
  have h0 := (Real.tendsto_pow_mul_exp_neg_atTop_nhds_zero 0).comp hlin
  have h1 := (Real.tendsto_pow_mul_exp_neg_atTop_nhds_zero 1).comp hlin
  have := (h0.const_mul a).add (h1.const_mul (b / Real.sqrt kp))
  simp only [mul_zero, add_zero] at this
  refine this.congr fun t => ?_
  simp only [Function.comp, pow_zero, pow_one, one_mul]
  rw [neg_mul]
  field_simp

/-- **C65**, joints task: for a joint whose last `set_joint` has a constant target, if the task is met along a motion with
the default `kd`, the error is `(a + b t) exp(-sqrt(kp) t)`. -/
theorem C65_joints (r : Robot ℝ) (hn : ∀ j ∈ r.joints, j.idxV < r.nv) (kp kd : ℝ) (hk : 0 ≤ kp) (hd : kd < 0)
    (calls : List (JointCall ℝ)) (s : ℝ → RState ℝ)
    (hmet : ∀ t, ∃ M, (jointsAfter kp kd calls).update Real.sqrt r (s t) = .ok M ∧ M.Met (s t).qdd)
    (name : String) (target : ℝ) (j : Joint) (hlast : lastCall name calls.reverse = some ⟨name, target, 0, 0⟩)
    (hj : r.joints.find? (fun j => j.name = name) = some j)
    (hq : ∀ t, HasDerivAt (fun t => (s t).q j.idxQ) ((s t).qd j.idxV) t)
    (hqd : ∀ t, HasDerivAt (fun t => (s t).qd j.idxV) ((s t).qdd j.idxV) t) :
    ∃ a b, ∀ t, target - (s t).q j.idxQ = (a + b * t) * Real.exp (-Real.sqrt kp * t) := by
  refine ⟨_, _, C65_solutions kp hk (fun t => target - (s t).q j.idxQ) (fun t => -(s t).qd j.idxV) (fun t => ?_) (fun t => ?_)⟩
  · simpa using (hq t).const_sub target
  · obtain ⟨M, hM, hm⟩ := hmet t
    have := (joints_met Real.sqrt r hn kp kd calls (s t) M hM (s t).qdd).1 hm name _ j hlast hj
    refine (hqd t).fun_neg.congr_deriv ?_
    rw [this]
    unfold getKd
    rw [if_pos hd]
    ring

/-- **C65**, gear task: if the row of a target is met along a motion with the default `kd`, the error
`q_target - Σ ratio q_source` is `(a + b t) exp(-sqrt(kp) t)`. -/
theorem C65_gear (r : Robot ℝ) (kp kd : ℝ) (hk : 0 ≤ kp) (hd : kd < 0) (g : Gears ℝ) (hg : g.WF) (s : ℝ → RState ℝ)
    (hmet : ∀ t, ∃ M, dynGearUpdate Real.sqrt r kp kd g (s t) = .ok M ∧ M.Met (s t).qdd)
    (target : Nat) (m : SMap Nat ℝ) (hm : (target, m) ∈ g) (ht : target < r.nv) (hb : ∀ p ∈ m, p.1 < r.nv)
    (hself : SMap.find? m target = none)
    (hq : ∀ i t, HasDerivAt (fun t => (s t).q (i + 1)) ((s t).qd i) t)
    (hqd : ∀ i t, HasDerivAt (fun t => (s t).qd i) ((s t).qdd i) t) :
    ∃ a b, ∀ t, (s t).q (target + 1) - ∑ k ∈ range r.nv, coef m k * (s t).q (k + 1) =
      (a + b * t) * Real.exp (-Real.sqrt kp * t) := by
  refine ⟨_, _, C65_solutions kp hk (fun t => (s t).q (target + 1) - ∑ k ∈ range r.nv, coef m k * (s t).q (k + 1))
    (fun t => (s t).qd target - ∑ k ∈ range r.nv, coef m k * (s t).qd k) (fun t => ?_) (fun t => ?_)⟩
  · exact (hq target t).sub (HasDerivAt.fun_sum fun k _ => (hq k t).const_mul _)
  · have hder : HasDerivAt (fun t => (s t).qd target - ∑ k ∈ range r.nv, coef m k * (s t).qd k)
        ((s t).qdd target - ∑ k ∈ range r.nv, coef m k * (s t).qdd k) t :=
      (hqd target t).sub (HasDerivAt.fun_sum fun k _ => (hqd k t).const_mul _)
    obtain ⟨M, hM, hmt⟩ := hmet t
    cases hM
    obtain ⟨i, hi, hgi⟩ := List.getElem_of_mem hm
    have hrow := hmt i hi
    unfold TaskMat.app at hrow
    simp only at hrow
    rw [show g.getD i (0, []) = (target, m) by simp [List.getD, hi, hgi]] at hrow
    have := (dyn_gear_row target r.nv ht m (hg.2 _ hm) hb hself kp _ (s t).q (s t).qd (s t).qdd).1 hrow
    refine hder.congr_deriv ?_
    rw [this]
    unfold getKd
    rw [if_pos hd]

end Verif.Dynamics
