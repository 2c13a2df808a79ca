/-
Property C164: repeated inverse kinematics on a joint target.
-/
import Verif.Kinematics.SolverProps
import Verif.Kinematics.TasksProps
import Mathlib.Algebra.Order.Archimedean.Basic
import Mathlib.Tactic.FieldSimp
import Mathlib.Data.List.GetD

namespace Verif.Kinematics
open Finset Verif.Problem

section
variable {K : Type} [Field K] [LinearOrder K] [IsStrictOrderedRing K]

/-! ## Specification -/

/-- The nearest point of `[lo, hi]`. -/
def clampTo (lo hi x : K) : K := max lo (min hi x)

/-- Where one step should bring a joint at `q` whose target is `t`: the fraction `γ` of the way to the target, but no faster than
`vmax` when velocities are limited, and inside `[lower, upper]` when positions are. -/
def nextPos (positions velocities : Bool) (lower upper vmax γ t q : K) : K :=
  let a := q + γ * (t - q)
  let a := if velocities then clampTo (q - vmax) (q + vmax) a else a
  if positions then clampTo lower upper a else a

/-! ## One coordinate of the minimiser -/

/-- The point of an interval nearest to `g`. -/
theorem clamp_unique (lo hi g d : K) (h1 : lo ≤ d) (h2 : d ≤ hi) (hmin : ∀ z, lo ≤ z → z ≤ hi → (d - g) ^ 2 ≤ (z - g) ^ 2) :
    d = clampTo lo hi g := by
  unfold clampTo
  have key : ∀ z, lo ≤ z → z ≤ hi → (z ≤ g → d ≤ z → d = z) ∧ (g ≤ z → z ≤ d → d = z) := by
    intro z hz1 hz2
    have hz := hmin z hz1 hz2
    constructor
    · intro h1 h2
      have : (d - z) ^ 2 ≤ 0 := by nlinarith [mul_nonneg (sub_nonneg.2 h1) (sub_nonneg.2 h2)]
      have := pow_eq_zero_iff (two_ne_zero) |>.1 (le_antisymm this (sq_nonneg _))
      linarith
    · intro h1 h2
      have : (d - z) ^ 2 ≤ 0 := by nlinarith [mul_nonneg (sub_nonneg.2 h1) (sub_nonneg.2 h2)]
      have := pow_eq_zero_iff (two_ne_zero) |>.1 (le_antisymm this (sq_nonneg _))
      linarith
  rcases le_total g lo with hg | hg
  · rw [min_eq_right (by linarith), max_eq_left hg]
    exact (key lo (le_refl _) (by linarith)).2 hg h1
  rcases le_total g hi with hg' | hg'
  · rw [min_eq_right hg', max_eq_right hg]
    have := hmin g hg hg'
    rw [sub_self] at this
    have := pow_eq_zero_iff (two_ne_zero) |>.1 (le_antisymm (by simpa using this) (sq_nonneg (d - g)))
    linarith
  · rw [min_eq_left hg', max_eq_right (by linarith)]
    exact (key hi (by linarith) (le_refl _)).1 hg' h2

theorem clamp_cases (lo hi x : K) (h : lo ≤ hi) : (x ≤ lo ∧ clampTo lo hi x = lo) ∨ (lo ≤ x ∧ x ≤ hi ∧ clampTo lo hi x = x) ∨
    (hi ≤ x ∧ clampTo lo hi x = hi) := by
  unfold clampTo
  rcases le_total x lo with e | e
  · exact .inl ⟨e, by rw [min_eq_right (by linarith), max_eq_left e]⟩
  rcases le_total x hi with f | f
  · exact .inr (.inl ⟨e, f, by rw [min_eq_right f, max_eq_right e]⟩)
  · exact .inr (.inr ⟨f, by rw [min_eq_left f, max_eq_right h]⟩)

theorem clamp_clamp (l1 h1 l2 h2 x p : K) (a : l1 ≤ p) (b : p ≤ h1) (c : l2 ≤ p) (d : p ≤ h2) :
    clampTo l2 h2 (clampTo l1 h1 x) = clampTo (max l1 l2) (min h1 h2) x := by
  have m1 := le_max_left l1 l2
  have m2 := le_max_right l1 l2
  have n1 := min_le_left h1 h2
  have n2 := min_le_right h1 h2
  have mp : max l1 l2 ≤ p := max_le a c
  have np : p ≤ min h1 h2 := le_min b d
  have mc := max_choice l1 l2
  have nc := min_choice h1 h2
  generalize max l1 l2 = M at *
  generalize min h1 h2 = N at *
  rcases clamp_cases l1 h1 x (by linarith) with ⟨e1, e⟩ | ⟨e1, e2, e⟩ | ⟨e1, e⟩ <;> rw [e] <;>
  rcases clamp_cases M N x (by linarith) with ⟨f1, f⟩ | ⟨f1, f2, f⟩ | ⟨f1, f⟩ <;> rw [f] <;>
  [rcases clamp_cases l2 h2 l1 (by linarith) with ⟨g1, g⟩ | ⟨g1, g2, g⟩ | ⟨g1, g⟩;
   rcases clamp_cases l2 h2 l1 (by linarith) with ⟨g1, g⟩ | ⟨g1, g2, g⟩ | ⟨g1, g⟩;
   rcases clamp_cases l2 h2 l1 (by linarith) with ⟨g1, g⟩ | ⟨g1, g2, g⟩ | ⟨g1, g⟩;
   rcases clamp_cases l2 h2 x (by linarith) with ⟨g1, g⟩ | ⟨g1, g2, g⟩ | ⟨g1, g⟩;
   rcases clamp_cases l2 h2 x (by linarith) with ⟨g1, g⟩ | ⟨g1, g2, g⟩ | ⟨g1, g⟩;
   rcases clamp_cases l2 h2 x (by linarith) with ⟨g1, g⟩ | ⟨g1, g2, g⟩ | ⟨g1, g⟩;
   rcases clamp_cases l2 h2 h1 (by linarith) with ⟨g1, g⟩ | ⟨g1, g2, g⟩ | ⟨g1, g⟩;
   rcases clamp_cases l2 h2 h1 (by linarith) with ⟨g1, g⟩ | ⟨g1, g2, g⟩ | ⟨g1, g⟩;
   rcases clamp_cases l2 h2 h1 (by linarith) with ⟨g1, g⟩ | ⟨g1, g2, g⟩ | ⟨g1, g⟩] <;> rw [g] <;>
  rcases mc with mc | mc <;> rcases nc with nc | nc <;> linarith

/-- The position of a box nearest to `g`, when the box is not empty. -/
theorem box_nearest (pos vel : Bool) (lower upper q vmax g p : K) (hp : pos = true → lower ≤ p ∧ p ≤ upper)
    (hv : vel = true → q - vmax ≤ p ∧ p ≤ q + vmax)
    (hmin : ∀ z, (pos = true → lower ≤ z ∧ z ≤ upper) → (vel = true → q - vmax ≤ z ∧ z ≤ q + vmax) → (p - g) ^ 2 ≤ (z - g) ^ 2) :
    p = (let a := if vel then clampTo (q - vmax) (q + vmax) g else g
      if pos then clampTo lower upper a else a) := by
  cases pos <;> cases vel <;> simp only [Bool.false_eq_true, if_false, if_true, false_implies, true_implies, forall_const] at *
  · have := hmin g
    rw [sub_self] at this
    have := pow_eq_zero_iff (two_ne_zero) |>.1 (le_antisymm (by simpa using this) (sq_nonneg (p - g)))
    linarith
  · exact clamp_unique _ _ _ _ hv.1 hv.2 fun z a b => hmin z ⟨a, b⟩
  · exact clamp_unique _ _ _ _ hp.1 hp.2 fun z a b => hmin z ⟨a, b⟩
  · rw [clamp_clamp _ _ _ _ _ p hv.1 hv.2 hp.1 hp.2]
    exact clamp_unique _ _ _ _ (max_le hv.1 hp.1) (le_min hv.2 hp.2) fun z a b =>
      hmin z ⟨le_trans (le_max_right _ _) a, le_trans b (min_le_right _ _)⟩ ⟨le_trans (le_max_left _ _) a, le_trans b (min_le_left _ _)⟩

/-! ## Changing one coordinate of a step -/

theorem app_update (M : TaskMat K) (x : Nat → K) (k : Nat) (z : K) (i : Nat) (h : k < M.cols → M.A i k = 0) :
    M.app (Function.update x k z) i = M.app x i := by
  unfold TaskMat.app
  refine Finset.sum_congr rfl fun j hj => ?_
  by_cases hjk : j = k
  · subst hjk
    rw [h (Finset.mem_range.1 hj), zero_mul, zero_mul]
  · rw [Function.update_of_ne hjk]

/-- The task never looks at the coordinate `k`. -/
def Task.Ignores (t : Task K) (k : Nat) : Prop := ∀ robot M, t.update robot = .ok M → ∀ i, i < M.rows → k < M.cols → M.A i k = 0

theorem ignores_cost {t : Task K} {k : Nat} (h : t.Ignores k) (robot : RState K) (x : Nat → K) (z : K) :
    taskCost robot t (Function.update x k z) = taskCost robot t x := by
  unfold taskCost
  split
  · rfl
  · rename_i M hM
    split
    · refine Finset.sum_congr rfl fun i hi => ?_
      rw [app_update M x k z i (h robot M hM i (Finset.mem_range.1 hi))]
    · rfl

theorem ignores_hard {t : Task K} {k : Nat} (h : t.Ignores k) (robot : RState K) (x : Nat → K) (z σ : K) (hx : TaskHard robot t x σ) :
    TaskHard robot t (Function.update x k z) σ := by
  intro M hM i hi
  rw [app_update M x k z i (h robot M hM i hi)]
  exact hx M hM i hi

theorem sum_sq_update (n : Nat) (x : Nat → K) (k : Nat) (hk : k < n) (z : K) :
    ∑ i ∈ range n, Function.update x k z i ^ 2 = (∑ i ∈ range n, x i ^ 2) - x k ^ 2 + z ^ 2 := by
  have hm : k ∈ range n := Finset.mem_range.2 hk
  rw [← Finset.add_sum_erase _ _ hm, ← Finset.add_sum_erase (range n) (fun i => x i ^ 2) hm, Function.update_self]
  have : ∑ i ∈ (range n).erase k, Function.update x k z i ^ 2 = ∑ i ∈ (range n).erase k, x i ^ 2 :=
    Finset.sum_congr rfl fun i hi => by rw [Function.update_of_ne (Finset.ne_of_mem_erase hi)]
  rw [this]
  ring

/-! ## The joints task -/

theorem mapM_getD {α β : Type} (f : α → Except Err β) : ∀ (l : List α) (l' : List β), l.mapM f = .ok l' →
    l'.length = l.length ∧ ∀ i (h : i < l.length) (h' : i < l'.length), f l[i] = .ok l'[i]
  | [], l', h => by cases h; exact ⟨rfl, fun i h => by simp at h⟩
  | a :: l, l', h => by
    rw [List.mapM_cons] at h
    cases ha : f a with
    | error e => rw [ha] at h; cases h
    | ok b =>
      rw [ha] at h
      cases hl : l.mapM f with
      | error e => rw [hl] at h; cases h
      | ok bs =>
        rw [hl] at h
        cases h
        obtain ⟨h1, h2⟩ := mapM_getD f l bs hl
        refine ⟨by simp [h1], fun i hi hi' => ?_⟩
        cases i with
        | zero => exact ha
        | succ i => exact h2 i (by simpa using hi) (by simpa using hi')

/-- Two joints do not start at the same velocity index. -/
theorem Robot.Layout.idxV_inj {r : Robot K} (hL : r.Layout) (hpos : ∀ j ∈ r.joints, 0 < j.nV) {a b : Joint} (ha : a ∈ r.joints)
    (hb : b ∈ r.joints) (h : a.idxV = b.idxV) : a = b := by
  obtain ⟨p, q, hpq⟩ := List.append_of_mem ha
  obtain ⟨p', q', hpq'⟩ := List.append_of_mem hb
  have h1 := (hL.idx p a q hpq).2
  have h2 := (hL.idx p' b q' hpq').2
  have hs : (p.map (·.nV)).sum = (p'.map (·.nV)).sum := by omega
  have ha' := hpos a ha
  have hb' := hpos b hb
  clear h1 h2 h
  rw [hpq] at hpq'
  clear hpos hL ha hb hpq
  induction p generalizing p' with
  | nil =>
    cases p' with
    | nil => simp only [List.nil_append, List.cons.injEq] at hpq'; exact hpq'.1
    | cons c p' =>
      simp only [List.nil_append, List.cons_append, List.cons.injEq] at hpq'
      rw [← hpq'.1] at hs
      simp only [List.map_nil, List.sum_nil, List.map_cons, List.sum_cons] at hs
      omega
  | cons c p ih =>
    cases p' with
    | nil =>
      simp only [List.nil_append, List.cons_append, List.cons.injEq] at hpq'
      rw [hpq'.1] at hs
      simp only [List.map_nil, List.sum_nil, List.map_cons, List.sum_cons] at hs
      omega
    | cons c' p' =>
      simp only [List.cons_append, List.cons.injEq] at hpq'
      refine ih p' hpq'.2 ?_
      simp only [List.map_cons, List.sum_cons, hpq'.1] at hs
      omega

/-- What the coordinate of a joint contributes to the cost of a joints task. -/
theorem joints_cost {r : Robot K} (hL : r.Layout) (hpos : ∀ j ∈ r.joints, 0 < j.nV) {m : SMap String K} (hm : (m.map (·.1)).Nodup)
    {j : Joint} {t : K} (hj : r.vJoint j.name = .ok j) (ht : (j.name, t) ∈ m) {task : Task K} (hu : task.update = jointsUpdate r m)
    (hsoft : task.priority = .soft) (robot : RState K) {M : TaskMat K} (hM : task.update robot = .ok M) (x : Nat → K) (z : K) :
    taskCost robot task (Function.update x j.idxV z) = taskCost robot task x
      - task.weight * (x j.idxV - (t - robot.q j.idxQ)) ^ 2 + task.weight * (z - (t - robot.q j.idxQ)) ^ 2 := by
  unfold taskCost
  rw [hM]
  simp only [hsoft, if_true]
  rw [hu] at hM
  unfold jointsUpdate at hM
  cases hr : m.mapM (jointsRow r robot) with
  | error e => rw [hr] at hM; cases hM
  | ok rows =>
    rw [hr] at hM
    cases hM
    simp only
    obtain ⟨hlen, hrow⟩ := mapM_getD _ m rows hr
    have happ : ∀ (y : Nat → K) i, i < rows.length → ∃ j', r.vJoint (m.getD i ("", 0)).1 = .ok j' ∧
        (rows.getD i (0, 0)) = (j'.idxV, (m.getD i ("", 0)).2 - robot.q j'.idxQ) ∧
        TaskMat.app ⟨rows.length, r.nv, fun k j => if j = (rows.getD k (0, 0)).1 then 1 else 0, fun k => (rows.getD k (0, 0)).2⟩ y i = y j'.idxV := by
      intro y i hi
      have hi' : i < m.length := by omega
      have := hrow i hi' hi
      unfold jointsRow at this
      rw [List.getD_eq_getElem _ _ hi']
      cases hv : r.vJoint m[i].1 with
      | error e => rw [hv] at this; cases this
      | ok j' =>
        rw [hv] at this
        have e : rows[i] = (j'.idxV, m[i].2 - robot.q j'.idxQ) := (Except.ok.inj this).symm
        refine ⟨j', rfl, by rw [List.getD_eq_getElem _ _ hi, e], ?_⟩
        unfold TaskMat.app
        simp only [List.getD_eq_getElem _ _ hi, e]
        have hlt : j'.idxV < r.nv := by
          have h1 := (vJoint_mem r _ j' hv).1
          have := hL.idxV_lt j' h1
          have := hpos j' h1
          omega
        rw [Finset.sum_eq_single j'.idxV]
        · rw [if_pos rfl, one_mul]
        · intro b _ hb
          rw [if_neg hb, zero_mul]
        · intro h
          exact absurd (Finset.mem_range.2 hlt) h
    obtain ⟨i0, hi0, he0⟩ := List.getElem_of_mem ht
    have hi0' : i0 < rows.length := by omega
    have hmem : i0 ∈ range rows.length := Finset.mem_range.2 hi0'
    rw [← Finset.add_sum_erase _ _ hmem, ← Finset.add_sum_erase (range rows.length) (fun i => task.weight *
      (TaskMat.app ⟨rows.length, r.nv, fun k j => if j = (rows.getD k (0, 0)).1 then 1 else 0, fun k => (rows.getD k (0, 0)).2⟩ x i
        - (rows.getD i (0, 0)).2) ^ 2) hmem]
    have h0 : ∀ y : Nat → K, TaskMat.app ⟨rows.length, r.nv, fun k j => if j = (rows.getD k (0, 0)).1 then 1 else 0,
        fun k => (rows.getD k (0, 0)).2⟩ y i0 = y j.idxV ∧ (rows.getD i0 (0, 0)).2 = t - robot.q j.idxQ := by
      intro y
      obtain ⟨j', h1, h2, h3⟩ := happ y i0 hi0'
      rw [List.getD_eq_getElem _ _ hi0, he0] at h1 h2
      rw [hj] at h1
      cases h1
      exact ⟨h3, by rw [h2]⟩
    rw [(h0 _).1, (h0 x).1, (h0 x).2, Function.update_self]
    have hrest : ∀ i ∈ (range rows.length).erase i0, task.weight *
        (TaskMat.app ⟨rows.length, r.nv, fun k j => if j = (rows.getD k (0, 0)).1 then 1 else 0, fun k => (rows.getD k (0, 0)).2⟩
          (Function.update x j.idxV z) i - (rows.getD i (0, 0)).2) ^ 2 = task.weight *
        (TaskMat.app ⟨rows.length, r.nv, fun k j => if j = (rows.getD k (0, 0)).1 then 1 else 0, fun k => (rows.getD k (0, 0)).2⟩
          x i - (rows.getD i (0, 0)).2) ^ 2 := by
      intro i hi
      have hir : i < rows.length := Finset.mem_range.1 (Finset.mem_of_mem_erase hi)
      have him : i < m.length := by omega
      obtain ⟨j', h1, -, h3⟩ := happ (Function.update x j.idxV z) i hir
      obtain ⟨j'', h1', -, h3'⟩ := happ x i hir
      rw [h1] at h1'
      cases h1'
      rw [h3, h3', Function.update_of_ne]
      intro hc
      have e := hL.idxV_inj hpos (vJoint_mem r _ _ h1).1 (vJoint_mem r _ _ hj).1 hc
      have e1 := (vJoint_mem r _ _ h1).2
      rw [e, List.getD_eq_getElem _ _ him] at e1
      have e2 : m[i].1 = m[i0].1 := by rw [← e1, he0]
      have := (List.Nodup.getElem_inj_iff hm (i := i) (hi := by simpa using him) (j := i0) (hj := by simpa using hi0)).1 (by simpa using e2)
      exact Finset.ne_of_mem_erase hi this
    rw [Finset.sum_congr rfl hrest]
    ring

/-! ## One step -/

/-- The setting of the property: a joint with one coordinate, followed by joints with as many positions as velocities, which is not
masked; the soft joints task `task` gives it the target `t`, and no other task looks at it. -/
structure Tracks (r : Robot K) (tasks : List (Task K)) (m : SMap String K) (task : Task K) (j : Joint) (t : K) : Prop where
  layout : r.Layout
  integrate : r.IntegrateOK
  size : ∀ j' ∈ r.joints, 0 < j'.nV ∧ j'.nV ≤ j'.nQ
  joint : r.vJoint j.name = .ok j
  simple : j.Simple
  after : ∃ pre post, r.joints = pre ++ j :: post ∧ ∀ j' ∈ post, j'.nQ = j'.nV
  update : task.update = jointsUpdate r m
  soft : task.priority = .soft
  nodup : (m.map (·.1)).Nodup
  target : (j.name, t) ∈ m
  others : ∃ pre post, tasks = pre ++ task :: post ∧ ∀ t' ∈ pre ++ post, t'.Ignores j.idxV
  fit : ∀ rs, ∀ t' ∈ tasks, ∀ M, t'.update rs = .ok M → 0 < M.cols ∧ M.cols ≤ r.nv

/-- One solve moves the joint as specified. -/
theorem track_step (env : QPEnv K) (hS : env.Sound) (hO : env.Optimal) (hreg : 0 < env.regularization) (r : Robot K)
    (tasks : List (Task K)) (m : SMap String K) (task : Task K) (j : Joint) (t : K) (T : Tracks r tasks m task j t)
    (hw : 0 ≤ task.weight) (s s' : KState K) (dq : Nat → K) (hv : VarsOK r.nv s.prob s.qdVar s.scaleVar) (hfree : j.idxV ∉ s.maskedDof)
    (h : solve env r tasks [] true s = (s', .ok dq)) :
    s'.robot.q j.idxQ = nextPos s.jointLimits s.velocityLimits (r.lower j.idxQ) (r.upper j.idxQ) (s.dt * r.vlim j.idxV)
      (task.weight / (task.weight + env.regularization)) t (s.robot.q j.idxQ) := by
  have hfit2 : TasksFit r.nv s.robot tasks := fun t ht M hM => (T.fit _ t ht M hM).2
  obtain ⟨hadm, hbest⟩ := C96 env hS hO hreg.le r T.layout (fun j hj => (T.size j hj).2) tasks true s s' dq hv (T.fit _) h
  obtain ⟨-, -, -, hA⟩ := solve_spec env r tasks [] true s s' _ hv hfit2 h
  obtain ⟨x, A⟩ := hA hS dq rfl
  obtain ⟨hjm, -⟩ := vJoint_mem r _ j T.joint
  obtain ⟨pre, post, hpp, hpost⟩ := T.after
  obtain ⟨hq, hvv⟩ := T.layout.idx pre j post hpp
  have hnq := T.layout.nq
  have hnv := T.layout.nv
  have hpq := sum_eq_of_forall post hpost
  have hple : (pre.map (·.nV)).sum ≤ (pre.map (·.nQ)).sum := sum_le_of_forall pre fun k hk => (T.size k (by rw [hpp]; simp [hk])).2
  have s1 := T.simple.1
  have s2 := T.simple.2
  rw [hpp] at hnq hnv
  simp only [List.map_append, List.map_cons, List.sum_append, List.sum_cons] at hnq hnv
  have hlt : j.idxV < r.nv := by omega
  have h6 : 6 ≤ j.idxV := by omega
  have hidx : r.nq - (r.nv - 6) + (j.idxV - 6) = j.idxQ := by omega
  have hidx2 : 6 + (j.idxV - 6) = j.idxV := by omega
  have hlt2 : j.idxV - 6 < r.nv - 6 := by omega
  have hmove : s'.robot.q j.idxQ = s.robot.q j.idxQ + dq j.idxV := by
    rw [A.robot]
    simp only [if_true]
    unfold applyStep
    simp only
    split <;> exact T.integrate j hjm s1 s2 _ _
  obtain ⟨tp, tq, htt, hign⟩ := T.others
  obtain ⟨M, hM⟩ := A.updates task (by rw [htt]; simp)
  rw [hmove]
  unfold nextPos
  simp only
  have hW : 0 < task.weight + env.regularization := by linarith
  refine box_nearest s.jointLimits s.velocityLimits _ _ _ _ _ _ (fun hp => ?_) (fun hp => ?_) fun z hz1 hz2 => ?_
  · have := hadm.joint hp _ hlt2
    rw [hidx, hidx2] at this
    exact ⟨this.2, this.1⟩
  · have := hadm.velocity hp _ hlt2
    rw [hidx2] at this
    constructor <;> linarith [this.1, this.2]
  · have hz : Admissible r tasks s s'.hasScaling (Function.update dq j.idxV (z - s.robot.q j.idxQ)) s'.scale := by
      constructor
      · intro t' ht'
        rw [htt] at ht'
        have hh := hadm.tasks t' (by rw [htt]; exact ht')
        rw [List.mem_append, List.mem_cons] at ht'
        by_cases hte : t' ∈ tp ++ tq
        · exact ignores_hard (hign t' hte) _ _ _ _ hh
        · have : t' = task := by
            rw [List.mem_append] at hte
            rcases ht' with h | h | h
            · exact absurd (Or.inl h) hte
            · exact h
            · exact absurd (Or.inr h) hte
          subst this
          intro M hM i hi
          rw [T.soft]
          exact ⟨fun h => (by cases h), fun h => (by cases h)⟩
      · exact hadm.scale
      · intro d hd
        rw [Function.update_of_ne (by rintro rfl; exact hfree hd)]
        exact hadm.masked d hd
      · intro hb k hk
        rw [Function.update_of_ne (by omega)]
        exact hadm.fbase hb k hk
      · intro hb i hi
        by_cases hik : 6 + i = j.idxV
        · have : i = j.idxV - 6 := by omega
          subst this
          rw [hidx, hidx2, Function.update_self]
          have := hz1 hb
          constructor <;> linarith [this.1, this.2]
        · rw [Function.update_of_ne hik]
          exact hadm.joint hb i hi
      · intro hb i hi
        by_cases hik : 6 + i = j.idxV
        · rw [hik, Function.update_self]
          have := hz2 hb
          constructor <;> linarith [this.1, this.2]
        · rw [Function.update_of_ne hik]
          exact hadm.velocity hb i hi
    have hle := hbest _ _ hz
    unfold ikCost at hle
    rw [sum_sq_update r.nv dq j.idxV hlt] at hle
    have hsum : (tasks.map fun t => taskCost s.robot t (Function.update dq j.idxV (z - s.robot.q j.idxQ))).sum =
        (tasks.map fun t => taskCost s.robot t dq).sum - task.weight * (dq j.idxV - (t - s.robot.q j.idxQ)) ^ 2
          + task.weight * (z - s.robot.q j.idxQ - (t - s.robot.q j.idxQ)) ^ 2 := by
      have e : ∀ l : List (Task K), (∀ t' ∈ l, t'.Ignores j.idxV) →
          (l.map fun t => taskCost s.robot t (Function.update dq j.idxV (z - s.robot.q j.idxQ))) = l.map fun t => taskCost s.robot t dq :=
        fun l hl => List.map_congr_left fun t' ht' => ignores_cost (hl t' ht') _ _ _
      rw [htt]
      simp only [List.map_append, List.map_cons, List.sum_append, List.sum_cons]
      rw [e tp fun t' h => hign t' (List.mem_append_left _ h), e tq fun t' h => hign t' (List.mem_append_right _ h),
        joints_cost T.layout (fun j hj => (T.size j hj).1) T.nodup T.joint T.target T.update T.soft s.robot hM]
      ring
    rw [hsum] at hle
    have hgoal : ∀ p : K, (task.weight + env.regularization) * (s.robot.q j.idxQ + p - (s.robot.q j.idxQ +
        task.weight / (task.weight + env.regularization) * (t - s.robot.q j.idxQ))) ^ 2 =
        env.regularization * p ^ 2 + task.weight * (p - (t - s.robot.q j.idxQ)) ^ 2 -
          task.weight * env.regularization / (task.weight + env.regularization) * (t - s.robot.q j.idxQ) ^ 2 := by
      intro p
      field_simp
      ring
    have g1 := hgoal (dq j.idxV)
    have g2 := hgoal (z - s.robot.q j.idxQ)
    have : (task.weight + env.regularization) * (s.robot.q j.idxQ + dq j.idxV - (s.robot.q j.idxQ +
        task.weight / (task.weight + env.regularization) * (t - s.robot.q j.idxQ))) ^ 2 ≤
        (task.weight + env.regularization) * (s.robot.q j.idxQ + (z - s.robot.q j.idxQ) - (s.robot.q j.idxQ +
        task.weight / (task.weight + env.regularization) * (t - s.robot.q j.idxQ))) ^ 2 := by
      rw [g1, g2]
      linarith
    have := le_of_mul_le_mul_left this hW
    rwa [add_sub_cancel] at this

/-! ## Repeated steps -/

/-- The state after `n` applied solves with the same tasks, as a program that calls `solve(true)` in a loop. -/
def iterSolve (env : QPEnv K) (r : Robot K) (tasks : List (Task K)) (n : Nat) (s : KState K) : KState K :=
  (fun s => (solve env r tasks [] true s).1)^[n] s

/-- The first `n` solves succeed. -/
def AllSolved (env : QPEnv K) (r : Robot K) (tasks : List (Task K)) (n : Nat) (s : KState K) : Prop :=
  ∀ k, k < n → ∃ dq, (solve env r tasks [] true (iterSolve env r tasks k s)).2 = .ok dq

theorem iter_config (env : QPEnv K) (r : Robot K) (tasks : List (Task K)) (hfit : ∀ rs, TasksFit r.nv rs tasks) (s : KState K)
    (hv : VarsOK r.nv s.prob s.qdVar s.scaleVar) (n : Nat) :
    VarsOK r.nv (iterSolve env r tasks n s).prob (iterSolve env r tasks n s).qdVar (iterSolve env r tasks n s).scaleVar ∧
      SameConfig s (iterSolve env r tasks n s) := by
  induction n with
  | zero => exact ⟨hv, ⟨rfl, rfl, rfl, rfl, rfl⟩⟩
  | succ n ih =>
    unfold iterSolve at ih ⊢
    rw [Function.iterate_succ_apply']
    obtain ⟨h1, h2, -⟩ := solve_spec' env r tasks [] true _ ih.1 (hfit _)
    exact ⟨h1, ⟨h2.1.trans ih.2.1, h2.2.trans ih.2.2, h2.3.trans ih.2.3, h2.4.trans ih.2.4, h2.5.trans ih.2.5⟩⟩

/-- **C164.** A joint with a soft target which no other task looks at follows the specified path, for any number of solves, whatever
the other tasks do. -/
theorem C164 (env : QPEnv K) (hS : env.Sound) (hO : env.Optimal) (hreg : 0 < env.regularization) (r : Robot K)
    (tasks : List (Task K)) (m : SMap String K) (task : Task K) (j : Joint) (t : K) (T : Tracks r tasks m task j t)
    (hw : 0 ≤ task.weight) (s : KState K) (hv : VarsOK r.nv s.prob s.qdVar s.scaleVar) (hfree : j.idxV ∉ s.maskedDof)
    (n : Nat) (h : AllSolved env r tasks n s) :
    (iterSolve env r tasks n s).robot.q j.idxQ =
      (nextPos s.jointLimits s.velocityLimits (r.lower j.idxQ) (r.upper j.idxQ) (s.dt * r.vlim j.idxV)
        (task.weight / (task.weight + env.regularization)) t)^[n] (s.robot.q j.idxQ) := by
  induction n with
  | zero => rfl
  | succ n ih =>
    have ih := ih fun k hk => h k (by omega)
    obtain ⟨hv', hc⟩ := iter_config env r tasks (fun rs t ht M hM => (T.fit rs t ht M hM).2) s hv n
    obtain ⟨dq, hdq⟩ := h n (Nat.lt_succ_self n)
    rw [Function.iterate_succ_apply', ← ih, ← hc.jointLimits, ← hc.velocityLimits, ← hc.dt]
    have := track_step env hS hO hreg r tasks m task j t T hw _ _ dq hv' (by rw [hc.maskedDof]; exact hfree)
      (Prod.ext rfl hdq)
    rw [← this]
    unfold iterSolve
    rw [Function.iterate_succ_apply']

/-! ## Consequences -/

theorem clamp_near (lo hi t x : K) (h1 : lo ≤ t) (h2 : t ≤ hi) : |clampTo lo hi x - t| ≤ |x - t| := by
  rcases clamp_cases lo hi x (le_trans h1 h2) with ⟨a, e⟩ | ⟨-, -, e⟩ | ⟨a, e⟩ <;> rw [e]
  · rw [abs_of_nonpos (by linarith), abs_of_nonpos (by linarith)]; linarith
  · rw [abs_of_nonneg (by linarith), abs_of_nonneg (by linarith)]; linarith

/-- A step reduces the error by its fraction `γ`, or by the velocity limit. -/
theorem nextPos_error (pos vel : Bool) (lower upper vmax γ t q : K) (hγ : 0 ≤ γ) (hγ1 : γ ≤ 1)
    (ht : pos = true → lower ≤ t ∧ t ≤ upper) (hv : vel = true → 0 ≤ vmax) :
    |nextPos pos vel lower upper vmax γ t q - t| ≤ (if vel then max ((1 - γ) * |q - t|) (|q - t| - vmax) else (1 - γ) * |q - t|) := by
  have h1 : ∀ a : K, |(if pos then clampTo lower upper a else a) - t| ≤ |a - t| := by
    intro a
    cases pos
    · exact le_refl _
    · exact clamp_near _ _ _ _ (ht rfl).1 (ht rfl).2
  have hg : |q + γ * (t - q) - t| = (1 - γ) * |q - t| := by
    rw [show q + γ * (t - q) - t = (1 - γ) * (q - t) by ring, abs_mul, abs_of_nonneg (by linarith)]
  unfold nextPos
  simp only
  refine le_trans (h1 _) ?_
  cases vel
  · simp only [Bool.false_eq_true, if_false]
    rw [hg]
  · simp only [if_true]
    have hv := hv rfl
    rcases clamp_cases (q - vmax) (q + vmax) (q + γ * (t - q)) (by linarith) with ⟨a, e⟩ | ⟨-, -, e⟩ | ⟨a, e⟩ <;> rw [e]
    · refine le_trans ?_ (le_max_right _ _)
      by_cases hqt : 0 ≤ q - t
      swap
      · have : vmax = 0 := by
          have hc := not_le.1 hqt
          have := mul_nonneg hγ (by linarith : (0 : K) ≤ t - q)
          linarith
        rw [this, sub_zero, sub_zero]
      have h3 : vmax ≤ q - t := by nlinarith [mul_nonneg (by linarith : (0 : K) ≤ 1 - γ) hqt]
      rw [abs_of_nonneg hqt, abs_of_nonneg (by linarith)]
      linarith
    · rw [hg]
      exact le_max_left _ _
    · refine le_trans ?_ (le_max_right _ _)
      by_cases hqt : 0 ≤ t - q
      swap
      · have : vmax = 0 := by
          have hc := not_le.1 hqt
          have := mul_nonneg hγ (by linarith : (0 : K) ≤ q - t)
          linarith
        rw [this, add_zero, sub_zero]
      have h3 : vmax ≤ t - q := by nlinarith [mul_nonneg (by linarith : (0 : K) ≤ 1 - γ) hqt]
      rw [abs_of_nonpos (by linarith : q - t ≤ 0), abs_of_nonpos (by linarith)]
      linarith

/-- **C164 (rate).** Without velocity limits, from a position and with a target inside the limits, the error after `n` solves is exactly
`(λ / (λ + w))ⁿ` times the initial one, `λ` being the regularisation. -/
theorem C164_rate (env : QPEnv K) (hS : env.Sound) (hO : env.Optimal) (hreg : 0 < env.regularization) (r : Robot K)
    (tasks : List (Task K)) (m : SMap String K) (task : Task K) (j : Joint) (t : K) (T : Tracks r tasks m task j t)
    (hw : 0 ≤ task.weight) (s : KState K) (hv : VarsOK r.nv s.prob s.qdVar s.scaleVar) (hfree : j.idxV ∉ s.maskedDof)
    (hvel : s.velocityLimits = false) (hin : s.jointLimits = true → r.InLimits j s.robot.q)
    (ht : s.jointLimits = true → r.lower j.idxQ ≤ t ∧ t ≤ r.upper j.idxQ) (n : Nat) (h : AllSolved env r tasks n s) :
    (iterSolve env r tasks n s).robot.q j.idxQ - t =
      (env.regularization / (env.regularization + task.weight)) ^ n * (s.robot.q j.idxQ - t) := by
  rw [C164 env hS hO hreg r tasks m task j t T hw s hv hfree n h, hvel]
  clear h
  have hW : 0 < task.weight + env.regularization := by linarith
  have hγ0 : 0 ≤ task.weight / (task.weight + env.regularization) := div_nonneg hw hW.le
  have hγ1 : task.weight / (task.weight + env.regularization) ≤ 1 := (div_le_one hW).2 (by linarith)
  have hγ : env.regularization / (env.regularization + task.weight) = 1 - task.weight / (task.weight + env.regularization) := by
    rw [add_comm env.regularization]; field_simp; ring
  rw [hγ]
  generalize task.weight / (task.weight + env.regularization) = γ at hγ0 hγ1
  have key : ∀ n, ((nextPos s.jointLimits false (r.lower j.idxQ) (r.upper j.idxQ) (s.dt * r.vlim j.idxV) γ t)^[n] (s.robot.q j.idxQ) - t =
      (1 - γ) ^ n * (s.robot.q j.idxQ - t)) ∧ (s.jointLimits = true → r.lower j.idxQ ≤
        (nextPos s.jointLimits false (r.lower j.idxQ) (r.upper j.idxQ) (s.dt * r.vlim j.idxV) γ t)^[n] (s.robot.q j.idxQ) ∧
        (nextPos s.jointLimits false (r.lower j.idxQ) (r.upper j.idxQ) (s.dt * r.vlim j.idxV) γ t)^[n] (s.robot.q j.idxQ) ≤ r.upper j.idxQ) := by
    intro n
    induction n with
    | zero => exact ⟨by simp, fun hl => hin hl⟩
    | succ n ih =>
      rw [Function.iterate_succ_apply']
      generalize (nextPos s.jointLimits false (r.lower j.idxQ) (r.upper j.idxQ) (s.dt * r.vlim j.idxV) γ t)^[n] (s.robot.q j.idxQ) = p at ih ⊢
      obtain ⟨e, hp⟩ := ih
      have hb : s.jointLimits = true → r.lower j.idxQ ≤ p + γ * (t - p) ∧ p + γ * (t - p) ≤ r.upper j.idxQ := by
        intro hl
        obtain ⟨a1, a2⟩ := hp hl
        obtain ⟨b1, b2⟩ := ht hl
        constructor
        · nlinarith [mul_nonneg (by linarith : (0 : K) ≤ 1 - γ) (sub_nonneg.2 a1), mul_nonneg hγ0 (sub_nonneg.2 b1)]
        · nlinarith [mul_nonneg (by linarith : (0 : K) ≤ 1 - γ) (sub_nonneg.2 a2), mul_nonneg hγ0 (sub_nonneg.2 b2)]
      have hn : nextPos s.jointLimits false (r.lower j.idxQ) (r.upper j.idxQ) (s.dt * r.vlim j.idxV) γ t p = p + γ * (t - p) := by
        unfold nextPos
        simp only [Bool.false_eq_true, if_false]
        by_cases hl : s.jointLimits = true
        · rw [if_pos hl]
          unfold clampTo
          rw [min_eq_right (hb hl).2, max_eq_right (hb hl).1]
        · rw [if_neg hl]
      rw [hn]
      refine ⟨?_, hb⟩
      have : p + γ * (t - p) - t = (1 - γ) * (p - t) := by ring
      rw [this, e, pow_succ]
      ring
  exact (key n).1

/-- **C164 (convergence).** With a positive weight, a target inside the limits and a positive velocity limit, the joint gets and stays as
close to its target as wanted, and it never moves away from it. -/
theorem C164_converges [Archimedean K] (env : QPEnv K) (hS : env.Sound) (hO : env.Optimal) (hreg : 0 < env.regularization) (r : Robot K)
    (tasks : List (Task K)) (m : SMap String K) (task : Task K) (j : Joint) (t : K) (T : Tracks r tasks m task j t)
    (hw : 0 < task.weight) (s : KState K) (hv : VarsOK r.nv s.prob s.qdVar s.scaleVar) (hfree : j.idxV ∉ s.maskedDof)
    (ht : s.jointLimits = true → r.lower j.idxQ ≤ t ∧ t ≤ r.upper j.idxQ)
    (hvel : s.velocityLimits = true → 0 < s.dt * r.vlim j.idxV) (h : ∀ n, AllSolved env r tasks n s) :
    (∀ n, |(iterSolve env r tasks (n + 1) s).robot.q j.idxQ - t| ≤ |(iterSolve env r tasks n s).robot.q j.idxQ - t|) ∧
    ∀ ε, 0 < ε → ∃ N, ∀ n, N ≤ n → |(iterSolve env r tasks n s).robot.q j.idxQ - t| < ε := by
  have hpath := fun n => C164 env hS hO hreg r tasks m task j t T hw.le s hv hfree n (h n)
  have hW : 0 < task.weight + env.regularization := by linarith
  have hγ0 : 0 < task.weight / (task.weight + env.regularization) := div_pos hw hW
  have hγ1 : task.weight / (task.weight + env.regularization) ≤ 1 := (div_le_one hW).2 (by linarith)
  simp only [hpath]
  clear hpath
  generalize task.weight / (task.weight + env.regularization) = γ at hγ0 hγ1
  generalize s.dt * r.vlim j.idxV = vmax at hvel
  generalize s.robot.q j.idxQ = q0
  have hstep : ∀ n, |(nextPos s.jointLimits s.velocityLimits (r.lower j.idxQ) (r.upper j.idxQ) vmax γ t)^[n + 1] q0 - t| ≤
      (if s.velocityLimits then max ((1 - γ) * |(nextPos s.jointLimits s.velocityLimits (r.lower j.idxQ) (r.upper j.idxQ) vmax γ t)^[n] q0 - t|)
        (|(nextPos s.jointLimits s.velocityLimits (r.lower j.idxQ) (r.upper j.idxQ) vmax γ t)^[n] q0 - t| - vmax)
       else (1 - γ) * |(nextPos s.jointLimits s.velocityLimits (r.lower j.idxQ) (r.upper j.idxQ) vmax γ t)^[n] q0 - t|) := by
    intro n
    rw [Function.iterate_succ_apply']
    exact nextPos_error _ _ _ _ _ _ _ _ hγ0.le hγ1 ht fun hb => (hvel hb).le
  generalize hE : (fun n => |(nextPos s.jointLimits s.velocityLimits (r.lower j.idxQ) (r.upper j.idxQ) vmax γ t)^[n] q0 - t|) = E
  have hE' : ∀ n, |(nextPos s.jointLimits s.velocityLimits (r.lower j.idxQ) (r.upper j.idxQ) vmax γ t)^[n] q0 - t| = E n := fun n => by rw [← hE]
  simp only [hE'] at hstep ⊢
  have hE0 : ∀ n, 0 ≤ E n := fun n => by rw [← hE]; exact abs_nonneg _
  have hmono : ∀ n, E (n + 1) ≤ E n := by
    intro n
    refine le_trans (hstep n) ?_
    have := mul_nonneg hγ0.le (hE0 n)
    split
    · rename_i hb
      exact max_le (by linarith) (by linarith [hvel hb])
    · linarith
  refine ⟨hmono, fun ε hε => ?_⟩
  have hanti : Antitone E := antitone_nat_of_succ_le hmono
  obtain ⟨δ, hδ, hdec⟩ : ∃ δ, 0 < δ ∧ ∀ n, ε ≤ E n → E (n + 1) ≤ E n - δ := by
    by_cases hb : s.velocityLimits = true
    · refine ⟨min (γ * ε) vmax, lt_min (mul_pos hγ0 hε) (hvel hb), fun n hn => le_trans (hstep n) ?_⟩
      rw [if_pos hb]
      have h1 := min_le_left (γ * ε) vmax
      have h2 := min_le_right (γ * ε) vmax
      have h3 := mul_le_mul_of_nonneg_left hn hγ0.le
      exact max_le (by linarith) (by linarith)
    · refine ⟨γ * ε, mul_pos hγ0 hε, fun n hn => le_trans (hstep n) ?_⟩
      rw [if_neg hb]
      have h3 := mul_le_mul_of_nonneg_left hn hγ0.le
      linarith
  obtain ⟨N, hN⟩ := exists_nat_gt (E 0 / δ)
  have hfin : ∃ n, E n < ε := by
    by_contra hc
    simp only [not_exists, not_lt] at hc
    have : ∀ n : Nat, E n ≤ E 0 - n * δ := by
      intro n
      induction n with
      | zero => simp
      | succ n ih =>
        have := hdec n (hc n)
        push_cast
        linarith
    have h1 := this N
    have h2 := hE0 N
    rw [div_lt_iff₀ hδ] at hN
    linarith
  obtain ⟨n, hn⟩ := hfin
  exact ⟨n, fun k hk => lt_of_le_of_lt (hanti hk) hn⟩

end
end Verif.Kinematics
