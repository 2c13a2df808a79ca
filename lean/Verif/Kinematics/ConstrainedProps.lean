/-
Property C180: inverse kinematics with constraints. A solve succeeds exactly when a step meets the hard tasks and the hard constraints;
soft constraints never prevent it.
-/
import Verif.Kinematics.TotalProps
import Verif.Kinematics.ConstraintsProps3
import Verif.Kinematics.ExactProps

namespace Verif.Kinematics
open Finset Verif.Problem Verif.Tools

theorem mapM_of_forall₂ {sc : KState ℝ} {cons : List (KConstraint ℝ)} {ls : List (List (Constr ℝ))}
    (h : List.Forall₂ (fun k l => k.add sc = .ok l) cons ls) : cons.mapM (fun c => c.add sc) = .ok ls := by
  induction h with
  | nil => rfl
  | cons a _ ih => simp only [List.mapM_cons, a, ih, bind, Except.bind, pure, Except.pure]

theorem hardSat_flatten (ls : List (List (Constr ℝ))) (x : Nat → ℝ) : HardSat ls.flatten x ↔ ∀ l ∈ ls, HardSat l x := by
  unfold HardSat
  constructor
  · intro h l hl c hc
    exact h c (List.mem_flatten.2 ⟨l, hl, hc⟩)
  · intro h c hc
    obtain ⟨l, hl, hc⟩ := List.mem_flatten.1 hc
    exact h l hl c hc

/-- C180 for any constraints that add inequalities: `ls` is what they add from the robot and the settings of `s`. -/
theorem solve_constrained (env : QPEnv ℝ) (r : Robot ℝ) (hL : r.Layout) (hsize : ∀ j ∈ r.joints, j.nV ≤ j.nQ) (hn : 6 < r.nv)
    (tasks : List (Task ℝ)) (cons : List (KConstraint ℝ)) (ls : List (List (Constr ℝ))) (apply : Bool) (s : KState ℝ)
    (hv : VarsOK r.nv s.prob s.qdVar s.scaleVar)
    (hupd : ∀ t ∈ tasks, ∃ M, t.update s.robot = .ok M ∧ 0 < M.cols ∧ M.cols ≤ r.nv)
    (hw : ∀ t ∈ tasks, t.priority = .soft → 0 ≤ t.weight) (hreg : 0 < env.regularization) (htol : 0 ≤ env.tol)
    (hex : env.Exact) (hmask : s.maskedDof.Nodup ∧ ∀ d ∈ s.maskedDof, d < r.nv)
    (hdt : ¬ (s.velocityLimits = true ∧ s.dt = 0))
    (hadd : ∀ sc, sc.robot = s.robot → SameConfig s sc → List.Forall₂ (fun k l => k.add sc = .ok l) cons ls)
    (hls : ∀ l ∈ ls, ∀ c ∈ l, SizedFor r.nv c ∧ c.ty = .inequality ∧ (c.priority = .soft → 0 < c.weight))
    (hre : env.rewriteEqualities = true ∨ ∀ l ∈ ls, ∀ c ∈ l, c.priority = .hard) :
    ((∃ dq, (solve env r tasks cons apply s).2 = .ok dq) ↔
      (∃ y σ, Admissible r tasks s true y σ ∧ ∀ l ∈ ls, HardSat l y) ∧
        (env.rewriteEqualities = true → HardFree s.robot tasks s.maskedDof s.maskedFbase)) ∧
    (¬ ((∃ y σ, Admissible r tasks s true y σ ∧ ∀ l ∈ ls, HardSat l y) ∧
        (env.rewriteEqualities = true → HardFree s.robot tasks s.maskedDof s.maskedFbase)) →
      (solve env r tasks cons apply s).2 = .error .qpError) := by
  have hqv : r.nv - 6 ≤ r.nq := by have := sum_le_of_forall r.joints hsize; have := hL.nq; have := hL.nv; omega
  have hfit : ∀ t ∈ tasks, ∀ M, t.update s.robot = .ok M → 0 < M.cols ∧ M.cols ≤ r.nv := by
    intro t ht M hM
    obtain ⟨M', hM', h⟩ := hupd t ht
    rw [hM] at hM'
    cases hM'
    exact h
  obtain ⟨hv1, hq1⟩ := ensureQd_vars r s hv
  have hrobot : (ensureQd r s).robot = s.robot := by unfold ensureQd; split <;> rfl
  have hcfg : SameConfig s (ensureQd r s) := by unfold ensureQd; split <;> exact ⟨rfl, rfl, rfl, rfl, rfl⟩
  have hqd : (ensureQd r s).qdVar = some 0 := hq1
  unfold solve
  simp only
  generalize ensureQd r s = s1 at *
  obtain ⟨st, l, a1, a2, a3, a4, a5, a6, a7⟩ := runTasks_total r.nv s.robot tasks ⟨s1.prob, s1.scaleVar, false, []⟩ ⟨hv1, fun h => by cases h⟩ hupd
  obtain ⟨-, -, hok⟩ := runTasks_spec r.nv s.robot tasks ⟨s1.prob, s1.scaleVar, false, []⟩ ⟨hv1, fun h => by cases h⟩
    (fun t ht M hM => (hfit t ht M hM).2) st none a1
  obtain ⟨-, hsc, hmean⟩ := hok rfl
  have hmean := hmean fun t ht M hM => (hfit t ht M hM).1
  simp only [List.nil_append] at a3
  rw [hrobot, a1]
  simp only
  have hvar : varAt st.prob 0 = ⟨0, r.nv⟩ := varAt_qd r.nv st.prob st.scaleVar a2.1
  have hnle : r.nv ≤ st.prob.1 := by
    rcases a2.1 with ⟨h, -⟩ | ⟨-, -, h, -⟩ | ⟨-, -, h, -⟩
    · cases h
    · omega
    · omega
  unfold afterTasks
  simp only [hqd, Option.getD_some, hvar]
  generalize hs2 : ({ s1 with robot := s.robot, prob := st.prob, qdVar := some 0, scaleVar := st.scaleVar, hasScaling := st.hasScaling } : KState ℝ) = s2
  have c1 : s2.maskedDof = s.maskedDof := by rw [← hs2]; exact hcfg.1
  have c2 : s2.maskedFbase = s.maskedFbase := by rw [← hs2]; exact hcfg.2
  have c3 : s2.jointLimits = s.jointLimits := by rw [← hs2]; exact hcfg.3
  have c4 : s2.velocityLimits = s.velocityLimits := by rw [← hs2]; exact hcfg.4
  have c5 : s2.dt = s.dt := by rw [← hs2]; exact hcfg.5
  have c6 : s2.robot = s.robot := by rw [← hs2]
  have c7 : s2.prob = st.prob := by rw [← hs2]
  clear hs2
  obtain ⟨m, hm⟩ := C45_total r.nv s2 (by rw [c1]; exact hmask.2) (fun _ => by omega)
  obtain ⟨lim, hlim, lim2⟩ := limits_total r s2 hn hqv (by rw [c4, c5]; exact hdt)
  obtain ⟨-, -, -, m4⟩ := mask_spec r.nv s2 m hm
  obtain ⟨mr1, mr2, mr3⟩ := mask_rhs r.nv s2 m hm
  obtain ⟨-, l2, l3⟩ := limits_spec r s2 lim hlim hqv
  rw [c1, c2] at m4
  rw [c1, c2] at mr2 mr3
  simp only [c3, c4, c5, c6] at l3
  set user := ls.flatten with huser
  have hls' : ∀ c ∈ user, SizedFor r.nv c ∧ c.ty = .inequality ∧ (c.priority = .soft → 0 < c.weight) := by
    intro c hc
    rw [huser] at hc
    obtain ⟨l', hl', hc⟩ := List.mem_flatten.1 hc
    exact hls l' hl' c hc
  have hoth : otherConstraints r cons s2 ⟨0, r.nv⟩ = .ok (m ++ (lim ++ user)) := by
    unfold otherConstraints
    rw [hm, hlim]
    have := mapM_of_forall₂ (hadd s2 c6 ⟨c1, c2, c3, c4, c5⟩)
    simp only [bind, Except.bind, this, pure, Except.pure]
    rw [List.append_assoc]
  rw [hoth]
  simp only
  have hsized : ∀ c ∈ st.cs ++ (m ++ (lim ++ user)), SizedFor st.prob.1 c := by
    intro c hc
    simp only [List.mem_append] at hc
    rcases hc with hc | hc | hc | hc
    · exact (a5 c (a3 ▸ hc)).1
    · exact (mr1 c hc).1.mono hnle
    · exact (lim2 c hc).1.mono hnle
    · exact (hls' c hc).1.mono hnle
  have hsoft : ∀ c ∈ st.cs ++ (m ++ lim), c.softIneq = false := by
    intro c hc
    simp only [List.mem_append] at hc
    rcases hc with hc | hc | hc
    · exact (a5 c (a3 ▸ hc)).2.1
    · simp [Constr.softIneq, (mr1 c hc).2.1]
    · simp [Constr.softIneq, l2 c hc]
  have hweights' : ∀ c ∈ st.cs ++ (m ++ (lim ++ user)), c.softIneq = true → 0 < c.weight := by
    intro c hc hs
    by_cases hu : c ∈ user
    · exact (hls' c hu).2.2 (by simp [Constr.softIneq] at hs; exact hs.2)
    · rw [hsoft c (by simp only [List.mem_append] at hc ⊢; rcases hc with h | h | h | h; exacts [.inl h, .inr (.inl h), .inr (.inr h), absurd h hu])] at hs
      cases hs
  have hweights : ∀ c ∈ st.cs ++ (m ++ (lim ++ user)), c.softEq = true → 0 ≤ c.weight := by
    intro c hc hs
    simp only [List.mem_append] at hc
    rcases hc with hc | hc | hc | hc
    · rcases (a5 c (a3 ▸ hc)).2.2 hs with h | ⟨t, ht, h1, h2⟩
      · rw [h]; exact zero_le_one
      · rw [h2]; exact hw t ht h1
    · simp [Constr.softEq, (mr1 c hc).2.2] at hs
    · simp [Constr.softEq, l2 c hc] at hs
    · simp [Constr.softEq, (hls' c hc).2.1] at hs
  have hrank : HardFree s.robot tasks s.maskedDof s.maskedFbase → (env.qr (nEqualities (st.cs ++ (m ++ (lim ++ user)))) (equalities (st.cs ++ (m ++ (lim ++ user))))).rank =
      nEqualities (st.cs ++ (m ++ (lim ++ user))) := by
    intro hfree
    refine (hex.1.equalities (sized_defined _ _ hsized)).full (indep_of_free st.prob.1 _ hsized fun ps hps => ?_)
    obtain ⟨p1, p2, rfl, hp1, hp2⟩ := List.map_eq_append_iff.1 hps
    obtain ⟨p3, p4, rfl, hp3, hp4⟩ := List.map_eq_append_iff.1 hp2
    obtain ⟨rs, hrs, hrx⟩ := a6 p1 (hp1.trans a3)
    obtain ⟨u, u', hu⟩ := mr2 hmask.1 p3 hp3
    obtain ⟨y, σ, y1, y2, y3⟩ := hfree rs u u' hrs
    let x : Nat → ℝ := fun k => if k < r.nv then y k else σ
    have hx : ∀ k, k < r.nv → x k = y k := fun k hk => by simp [x, hk]
    have hxn : x r.nv = σ := by simp [x]
    refine ⟨x, fun p hp hh i hi => ?_⟩
    simp only [List.mem_append] at hp
    rcases hp with hp | hp | hp
    · refine hrx x (fun q hq => ?_) p hp hh i hi
      rw [hxn]
      have hqt : q.1 ∈ tasks := by rw [← hrs]; exact List.mem_map.2 ⟨q, hq, rfl⟩
      exact taskRhs_congr r.nv s.robot q.1 (fun M hM => (hfit q.1 hqt M hM).2) q.2 x y σ hx (y1 q hq)
    · refine hu x (fun d hd => ?_) (fun hb k hk => ?_) p hp hh i hi
      · rw [hx d (hmask.2 d hd)]; exact y2 d hd
      · rw [hx k (by omega)]; exact y3 hb k hk
    · have hin : p.1 ∈ lim ++ user := by rw [← hp4]; exact List.mem_map.2 ⟨p, hp, rfl⟩
      have : p.1.ty = .inequality := by
        rcases List.mem_append.1 hin with h | h
        · exact (lim2 _ h).2
        · exact (hls' _ h).2.1
      simp [Constr.hardEq, this] at hh
  have hback : (env.qr (nEqualities (st.cs ++ (m ++ (lim ++ user)))) (equalities (st.cs ++ (m ++ (lim ++ user))))).rank =
      nEqualities (st.cs ++ (m ++ (lim ++ user))) → HardFree s.robot tasks s.maskedDof s.maskedFbase := by
    intro hr rs u u' hrs
    have hi := (hex.1.equalities (sized_defined _ _ hsized)).qr.indep hr
    obtain ⟨p1, hp1, hx1⟩ := a7 rs hrs
    obtain ⟨p2, hp2, hx2⟩ := mr3 u u'
    obtain ⟨x, hx⟩ := free_of_indep st.prob.1 _ hsized hi (p1 ++ (p2 ++ (lim ++ user).map fun c => (c, fun _ => 0))) (by
      simp [hp1, hp2, ← a3, Function.comp_def])
    obtain ⟨y1, y2⟩ := hx2 x fun p hp => hx p (by simp [hp])
    exact ⟨x, x r.nv, fun q hq => hx1 x (fun p hp => hx p (by simp [hp])) q hq, y1, y2⟩
  have hpos : ¬ (env.qr (nEqualities (st.cs ++ (m ++ (lim ++ user)))) (equalities (st.cs ++ (m ++ (lim ++ user))))).rank = nEqualities (st.cs ++ (m ++ (lim ++ user))) →
      0 < nEqualities (st.cs ++ (m ++ (lim ++ user))) := by
    intro hnr
    by_contra h0
    have h0 : nEqualities (st.cs ++ (m ++ (lim ++ user))) = 0 := by omega
    exact hnr ((hex.1.equalities (sized_defined _ _ hsized)).full fun w _ i hi => by omega)
  by_cases hfree : env.rewriteEqualities = true → HardFree s.robot tasks s.maskedDof s.maskedFbase
  swap
  · have hre : env.rewriteEqualities = true := by
      by_contra h
      exact hfree fun h' => absurd h' h
    have hnr : ¬ (env.qr (nEqualities (st.cs ++ (m ++ (lim ++ user)))) (equalities (st.cs ++ (m ++ (lim ++ user))))).rank = nEqualities (st.cs ++ (m ++ (lim ++ user))) :=
      fun h => hfree fun _ => hback h
    have herr := assemble_deficient (env.settings st.prob.1) env.qr (st.cs ++ (m ++ (lim ++ user))) hsized hre hnr (hpos hnr)
    have hfin : (finish env r apply (st.cs ++ (m ++ (lim ++ user))) s2).2 = .error .qpError := by
      unfold finish Problem.solve
      simp only [c7, herr]
    rw [hfin]
    exact ⟨⟨fun ⟨_, h⟩ => (by cases h), fun h => absurd h.2 hfree⟩, fun _ => rfl⟩
  obtain ⟨qp, hqp⟩ := assemble_total (env.settings st.prob.1) env.qr (st.cs ++ (m ++ (lim ++ user))) hsized fun h => hrank (hfree h)
  have hre' : env.rewriteEqualities = true ∨ ∀ c ∈ st.cs ++ (m ++ (lim ++ user)), c.softIneq = false := by
    refine hre.imp_right fun h c hc => ?_
    simp only [List.mem_append] at hc
    rcases hc with hc | hc | hc | hc
    · exact hsoft c (by simp [hc])
    · exact hsoft c (by simp [hc])
    · exact hsoft c (by simp [hc])
    · obtain ⟨l', hl', hc⟩ := List.mem_flatten.1 hc
      simp [Constr.softIneq, h l' hl' c hc]
  obtain ⟨k1, k2, -⟩ := C144_solve_partial (env.settings st.prob.1) env.qr (st.cs ++ (m ++ (lim ++ user))) qp
    (hex.1.contract hqp) (hre'.elim .inl fun h => .inr (.inr (nSlack_zero _ h))) hqp hreg hweights
    hweights' env.tol env.tol htol htol ⟨st.prob.2, []⟩ (vars_inside a2.1) env.oracle env.oracle (hex.2 qp) (hex.2 qp)
  have hadm : (∃ x, HardSat (st.cs ++ (m ++ (lim ++ user))) x) ↔ ∃ y σ, Admissible r tasks s true y σ ∧ ∀ l ∈ ls, HardSat l y := by
    constructor
    · rintro ⟨x, hx⟩
      rw [HardSat_append, HardSat_append, HardSat_append, (hmean x).1, m4, l3, huser, hardSat_flatten] at hx
      obtain ⟨⟨-, x1, x2⟩, ⟨x3, x4⟩, ⟨x5, x6⟩, x7⟩ := hx
      by_cases hs : st.hasScaling = true
      · exact ⟨x, x r.nv, ⟨x1, fun _ => x2 rfl hs, x3, x4, x5, x6⟩, x7⟩
      · refine ⟨x, 1, ⟨fun t ht M hM i hi => ⟨(x1 t ht M hM i hi).1, fun hp => absurd ?_ hs⟩, fun _ => ⟨zero_le_one, le_refl _⟩, x3, x4, x5, x6⟩, x7⟩
        rw [hsc, Bool.false_or, List.any_eq_true]
        refine ⟨t, ht, ?_⟩
        unfold Task.isScaled
        rw [hM]
        simp only [hp, decide_true, Bool.true_and, decide_eq_true_eq]
        omega
    · rintro ⟨y, σ, hy, hu⟩
      let x : Nat → ℝ := fun k => if k < r.nv then y k else σ
      have hx : ∀ k, k < r.nv → x k = y k := fun k hk => by simp [x, hk]
      have hxn : x r.nv = σ := by simp [x]
      refine ⟨x, ?_⟩
      rw [HardSat_append, HardSat_append, HardSat_append, (hmean x).1, m4, l3, hxn, huser, hardSat_flatten]
      refine ⟨⟨HardSat_nil _, fun t ht => ?_, fun _ _ => by rw [hxn]; exact hy.scale rfl⟩, ⟨fun d hd => ?_, fun hb k hk => ?_⟩, ⟨fun hj i hi => ?_, fun hj i hi => ?_⟩, fun l' hl' c hc hp => ?_⟩
      · rw [TaskHard_congr r.nv s.robot t (fun M hM => (hfit t ht M hM).2) x y _ hx]
        exact hy.tasks t ht
      · rw [hx d (hmask.2 d hd)]; exact hy.masked d hd
      · rw [hx k (by omega)]; exact hy.fbase hb k hk
      · rw [hx (6 + i) (by omega)]; exact hy.joint hj i hi
      · rw [hx (6 + i) (by omega)]; exact hy.velocity hj i hi
      · rw [sat_congr c r.nv (hls l' hl' c hc).1.2.2 x y hx]
        exact hu l' hl' c hc hp
  rw [and_iff_left hfree, ← hadm]
  unfold finish
  simp only [c7]
  constructor
  · rw [← k1]
    constructor
    · rintro ⟨dq, h⟩
      split at h
      · cases h
      · assumption
    · intro h
      rw [h]
      exact ⟨_, rfl⟩
  · intro h
    rw [k2 h]


/-! ## The constraints of the library -/

/-- A constraint of the library, with the quantities that pinocchio computes for it: `com_world()` and `com_jacobian()`; the positions of
two frames and the linear rows of their Jacobians; the orientation of the frame `b` in `a` and the angular rows of their Jacobians; the
distances of the pairs of bodies. com_polygon_constraint.cpp 12-39, distance_constraint.cpp 13-39,
joint_space_half_spaces_constraint.cpp 11-41, yaw_constraint.cpp 13-50, cone_constraint.cpp 13-57,
kinematics/avoid_self_collisions_constraint.cpp 6-59. -/
inductive IkConstraint where
  | com (p : CoMPolygon) (g : RState ℝ → V3) (J : RState ℝ → J3)
  | distance (p : DistanceC) (pa pb : RState ℝ → V3) (Ja Jb : RState ℝ → J3)
  | halfSpaces (p : HalfSpaces ℝ)
  | yaw (p : YawC) (Rab : RState ℝ → M3) (Ja Jb : RState ℝ → J3)
  | cone (p : ConeC) (Rab : RState ℝ → M3) (Ja Jb : RState ℝ → J3)
  | collisions (p : SelfCollisions) (distances : RState ℝ → List CollisionPair)

/-- What it adds to the problem. kinematics/constraint.h 9-23. -/
noncomputable def IkConstraint.toConstraint (r : Robot ℝ) : IkConstraint → KConstraint ℝ
  | .com p g J => p.toConstraint r.nv g J
  | .distance p pa pb Ja Jb => p.toConstraint r.nv pa pb Ja Jb
  | .halfSpaces p => p.toConstraint r
  | .yaw p Rab Ja Jb => p.toConstraint r.nv Rab Ja Jb
  | .cone p Rab Ja Jb => p.toConstraint r.nv Rab Ja Jb
  | .collisions p distances => p.toConstraint r.nv distances

/-- A constraint is hard when it was configured as such; a self collisions constraint is also hard when it was configured as scaled.
tools/prioritized.cpp 10-42, com_polygon_constraint.cpp 37-39, kinematics/avoid_self_collisions_constraint.cpp 55-57. -/
def IkConstraint.Hard : IkConstraint → Prop
  | .com p _ _ => p.priority = .hard
  | .distance p _ _ _ _ => p.priority = .hard
  | .halfSpaces p => p.priority = .hard
  | .yaw p _ _ _ => p.priority = .hard
  | .cone p _ _ _ => p.priority = .hard
  | .collisions p _ => p.priority ≠ .soft

/-- Its weight. tools/prioritized.h 17-65. -/
def IkConstraint.weight : IkConstraint → ℝ
  | .com p _ _ => p.weight
  | .distance p _ _ _ _ => p.weight
  | .halfSpaces p => p.weight
  | .yaw p _ _ _ => p.weight
  | .cone p _ _ _ => p.weight
  | .collisions p _ => p.weight

/-- The parameters are well formed: a polygon with at least one vertex, none of which is repeated in a row, and a time step and a
frequency in DCM mode; matrices of the sizes of the robot, with at least one row; a cone with at least one slice. -/
def IkConstraint.Ready (r : Robot ℝ) (s : KState ℝ) : IkConstraint → Prop
  | .com p _ _ => 0 < p.polygon.length ∧
      (∀ i, i < p.polygon.length → vertex p.polygon i ≠ vertex p.polygon ((i + 1) % p.polygon.length)) ∧
      ¬ (p.dcm = true ∧ (s.dt = 0 ∨ p.omega = 0))
  | .distance _ _ _ _ _ => True
  | .halfSpaces p => 0 < p.A.rows ∧ p.A.rows = p.b.size ∧ p.A.cols = r.nq ∧ r.nq = r.nv + 1
  | .yaw _ _ _ _ => True
  | .cone p _ _ _ => 0 < p.N
  | .collisions _ _ => True

/-- What the constraint asks of a step `y`, to the first order: the centre of mass (or the DCM) stays `margin` inside of every edge of the
polygon; the distance of the frames stays below `distance_max`; the joints satisfy `A q ≤ b`; the yaw stays between `-angle_max` and
`angle_max`; the angle of the axis in each slice of the cone stays below `angle_max`; the pairs of bodies closer than the trigger stay
`margin` apart. -/
def IkConstraint.Holds (r : Robot ℝ) (s : KState ℝ) (y : Nat → ℝ) : IkConstraint → Prop
  | .com p g J => ∀ i, i < p.polygon.length →
      p.margin ≤ signedDistance (vertex p.polygon i) (vertex p.polygon ((i + 1) % p.polygon.length))
        (p.predicted s.dt (g s.robot) (jvel r.nv (J s.robot) y))
  | .distance p pa pb Ja Jb =>
      norm3 (fun k => pb s.robot k - pa s.robot k) + dot3 (normalize3 fun k => pb s.robot k - pa s.robot k)
        (fun k => jvel r.nv (Jb s.robot) y k - jvel r.nv (Ja s.robot) y k) ≤ p.distanceMax
  | .halfSpaces p => ∀ i, i < p.A.rows → ∑ k ∈ range (r.nv - 6), p.A.m i (7 + k) * (s.robot.q (7 + k) + y (6 + k)) ≤ p.b.v i
  | .yaw p Rab Ja Jb => |atan2 (Rab s.robot 1 0) (Rab s.robot 0 0) +
      dot3 (yawAxis fun k => Rab s.robot k 0) (relVel r.nv (Rab s.robot) (Ja s.robot) (Jb s.robot) y)| ≤ p.angleMax
  | .cone p Rab Ja Jb => ∀ k, k < p.N →
      let a : V3 := (Rab s.robot).mulVec ![0, 0, 1]
      let S := rotZ (p.sliceAlpha a k)
      atan2 (S.transpose.mulVec a 0) (S.transpose.mulVec a 2) +
        dot3 (fun l => S l 1) (relVel r.nv (Rab s.robot) (Ja s.robot) (Jb s.robot) y) ≤ p.angleMax
  | .collisions p distances => ∀ d ∈ distances s.robot, d.minDistance < p.trigger →
      p.margin ≤ d.minDistance + dot3 d.normal (fun k => jvel r.nv d.JB y k - jvel r.nv d.JA y k)

/-- What a constraint of the library adds. -/
theorem lib_adds (r : Robot ℝ) (h6 : 6 < r.nv) (s : KState ℝ) (k : IkConstraint) (hk : k.Ready r s) : ∃ l,
    (∀ sc, sc.robot = s.robot → SameConfig s sc → (k.toConstraint r).add sc = .ok l) ∧
    (∀ c ∈ l, SizedFor r.nv c ∧ c.ty = .inequality ∧ (c.priority = .hard ↔ k.Hard) ∧ c.weight = k.weight) ∧
    ∀ y, (∀ c ∈ l, c.Sat y) ↔ k.Holds r s y := by
  have dle : ∀ (e : Expr ℝ) (f : ℝ) (p : Tools.Priority) (w : ℝ) (H : (Nat → ℝ) → Prop), 0 < e.rows → e.cols ≤ r.nv →
      (∀ y, (∀ i, i < e.rows → e.rowVal y i ≤ f) ↔ H y) → ∃ c, e.leDouble f = .ok c ∧
      (∀ c' ∈ [configured p w c], SizedFor r.nv c' ∧ c'.ty = .inequality ∧ (c'.priority = .hard ↔ p = .hard) ∧ c'.weight = w) ∧
      ∀ y, (∀ c' ∈ [configured p w c], c'.Sat y) ↔ H y := by
    intro e f p w H h0 hc hH
    obtain ⟨c, h1, -, -, h4⟩ := leDouble_spec e f
    have hs := le_sized (n := r.nv) h1 h0 one_pos hc (Nat.zero_le _)
    refine ⟨c, h1, ?_, fun y => ?_⟩
    · intro c' hc'
      rw [List.mem_singleton.1 hc']
      exact ⟨hs.1, hs.2, configured_hard _ _ _, rfl⟩
    · simp only [List.mem_singleton, forall_eq]
      rw [configured_sat, h4, hH]
  cases k with
  | com p g J =>
    obtain ⟨h0, hdist, hd⟩ := hk
    obtain ⟨c, e3, e4, e5, e6, e7⟩ := (C52 p r.nv g J s hdist).2 hd
    refine ⟨[c], fun sc h1 h2 => ?_, ?_, fun y => by simp only [List.mem_singleton, forall_eq]; exact e7 y⟩
    · rw [← e3]
      show (p.toConstraint r.nv g J).add sc = (p.toConstraint r.nv g J).add s
      unfold CoMPolygon.toConstraint
      simp only [h1, h2.dt]
    · intro c' hc'
      rw [List.mem_singleton.1 hc']
      refine ⟨?_, e6, e4, e5⟩
      have e3' : (p.toConstraint r.nv g J).add s = .ok [c] := e3
      unfold CoMPolygon.toConstraint at e3'
      simp only [if_neg hd] at e3'
      revert e3'
      generalize he : (⟨2, r.nv, _, _⟩ : Expr ℝ) = e
      intro e3'
      cases hq : inPolygonXY e p.polygon p.margin with
      | error k => rw [hq] at e3'; cases e3'
      | ok c'' =>
        rw [hq] at e3'
        cases e3'
        show SizedFor r.nv c''
        unfold inPolygonXY at hq
        rw [if_neg (by rw [← he]; simp)] at hq
        obtain ⟨rows, -, hq⟩ := do_ok hq
        exact (ge_sized hq (by exact h0) one_pos (by show e.cols ≤ r.nv; rw [← he]) (Nat.zero_le _)).1
  | distance p pa pb Ja Jb =>
    obtain ⟨c, h1, h2, h3⟩ := dle ⟨1, r.nv, fun _ j => distanceRow (fun k => pb s.robot k - pa s.robot k) (Ja s.robot) (Jb s.robot) j,
      fun _ => norm3 fun k => pb s.robot k - pa s.robot k⟩ p.distanceMax p.priority p.weight _ one_pos (le_refl _) (fun y => Iff.rfl)
    refine ⟨[configured p.priority p.weight c], fun sc hr hc => ?_, h2, fun y => ?_⟩
    · show (p.toConstraint r.nv pa pb Ja Jb).add sc = _
      unfold DistanceC.toConstraint
      simp only [hr, h1]
      rfl
    · rw [h3]
      simp only [Nat.lt_one_iff, forall_eq, Expr.rowVal, distanceRow_sum]
      unfold IkConstraint.Holds
      rw [add_comm]
  | halfSpaces p =>
    obtain ⟨h0, hb, hc, hq⟩ := hk
    generalize he : (⟨p.A.rows, r.nv, fun i j => if 6 ≤ j then p.A.m i (7 + (j - 6)) else 0,
      fun i => ∑ k ∈ range (r.nv - 6), p.A.m i (7 + k) * s.robot.q (7 + k)⟩ : Expr ℝ) = e
    have her : e.rows = p.A.rows := by rw [← he]
    obtain ⟨c, h1, h2, h3⟩ := leVec_spec e p.b (by rw [her, hb])
    refine ⟨[configured p.priority p.weight c], fun sc hr hcf => ?_, ?_, fun y => ?_⟩
    · show (p.toConstraint r).add sc = _
      unfold HalfSpaces.toConstraint
      simp only [hr]
      rw [if_neg (by simp [hb]), if_neg (by simp [hc]), if_neg (by rw [hc]; simp; omega)]
      simp only [he, h1]
      rfl
    · intro c' hc'
      rw [List.mem_singleton.1 hc']
      have hs := le_sized (n := r.nv) h1 (by omega) (by show 0 < p.b.size; omega) (by rw [← he]) (Nat.zero_le _)
      exact ⟨hs.1, hs.2, configured_hard _ _ _, rfl⟩
    · simp only [List.mem_singleton, forall_eq]
      rw [configured_sat, h3, her]
      unfold IkConstraint.Holds
      refine forall_congr' fun i => forall_congr' fun hi => ?_
      have : e.rowVal y i = ∑ k ∈ range (r.nv - 6), p.A.m i (7 + k) * (s.robot.q (7 + k) + y (6 + k)) := by
        subst he
        unfold Expr.rowVal
        simp only
        conv_lhs => rw [show r.nv = 6 + (r.nv - 6) by omega, Finset.sum_range_add]
        rw [show 6 + (r.nv - 6) - 6 = r.nv - 6 by omega]
        have hz : ∑ x ∈ range 6, (if 6 ≤ x then p.A.m i (7 + (x - 6)) else 0) * y x = 0 :=
          Finset.sum_eq_zero fun x hx => by rw [if_neg (by have := Finset.mem_range.1 hx; omega), zero_mul]
        rw [hz, zero_add, ← Finset.sum_add_distrib]
        refine Finset.sum_congr rfl fun k _ => ?_
        rw [if_pos (by omega), show 6 + k - 6 = k by omega]
        ring
      rw [this]
  | yaw p Rab Ja Jb =>
    obtain ⟨c, h1, h2, h3⟩ := dle ⟨2, r.nv,
      fun i j => if i = 0 then dot3 (yawAxis fun k => Rab s.robot k 0) (fun k => relativeJac (Rab s.robot) (Ja s.robot) (Jb s.robot) k j)
        else -dot3 (yawAxis fun k => Rab s.robot k 0) (fun k => relativeJac (Rab s.robot) (Ja s.robot) (Jb s.robot) k j),
      fun i => if i = 0 then atan2 (Rab s.robot 1 0) (Rab s.robot 0 0) else -atan2 (Rab s.robot 1 0) (Rab s.robot 0 0)⟩
      p.angleMax p.priority p.weight _ two_pos (le_refl _) (fun y => Iff.rfl)
    refine ⟨[configured p.priority p.weight c], fun sc hr hc => ?_, h2, fun y => ?_⟩
    · show (p.toConstraint r.nv Rab Ja Jb).add sc = _
      unfold YawC.toConstraint
      simp only [hr, h1]
      rfl
    · rw [h3]
      have hrow := dot_jvel (yawAxis fun k => Rab s.robot k 0) (relativeJac (Rab s.robot) (Ja s.robot) (Jb s.robot)) r.nv y
      unfold IkConstraint.Holds
      simp only [Expr.rowVal]
      rw [abs_le]
      show _ ↔ -p.angleMax ≤ _ + dot3 _ (jvel _ _ _) ∧ _ + dot3 _ (jvel _ _ _) ≤ p.angleMax
      rw [← hrow]
      constructor
      · intro h
        have a := h 0 (by norm_num)
        have b := h 1 (by norm_num)
        simp only [if_true, one_ne_zero, if_false, neg_mul, Finset.sum_neg_distrib] at a b
        constructor <;> linarith
      · rintro ⟨a, b⟩ i hi
        by_cases h0 : i = 0
        · simp only [h0, if_true]; linarith
        · simp only [h0, if_false, neg_mul, Finset.sum_neg_distrib]; linarith
  | cone p Rab Ja Jb =>
    obtain ⟨c, h1, h2, h3⟩ := dle ⟨p.N, r.nv,
      fun k j => dot3 (fun l => rotZ (p.sliceAlpha ((Rab s.robot).mulVec ![0, 0, 1]) k) l 1)
        (fun l => relativeJac (Rab s.robot) (Ja s.robot) (Jb s.robot) l j),
      fun k => atan2 ((rotZ (p.sliceAlpha ((Rab s.robot).mulVec ![0, 0, 1]) k)).transpose.mulVec ((Rab s.robot).mulVec ![0, 0, 1]) 0)
        ((rotZ (p.sliceAlpha ((Rab s.robot).mulVec ![0, 0, 1]) k)).transpose.mulVec ((Rab s.robot).mulVec ![0, 0, 1]) 2)⟩
      p.angleMax p.priority p.weight _ hk (le_refl _) (fun y => Iff.rfl)
    refine ⟨[configured p.priority p.weight c], fun sc hr hc => ?_, h2, fun y => ?_⟩
    · show (p.toConstraint r.nv Rab Ja Jb).add sc = _
      unfold ConeC.toConstraint
      simp only [hr, h1]
      rfl
    · rw [h3]
      unfold IkConstraint.Holds
      simp only [Expr.rowVal, dot_jvel]
      refine forall_congr' fun i => forall_congr' fun hi => ?_
      rw [add_comm]
      rfl
  | collisions p distances =>
    set near := (distances s.robot).filter fun d => d.minDistance < p.trigger with hnear
    have hmem : ∀ d, d ∈ near ↔ d ∈ distances s.robot ∧ d.minDistance < p.trigger := by
      intro d; simp [hnear]
    by_cases h0 : near.length = 0
    · refine ⟨[], fun sc hr hc => ?_, by simp, fun y => ?_⟩
      · show (p.toConstraint r.nv distances).add sc = _
        unfold SelfCollisions.toConstraint
        simp only [hr, ← hnear]
        rw [if_pos h0]
        rfl
      · simp only [List.not_mem_nil, false_imp_iff, implies_true, true_iff]
        intro d h1 h2
        have : d ∈ near := (hmem d).2 ⟨h1, h2⟩
        rw [List.length_eq_zero_iff] at h0
        rw [h0] at this
        cases this
    · generalize he : (⟨near.length, r.nv,
        fun i j => (near[i]?.map fun d => dot3 d.normal (fun k => d.JB k j - d.JA k j)).getD 0,
        fun i => (near[i]?.map fun d => d.minDistance - p.margin).getD 0⟩ : Expr ℝ) = e
      obtain ⟨⟨c, g1, g2⟩, -⟩ := C02_double e 0
      have her : e.rows = near.length := by rw [← he]
      have hs := ge_sized (n := r.nv) (show e.ge (Expr.fromDouble 0) = .ok c from g1) (by omega) one_pos (by rw [← he]) (Nat.zero_le _)
      refine ⟨[c.configureP (if p.priority = .soft then .soft else .hard) p.weight], fun sc hr hc => ?_, ?_, fun y => ?_⟩
      · show (p.toConstraint r.nv distances).add sc = _
        unfold SelfCollisions.toConstraint
        simp only [hr, ← hnear]
        rw [if_neg h0]
        simp only [he, g1]
        rfl
      · intro c' hc'
        rw [List.mem_singleton.1 hc']
        refine ⟨hs.1, hs.2, ?_, rfl⟩
        unfold Constr.configureP IkConstraint.Hard
        by_cases h : p.priority = .soft <;> simp [h]
      · have hsat : (∀ c' ∈ [c.configureP (if p.priority = .soft then .soft else .hard) p.weight], c'.Sat y) ↔ c.Sat y := by
          simp only [List.mem_singleton, forall_eq]; exact Iff.rfl
        rw [hsat, g2]
        have hrow : ∀ i, (hi : i < near.length) → e.rowVal y i =
            dot3 near[i].normal (fun k => jvel r.nv near[i].JB y k - jvel r.nv near[i].JA y k) + (near[i].minDistance - p.margin) := by
          intro i hi
          subst he
          simp only [Expr.rowVal, List.getElem?_eq_getElem hi, Option.map_some, Option.getD_some]
          congr 1
          rw [dot_jvel near[i].normal (fun k j => near[i].JB k j - near[i].JA k j)]
          congr 1
          funext k
          unfold jvel
          rw [← Finset.sum_sub_distrib]
          exact Finset.sum_congr rfl fun j _ => by ring
        simp only [Expr.value, List.mem_map, List.mem_range, her]
        constructor
        · intro h d hd1 hd2
          have hd := (hmem d).2 ⟨hd1, hd2⟩
          obtain ⟨i, hi, rfl⟩ := List.getElem_of_mem hd
          have := h _ ⟨i, hi, rfl⟩
          rw [hrow i hi] at this
          linarith
        · rintro h y' ⟨i, hi, rfl⟩
          have hd : near[i] ∈ near := List.getElem_mem _
          have := h near[i] ((hmem _).1 hd).1 ((hmem _).1 hd).2
          rw [hrow i hi]
          linarith

theorem lib_forall (r : Robot ℝ) (h6 : 6 < r.nv) (s : KState ℝ) : ∀ (cons : List IkConstraint), (∀ k ∈ cons, k.Ready r s) → ∃ ls,
    (∀ sc, sc.robot = s.robot → SameConfig s sc → List.Forall₂ (fun k l => k.add sc = .ok l) (cons.map (·.toConstraint r)) ls) ∧
    List.Forall₂ (fun k l => (∀ c ∈ l, SizedFor r.nv c ∧ c.ty = .inequality ∧ (c.priority = .hard ↔ k.Hard) ∧ c.weight = k.weight) ∧
      ∀ y, (∀ c ∈ l, c.Sat y) ↔ k.Holds r s y) cons ls
  | [], _ => ⟨[], fun _ _ _ => .nil, .nil⟩
  | k :: cons, h => by
    obtain ⟨ls, a, b⟩ := lib_forall r h6 s cons fun k hk => h k (List.mem_cons_of_mem _ hk)
    obtain ⟨l, a', b', c'⟩ := lib_adds r h6 s k (h k List.mem_cons_self)
    exact ⟨l :: ls, fun sc h1 h2 => .cons (a' sc h1 h2) (a sc h1 h2), .cons ⟨b', c'⟩ b⟩

theorem forall₂_mem_right {α β : Type} {R : α → β → Prop} {as : List α} {bs : List β} (h : List.Forall₂ R as bs) :
    ∀ b ∈ bs, ∃ a ∈ as, R a b := by
  induction h with
  | nil => intro b hb; cases hb
  | cons r _ ih =>
    intro b hb
    rcases List.mem_cons.1 hb with rfl | hb
    · exact ⟨_, List.mem_cons_self, r⟩
    · obtain ⟨a, ha, hr⟩ := ih b hb
      exact ⟨a, List.mem_cons_of_mem _ ha, hr⟩

theorem forall₂_mem_left {α β : Type} {R : α → β → Prop} {as : List α} {bs : List β} (h : List.Forall₂ R as bs) :
    ∀ a ∈ as, ∃ b ∈ bs, R a b := by
  induction h with
  | nil => intro b hb; cases hb
  | cons r _ ih =>
    intro b hb
    rcases List.mem_cons.1 hb with rfl | hb
    · exact ⟨_, List.mem_cons_self, r⟩
    · obtain ⟨a, ha, hr⟩ := ih b hb
      exact ⟨a, List.mem_cons_of_mem _ ha, hr⟩

/-- **C180, exact.** With any constraints of the library whose parameters are well formed, the soft ones with positive weights, and the
hypotheses of C165 on the tasks, the masks and the external solvers: `solve` finds a step exactly when one meets the hard tasks, the
scaled tasks up to a scale in `[0, 1]`, the masks, the enabled limits and, to the first order, every hard constraint, and, with
`rewrite_equalities` (the default), the hard tasks and masks are independent; otherwise it raises `QPError`. Soft constraints never
prevent it. -/
theorem C180_exact (env : QPEnv ℝ) (r : Robot ℝ) (hL : r.Layout) (hsize : ∀ j ∈ r.joints, j.nV ≤ j.nQ) (hn : 6 < r.nv)
    (tasks : List (Task ℝ)) (cons : List IkConstraint) (apply : Bool) (s : KState ℝ)
    (hv : VarsOK r.nv s.prob s.qdVar s.scaleVar)
    (hupd : ∀ t ∈ tasks, ∃ M, t.update s.robot = .ok M ∧ 0 < M.cols ∧ M.cols ≤ r.nv)
    (hw : ∀ t ∈ tasks, t.priority = .soft → 0 ≤ t.weight) (hreg : 0 < env.regularization) (htol : 0 ≤ env.tol)
    (hex : env.Exact) (hmask : s.maskedDof.Nodup ∧ ∀ d ∈ s.maskedDof, d < r.nv)
    (hdt : ¬ (s.velocityLimits = true ∧ s.dt = 0)) (hc : ∀ k ∈ cons, k.Ready r s) (hwc : ∀ k ∈ cons, ¬ k.Hard → 0 < k.weight)
    (hre : env.rewriteEqualities = true ∨ ∀ k ∈ cons, k.Hard) :
    ((∃ dq, (solve env r tasks (cons.map (·.toConstraint r)) apply s).2 = .ok dq) ↔
      (∃ y σ, Admissible r tasks s true y σ ∧ ∀ k ∈ cons, k.Hard → k.Holds r s y) ∧
        (env.rewriteEqualities = true → HardFree s.robot tasks s.maskedDof s.maskedFbase)) ∧
    (¬ ((∃ y σ, Admissible r tasks s true y σ ∧ ∀ k ∈ cons, k.Hard → k.Holds r s y) ∧
        (env.rewriteEqualities = true → HardFree s.robot tasks s.maskedDof s.maskedFbase)) →
      (solve env r tasks (cons.map (·.toConstraint r)) apply s).2 = .error .qpError) := by
  obtain ⟨ls, hadd, hls⟩ := lib_forall r hn s cons hc
  have key : ∀ y, (∀ l ∈ ls, HardSat l y) ↔ ∀ k ∈ cons, k.Hard → k.Holds r s y := by
    intro y
    constructor
    · intro h k hk hh
      obtain ⟨l, hl, h1, h2⟩ := forall₂_mem_left hls k hk
      exact (h2 y).1 fun c hc => h l hl c hc ((h1 c hc).2.2.1.2 hh)
    · intro h l hl c hc hp
      obtain ⟨k, hk, h1, h2⟩ := forall₂_mem_right hls l hl
      exact (h2 y).2 (h k hk ((h1 c hc).2.2.1.1 hp)) c hc
  have h := solve_constrained env r hL hsize hn tasks (cons.map (·.toConstraint r)) ls apply s hv hupd hw hreg htol hex hmask hdt hadd
    (fun l hl c hc => by
      obtain ⟨k, hk, h1, -⟩ := forall₂_mem_right hls l hl
      obtain ⟨a, b, d, e⟩ := h1 c hc
      refine ⟨a, b, fun hp => ?_⟩
      rw [e]
      refine hwc k hk fun hh => ?_
      rw [d.2 hh] at hp
      cases hp)
    (hre.imp_right fun h l hl c hc => by
      obtain ⟨k, hk, h1, -⟩ := forall₂_mem_right hls l hl
      exact (h1 c hc).2.2.1.2 (h k hk))
  simp only [key] at h
  exact h

/-- **C180 (safe).** With soft tasks only, on a robot inside the enabled limits where every hard constraint holds, every solve succeeds,
whatever the soft constraints. -/
theorem C180_safe (env : QPEnv ℝ) (r : Robot ℝ) (hL : r.Layout) (hsize : ∀ j ∈ r.joints, j.nV ≤ j.nQ) (hn : 6 < r.nv)
    (tasks : List (Task ℝ)) (cons : List IkConstraint) (apply : Bool) (s : KState ℝ)
    (hv : VarsOK r.nv s.prob s.qdVar s.scaleVar)
    (hupd : ∀ t ∈ tasks, ∃ M, t.update s.robot = .ok M ∧ 0 < M.cols ∧ M.cols ≤ r.nv)
    (hw : ∀ t ∈ tasks, t.priority = .soft ∧ 0 ≤ t.weight) (hreg : 0 < env.regularization) (htol : 0 ≤ env.tol)
    (hex : env.Exact) (hmask : s.maskedDof.Nodup ∧ ∀ d ∈ s.maskedDof, d < r.nv)
    (hbase : s.maskedFbase = true → ∀ d ∈ s.maskedDof, 6 ≤ d)
    (hj : s.jointLimits = true → ∀ i, i < r.nv - 6 → r.lower (r.nq - (r.nv - 6) + i) ≤ s.robot.q (r.nq - (r.nv - 6) + i) ∧
      s.robot.q (r.nq - (r.nv - 6) + i) ≤ r.upper (r.nq - (r.nv - 6) + i))
    (hvl : s.velocityLimits = true → s.dt ≠ 0 ∧ ∀ i, i < r.nv - 6 → 0 ≤ s.dt * r.vlim (6 + i))
    (hc : ∀ k ∈ cons, k.Ready r s) (hwc : ∀ k ∈ cons, ¬ k.Hard → 0 < k.weight)
    (hre : env.rewriteEqualities = true ∨ ∀ k ∈ cons, k.Hard) (hnow : ∀ k ∈ cons, k.Hard → k.Holds r s fun _ => 0) :
    ∃ dq, (solve env r tasks (cons.map (·.toConstraint r)) apply s).2 = .ok dq := by
  refine (C180_exact env r hL hsize hn tasks cons apply s hv hupd (fun t ht _ => (hw t ht).2) hreg htol hex hmask
    (fun h => (hvl h.1).1 h.2) hc hwc hre).1.2 ⟨⟨fun _ => 0, 0, ?_, hnow⟩, fun _ => hardFree_soft _ _ _ _ (fun t ht => (hw t ht).1) hbase⟩
  refine ⟨fun t ht' M hM i hi => ⟨fun hp => ?_, fun hp => ?_⟩, fun _ => ⟨le_refl _, zero_le_one⟩, fun _ _ => rfl, fun _ _ _ => rfl, fun h i hi => ?_,
    fun h i hi => ?_⟩
  · rw [(hw t ht').1] at hp; cases hp
  · rw [(hw t ht').1] at hp; cases hp
  · have := hj h i hi
    simpa using ⟨this.2, this.1⟩
  · have := (hvl h).2 i hi
    constructor
    · linarith
    · linarith

/-- **C180, partial.** With constraints of the library whose parameters are well formed, soft ones having a positive weight, when every
task can be updated and uses the columns of the robot and the hard requirements on equalities are independent, with exact external
solvers: `solve` finds a step exactly when one meets the hard tasks, the masks, the limits and the hard constraints; the soft constraints
never prevent it. Missing: dependent hard equalities (C165), constraints without rows (`C180_empty_refuted`), soft constraints without
`rewrite_equalities` (`C180_plain_refuted`). -/
theorem C180_partial (env : QPEnv ℝ) (r : Robot ℝ) (hL : r.Layout) (hsize : ∀ j ∈ r.joints, j.nV ≤ j.nQ) (hn : 6 < r.nv)
    (tasks : List (Task ℝ)) (cons : List IkConstraint) (apply : Bool) (s : KState ℝ)
    (hv : VarsOK r.nv s.prob s.qdVar s.scaleVar)
    (hupd : ∀ t ∈ tasks, ∃ M, t.update s.robot = .ok M ∧ 0 < M.cols ∧ M.cols ≤ r.nv)
    (hw : ∀ t ∈ tasks, t.priority = .soft → 0 ≤ t.weight) (hreg : 0 < env.regularization) (htol : 0 ≤ env.tol)
    (hex : env.Exact) (hmask : s.maskedDof.Nodup ∧ ∀ d ∈ s.maskedDof, d < r.nv)
    (hdt : ¬ (s.velocityLimits = true ∧ s.dt = 0)) (hc : ∀ k ∈ cons, k.Ready r s) (hwc : ∀ k ∈ cons, ¬ k.Hard → 0 < k.weight)
    (hre : env.rewriteEqualities = true ∨ ∀ k ∈ cons, k.Hard)
    (hfree : HardFree s.robot tasks s.maskedDof s.maskedFbase) :
    (∃ dq, (solve env r tasks (cons.map (·.toConstraint r)) apply s).2 = .ok dq) ↔
      ∃ y σ, Admissible r tasks s true y σ ∧ ∀ k ∈ cons, k.Hard → k.Holds r s y := by
  rw [(C180_exact env r hL hsize hn tasks cons apply s hv hupd hw hreg htol hex hmask hdt hc hwc hre).1]
  exact ⟨fun h => h.1, fun h => ⟨h, fun _ => hfree⟩⟩

/-! ## Where it is false -/

/-- A constraint without rows makes every solve raise. -/
theorem solve_no_rows (env : QPEnv ℝ) (r : Robot ℝ) (tasks : List (Task ℝ)) (cons : List (KConstraint ℝ)) (apply : Bool)
    (s : KState ℝ) (k : KConstraint ℝ) (hk : k ∈ cons) (h0 : ∀ sc l, sc.dt = s.dt → k.add sc = .ok l → ∃ c ∈ l, c.expr.rows = 0) (dq : Nat → ℝ) :
    (solve env r tasks cons apply s).2 ≠ .ok dq := by
  intro h
  have hdt : (ensureQd r s).dt = s.dt := by unfold ensureQd; split <;> rfl
  unfold solve at h
  simp only at h
  generalize ensureQd r s = s1 at *
  cases hrt : runTasks s1.robot ⟨s1.prob, s1.scaleVar, false, []⟩ tasks with
  | mk st e =>
  rw [hrt] at h
  cases e with
  | some e => cases h
  | none =>
    simp only at h
    unfold afterTasks at h
    split at h
    · cases h
    · rename_i l hl
      unfold otherConstraints at hl
      obtain ⟨m, -, hl⟩ := do_ok hl
      obtain ⟨lim, hlim, hl⟩ := do_ok hl
      obtain ⟨ks, hks, hl⟩ := do_ok hl
      cases hl
      obtain ⟨l, hl, hadd⟩ : ∃ l ∈ ks, k.add _ = .ok l := forall₂_mem_left (mapM_cases _ _ _ hks) k hk
      have hh := fun hd => h0 _ l hd hadd
      obtain ⟨c, hc, hrows⟩ := hh hdt
      have hin : c ∈ ks.flatten := List.mem_flatten.2 ⟨l, hl, hc⟩
      have hasm : ∃ qp, assemble (env.settings st.prob.1) env.qr (st.cs ++ (m ++ lim ++ ks.flatten)) = .ok qp := by
        unfold finish at h
        simp only at h
        cases hq : assemble (env.settings st.prob.1) env.qr (st.cs ++ (m ++ lim ++ ks.flatten)) with
        | ok qp => exact ⟨qp, rfl⟩
        | error e =>
          unfold Problem.solve at h
          simp only [hq] at h
          cases h
      obtain ⟨qp, hqp⟩ := hasm
      have hend := assembleEnd_eq (env.settings st.prob.1) env.qr (st.cs ++ (m ++ lim ++ ks.flatten))
      unfold assembleEnd at hend
      rw [hqp] at hend
      simp only [Except.map] at hend
      split at hend
      · cases hend
      split at hend
      · cases hend
      split at hend
      · rename_i hall
        have := hall c (by simp only [List.mem_append]; exact .inr (.inr hin))
        unfold checkConstr at this
        split at this
        · cases this
        rw [if_pos (.inl hrows)] at this
        cases this
      · cases hend

/-- **C180 is false** of constraints without rows, even soft ones: a CoM polygon without vertices, a cone without slices, half spaces
without rows. They ask nothing of the step, but no solve succeeds. -/
theorem C180_empty_refuted (env : QPEnv ℝ) (r : Robot ℝ) (tasks : List (Task ℝ)) (cons : List IkConstraint) (apply : Bool) (s : KState ℝ)
    (k : IkConstraint) (hk : k ∈ cons) (h0 : (∃ p g J, k = .com p g J ∧ p.polygon = []) ∨ (∃ p Rab Ja Jb, k = .cone p Rab Ja Jb ∧ p.N = 0) ∨
      ∃ p, k = .halfSpaces p ∧ p.A.rows = 0) :
    (∀ dq, (solve env r tasks (cons.map (·.toConstraint r)) apply s).2 ≠ .ok dq) ∧ ∀ y, k.Holds r s y := by
  have hle : ∀ (e : Expr ℝ) (f : ℝ) (c : Constr ℝ), e.rows = 0 → e.leDouble f = .ok c → c.expr.rows = 0 := by
    intro e f c he h
    unfold Expr.leDouble Expr.le at h
    obtain ⟨d, hd, hr, -⟩ := C02.sub_fromDouble e f
    rw [hd] at h
    cases h
    show d.rows = 0
    rw [hr, he]
  have hge : ∀ (e : Expr ℝ) (f : ℝ) (c : Constr ℝ), e.rows = 0 → e.geDouble f = .ok c → c.expr.rows = 0 := by
    intro e f c he h
    unfold Expr.geDouble Expr.ge at h
    obtain ⟨d, hd, hr, -⟩ := C02.sub_fromDouble e f
    rw [hd] at h
    cases h
    show d.rows = 0
    rw [hr, he]
  have hle' : ∀ (e : Expr ℝ) (v : Vec ℝ) (c : Constr ℝ), e.rows = 0 → v.size = 0 → e.leVec v = .ok c → c.expr.rows = 0 := by
    intro e v c h1 h2 hc
    unfold Expr.leVec Expr.le at hc
    obtain ⟨d, hd, hc⟩ := do_ok hc
    cases hc
    unfold Expr.sub Expr.add at hd
    rw [if_neg (by simp [Expr.isScalar, h1]), if_neg (by simp [Expr.isScalar, Expr.smul, Expr.fromVector, h2])] at hd
    split at hd
    · cases hd
    · cases hd
      exact h1
  refine ⟨fun dq => solve_no_rows env r tasks _ apply s (k.toConstraint r) (List.mem_map.2 ⟨k, hk, rfl⟩) (fun sc l hdt hl => ?_) dq, fun y => ?_⟩
  · rcases h0 with ⟨p, g, J, rfl, hp⟩ | ⟨p, Rab, Ja, Jb, rfl, hp⟩ | ⟨p, rfl, hp⟩
    · have hl : (p.toConstraint r.nv g J).add sc = .ok l := hl
      unfold CoMPolygon.toConstraint at hl
      simp only at hl
      split at hl
      · cases hl
      · obtain ⟨c, hc, hl⟩ := do_ok hl
        cases hl
        refine ⟨_, List.mem_singleton_self _, ?_⟩
        show c.expr.rows = 0
        unfold inPolygonXY at hc
        rw [if_neg (by simp)] at hc
        obtain ⟨rows, -, hc⟩ := do_ok hc
        exact hge _ _ c (by simp [hp]) hc
    · have hl : (p.toConstraint r.nv Rab Ja Jb).add sc = .ok l := hl
      unfold ConeC.toConstraint at hl
      simp only at hl
      obtain ⟨c, hc, hl⟩ := do_ok hl
      cases hl
      exact ⟨_, List.mem_singleton_self _, hle _ _ c hp hc⟩
    · have hl : (p.toConstraint r).add sc = .ok l := hl
      unfold HalfSpaces.toConstraint at hl
      simp only at hl
      split at hl
      · cases hl
      · rename_i h1
        split at hl
        · cases hl
        · split at hl
          · cases hl
          · obtain ⟨c, hc, hl⟩ := do_ok hl
            cases hl
            exact ⟨_, List.mem_singleton_self _, hle' _ _ c hp (by simp only [ne_eq, not_not] at h1; omega) hc⟩
  · rcases h0 with ⟨p, g, J, rfl, hp⟩ | ⟨p, Rab, Ja, Jb, rfl, hp⟩ | ⟨p, rfl, hp⟩
    · intro i hi; rw [hp] at hi; cases hi
    · intro i hi; omega
    · intro i hi; omega

/-- **C180 is false** without `rewrite_equalities`: a soft constraint that adds rows, together with a masked degree of freedom or a masked
floating base, makes the call of the QP solver undefined. -/
theorem C180_plain_refuted (env : QPEnv ℝ) (r : Robot ℝ) (hL : r.Layout) (hsize : ∀ j ∈ r.joints, j.nV ≤ j.nQ) (hn : 6 < r.nv)
    (tasks : List (Task ℝ)) (cs : List IkConstraint) (apply : Bool) (s : KState ℝ)
    (hv : VarsOK r.nv s.prob s.qdVar s.scaleVar)
    (hupd : ∀ t ∈ tasks, ∃ M, t.update s.robot = .ok M ∧ 0 < M.cols ∧ M.cols ≤ r.nv)
    (hw : ∀ t ∈ tasks, t.priority = .soft → 0 ≤ t.weight)
    (hmask : s.maskedDof.Nodup ∧ ∀ d ∈ s.maskedDof, d < r.nv)
    (hdt : ¬ (s.velocityLimits = true ∧ s.dt = 0)) (hc : ∀ k ∈ cs, k.Ready r s) (hwc : ∀ k ∈ cs, ¬ k.Hard → 0 < k.weight)
    (hre : env.rewriteEqualities = false) (hm : s.maskedFbase = true ∨ s.maskedDof ≠ [])
    (k : IkConstraint) (hk : k ∈ cs) (hks : ¬ k.Hard) (hrow : ∃ y, ¬ k.Holds r s y) :
    (solve env r tasks (cs.map (·.toConstraint r)) apply s).2 = .error .ub := by
  obtain ⟨ls, hadd, hls0⟩ := lib_forall r hn s cs hc
  generalize hcons : cs.map (·.toConstraint r) = cons at *
  have hls : ∀ l ∈ ls, ∀ c ∈ l, SizedFor r.nv c ∧ c.ty = .inequality ∧ (c.priority = .soft → 0 < c.weight) := by
    intro l hl c hc
    obtain ⟨k, hk, h1, -⟩ := forall₂_mem_right hls0 l hl
    obtain ⟨a, b, d, e⟩ := h1 c hc
    refine ⟨a, b, fun hp => ?_⟩
    rw [e]
    refine hwc k hk fun hh => ?_
    rw [d.2 hh] at hp
    cases hp
  have hm' := hm
  have hqv : r.nv - 6 ≤ r.nq := by have := sum_le_of_forall r.joints hsize; have := hL.nq; have := hL.nv; omega
  have hfit : ∀ t ∈ tasks, ∀ M, t.update s.robot = .ok M → 0 < M.cols ∧ M.cols ≤ r.nv := by
    intro t ht M hM
    obtain ⟨M', hM', h⟩ := hupd t ht
    rw [hM] at hM'
    cases hM'
    exact h
  obtain ⟨hv1, hq1⟩ := ensureQd_vars r s hv
  have hrobot : (ensureQd r s).robot = s.robot := by unfold ensureQd; split <;> rfl
  have hcfg : SameConfig s (ensureQd r s) := by unfold ensureQd; split <;> exact ⟨rfl, rfl, rfl, rfl, rfl⟩
  have hqd : (ensureQd r s).qdVar = some 0 := hq1
  unfold solve
  simp only
  generalize ensureQd r s = s1 at *
  obtain ⟨st, l, a1, a2, a3, a4, a5, a6, a7⟩ := runTasks_total r.nv s.robot tasks ⟨s1.prob, s1.scaleVar, false, []⟩ ⟨hv1, fun h => by cases h⟩ hupd
  obtain ⟨-, -, hok⟩ := runTasks_spec r.nv s.robot tasks ⟨s1.prob, s1.scaleVar, false, []⟩ ⟨hv1, fun h => by cases h⟩
    (fun t ht M hM => (hfit t ht M hM).2) st none a1
  obtain ⟨-, hsc, hmean⟩ := hok rfl
  have hmean := hmean fun t ht M hM => (hfit t ht M hM).1
  simp only [List.nil_append] at a3
  rw [hrobot, a1]
  simp only
  have hvar : varAt st.prob 0 = ⟨0, r.nv⟩ := varAt_qd r.nv st.prob st.scaleVar a2.1
  have hnle : r.nv ≤ st.prob.1 := by
    rcases a2.1 with ⟨h, -⟩ | ⟨-, -, h, -⟩ | ⟨-, -, h, -⟩
    · cases h
    · omega
    · omega
  unfold afterTasks
  simp only [hqd, Option.getD_some, hvar]
  generalize hs2 : ({ s1 with robot := s.robot, prob := st.prob, qdVar := some 0, scaleVar := st.scaleVar, hasScaling := st.hasScaling } : KState ℝ) = s2
  have c1 : s2.maskedDof = s.maskedDof := by rw [← hs2]; exact hcfg.1
  have c2 : s2.maskedFbase = s.maskedFbase := by rw [← hs2]; exact hcfg.2
  have c3 : s2.jointLimits = s.jointLimits := by rw [← hs2]; exact hcfg.3
  have c4 : s2.velocityLimits = s.velocityLimits := by rw [← hs2]; exact hcfg.4
  have c5 : s2.dt = s.dt := by rw [← hs2]; exact hcfg.5
  have c6 : s2.robot = s.robot := by rw [← hs2]
  have c7 : s2.prob = st.prob := by rw [← hs2]
  clear hs2
  obtain ⟨m, hm⟩ := C45_total r.nv s2 (by rw [c1]; exact hmask.2) (fun _ => by omega)
  obtain ⟨lim, hlim, lim2⟩ := limits_total r s2 hn hqv (by rw [c4, c5]; exact hdt)
  obtain ⟨-, -, -, m4⟩ := mask_spec r.nv s2 m hm
  obtain ⟨mr1, mr2, mr3⟩ := mask_rhs r.nv s2 m hm
  obtain ⟨-, l2, l3⟩ := limits_spec r s2 lim hlim hqv
  rw [c1, c2] at m4
  rw [c1, c2] at mr2 mr3
  simp only [c3, c4, c5, c6] at l3
  set user := ls.flatten with huser
  have hls' : ∀ c ∈ user, SizedFor r.nv c ∧ c.ty = .inequality ∧ (c.priority = .soft → 0 < c.weight) := by
    intro c hc
    rw [huser] at hc
    obtain ⟨l', hl', hc⟩ := List.mem_flatten.1 hc
    exact hls l' hl' c hc
  have hoth : otherConstraints r cons s2 ⟨0, r.nv⟩ = .ok (m ++ (lim ++ user)) := by
    unfold otherConstraints
    rw [hm, hlim]
    have := mapM_of_forall₂ (hadd s2 c6 ⟨c1, c2, c3, c4, c5⟩)
    simp only [bind, Except.bind, this, pure, Except.pure]
    rw [List.append_assoc]
  rw [hoth]
  simp only
  have hsized : ∀ c ∈ st.cs ++ (m ++ (lim ++ user)), SizedFor st.prob.1 c := by
    intro c hc
    simp only [List.mem_append] at hc
    rcases hc with hc | hc | hc | hc
    · exact (a5 c (a3 ▸ hc)).1
    · exact (mr1 c hc).1.mono hnle
    · exact (lim2 c hc).1.mono hnle
    · exact (hls' c hc).1.mono hnle
  have hsoft : ∀ c ∈ st.cs ++ (m ++ lim), c.softIneq = false := by
    intro c hc
    simp only [List.mem_append] at hc
    rcases hc with hc | hc | hc
    · exact (a5 c (a3 ▸ hc)).2.1
    · simp [Constr.softIneq, (mr1 c hc).2.1]
    · simp [Constr.softIneq, l2 c hc]
  have hweights' : ∀ c ∈ st.cs ++ (m ++ (lim ++ user)), c.softIneq = true → 0 < c.weight := by
    intro c hc hs
    by_cases hu : c ∈ user
    · exact (hls' c hu).2.2 (by simp [Constr.softIneq] at hs; exact hs.2)
    · rw [hsoft c (by simp only [List.mem_append] at hc ⊢; rcases hc with h | h | h | h; exacts [.inl h, .inr (.inl h), .inr (.inr h), absurd h hu])] at hs
      cases hs
  have hweights : ∀ c ∈ st.cs ++ (m ++ (lim ++ user)), c.softEq = true → 0 ≤ c.weight := by
    intro c hc hs
    simp only [List.mem_append] at hc
    rcases hc with hc | hc | hc | hc
    · rcases (a5 c (a3 ▸ hc)).2.2 hs with h | ⟨t, ht, h1, h2⟩
      · rw [h]; exact zero_le_one
      · rw [h2]; exact hw t ht h1
    · simp [Constr.softEq, (mr1 c hc).2.2] at hs
    · simp [Constr.softEq, l2 c hc] at hs
    · simp [Constr.softEq, (hls' c hc).2.1] at hs
  obtain ⟨qp, hqp⟩ := assemble_total (env.settings st.prob.1) env.qr (st.cs ++ (m ++ (lim ++ user))) hsized fun h => by
    rw [show (env.settings st.prob.1).rewriteEqualities = env.rewriteEqualities from rfl, hre] at h; cases h
  have hsum : ∀ (f : Constr ℝ → Nat) (l : List (Constr ℝ)) (c : Constr ℝ), c ∈ l → 0 < f c → 0 < (l.map f).sum := by
    intro f l c hc h
    exact lt_of_lt_of_le h (List.single_le_sum (fun _ _ => Nat.zero_le _) _ (List.mem_map.2 ⟨c, hc, rfl⟩))
  have hmne : ∃ c, c ∈ m := by
    cases hmm : m with
    | cons c l => exact ⟨c, by simp⟩
    | nil =>
      rw [hmm] at m4
      obtain ⟨h1, h2⟩ := (m4 fun _ => 1).1 (HardSat_nil _)
      rcases hm' with h | h
      · exact absurd (h2 h 0 (by omega)) one_ne_zero
      · obtain ⟨d, l', hd⟩ := List.exists_cons_of_ne_nil h
        exact absurd (h1 d (by rw [hd]; simp)) one_ne_zero
  obtain ⟨cm, hcm⟩ := hmne
  have e1 : 0 < nEqualities (st.cs ++ (m ++ (lim ++ user))) := by
    unfold nEqualities
    refine hsum _ _ cm (by simp [hcm]) ?_
    obtain ⟨⟨-, a, -⟩, b, d⟩ := mr1 cm hcm
    simp [Constr.hardEq, b, d, a]
  obtain ⟨l, hl, h1, h2⟩ := forall₂_mem_left hls0 k hk
  have hlne : ∃ c, c ∈ l := by
    cases hll : l with
    | cons c l => exact ⟨c, by simp⟩
    | nil =>
      obtain ⟨y, hy⟩ := hrow
      exact absurd ((h2 y).1 (by rw [hll]; simp)) hy
  obtain ⟨cu, hcu⟩ := hlne
  have hcu' : cu ∈ user := by rw [huser]; exact List.mem_flatten.2 ⟨l, hl, hcu⟩
  have e2 : 0 < nSlack (st.cs ++ (m ++ (lim ++ user))) := by
    unfold nSlack
    refine hsum _ _ cu (by simp [hcu']) ?_
    obtain ⟨⟨-, a, -⟩, b, d, -⟩ := h1 cu hcu
    have hp : cu.priority = .soft := by
      cases hp : cu.priority with
      | soft => rfl
      | hard => exact absurd (d.1 hp) hks
    simp [Constr.softIneq, b, hp, a]
  unfold finish
  simp only [c7]
  rw [C144_mismatch_refuted (env.settings st.prob.1) env.qr _ qp hre hqp e1 e2]

/-! ## A case that meets the hypotheses -/

/-- The hinge below `b`. -/
noncomputable def hingeBelow (p : Tools.Priority) (b : ℝ) : IkConstraint :=
  .halfSpaces ⟨⟨1, 8, fun _ j => if j = 7 then 1 else 0⟩, ⟨1, fun _ => b⟩, p, 1⟩

theorem hingeBelow_holds (p : Tools.Priority) (b : ℝ) (y : Nat → ℝ) : (hingeBelow p b).Holds hingeRobot hingeState y ↔ y 6 ≤ b := by
  simp [hingeBelow, IkConstraint.Holds, hingeRobot, hingeState]

/-- A soft task asks the hinge to reach 1/2, a hard constraint keeps it below 1/4, a soft one asks for the impossible −2: with exact
solvers a step is found; with the last one hard, the solve raises. -/
example : ∃ env : QPEnv ℝ, env.Exact ∧ env.rewriteEqualities = true ∧
    (∃ dq, (solve env hingeRobot [hingeGoal] ([hingeBelow .hard (1 / 4), hingeBelow .soft (-2)].map (·.toConstraint hingeRobot)) true hingeState).2
      = .ok dq) ∧
    (solve env hingeRobot [hingeGoal] ([hingeBelow .hard (1 / 4), hingeBelow .hard (-2)].map (·.toConstraint hingeRobot)) true hingeState).2
      = .error .qpError := by
  obtain ⟨env, hex, hS, hO, hreg, hre, -, htol⟩ := exact_env_exists 1 0 0 true
  have hupd : ∀ t ∈ [hingeGoal], ∃ M, t.update hingeState.robot = .ok M ∧ 0 < M.cols ∧ M.cols ≤ hingeRobot.nv := by
    intro t ht
    rw [List.mem_singleton] at ht
    subst ht
    obtain ⟨M, h1, h2⟩ := hingeGoal_update hingeState.robot
    exact ⟨M, h1, by omega, by rw [h2]; decide⟩
  have hjs : ∀ j ∈ hingeRobot.joints, j = ⟨"hinge", 7, 1, 6, 1⟩ := fun j hj => List.mem_singleton.1 hj
  have hready : ∀ p b, (hingeBelow p b).Ready hingeRobot hingeState := fun p b => ⟨Nat.one_pos, rfl, rfl, rfl⟩
  refine ⟨env, hex, hre, ?_, ?_⟩
  · refine C180_safe env hingeRobot hinge_layout (fun j hj => by rw [hjs j hj]) (by decide) [hingeGoal] _ true hingeState
      (.inl ⟨rfl, rfl, rfl⟩) hupd (fun t ht => by rw [List.mem_singleton] at ht; subst ht; exact ⟨rfl, zero_le_one⟩)
      (by rw [hreg]; exact one_pos) (by rw [htol]) hex ⟨List.nodup_nil, fun d hd => (by cases hd)⟩ (fun h => by cases h)
      (fun _ i _ => by constructor <;> norm_num [hingeRobot, hingeState]) (fun h => by cases h) ?_ ?_ (.inl hre) ?_
    · intro k hk
      simp only [List.mem_cons, List.not_mem_nil, or_false] at hk
      rcases hk with rfl | rfl <;> exact hready _ _
    · intro k hk _
      simp only [List.mem_cons, List.not_mem_nil, or_false] at hk
      rcases hk with rfl | rfl <;> exact one_pos
    · intro k hk hh
      simp only [List.mem_cons, List.not_mem_nil, or_false] at hk
      rcases hk with rfl | rfl
      · rw [hingeBelow_holds]; norm_num
      · cases hh
  · refine (C180_exact env hingeRobot hinge_layout (fun j hj => by rw [hjs j hj]) (by decide) [hingeGoal] _ true hingeState
      (.inl ⟨rfl, rfl, rfl⟩) hupd (fun t ht _ => by rw [List.mem_singleton] at ht; subst ht; exact zero_le_one)
      (by rw [hreg]; exact one_pos) (by rw [htol]) hex ⟨List.nodup_nil, fun d hd => (by cases hd)⟩ (fun h => by cases h.1) ?_ ?_ (.inl hre)).2 ?_
    · intro k hk
      simp only [List.mem_cons, List.not_mem_nil, or_false] at hk
      rcases hk with rfl | rfl <;> exact hready _ _
    · intro k hk _
      simp only [List.mem_cons, List.not_mem_nil, or_false] at hk
      rcases hk with rfl | rfl <;> exact one_pos
    · rintro ⟨⟨y, σ, hA, hk⟩, -⟩
      have h1 := (hingeBelow_holds .hard (-2) y).1 (hk _ (by simp) rfl)
      have h2 := (hA.joint rfl 0 (by decide)).2
      norm_num [hingeRobot, hingeState] at h2
      linarith

end Verif.Kinematics
