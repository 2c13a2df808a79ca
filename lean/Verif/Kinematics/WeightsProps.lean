/-
Properties C185 and C186 for inverse kinematics: the weights of hard and scaled tasks and of hard constraints have no effect, and a greater
weight never makes the error of a soft task greater.
-/
import Verif.Problem.WeightsProps
import Verif.Kinematics.ConstrainedProps
import Verif.Kinematics.TasksProps2

namespace Verif.Kinematics
open Finset Verif.Problem

section
variable {K : Type} [Field K] [LinearOrder K] [IsStrictOrderedRing K]

/-! ## The loop over tasks only appends constraints -/

/-- The state with other constraints in front. -/
def LoopSt.after (l : List (Constr K)) (p : LoopSt K × Option Err) : LoopSt K × Option Err := ({ p.1 with cs := l ++ p.1.cs }, p.2)

omit [LinearOrder K] [IsStrictOrderedRing K] in
theorem ensureScale_after (st : LoopSt K) (l : List (Constr K)) :
    ensureScale { st with cs := l ++ st.cs } = LoopSt.after l (ensureScale st) := by
  unfold ensureScale LoopSt.after
  by_cases h : st.hasScaling = true
  · simp only [h, if_true]
  · simp only [h, if_false, Bool.false_eq_true]
    cases hsv : st.scaleVar with
    | some i =>
      simp only
      cases scaleConstraints (K := K) (varAt st.prob ((some i).getD 0)) with
      | error e => rfl
      | ok m => simp only [List.append_assoc]
    | none =>
      simp only
      cases scaleConstraints (K := K) (varAt (addVariable st.prob 1) ((some st.prob.2.length).getD 0)) with
      | error e => rfl
      | ok m => simp only [List.append_assoc]

omit [LinearOrder K] [IsStrictOrderedRing K] in
theorem taskStep_after (robot : RState K) (t : Task K) (st : LoopSt K) (l : List (Constr K)) :
    taskStep robot { st with cs := l ++ st.cs } t = LoopSt.after l (taskStep robot st t) := by
  unfold taskStep
  cases t.update robot with
  | error e => rfl
  | ok M =>
    simp only
    by_cases h0 : M.rows = 0
    · simp only [h0, if_true]
      rfl
    · simp only [h0, if_false]
      by_cases hp : t.priority = .scaled
      · simp only [hp, if_true]
        rw [ensureScale_after]
        rcases hes : ensureScale st with ⟨st1, _ | e⟩
        · simp only [LoopSt.after]
          cases scaledExpr (varAt st1.prob (st1.scaleVar.getD 0)) M >>= fun e => e.eqDouble 0 with
          | error e => rfl
          | ok c => simp only [List.append_assoc]
        · rfl
      · simp only [hp, if_false]
        cases (plainExpr M).eqDouble 0 with
        | error e => rfl
        | ok c => simp only [LoopSt.after, List.append_assoc]

omit [LinearOrder K] [IsStrictOrderedRing K] in
theorem runTasks_after (robot : RState K) (l : List (Constr K)) : ∀ (ts : List (Task K)) (st : LoopSt K),
    runTasks robot { st with cs := l ++ st.cs } ts = LoopSt.after l (runTasks robot st ts)
  | [], st => rfl
  | t :: ts, st => by
    rw [runTasks, runTasks, taskStep_after]
    rcases taskStep robot st t with ⟨st1, _ | e⟩
    · simp only [LoopSt.after]
      exact runTasks_after robot l ts st1
    · rfl

/-! ## C185: weights of hard and scaled tasks -/

/-- Two states of the loop that differ by weights of hard constraints only. -/
def LoopSt.Same (p p' : LoopSt K × Option Err) : Prop :=
  p'.2 = p.2 ∧ p'.1.prob = p.1.prob ∧ p'.1.scaleVar = p.1.scaleVar ∧ p'.1.hasScaling = p.1.hasScaling ∧
    SameButHardWeights p.1.cs p'.1.cs

/-- Tasks that differ by the weights of those that are not soft. -/
def SameButHardTaskWeights (ts ts' : List (Task K)) : Prop :=
  List.Forall₂ (fun t t' => t' = { t with weight := t'.weight } ∧ (t.priority = .soft → t'.weight = t.weight)) ts ts'

omit [LinearOrder K] [IsStrictOrderedRing K] in
theorem taskStep_same (robot : RState K) (t : Task K) (w : K) (hw : t.priority = .soft → w = t.weight) (st : LoopSt K) :
    LoopSt.Same (taskStep robot st t) (taskStep robot st { t with weight := w }) := by
  unfold taskStep
  simp only
  have hrefl : ∀ p : LoopSt K × Option Err, LoopSt.Same p p := fun p => ⟨rfl, rfl, rfl, rfl, sameWeights_refl _⟩
  cases t.update robot with
  | error e => exact hrefl _
  | ok M =>
    simp only
    by_cases h0 : M.rows = 0
    · simp only [h0, if_true]
      exact hrefl _
    · simp only [h0, if_false]
      by_cases hp : t.priority = .scaled
      · simp only [hp, if_true]
        rcases ensureScale st with ⟨st1, _ | e⟩
        · simp only
          cases scaledExpr (varAt st1.prob (st1.scaleVar.getD 0)) M >>= fun e => e.eqDouble 0 with
          | error e => exact hrefl _
          | ok c =>
            refine ⟨rfl, rfl, rfl, rfl, sameWeights_append (sameWeights_refl _) (.cons ⟨rfl, fun h => ?_⟩ .nil)⟩
            cases h
        · exact hrefl _
      · simp only [hp, if_false]
        cases (plainExpr M).eqDouble 0 with
        | error e => exact hrefl _
        | ok c =>
          refine ⟨rfl, rfl, rfl, rfl, sameWeights_append (sameWeights_refl _) (.cons ⟨rfl, fun h => ?_⟩ .nil)⟩
          by_cases hs : t.priority = .soft
          · exact hw hs
          · simp only [Constr.configureP, if_neg hs] at h
            cases h

omit [LinearOrder K] [IsStrictOrderedRing K] in
theorem runTasks_same (robot : RState K) : ∀ (ts ts' : List (Task K)) (st : LoopSt K), SameButHardTaskWeights ts ts' →
    LoopSt.Same (runTasks robot st ts) (runTasks robot st ts')
  | _, _, st, .nil => ⟨rfl, rfl, rfl, rfl, sameWeights_refl _⟩
  | t :: ts, t' :: ts', st, .cons ht hts => by
    obtain ⟨h1, h2⟩ := ht
    have hs := taskStep_same robot t t'.weight h2 st
    rw [← h1] at hs
    rw [runTasks, runTasks]
    rcases e1 : taskStep robot st t with ⟨st1, r1⟩
    rcases e2 : taskStep robot st t' with ⟨st2, r2⟩
    rw [e1, e2] at hs
    obtain ⟨p1, p2, p3, p4, p5⟩ := hs
    simp only at p1 p2 p3 p4 p5
    subst p1
    cases r2 with
    | some e => exact ⟨rfl, p2, p3, p4, p5⟩
    | none =>
      simp only
      obtain ⟨pr1, sv1, hs1, c1⟩ := st1
      obtain ⟨pr2, sv2, hs2, c2⟩ := st2
      simp only at p2 p3 p4 p5
      subst p2
      subst p3
      subst p4
      have a1 := runTasks_after robot c1 ts ⟨pr2, sv2, hs2, []⟩
      have a2 := runTasks_after robot c2 ts' ⟨pr2, sv2, hs2, []⟩
      simp only [List.append_nil] at a1 a2
      rw [a1, a2]
      obtain ⟨q1, q2, q3, q4, q5⟩ := runTasks_same robot ts ts' ⟨pr2, sv2, hs2, []⟩ hts
      exact ⟨q1, q2, q3, q4, sameWeights_append p5 q5⟩

/-- Constraints that add the same, but for the weights of hard constraints. -/
def SameButHardConstraintWeights (cons cons' : List (KConstraint K)) : Prop :=
  List.Forall₂ (fun c c' => ∀ s, match c.add s, c'.add s with
    | .ok l, .ok l' => SameButHardWeights l l'
    | .error e, .error e' => e' = e
    | _, _ => False) cons cons'

omit [IsStrictOrderedRing K] in
/-- **C185 (kinematics).** The weights of the tasks that are not soft, and those of hard constraints, have no effect at all on `solve`. -/
theorem C185_kinematics (env : QPEnv K) (r : Robot K) (tasks tasks' : List (Task K)) (ht : SameButHardTaskWeights tasks tasks')
    (cons cons' : List (KConstraint K)) (hc : SameButHardConstraintWeights cons cons') (apply : Bool) (s : KState K) :
    solve env r tasks' cons' apply s = solve env r tasks cons apply s := by
  have hadd : ∀ s : KState K, (∃ e, cons.mapM (fun c => c.add s) = .error e ∧ cons'.mapM (fun c => c.add s) = .error e) ∨
      ∃ l l', cons.mapM (fun c => c.add s) = .ok l ∧ cons'.mapM (fun c => c.add s) = .ok l' ∧ SameButHardWeights l.flatten l'.flatten := by
    intro s
    induction hc with
    | nil => exact .inr ⟨[], [], rfl, rfl, .nil⟩
    | @cons c c' _ _ h1 _ ih =>
      have h1 := h1 s
      rw [List.mapM_cons, List.mapM_cons]
      cases e1 : c.add s with
      | error e =>
        cases e2 : c'.add s with
        | error e' =>
          rw [e1, e2] at h1
          simp only at h1
          subst h1
          exact .inl ⟨_, rfl, rfl⟩
        | ok l' => rw [e1, e2] at h1; exact absurd h1 id
      | ok l =>
        cases e2 : c'.add s with
        | error e' => rw [e1, e2] at h1; exact absurd h1 id
        | ok l' =>
          rw [e1, e2] at h1
          simp only at h1
          rcases ih with ⟨e, i1, i2⟩ | ⟨m, m', i1, i2, i3⟩
          · exact .inl ⟨e, by rw [i1]; rfl, by rw [i2]; rfl⟩
          · refine .inr ⟨l :: m, l' :: m', by rw [i1]; rfl, by rw [i2]; rfl, ?_⟩
            rw [List.flatten_cons, List.flatten_cons]
            exact sameWeights_append h1 i3
  unfold solve
  simp only
  generalize ensureQd r s = s1
  obtain ⟨p1, p2, p3, p4, p5⟩ := runTasks_same s1.robot tasks tasks' ⟨s1.prob, s1.scaleVar, false, []⟩ ht
  rw [p1, p2, p3, p4]
  cases (runTasks s1.robot ⟨s1.prob, s1.scaleVar, false, []⟩ tasks).2 with
  | some e => rfl
  | none =>
    simp only
    generalize ({ s1 with prob := _, scaleVar := _, hasScaling := _ } : KState K) = s2
    unfold afterTasks otherConstraints
    cases maskConstraints s2 (varAt s2.prob (s2.qdVar.getD 0)) with
    | error e => rfl
    | ok m =>
      cases limitsInequalities r s2 (varAt s2.prob (s2.qdVar.getD 0)) with
      | error e => rfl
      | ok lim =>
        simp only [Bind.bind, Except.bind]
        rcases hadd s2 with ⟨e, i1, i2⟩ | ⟨l, l', i1, i2, i3⟩
        · rw [i1, i2]
        · rw [i1, i2]
          simp only [pure, Except.pure]
          unfold finish
          rw [(C185_problem _ _ _ _ _ _ (sameWeights_append p5 (sameWeights_append (sameWeights_refl (m ++ lim)) i3)) _).2]

/-! ## C186: greater weights of soft tasks -/

/-- The squared error of a task after the step `x`. -/
def taskError (robot : RState K) (t : Task K) (x : Nat → K) : K :=
  match t.update robot with
  | .error _ => 0
  | .ok M => ∑ i ∈ range M.rows, (M.app x i - M.b i) ^ 2

omit [LinearOrder K] [IsStrictOrderedRing K] in
theorem runTasks_append (robot : RState K) : ∀ (a b : List (Task K)) (st : LoopSt K),
    runTasks robot st (a ++ b) = match runTasks robot st a with
      | (st, some e) => (st, some e)
      | (st, none) => runTasks robot st b
  | [], b, st => rfl
  | t :: a, b, st => by
    rw [List.cons_append, runTasks, runTasks]
    rcases taskStep robot st t with ⟨st1, _ | e⟩
    · exact runTasks_append robot a b st1
    · rfl

/-- What the weight of a soft task changes in the problem: the weight of one constraint. -/
theorem runTasks_weight (robot : RState K) (a b : List (Task K)) (t : Task K) (ht : t.priority = .soft)
    (hcols : ∀ M, t.update robot = .ok M → 0 < M.cols) (st : LoopSt K) :
    (∀ w, (runTasks robot st (a ++ { t with weight := w } :: b)).2 ≠ none) ∨
    (∃ p : LoopSt K, (∀ x, taskError robot t x = 0) ∧ ∀ w, runTasks robot st (a ++ { t with weight := w } :: b) = (p, none)) ∨
    ∃ (p : LoopSt K) (l m : List (Constr K)) (c : Constr K), c.priority = .soft ∧ (∀ x, squaredViolation x c = taskError robot t x) ∧
      ∀ w, runTasks robot st (a ++ { t with weight := w } :: b) = ({ p with cs := l ++ { c with weight := w } :: m }, none) := by
  rcases ha : runTasks robot st a with ⟨st1, _ | e⟩
  · have h1 : ∀ w, runTasks robot st (a ++ { t with weight := w } :: b) = runTasks robot st1 ({ t with weight := w } :: b) := fun w => by
      rw [runTasks_append, ha]
    cases hu : t.update robot with
    | error e =>
      refine .inl fun w => ?_
      rw [h1, runTasks]
      simp [taskStep, hu]
    | ok M =>
      by_cases h0 : M.rows = 0
      · rcases hb : runTasks robot st1 b with ⟨st2, _ | e⟩
        · refine .inr (.inl ⟨st2, fun x => ?_, fun w => ?_⟩)
          · unfold taskError
            rw [hu]
            simp [h0]
          · rw [h1, runTasks]
            simp [taskStep, hu, h0, hb]
        · refine .inl fun w => ?_
          rw [h1, runTasks]
          simp [taskStep, hu, h0, hb]
      · obtain ⟨c, c1, c2, -, c3⟩ := eqDouble_zero (plainExpr M) 0
        obtain ⟨r1, -, r2⟩ := c3 (hcols M hu)
        have h2 : ∀ w, taskStep robot st1 { t with weight := w } =
            ({ st1 with cs := st1.cs ++ [{ c with priority := .soft, weight := w }] }, none) := fun w => by
          simp [taskStep, hu, h0, ht, c1, Constr.configureP]
        have h3 : ∀ w, runTasks robot st (a ++ { t with weight := w } :: b) =
            LoopSt.after (st1.cs ++ [{ c with priority := .soft, weight := w }]) (runTasks robot { st1 with cs := [] } b) := fun w => by
          rw [h1, runTasks, h2]
          have := runTasks_after robot (st1.cs ++ [{ c with priority := .soft, weight := w }]) b { st1 with cs := [] }
          simp only [List.append_nil] at this
          exact this
        rcases hb : runTasks robot { st1 with cs := [] } b with ⟨st2, _ | e⟩
        · refine .inr (.inr ⟨st2, st1.cs, st2.cs, { c with priority := .soft }, rfl, fun x => ?_, fun w => ?_⟩)
          · unfold squaredViolation taskError
            rw [hu]
            simp only [c2]
            rw [r1]
            refine sum_congr rfl fun i _ => ?_
            rw [r2, plainExpr_rowVal, sub_zero]
          · rw [h3, hb]
            simp [LoopSt.after]
        · refine .inl fun w => ?_
          rw [h3, hb]
          simp [LoopSt.after]
  · refine .inl fun w => ?_
    rw [runTasks_append, ha]
    simp

/-- **C186 (kinematics).** With an optimal solver. Raising the weight of a soft task never makes its error after the step greater, whatever
the other tasks, the constraints and the limits. -/
theorem C186_kinematics (env : QPEnv K) (hS : env.Sound) (hO : env.Optimal) (r : Robot K) (hqv : r.nv - 6 ≤ r.nq) (a b : List (Task K)) (t : Task K)
    (ht : t.priority = .soft) (w w' : K) (hww : w < w') (cons : List (KConstraint K))
    (hcons : ∀ c ∈ cons, ∀ s l, c.add s = .ok l → ∀ d ∈ l, d.priority = .soft → 0 ≤ d.weight) (apply : Bool) (s s1 s2 : KState K)
    (hv : VarsOK r.nv s.prob s.qdVar s.scaleVar)
    (hfit : ∀ u ∈ a ++ t :: b, ∀ M, u.update s.robot = .ok M → 0 < M.cols ∧ M.cols ≤ r.nv) (dq dq' : Nat → K)
    (h : solve env r (a ++ { t with weight := w } :: b) cons apply s = (s1, .ok dq))
    (h' : solve env r (a ++ { t with weight := w' } :: b) cons apply s = (s2, .ok dq')) :
    taskError s.robot t dq' ≤ taskError s.robot t dq := by
  have hcongr : ∀ x y : Nat → K, (∀ k, k < r.nv → x k = y k) → taskError s.robot t x = taskError s.robot t y := by
    intro x y hxy
    unfold taskError
    cases hM : t.update s.robot with
    | error e => rfl
    | ok M =>
      simp only
      refine sum_congr rfl fun i _ => ?_
      have : M.app x i = M.app y i := by
        unfold TaskMat.app
        refine sum_congr rfl fun j hj => ?_
        rw [hxy j (lt_of_lt_of_le (mem_range.1 hj) (hfit t (by simp) M hM).2)]
      rw [this]
  obtain ⟨hv1, hq1⟩ := ensureQd_vars r s hv
  have hrobot : (ensureQd r s).robot = s.robot := by unfold ensureQd; split <;> rfl
  unfold solve at h h'
  simp only at h h'
  generalize ensureQd r s = s0 at *
  have hinv : ∀ w (p : LoopSt K), runTasks s0.robot ⟨s0.prob, s0.scaleVar, false, []⟩ (a ++ { t with weight := w } :: b) = (p, none) → LInv r.nv p ∧
      ∀ c ∈ p.cs, c.priority = .soft → c.ty = .equality := by
    intro w p hp
    refine ⟨(runTasks_spec r.nv s0.robot _ ⟨s0.prob, s0.scaleVar, false, []⟩ ⟨hv1, fun h => by cases h⟩ (fun u hu M hM => ?_) p none hp).1,
      runTasks_softEq s0.robot _ ⟨s0.prob, s0.scaleVar, false, []⟩ (by simp) p none hp rfl⟩
    rw [hrobot] at hM
    rcases List.mem_append.1 hu with hu | hu
    · exact (hfit u (by simp [hu]) M hM).2
    · rcases List.mem_cons.1 hu with rfl | hu
      · exact (hfit t (by simp) M hM).2
      · exact (hfit u (by simp [hu]) M hM).2
  have hrt := runTasks_weight s0.robot a b t ht (fun M hM => by rw [hrobot] at hM; exact (hfit t (by simp) M hM).1) ⟨s0.prob, s0.scaleVar, false, []⟩
  rw [hrobot] at hrt hinv h h'
  rcases hrt with hn | ⟨p, hz, -⟩ | ⟨p, l, m, c, hc, hsv, hp⟩
  · have := hn w
    rcases he : runTasks s.robot ⟨s0.prob, s0.scaleVar, false, []⟩ (a ++ { t with weight := w } :: b) with ⟨q, _ | e⟩
    · rw [he] at this
      exact absurd rfl this
    · rw [he] at h
      cases h
  · rw [hz, hz]
  · have i1 := hinv w _ (hp w)
    have i2 := hinv w' _ (hp w')
    rw [hp w] at h
    rw [hp w'] at h'
    simp only at h h'
    unfold afterTasks at h h'
    simp only [hq1, Option.getD_some] at h h'
    have hvar : varAt p.prob 0 = ⟨0, r.nv⟩ := varAt_qd r.nv p.prob p.scaleVar i1.1.1
    cases ho : otherConstraints r cons { s0 with robot := s.robot, prob := p.prob, qdVar := some 0, scaleVar := p.scaleVar, hasScaling := p.hasScaling }
        (varAt p.prob 0) with
    | error e =>
      rw [ho] at h
      cases h
    | ok o =>
      rw [ho] at h h'
      simp only at h h'
      obtain ⟨-, -, -, -, f5⟩ := finish_spec env r apply _ _ s1 _ (by exact i1.1.1) (by rfl) (by exact i1.1.2) h
      obtain ⟨-, -, -, -, g5⟩ := finish_spec env r apply _ _ s2 _ (by exact i2.1.1) (by rfl) (by exact i2.1.2) h'
      obtain ⟨x, x1, -, -, x4, x5⟩ := f5 hS dq rfl
      obtain ⟨y, y1, -, -, y4, y5⟩ := g5 hS dq' rfl
      have hoth : ∀ d ∈ o, d.priority = .soft → d.ty = .inequality → 0 ≤ d.weight := by
        intro d hd hds _
        obtain ⟨mk, lim, cl, e1, e2, e3, rfl⟩ := other_spec r cons _ _ o ho
        simp only [List.mem_append, List.mem_flatten] at hd
        rcases hd with (hd | hd) | ⟨l', hl', hd⟩
        · rw [hvar] at e1
          rw [(mask_spec r.nv _ mk e1).1 d hd] at hds
          cases hds
        · rw [hvar] at e2
          rw [(limits_spec r _ lim e2 hqv).2.1 d hd] at hds
          cases hds
        · obtain ⟨c', hc', hcl⟩ := mapM_mem _ e3 l' hl'
          exact hcons c' hc' _ l' hcl d hd hds
      have hlist : ∀ v : K, (l ++ { c with weight := v } :: m) ++ o = l ++ { c with weight := v } :: (m ++ o) := fun v => by simp
      rw [hlist] at x4 x5 y4 y5
      have hin : ∀ v : K, (∀ d ∈ l ++ { c with weight := v } :: m, d.priority = .soft → d.ty = .equality) →
          ∀ d ∈ l ++ { c with weight := v } :: (m ++ o), d.priority = .soft → d.ty = .inequality → 0 ≤ d.weight := by
        intro v hv d hd h1 h2
        rw [← hlist] at hd
        rcases List.mem_append.1 hd with hd | hd
        · rw [hv d hd h1] at h2
          cases h2
        · exact hoth d hd h1 h2
      have m1 := x5 hO (hin w i1.2)
      have m2 := y5 hO (hin w' i2.2)
      simp only [hardSat_weight l (m ++ o) c hc, specCost_weight _ _ l (m ++ o) c hc] at x4 y4 m1 m2
      have := (weight_tradeoff (HardSat (l ++ (m ++ o))) _ (fun y => squaredViolation y c) hww x4 y4 m1 m2).1
      simp only [hsv] at this
      rw [hcongr dq x x1, hcongr dq' y y1]
      exact this


/-! ## C186: bounds on the error, and the regularization task -/

omit [LinearOrder K] [IsStrictOrderedRing K] in
theorem taskCost_soft (robot : RState K) (t : Task K) (h : t.priority = .soft) (y : Nat → K) : taskCost robot t y = t.weight * taskError robot t y := by
  unfold taskCost taskError
  cases t.update robot with
  | error e => simp
  | ok M => simp only [h, if_true, mul_sum]

omit [LinearOrder K] [IsStrictOrderedRing K] in
theorem ikCost_split (nv : Nat) (reg : K) (a b : List (Task K)) (t : Task K) (robot : RState K) (sc : Bool) (y : Nat → K) (σ : K) :
    ikCost nv reg (a ++ t :: b) robot sc y σ = ikCost nv reg (a ++ b) robot sc y σ + taskCost robot t y := by
  unfold ikCost
  simp only [List.map_append, List.map_cons, List.sum_append, List.sum_cons]
  ring

theorem ikCost_nonneg (nv : Nat) (reg : K) (hreg : 0 ≤ reg) (tasks : List (Task K)) (hw : ∀ u ∈ tasks, u.priority = .soft → 0 ≤ u.weight)
    (robot : RState K) (sc : Bool) (y : Nat → K) (σ : K) : 0 ≤ ikCost nv reg tasks robot sc y σ := by
  unfold ikCost
  have h1 : 0 ≤ (tasks.map fun t => taskCost robot t y).sum := by
    refine List.sum_nonneg fun z hz => ?_
    obtain ⟨u, hu, rfl⟩ := List.mem_map.1 hz
    unfold taskCost
    cases u.update robot with
    | error e => exact le_refl _
    | ok M =>
      simp only
      split
      · exact sum_nonneg fun i _ => mul_nonneg (hw u hu (by assumption)) (sq_nonneg _)
      · exact le_refl _
  have h2 : (0 : K) ≤ if sc = true then σ ^ 2 else 0 := by split <;> [exact sq_nonneg _; exact le_refl _]
  have h3 : (0 : K) ≤ if sc = true then (σ - 1) ^ 2 else 0 := by split <;> [exact sq_nonneg _; exact le_refl _]
  have h4 := mul_nonneg hreg (add_nonneg (sum_nonneg fun k (_ : k ∈ range nv) => sq_nonneg (y k)) h2)
  linarith

omit [IsStrictOrderedRing K] in
theorem admissible_soft (r : Robot K) (a b : List (Task K)) (t : Task K) (ht : t.priority = .soft) (s : KState K) (sc : Bool) (y : Nat → K) (σ : K) :
    Admissible r (a ++ t :: b) s sc y σ ↔ Admissible r (a ++ b) s sc y σ := by
  have hs : TaskHard s.robot t y σ := fun M _ i _ => ⟨fun h => (by rw [ht] at h; cases h), fun h => (by rw [ht] at h; cases h)⟩
  have key : (∀ u ∈ a ++ t :: b, TaskHard s.robot u y σ) ↔ ∀ u ∈ a ++ b, TaskHard s.robot u y σ := by
    constructor
    · intro h u hu
      exact h u (by rcases List.mem_append.1 hu with hu | hu <;> simp [hu])
    · intro h u hu
      rcases List.mem_append.1 hu with hu | hu
      · exact h u (by simp [hu])
      · rcases List.mem_cons.1 hu with rfl | hu
        · exact hs
        · exact h u (by simp [hu])
  exact ⟨fun h => ⟨key.1 h.tasks, h.scale, h.masked, h.fbase, h.joint, h.velocity⟩,
    fun h => ⟨key.2 h.tasks, h.scale, h.masked, h.fbase, h.joint, h.velocity⟩⟩

/-- **C186 (bound).** Without user constraints. The error of a soft task of weight `w` after the step exceeds the error that any other
admissible step leaves by no more than the rest of the cost of that step divided by `w`: as the weight grows, the error comes as near as
wanted to the least one that the hard and scaled tasks, the masks and the limits allow. -/
theorem C186_limit (env : QPEnv K) (hS : env.Sound) (hO : env.Optimal) (hreg : 0 ≤ env.regularization) (r : Robot K)
    (hL : r.Layout) (hsize : ∀ j ∈ r.joints, j.nV ≤ j.nQ) (a b : List (Task K)) (t : Task K) (ht : t.priority = .soft) (hw : 0 < t.weight)
    (hab : ∀ u ∈ a ++ b, u.priority = .soft → 0 ≤ u.weight) (apply : Bool) (s s' : KState K) (dq : Nat → K)
    (hv : VarsOK r.nv s.prob s.qdVar s.scaleVar)
    (hfit : ∀ u ∈ a ++ t :: b, ∀ M, u.update s.robot = .ok M → 0 < M.cols ∧ M.cols ≤ r.nv)
    (h : solve env r (a ++ t :: b) [] apply s = (s', .ok dq)) (y : Nat → K) (σ : K) (hy : Admissible r (a ++ b) s s'.hasScaling y σ) :
    taskError s.robot t dq ≤ taskError s.robot t y + ikCost r.nv env.regularization (a ++ b) s.robot s'.hasScaling y σ / t.weight := by
  obtain ⟨-, hm⟩ := C96 env hS hO hreg r hL hsize _ apply s s' dq hv hfit h
  have h1 := hm y σ ((admissible_soft r a b t ht s _ y σ).2 hy)
  rw [ikCost_split, ikCost_split, taskCost_soft _ _ ht, taskCost_soft _ _ ht] at h1
  have h0 := ikCost_nonneg r.nv env.regularization hreg (a ++ b) hab s.robot s'.hasScaling dq s'.scale
  have e : t.weight * (taskError s.robot t y + ikCost r.nv env.regularization (a ++ b) s.robot s'.hasScaling y σ / t.weight) =
      t.weight * taskError s.robot t y + ikCost r.nv env.regularization (a ++ b) s.robot s'.hasScaling y σ := by
    field_simp
  refine le_of_mul_le_mul_left ?_ hw
  rw [e]
  linarith

end

/-- `add_regularization_task(magnitude)`, as the solver sees it. kinematics_solver.cpp 157-164, regularization_task.cpp 6-47. -/
noncomputable def regularizationTask (r : Robot ℝ) (magnitude : ℝ) : Task ℝ :=
  ⟨.soft, 1, fun _ => ((RegTask.setWeight {} magnitude).update r).2⟩

theorem regularizationTask_cost (r : Robot ℝ) (hn : 6 ≤ r.nv) (m : ℝ) (hm : 0 ≤ m) (robot : RState ℝ) :
    (∃ M, (regularizationTask r m).update robot = .ok M ∧ M.cols = r.nv) ∧
    ∀ y : Nat → ℝ, taskCost robot (regularizationTask r m) y = m * ∑ i ∈ range (r.nv - 6), y (6 + i) ^ 2 := by
  have hu : (regularizationTask r m).update robot =
      .ok ⟨r.nv - 6, r.nv, fun i j => if 6 + i = j then Real.sqrt m else 0, fun _ => 0⟩ := by
    simp [regularizationTask, RegTask.setWeight, RegTask.update, regOverrides, hn]
  refine ⟨⟨_, hu, rfl⟩, fun y => ?_⟩
  unfold taskCost
  rw [hu]
  simp only [regularizationTask, if_true, one_mul, mul_sum]
  refine sum_congr rfl fun i hi => ?_
  have hi := mem_range.1 hi
  unfold TaskMat.app
  simp only
  rw [sum_eq_single_of_mem (6 + i) (mem_range.2 (by omega)) fun j _ hj => by rw [if_neg (fun h => hj h.symm), zero_mul],
    if_pos rfl, sub_zero, mul_pow, Real.sq_sqrt hm]

/-- **C186 (regularization).** The greater the magnitude of the regularization task, the smaller the motion of the joints found by an optimal
solver, whatever the other tasks, the masks and the limits. -/
theorem C186_regularization (env : QPEnv ℝ) (hS : env.Sound) (hO : env.Optimal) (hreg : 0 ≤ env.regularization) (r : Robot ℝ)
    (hL : r.Layout) (hsize : ∀ j ∈ r.joints, j.nV ≤ j.nQ) (hn : 6 < r.nv) (a b : List (Task ℝ)) (m m' : ℝ) (hm : 0 ≤ m) (hmm : m < m')
    (apply : Bool) (s s1 s2 : KState ℝ) (dq dq' : Nat → ℝ) (hv : VarsOK r.nv s.prob s.qdVar s.scaleVar)
    (hfit : ∀ u ∈ a ++ b, ∀ M, u.update s.robot = .ok M → 0 < M.cols ∧ M.cols ≤ r.nv)
    (h : solve env r (a ++ regularizationTask r m :: b) [] apply s = (s1, .ok dq))
    (h' : solve env r (a ++ regularizationTask r m' :: b) [] apply s = (s2, .ok dq')) :
    ∑ i ∈ range (r.nv - 6), dq' (6 + i) ^ 2 ≤ ∑ i ∈ range (r.nv - 6), dq (6 + i) ^ 2 := by
  have hf : ∀ m, 0 ≤ m → ∀ u ∈ a ++ regularizationTask r m :: b, ∀ M, u.update s.robot = .ok M → 0 < M.cols ∧ M.cols ≤ r.nv := by
    intro m hm u hu M hM
    rcases List.mem_append.1 hu with hu | hu
    · exact hfit u (by simp [hu]) M hM
    · rcases List.mem_cons.1 hu with rfl | hu
      · obtain ⟨⟨N, h1, h2⟩, -⟩ := regularizationTask_cost r hn.le m hm s.robot
        rw [h1] at hM
        cases hM
        omega
      · exact hfit u (by simp [hu]) M hM
  have f1 := hf m hm
  have f2 := hf m' (hm.trans hmm.le)
  obtain ⟨a1, o1⟩ := C96 env hS hO hreg r hL hsize _ apply s s1 dq hv f1 h
  obtain ⟨a2, o2⟩ := C96 env hS hO hreg r hL hsize _ apply s s2 dq' hv f2 h'
  have hsc : s2.hasScaling = s1.hasScaling := by
    obtain ⟨-, -, -, hA⟩ := solve_spec env r _ [] apply s s1 _ hv (fun t ht M hM => (f1 t ht M hM).2) h
    obtain ⟨-, -, -, hB⟩ := solve_spec env r _ [] apply s s2 _ hv (fun t ht M hM => (f2 t ht M hM).2) h'
    obtain ⟨x, A⟩ := hA hS dq rfl
    obtain ⟨y, B⟩ := hB hS dq' rfl
    rw [A.hasScaling, B.hasScaling]
    have hk : ∀ m, (regularizationTask r m).isScaled s.robot = false := fun m => by
      unfold Task.isScaled
      cases (regularizationTask r m).update s.robot <;> simp [regularizationTask]
    simp [List.any_append, List.any_cons, hk]
  rw [hsc] at a2 o2
  have key := weight_tradeoff (K := ℝ) (fun p : (Nat → ℝ) × ℝ => Admissible r (a ++ b) s s1.hasScaling p.1 p.2)
    (fun p => ikCost r.nv env.regularization (a ++ b) s.robot s1.hasScaling p.1 p.2) (fun p => ∑ i ∈ range (r.nv - 6), p.1 (6 + i) ^ 2)
    hmm (x := (dq, s1.scale)) (x' := (dq', s2.scale)) ((admissible_soft r a b _ rfl s _ _ _).1 a1) ((admissible_soft r a b _ rfl s _ _ _).1 a2)
    (fun p hp => by
      have := o1 p.1 p.2 ((admissible_soft r a b _ rfl s _ _ _).2 hp)
      rw [ikCost_split, ikCost_split, (regularizationTask_cost r hn.le m hm s.robot).2, (regularizationTask_cost r hn.le m hm s.robot).2] at this
      exact this)
    (fun p hp => by
      have := o2 p.1 p.2 ((admissible_soft r a b _ rfl s _ _ _).2 hp)
      rw [ikCost_split, ikCost_split, (regularizationTask_cost r hn.le m' (hm.trans hmm.le) s.robot).2,
        (regularizationTask_cost r hn.le m' (hm.trans hmm.le) s.robot).2] at this
      exact this)
  exact key.1

/-! ## Non-vacuity of C185 and C186 -/

/-- Soft task asking the first joint of the demonstration robot to move by 1/2. -/
noncomputable def pullTask (w : ℝ) : Task ℝ := ⟨.soft, w, fun _ => .ok ⟨1, 8, fun _ j => if j = 6 then 1 else 0, fun _ => 1 / 2⟩⟩

/-- The demonstration robot at rest, with its joint limits. -/
noncomputable def demoRest : KState ℝ where
  robot := ⟨fun _ => 0, fun _ => 0, fun _ => 0⟩
  dt := 0
  scale := 0

/-- An exact solver, a robot with joint limits, a soft task and the regularization task: with any weights the solver finds a step, so that
C186 applies; here are its conclusions. -/
example : ∃ env : QPEnv ℝ, env.Sound ∧ env.Optimal ∧ 0 ≤ env.regularization ∧ ∃ step : ℝ → ℝ → Nat → ℝ,
    (∀ w m, 0 ≤ w → 0 ≤ m → (solve env demoRobotR [pullTask w, regularizationTask demoRobotR m] [] true demoRest).2 = .ok (step w m)) ∧
    (∀ w w' m, 0 ≤ w → w < w' → 0 ≤ m → (step w' m 6 - 1 / 2) ^ 2 ≤ (step w m 6 - 1 / 2) ^ 2) ∧
    (∀ w m m', 0 ≤ w → 0 ≤ m → m < m' → step w m' 6 ^ 2 + step w m' 7 ^ 2 ≤ step w m 6 ^ 2 + step w m 7 ^ 2) := by
  obtain ⟨env, hex, hS, hO, hreg, hre, -, htol⟩ := exact_env_exists 1 0 0 true
  have hsize : ∀ j ∈ demoRobotR.joints, j.nV ≤ j.nQ := by
    intro j hj
    simp only [demoRobotR, List.mem_cons, List.not_mem_nil, or_false] at hj
    rcases hj with rfl | rfl <;> exact le_refl _
  have hn : 6 < demoRobotR.nv := by decide
  have hupd : ∀ w m, 0 ≤ m → ∀ t ∈ [pullTask w, regularizationTask demoRobotR m], ∃ M, t.update demoRest.robot = .ok M ∧ 0 < M.cols ∧
      M.cols ≤ demoRobotR.nv := by
    intro w m hm t ht
    simp only [List.mem_cons, List.not_mem_nil, or_false] at ht
    rcases ht with rfl | rfl
    · exact ⟨_, rfl, by decide, by decide⟩
    · obtain ⟨⟨N, h1, h2⟩, -⟩ := regularizationTask_cost demoRobotR hn.le m hm demoRest.robot
      exact ⟨N, h1, by omega, by omega⟩
  have hsol : ∀ w m, 0 ≤ w → 0 ≤ m → ∃ dq, (solve env demoRobotR [pullTask w, regularizationTask demoRobotR m] [] true demoRest).2 = .ok dq := by
    intro w m hw hm
    exact C180_safe env demoRobotR demoRobotR_layout hsize hn _ [] true demoRest (.inl ⟨rfl, rfl, rfl⟩) (hupd w m hm)
      (fun t ht => by
        simp only [List.mem_cons, List.not_mem_nil, or_false] at ht
        rcases ht with rfl | rfl
        · exact ⟨rfl, hw⟩
        · exact ⟨rfl, zero_le_one⟩)
      (by rw [hreg]; exact one_pos) (by rw [htol]) hex ⟨List.nodup_nil, fun d hd => (by cases hd)⟩ (fun h => by cases h)
      (fun _ i _ => by constructor <;> norm_num [demoRobotR, demoRest]) (fun h => by cases h) (fun k hk => by cases hk) (fun k hk => by cases hk)
      (.inl hre) (fun k hk => by cases hk)
  have hstep : ∃ step : ℝ → ℝ → Nat → ℝ, ∀ w m, 0 ≤ w → 0 ≤ m →
      (solve env demoRobotR [pullTask w, regularizationTask demoRobotR m] [] true demoRest).2 = .ok (step w m) := by
    choose! f hf using hsol
    exact ⟨f, fun w m hw hm => hf w m hw hm⟩
  obtain ⟨step, hs⟩ := hstep
  refine ⟨env, hS, hO, by rw [hreg]; exact zero_le_one, step, hs, fun w w' m hw hww hm => ?_, fun w m m' hw hm hmm => ?_⟩
  · have h1 := hs w m hw hm
    have h2 := hs w' m (hw.trans hww.le) hm
    have := C186_kinematics env hS hO demoRobotR (by decide) [] [regularizationTask demoRobotR m] (pullTask w) rfl w w' hww []
      (fun c hc => by cases hc) true demoRest _ _ (.inl ⟨rfl, rfl, rfl⟩)
      (fun u hu M hM => by
        obtain ⟨N, n1, n2⟩ := hupd w m hm u hu
        rw [n1] at hM
        cases hM
        exact n2) (step w m) (step w' m) (Prod.ext rfl h1) (Prod.ext rfl h2)
    simpa [taskError, pullTask, TaskMat.app, sum_range_succ] using this
  · have h1 := hs w m hw hm
    have h2 := hs w m' hw (hm.trans hmm.le)
    have := C186_regularization env hS hO (by rw [hreg]; exact zero_le_one) demoRobotR demoRobotR_layout hsize hn [pullTask w] [] m m' hm hmm true
      demoRest _ _ (step w m) (step w m') (.inl ⟨rfl, rfl, rfl⟩)
      (fun u hu M hM => by
        obtain ⟨N, n1, n2⟩ := hupd w m hm u (by simp at hu; simp [hu])
        rw [n1] at hM
        cases hM
        exact n2) (Prod.ext rfl h1) (Prod.ext rfl h2)
    simpa [demoRobotR, sum_range_succ] using this

/-- Hard and scaled tasks with other weights. -/
example : SameButHardTaskWeights [⟨.hard, 1, fun _ => .ok ⟨1, 8, fun _ _ => 1, fun _ => 1⟩⟩, pullTask 3, ⟨.scaled, 2, fun _ => .ok ⟨1, 8, fun _ _ => 1, fun _ => 1⟩⟩]
    [⟨.hard, 10, fun _ => .ok ⟨1, 8, fun _ _ => 1, fun _ => 1⟩⟩, pullTask 3, ⟨.scaled, 1 / 2, fun _ => .ok ⟨1, 8, fun _ _ => 1, fun _ => 1⟩⟩] := by
  refine .cons ⟨rfl, fun h => ?_⟩ (.cons ⟨rfl, fun _ => rfl⟩ (.cons ⟨rfl, fun h => ?_⟩ .nil)) <;> cases h

end Verif.Kinematics
