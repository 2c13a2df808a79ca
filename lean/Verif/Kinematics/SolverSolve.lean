/-
Helper lemmas: what an accepted `KinematicsSolver::solve` means.
-/
import Verif.Kinematics.SolverLemmas

namespace Verif.Kinematics
open Finset Verif.Problem

section
variable {K : Type} [Field K] [LinearOrder K] [IsStrictOrderedRing K]

theorem ensureQd_vars (r : Robot K) (s : KState K) (h : VarsOK r.nv s.prob s.qdVar s.scaleVar) :
    VarsOK r.nv (ensureQd r s).prob (some 0) (ensureQd r s).scaleVar ∧ (ensureQd r s).qdVar = some 0 := by
  unfold ensureQd
  rcases h with ⟨h1, h2, h3⟩ | ⟨h1, h2, h3, h4⟩ | ⟨h1, h2, h3, h4⟩
  · rw [h1]
    simp only [h3]
    exact ⟨.inr (.inl ⟨rfl, h2, by simp [addVariable], by simp [addVariable]⟩), rfl⟩
  · rw [h1]; exact ⟨.inr (.inl ⟨rfl, h2, h3, h4⟩), h1⟩
  · rw [h1]; exact ⟨.inr (.inr ⟨rfl, h2, h3, h4⟩), h1⟩

/-- `solve` never changes the variables' ranges. -/
theorem solve_vars_map (s : Settings K) (qr : Nat → EqSt K → QR K) (oracle : QP K → QPResult K) (tol : K)
    (cs : List (Constr K)) (st : PState K) :
    (Problem.solve s qr oracle tol cs st).1.vars.map (·.var) = st.vars.map (·.var) := by
  rcases C16_solve_effect s qr oracle tol cs st with ⟨e, -, h2⟩ | ⟨-, qp, -, -, -, hl, h2⟩
  · rw [h2]
  · apply List.ext_getElem?
    intro i
    rw [List.getElem?_map, List.getElem?_map]
    cases hv : st.vars[i]? with
    | none =>
      have : st.vars.length ≤ i := by
        by_contra hc
        rw [List.getElem?_eq_getElem (by omega)] at hv
        cases hv
      rw [List.getElem?_eq_none (by omega)]
    | some v =>
      obtain ⟨v', hv', h3, -⟩ := h2 i v hv
      rw [hv']
      show some v'.var = some v.var
      rw [h3]

theorem VarsOK_of_map {nv : Nat} {n : Nat} {l l' : List (VarState K)} {a b : Option Nat}
    (h : VarsOK nv (n, l) a b) (hm : l'.map (·.var) = l.map (·.var)) : VarsOK nv (n, l') a b := by
  rcases h with ⟨h1, h2, h3⟩ | ⟨h1, h2, h3, h4⟩ | ⟨h1, h2, h3, h4⟩
  · simp only [Prod.mk.injEq] at h3
    rw [h3.2] at hm
    simp only [List.map_nil, List.map_eq_nil_iff] at hm
    exact .inl ⟨h1, h2, by rw [h3.1, hm]⟩
  · exact .inr (.inl ⟨h1, h2, h3, by rw [← h4]; exact hm⟩)
  · exact .inr (.inr ⟨h1, h2, h3, by rw [← h4]; exact hm⟩)

/-- The settings of a solver that no `solve` changes. -/
structure SameConfig (s s' : KState K) : Prop where
  maskedDof : s'.maskedDof = s.maskedDof
  maskedFbase : s'.maskedFbase = s.maskedFbase
  jointLimits : s'.jointLimits = s.jointLimits
  velocityLimits : s'.velocityLimits = s.velocityLimits
  dt : s'.dt = s.dt

/-- The facts about an accepted step. `x` is the full decision vector. -/
structure Accepted (env : QPEnv K) (r : Robot K) (tasks : List (Task K)) (cons : List (KConstraint K)) (apply : Bool)
    (s s' : KState K) (dq x : Nat → K) : Prop where
  dq_eq : ∀ k, k < r.nv → dq k = x k
  updates : ∀ t ∈ tasks, ∃ M, t.update s.robot = .ok M
  hasScaling : s'.hasScaling = tasks.any (fun t => t.isScaled s.robot)
  scale : s'.hasScaling = true → s'.scale = x r.nv
  robot : s'.robot = if apply then applyStep r s.dt s.robot dq else s.robot
  hard : ∃ taskCs others sc n, otherConstraints r cons sc ⟨0, r.nv⟩ = .ok others ∧ sc.robot = s.robot ∧ SameConfig s sc ∧
    (n = r.nv ∨ n = r.nv + 1) ∧ (s'.hasScaling = true → n = r.nv + 1) ∧
    HardSat taskCs x ∧ HardSat others x ∧
    ((∀ t ∈ tasks, ∀ M, t.update s.robot = .ok M → 0 < M.cols) → ∀ y,
      (HardSat taskCs y ↔ (∀ t ∈ tasks, TaskHard s.robot t y (y r.nv)) ∧
        (s'.hasScaling = true → 0 ≤ y r.nv ∧ y r.nv ≤ 1)) ∧
      pen taskCs y = (tasks.map fun t => taskCost s.robot t y).sum
        + if s'.hasScaling = true then (y r.nv - 1) ^ 2 else 0) ∧
    (env.Optimal → (∀ c ∈ taskCs ++ others, c.priority = .soft → c.ty = .inequality → 0 ≤ c.weight) →
      ∀ y, HardSat (taskCs ++ others) y →
        specCost n env.regularization (taskCs ++ others) x ≤ specCost n env.regularization (taskCs ++ others) y) ∧
    (∀ c ∈ taskCs, c.priority = .soft → c.ty = .equality)

theorem getD_eq_of_getElem? {α : Type} (l : List α) (i : Nat) (d a : α) (h : l[i]? = some a) : l.getD i d = a := by
  simp [List.getD, h]

theorem ofList_updated (x : Nat → K) (v v' : VarState K) (h : Updated x v v') (k : Nat) (hk : k < v.var.size) :
    ofList v'.value k = x (v.var.kStart + k) := by
  unfold ofList
  exact getD_eq_of_getElem? _ _ _ _ (h.2.2.2 k hk)

theorem finish_spec (env : QPEnv K) (r : Robot K) (apply : Bool) (cs : List (Constr K)) (s s' : KState K)
    (res : Except Err (Nat → K)) (hv : VarsOK r.nv s.prob (some 0) s.scaleVar) (hq : s.qdVar = some 0)
    (hs : s.hasScaling = true → s.scaleVar = some 1)
    (h : finish env r apply cs s = (s', res)) :
    VarsOK r.nv s'.prob s'.qdVar s'.scaleVar ∧ SameConfig s s' ∧ s'.hasScaling = s.hasScaling ∧
    (∀ e, res = .error e → s'.robot = s.robot) ∧
    (env.Sound → ∀ dq, res = .ok dq → ∃ x, (∀ k, k < r.nv → dq k = x k) ∧
      (s.hasScaling = true → s'.scale = x r.nv) ∧
      (s'.robot = if apply then applyStep r s.dt s.robot dq else s.robot) ∧ HardSat cs x ∧
      (env.Optimal → (∀ c ∈ cs, c.priority = .soft → c.ty = .inequality → 0 ≤ c.weight) →
        ∀ y, HardSat cs y → specCost s.prob.1 env.regularization cs x ≤ specCost s.prob.1 env.regularization cs y)) := by
  unfold finish at h
  simp only at h
  have hvars : VarsOK r.nv (s.prob.1, (Problem.solve (env.settings s.prob.1) env.qr env.oracle env.tol cs
      ⟨s.prob.2, []⟩).1.vars) (some 0) s.scaleVar := VarsOK_of_map hv (solve_vars_map _ _ _ _ _ _)
  rcases C16_solve_effect (env.settings s.prob.1) env.qr env.oracle env.tol cs ⟨s.prob.2, []⟩ with
    ⟨e, h1, h2⟩ | ⟨h1, qp, hqp, hinf, hnan, hlen, hupd⟩
  · rw [h1] at h
    simp only at h
    cases h
    exact ⟨by rw [hq]; exact hvars, ⟨rfl, rfl, rfl, rfl, rfl⟩, rfl, fun _ _ => rfl, fun _ dq h => by cases h⟩
  · rw [h1] at h
    simp only at h
    cases h
    refine ⟨by rw [hq]; exact hvars, ⟨rfl, rfl, rfl, rfl, rfl⟩, rfl, fun e h => (by cases h), fun hsound dq hdq => ?_⟩
    cases hdq
    obtain ⟨hqr, hfeas⟩ := hsound _ _ _ hqp
    have hfe := hfeas hinf hnan
    have hzero : ∃ v, s.prob.2[0]? = some v ∧ v.var = ⟨0, r.nv⟩ := by
      rcases hv with ⟨h, -⟩ | ⟨-, -, -, h⟩ | ⟨-, -, -, h⟩
      · cases h
      · obtain ⟨a, ha, h1⟩ := map_eq_one h
        exact ⟨a, by simp [ha], h1⟩
      · obtain ⟨a, b, ha, h1, h2⟩ := map_eq_two h
        exact ⟨a, by simp [ha], h1⟩
    refine ⟨qp.recover s.prob.1 (env.oracle qp).x, fun k hk => ?_, fun hsc => ?_, rfl, ?_, fun hopt hw => ?_⟩
    · obtain ⟨v, hv0, hvv⟩ := hzero
      obtain ⟨v', hv', hu⟩ := hupd 0 v hv0
      rw [hq, Option.getD_some, getD_eq_of_getElem? _ _ _ _ hv']
      rw [ofList_updated _ v v' hu k (by rw [hvv]; exact hk), hvv, Nat.zero_add]
      rfl
    · have hsv := hs hsc
      rw [if_pos hsc]
      have hone : ∃ v, s.prob.2[1]? = some v ∧ v.var = ⟨r.nv, r.nv + 1⟩ := by
        rcases hv with ⟨h, -⟩ | ⟨-, h, -⟩ | ⟨-, -, -, h⟩
        · cases h
        · rw [hsv] at h; cases h
        · obtain ⟨a, b, ha, h1, h2⟩ := map_eq_two h
          exact ⟨b, by simp [ha], h2⟩
      obtain ⟨v, hv0, hvv⟩ := hone
      obtain ⟨v', hv', hu⟩ := hupd 1 v hv0
      rw [hsv, Option.getD_some, getD_eq_of_getElem? _ _ _ _ hv']
      rw [ofList_updated _ v v' hu 0 (by rw [hvv]; simp [Var.size]), hvv, Nat.add_zero]
      rfl
    · exact (C15_equalities_lossless _ _ _ _ hqr hqp _).1 ⟨_, hfe, fun _ _ => rfl⟩
    · exact (C15_optimum _ _ _ _ hqr rfl hqp hw _ hfe (hopt _ _ _ hqp hinf hnan)).2

theorem SameConfig.trans {s s' s'' : KState K} (h : SameConfig s s') (h' : SameConfig s' s'') : SameConfig s s'' :=
  ⟨h'.1.trans h.1, h'.2.trans h.2, h'.3.trans h.3, h'.4.trans h.4, h'.5.trans h.5⟩

/-- The tasks add no soft inequality. -/
theorem ensureScale_softEq (st st' : LoopSt K) (h0 : ∀ c ∈ st.cs, c.priority = .soft → c.ty = .equality)
    (h : ensureScale st = (st', none)) : ∀ c ∈ st'.cs, c.priority = .soft → c.ty = .equality := by
  have key : ∀ v l, scaleConstraints (K := K) v = .ok l → ∀ c ∈ l, c.priority = .soft → c.ty = .equality := by
    intro v l hl
    unfold scaleConstraints at hl
    cases he : (v.expr (-1) (-1) : Except Err (Expr K)) with
    | error e => rw [he] at hl; cases hl
    | ok e =>
      rw [he] at hl
      simp only [bind, Except.bind] at hl
      cases h1 : e.geDouble 0 with
      | error _ => rw [h1] at hl; cases hl
      | ok c1 =>
        cases h2 : e.leDouble 1 with
        | error _ => rw [h1, h2] at hl; cases hl
        | ok c2 =>
          obtain ⟨c3, h3, h4, -⟩ := eqDouble_zero e 1
          rw [h1, h2, h3] at hl
          cases hl
          have hc1 : c1.priority = .hard := by
            unfold Expr.geDouble Expr.ge at h1
            cases hs : e.sub (Expr.fromDouble 0) with
            | error k => rw [hs] at h1; cases h1
            | ok d => rw [hs] at h1; cases h1; rfl
          have hc2 : c2.priority = .hard := by
            unfold Expr.leDouble Expr.le at h2
            cases hs : e.sub (Expr.fromDouble 1) with
            | error k => rw [hs] at h2; cases h2
            | ok d => rw [hs] at h2; cases h2; rfl
          intro c hc hp
          simp only [List.mem_cons, List.not_mem_nil, or_false] at hc
          rcases hc with rfl | rfl | rfl
          · rw [hc1] at hp; cases hp
          · rw [hc2] at hp; cases hp
          · exact h4
  unfold ensureScale at h
  split at h
  · cases h; exact h0
  · simp only at h
    split at h
    · cases h
    · rename_i l hl
      cases h
      intro c hc
      rcases List.mem_append.1 hc with hc | hc
      · refine h0 c ?_
        revert hc
        cases st.scaleVar <;> exact id
      · exact key _ _ hl c hc

theorem taskStep_softEq (robot : RState K) (t : Task K) (st st' : LoopSt K)
    (h0 : ∀ c ∈ st.cs, c.priority = .soft → c.ty = .equality) (h : taskStep robot st t = (st', none)) :
    ∀ c ∈ st'.cs, c.priority = .soft → c.ty = .equality := by
  have heq : ∀ (e : Expr K) (c : Constr K) p w, e.eqDouble 0 = .ok c → (c.configureP p w).ty = .equality := by
    intro e c p w hc
    obtain ⟨c', h1, h2, -⟩ := eqDouble_zero e 0
    rw [h1] at hc; cases hc
    exact h2
  unfold taskStep at h
  split at h
  · cases h
  · split at h
    · cases h; exact h0
    · split at h
      · rcases hes : ensureScale st with ⟨st1, _ | e⟩
        · rw [hes] at h
          simp only at h
          split at h
          · cases h
          · rename_i c hc
            cases h
            intro c' hc'
            rcases List.mem_append.1 hc' with hc' | hc'
            · exact ensureScale_softEq st st1 h0 hes c' hc'
            · rw [List.mem_singleton.1 hc']
              intro hp
              have hbind : ∀ se : Except Err (Expr K), (se >>= fun e => e.eqDouble 0) = .ok c →
                  (c.configureP .hard t.weight).ty = .equality := by
                intro se hc
                cases se with
                | error e => cases hc
                | ok e => exact heq e c _ _ hc
              exact hbind _ hc
        · rw [hes] at h; cases h
      · split at h
        · cases h
        · rename_i c hc
          cases h
          intro c' hc'
          rcases List.mem_append.1 hc' with hc' | hc'
          · exact h0 c' hc'
          · rw [List.mem_singleton.1 hc']
            intro _
            exact heq _ c _ _ hc

theorem runTasks_softEq (robot : RState K) (tasks : List (Task K)) : ∀ (st : LoopSt K),
    (∀ c ∈ st.cs, c.priority = .soft → c.ty = .equality) → ∀ (st' : LoopSt K) (e : Option Err),
    runTasks robot st tasks = (st', e) → e = none → ∀ c ∈ st'.cs, c.priority = .soft → c.ty = .equality := by
  induction tasks with
  | nil => intro st h0 st' e h _; cases h; exact h0
  | cons t ts ih =>
    intro st h0 st' e h he
    unfold runTasks at h
    rcases hts : taskStep robot st t with ⟨st1, _ | e1⟩
    · rw [hts] at h
      exact ih st1 (taskStep_softEq robot t st st1 h0 hts) st' e h he
    · rw [hts] at h; cases h; cases he

theorem solve_spec (env : QPEnv K) (r : Robot K) (tasks : List (Task K)) (cons : List (KConstraint K)) (apply : Bool)
    (s s' : KState K) (res : Except Err (Nat → K)) (hv : VarsOK r.nv s.prob s.qdVar s.scaleVar)
    (hfit : TasksFit r.nv s.robot tasks) (h : solve env r tasks cons apply s = (s', res)) :
    VarsOK r.nv s'.prob s'.qdVar s'.scaleVar ∧ SameConfig s s' ∧
    (∀ e, res = .error e → s'.robot = s.robot) ∧
    (env.Sound → ∀ dq, res = .ok dq → ∃ x, Accepted env r tasks cons apply s s' dq x) := by
  obtain ⟨hv1, hq1⟩ := ensureQd_vars r s hv
  have hrobot : (ensureQd r s).robot = s.robot := by unfold ensureQd; split <;> rfl
  have hcfg : SameConfig s (ensureQd r s) := by unfold ensureQd; split <;> exact ⟨rfl, rfl, rfl, rfl, rfl⟩
  unfold solve at h
  simp only at h
  generalize ensureQd r s = s1 at *
  rcases hrt : runTasks s1.robot ⟨s1.prob, s1.scaleVar, false, []⟩ tasks with ⟨st, e⟩
  obtain ⟨hinv, -, hok⟩ := runTasks_spec r.nv s1.robot tasks ⟨s1.prob, s1.scaleVar, false, []⟩ ⟨hv1, fun h => by cases h⟩
    (by rw [hrobot]; exact hfit) st e hrt
  have hse : e = none → ∀ c ∈ st.cs, c.priority = .soft → c.ty = .equality :=
    runTasks_softEq s1.robot tasks ⟨s1.prob, s1.scaleVar, false, []⟩ (by simp) st e hrt
  rw [hrt] at h
  cases e with
  | some e =>
    simp only at h
    cases h
    exact ⟨by show VarsOK _ _ s1.qdVar _; rw [hq1]; exact hinv.1, ⟨hcfg.1, hcfg.2, hcfg.3, hcfg.4, hcfg.5⟩,
      fun _ _ => hrobot, fun _ dq h => by cases h⟩
  | none =>
    obtain ⟨hM, hsc, hx⟩ := hok rfl
    simp only at h
    unfold afterTasks at h
    have hvar : varAt st.prob 0 = ⟨0, r.nv⟩ := varAt_qd r.nv st.prob st.scaleVar hinv.1
    have hcfg2 : SameConfig s { s1 with prob := st.prob, scaleVar := st.scaleVar, hasScaling := st.hasScaling } :=
      ⟨hcfg.1, hcfg.2, hcfg.3, hcfg.4, hcfg.5⟩
    simp only [hq1, Option.getD_some, hvar] at h
    split at h
    · cases h
      exact ⟨hinv.1, ⟨hcfg.1, hcfg.2, hcfg.3, hcfg.4, hcfg.5⟩, fun _ _ => hrobot, fun _ dq h => by cases h⟩
    · rename_i l ho
      obtain ⟨f1, f2, f3, f4, f5⟩ := finish_spec env r apply (st.cs ++ l) _ s' res (by exact hinv.1) (by rfl)
        (by exact hinv.2) h
      refine ⟨f1, ⟨f2.1.trans hcfg.1, f2.2.trans hcfg.2, f2.3.trans hcfg.3, f2.4.trans hcfg.4, f2.5.trans hcfg.5⟩,
        fun e he => (f4 e he).trans hrobot, fun hsound dq hdq => ?_⟩
      obtain ⟨x, x1, x2, x3, x4, x5⟩ := f5 hsound dq hdq
      rw [HardSat_append] at x4
      simp only [hrobot] at hM hx ho hsc x3
      have hsc' : s'.hasScaling = tasks.any fun t => t.isScaled s.robot := by
        rw [f3]; simpa using hsc
      refine ⟨x, ⟨x1, hM, hsc', fun h => x2 (by rw [← f3]; exact h), by rw [x3, hcfg.dt], ?_⟩⟩
      refine ⟨st.cs, l, _, st.prob.1, ho, rfl, ⟨hcfg.1, hcfg.2, hcfg.3, hcfg.4, hcfg.5⟩, ?_, ?_, x4.1, x4.2, ?_, x5, hse rfl⟩
      · rcases hinv.1 with ⟨h, -⟩ | ⟨-, -, h, -⟩ | ⟨-, -, h, -⟩
        · cases h
        · exact .inl h
        · exact .inr h
      · intro hsct
        have := hinv.2 (by rw [← hsct, f3])
        rcases hinv.1 with ⟨h, -⟩ | ⟨-, h, -⟩ | ⟨-, -, h, -⟩
        · cases h
        · rw [this] at h; cases h
        · exact h
      · intro hcol y
        obtain ⟨y1, y2⟩ := hx hcol y
        simp only [ScaleBlock, scaleCost, forall_const, true_and] at y1 y2
        have hst : st.hasScaling = s'.hasScaling := f3.symm
        rw [hst] at y1 y2
        refine ⟨?_, ?_⟩
        · rw [y1]
          simp [HardSat_nil]
        · rw [y2]; simp [pen]

end
end Verif.Kinematics
