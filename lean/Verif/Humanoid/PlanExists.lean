import Verif.Humanoid.PlanReach

/-! C145: `plan_com` finds a plan exactly when there is one. -/

namespace Verif.Humanoid

open Verif.Tools Verif.Problem Verif.Robot

/-- What is asked of the supports. -/
def SupportsOK (g : Wpg) (ss : List Support) : Prop :=
  ∀ s ∈ ss, Stands s ∧ 0 < g.duration s ∧ 0 < (s.supportPolygon g.hull).2.length

theorem chained_weights {g : Wpg} (hw : Weighted g) {init : ComState} {t0 : ℝ} {ss : List Support} {ps : List Planned} {n : Nat} {te : ℝ}
    (hc : Chained g init none t0 0 ss ps n te) (hs : ∀ s ∈ ss, Stands s) :
    ∀ c ∈ (ps.map Planned.cs).flatten, (c.priority = .soft → 0 ≤ c.weight ∧ (c.ty = .inequality → 0 < c.weight)) ∧
      (g.soft = true → c.priority = .soft) := by
  intro c hcc
  obtain ⟨l, hl, hcl⟩ := List.mem_flatten.1 hcc
  obtain ⟨p, hp, rfl⟩ := List.mem_map.1 hl
  obtain ⟨h1, h2, h3⟩ := chained_parts hc hs p hp
  obtain ⟨cs, e, w, s, -⟩ := constrainLoop_hard g p.lipm h1 p.support h2 p.lipm.timesteps 1 (by omega)
  have h3' : g.constrainLoop p.lipm p.support p.lipm.timesteps 1 = .ok p.cs := h3
  rw [h3'] at e
  cases e
  exact ⟨w hw c hcl, fun h => s h c hcl⟩

/-- With an optimal solver, `plan_com` finds a plan when the problem can be assembled and its hard constraints satisfied. -/
theorem plan_iff (g : Wpg) (hor : SolverOptimal g.oracle) (hw : Weighted g) (t0 : ℝ) (ss : List Support) (init : ComState)
    (hs : SupportsOK g ss) (ps : List Planned) (n : Nat) (te : ℝ) (hr : g.planLoop t0 init ss t0 0 none = .ok (ps, n, te))
    (hqr : QRContract (newProblem n) g.qr (ps.map Planned.cs).flatten) :
    (∃ parts te, g.planCom t0 ss init = .ok (some (parts, te))) ↔
      (∃ qp, assemble (newProblem n) g.qr (ps.map Planned.cs).flatten = .ok qp) ∧ ∃ sol, HardSat (ps.map Planned.cs).flatten sol := by
  have hc := planLoop_chained g t0 init ss t0 0 none (fun s h => (hs s h).2.1) (fun _ => rfl) (fun l hl => by cases hl) _ hr
  have hwt := chained_weights hw hc fun s h => (hs s h).1
  have hreg : 0 < (newProblem n).regularization := by norm_num [newProblem]
  constructor
  · rintro ⟨parts, te', h⟩
    obtain ⟨ps', n', sol, -, hloop, hq, -⟩ := planCom_loop g t0 ss init (fun s h => (hs s h).2.1) parts te' h
    rw [hr] at hloop
    cases hloop
    obtain ⟨qp, hqp, -⟩ := solveQP_qp g n _ sol hq
    exact ⟨⟨qp, hqp⟩, sol, solveQP_hard g n _ hqr hor.sound sol hq⟩
  · rintro ⟨⟨qp, hqp⟩, hsat⟩
    have hex := (C144 (newProblem n) g.qr _ qp hqr hqp hreg
      (fun c hc h => ((hwt c hc).1 (by simp only [Constr.softEq, Bool.and_eq_true, decide_eq_true_eq] at h; exact h.2)).1)
      (fun c hc h => by
        simp only [Constr.softIneq, Bool.and_eq_true, decide_eq_true_eq] at h
        exact ((hwt c hc).1 h.2).2 h.1)).1.2 hsat
    have hi := (hor qp).2 hex
    have hnan := ((hor qp).1 hi).1
    have hnz : qp.nEq = 0 := by
      have A := assembled_of_ok hqp
      rw [A.nEq]
      by_cases hp : 0 < nEqualities (ps.map Planned.cs).flatten
      · rw [if_pos (by simp [newProblem, hp])]
      · rw [if_neg (by simp [hp])]; omega
    have hdim : qp.dimMismatch = false := by unfold QP.dimMismatch; rw [hnz]; rfl
    obtain ⟨sol, hqq⟩ : ∃ sol, g.solveQP n (ps.map Planned.cs).flatten = .ok sol := by
      unfold Wpg.solveQP Problem.solve
      simp only [hqp, hdim, hi, hnan, hnz, List.range_zero, List.any_nil, Bool.false_eq_true, if_false]
      exact ⟨_, rfl⟩
    rcases (C109 g t0 ss init hs).1 with hn | h
    · exfalso
      unfold Wpg.planCom at hn
      rw [hr] at hn
      simp only [Bind.bind, Except.bind, hqq] at hn
      cases hm : List.mapM (g.attach sol) ps with
      | error e => rw [hm] at hn; cases hn
      | ok l => rw [hm] at hn; cases hn
    · exact h

/-- The exact QR factorisation of the equations of a plan. -/
def ExactQR (g : Wpg) (t0 : ℝ) (ss : List Support) (init : ComState) : Prop :=
  ∀ r, g.planLoop t0 init ss t0 0 none = .ok r →
    IsExactQR r.2.1 (nEqualities (r.1.map Planned.cs).flatten) (equalities (r.1.map Planned.cs).flatten).A
      (g.qr (nEqualities (r.1.map Planned.cs).flatten) (equalities (r.1.map Planned.cs).flatten))

/-- The last support, and only it, may be an end support; then the plan has at least three timesteps. -/
def EndsOnce (g : Wpg) (ss : List Support) : Prop :=
  (∀ s ∈ ss, s.isEnd = false) ∨
  ∃ ss0 s, ss = ss0 ++ [s] ∧ (∀ s ∈ ss0, s.isEnd = false) ∧ s.isEnd = true ∧ 3 ≤ (ss.map g.timesteps).sum

theorem planned_fits (g : Wpg) (t0 : ℝ) (ss : List Support) (init : ComState) (hs : SupportsOK g ss) (ps : List Planned) (n : Nat) (te : ℝ)
    (hr : g.planLoop t0 init ss t0 0 none = .ok (ps, n, te)) :
    (∀ c ∈ (ps.map Planned.cs).flatten, Fits n c) ∧
    ((∀ s ∈ ss, s.isEnd = false) ∨ g.soft = true → nEqualities (ps.map Planned.cs).flatten = 0) := by
  obtain ⟨r, hr', -, hfit, heq⟩ := planLoop_total g t0 init ss t0 0 none hs (fun _ => rfl) (fun l hl => by cases hl)
  rw [hr] at hr'
  cases hr'
  constructor
  · intro c hc
    obtain ⟨l, hl, hcl⟩ := List.mem_flatten.1 hc
    obtain ⟨p, hp, rfl⟩ := List.mem_map.1 hl
    exact hfit p hp c hcl
  · intro h
    apply nEqualities_zero
    intro c hc
    obtain ⟨l, hl, hcl⟩ := List.mem_flatten.1 hc
    obtain ⟨p, hp, rfl⟩ := List.mem_map.1 hl
    exact heq h p hp c hcl

theorem assemble_full (n : Nat) (qr : Nat → EqSt ℝ → QR ℝ) (cs : List (Constr ℝ)) (h : ∀ c ∈ cs, Fits n c)
    (hr : 0 < nEqualities cs → (qr (nEqualities cs) (equalities cs)).rank = nEqualities cs) :
    ∃ qp, assemble (newProblem n) qr cs = .ok qp := by
  rcases assemble_fits n qr cs h with ⟨qp, hqp, -⟩ | ⟨he, hpos⟩
  · exact ⟨qp, hqp⟩
  · exfalso
    have hub : equalitiesUB n cs = false := by
      unfold equalitiesUB
      rw [List.any_eq_false]
      intro c hc
      obtain ⟨f1, -, f3⟩ := h c hc
      have f1' : ¬ n < c.expr.cols := by omega
      simp [f1', f3]
    have hcheck : cs.mapM (checkConstr n) = .ok (cs.map fun _ => ()) := by
      have : ∀ l : List (Constr ℝ), (∀ c ∈ l, Fits n c) → l.mapM (checkConstr n) = .ok (l.map fun _ => ()) := by
        intro l
        induction l with
        | nil => intro _; rfl
        | cons c l ih =>
          intro hl
          obtain ⟨f1, f2, f3⟩ := hl c List.mem_cons_self
          have e : checkConstr n c = .ok () := by
            unfold checkConstr
            have f1' : ¬ n < c.expr.cols := by omega
            rw [if_neg f1', if_neg (by omega), if_neg (by omega)]
          rw [List.mapM_cons, e, ih fun c h => hl c (List.mem_cons_of_mem _ h)]
          rfl
      exact this cs h
    unfold assemble at he
    have hn : (newProblem n).n = n := rfl
    rw [hn, hub, hcheck] at he
    simp [hr hpos] at he

/-- **C145, partial.** Full statement: with hard constraints, an exact QR and an exact QP solver, `plan_com` returns a plan if and only if the CoM can walk over
the supports with a jerk constant during every timestep, its ZMP staying inside the polygons by the margin, and stop at the end. Proved here when no support is an end support, or only the last one and the
plan has at least three timesteps. Missing: shorter plans that end, for which it is false (`C145_refuted`), and several end
supports. -/
theorem C145_partial (g : Wpg) (h0 : g.soft = false) (hor : SolverOptimal g.oracle) (hw : Weighted g) (t0 : ℝ) (ss : List Support)
    (init : ComState) (hs : SupportsOK g ss) (hn : ∀ s ∈ ss, NoRepeat (s.supportPolygon g.hull).2) (hqr : ExactQR g t0 ss init)
    (he : EndsOnce g ss) :
    (∃ parts te, g.planCom t0 ss init = .ok (some (parts, te))) ↔ ∃ c', Walks g (Keeps g) init ss c' := by
  obtain ⟨⟨ps, n, te⟩, hr, -⟩ := planLoop_total g t0 init ss t0 0 none hs (fun _ => rfl) (fun l hl => by cases hl)
  have hc := planLoop_chained g t0 init ss t0 0 none (fun s h => (hs s h).2.1) (fun _ => rfl) (fun l hl => by cases hl) _ hr
  have hq := hqr _ hr
  simp only at hc hq
  rw [plan_iff g hor hw t0 ss init hs ps n te hr fun _ => hq.qr, hardSat_walks h0 hc fun s h => ⟨(hs s h).1, hn s h⟩]
  obtain ⟨hfit, hz⟩ := planned_fits g t0 ss init hs ps n te hr
  have ha : ∃ qp, assemble (newProblem n) g.qr (ps.map Planned.cs).flatten = .ok qp := by
    refine assemble_full n g.qr _ hfit fun hpos => hq.full ?_
    rcases he with he | ⟨ss0, s, rfl, h1, h2, h3⟩
    · rw [hz (.inl he)] at hpos
      simp at hpos
    · obtain ⟨pre, a, b, d, l, s', e, hp, hst, hl⟩ := chained_stops h0 hc ss0 s rfl (fun s h => (hs s h).1) h1 h2
      have hcols : ∀ c ∈ pre ++ [a, b, d], c.expr.cols ≤ n := by
        rw [← e]
        exact fun c h => (hfit c h).1
      have := stops_indep hp hst n hcols fun c' => by
        obtain ⟨sol, -, -, e'⟩ := walks_chained hc (fun _ _ => True) (fun _ _ _ _ _ => trivial) (fun _ => 0) c' (fun _ _ _ => rfl)
          (walks_anywhere g _ (fun s h => (hs s h).2.1) h3 init c')
        rw [hl] at e'
        exact ⟨sol, e'⟩
      rw [← e] at this
      exact this
  exact ⟨fun h => h.2, fun h => ⟨ha, h⟩⟩

theorem hardEq_count {cs : List (Constr ℝ)} {c : Constr ℝ} (hc : c ∈ cs) (h : c.hardEq = true) : c.expr.rows ≤ nEqualities cs := by
  unfold nEqualities
  refine List.single_le_sum (fun x _ => Nat.zero_le x) _ (List.mem_map.2 ⟨c, hc, ?_⟩)
  rw [if_pos h]

/-- **C145, short plans.** A plan of one or two timesteps that ends with its last support is never found: the six equations that stop
the CoM have more rows than there are variables. -/
theorem C145_short (g : Wpg) (h0 : g.soft = false) (hor : SolverOptimal g.oracle) (hw : Weighted g) (t0 : ℝ) (ss0 : List Support)
    (s : Support) (init : ComState) (hs : SupportsOK g (ss0 ++ [s])) (h1 : ∀ s ∈ ss0, s.isEnd = false) (h2 : s.isEnd = true)
    (hqr : ∀ r, g.planLoop t0 init (ss0 ++ [s]) t0 0 none = .ok r → QRContract (newProblem r.2.1) g.qr (r.1.map Planned.cs).flatten)
    (h3 : ((ss0 ++ [s]).map g.timesteps).sum < 3) : g.planCom t0 (ss0 ++ [s]) init = .ok none := by
  obtain ⟨⟨ps, n, te⟩, hr, -⟩ := planLoop_total g t0 init (ss0 ++ [s]) t0 0 none hs (fun _ => rfl) (fun l hl => by cases hl)
  have hc := planLoop_chained g t0 init (ss0 ++ [s]) t0 0 none (fun s h => (hs s h).2.1) (fun _ => rfl) (fun l hl => by cases hl) _ hr
  have hq := hqr _ hr
  simp only at hc hq
  rcases (C109 g t0 (ss0 ++ [s]) init hs).1 with h | h
  · exact h
  · exfalso
    obtain ⟨⟨qp, hqp⟩, -⟩ := (plan_iff g hor hw t0 _ init hs ps n te hr hq).1 h
    obtain ⟨pre, a, b, d, l, s', e, hp, hst, -⟩ := chained_stops h0 hc ss0 s rfl (fun s h => (hs s h).1) h1 h2
    have h6 := six_rows hp hst
    rw [← e] at h6
    have hcount := chained_count hc
    have hqr6 := hq (by simp [newProblem, h6])
    have hrank := hqr6.rank_le
    have hn : (newProblem n).n = n := rfl
    rw [hn] at hrank
    have hfull : (g.qr (nEqualities (ps.map Planned.cs).flatten) (equalities (ps.map Planned.cs).flatten)).rank =
        nEqualities (ps.map Planned.cs).flatten := by
      by_contra hne
      unfold assemble at hqp
      split at hqp
      · cases hqp
      · simp [newProblem, h6] at hqp
        rw [h6] at hne
        simp [hne] at hqp
    rw [hfull, h6] at hrank
    omega

/-- **C145, soft.** With soft constraints a plan is always found. -/
theorem C145_soft (g : Wpg) (h0 : g.soft = true) (hor : SolverOptimal g.oracle) (hw : Weighted g) (t0 : ℝ) (ss : List Support)
    (init : ComState) (hs : SupportsOK g ss) : ∃ parts te, g.planCom t0 ss init = .ok (some (parts, te)) := by
  obtain ⟨⟨ps, n, te⟩, hr, -⟩ := planLoop_total g t0 init ss t0 0 none hs (fun _ => rfl) (fun l hl => by cases hl)
  have hc := planLoop_chained g t0 init ss t0 0 none (fun s h => (hs s h).2.1) (fun _ => rfl) (fun l hl => by cases hl) _ hr
  obtain ⟨hfit, hz⟩ := planned_fits g t0 ss init hs ps n te hr
  have hz := hz (.inr h0)
  refine (plan_iff g hor hw t0 ss init hs ps n te hr fun h => ?_).2 ⟨assemble_full n g.qr _ hfit fun h => ?_, fun _ => 0, fun c hc' hp => ?_⟩
  · simp [hz] at h
  · omega
  · rw [(chained_weights hw hc (fun s h => (hs s h).1) c hc').2 h0] at hp
    cases hp

/-! ## A robot at rest -/

/-- The centre of a foot, at rest. -/
noncomputable def restState : ComState := ⟨⟨0, 0⟩, ⟨0, 0⟩, ⟨0, 0⟩⟩

/-- Standing on a foot, to stop there, when a part `e` of the support has elapsed. -/
noncomputable def restSupport (e : ℝ) : Support := { footsteps := [demoStep], isEnd := true, elapsedRatio := e }

noncomputable def restWpg (n : Nat) : Wpg where
  hull := fun l => l ++ l.take 1
  slerp := fun a _ _ => a
  qr := fun m eqs => someQR n m eqs.A
  oracle := bestOracle

theorem rest_weighted (n : Nat) : Weighted (restWpg n) :=
  ⟨by norm_num [restWpg], fun h => (by cases h), fun h => (by cases h)⟩

theorem rest_polygon (n : Nat) (e : ℝ) : ((restSupport e).supportPolygon (restWpg n).hull).2 = (demoSupport.supportPolygon demoWpg.hull).2 := rfl

theorem rest_ok (n : Nat) (e : ℝ) (he : e < 1) : SupportsOK (restWpg n) [restSupport e] := by
  intro s hs
  rw [List.mem_singleton] at hs
  subst hs
  refine ⟨.inl rfl, ?_, ?_⟩
  · have : (restWpg n).duration (restSupport e) = 1 - e := by
      simp [Wpg.duration, restSupport, Params.supportDuration, Support.isBoth, restWpg]
    rw [this]; linarith
  · rw [rest_polygon, demo_polygon]; decide

theorem rest_pushed (d : ℝ) (k : Nat) : pushedBy d (fun _ => ⟨0, 0⟩) restState k = restState := by
  induction k with
  | zero => rfl
  | succ k ih =>
    unfold pushedBy
    rw [ih]
    simp [pushed, restState]

theorem rest_keeps (n : Nat) (e d : ℝ) : Keeps (restWpg n) (restSupport e) (pushedBy d (fun _ => ⟨0, 0⟩) restState) := by
  have hz : zmpOf (restWpg n).omega2 restState = ⟨0, 0⟩ := by simp [zmpOf, restState]
  refine ⟨fun k _ _ => ?_, fun _ => ⟨Affine.one, rfl, ?_⟩⟩
  · rw [rest_pushed, hz, rest_polygon]
    exact demo_inside
  · rw [rest_pushed]
    simp [restState, Affine.one]

theorem rest_walks (n : Nat) (e : ℝ) : Walks (restWpg n) (Keeps (restWpg n)) restState [restSupport e] restState :=
  ⟨fun _ => ⟨0, 0⟩, rest_keeps n e _, by rw [rest_pushed]; rfl⟩

theorem rest_timesteps (n : Nat) (e : ℝ) (k : Int) (h : (1 - e) * 10 = k) (hk : 1 ≤ k) :
    (restWpg n).timesteps (restSupport e) = k.toNat := by
  have : (1 - (restSupport e).elapsedRatio) * (((restWpg n).p.toParams.supportTimesteps (restSupport e) : Int) : ℝ) = k := by
    rw [← h]
    simp [restSupport, Params.supportTimesteps, Support.isBoth, restWpg]
  unfold Wpg.timesteps
  rw [this, truncZ_int]
  congr 1
  omega

theorem some_qr (n : Nat) (s : Support) (hok : SupportsOK (restWpg n) [s]) (hn : n = 2 * (restWpg n).timesteps s) :
    ExactQR (restWpg n) 0 [s] restState := by
  intro r hr
  have hc := planLoop_chained (restWpg n) 0 restState [s] 0 0 none (fun s h => (hok s h).2.1) (fun _ => rfl)
    (fun l hl => by cases hl) r hr
  have := chained_count hc
  simp only [List.map_cons, List.map_nil, List.sum_cons, List.sum_nil, add_zero, zero_add] at this
  have hrn : r.2.1 = n := by omega
  rw [hrn]
  exact someQR_spec _ _ _

theorem rest_qr (n : Nat) (e : ℝ) (he : e < 1) (hn : n = 2 * (restWpg n).timesteps (restSupport e)) :
    ExactQR (restWpg n) 0 [restSupport e] restState := some_qr n _ (rest_ok n e he) hn

/-- **C145, refuted.** A robot at rest above the foot on which it should stop, with one timestep left in the support, could do nothing:
yet no plan is found. -/
theorem C145_refuted : ∃ (g : Wpg) (s : Support), g.soft = false ∧ SolverOptimal g.oracle ∧ Weighted g ∧ SupportsOK g [s] ∧
    NoRepeat (s.supportPolygon g.hull).2 ∧ ExactQR g 0 [s] restState ∧ Walks g (Keeps g) restState [s] restState ∧
    g.planCom 0 [s] restState = .ok none := by
  have ht : (restWpg 2).timesteps (restSupport (9 / 10)) = 1 := rest_timesteps 2 (9 / 10) 1 (by norm_num) (by norm_num)
  have hok := rest_ok 2 (9 / 10) (by norm_num)
  have hqr := rest_qr 2 (9 / 10) (by norm_num) (by rw [ht])
  refine ⟨restWpg 2, restSupport (9 / 10), rfl, bestOracle_optimal, rest_weighted 2, hok, ?_, hqr, rest_walks _ _, ?_⟩
  · rw [rest_polygon]; exact demo_noRepeat
  · refine C145_short (restWpg 2) rfl bestOracle_optimal (rest_weighted 2) 0 [] (restSupport (9 / 10)) restState hok
      (fun s h => absurd h List.not_mem_nil) rfl (fun r hr _ => (hqr r hr).qr) ?_
    simp [ht]

/-- Non-vacuity: the same robot at the beginning of the support finds a plan. -/
theorem rest_plan : ∃ parts te, (restWpg 20).planCom 0 [restSupport 0] restState = .ok (some (parts, te)) := by
  have ht : (restWpg 20).timesteps (restSupport 0) = 10 := rest_timesteps 20 0 10 (by norm_num) (by norm_num)
  have hok := rest_ok 20 0 (by norm_num)
  refine (C145_partial (restWpg 20) rfl bestOracle_optimal (rest_weighted 20) 0 [restSupport 0] restState hok (fun s h => ?_)
    (rest_qr 20 0 (by norm_num) (by rw [ht])) (.inr ⟨[], restSupport 0, rfl, fun s h => absurd h List.not_mem_nil, rfl, ?_⟩)).2
    ⟨_, rest_walks 20 0⟩
  · rw [List.mem_singleton] at h
    subst h
    rw [rest_polygon]; exact demo_noRepeat
  · simp [ht]

/-- Non-vacuity of `C145_soft`. -/
example : ∃ parts te, ({ restWpg 0 with soft := true } : Wpg).planCom 0 [restSupport 0] ⟨⟨5, 3⟩, ⟨1, 0⟩, ⟨0, 7⟩⟩ = .ok (some (parts, te)) :=
  C145_soft _ rfl bestOracle_optimal ⟨by norm_num [restWpg], fun _ => by norm_num [restWpg], fun _ => by norm_num [restWpg]⟩ _ _ _
    (rest_ok 0 0 (by norm_num))

/-- Non-vacuity of C108 for an end support: the planned CoM stops above the foot. -/
example : ∃ parts te, (restWpg 20).planCom 0 [restSupport 0] restState = .ok (some (parts, te)) ∧ ∀ (hi : 0 < parts.length),
    parts[0].com.pos parts[0].tEnd = .ok ⟨0, 0⟩ ∧ parts[0].com.vel parts[0].tEnd = .ok ⟨0, 0⟩ := by
  obtain ⟨parts, te, h⟩ := rest_plan
  have ht : (restWpg 20).timesteps (restSupport 0) = 10 := rest_timesteps 20 0 10 (by norm_num) (by norm_num)
  have hok := rest_ok 20 0 (by norm_num)
  have hqr := rest_qr 20 0 (by norm_num) (by rw [ht])
  refine ⟨parts, te, h, fun hi => ?_⟩
  obtain ⟨f, hf, h1, h2, -⟩ := (C108 (restWpg 20) rfl bestOracle_optimal.sound 0 [restSupport 0] (fun s h => (hok s h).1) restState
    (fun s h => (hok s h).2.1) (fun r hr _ => (hqr r hr).qr) parts te h 0 hi (by simp)).2 rfl
  obtain rfl : f = Affine.one := by
    have : (restSupport 0).frame (restWpg 20).slerp = .ok Affine.one := rfl
    rw [show [restSupport 0][0] = restSupport 0 from rfl, this] at hf
    cases hf; rfl
  refine ⟨?_, h2⟩
  rw [h1]
  simp [Affine.one]

/-- Non-vacuity of `C143_partial`: standing on a foot without stopping. -/
example : ∃ (g : Wpg) (s : Support) (parts : List Part) (te : ℝ), g.soft = false ∧ SolverOptimal g.oracle ∧ Stands s ∧ s.isEnd = false ∧
    0 < g.duration s ∧ 0 < (s.supportPolygon g.hull).2.length ∧ NoRepeat (s.supportPolygon g.hull).2 ∧ Responds g s ∧
    g.planCom 0 [s] restState = .ok (some (parts, te)) := by
  have hok : SupportsOK (restWpg 20) [demoSupport] := by
    intro s hs
    rw [List.mem_singleton] at hs
    subst hs
    refine ⟨demo_stands, ?_, ?_⟩
    · have : (restWpg 20).duration demoSupport = 1 := demo_duration
      rw [this]; norm_num
    · have : (demoSupport.supportPolygon (restWpg 20).hull).2 = (demoSupport.supportPolygon demoWpg.hull).2 := rfl
      rw [this, demo_polygon]; decide
  have ht : (restWpg 20).timesteps demoSupport = 10 := by
    have : (1 - demoSupport.elapsedRatio) * (((restWpg 20).p.toParams.supportTimesteps demoSupport : Int) : ℝ) = ((10 : Int) : ℝ) := by
      simp [demoSupport, Params.supportTimesteps, Support.isBoth, restWpg]
    unfold Wpg.timesteps
    rw [this, truncZ_int]
    rfl
  have hd : (restWpg 20).duration demoSupport = 1 := demo_duration
  have hr : Responds (restWpg 20) demoSupport := by
    have ho : (restWpg 20).omega2 = 980665 / 35000 := by
      unfold Wpg.omega2 Wpg.omega computeOmega
      rw [Real.sq_sqrt (by norm_num [restWpg])]
      norm_num [restWpg]
    intro n hn
    rw [ht] at hn
    rw [hd, ht, ho]
    unfold zmpResponse
    interval_cases n <;> rw [lt_abs] <;> norm_num
  have hno : NoRepeat (demoSupport.supportPolygon (restWpg 20).hull).2 := demo_noRepeat
  obtain ⟨parts, te, h⟩ := (C145_partial (restWpg 20) rfl bestOracle_optimal (rest_weighted 20) 0 [demoSupport] restState hok (fun s h => by
    rw [List.mem_singleton] at h
    subst h
    exact hno) (some_qr 20 demoSupport hok (by rw [ht])) (.inl fun s h => by rw [List.mem_singleton] at h; subst h; rfl)).2
      ⟨restState, fun _ => ⟨0, 0⟩, ⟨fun k _ _ => by
        have hz : zmpOf (restWpg 20).omega2 restState = ⟨0, 0⟩ := by simp [zmpOf, restState]
        rw [rest_pushed, hz]
        exact demo_inside, fun h => by cases h⟩, by rw [rest_pushed]; rfl⟩
  obtain ⟨h1, h2, h3⟩ := hok demoSupport (by simp)
  exact ⟨restWpg 20, demoSupport, parts, te, rfl, bestOracle_optimal, h1, rfl, h2, h3, hno, hr, h⟩

end Verif.Humanoid
