/-
C143: what `plan_com` minimises.
-/
import Verif.Problem.SparseCostProps
import Verif.Humanoid.ReferenceProps

namespace Verif.Humanoid
open Verif.Problem Verif.Tools Verif.Robot

/-! ## Specification -/

/-- What is assumed of the QP solver: what it returns without an error is feasible and of least cost; it returns something when
there is a feasible point of least cost. -/
def SolverOptimal (oracle : QP ℝ → QPResult ℝ) : Prop :=
  ∀ qp, ((oracle qp).infeasible = false → (oracle qp).hasNaN = false ∧ qp.Feasible (oracle qp).x ∧
      ∀ v, qp.Feasible v → qp.cost (oracle qp).x ≤ qp.cost v) ∧
    ((∃ v, qp.Feasible v ∧ ∀ v', qp.Feasible v' → qp.cost v ≤ qp.cost v') → (oracle qp).infeasible = false)

theorem SolverOptimal.sound {oracle : QP ℝ → QPResult ℝ} (h : SolverOptimal oracle) : SolverSound oracle :=
  fun qp h1 _ => ((h qp).1 h1).2.1

open Classical in
/-- Such a solver. -/
noncomputable def bestOracle (qp : QP ℝ) : QPResult ℝ :=
  if h : ∃ v, qp.Feasible v ∧ ∀ v', qp.Feasible v' → qp.cost v ≤ qp.cost v' then ⟨false, h.choose, false, []⟩
  else ⟨true, fun _ => 0, false, []⟩

theorem bestOracle_optimal : SolverOptimal bestOracle := by
  intro qp
  by_cases h : ∃ v, qp.Feasible v ∧ ∀ v', qp.Feasible v' → qp.cost v ≤ qp.cost v'
  · have e : bestOracle qp = ⟨false, h.choose, false, []⟩ := by unfold bestOracle; rw [dif_pos h]
    rw [e]
    exact ⟨fun _ => ⟨rfl, h.choose_spec.1, h.choose_spec.2⟩, fun _ => rfl⟩
  · have e : bestOracle qp = ⟨true, fun _ => 0, false, []⟩ := by unfold bestOracle; rw [dif_neg h]
    rw [e]
    exact ⟨fun h0 => (by cases h0), fun h0 => absurd h0 h⟩

/-- The cost documented for a plan: the squared distance from the ZMP to the target of the current support at every timestep, times
`zmp_reference_weight`, and 1e-8 times the square of the jerks. -/
noncomputable def walkCost (g : Wpg) (ps : List Planned) (q : Support → V2) (n : Nat) (sol : Nat → ℝ) : ℝ :=
  1 / 100000000 * ∑ j ∈ Finset.range n, sol j ^ 2 +
    (ps.map fun p => ∑ k ∈ Finset.range p.lipm.timesteps,
      g.p.zmpReferenceWeight * dist2 (zmpAt p.lipm g.omega2 (k + 1) sol) (q p.support)).sum

/-- The parts are those of the jerks `sol`. -/
def From (g : Wpg) (ps : List Planned) (sol : Nat → ℝ) (parts : List Part) : Prop :=
  parts.length = ps.length ∧ ∀ (i : Nat) (h : i < ps.length) (h' : i < parts.length),
    parts[i].com = ps[i].lipm.getTrajectory sol

/-! ## The cost of the assembled problem -/

theorem spec_walk (g : Wpg) (h0 : g.soft = false) (q : Support → V2) (n : Nat) (sol : Nat → ℝ) : ∀ ps : List Planned,
    (∀ p ∈ ps, LipmOK p.lipm ∧ Stands p.support ∧ Target g.p p.support (q p.support) ∧
      g.constrainLipm p.lipm p.support = .ok p.cs) →
    specCost n (1 / 100000000) (ps.map Planned.cs).flatten sol = walkCost g ps q n sol := by
  intro ps hps
  unfold specCost walkCost
  congr 1
  induction ps with
  | nil => rfl
  | cons p ps ih =>
    obtain ⟨h1, h2, h3, h4⟩ := hps p List.mem_cons_self
    obtain ⟨cs, hcs, -, h5⟩ := constrainLoop_target g p.lipm h1 p.support h2 p.lipm.timesteps 1 (by omega)
    have e : cs = p.cs := by
      have : g.constrainLipm p.lipm p.support = .ok cs := hcs
      rw [h4] at this
      cases this
      rfl
    rw [List.map_cons, List.flatten_cons, List.map_append, List.sum_append, List.map_cons, List.sum_cons,
      ih fun p' hp' => hps p' (List.mem_cons_of_mem _ hp'), ← e, (h5 h0).2 _ h3 sol]
    congr 1
    exact Finset.sum_congr rfl fun k _ => by rw [add_comm]

theorem chained_parts {g : Wpg} {init : ComState} {t0 : ℝ} {ss : List Support} {ps : List Planned} {n : Nat} {te : ℝ}
    (hc : Chained g init none t0 0 ss ps n te) (hs : ∀ s ∈ ss, Stands s) :
    ∀ p ∈ ps, LipmOK p.lipm ∧ Stands p.support ∧ g.constrainLipm p.lipm p.support = .ok p.cs := by
  intro p hp
  obtain ⟨i, hi, rfl⟩ := List.getElem_of_mem hp
  obtain ⟨hlen, -, hget⟩ := hc.get
  obtain ⟨-, a2, a3, -, -, -, a7, -⟩ := hget i hi (by omega)
  refine ⟨a3, ?_, a7⟩
  rw [a2]
  exact (stamped_stands _ _).2 (hs _ (List.getElem_mem (by omega)))

theorem solveQP_qp (g : Wpg) (n : Nat) (cs : List (Constr ℝ)) (sol : Nat → ℝ) (h : g.solveQP n cs = .ok sol) :
    ∃ qp, assemble (newProblem n) g.qr cs = .ok qp ∧ (g.oracle qp).infeasible = false ∧ sol = qp.recover n (g.oracle qp).x := by
  unfold Wpg.solveQP at h
  rcases C16_solve_effect (newProblem n) g.qr g.oracle (1 / 1000000) cs ⟨[], []⟩ with ⟨e, he, -⟩ | ⟨hok, qp, hqp, hi, hn, -⟩
  · rw [he] at h; cases h
  · rw [hok, hqp] at h
    cases h
    exact ⟨qp, hqp, hi, rfl⟩

/-- In hard mode every soft constraint is an equality. -/
theorem soft_equality (g : Wpg) (h0 : g.soft = false) (ps : List Planned)
    (hps : ∀ p ∈ ps, LipmOK p.lipm ∧ Stands p.support ∧ g.constrainLipm p.lipm p.support = .ok p.cs) :
    ∀ c ∈ (ps.map Planned.cs).flatten, c.priority = .soft → ∃ p ∈ ps, ∃ k, 1 ≤ k ∧ k ≤ p.lipm.timesteps ∧
      Follows g p.lipm p.support k c := by
  intro c hc hp
  obtain ⟨l, hl, hcl⟩ := List.mem_flatten.1 hc
  obtain ⟨p, hp', rfl⟩ := List.mem_map.1 hl
  obtain ⟨h1, h2, h4⟩ := hps p hp'
  obtain ⟨cs, hcs, -, h5⟩ := constrainLoop_target g p.lipm h1 p.support h2 p.lipm.timesteps 1 (by omega)
  have e : cs = p.cs := by
    have : g.constrainLipm p.lipm p.support = .ok cs := hcs
    rw [h4] at this
    cases this
    rfl
  obtain ⟨k, k1, k2, k3⟩ := (h5 h0).1 c (by rw [e]; exact hcl) hp
  exact ⟨p, hp', k, k1, by omega, k3⟩

/-- **C143, conditional.** With hard constraints and an optimal QP solver, the jerks of the plan meet the hard constraints and
have the least documented cost among those that meet them, provided that in every soft equality (after elimination of the hard
equalities) the columns that are separated by a zero column are orthogonal. -/
theorem C143_conditional (g : Wpg) (h0 : g.soft = false) (hor : SolverOptimal g.oracle)
    (t0 : ℝ) (ss : List Support) (hstand : ∀ s ∈ ss, Stands s) (init : ComState) (hd : ∀ s ∈ ss, 0 < g.duration s)
    (q : Support → V2) (hq : ∀ s, Stands s → Target g.p s (q s))
    (hqr : ∀ r, g.planLoop t0 init ss t0 0 none = .ok r →
      QRContract (newProblem r.2.1) g.qr (r.1.map Planned.cs).flatten)
    (hsp : ∀ r qp, g.planLoop t0 init ss t0 0 none = .ok r →
      assemble (newProblem r.2.1) g.qr (r.1.map Planned.cs).flatten = .ok qp →
      ∀ c ∈ (r.1.map Planned.cs).flatten, c.ty = .equality → c.priority = .soft →
        let e := reduceExpr r.2.1 qp.red c.expr
        ∀ j k, j < e.cols → k < e.cols → SameInterval (1 / 1000000000000) e j k ∨
          ∑ i ∈ Finset.range e.rows, e.A i j * e.A i k = 0)
    (parts : List Part) (te : ℝ) (h : g.planCom t0 ss init = .ok (some (parts, te))) :
    ∃ ps n sol, Chained g init none t0 0 ss ps n te ∧ From g ps sol parts ∧ HardSat (ps.map Planned.cs).flatten sol ∧
      ∀ sol', HardSat (ps.map Planned.cs).flatten sol' → walkCost g ps q n sol ≤ walkCost g ps q n sol' := by
  obtain ⟨ps, n, sol, hc, hr, hsol, hlen, hget⟩ := planCom_loop g t0 ss init hd parts te h
  obtain ⟨qp, hqp, hi, rfl⟩ := solveQP_qp g n _ sol hsol
  have hps := chained_parts hc hstand
  have hcost : ∀ x, specCost n (1 / 100000000) (ps.map Planned.cs).flatten x = walkCost g ps q n x := fun x =>
    spec_walk g h0 q n x ps fun p hp => ⟨(hps p hp).1, (hps p hp).2.1, hq _ (hps p hp).2.1, (hps p hp).2.2⟩
  have hdense := C10_sparsity_partial (newProblem n) g.qr _ qp hqp fun c hc' => hsp _ qp hr hqp c hc'
  obtain ⟨-, hf, hmin⟩ := (hor qp).1 hi
  obtain ⟨s1, s2⟩ := C15_optimum { newProblem n with useSparsity := false } g.qr _ qp (hqr _ hr) rfl hdense
    (fun c hc' hp hty => by
      obtain ⟨p, -, k, -, -, hfo⟩ := soft_equality g h0 ps hps c hc' hp
      rw [hfo.1] at hty
      cases hty) _ hf hmin
  refine ⟨ps, n, _, hc, ⟨hlen, fun i h1 h2 => (hget i h1 h2).2.2.1⟩, s1, fun sol' hs' => ?_⟩
  rw [← hcost, ← hcost]
  exact s2 sol' hs'

/-! ## One support -/

/-- The state `n` steps after a step of jerk 1 from rest at the origin. -/
noncomputable def response (dt : ℝ) (n : ℝ) : Nat → ℝ
  | 0 => dt ^ 3 * (3 * n ^ 2 + 3 * n + 1) / 6
  | 1 => dt ^ 2 * (2 * n + 1) / 2
  | _ => dt

/-- The vector with a one. -/
def unitAt (j : Nat) : Nat → ℝ := fun k => if k = j then 1 else 0

theorem axis_response {I : Integrator ℝ} {dt t0 : ℝ} {m : Nat} (h : AxisOK I dt m t0) (j : Nat)
    (hX : ∀ d : Nat, d < 3 → I.X0.rowVal (unitAt j) d = I.X0.rowVal (fun _ => 0) d) (k : Nat) :
    ∀ d : Nat, d < 3 → axisState I (unitAt j) k d - axisState I (fun _ => 0) k d =
      if I.var.kStart ≤ j ∧ j < I.var.kStart + k then response dt ((k : ℝ) - 1 - ((j : ℝ) - I.var.kStart)) d else 0 := by
  induction k with
  | zero =>
    intro d hd
    rw [if_neg (by omega), axisState_zero, axisState_zero, hX d hd, sub_self]
  | succ k ih =>
    have e0 := ih 0 (by omega)
    have e1 := ih 1 (by omega)
    have e2 := ih 2 (by omega)
    have hu : inputs I (unitAt j) k = if j = I.var.kStart + k then 1 else 0 := by
      unfold inputs unitAt
      by_cases hj : j = I.var.kStart + k
      · rw [if_pos hj, if_pos hj.symm]
      · rw [if_neg hj, if_neg (fun hh => hj hh.symm)]
    have hz : inputs I (fun _ => 0) k = 0 := rfl
    intro d hd
    rw [axisState_succ h _ _ _ hd, axisState_succ h _ _ _ hd, hu, hz]
    by_cases h1 : I.var.kStart ≤ j ∧ j < I.var.kStart + k
    · rw [if_pos h1] at e0 e1 e2
      rw [if_neg (by omega), if_pos (by omega)]
      have c : d = 0 ∨ d = 1 ∨ d = 2 := by omega
      rcases c with rfl | rfl | rfl <;> simp only [motion, response] at e0 e1 e2 ⊢ <;> push_cast
      · linear_combination e0 + dt * e1 + dt ^ 2 / 2 * e2
      · linear_combination e1 + dt * e2
      · linear_combination e2
    · rw [if_neg h1] at e0 e1 e2
      by_cases h2 : j = I.var.kStart + k
      · rw [if_pos h2, if_pos (by omega)]
        have en : ((k + 1 : Nat) : ℝ) - 1 - ((j : ℝ) - I.var.kStart) = 0 := by rw [h2]; push_cast; ring
        rw [en]
        have c : d = 0 ∨ d = 1 ∨ d = 2 := by omega
        rcases c with rfl | rfl | rfl <;> simp only [motion, response] at e0 e1 e2 ⊢
        · linear_combination e0 + dt * e1 + dt ^ 2 / 2 * e2
        · linear_combination e1 + dt * e2
        · linear_combination e2
      · rw [if_neg h2, if_neg (by omega)]
        have c : d = 0 ∨ d = 1 ∨ d = 2 := by omega
        rcases c with rfl | rfl | rfl <;> simp only [motion] at e0 e1 e2 ⊢
        · linear_combination e0 + dt * e1 + dt ^ 2 / 2 * e2
        · linear_combination e1 + dt * e2
        · linear_combination e2

/-- The change of the ZMP, `n` steps after a step of jerk 1. -/
noncomputable def zmpResponse (dt omega2 n : ℝ) : ℝ := dt ^ 3 * (3 * n ^ 2 + 3 * n + 1) / 6 - dt / omega2

/-- The coefficients of the reference constraint of a timestep, for a LIPM that starts from a given state. -/
theorem follows_coef {g : Wpg} {l : Lipm} {s : Support} {k : Nat} {c : Constr ℝ} (hf : Follows g l s k c) (hs : Stands s) (h : LipmOK l)
    (init : ComState) (hst : Starts init none l) (j : Nat) :
    coef c.expr 0 j = (if l.x.var.kStart ≤ j ∧ j < l.x.var.kStart + k then
        zmpResponse l.dt g.omega2 ((k : ℝ) - 1 - ((j : ℝ) - l.x.var.kStart)) else 0) ∧
    coef c.expr 1 j = (if l.y.var.kStart ≤ j ∧ j < l.y.var.kStart + k then
        zmpResponse l.dt g.omega2 ((k : ℝ) - 1 - ((j : ℝ) - l.y.var.kStart)) else 0) := by
  obtain ⟨f, o, -, -, hq⟩ := target_of g s hs
  obtain ⟨-, -, -, -, h5⟩ := hf
  have hX : ∀ d : Nat, d < 3 → l.stateAt (unitAt j) 0 d = l.stateAt (fun _ => 0) 0 d := by
    intro d hd
    obtain ⟨a0, a1, a2⟩ := hst (unitAt j)
    obtain ⟨b0, b1, b2⟩ := hst fun _ => 0
    have c : d = 0 ∨ d = 1 ∨ d = 2 := by omega
    rcases c with rfl | rfl | rfl
    · rw [a0, b0]
    · rw [a1, b1]
    · rw [a2, b2]
  have hx : ∀ d : Nat, d < 3 → l.x.X0.rowVal (unitAt j) d = l.x.X0.rowVal (fun _ => 0) d := fun d hd => congrArg V2.x (hX d hd)
  have hy : ∀ d : Nat, d < 3 → l.y.X0.rowVal (unitAt j) d = l.y.X0.rowVal (fun _ => 0) d := fun d hd => congrArg V2.y (hX d hd)
  have x0 := axis_response h.x j hx k 0 (by omega)
  have x2 := axis_response h.x j hx k 2 (by omega)
  have y0 := axis_response h.y j hy k 0 (by omega)
  have y2 := axis_response h.y j hy k 2 (by omega)
  have u := h5 _ hq (unitAt j)
  have z := h5 _ hq fun _ => 0
  constructor
  · unfold coef
    have e : c.expr.rowVal (fun k => if k = j then 1 else 0) 0 = _ := u.1
    rw [e, z.1]
    unfold zmpAt Lipm.stateAt
    simp only
    by_cases hc : l.x.var.kStart ≤ j ∧ j < l.x.var.kStart + k
    · rw [if_pos hc] at x0 x2 ⊢
      unfold zmpResponse
      simp only [response] at x0 x2
      linear_combination x0 - x2 / g.omega2
    · rw [if_neg hc] at x0 x2 ⊢
      linear_combination x0 - x2 / g.omega2
  · unfold coef
    have e : c.expr.rowVal (fun k => if k = j then 1 else 0) 1 = _ := u.2
    rw [e, z.2]
    unfold zmpAt Lipm.stateAt
    simp only
    by_cases hc : l.y.var.kStart ≤ j ∧ j < l.y.var.kStart + k
    · rw [if_pos hc] at y0 y2 ⊢
      unfold zmpResponse
      simp only [response] at y0 y2
      linear_combination y0 - y2 / g.omega2
    · rw [if_neg hc] at y0 y2 ⊢
      linear_combination y0 - y2 / g.omega2

/-- The ZMP responds to the jerk of every previous step of the support. -/
def Responds (g : Wpg) (s : Support) : Prop :=
  ∀ n : Nat, n < g.timesteps s → 1 / 1000000000000 < |zmpResponse (g.duration s / g.timesteps s) g.omega2 n|

theorem follows_orthogonal {g : Wpg} {l : Lipm} {s : Support} {k : Nat} {c : Constr ℝ} (hf : Follows g l s k c) (hs : Stands s)
    (h : LipmOK l) (init : ComState) (hst : Starts init none l) (hk : k ≤ l.timesteps)
    (hv : l.x.var.kStart + l.timesteps = l.y.var.kStart)
    (hr : ∀ n : Nat, n < l.timesteps → 1 / 1000000000000 < |zmpResponse l.dt g.omega2 n|) (r c' : Nat) (h1 : r < c.expr.cols)
    (h2 : c' < c.expr.cols) :
    SameInterval (1 / 1000000000000) c.expr r c' ∨ ∑ i ∈ Finset.range c.expr.rows, c.expr.A i r * c.expr.A i c' = 0 := by
  have hrows : c.expr.rows = 2 := hf.2.2.2.1
  have hc := follows_coef hf hs h init hst
  have big : ∀ (a : Nat) (j : Nat), a ≤ j → j < a + k → 1 / 1000000000000 < |zmpResponse l.dt g.omega2 ((k : ℝ) - 1 - ((j : ℝ) - a))| := by
    intro a j h1 h2
    have e : ((k : ℝ) - 1 - ((j : ℝ) - a)) = ((k - 1 - (j - a) : Nat) : ℝ) := by
      rw [Nat.cast_sub (by omega), Nat.cast_sub (by omega), Nat.cast_sub (by omega)]
      push_cast
      ring
    rw [e]
    exact hr _ (by omega)
  have notin : ∀ x : ℝ, 1 / 1000000000000 < |x| → ¬ (-(1 / 1000000000000) ≤ x ∧ x ≤ 1 / 1000000000000) := by
    intro x hx hh
    exact absurd (abs_le.2 hh) (not_le.2 hx)
  have same : ∀ r c' : Nat, r ≤ c' → ((l.x.var.kStart ≤ r ∧ c' < l.x.var.kStart + k) ∨ (l.y.var.kStart ≤ r ∧ c' < l.y.var.kStart + k)) →
      SameInterval (1 / 1000000000000) c.expr r c' := by
    intro r c' hle hin
    rw [same_iff _ (by norm_num) _ _ _ hle]
    intro j hj hj'
    rcases hin with hin | hin
    · refine ⟨0, by omega, ?_⟩
      rw [(hc j).1, if_pos (by omega)]
      exact notin _ (big _ _ (by omega) (by omega))
    · refine ⟨1, by omega, ?_⟩
      rw [(hc j).2, if_pos (by omega)]
      exact notin _ (big _ _ (by omega) (by omega))
  by_cases hx : (l.x.var.kStart ≤ r ∧ r < l.x.var.kStart + k) ∧ (l.x.var.kStart ≤ c' ∧ c' < l.x.var.kStart + k)
  · left
    rcases le_total r c' with hle | hle
    · exact same r c' hle (.inl ⟨hx.1.1, hx.2.2⟩)
    · exact (same c' r hle (.inl ⟨hx.2.1, hx.1.2⟩)).symm
  · by_cases hy : (l.y.var.kStart ≤ r ∧ r < l.y.var.kStart + k) ∧ (l.y.var.kStart ≤ c' ∧ c' < l.y.var.kStart + k)
    · left
      rcases le_total r c' with hle | hle
      · exact same r c' hle (.inr ⟨hy.1.1, hy.2.2⟩)
      · exact (same c' r hle (.inr ⟨hy.2.1, hy.1.2⟩)).symm
    · right
      rw [hrows, Finset.sum_range_succ, Finset.sum_range_one, coef_lt _ _ _ h1, coef_lt _ _ _ h2, coef_lt _ _ _ h1, coef_lt _ _ _ h2]
      have z0 : coef c.expr 0 r = 0 ∨ coef c.expr 0 c' = 0 := by
        by_cases a : l.x.var.kStart ≤ r ∧ r < l.x.var.kStart + k
        · right
          rw [(hc c').1, if_neg (fun b => hx ⟨a, b⟩)]
        · left
          rw [(hc r).1, if_neg a]
      have z1 : coef c.expr 1 r = 0 ∨ coef c.expr 1 c' = 0 := by
        by_cases a : l.y.var.kStart ≤ r ∧ r < l.y.var.kStart + k
        · right
          rw [(hc c').2, if_neg (fun b => hy ⟨a, b⟩)]
        · left
          rw [(hc r).2, if_neg a]
      rw [mul_eq_zero.2 z0, mul_eq_zero.2 z1, add_zero]

open Classical in
/-- The target of a support. -/
noncomputable def targetOf (p : WpgParams) (s : Support) : V2 := if h : ∃ q, Target p s q then h.choose else ⟨0, 0⟩

theorem targetOf_spec (p : WpgParams) (s : Support) (hs : Stands s) : Target p s (targetOf p s) := by
  have h : ∃ q, Target p s q := by
    obtain ⟨f, o, -, -, hq⟩ := target_of { p := p, hull := id, slerp := fun a _ _ => a, qr := fun _ _ => ⟨0, fun _ _ => 0, fun _ _ => 0, id⟩, oracle := bestOracle } s hs
    exact ⟨_, hq⟩
  unfold targetOf
  rw [dif_pos h]
  exact h.choose_spec

theorem target_congr {p : WpgParams} {s s' : Support} {q : V2} (h : Target p s q) (e : s'.footsteps = s.footsteps) :
    Target p s' q := by
  cases h with
  | left f hs hf => exact .left s' f (e.trans hs) hf
  | right f hs hf => exact .right s' f (e.trans hs) hf
  | both f f' hs => exact .both s' f f' (e.trans hs)

/-- **C143, partial.** Full statement: with hard constraints and an optimal QP solver, the plan has the least documented cost among
the jerks that keep the ZMP in the support polygons. Proved here for a plan of one support that is not an end support, where the ZMP
responds to the jerk of every previous step; and in general under the hypothesis of `C143_conditional`. Missing: several supports,
for which it is false (`C143_refuted`). -/
theorem C143_partial (g : Wpg) (h0 : g.soft = false) (hor : SolverOptimal g.oracle) (t0 : ℝ) (s : Support) (hs : Stands s)
    (hend : s.isEnd = false) (init : ComState) (hd : 0 < g.duration s) (hpoly : 0 < (s.supportPolygon g.hull).2.length)
    (hn : NoRepeat (s.supportPolygon g.hull).2)
    (hr : Responds g s) (parts : List Part) (te : ℝ) (h : g.planCom t0 [s] init = .ok (some (parts, te))) :
    ∃ (part : Part) (l : Lipm) (q : V2) (sol : Nat → ℝ), parts = [part] ∧ part.com = l.getTrajectory sol ∧ Target g.p s q ∧
      LipmOK l ∧ Starts init none l ∧ l.timesteps = g.timesteps s ∧ l.dt = g.duration s / g.timesteps s ∧
      (∀ k, 1 ≤ k → k ≤ l.timesteps → InsideBy g.p.zmpMargin (s.supportPolygon g.hull).2 (zmpAt l g.omega2 k sol)) ∧
      ∀ sol', (∀ k, 1 ≤ k → k ≤ l.timesteps → InsideBy g.p.zmpMargin (s.supportPolygon g.hull).2 (zmpAt l g.omega2 k sol')) →
        1 / 100000000 * ∑ j ∈ Finset.range (l.timesteps + l.timesteps), sol j ^ 2 +
          ∑ k ∈ Finset.range l.timesteps, g.p.zmpReferenceWeight * dist2 (zmpAt l g.omega2 (k + 1) sol) q ≤
        1 / 100000000 * ∑ j ∈ Finset.range (l.timesteps + l.timesteps), sol' j ^ 2 +
          ∑ k ∈ Finset.range l.timesteps, g.p.zmpReferenceWeight * dist2 (zmpAt l g.omega2 (k + 1) sol') q := by
  have hstand : ∀ x ∈ [s], Stands x := fun x hx => by rw [List.mem_singleton] at hx; subst hx; exact hs
  have hdur : ∀ x ∈ [s], 0 < g.duration x := fun x hx => by rw [List.mem_singleton] at hx; subst hx; exact hd
  have hall : ∀ x ∈ [s], Stands x ∧ 0 < g.duration x ∧ 0 < (x.supportPolygon g.hull).2.length := fun x hx => by
    rw [List.mem_singleton] at hx; subst hx; exact ⟨hs, hd, hpoly⟩
  obtain ⟨⟨ps0, n0, te0⟩, hr0, -, -, heq⟩ := planLoop_total g t0 init [s] t0 0 none hall (fun _ => rfl) (fun l hl => by cases hl)
  have hz : nEqualities (ps0.map Planned.cs).flatten = 0 := by
    apply nEqualities_zero
    intro c hc
    obtain ⟨l, hl, hcl⟩ := List.mem_flatten.1 hc
    obtain ⟨p, hp, rfl⟩ := List.mem_map.1 hl
    refine heq (.inl fun x hx => ?_) p hp c hcl
    rw [List.mem_singleton] at hx; subst hx; exact hend
  have hcond := C143_conditional g h0 hor t0 [s] hstand init hdur (targetOf g.p) (fun x hx => targetOf_spec g.p x hx)
    (fun r' hr' hpos => by
      rw [hr0] at hr'
      cases hr'
      rw [hz] at hpos
      simp at hpos)
    (fun r' qp hr' hqp c hc hty hp => by
      rw [hr0] at hr'
      cases hr'
      have hred : qp.red = none := by
        rw [(assembled_of_ok hqp).red, hz]
        rfl
      rw [hred]
      simp only [reduceExpr]
      intro j k hj hk
      have hch := planLoop_chained g t0 init [s] t0 0 none hdur (fun _ => rfl) (fun l hl => by cases hl) _ hr0
      obtain ⟨p, hpm, k', k1, k2, hfo⟩ := soft_equality g h0 ps0 (chained_parts hch hstand) c hc hp
      obtain ⟨hok, hst, -⟩ := chained_parts hch hstand p hpm
      cases hch with
      | cons _ _ _ _ _ l cs ps' n' te' q1 q2 q3 q4 q5 q6 q7 q8 rest =>
        cases rest with
        | nil =>
          rw [List.mem_singleton] at hpm
          subst hpm
          refine follows_orthogonal hfo hst hok init q1 k2 ?_ ?_ j k hj hk
          · simp only [q6, q7, q4]
          · intro n hn'
            simp only [q3, q4] at hn' ⊢
            exact hr n hn')
    parts te h
  obtain ⟨ps, n, sol, hch, hfrom, hsat, hmin⟩ := hcond
  cases hch with
  | cons _ _ _ _ _ l cs ps' n' te' q1 q2 q3 q4 q5 q6 q7 q8 rest =>
    cases rest with
    | nil =>
      obtain ⟨hlen, hcom⟩ := hfrom
      obtain ⟨part, rfl⟩ := List.length_eq_one_iff.1 (by simpa using hlen : parts.length = 1)
      obtain ⟨cs', hcs', -, -, hin, hconv⟩ := constrainLoop_spec g l q2 (stamped s t0) ((stamped_stands _ _).2 hs) l.timesteps 1 (by omega)
      have ecs : cs' = cs := by
        have : g.constrainLipm l (stamped s t0) = .ok cs' := hcs'
        rw [q8] at this
        cases this
        rfl
      subst ecs
      have hflat : ([({ tStart := t0, tEnd := t0 + g.duration s, support := stamped s t0, lipm := l, cs := cs' } : Planned)].map
          Planned.cs).flatten = cs' := by simp
      rw [hflat] at hsat hmin
      have hiff : ∀ x, HardSat cs' x ↔ ∀ k, 1 ≤ k → k ≤ l.timesteps →
          InsideBy g.p.zmpMargin (s.supportPolygon g.hull).2 (zmpAt l g.omega2 k x) := by
        intro x
        constructor
        · intro hx
          have := (hin h0 x hx).1 (by rw [stamped_polygon]; exact hn)
          rw [stamped_polygon] at this
          exact this
        · intro hx
          refine hconv (by rw [stamped_isEnd]; exact hend) (by rw [stamped_polygon]; exact hn) x ?_
          rw [stamped_polygon]
          exact hx
      refine ⟨part, l, targetOf g.p (stamped s t0), sol, rfl, hcom 0 (by simp) (by simp),
        target_congr (targetOf_spec g.p _ ((stamped_stands _ _).2 hs)) (by unfold stamped; split <;> rfl), q2, q1, q4, q3,
        (hiff sol).1 hsat, fun sol' hs' => ?_⟩
      have := hmin sol' ((hiff sol').2 hs')
      unfold walkCost at this
      simp only [List.map_cons, List.map_nil, List.sum_cons, List.sum_nil, add_zero, zero_add] at this
      rw [q4] at this ⊢
      exact this

end Verif.Humanoid
