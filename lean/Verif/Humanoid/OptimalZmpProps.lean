/-
C146: `get_optimal_zmp` returns the point of the shrunk support polygon that is the closest to the ZMP of the LIPM.
-/
import Mathlib.Analysis.SpecialFunctions.ExpDeriv
import Verif.Humanoid.UpdateSupports
import Verif.Humanoid.PlanExists

namespace Verif.Humanoid
open Verif.Problem Verif.Tools Verif.Robot

/-! ## `problem.solve()` on a new problem -/

/-- The weights of the soft constraints are positive. -/
def SoftPos (cs : List (Constr ℝ)) : Prop := ∀ c ∈ cs, c.priority = .soft → 0 < c.weight

theorem new_nEq {n : Nat} {qr : Nat → EqSt ℝ → QR ℝ} {cs : List (Constr ℝ)} {qp : QP ℝ}
    (hqp : assemble (newProblem n) qr cs = .ok qp) : qp.nEq = 0 := by
  have A := assembled_of_ok hqp
  rw [A.nEq]
  by_cases hp : 0 < nEqualities cs
  · rw [if_pos (by simp [newProblem, hp])]
  · rw [if_neg (by simp [hp])]; omega

theorem solveQP_exists (g : Wpg) (n : Nat) (cs : List (Constr ℝ)) (hor : SolverOptimal g.oracle)
    (hqr : QRContract (newProblem n) g.qr cs) (hw : SoftPos cs) (ha : ∃ qp, assemble (newProblem n) g.qr cs = .ok qp)
    (hsat : ∃ x, HardSat cs x) : ∃ sol, g.solveQP n cs = .ok sol := by
  obtain ⟨qp, hqp⟩ := ha
  have hex := (C144 (newProblem n) g.qr _ qp hqr hqp (by norm_num [newProblem])
    (fun c hc h => (hw c hc (by simp only [Constr.softEq, Bool.and_eq_true, decide_eq_true_eq] at h; exact h.2)).le)
    (fun c hc h => hw c hc (by simp only [Constr.softIneq, Bool.and_eq_true, decide_eq_true_eq] at h; exact h.2))).1.2 hsat
  have hi := (hor qp).2 hex
  have hnan := ((hor qp).1 hi).1
  have hnz := new_nEq hqp
  have hdim : qp.dimMismatch = false := by unfold QP.dimMismatch; rw [hnz]; rfl
  unfold Wpg.solveQP Problem.solve
  simp only [hqp, hdim, hi, hnan, hnz, List.range_zero, List.any_nil, Bool.false_eq_true, if_false]
  exact ⟨_, rfl⟩

theorem solveQP_none (g : Wpg) (n : Nat) (cs : List (Constr ℝ)) (hor : SolverSound g.oracle)
    (hqr : QRContract (newProblem n) g.qr cs) (ha : ∃ qp, assemble (newProblem n) g.qr cs = .ok qp)
    (hsat : ¬ ∃ x, HardSat cs x) : g.solveQP n cs = .error .qpError := by
  obtain ⟨qp, hqp⟩ := ha
  have hnz := new_nEq hqp
  have hdim : qp.dimMismatch = false := by unfold QP.dimMismatch; rw [hnz]; rfl
  cases h : g.solveQP n cs with
  | ok sol => exact absurd ⟨sol, solveQP_hard g n cs hqr hor sol h⟩ hsat
  | error e =>
    rw [← h]
    have : (Problem.solve (newProblem n) g.qr g.oracle (1 / 1000000) cs ⟨[], []⟩).2 = .error .qpError ∨
        (Problem.solve (newProblem n) g.qr g.oracle (1 / 1000000) cs ⟨[], []⟩).2 = .ok () := by
      unfold Problem.solve
      simp only [hqp, hdim, hnz, List.range_zero, List.any_nil, Bool.false_eq_true, if_false]
      split
      · exact .inl rfl
      · split
        · exact .inl rfl
        · exact .inr rfl
    unfold Wpg.solveQP at h ⊢
    rw [hqp] at h ⊢
    rcases this with h' | h'
    · rw [h']
    · rw [h'] at h; cases h

/-- When the sparse accumulation leaves nothing out, the solution is that of the documented problem. -/
theorem solveQP_optimal (g : Wpg) (n : Nat) (cs : List (Constr ℝ)) (hor : SolverOptimal g.oracle)
    (hqr : QRContract (newProblem n) g.qr cs) (hw : SoftPos cs)
    (hlost : ∀ qp, assemble (newProblem n) g.qr cs = .ok qp → ∀ v, lostSum (1 / 1000000000000) n qp.red cs v = 0)
    (sol : Nat → ℝ) (h : g.solveQP n cs = .ok sol) :
    HardSat cs sol ∧ ∀ x, HardSat cs x → specCost n (1 / 100000000) cs sol ≤ specCost n (1 / 100000000) cs x := by
  obtain ⟨qp, hqp, hi, rfl⟩ := solveQP_qp g n cs sol h
  obtain ⟨-, hf, hm⟩ := (hor qp).1 hi
  obtain ⟨qp', hqp', hfe, hre, hco⟩ := C10_exact (newProblem n) g.qr cs qp hqp
  have hre' : qp.recover n (g.oracle qp).x = qp'.recover n (g.oracle qp).x := hre _
  rw [hre']
  exact C15_optimum { newProblem n with useSparsity := false } g.qr cs qp' hqr rfl hqp' (fun c hc h1 _ => (hw c hc h1).le) _
    ((hfe _).1 hf) fun v hv => by
      have e := hm v ((hfe v).2 hv)
      rw [hco, hco] at e
      have l1 := hlost qp hqp (g.oracle qp).x
      have l2 := hlost qp hqp v
      have e' : qp'.cost (g.oracle qp).x - lostSum (1 / 1000000000000) n qp.red cs (g.oracle qp).x ≤
        qp'.cost v - lostSum (1 / 1000000000000) n qp.red cs v := e
      rw [l1, l2] at e'
      linarith

/-! ## Polygon constraints, value by value -/

theorem polygon_values (e : Expr ℝ) (he : e.rows = 2) (polygon : List P2) (margin : ℝ) (c : Constr ℝ)
    (hc : inPolygonXY e polygon margin = .ok c) (x : Nat → ℝ) (i : Nat) (hi : i < polygon.length) :
    c.expr.rowVal x i = edgeRow (vertex polygon i) (vertex polygon ((i + 1) % polygon.length)) (pointOf e x) margin := by
  choose g hg hrows hcols hval using fun i => edgeValue_spec e he (vertex polygon i)
    (vertex polygon ((i + 1) % polygon.length)) margin
  have hm := mapM_ok (fun i => edgeValue e (vertex polygon i) (vertex polygon ((i + 1) % polygon.length)) margin)
    g (List.range polygon.length) (fun i _ => hg i)
  unfold inPolygonXY at hc
  rw [if_neg (by simpa using he), hm] at hc
  simp only [Bind.bind, Except.bind] at hc
  generalize hvals : (⟨polygon.length, e.cols,
      fun i j => ((((List.range polygon.length).map g).map fun r => r.A 0).getD i (fun _ => 0)) j,
      fun i => (((List.range polygon.length).map g).map fun r => r.b 0).getD i 0⟩ : Expr ℝ) = values at hc
  have hv : values.rowVal x i
      = edgeRow (vertex polygon i) (vertex polygon ((i + 1) % polygon.length)) (pointOf e x) margin := by
    rw [← hval i x, ← hvals]
    simp only [Expr.rowVal, hcols i]
    have h1 : (((List.range polygon.length).map g).map fun r => r.b 0).getD i 0 = (g i).b 0 := by
      simp [List.getD, hi]
    have h2 : (((List.range polygon.length).map g).map fun r => r.A 0).getD i (fun _ => 0) = (g i).A 0 := by
      simp [List.getD, hi]
    rw [h1, h2]
  rw [← hv]
  have hrows : values.rows = polygon.length := by rw [← hvals]
  unfold Expr.geDouble Expr.ge Expr.sub Expr.add at hc
  by_cases h : (values.isScalar && values.isConstant) = true
  · rw [if_pos h] at hc
    cases hc
    have h1 : values.rows = 1 ∧ values.cols = 0 := by simpa [Expr.isScalar, Expr.isConstant] using h
    have : i = 0 := by omega
    subst this
    simp only [Expr.rowVal, Expr.piecewiseAdd, Expr.smul, Expr.fromDouble, h1.2, Finset.sum_range_zero]
    ring
  · rw [if_neg h] at hc
    simp only [Expr.smul, Expr.fromDouble, Expr.isScalar, Expr.isConstant, beq_self_eq_true, Bool.and_self, if_true] at hc
    cases hc
    simp only [Expr.rowVal, Expr.piecewiseAdd]
    ring

theorem vertices_length (l : List V2) : (vertices l).length = l.length := List.length_map _

theorem sat_inside {l : List V2} (hn : NoRepeat l) (margin : ℝ) (p : P2) :
    (∀ i, i < (vertices l).length → 0 ≤ edgeRow (vertex (vertices l) i) (vertex (vertices l) ((i + 1) % (vertices l).length)) p margin) ↔
      InsideBy margin l ⟨p.1, p.2⟩ := by
  unfold InsideBy
  rw [vertices_length]
  refine forall_congr' fun i => forall_congr' fun hi => ?_
  unfold edgeRow
  have hne : ¬ vertex (vertices l) i = vertex (vertices l) ((i + 1) % l.length) := hn i hi
  rw [if_neg hne]
  show _ ↔ margin ≤ signedDistance (vertex (vertices l) i) (vertex (vertices l) ((i + 1) % l.length)) p
  constructor <;> intro h <;> linarith

/-! ## The LIPM with a constant ZMP -/

/-- Specification: the DCM after a while, when the ZMP does not move. -/
noncomputable def dcmAfter (omega : ℝ) (zmp dcm : V2) (s : ℝ) : V2 :=
  ⟨zmp.x + Real.exp (omega * s) * (dcm.x - zmp.x), zmp.y + Real.exp (omega * s) * (dcm.y - zmp.y)⟩

/-- It starts at `dcm` and follows the equation of the LIPM. -/
theorem dcmAfter_flow (omega : ℝ) (zmp dcm : V2) :
    dcmAfter omega zmp dcm 0 = dcm ∧ ∀ s,
      HasDerivAt (fun s => (dcmAfter omega zmp dcm s).x) (omega * ((dcmAfter omega zmp dcm s).x - zmp.x)) s ∧
      HasDerivAt (fun s => (dcmAfter omega zmp dcm s).y) (omega * ((dcmAfter omega zmp dcm s).y - zmp.y)) s := by
  constructor
  · unfold dcmAfter
    simp
  · intro s
    have key : ∀ a b : ℝ, HasDerivAt (fun s => a + Real.exp (omega * s) * b) (omega * (a + Real.exp (omega * s) * b - a)) s := by
      intro a b
      have h1 : HasDerivAt (fun s => omega * s) (omega * 1) s := (hasDerivAt_id s).const_mul omega
      have h2 := ((h1.exp.mul_const b).const_add a)
      have e : omega * (a + Real.exp (omega * s) * b - a) = Real.exp (omega * s) * (omega * 1) * b := by ring
      rw [e]
      exact h2
    exact ⟨key _ _, key _ _⟩

theorem omega_pos (g : Wpg) (h : 0 < g.p.walkComHeight) : 0 < g.omega :=
  Real.sqrt_pos.2 (by positivity)

theorem exp_ne_one {w d : ℝ} (hw : 0 < w) (hd : 0 < d) : Real.exp (w * d) ≠ 1 := by
  intro h
  rw [Real.exp_eq_one_iff] at h
  nlinarith

/-- The ZMP that `get_optimal_zmp` aims at is the one that brings the DCM where it should be. -/
theorem lipmZmp_spec {w d : ℝ} (h : Real.exp (w * d) ≠ 1) (a b z : V2) : dcmAfter w z a d = b ↔ z = lipmZmp w d a b := by
  have hne : 1 - Real.exp (w * d) ≠ 0 := fun h' => h (by linarith)
  unfold dcmAfter lipmZmp
  cases z with
  | mk zx zy =>
  cases b with
  | mk bx bY =>
  simp only [V2.mk.injEq]
  constructor
  · rintro ⟨h1, h2⟩
    constructor
    · rw [eq_div_iff hne]; linarith
    · rw [eq_div_iff hne]; linarith
  · rintro ⟨h1, h2⟩
    rw [eq_div_iff hne] at h1 h2
    constructor <;> linarith

/-! ## C146 -/

/-- Specification: what is minimised. -/
noncomputable def zmpCost (target z : V2) : ℝ :=
  (z.x - target.x) ^ 2 + (z.y - target.y) ^ 2 + 1 / 100000000 * (z.x ^ 2 + z.y ^ 2)

/-- `Variable::expr()` of a variable, in full. -/
theorem var_expr (a n : Nat) : (⟨a, a + n⟩ : Var).expr (K := ℝ) (-1) (-1) =
    .ok ⟨n, a + n, fun k j => if j = a + k then 1 else 0, fun _ => 0⟩ := by
  unfold Var.expr
  simp

theorem zmpConstraints_spec (g : Wpg) (a b : V2) (d : ℝ) (s : Support) :
    ∃ c1 c2, g.zmpConstraints a b d s = .ok [c1, c2] ∧ c1.ty = .equality ∧ c1.priority = .soft ∧ c1.weight = 1 ∧
      c2.ty = .inequality ∧ c2.priority = .hard ∧ Fits 2 c1 ∧ (0 < (s.supportPolygon g.hull).2.length → Fits 2 c2) ∧
      (c1.expr.rows = 2 ∧ c1.expr.cols = 2 ∧ ∀ i j, i < 2 → j < 2 → c1.expr.A i j = if j = i then 1 else 0) ∧
      (∀ x, c1.expr.rowVal x 0 = x 0 - (lipmZmp g.omega d a b).x ∧ c1.expr.rowVal x 1 = x 1 - (lipmZmp g.omega d a b).y) ∧
      (NoRepeat (s.supportPolygon g.hull).2 →
        ∀ x : Nat → ℝ, c2.Sat x ↔ InsideBy g.p.zmpMargin (s.supportPolygon g.hull).2 ⟨x 0, x 1⟩) := by
  have he := var_expr 0 2
  generalize hE : (⟨2, 0 + 2, fun k j => if j = 0 + k then 1 else 0, fun _ => 0⟩ : Expr ℝ) = e at he
  have hr : e.rows = 2 := by rw [← hE]
  have hpt : ∀ x, pointOf e x = (x 0, x 1) := by
    intro x
    rw [← hE]
    simp [pointOf, Expr.rowVal, Finset.sum_range_succ]
  obtain ⟨c2, h2, t2, p2, r2, s2⟩ := polygon_rows e hr (vertices (s.supportPolygon g.hull).2) g.p.zmpMargin
  have hcols := polygon_cols h2
  obtain ⟨c1, h1, t1, r1, k1, b1, A1, v1⟩ : ∃ c1, e.eqVec (vec2 (lipmZmp g.omega d a b).x (lipmZmp g.omega d a b).y) = .ok c1 ∧
      c1.ty = .equality ∧ c1.expr.rows = 2 ∧ c1.expr.cols = 2 ∧ c1.brows = 2 ∧
      (∀ i j, i < 2 → j < 2 → c1.expr.A i j = if j = i then 1 else 0) ∧
      (∀ x, c1.expr.rowVal x 0 = x 0 - (lipmZmp g.omega d a b).x ∧ c1.expr.rowVal x 1 = x 1 - (lipmZmp g.omega d a b).y) := by
    rw [← hE]
    refine ⟨_, rfl, rfl, rfl, rfl, rfl, fun i j hi hj => ?_, fun x => ?_⟩
    · simp [hj, Expr.smul, Expr.fromVector]
    · simp [Expr.rowVal, Finset.sum_range_succ, Expr.smul, Expr.fromVector, vec2]
      constructor <;> ring
  refine ⟨c1.configureP .soft 1, c2.configureP .hard 1, ?_, t1, rfl, rfl, t2, rfl, ⟨?_, ?_, ?_⟩, fun hp => ⟨?_, ?_, ?_⟩, ⟨r1, k1, A1⟩, v1, ?_⟩
  · unfold Wpg.zmpConstraints
    rw [he]
    simp only [Bind.bind, Except.bind]
    rw [h1]
    simp only
    rw [h2]
  · show c1.expr.cols ≤ 2
    omega
  · show 0 < c1.expr.rows
    omega
  · show c1.brows = c1.expr.rows
    omega
  · show c2.expr.cols ≤ 2
    have : e.cols = 2 := by rw [← hE]
    omega
  · show 0 < c2.expr.rows
    rw [r2, vertices_length]; exact hp
  · exact hcols.2
  · intro hn x
    show c2.Sat x ↔ _
    rw [s2 x, hpt, sat_inside hn]

/-- Nothing is lost by the sparse accumulation when the columns are orthogonal. -/
theorem lost_diagonal (w : ℝ) (e : Expr ℝ) (hr : e.rows = 2) (hc : e.cols = 2)
    (hA : ∀ i j, i < 2 → j < 2 → e.A i j = if j = i then 1 else 0) (v : Nat → ℝ) : lost (1 / 1000000000000) w e v = 0 := by
  classical
  unfold lost
  rw [hc, hr]
  refine Finset.sum_eq_zero fun r hr' => Finset.sum_eq_zero fun c hc' => ?_
  have h1 := Finset.mem_range.1 hr'
  have h2 := Finset.mem_range.1 hc'
  by_cases h : r = c
  · subst h
    rw [if_pos]
    rw [C12_runs _ e r r le_rfl]
    refine ⟨by omega, fun j h3 h4 hz => ?_⟩
    have : j = r := by omega
    subst this
    have := (hz j (by show j < e.rows; omega)).2
    simp only at this
    rw [hA j j h1 h1, if_pos rfl] at this
    norm_num at this
  · have : ∑ i ∈ Finset.range 2, e.A i r * e.A i c = 0 := by
      refine Finset.sum_eq_zero fun i hi => ?_
      have hi' := Finset.mem_range.1 hi
      rw [hA i r hi' h1, hA i c hi' h2]
      by_cases h5 : r = i
      · have h6 : ¬ c = i := fun h' => h (h5.trans h'.symm)
        rw [if_neg h6, mul_zero]
      · rw [if_neg h5, zero_mul]
    rw [this]
    simp

theorem inside_mid (m : ℝ) (l : List V2) (p q : V2) (hp : InsideBy m l p) (hq : InsideBy m l q) :
    InsideBy m l ⟨(p.x + q.x) / 2, (p.y + q.y) / 2⟩ := by
  intro i hi
  have h1 := hp i hi
  have h2 := hq i hi
  have e : ∀ A B : P2, signedDistance A B ((p.x + q.x) / 2, (p.y + q.y) / 2) =
      (signedDistance A B (p.x, p.y) + signedDistance A B (q.x, q.y)) / 2 := by
    intro A B
    unfold signedDistance
    simp only
    ring
  rw [e]
  linarith

/-- **C146.** For a CoM above the ground, a positive duration and an exact QP solver, `get_optimal_zmp` returns a value exactly when
some point is inside the support polygon by `zmp_margin` (and raises a `QPError` otherwise). The value is such a point; among
these points it is the only one that minimises the squared distance to the ZMP that brings the DCM from its start to its end in
the given duration, plus the regularisation. -/
theorem C146 (g : Wpg) (hor : SolverOptimal g.oracle) (hh : 0 < g.p.walkComHeight) (a b : V2) (d : ℝ) (hd : 0 < d) (s : Support)
    (hp : 0 < (s.supportPolygon g.hull).2.length) (hn : NoRepeat (s.supportPolygon g.hull).2) :
    ((∃ z, g.getOptimalZmp a b d s = .ok z) ↔ ∃ z, InsideBy g.p.zmpMargin (s.supportPolygon g.hull).2 z) ∧
    ((¬ ∃ z, InsideBy g.p.zmpMargin (s.supportPolygon g.hull).2 z) → g.getOptimalZmp a b d s = .error .qpError) ∧
    ∀ z, g.getOptimalZmp a b d s = .ok z → InsideBy g.p.zmpMargin (s.supportPolygon g.hull).2 z ∧
      ∀ target, dcmAfter g.omega target a d = b → ∀ z', InsideBy g.p.zmpMargin (s.supportPolygon g.hull).2 z' →
        zmpCost target z ≤ zmpCost target z' ∧ (zmpCost target z' ≤ zmpCost target z → z' = z) := by
  have hne := exp_ne_one (omega_pos g hh) hd
  obtain ⟨c1, c2, hcs, t1, p1, w1, t2, p2, f1, f2, ⟨r1, k1, A1⟩, v1, s2⟩ := zmpConstraints_spec g a b d s
  have hz : nEqualities [c1, c2] = 0 := by simp [nEqualities, Constr.hardEq, p1, t2]
  have hqr : QRContract (newProblem 2) g.qr [c1, c2] := by
    intro h; rw [hz] at h; simp at h
  have hw : SoftPos [c1, c2] := by
    intro c hc hpc
    simp only [List.mem_cons, List.not_mem_nil, or_false] at hc
    rcases hc with rfl | rfl
    · rw [w1]; norm_num
    · rw [p2] at hpc; cases hpc
  have ha : ∃ qp, assemble (newProblem 2) g.qr [c1, c2] = .ok qp := by
    refine assemble_full 2 g.qr _ (fun c hc => ?_) fun h => absurd h (by omega)
    simp only [List.mem_cons, List.not_mem_nil, or_false] at hc
    rcases hc with rfl | rfl
    · exact f1
    · exact f2 hp
  have hsat : ∀ x, HardSat [c1, c2] x ↔ InsideBy g.p.zmpMargin (s.supportPolygon g.hull).2 ⟨x 0, x 1⟩ := by
    intro x
    rw [← s2 hn x]
    constructor
    · intro h; exact h c2 (by simp) p2
    · intro h c hc hpc
      simp only [List.mem_cons, List.not_mem_nil, or_false] at hc
      rcases hc with rfl | rfl
      · rw [p1] at hpc; cases hpc
      · exact h
  have hlift : (∃ x, HardSat [c1, c2] x) ↔ ∃ z, InsideBy g.p.zmpMargin (s.supportPolygon g.hull).2 z := by
    constructor
    · rintro ⟨x, hx⟩; exact ⟨_, (hsat x).1 hx⟩
    · rintro ⟨z, hz⟩; exact ⟨fun i => if i = 0 then z.x else z.y, (hsat _).2 hz⟩
  have hget : g.getOptimalZmp a b d s = (g.solveQP 2 [c1, c2]).map fun sol => ⟨sol 0, sol 1⟩ := by
    unfold Wpg.getOptimalZmp
    rw [if_neg hne, hcs]
    simp only [Bind.bind, Except.bind]
    cases g.solveQP 2 [c1, c2] <;> rfl
  have hcost : ∀ x, specCost 2 (1 / 100000000) [c1, c2] x = zmpCost (lipmZmp g.omega d a b) ⟨x 0, x 1⟩ := by
    intro x
    obtain ⟨e0, e1⟩ := v1 x
    simp only [specCost, softPenalty, p1, t1, p2, List.map_cons, List.map_nil, List.sum_cons, List.sum_nil, r1, w1,
      Finset.sum_range_succ, Finset.sum_range_zero, e0, e1, zmpCost]
    ring
  refine ⟨⟨?_, ?_⟩, ?_, ?_⟩
  · rintro ⟨z, h⟩
    rw [hget] at h
    cases hs : g.solveQP 2 [c1, c2] with
    | error e => rw [hs] at h; cases h
    | ok sol => exact ⟨_, (hsat sol).1 (solveQP_hard g 2 _ hqr hor.sound sol hs)⟩
  · intro h
    obtain ⟨sol, hs⟩ := solveQP_exists g 2 _ hor hqr hw ha (hlift.2 h)
    exact ⟨⟨sol 0, sol 1⟩, by rw [hget, hs]; rfl⟩
  · intro h
    rw [hget, solveQP_none g 2 _ hor.sound hqr ha fun h' => h (hlift.1 h')]
    rfl
  · intro z h
    rw [hget] at h
    cases hs : g.solveQP 2 [c1, c2] with
    | error e => rw [hs] at h; cases h
    | ok sol =>
      rw [hs] at h
      cases h
      obtain ⟨hh, hm⟩ := solveQP_optimal g 2 _ hor hqr hw (fun qp hqp v => by
        have hred : qp.red = none := by rw [(assembled_of_ok hqp).red, hz]; rfl
        have hs1 : c1.softEq = true := by simp [Constr.softEq, t1, p1]
        have hs2 : c2.softEq = false := by simp [Constr.softEq, t2]
        simp only [lostSum, List.map_cons, List.map_nil, List.sum_cons, List.sum_nil, hs1, hs2, if_true, Bool.false_eq_true, if_false,
          hred, reduceExpr, add_zero]
        exact lost_diagonal _ _ r1 k1 A1 v) sol hs
      refine ⟨(hsat sol).1 hh, fun target ht z' hz' => ?_⟩
      have et := (lipmZmp_spec hne a b target).1 ht
      subst et
      have hmin : ∀ q, InsideBy g.p.zmpMargin (s.supportPolygon g.hull).2 q →
          zmpCost (lipmZmp g.omega d a b) ⟨sol 0, sol 1⟩ ≤ zmpCost (lipmZmp g.omega d a b) q := by
        intro q hq
        have := hm (fun i => if i = 0 then q.x else q.y) ((hsat _).2 hq)
        rw [hcost, hcost] at this
        simpa using this
      refine ⟨hmin z' hz', fun hle => ?_⟩
      have hmid := hmin _ (inside_mid _ _ _ _ ((hsat sol).1 hh) hz')
      unfold zmpCost at hmid hle
      simp only at hmid hle
      cases z' with
      | mk zx zy =>
      simp only at hmid hle
      have h0 : (sol 0 - zx) ^ 2 + (sol 1 - zy) ^ 2 ≤ 0 := by nlinarith [sq_nonneg (sol 0 - zx), sq_nonneg (sol 1 - zy)]
      have hx : sol 0 - zx = 0 := by nlinarith [sq_nonneg (sol 0 - zx), sq_nonneg (sol 1 - zy)]
      have hy : sol 1 - zy = 0 := by nlinarith [sq_nonneg (sol 0 - zx), sq_nonneg (sol 1 - zy)]
      rw [V2.mk.injEq]
      constructor <;> linarith

end Verif.Humanoid
