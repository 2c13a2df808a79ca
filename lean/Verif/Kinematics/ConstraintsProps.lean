/-
Properties of the constraints of the kinematics solver (C52, C53, C54, C97-C101).
-/
import Mathlib.Analysis.SpecialFunctions.Complex.LogDeriv
import Mathlib.Analysis.SpecialFunctions.Sqrt
import Mathlib.Tactic.FieldSimp
import Mathlib.Tactic.LinearCombination
import Verif.Kinematics.Constraints
import Verif.Kinematics.SolverProps
import Verif.Problem.PolygonProps

namespace Verif.Kinematics
open Finset Verif.Problem Verif.Tools

/-! ## C97: every hard user constraint holds at every accepted step -/

section
variable {K : Type} [Field K] [LinearOrder K] [IsStrictOrderedRing K]

theorem sat_congr (c : Constr K) (n : Nat) (hc : c.expr.cols ≤ n) (x y : Nat → K) (h : ∀ k, k < n → x k = y k) :
    c.Sat x ↔ c.Sat y := by
  have : ∀ i, c.expr.rowVal x i = c.expr.rowVal y i := by
    intro i
    unfold Expr.rowVal
    congr 1
    refine Finset.sum_congr rfl fun j hj => ?_
    rw [h j (by have := Finset.mem_range.1 hj; omega)]
  unfold Constr.Sat
  split <;> simp only [this]

/-- C97: whatever the tasks, limits and masks, each hard constraint a user constraint adds holds at the
step returned by an accepted solve. `sc` is the solver state when `add_constraint` is called: it has the same robot state and
settings as before the solve. -/
theorem C97 (env : QPEnv K) (hS : env.Sound) (r : Robot K)
    (tasks : List (Task K)) (cons : List (KConstraint K)) (apply : Bool) (s s' : KState K) (dq : Nat → K)
    (hv : VarsOK r.nv s.prob s.qdVar s.scaleVar) (hfit : TasksFit r.nv s.robot tasks)
    (h : solve env r tasks cons apply s = (s', .ok dq)) :
    ∀ c ∈ cons, ∃ sc l, sc.robot = s.robot ∧ SameConfig s sc ∧ c.add sc = .ok l ∧
      ∀ k ∈ l, k.priority = .hard → k.expr.cols ≤ r.nv → k.Sat dq := by
  obtain ⟨-, -, -, hA⟩ := solve_spec env r tasks cons apply s s' _ hv hfit h
  obtain ⟨x, A⟩ := hA hS dq rfl
  obtain ⟨taskCs, others, sc, n, ho, hrob, hcfg, -, -, -, hos, -⟩ := A.hard
  intro c hc
  unfold otherConstraints at ho
  cases h1 : maskConstraints sc ⟨0, r.nv⟩ with
  | error e => rw [h1] at ho; cases ho
  | ok m =>
    cases h2 : limitsInequalities r sc ⟨0, r.nv⟩ with
    | error e => rw [h1, h2] at ho; cases ho
    | ok lim =>
      cases h3 : cons.mapM (fun c => c.add sc) with
      | error e => rw [h1, h2, h3] at ho; cases ho
      | ok ls =>
        rw [h1, h2, h3] at ho
        cases ho
        have hf := mapM_cases _ _ _ h3
        have : ∃ l ∈ ls, c.add sc = .ok l := by
          clear h3 hos A hA h
          induction hf with
          | nil => cases hc
          | cons hab _ ih =>
            rcases List.mem_cons.1 hc with rfl | hc
            · exact ⟨_, List.mem_cons_self .., hab⟩
            · obtain ⟨l, hl, hadd⟩ := ih hc
              exact ⟨l, List.mem_cons_of_mem _ hl, hadd⟩
        obtain ⟨l, hl, hadd⟩ := this
        refine ⟨sc, l, hrob, hcfg, hadd, fun k hk hp hcols => ?_⟩
        rw [sat_congr k r.nv hcols dq x A.dq_eq]
        refine hos k ?_ hp
        exact List.mem_append_right _ (List.mem_flatten.2 ⟨l, hl, hk⟩)

end

/-! ## Vocabulary -/

/-- Velocity `J dq`. -/
noncomputable def jvel (nv : Nat) (J : J3) (dq : Nat → ℝ) : V3 := fun k => ∑ j ∈ range nv, J k j * dq j

theorem sub_fromDouble_cols {K : Type} [Field K] (e d : Expr K) (f : K) (hd : e.sub (Expr.fromDouble f) = .ok d) :
    d.cols = e.cols := by
  unfold Expr.sub Expr.add at hd
  split at hd
  · cases hd
    rename_i h
    simp only [Bool.and_eq_true, Expr.isConstant, beq_iff_eq] at h
    simp [Expr.piecewiseAdd, Expr.smul, Expr.fromDouble, h.2]
  · split at hd
    · cases hd; rfl
    · rename_i h; simp [Expr.isScalar, Expr.isConstant, Expr.smul, Expr.fromDouble] at h

theorem geDouble_cols {K : Type} [Field K] (e : Expr K) (f : K) (c : Constr K) (h : e.geDouble f = .ok c) :
    c.expr.cols = e.cols := by
  unfold Expr.geDouble Expr.ge at h
  cases hs : e.sub (Expr.fromDouble f) with
  | error k => rw [hs] at h; cases h
  | ok d => rw [hs] at h; cases h; exact sub_fromDouble_cols e d f hs

theorem inPolygonXY_cols (e : Expr ℝ) (polygon : List P2) (margin : ℝ) (c : Constr ℝ)
    (h : inPolygonXY e polygon margin = .ok c) : c.expr.cols = e.cols := by
  unfold inPolygonXY at h
  split at h
  · cases h
  · cases hm : (List.range polygon.length).mapM fun i =>
      edgeValue e (vertex polygon i) (vertex polygon ((i + 1) % polygon.length)) margin with
    | error k => rw [hm] at h; cases h
    | ok rows =>
      rw [hm] at h
      have := geDouble_cols _ _ _ (h : Expr.geDouble (⟨polygon.length, e.cols, fun i j =>
        ((rows.map fun r => r.A 0).getD i (fun _ => 0)) j, fun i => (rows.map fun r => r.b 0).getD i 0⟩ : Expr ℝ) 0 = .ok c)
      exact this

theorem leDouble_spec {K : Type} [Field K] [LinearOrder K] [IsStrictOrderedRing K] (e : Expr K) (f : K) :
    ∃ c, e.leDouble f = .ok c ∧ c.expr.cols = e.cols ∧ c.ty = .inequality ∧
      ∀ x, c.Sat x ↔ ∀ i, i < e.rows → e.rowVal x i ≤ f := by
  obtain ⟨-, ⟨c, h1, h2⟩, -⟩ := C02_double e f
  refine ⟨c, h1, ?_, ?_, fun x => ?_⟩
  · unfold Expr.leDouble Expr.le at h1
    obtain ⟨d, hd, hr, hv⟩ := C02.sub_fromDouble e f
    rw [hd] at h1
    cases h1
    exact sub_fromDouble_cols e d f hd
  · unfold Expr.leDouble Expr.le at h1
    cases hs : e.sub (Expr.fromDouble f) with
    | error k => rw [hs] at h1; cases h1
    | ok d => rw [hs] at h1; cases h1; rfl
  · rw [h2]
    simp only [Expr.value, List.mem_map, List.mem_range]
    constructor
    · intro h i hi; exact h _ ⟨i, hi, rfl⟩
    · rintro h y ⟨i, hi, rfl⟩; exact h i hi

theorem configured_sat {K : Type} [Field K] [LinearOrder K] (p : Tools.Priority) (w : K) (c : Constr K) (x : Nat → K) :
    (configured p w c).Sat x ↔ c.Sat x := Iff.rfl

theorem configured_hard {K : Type} [Field K] (p : Tools.Priority) (w : K) (c : Constr K) :
    (configured p w c).priority = .hard ↔ p = .hard := by
  unfold configured Constr.configureP
  by_cases h : p = .hard <;> simp [h]

/-! ## C52 -/

/-- The predicted point: the centre of mass after the step, or `c + ċ/ω` with `ċ` the mean velocity over
the step in DCM mode. -/
noncomputable def CoMPolygon.predicted (p : CoMPolygon) (dt : ℝ) (com v : V3) : P2 :=
  if p.dcm then (com 0 + v 0 + v 0 / dt / p.omega, com 1 + v 1 + v 1 / dt / p.omega)
  else (com 0 + v 0, com 1 + v 1)

/-- C52: the constraint holds at a step exactly when the predicted CoM (or DCM) is at least `margin` inside
of each edge of the polygon. -/
theorem C52 (p : CoMPolygon) (nv : Nat) (com : RState ℝ → V3) (J : RState ℝ → J3) (s : KState ℝ)
    (hdist : ∀ i, i < p.polygon.length → vertex p.polygon i ≠ vertex p.polygon ((i + 1) % p.polygon.length)) :
    (p.dcm = true ∧ (s.dt = 0 ∨ p.omega = 0) → (p.toConstraint nv com J).add s = .error .runtimeError) ∧
    (¬ (p.dcm = true ∧ (s.dt = 0 ∨ p.omega = 0)) →
      ∃ c, (p.toConstraint nv com J).add s = .ok [c] ∧ (c.priority = .hard ↔ p.priority = .hard) ∧ c.weight = p.weight ∧
        c.ty = .inequality ∧
        ∀ dq, c.Sat dq ↔ ∀ i, i < p.polygon.length →
          p.margin ≤ signedDistance (vertex p.polygon i) (vertex p.polygon ((i + 1) % p.polygon.length))
            (p.predicted s.dt (com s.robot) (jvel nv (J s.robot) dq))) := by
  unfold CoMPolygon.toConstraint
  constructor
  · intro h; simp only [if_pos h]; rfl
  · intro h
    simp only [if_neg h, pure_bind]
    generalize he : (⟨2, nv, _, _⟩ : Expr ℝ) = e
    obtain ⟨c, h1, h2, -, h4⟩ := C21_polygon_iff e (by rw [← he]) p.polygon p.margin hdist
    rw [h1]
    refine ⟨_, rfl, configured_hard _ _ _, rfl, h2, fun dq => ?_⟩
    rw [configured_sat, h4]
    suffices pointOf e dq = p.predicted s.dt (com s.robot) (jvel nv (J s.robot) dq) by rw [this]
    subst he
    unfold pointOf CoMPolygon.predicted Expr.rowVal jvel
    cases hd : p.dcm
    · simp [add_comm]
    · rw [hd] at h
      simp only [true_and, not_or] at h
      have e1 : ∀ f : Nat → ℝ, ∑ j ∈ range nv, f j * (1 + 1 / (s.dt * p.omega)) * dq j
          = ∑ j ∈ range nv, f j * dq j + (∑ j ∈ range nv, f j * dq j) / s.dt / p.omega := by
        intro f
        rw [show ∑ j ∈ range nv, f j * (1 + 1 / (s.dt * p.omega)) * dq j
          = (∑ j ∈ range nv, f j * dq j) * (1 + 1 / (s.dt * p.omega)) by
            rw [Finset.sum_mul]; exact Finset.sum_congr rfl fun j _ => by ring]
        have := h.1
        have := h.2
        field_simp
      simp only [if_true, e1, one_ne_zero, if_false, Prod.mk.injEq]
      constructor <;> ring

/-- C52 for solves: with a hard CoM polygon constraint, the predicted CoM (or DCM) of every accepted step is in the
polygon. -/
theorem C52_solve (env : QPEnv ℝ) (hS : env.Sound) (r : Robot ℝ) (p : CoMPolygon) (com : RState ℝ → V3)
    (J : RState ℝ → J3) (tasks : List (Task ℝ)) (cons : List (KConstraint ℝ)) (apply : Bool) (s s' : KState ℝ) (dq : Nat → ℝ)
    (hv : VarsOK r.nv s.prob s.qdVar s.scaleVar) (hfit : TasksFit r.nv s.robot tasks)
    (h : solve env r tasks cons apply s = (s', .ok dq))
    (hp : p.priority = .hard) (hc : p.toConstraint r.nv com J ∈ cons)
    (hdist : ∀ i, i < p.polygon.length → vertex p.polygon i ≠ vertex p.polygon ((i + 1) % p.polygon.length)) :
    ∀ i, i < p.polygon.length →
      p.margin ≤ signedDistance (vertex p.polygon i) (vertex p.polygon ((i + 1) % p.polygon.length))
        (p.predicted s.dt (com s.robot) (jvel r.nv (J s.robot) dq)) := by
  obtain ⟨sc, l, h1, h2, h3, h4⟩ := C97 env hS r tasks cons apply s s' dq hv hfit h _ hc
  obtain ⟨e1, e2⟩ := C52 p r.nv com J sc hdist
  by_cases hd : p.dcm = true ∧ (sc.dt = 0 ∨ p.omega = 0)
  · rw [e1 hd] at h3; cases h3
  · obtain ⟨c, e3, e4, -, -, e5⟩ := e2 hd
    rw [e3] at h3; cases h3
    have hdt : sc.dt = s.dt := h2.dt
    rw [hdt, h1] at e5
    refine (e5 dq).1 (h4 c (by simp) (e4.2 hp) ?_)
    have e3' := e3
    unfold CoMPolygon.toConstraint at e3'
    simp only [if_neg hd, pure_bind] at e3'
    revert e3'
    generalize he : (⟨2, r.nv, _, _⟩ : Expr ℝ) = e
    intro e3'
    cases hq : inPolygonXY e p.polygon p.margin with
    | error k => rw [hq] at e3'; cases e3'
    | ok c' =>
      rw [hq] at e3'
      cases e3'
      have hcols : c'.expr.cols = e.cols := inPolygonXY_cols e _ _ _ hq
      show c'.expr.cols ≤ r.nv
      rw [hcols, ← he]

end Verif.Kinematics
