/-
Property C21: the polygon constraint.
-/
import Mathlib.Tactic.Ring
import Mathlib.Tactic.Linarith
import Mathlib.Tactic.FieldSimp
import Mathlib.Tactic.IntervalCases
import Mathlib.Tactic.NormNum
import Mathlib.Tactic.Positivity
import Mathlib.Algebra.Order.BigOperators.Ring.Finset
import Verif.Problem.ConstraintProps
import Verif.Problem.Polygon

namespace Verif.Problem
open Finset

/-- Signed distance from `P` to the line `A B`, positive on the right of the
direction `A → B` (specification: cross product over the length). -/
noncomputable def signedDistance (A B P : P2) : ℝ :=
  ((B.2 - A.2) * (P.1 - A.1) - (B.1 - A.1) * (P.2 - A.2)) / Real.sqrt ((B.1 - A.1) ^ 2 + (B.2 - A.2) ^ 2)

/-- Value of a 2-row expression. -/
noncomputable def pointOf (e : Expr ℝ) (x : Nat → ℝ) : P2 := (e.rowVal x 0, e.rowVal x 1)

/-- What one row of the constraint computes. -/
noncomputable def edgeRow (A B P : P2) (margin : ℝ) : ℝ :=
  (if A = B then 0 else signedDistance A B P) - margin

theorem normalize_edge (A B : P2) (P : P2) :
    (normalize2 (B.2 - A.2, A.1 - B.1)).1 * (P.1 - A.1) + (normalize2 (B.2 - A.2, A.1 - B.1)).2 * (P.2 - A.2)
      = if A = B then 0 else signedDistance A B P := by
  unfold normalize2 signedDistance
  simp only
  by_cases hAB : A = B
  · subst hAB; simp
  · rw [if_neg hAB]
    have hpos : 0 < (B.2 - A.2) * (B.2 - A.2) + (A.1 - B.1) * (A.1 - B.1) := by
      have h : B.2 - A.2 ≠ 0 ∨ A.1 - B.1 ≠ 0 := by
        by_contra hc
        push Not at hc
        exact hAB (Prod.ext (by linarith [hc.2]) (by linarith [hc.1]))
      rcases h with h | h
      · have := mul_self_pos.2 h; nlinarith [mul_self_nonneg (A.1 - B.1)]
      · have := mul_self_pos.2 h; nlinarith [mul_self_nonneg (B.2 - A.2)]
    rw [if_pos hpos]
    have hz : (B.2 - A.2) * (B.2 - A.2) + (A.1 - B.1) * (A.1 - B.1) = (B.1 - A.1) ^ 2 + (B.2 - A.2) ^ 2 := by ring
    rw [hz]
    ring

theorem edgeValue_spec (e : Expr ℝ) (he : e.rows = 2) (A B : P2) (margin : ℝ) :
    ∃ r, edgeValue e A B margin = .ok r ∧ r.rows = 1 ∧ r.cols = e.cols ∧
      ∀ x, r.rowVal x 0 = edgeRow A B (pointOf e x) margin := by
  refine ⟨⟨1, e.cols, fun _ j => ∑ k ∈ range e.rows,
      (if k = 0 then (normalize2 (B.2 - A.2, A.1 - B.1)).1 else (normalize2 (B.2 - A.2, A.1 - B.1)).2) * e.A k j,
    fun _ => (∑ k ∈ range e.rows,
      (if k = 0 then (normalize2 (B.2 - A.2, A.1 - B.1)).1 else (normalize2 (B.2 - A.2, A.1 - B.1)).2)
        * (e.b k - if k = 0 then A.1 else A.2)) - margin⟩, ?_, rfl, rfl, ?_⟩
  · unfold edgeValue Expr.subVec
    rw [if_pos (show (2 : Nat) = e.rows from he.symm)]
    show (do
      let p ← Expr.matMul _ _
      p.subDouble margin) = _
    unfold Expr.matMul
    rw [if_pos (show (2 : Nat) = e.rows from he.symm)]
    rfl
  · intro x
    unfold edgeRow
    rw [← normalize_edge]
    simp only [Expr.rowVal, pointOf, he, sum_range_succ, sum_range_zero, zero_add]
    simp only [if_true, one_ne_zero, if_false, add_mul, sum_add_distrib, mul_add, mul_sub, mul_sum]
    have h1 : ∀ c i, ∑ j ∈ range e.cols, c * e.A i j * x j = ∑ j ∈ range e.cols, c * (e.A i j * x j) :=
      fun c i => sum_congr rfl fun j _ => by ring
    rw [h1, h1]
    ring

theorem mapM_ok {α β : Type} (f : α → Except Err β) (g : α → β) :
    ∀ l : List α, (∀ a ∈ l, f a = .ok (g a)) → l.mapM f = .ok (l.map g) := by
  intro l
  induction l with
  | nil => intro _; rfl
  | cons a l ih =>
    intro h
    rw [List.mapM_cons, h a (by simp), ih fun b hb => h b (by simp [hb])]
    rfl

/-- Row by row meaning of the polygon constraint, without any assumption on the
polygon. -/
theorem polygon_rows (e : Expr ℝ) (he : e.rows = 2) (polygon : List P2) (margin : ℝ) :
    ∃ c, inPolygonXY e polygon margin = .ok c ∧ c.ty = .inequality ∧ c.priority = .hard ∧ c.expr.rows = polygon.length ∧
      ∀ x, c.Sat x ↔ ∀ i, i < polygon.length →
        0 ≤ edgeRow (vertex polygon i) (vertex polygon ((i + 1) % polygon.length)) (pointOf e x) margin := by
  choose g hg hrows hcols hval using fun i => edgeValue_spec e he (vertex polygon i)
    (vertex polygon ((i + 1) % polygon.length)) margin
  have hm := mapM_ok (fun i => edgeValue e (vertex polygon i) (vertex polygon ((i + 1) % polygon.length)) margin)
    g (List.range polygon.length) (fun i _ => hg i)
  let values : Expr ℝ := ⟨polygon.length, e.cols,
      fun i j => ((((List.range polygon.length).map g).map fun r => r.A 0).getD i (fun _ => 0)) j,
      fun i => (((List.range polygon.length).map g).map fun r => r.b 0).getD i 0⟩
  have hv : ∀ x i, i < polygon.length → values.rowVal x i
      = edgeRow (vertex polygon i) (vertex polygon ((i + 1) % polygon.length)) (pointOf e x) margin := by
    intro x i hi
    rw [← hval i x]
    simp only [Expr.rowVal, values, hcols i]
    have h1 : (((List.range polygon.length).map g).map fun r => r.b 0).getD i 0 = (g i).b 0 := by
      simp [List.getD, hi]
    have h2 : (((List.range polygon.length).map g).map fun r => r.A 0).getD i (fun _ => 0) = (g i).A 0 := by
      simp [List.getD, hi]
    rw [h1, h2]
  have hadd : values.geDouble 0 = .ok { expr := values.piecewiseAdd (0 * -1), ty := .inequality, weight := 1 } ∨
      (values.isScalar && values.isConstant) = true := by
    by_cases h : (values.isScalar && values.isConstant) = true
    · exact .inr h
    · left
      unfold Expr.geDouble Expr.ge Expr.sub Expr.add
      rw [if_neg h]
      simp only [Expr.smul, Expr.fromDouble, Expr.isScalar, Expr.isConstant, beq_self_eq_true, Bool.and_self, if_true]
      rfl
  unfold inPolygonXY
  rw [if_neg (by simpa using he), hm]
  show ∃ c, values.geDouble 0 = .ok c ∧ _
  rcases hadd with h | h
  · refine ⟨_, h, rfl, rfl, rfl, fun x => ?_⟩
    have hrv : ∀ i, (values.piecewiseAdd (0 * -1)).rowVal x i = values.rowVal x i := by
      intro i; simp only [Expr.rowVal, Expr.piecewiseAdd]; ring
    constructor
    · intro hs i hi
      rw [← hv x i hi, ← hrv i]
      exact hs i hi
    · intro hs i hi
      have hi : i < polygon.length := hi
      show 0 ≤ (values.piecewiseAdd (0 * -1)).rowVal x i
      rw [hrv i, hv x i hi]; exact hs i hi
  · have h1 : values.rows = 1 ∧ values.cols = 0 := by
      simpa [Expr.isScalar, Expr.isConstant] using h
    have hb : values.geDouble 0 = .ok
        { expr := ((Expr.fromDouble 0).smul (-1)).piecewiseAdd (values.b 0), ty := .inequality, weight := 1 } := by
      unfold Expr.geDouble Expr.ge Expr.sub Expr.add
      rw [if_pos h]; rfl
    have hl : polygon.length = 1 := h1.1
    refine ⟨_, hb, rfl, rfl, hl.symm, fun x => ?_⟩
    have hrv : (((Expr.fromDouble 0).smul (-1)).piecewiseAdd (values.b 0)).rowVal x 0 = values.rowVal x 0 := by
      simp only [Expr.rowVal, Expr.piecewiseAdd, Expr.smul, Expr.fromDouble, h1.2, sum_range_zero]; ring
    constructor
    · intro hs i hi
      have : i = 0 := by omega
      subst this
      rw [← hv x 0 hi, ← hrv]
      exact hs 0 (Nat.zero_lt_one)
    · intro hs i hi
      have : i = 0 := by
        have hi : i < 1 := hi
        omega
      subst this
      show 0 ≤ (((Expr.fromDouble 0).smul (-1)).piecewiseAdd (values.b 0)).rowVal x 0
      rw [hrv, hv x 0 (by omega)]; exact hs 0 (by omega)

/-- **C21.** For every polygon with distinct consecutive vertices, the constraint
holds at `x` iff the signed distance from the point to every edge's line,
positive on the right, is at least `margin`. -/
theorem C21_polygon_iff (e : Expr ℝ) (he : e.rows = 2) (polygon : List P2) (margin : ℝ)
    (hdist : ∀ i, i < polygon.length → vertex polygon i ≠ vertex polygon ((i + 1) % polygon.length)) :
    ∃ c, inPolygonXY e polygon margin = .ok c ∧ c.ty = .inequality ∧ c.priority = .hard ∧
      ∀ x, c.Sat x ↔ ∀ i, i < polygon.length →
        margin ≤ signedDistance (vertex polygon i) (vertex polygon ((i + 1) % polygon.length)) (pointOf e x) := by
  obtain ⟨c, h1, h2, h3, -, h4⟩ := polygon_rows e he polygon margin
  refine ⟨c, h1, h2, h3, fun x => ?_⟩
  rw [h4]
  refine forall_congr' fun i => forall_congr' fun hi => ?_
  unfold edgeRow
  rw [if_neg (hdist i hi)]
  constructor <;> intro h <;> linarith

/-- A repeated vertex makes the constraint unsatisfiable for a positive margin
(behaviour of the code on degenerate polygons). -/
theorem C21_degenerate_edge (e : Expr ℝ) (he : e.rows = 2) (polygon : List P2) (margin : ℝ) (hm : 0 < margin)
    (i : Nat) (hi : i < polygon.length) (hd : vertex polygon i = vertex polygon ((i + 1) % polygon.length)) :
    ∃ c, inPolygonXY e polygon margin = .ok c ∧ ∀ x, ¬ c.Sat x := by
  obtain ⟨c, h1, -, -, -, h4⟩ := polygon_rows e he polygon margin
  refine ⟨c, h1, fun x hs => ?_⟩
  have := (h4 x).1 hs i hi
  unfold edgeRow at this
  rw [if_pos hd] at this
  linarith

/-- Expressions that do not have two rows are rejected. -/
theorem C21_rows_error (e : Expr ℝ) (he : e.rows ≠ 2) (polygon : List P2) (margin : ℝ) :
    inPolygonXY e polygon margin = .error .runtimeError := by
  unfold inPolygonXY; rw [if_pos he]

theorem pointOf_stack (ex ey : Expr ℝ) (hx : ex.rows = 1) (hy : ey.rows = 1) (x : Nat → ℝ) :
    (ex.stack ey).rows = 2 ∧ pointOf (ex.stack ey) x = (ex.rowVal x 0, ey.rowVal x 0) := by
  refine ⟨by simp [Expr.stack, hx, hy], ?_⟩
  unfold pointOf
  simp only [Expr.rowVal, Expr.stack, hx, Nat.zero_lt_one, if_true, lt_irrefl, if_false, Nat.sub_self]
  congr 2
  · exact sum_pad _ _ (le_max_left _ _) _ _
  · exact sum_pad _ _ (le_max_right _ _) _ _

/-- **C21**, `in_polygon(x, y)` on one-row expressions: the constraint holds iff the signed distance from the point
`(x, y)` to every edge's line is at least `margin`. -/
theorem C21_in_polygon (ex ey : Expr ℝ) (hx : ex.rows = 1) (hy : ey.rows = 1) (polygon : List P2) (margin : ℝ)
    (hdist : ∀ i, i < polygon.length → vertex polygon i ≠ vertex polygon ((i + 1) % polygon.length)) :
    ∃ c, inPolygon ex ey polygon margin = .ok c ∧ c.ty = .inequality ∧ c.priority = .hard ∧
      ∀ x, c.Sat x ↔ ∀ i, i < polygon.length →
        margin ≤ signedDistance (vertex polygon i) (vertex polygon ((i + 1) % polygon.length))
          (ex.rowVal x 0, ey.rowVal x 0) := by
  obtain ⟨c, h1, h2, h3, h4⟩ := C21_polygon_iff (ex.stack ey) (pointOf_stack ex ey hx hy 0).1 polygon margin hdist
  refine ⟨c, h1, h2, h3, fun x => ?_⟩
  rw [h4, (pointOf_stack ex ey hx hy x).2]

/-- Every vertex lies on the right of every edge: a clockwise convex polygon. -/
def ClockwiseConvex (polygon : List P2) : Prop :=
  ∀ i, i < polygon.length → ∀ k, k < polygon.length →
    0 ≤ signedDistance (vertex polygon i) (vertex polygon ((i + 1) % polygon.length)) (vertex polygon k)

theorem signedDistance_affine (A B : P2) (n : Nat) (w : Nat → ℝ) (V : Nat → P2) (hw : ∑ k ∈ range n, w k = 1) :
    signedDistance A B (∑ k ∈ range n, w k * (V k).1, ∑ k ∈ range n, w k * (V k).2)
      = ∑ k ∈ range n, w k * signedDistance A B (V k) := by
  unfold signedDistance
  have h1 : (∑ k ∈ range n, w k * (V k).1) - A.1 = ∑ k ∈ range n, w k * ((V k).1 - A.1) := by
    simp only [mul_sub, sum_sub_distrib, ← sum_mul, hw, one_mul]
  have h2 : (∑ k ∈ range n, w k * (V k).2) - A.2 = ∑ k ∈ range n, w k * ((V k).2 - A.2) := by
    simp only [mul_sub, sum_sub_distrib, ← sum_mul, hw, one_mul]
  rw [h1, h2, mul_sum, mul_sum, ← sum_sub_distrib, div_eq_mul_inv, sum_mul]
  exact sum_congr rfl fun k _ => by rw [div_eq_mul_inv]; ring

/-- **C21 (convex hull).** For a clockwise convex polygon and margin 0, every convex
combination of the vertices satisfies the constraint. -/
theorem C21_convex_hull (e : Expr ℝ) (he : e.rows = 2) (polygon : List P2)
    (hdist : ∀ i, i < polygon.length → vertex polygon i ≠ vertex polygon ((i + 1) % polygon.length))
    (hconv : ClockwiseConvex polygon) (w : Nat → ℝ) (hw0 : ∀ k, k < polygon.length → 0 ≤ w k)
    (hw1 : ∑ k ∈ range polygon.length, w k = 1) (x : Nat → ℝ)
    (hx : pointOf e x = (∑ k ∈ range polygon.length, w k * (vertex polygon k).1,
      ∑ k ∈ range polygon.length, w k * (vertex polygon k).2)) :
    ∃ c, inPolygonXY e polygon 0 = .ok c ∧ c.Sat x := by
  obtain ⟨c, h1, -, -, h4⟩ := C21_polygon_iff e he polygon 0 hdist
  refine ⟨c, h1, (h4 x).2 fun i hi => ?_⟩
  rw [hx, signedDistance_affine _ _ _ _ (vertex polygon) hw1]
  exact sum_nonneg fun k hk => mul_nonneg (hw0 k (mem_range.1 hk)) (hconv i hi k (mem_range.1 hk))

/-- The clockwise unit square. -/
def square : List P2 := [(0, 0), (0, 1), (1, 1), (1, 0)]

/-- The hypotheses are met by the clockwise unit square. -/
example : (∀ i, i < square.length → vertex square i ≠ vertex square ((i + 1) % square.length)) ∧
    ClockwiseConvex square := by
  constructor
  · intro i hi
    have hi : i < 4 := hi
    interval_cases i <;> simp [vertex, square]
  · intro i hi k hk
    have hi : i < 4 := hi
    have hk : k < 4 := hk
    interval_cases i <;> interval_cases k <;> simp [vertex, square, signedDistance]

/-- The centre of the square is at distance exactly 1/2 from the first edge. -/
example : signedDistance (0, 0) (0, 1) (1 / 2, 1 / 2) = 1 / 2 := by simp [signedDistance]

end Verif.Problem
