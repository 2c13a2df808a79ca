/-
C147: what `update_supports` changes, and when it succeeds.
-/
import Verif.Humanoid.OptimalZmpProps
import Verif.Humanoid.SupportsProps

namespace Verif.Humanoid
open Verif.Problem Verif.Tools Verif.Robot

/-! ## The constraints -/

/-- The rotation part of `frame` applied to a vector of the plane. -/
def planarVector (f : Affine) (x y : ℝ) : V2 := ⟨f.linear 0 0 * x + f.linear 0 1 * y, f.linear 1 0 * x + f.linear 1 1 * y⟩

/-- What the eight constraints of `update_supports` say, row by row. -/
structure StepRows (g : Wpg) (a : StepArea) (elapsed : ℝ) (current : Support) (side : Side) (frame : Affine) (target dcm zmp : V2)
    (c1 c2 c3 c4 c5 c6 c7 c8 : Constr ℝ) : Prop where
  soft : (c1.ty = .equality ∧ c1.priority = .soft ∧ c1.weight = 5) ∧ (c2.ty = .equality ∧ c2.priority = .soft ∧ c2.weight = 100) ∧
    (c3.ty = .equality ∧ c3.priority = .soft ∧ c3.weight = 1000) ∧ (c7.ty = .inequality ∧ c7.priority = .soft ∧ c7.weight = 1000000)
  hard : (c4.ty = .inequality ∧ c4.priority = .hard) ∧ (c5.ty = .inequality ∧ c5.priority = .hard) ∧
    (c6.ty = .inequality ∧ c6.priority = .hard) ∧ (c8.ty = .equality ∧ c8.priority = .hard)
  rows : c1.expr.rows = 1 ∧ c2.expr.rows = 2 ∧ c3.expr.rows = 2 ∧ c4.expr.rows = 1 ∧ c5.expr.rows = 1 ∧
    c6.expr.rows = a.opSpacePolygon.length ∧ c7.expr.rows = a.dcmOffsetPolygon.length ∧ c8.expr.rows = 2
  cols : ∀ c ∈ [c1, c2, c3, c4, c5, c6, c7, c8], c.expr.cols ≤ 5 ∧ c.brows = c.expr.rows
  v1 : ∀ x, c1.expr.rowVal x 0 = x 2 - Real.exp (g.omega * g.p.supportDuration current)
  v2 : ∀ x, c2.expr.rowVal x 0 = (planarPoint frame (x 0) (x 1)).x - target.x ∧
    c2.expr.rowVal x 1 = (planarPoint frame (x 0) (x 1)).y - target.y
  v3 : ∀ x, c3.expr.rowVal x 0 = (planarVector frame (x 3) (x 4)).x - (current.targetDcm.x - target.x) ∧
    c3.expr.rowVal x 1 = (planarVector frame (x 3) (x 4)).y - (current.targetDcm.y - target.y)
  v4 : ∀ x, c4.expr.rowVal x 0 = x 2 - Real.exp (g.omega * max (15 / 100) elapsed)
  v5 : ∀ x, c5.expr.rowVal x 0 = Real.exp (g.omega * max 3 elapsed) - x 2
  v6 : ∀ x i, i < a.opSpacePolygon.length → c6.expr.rowVal x i = edgeRow (vertex (vertices (a.nextPolygon side)) i)
    (vertex (vertices (a.nextPolygon side)) ((i + 1) % a.opSpacePolygon.length)) (x 0, x 1) 0
  v7 : ∀ x i, i < a.dcmOffsetPolygon.length → c7.expr.rowVal x i = edgeRow (vertex (vertices a.dcmOffsetPolygon) i)
    (vertex (vertices a.dcmOffsetPolygon) ((i + 1) % a.dcmOffsetPolygon.length)) (x 3, x 4) 0
  v8 : ∀ x, c8.expr.rowVal x 0 = (planarPoint frame (x 0) (x 1)).x + (planarVector frame (x 3) (x 4)).x -
      ((dcm.x - zmp.x) * Real.exp (-g.omega * elapsed) * x 2 + zmp.x) ∧
    c8.expr.rowVal x 1 = (planarPoint frame (x 0) (x 1)).y + (planarVector frame (x 3) (x 4)).y -
      ((dcm.y - zmp.y) * Real.exp (-g.omega * elapsed) * x 2 + zmp.y)

theorem nextPolygon_length (a : StepArea) (side : Side) : (a.nextPolygon side).length = a.opSpacePolygon.length := by
  cases side
  · simp [StepArea.nextPolygon, negated]
  · rfl

/-- `expr == double`, `>=` and `<=` for the variable `tau`. -/
theorem tau_rows (c : ℝ) : ∃ e1 e2 e3 : Constr ℝ,
    (⟨1, 3, fun k j => if j = 2 + k then 1 else 0, fun _ => 0⟩ : Expr ℝ).eqDouble c = .ok e1 ∧
    (⟨1, 3, fun k j => if j = 2 + k then 1 else 0, fun _ => 0⟩ : Expr ℝ).geDouble c = .ok e2 ∧
    (⟨1, 3, fun k j => if j = 2 + k then 1 else 0, fun _ => 0⟩ : Expr ℝ).leDouble c = .ok e3 ∧
    (e1.ty = .equality ∧ e1.expr.rows = 1 ∧ e1.brows = 1 ∧ e1.expr.cols = 3 ∧ ∀ x, e1.expr.rowVal x 0 = x 2 - c) ∧
    (e2.ty = .inequality ∧ e2.expr.rows = 1 ∧ e2.brows = 1 ∧ e2.expr.cols = 3 ∧ ∀ x, e2.expr.rowVal x 0 = x 2 - c) ∧
    (e3.ty = .inequality ∧ e3.expr.rows = 1 ∧ e3.brows = 1 ∧ e3.expr.cols = 3 ∧ ∀ x, e3.expr.rowVal x 0 = c - x 2) := by
  refine ⟨_, _, _, rfl, rfl, rfl, ⟨rfl, rfl, rfl, rfl, fun x => ?_⟩, ⟨rfl, rfl, rfl, rfl, fun x => ?_⟩, ⟨rfl, rfl, rfl, rfl, fun x => ?_⟩⟩
  · simp [Expr.rowVal, Expr.piecewiseAdd, Expr.smul, Expr.fromDouble, Finset.sum_range_succ]
    ring
  · simp [Expr.rowVal, Expr.piecewiseAdd, Expr.smul, Expr.fromDouble, Finset.sum_range_succ]
    ring
  · simp [Expr.rowVal, Expr.piecewiseAdd, Expr.smul, Expr.neg, Expr.fromDouble, Finset.sum_range_succ]
    ring

/-- `R * variable`. -/
theorem rotated_rows (f : Affine) (k : Nat) : ∃ e : Expr ℝ,
    Expr.matMul (planarLinear f) ⟨2, k + 2, fun i j => if j = k + i then 1 else 0, fun _ => 0⟩ = .ok e ∧ e.rows = 2 ∧ e.cols = k + 2 ∧
    ∀ x, e.rowVal x 0 = (planarVector f (x k) (x (k + 1))).x ∧ e.rowVal x 1 = (planarVector f (x k) (x (k + 1))).y := by
  refine ⟨_, rfl, rfl, rfl, fun x => ?_⟩
  rw [Expr.rowVal_matMulMain, Expr.rowVal_matMulMain]
  have h : ∀ i, i < 2 → (⟨2, k + 2, fun i j => if j = k + i then 1 else 0, fun _ => 0⟩ : Expr ℝ).rowVal x i = x (k + i) := by
    intro i hi
    unfold Expr.rowVal
    simp only [ite_mul, one_mul, zero_mul, add_zero]
    rw [Finset.sum_ite_eq' (Finset.range (k + 2)) (k + i) x, if_pos (Finset.mem_range.2 (by omega))]
  simp only [Finset.sum_range_succ, Finset.sum_range_zero, h 0 (by omega), h 1 (by omega), planarLinear, planarVector]
  simp

/-- `expr == vector`, row by row. -/
theorem eqVec_values (e : Expr ℝ) (he : e.rows = 2) (x y : ℝ) :
    ∃ c, e.eqVec (vec2 x y) = .ok c ∧ c.ty = .equality ∧ c.expr.rows = 2 ∧ c.brows = 2 ∧
      c.expr.cols ≤ e.cols ∧ ∀ sol, c.expr.rowVal sol 0 = e.rowVal sol 0 - x ∧ c.expr.rowVal sol 1 = e.rowVal sol 1 - y := by
  obtain ⟨d, hd, hr, hv⟩ := add_rows_eq e ((Expr.fromVector (vec2 x y)).smul (-1)) (by rw [he]; rfl)
  have hc : d.cols ≤ e.cols := by
    have := add_cols hd
    simpa [Expr.smul, Expr.fromVector] using this
  refine ⟨{ expr := d, weight := 1 }, ?_, rfl, by rw [← he]; exact hr, by rw [← he]; exact hr, hc, fun sol => ?_⟩
  · unfold Expr.eqVec Expr.eq Expr.sub
    rw [hd]
    rfl
  · have w : ∀ i, ((Expr.fromVector (vec2 x y)).smul (-1)).rowVal sol i = -(if i = 0 then x else y) := by
      intro i
      simp [Expr.rowVal, Expr.smul, Expr.fromVector, vec2]
    constructor
    · show d.rowVal sol 0 = _
      rw [hv sol 0 (by omega), w, if_pos rfl]; ring
    · show d.rowVal sol 1 = _
      rw [hv sol 1 (by omega), w, if_neg (by decide)]; ring

theorem stepConstraints_spec (g : Wpg) (a : StepArea) (elapsed : ℝ) (current : Support) (side : Side) (frame : Affine)
    (target dcm zmp : V2) : ∃ c1 c2 c3 c4 c5 c6 c7 c8,
      g.stepConstraints a elapsed current side frame target dcm zmp = .ok [c1, c2, c3, c4, c5, c6, c7, c8] ∧
      StepRows g a elapsed current side frame target dcm zmp c1 c2 c3 c4 c5 c6 c7 c8 := by
  have hnext := var_expr 0 2
  have htau := var_expr 2 1
  have hoff := var_expr 3 2
  obtain ⟨c1, -, -, h1, -, -, ⟨t1, r1, b1, k1, v1⟩, -, -⟩ := tau_rows (Real.exp (g.omega * g.p.supportDuration current))
  obtain ⟨-, c4, -, -, h4, -, -, ⟨t4, r4, b4, k4, v4⟩, -⟩ := tau_rows (Real.exp (g.omega * max (15 / 100) elapsed))
  obtain ⟨-, -, c5, -, -, h5, -, -, ⟨t5, r5, b5, k5, v5⟩⟩ := tau_rows (Real.exp (g.omega * max 3 elapsed))
  obtain ⟨rot, hrot, rr, rc, rv⟩ := rotated_rows frame 0
  obtain ⟨wo, hwo, wor, woc, wov⟩ := rotated_rows frame 3
  obtain ⟨wn, hwn, wnr, wnc, wnv⟩ : ∃ wn, rot.addVec (vec2 (frame.translation 0) (frame.translation 1)) = .ok wn ∧ wn.rows = 2 ∧
      wn.cols = 2 ∧ ∀ x, wn.rowVal x 0 = (planarPoint frame (x 0) (x 1)).x ∧ wn.rowVal x 1 = (planarPoint frame (x 0) (x 1)).y := by
    unfold Expr.addVec
    rw [if_pos (by rw [rr]; rfl)]
    refine ⟨_, rfl, rr, rc, fun x => ?_⟩
    obtain ⟨e0, e1⟩ := rv x
    unfold Expr.rowVal at e0 e1 ⊢
    simp only [vec2, planarPoint, planarVector, if_true, one_ne_zero, if_false] at e0 e1 ⊢
    constructor
    · rw [← add_assoc, e0]; ring
    · rw [← add_assoc, e1]; ring
  obtain ⟨c2, h2, t2, r2, b2, k2, v2⟩ := eqVec_values wn wnr target.x target.y
  obtain ⟨c3, h3, t3, r3, b3, k3, v3⟩ := eqVec_values wo wor (current.targetDcm.x - target.x) (current.targetDcm.y - target.y)
  obtain ⟨c6, h6, t6, -, r6, -⟩ := polygon_rows ⟨2, 0 + 2, fun k j => if j = 0 + k then 1 else 0, fun _ => 0⟩ rfl
    (vertices (a.nextPolygon side)) 0
  obtain ⟨c7, h7, t7, -, r7, -⟩ := polygon_rows ⟨2, 3 + 2, fun k j => if j = 3 + k then 1 else 0, fun _ => 0⟩ rfl
    (vertices a.dcmOffsetPolygon) 0
  have v6 := polygon_values _ rfl _ _ c6 h6
  have v7 := polygon_values _ rfl _ _ c7 h7
  have k6 := polygon_cols h6
  have k7 := polygon_cols h7
  obtain ⟨sum, hsum, sr, sv⟩ := add_rows_eq wn wo (by rw [wnr, wor])
  have sc := add_cols hsum
  obtain ⟨fr, hfr, frr, frc, frv⟩ : ∃ fr : Expr ℝ, Expr.matMul ⟨2, 1, fun i _ =>
        (if i = 0 then dcm.x - zmp.x else dcm.y - zmp.y) * Real.exp (-g.omega * elapsed)⟩
      ⟨1, 2 + 1, fun k j => if j = 2 + k then 1 else 0, fun _ => 0⟩ = .ok fr ∧ fr.rows = 2 ∧ fr.cols = 3 ∧
      ∀ x, fr.rowVal x 0 = (dcm.x - zmp.x) * Real.exp (-g.omega * elapsed) * x 2 ∧
        fr.rowVal x 1 = (dcm.y - zmp.y) * Real.exp (-g.omega * elapsed) * x 2 := by
    refine ⟨_, rfl, rfl, rfl, fun x => ?_⟩
    rw [Expr.rowVal_matMulMain, Expr.rowVal_matMulMain]
    simp [Expr.rowVal, Finset.sum_range_succ]
  obtain ⟨pu, hpu, pur, puc, puv⟩ : ∃ pu, fr.addVec (vec2 zmp.x zmp.y) = .ok pu ∧ pu.rows = 2 ∧ pu.cols = 3 ∧
      ∀ x, pu.rowVal x 0 = fr.rowVal x 0 + zmp.x ∧ pu.rowVal x 1 = fr.rowVal x 1 + zmp.y := by
    unfold Expr.addVec
    rw [if_pos (by rw [frr]; rfl)]
    refine ⟨_, rfl, frr, frc, fun x => ?_⟩
    unfold Expr.rowVal
    simp only [vec2, if_true, one_ne_zero, if_false]
    constructor <;> ring
  obtain ⟨d, hd, dr, dv⟩ := add_rows_eq sum (pu.smul (-1)) (by rw [sr, wnr]; exact pur.symm)
  have dc := add_cols hd
  have hsub : ∀ x i, (pu.smul (-1)).rowVal x i = - pu.rowVal x i := by
    intro x i
    simp only [Expr.rowVal, Expr.smul, mul_neg, mul_one, neg_mul, Finset.sum_neg_distrib]
    ring
  refine ⟨c1.configureP .soft 5, c2.configureP .soft 100, c3.configureP .soft 1000, c4.configureP .hard 1, c5.configureP .hard 1,
    c6.configureP .hard 1, c7.configureP .soft 1000000, ({ expr := d, weight := 1 } : Constr ℝ).configureP .hard 1, ?_, ?_⟩
  · unfold Wpg.stepConstraints
    have e1 : (⟨0, 2⟩ : Var).expr (K := ℝ) (-1) (-1) = _ := hnext
    have e2 : (⟨2, 3⟩ : Var).expr (K := ℝ) (-1) (-1) = _ := htau
    have e3 : (⟨3, 5⟩ : Var).expr (K := ℝ) (-1) (-1) = _ := hoff
    simp only [e1, e2, e3, Bind.bind, Except.bind]
    simp only [h1, hrot, hwn, h2, hwo, h3, h4, h5, h6, h7, hsum, hfr, hpu, Expr.eq, Expr.sub, hd, Bind.bind, Except.bind, pure, Except.pure]
  · refine ⟨⟨⟨t1, rfl, rfl⟩, ⟨t2, rfl, rfl⟩, ⟨t3, rfl, rfl⟩, ⟨t7, rfl, rfl⟩⟩, ⟨⟨t4, rfl⟩, ⟨t5, rfl⟩, ⟨t6, rfl⟩, ⟨rfl, rfl⟩⟩,
      ⟨r1, r2, r3, r4, r5, ?_, ?_, ?_⟩, ?_, v1, ?_, ?_, v4, v5, ?_, ?_, ?_⟩
    · show c6.expr.rows = _
      rw [r6, vertices_length, nextPolygon_length]
    · show c7.expr.rows = _
      rw [r7, vertices_length]
    · show d.rows = 2
      rw [dr, sr, wnr]
    · intro c hc
      simp only [List.mem_cons, List.not_mem_nil, or_false] at hc
      rcases hc with rfl | rfl | rfl | rfl | rfl | rfl | rfl | rfl
      · exact ⟨by show c1.expr.cols ≤ 5; omega, by show c1.brows = c1.expr.rows; omega⟩
      · exact ⟨by show c2.expr.cols ≤ 5; omega, by show c2.brows = c2.expr.rows; omega⟩
      · exact ⟨by show c3.expr.cols ≤ 5; omega, by show c3.brows = c3.expr.rows; omega⟩
      · exact ⟨by show c4.expr.cols ≤ 5; omega, by show c4.brows = c4.expr.rows; omega⟩
      · exact ⟨by show c5.expr.cols ≤ 5; omega, by show c5.brows = c5.expr.rows; omega⟩
      · exact ⟨le_trans k6.1 (by show 0 + 2 ≤ 5; omega), k6.2⟩
      · exact ⟨le_trans k7.1 (by show 3 + 2 ≤ 5; omega), k7.2⟩
      · refine ⟨?_, rfl⟩
        show d.cols ≤ 5
        have : (pu.smul (-1)).cols = pu.cols := rfl
        omega
    · intro x
      obtain ⟨e0, e1⟩ := v2 x
      obtain ⟨f0, f1⟩ := wnv x
      exact ⟨e0.trans (by rw [f0]), e1.trans (by rw [f1])⟩
    · intro x
      obtain ⟨e0, e1⟩ := v3 x
      obtain ⟨f0, f1⟩ := wov x
      exact ⟨e0.trans (by rw [f0]), e1.trans (by rw [f1])⟩
    · intro x i hi
      have := v6 x i (by rw [vertices_length, nextPolygon_length]; exact hi)
      rw [vertices_length, nextPolygon_length] at this
      refine this.trans ?_
      congr 1
      simp [pointOf, Expr.rowVal, Finset.sum_range_succ]
    · intro x i hi
      have := v7 x i (by rw [vertices_length]; exact hi)
      rw [vertices_length] at this
      refine this.trans ?_
      congr 1
      simp [pointOf, Expr.rowVal, Finset.sum_range_succ]
    · intro x
      obtain ⟨f0, f1⟩ := wnv x
      obtain ⟨o0, o1⟩ := wov x
      obtain ⟨q0, q1⟩ := puv x
      obtain ⟨p0, p1⟩ := frv x
      constructor
      · show d.rowVal x 0 = _
        rw [dv x 0 (by rw [sr, wnr]; omega), sv x 0 (by rw [wnr]; omega), hsub, f0, o0, q0, p0]
        ring
      · show d.rowVal x 1 = _
        rw [dv x 1 (by rw [sr, wnr]; omega), sv x 1 (by rw [wnr]; omega), hsub, f1, o1, q1, p1]
        ring

/-! ## Specification -/

/-- A decision of `update_supports`: the next ZMP and the offset of the DCM from it, both in the frame of the current support, and
when the current support ends, counted from its start. -/
structure StepChoice where
  place : V2
  tEnd : ℝ
  offset : V2

/-- The region of the next ZMP: the operational space for a right support, its image by a half turn for a left one. -/
def InStepRegion (a : StepArea) : Side → V2 → Prop
  | .right, p => InsideBy 0 a.opSpacePolygon p
  | .left, p => InsideBy 0 a.opSpacePolygon ⟨-p.x, -p.y⟩

/-- A possible decision: the ZMP is in its region, the support does not end too early, too late or in the past, and the DCM that
was measured, the ZMP being at `zmp`, gets at that time where the decision says. -/
structure StepOK (g : Wpg) (a : StepArea) (elapsed : ℝ) (side : Side) (frame : Affine) (dcm zmp : V2) (c : StepChoice) : Prop where
  place : InStepRegion a side c.place
  early : max (15 / 100) elapsed ≤ c.tEnd
  late : c.tEnd ≤ max 3 elapsed
  dcm : dcmAfter g.omega zmp dcm (c.tEnd - elapsed) =
    ⟨(planarPoint frame c.place.x c.place.y).x + (planarVector frame c.offset.x c.offset.y).x,
     (planarPoint frame c.place.x c.place.y).y + (planarVector frame c.offset.x c.offset.y).y⟩

/-- The cost of a decision: the time, the place, the offset of the DCM, how much that offset leaves its polygon, and the
regularisation. -/
noncomputable def stepCost (g : Wpg) (a : StepArea) (current : Support) (frame : Affine) (target : V2) (c : StepChoice) : ℝ :=
  5 * (Real.exp (g.omega * c.tEnd) - Real.exp (g.omega * g.p.supportDuration current)) ^ 2 +
  100 * (((planarPoint frame c.place.x c.place.y).x - target.x) ^ 2 + ((planarPoint frame c.place.x c.place.y).y - target.y) ^ 2) +
  1000 * (((planarVector frame c.offset.x c.offset.y).x - (current.targetDcm.x - target.x)) ^ 2 +
    ((planarVector frame c.offset.x c.offset.y).y - (current.targetDcm.y - target.y)) ^ 2) +
  1000000 * (∑ i ∈ Finset.range a.dcmOffsetPolygon.length, (max 0 (-signedDistance (vertex (vertices a.dcmOffsetPolygon) i)
    (vertex (vertices a.dcmOffsetPolygon) ((i + 1) % a.dcmOffsetPolygon.length)) (c.offset.x, c.offset.y))) ^ 2) +
  1 / 100000000 * (c.place.x ^ 2 + c.place.y ^ 2 + Real.exp (g.omega * c.tEnd) ^ 2 + c.offset.x ^ 2 + c.offset.y ^ 2)

/-- The factorisation of the two equations of `update_supports` is exact. -/
def StepQR (g : Wpg) : Prop := ∀ eqs : EqSt ℝ, IsExactQR 5 2 eqs.A (g.qr 2 eqs)

/-- The determinant of the rotation part. -/
def planarDet (f : Affine) : ℝ := f.linear 0 0 * f.linear 1 1 - f.linear 0 1 * f.linear 1 0

/-! ## Lemmas -/

theorem vertex_vertices (l : List V2) (i : Nat) (h : i < l.length) : vertex (vertices l) i = (l[i].x, l[i].y) := by
  unfold vertex vertices
  rw [List.getD_eq_getElem?_getD, List.getElem?_map, List.getElem?_eq_getElem h]
  rfl

theorem negated_vertex (l : List V2) (i : Nat) (h : i < l.length) :
    vertex (vertices (negated l)) i = (-(vertex (vertices l) i).1, -(vertex (vertices l) i).2) := by
  rw [vertex_vertices l i h, vertex_vertices (negated l) i (by simpa [negated] using h)]
  simp [negated]

theorem negated_noRepeat {l : List V2} (h : NoRepeat l) : NoRepeat (negated l) := by
  intro i hi
  have hl : (negated l).length = l.length := by simp [negated]
  rw [hl] at hi ⊢
  have hi' : (i + 1) % l.length < l.length := Nat.mod_lt _ (by omega)
  show vertex (vertices (negated l)) i ≠ vertex (vertices (negated l)) ((i + 1) % l.length)
  rw [negated_vertex l i hi, negated_vertex l _ hi']
  intro e
  apply h i hi
  show vertex (vertices l) i = vertex (vertices l) ((i + 1) % l.length)
  rw [Prod.mk.injEq, neg_inj, neg_inj] at e
  exact Prod.ext e.1 e.2

theorem negated_inside (l : List V2) (p : V2) : InsideBy 0 (negated l) p ↔ InsideBy 0 l ⟨-p.x, -p.y⟩ := by
  have hl : (negated l).length = l.length := by simp [negated]
  unfold InsideBy
  rw [hl]
  refine forall_congr' fun i => forall_congr' fun hi => ?_
  have hi' : (i + 1) % l.length < l.length := Nat.mod_lt _ (by omega)
  show 0 ≤ signedDistance (vertex (vertices (negated l)) i) (vertex (vertices (negated l)) ((i + 1) % l.length)) (p.x, p.y) ↔
    0 ≤ signedDistance (vertex (vertices l) i) (vertex (vertices l) ((i + 1) % l.length)) (-p.x, -p.y)
  rw [negated_vertex l i hi, negated_vertex l _ hi']
  have : ∀ A B : P2, signedDistance (-A.1, -A.2) (-B.1, -B.2) (p.x, p.y) = signedDistance A B (-p.x, -p.y) := by
    intro A B
    unfold signedDistance
    simp only
    congr 1
    · ring
    · congr 1; ring
  rw [this]

theorem region_iff (a : StepArea) (side : Side) (p : V2) : InsideBy 0 (a.nextPolygon side) p ↔ InStepRegion a side p := by
  cases side
  · exact negated_inside a.opSpacePolygon p
  · exact Iff.rfl

theorem region_noRepeat {a : StepArea} (h : NoRepeat a.opSpacePolygon) (side : Side) : NoRepeat (a.nextPolygon side) := by
  cases side
  · exact negated_noRepeat h
  · exact h

/-- The decision read in the variables of the problem. -/
noncomputable def choiceOf (w : ℝ) (x : Nat → ℝ) : StepChoice := ⟨⟨x 0, x 1⟩, Real.log (x 2) / w, ⟨x 3, x 4⟩⟩

/-- The variables for a decision. -/
noncomputable def ofChoice (w : ℝ) (c : StepChoice) : Nat → ℝ
  | 0 => c.place.x
  | 1 => c.place.y
  | 2 => Real.exp (w * c.tEnd)
  | 3 => c.offset.x
  | _ => c.offset.y

theorem choiceOf_ofChoice {w : ℝ} (hw : 0 < w) (c : StepChoice) : choiceOf w (ofChoice w c) = c := by
  unfold choiceOf ofChoice
  simp only [Real.log_exp]
  rw [mul_div_cancel_left₀ _ hw.ne']

theorem step_hard {g : Wpg} {a : StepArea} {elapsed : ℝ} {current : Support} {side : Side} {frame : Affine} {target dcm zmp : V2}
    {c1 c2 c3 c4 c5 c6 c7 c8 : Constr ℝ} (H : StepRows g a elapsed current side frame target dcm zmp c1 c2 c3 c4 c5 c6 c7 c8)
    (hw : 0 < g.omega) (hn : NoRepeat a.opSpacePolygon) (x : Nat → ℝ) :
    HardSat [c1, c2, c3, c4, c5, c6, c7, c8] x ↔ 0 < x 2 ∧ StepOK g a elapsed side frame dcm zmp (choiceOf g.omega x) := by
  obtain ⟨⟨t1, p1, -⟩, ⟨t2, p2, -⟩, ⟨t3, p3, -⟩, ⟨t7, p7, -⟩⟩ := H.soft
  obtain ⟨⟨t4, p4⟩, ⟨t5, p5⟩, ⟨t6, p6⟩, ⟨t8, p8⟩⟩ := H.hard
  obtain ⟨-, -, -, r4, r5, r6, -, r8⟩ := H.rows
  have hall : HardSat [c1, c2, c3, c4, c5, c6, c7, c8] x ↔ c4.Sat x ∧ c5.Sat x ∧ c6.Sat x ∧ c8.Sat x := by
    constructor
    · intro h
      exact ⟨h c4 (by simp) p4, h c5 (by simp) p5, h c6 (by simp) p6, h c8 (by simp) p8⟩
    · rintro ⟨h4, h5, h6, h8⟩ c hc hp
      simp only [List.mem_cons, List.not_mem_nil, or_false] at hc
      rcases hc with rfl | rfl | rfl | rfl | rfl | rfl | rfl | rfl
      · rw [p1] at hp; cases hp
      · rw [p2] at hp; cases hp
      · rw [p3] at hp; cases hp
      · exact h4
      · exact h5
      · exact h6
      · rw [p7] at hp; cases hp
      · exact h8
  have s4 : c4.Sat x ↔ Real.exp (g.omega * max (15 / 100) elapsed) ≤ x 2 := by
    unfold Constr.Sat
    rw [t4, r4]
    simp only [Nat.lt_one_iff, forall_eq, H.v4]
    constructor <;> intro h <;> linarith
  have s5 : c5.Sat x ↔ x 2 ≤ Real.exp (g.omega * max 3 elapsed) := by
    unfold Constr.Sat
    rw [t5, r5]
    simp only [Nat.lt_one_iff, forall_eq, H.v5]
    constructor <;> intro h <;> linarith
  have s6 : c6.Sat x ↔ InStepRegion a side ⟨x 0, x 1⟩ := by
    rw [← region_iff, ← sat_inside (region_noRepeat hn side) 0 (x 0, x 1), vertices_length, nextPolygon_length]
    unfold Constr.Sat
    rw [t6, r6]
    simp only
    refine forall_congr' fun i => forall_congr' fun hi => ?_
    rw [H.v6 x i hi]
  have s8 : c8.Sat x ↔ c8.expr.rowVal x 0 = 0 ∧ c8.expr.rowVal x 1 = 0 := by
    unfold Constr.Sat
    rw [t8, r8]
    simp only
    constructor
    · intro h; exact ⟨h 0 (by omega), h 1 (by omega)⟩
    · rintro ⟨h0, h1⟩ i hi
      have : i = 0 ∨ i = 1 := by omega
      rcases this with rfl | rfl
      · exact h0
      · exact h1
  obtain ⟨e0, e1⟩ := H.v8 x
  rw [e0, e1] at s8
  have hexp : 0 < x 2 → Real.exp (g.omega * (Real.log (x 2) / g.omega - elapsed)) = Real.exp (-g.omega * elapsed) * x 2 := by
    intro h
    rw [mul_sub, mul_div_cancel₀ _ hw.ne', sub_eq_add_neg, Real.exp_add, Real.exp_log h, mul_comm (x 2), neg_mul]
  rw [hall, s4, s5, s6, s8]
  constructor
  · rintro ⟨h4, h5, h6, h7, h8⟩
    have hpos : 0 < x 2 := lt_of_lt_of_le (Real.exp_pos _) h4
    refine ⟨hpos, h6, ?_, ?_, ?_⟩
    · show max (15 / 100) elapsed ≤ Real.log (x 2) / g.omega
      rw [le_div_iff₀ hw, mul_comm]
      exact (Real.le_log_iff_exp_le hpos).2 h4
    · show Real.log (x 2) / g.omega ≤ max 3 elapsed
      rw [div_le_iff₀ hw, mul_comm]
      exact (Real.log_le_iff_le_exp hpos).2 h5
    · unfold dcmAfter choiceOf
      simp only [hexp hpos, V2.mk.injEq]
      constructor <;> linarith
  · rintro ⟨hpos, h6, h4, h5, h7⟩
    have h4' : max (15 / 100) elapsed ≤ Real.log (x 2) / g.omega := h4
    have h5' : Real.log (x 2) / g.omega ≤ max 3 elapsed := h5
    rw [le_div_iff₀ hw, mul_comm] at h4'
    rw [div_le_iff₀ hw, mul_comm] at h5'
    unfold dcmAfter choiceOf at h7
    simp only [hexp hpos, V2.mk.injEq] at h7
    exact ⟨(Real.le_log_iff_exp_le hpos).1 h4', (Real.log_le_iff_le_exp hpos).1 h5', h6, by linarith [h7.1], by linarith [h7.2]⟩

theorem step_cost {g : Wpg} {a : StepArea} {elapsed : ℝ} {current : Support} {side : Side} {frame : Affine} {target dcm zmp : V2}
    {c1 c2 c3 c4 c5 c6 c7 c8 : Constr ℝ} (H : StepRows g a elapsed current side frame target dcm zmp c1 c2 c3 c4 c5 c6 c7 c8)
    (hw : 0 < g.omega) (hn : NoRepeat a.dcmOffsetPolygon) (x : Nat → ℝ) (hx : 0 < x 2) :
    specCost 5 (1 / 100000000) [c1, c2, c3, c4, c5, c6, c7, c8] x = stepCost g a current frame target (choiceOf g.omega x) := by
  obtain ⟨⟨t1, p1, w1⟩, ⟨t2, p2, w2⟩, ⟨t3, p3, w3⟩, ⟨t7, p7, w7⟩⟩ := H.soft
  obtain ⟨⟨t4, p4⟩, ⟨t5, p5⟩, ⟨t6, p6⟩, ⟨t8, p8⟩⟩ := H.hard
  obtain ⟨r1, r2, r3, -, -, -, r7, -⟩ := H.rows
  obtain ⟨e20, e21⟩ := H.v2 x
  obtain ⟨e30, e31⟩ := H.v3 x
  have hexp : Real.exp (g.omega * (Real.log (x 2) / g.omega)) = x 2 := by
    rw [mul_div_cancel₀ _ hw.ne', Real.exp_log hx]
  have h7 : ∑ i ∈ Finset.range a.dcmOffsetPolygon.length, 1000000 * violation (c7.expr.rowVal x i) ^ 2 =
      1000000 * ∑ i ∈ Finset.range a.dcmOffsetPolygon.length, (max 0 (-signedDistance (vertex (vertices a.dcmOffsetPolygon) i)
        (vertex (vertices a.dcmOffsetPolygon) ((i + 1) % a.dcmOffsetPolygon.length)) (x 3, x 4))) ^ 2 := by
    rw [Finset.mul_sum]
    refine Finset.sum_congr rfl fun i hi => ?_
    have hi' := Finset.mem_range.1 hi
    rw [H.v7 x i hi']
    have hne : ¬ vertex (vertices a.dcmOffsetPolygon) i =
      vertex (vertices a.dcmOffsetPolygon) ((i + 1) % a.dcmOffsetPolygon.length) := hn i hi'
    unfold edgeRow
    rw [if_neg hne, sub_zero]
    congr 2
    unfold violation
    split
    · rename_i h; rw [max_eq_left (by linarith)]
    · rename_i h; rw [max_eq_right (by linarith)]
  simp only [specCost, softPenalty, p1, t1, p2, t2, p3, t3, p4, p5, p6, p7, t7, p8, List.map_cons, List.map_nil, List.sum_cons, List.sum_nil,
    r1, r2, r3, r7, w1, w2, w3, w7, h7]
  simp only [Finset.sum_range_succ, Finset.sum_range_zero, H.v1, e20, e21, e30, e31, stepCost, choiceOf, hexp]
  ring

theorem step_count {g : Wpg} {a : StepArea} {elapsed : ℝ} {current : Support} {side : Side} {frame : Affine} {target dcm zmp : V2}
    {c1 c2 c3 c4 c5 c6 c7 c8 : Constr ℝ} (H : StepRows g a elapsed current side frame target dcm zmp c1 c2 c3 c4 c5 c6 c7 c8) :
    nEqualities [c1, c2, c3, c4, c5, c6, c7, c8] = 2 ∧ nEqualities [c1, c2, c3, c4, c5, c6, c7] = 0 ∧ c8.hardEq = true := by
  obtain ⟨⟨t1, p1, -⟩, ⟨t2, p2, -⟩, ⟨t3, p3, -⟩, ⟨t7, p7, -⟩⟩ := H.soft
  obtain ⟨⟨t4, p4⟩, ⟨t5, p5⟩, ⟨t6, p6⟩, ⟨t8, p8⟩⟩ := H.hard
  obtain ⟨-, -, -, -, -, -, -, r8⟩ := H.rows
  simp [nEqualities, Constr.hardEq, p1, p2, p3, p7, t4, t5, t6, t8, p8, r8]

theorem step_indep {g : Wpg} {a : StepArea} {elapsed : ℝ} {current : Support} {side : Side} {frame : Affine} {target dcm zmp : V2}
    {c1 c2 c3 c4 c5 c6 c7 c8 : Constr ℝ} (H : StepRows g a elapsed current side frame target dcm zmp c1 c2 c3 c4 c5 c6 c7 c8)
    (hdet : planarDet frame ≠ 0) : RowsIndep 5 2 (equalities [c1, c2, c3, c4, c5, c6, c7, c8]).A := by
  obtain ⟨n8, n7, h8⟩ := step_count H
  obtain ⟨-, -, -, -, -, -, -, r8⟩ := H.rows
  obtain ⟨-, -, i3, -⟩ := equalities_inv [c1, c2, c3, c4, c5, c6, c7, c8]
  have e := fun j hj => (i3 7 c8 rfl h8 j hj).1
  have ht : [c1, c2, c3, c4, c5, c6, c7, c8].take 7 = [c1, c2, c3, c4, c5, c6, c7] := rfl
  rw [ht, n7] at e
  intro w hw
  have hc8 : c8.expr.cols ≤ 5 := (H.cols c8 (by simp)).1
  have key : ∀ x, w 0 * (c8.expr.rowVal x 0 - c8.expr.b 0) + w 1 * (c8.expr.rowVal x 1 - c8.expr.b 1) = 0 := by
    intro x
    have row : ∀ j, j < 2 → c8.expr.rowVal x j - c8.expr.b j =
        ∑ k ∈ Finset.range 5, (equalities [c1, c2, c3, c4, c5, c6, c7, c8]).A j k * x k := by
      intro j hj
      rw [Expr.rowVal_pad c8.expr 5 hc8]
      have := e j (by omega)
      simp only [zero_add] at this
      simp only [this]
      ring
    rw [row 0 (by omega), row 1 (by omega), Finset.mul_sum, Finset.mul_sum, ← Finset.sum_add_distrib]
    refine Finset.sum_eq_zero fun k hk => ?_
    have := hw k (Finset.mem_range.1 hk)
    simp only [Finset.sum_range_succ, Finset.sum_range_zero, zero_add] at this
    linear_combination x k * this
  have k0 := key fun _ => 0
  have k3 := key fun i => if i = 3 then 1 else 0
  have k4 := key fun i => if i = 4 then 1 else 0
  obtain ⟨a0, a1⟩ := H.v8 fun _ => 0
  obtain ⟨b0, b1⟩ := H.v8 fun i => if i = 3 then 1 else 0
  obtain ⟨d0, d1⟩ := H.v8 fun i => if i = 4 then 1 else 0
  rw [a0, a1] at k0
  rw [b0, b1] at k3
  rw [d0, d1] at k4
  simp [planarPoint, planarVector] at k0 k3 k4
  have m3 : w 0 * frame.linear 0 0 + w 1 * frame.linear 1 0 = 0 := by linarith
  have m4 : w 0 * frame.linear 0 1 + w 1 * frame.linear 1 1 = 0 := by linarith
  have f0 : w 0 * planarDet frame = 0 := by unfold planarDet; linear_combination frame.linear 1 1 * m3 - frame.linear 1 0 * m4
  have f1 : w 1 * planarDet frame = 0 := by unfold planarDet; linear_combination frame.linear 0 0 * m4 - frame.linear 0 1 * m3
  intro i hi
  have : i = 0 ∨ i = 1 := by omega
  rcases this with rfl | rfl
  · exact (mul_eq_zero.1 f0).resolve_right hdet
  · exact (mul_eq_zero.1 f1).resolve_right hdet

theorem step_softPos {g : Wpg} {a : StepArea} {elapsed : ℝ} {current : Support} {side : Side} {frame : Affine} {target dcm zmp : V2}
    {c1 c2 c3 c4 c5 c6 c7 c8 : Constr ℝ} (H : StepRows g a elapsed current side frame target dcm zmp c1 c2 c3 c4 c5 c6 c7 c8) :
    SoftPos [c1, c2, c3, c4, c5, c6, c7, c8] := by
  obtain ⟨⟨t1, p1, w1⟩, ⟨t2, p2, w2⟩, ⟨t3, p3, w3⟩, ⟨t7, p7, w7⟩⟩ := H.soft
  obtain ⟨⟨t4, p4⟩, ⟨t5, p5⟩, ⟨t6, p6⟩, ⟨t8, p8⟩⟩ := H.hard
  intro c hc hp
  simp only [List.mem_cons, List.not_mem_nil, or_false] at hc
  rcases hc with rfl | rfl | rfl | rfl | rfl | rfl | rfl | rfl
  · rw [w1]; norm_num
  · rw [w2]; norm_num
  · rw [w3]; norm_num
  · rw [p4] at hp; cases hp
  · rw [p5] at hp; cases hp
  · rw [p6] at hp; cases hp
  · rw [w7]; norm_num
  · rw [p8] at hp; cases hp

theorem step_contract {g : Wpg} (hqr : StepQR g) {a : StepArea} {elapsed : ℝ} {current : Support} {side : Side} {frame : Affine}
    {target dcm zmp : V2} {c1 c2 c3 c4 c5 c6 c7 c8 : Constr ℝ}
    (H : StepRows g a elapsed current side frame target dcm zmp c1 c2 c3 c4 c5 c6 c7 c8) :
    QRContract (newProblem 5) g.qr [c1, c2, c3, c4, c5, c6, c7, c8] := by
  intro _
  rw [(step_count H).1]
  exact (hqr _).qr

theorem step_assembles {g : Wpg} (hqr : StepQR g) {a : StepArea} {elapsed : ℝ} {current : Support} {side : Side} {frame : Affine}
    {target dcm zmp : V2} {c1 c2 c3 c4 c5 c6 c7 c8 : Constr ℝ}
    (H : StepRows g a elapsed current side frame target dcm zmp c1 c2 c3 c4 c5 c6 c7 c8) (hdet : planarDet frame ≠ 0)
    (h1 : 0 < a.opSpacePolygon.length) (h2 : 0 < a.dcmOffsetPolygon.length) :
    ∃ qp, assemble (newProblem 5) g.qr [c1, c2, c3, c4, c5, c6, c7, c8] = .ok qp := by
  obtain ⟨r1, r2, r3, r4, r5, r6, r7, r8⟩ := H.rows
  refine assemble_full 5 g.qr _ (fun c hc => ⟨(H.cols c hc).1, ?_, (H.cols c hc).2⟩) fun _ => ?_
  · simp only [List.mem_cons, List.not_mem_nil, or_false] at hc
    rcases hc with rfl | rfl | rfl | rfl | rfl | rfl | rfl | rfl <;> omega
  · rw [(step_count H).1]
    exact (hqr _).full (step_indep H hdet)

/-- `update_supports` when the current support has one footstep. -/
theorem update_single {g : Wpg} {a : StepArea} {t : ℝ} {current next : Support} {later : List Support} {dcm : V2} {f n0 : Footstep}
    {ns : List Footstep} (hc : current.footsteps = [f]) (hn : next.footsteps = n0 :: ns) :
    g.updateSupports a t (current :: next :: later) dcm = (do
      let zmp ← g.getOptimalZmp dcm current.targetDcm (max (1 / 100000) (g.p.supportDuration current - (t - current.tStart))) current
      let cs ← g.stepConstraints a (t - current.tStart) current f.side f.frame
        ⟨(frameLoop g.slerp n0.frame 2 ns).translation 0, (frameLoop g.slerp n0.frame 2 ns).translation 1⟩ dcm zmp
      let sol ← g.solveQP 5 cs
      .ok (g.retime (t - current.tStart) (sol 2) current :: next.moveFirst (planarPoint f.frame (sol 0) (sol 1)) :: later)) := by
  unfold Wpg.updateSupports
  have hb : current.isBoth = false := by unfold Support.isBoth; rw [hc]; rfl
  have hf : current.frame g.slerp = .ok f.frame := by unfold Support.frame; rw [hc]; rfl
  have hs : current.side = .ok f.side := by unfold Support.side; rw [hc]; rfl
  have hnf : next.frame g.slerp = .ok (frameLoop g.slerp n0.frame 2 ns) := by unfold Support.frame; rw [hn]
  simp only [hb, Bool.false_eq_true, if_false, hf, hs, hnf, Bind.bind, Except.bind, elapsedTime]

/-- `update_supports` only returns for a single support followed by one that has footsteps. -/
theorem update_shape {g : Wpg} {a : StepArea} {t : ℝ} {supports : List Support} {dcm : V2} {r : List Support}
    (h : g.updateSupports a t supports dcm = .ok r) : ∃ current next later f n0 ns, supports = current :: next :: later ∧
      current.footsteps = [f] ∧ next.footsteps = n0 :: ns := by
  match supports with
  | [] => cases h
  | [current] =>
    exfalso
    unfold Wpg.updateSupports at h
    simp only at h
    split at h
    · cases h
    · cases hf : current.frame g.slerp with
      | error e => rw [hf] at h; cases h
      | ok f => rw [hf] at h; cases h
  | current :: next :: later =>
    unfold Wpg.updateSupports at h
    simp only at h
    split at h
    · cases h
    · rename_i hb
      cases hf : current.frame g.slerp with
      | error e => rw [hf] at h; cases h
      | ok f =>
      rw [hf] at h
      simp only [Bind.bind, Except.bind] at h
      cases hn : next.frame g.slerp with
      | error e => rw [hn] at h; cases h
      | ok nf =>
      rw [hn] at h
      simp only at h
      cases hs : current.side with
      | error e => rw [hs] at h; cases h
      | ok side =>
      refine ⟨current, next, later, ?_⟩
      unfold Support.side at hs
      unfold Support.frame at hn hf
      match hcf : current.footsteps with
      | [] => rw [hcf] at hf; cases hf
      | [c0] =>
        match hnf : next.footsteps with
        | [] => rw [hnf] at hn; cases hn
        | n0 :: ns => exact ⟨c0, n0, ns, rfl, rfl, rfl⟩
      | c0 :: c1 :: cs =>
        rw [hcf] at hs
        rw [if_pos (by simp)] at hs
        cases hs

/-- **C147.** `update_supports` returns only for a single support followed by another one. It changes the time ratio of the first
support and the horizontal position of the first footstep of the second one, and nothing else. The position and the time come
from a possible decision, for a ZMP in the shrunk polygon of the current support: the next ZMP is in its region, the end of the
support is neither too early nor too late, and the LIPM brings the DCM where the decision says. The first support then lasts
until that end (at least a millisecond). -/
theorem C147 (g : Wpg) (a : StepArea) (hor : SolverOptimal g.oracle) (hqr : StepQR g) (hh : 0 < g.p.walkComHeight) (t : ℝ)
    (supports : List Support) (dcm : V2) (hn : NoRepeat a.opSpacePolygon)
    (hs : ∀ s ∈ supports.head?, 0 < (s.supportPolygon g.hull).2.length ∧ NoRepeat (s.supportPolygon g.hull).2)
    (r : List Support) (h : g.updateSupports a t supports dcm = .ok r) :
    ∃ current next later f n0 ns ratio zmp choice, supports = current :: next :: later ∧
      current.footsteps = [f] ∧ next.footsteps = n0 :: ns ∧
      r = { current with timeRatio := ratio } :: { next with footsteps := { n0 with frame := ⟨n0.frame.linear,
        ![(planarPoint f.frame choice.place.x choice.place.y).x, (planarPoint f.frame choice.place.x choice.place.y).y,
          n0.frame.translation 2]⟩ } :: ns } :: later ∧
      InsideBy g.p.zmpMargin (current.supportPolygon g.hull).2 zmp ∧
      StepOK g a (t - current.tStart) f.side f.frame dcm zmp choice ∧
      (g.p.supportDuration current ≠ 0 → current.elapsedRatio ≠ 1 →
        g.duration { current with timeRatio := ratio } = max (1 / 1000) (choice.tEnd - (t - current.tStart))) := by
  obtain ⟨current, next, later, f, n0, ns, rfl, hc, hnx⟩ := update_shape h
  obtain ⟨hp, hnp⟩ := hs current rfl
  rw [update_single hc hnx] at h
  cases hz : g.getOptimalZmp dcm current.targetDcm (max (1 / 100000) (g.p.supportDuration current - (t - current.tStart))) current with
  | error e => rw [hz] at h; cases h
  | ok zmp =>
  rw [hz] at h
  obtain ⟨c1, c2, c3, c4, c5, c6, c7, c8, hcs, H⟩ := stepConstraints_spec g a (t - current.tStart) current f.side f.frame
    ⟨(frameLoop g.slerp n0.frame 2 ns).translation 0, (frameLoop g.slerp n0.frame 2 ns).translation 1⟩ dcm zmp
  simp only [Bind.bind, Except.bind, hcs] at h
  cases hsol : g.solveQP 5 [c1, c2, c3, c4, c5, c6, c7, c8] with
  | error e => rw [hsol] at h; cases h
  | ok sol =>
  rw [hsol] at h
  simp only [Except.ok.injEq] at h
  subst h
  have hz1 := ((C146 g hor hh dcm current.targetDcm _ (by positivity) current hp hnp).2.2 zmp hz).1
  have hsat := (step_hard H (omega_pos g hh) hn sol).1 (solveQP_hard g 5 _ (step_contract hqr H) hor.sound sol hsol)
  refine ⟨current, next, later, f, n0, ns, max (1 / 1000) (Real.log (sol 2) / g.omega - (t - current.tStart)) / (g.p.supportDuration current * (1 - current.elapsedRatio)),
    zmp, choiceOf g.omega sol, rfl, hc, hnx, ?_, hz1, hsat.2, ?_⟩
  · unfold Wpg.retime Support.moveFirst choiceOf
    rw [hnx]
  · intro hd he
    have he' : 1 - current.elapsedRatio ≠ 0 := fun h' => he (by linarith)
    unfold Wpg.duration choiceOf
    have : g.p.supportDuration { current with timeRatio := max (1 / 1000) (Real.log (sol 2) / g.omega - (t - current.tStart)) /
      (g.p.supportDuration current * (1 - current.elapsedRatio)) } = g.p.supportDuration current := rfl
    rw [this]
    field_simp

/-- **C147, existence.** With an exact solver, `update_supports` succeeds on a single support exactly when the shrunk support polygon
and the operational space both have a point; it raises a `QPError` otherwise. The DCM never matters: its offset is only bounded
softly. -/
theorem C147_exists (g : Wpg) (a : StepArea) (hor : SolverOptimal g.oracle) (hqr : StepQR g) (hh : 0 < g.p.walkComHeight) (t : ℝ)
    (current next : Support) (later : List Support) (dcm : V2) (f n0 : Footstep) (ns : List Footstep)
    (hc : current.footsteps = [f]) (hnx : next.footsteps = n0 :: ns) (hdet : planarDet f.frame ≠ 0)
    (ha : 0 < a.opSpacePolygon.length) (hn : NoRepeat a.opSpacePolygon) (hd : 0 < a.dcmOffsetPolygon.length)
    (hp : 0 < (current.supportPolygon g.hull).2.length) (hnp : NoRepeat (current.supportPolygon g.hull).2) :
    ((∃ r, g.updateSupports a t (current :: next :: later) dcm = .ok r) ↔
      (∃ z, InsideBy g.p.zmpMargin (current.supportPolygon g.hull).2 z) ∧ ∃ p, InStepRegion a f.side p) ∧
    ((∃ r, g.updateSupports a t (current :: next :: later) dcm = .ok r) ∨
      g.updateSupports a t (current :: next :: later) dcm = .error .qpError) := by
  have hw := omega_pos g hh
  obtain ⟨z1, z2, -⟩ := C146 g hor hh dcm current.targetDcm (max (1 / 100000) (g.p.supportDuration current - (t - current.tStart)))
    (by positivity) current hp hnp
  rw [update_single hc hnx]
  by_cases hin : ∃ z, InsideBy g.p.zmpMargin (current.supportPolygon g.hull).2 z
  swap
  · rw [z2 hin]
    refine ⟨⟨?_, fun h => absurd h.1 hin⟩, .inr rfl⟩
    rintro ⟨r, hr⟩
    cases hr
  obtain ⟨zmp, hz⟩ := z1.2 hin
  rw [hz]
  obtain ⟨c1, c2, c3, c4, c5, c6, c7, c8, hcs, H⟩ := stepConstraints_spec g a (t - current.tStart) current f.side f.frame
    ⟨(frameLoop g.slerp n0.frame 2 ns).translation 0, (frameLoop g.slerp n0.frame 2 ns).translation 1⟩ dcm zmp
  simp only [Bind.bind, Except.bind, hcs]
  have hsat : (∃ x, HardSat [c1, c2, c3, c4, c5, c6, c7, c8] x) ↔ ∃ p, InStepRegion a f.side p := by
    constructor
    · rintro ⟨x, hx⟩
      exact ⟨_, ((step_hard H hw hn x).1 hx).2.place⟩
    · rintro ⟨p, hp⟩
      obtain ⟨T, hT1, hT2⟩ : ∃ T, max (15 / 100) (t - current.tStart) ≤ T ∧ T ≤ max 3 (t - current.tStart) :=
        ⟨_, le_rfl, max_le_max (by norm_num) le_rfl⟩
      obtain ⟨o, ho⟩ : ∃ o : V2, dcmAfter g.omega zmp dcm (T - (t - current.tStart)) =
          ⟨(planarPoint f.frame p.x p.y).x + (planarVector f.frame o.x o.y).x,
           (planarPoint f.frame p.x p.y).y + (planarVector f.frame o.x o.y).y⟩ := by
        generalize dcmAfter g.omega zmp dcm (T - (t - current.tStart)) = q
        generalize planarPoint f.frame p.x p.y = P
        refine ⟨⟨((q.x - P.x) * f.frame.linear 1 1 - (q.y - P.y) * f.frame.linear 0 1) / planarDet f.frame,
          ((q.y - P.y) * f.frame.linear 0 0 - (q.x - P.x) * f.frame.linear 1 0) / planarDet f.frame⟩, ?_⟩
        cases q with
        | mk qx qy =>
        simp only [V2.mk.injEq, planarVector]
        have e : ∀ u v w z : ℝ, u * (v / planarDet f.frame) + w * (z / planarDet f.frame) = (u * v + w * z) / planarDet f.frame := by
          intro u v w z; ring
        rw [e, e]
        constructor
        · rw [← sub_eq_iff_eq_add', eq_div_iff hdet]
          unfold planarDet
          ring
        · rw [← sub_eq_iff_eq_add', eq_div_iff hdet]
          unfold planarDet
          ring
      refine ⟨ofChoice g.omega ⟨p, T, o⟩, (step_hard H hw hn _).2 ⟨Real.exp_pos _, ?_⟩⟩
      rw [choiceOf_ofChoice hw]
      exact ⟨hp, hT1, hT2, ho⟩
  have hasm := step_assembles hqr H hdet ha hd
  by_cases hr : ∃ p, InStepRegion a f.side p
  · obtain ⟨sol, hsol⟩ := solveQP_exists g 5 _ hor (step_contract hqr H) (step_softPos H) hasm (hsat.2 hr)
    rw [hsol]
    exact ⟨⟨fun _ => ⟨hin, hr⟩, fun _ => ⟨_, rfl⟩⟩, .inl ⟨_, rfl⟩⟩
  · rw [solveQP_none g 5 _ hor.sound (step_contract hqr H) hasm fun h => hr (hsat.1 h)]
    refine ⟨⟨?_, fun h => absurd h.2 hr⟩, .inr rfl⟩
    rintro ⟨r, h⟩
    cases h

/-- **C147, default parameters.** While one of the two polygons is empty, which is their default, `update_supports` never returns. -/
theorem C147_default (g : Wpg) (a : StepArea) (t : ℝ) (supports : List Support) (dcm : V2)
    (h : a.opSpacePolygon = [] ∨ a.dcmOffsetPolygon = []) (r : List Support) : g.updateSupports a t supports dcm ≠ .ok r := by
  intro hr
  obtain ⟨current, next, later, f, n0, ns, rfl, hc, hnx⟩ := update_shape hr
  rw [update_single hc hnx] at hr
  cases hz : g.getOptimalZmp dcm current.targetDcm (max (1 / 100000) (g.p.supportDuration current - (t - current.tStart))) current with
  | error e => rw [hz] at hr; cases hr
  | ok zmp =>
  rw [hz] at hr
  obtain ⟨c1, c2, c3, c4, c5, c6, c7, c8, hcs, H⟩ := stepConstraints_spec g a (t - current.tStart) current f.side f.frame
    ⟨(frameLoop g.slerp n0.frame 2 ns).translation 0, (frameLoop g.slerp n0.frame 2 ns).translation 1⟩ dcm zmp
  simp only [Bind.bind, Except.bind, hcs] at hr
  cases hsol : g.solveQP 5 [c1, c2, c3, c4, c5, c6, c7, c8] with
  | error e => rw [hsol] at hr; cases hr
  | ok sol =>
  obtain ⟨qp, hqp, -, -⟩ := solveQP_qp g 5 _ sol hsol
  have A := assembled_of_ok hqp
  obtain ⟨-, -, -, -, -, r6, r7, -⟩ := H.rows
  rcases h with h | h
  · have := (A.ok c6 (by simp)).2.1
    rw [r6, h] at this
    simp at this
  · have := (A.ok c7 (by simp)).2.1
    rw [r7, h] at this
    simp at this

/-- **C147, double supports.** A double support cannot be updated. -/
theorem C147_both (g : Wpg) (a : StepArea) (t : ℝ) (current : Support) (rest : List Support) (dcm : V2) (h : current.isBoth = true) :
    g.updateSupports a t (current :: rest) dcm = .error .runtimeError := by
  unfold Wpg.updateSupports
  simp only [h, if_true]

/-- Nothing is left out of the objective by the sparse accumulation of `update_supports`. -/
def StepLossless (g : Wpg) (a : StepArea) (elapsed : ℝ) (current : Support) (f : Footstep) (target dcm zmp : V2) : Prop :=
  ∀ cs, g.stepConstraints a elapsed current f.side f.frame target dcm zmp = .ok cs → ∀ qp, assemble (newProblem 5) g.qr cs = .ok qp →
    ∀ v, lostSum (1 / 1000000000000) 5 qp.red cs v = 0

/-- **C147, optimality, partial.** When the sparse accumulation of the objective leaves nothing out, the decision minimises `stepCost`
among the possible ones. Missing: without this hypothesis the objective is another one (C12, C143). -/
theorem C147_best_partial (g : Wpg) (a : StepArea) (hor : SolverOptimal g.oracle) (hqr : StepQR g) (hh : 0 < g.p.walkComHeight) (t : ℝ)
    (current next : Support) (later : List Support) (dcm : V2) (f n0 : Footstep) (ns : List Footstep)
    (hc : current.footsteps = [f]) (hnx : next.footsteps = n0 :: ns) (hn : NoRepeat a.opSpacePolygon) (hnd : NoRepeat a.dcmOffsetPolygon)
    (zmp : V2) (hz : g.getOptimalZmp dcm current.targetDcm (max (1 / 100000) (g.p.supportDuration current - (t - current.tStart)))
      current = .ok zmp) (target : Affine) (ht : next.frame g.slerp = .ok target)
    (hl : StepLossless g a (t - current.tStart) current f ⟨target.translation 0, target.translation 1⟩ dcm zmp)
    (r : List Support) (h : g.updateSupports a t (current :: next :: later) dcm = .ok r) :
    ∃ choice, r = g.retime (t - current.tStart) (Real.exp (g.omega * choice.tEnd)) current ::
        next.moveFirst (planarPoint f.frame choice.place.x choice.place.y) :: later ∧
      StepOK g a (t - current.tStart) f.side f.frame dcm zmp choice ∧
      ∀ other, StepOK g a (t - current.tStart) f.side f.frame dcm zmp other →
        stepCost g a current f.frame ⟨target.translation 0, target.translation 1⟩ choice ≤
          stepCost g a current f.frame ⟨target.translation 0, target.translation 1⟩ other := by
  have hw := omega_pos g hh
  have htf : next.frame g.slerp = .ok (frameLoop g.slerp n0.frame 2 ns) := by unfold Support.frame; rw [hnx]
  rw [ht] at htf
  cases htf
  rw [update_single hc hnx, hz] at h
  obtain ⟨c1, c2, c3, c4, c5, c6, c7, c8, hcs, H⟩ := stepConstraints_spec g a (t - current.tStart) current f.side f.frame
    ⟨(frameLoop g.slerp n0.frame 2 ns).translation 0, (frameLoop g.slerp n0.frame 2 ns).translation 1⟩ dcm zmp
  simp only [Bind.bind, Except.bind, hcs] at h
  cases hsol : g.solveQP 5 [c1, c2, c3, c4, c5, c6, c7, c8] with
  | error e => rw [hsol] at h; cases h
  | ok sol =>
  rw [hsol] at h
  simp only [Except.ok.injEq] at h
  subst h
  obtain ⟨hsat, hmin⟩ := solveQP_optimal g 5 _ hor (step_contract hqr H) (step_softPos H) (hl _ hcs) sol hsol
  obtain ⟨hpos, hok⟩ := (step_hard H hw hn sol).1 hsat
  refine ⟨choiceOf g.omega sol, ?_, hok, fun other ho => ?_⟩
  · have : Real.exp (g.omega * (choiceOf g.omega sol).tEnd) = sol 2 := by
      show Real.exp (g.omega * (Real.log (sol 2) / g.omega)) = sol 2
      rw [mul_div_cancel₀ _ hw.ne', Real.exp_log hpos]
    rw [this]
    rfl
  · have h2 := (step_hard H hw hn (ofChoice g.omega other)).2 ⟨Real.exp_pos _, by rw [choiceOf_ofChoice hw]; exact ho⟩
    have h3 := hmin _ h2
    rw [step_cost H hw hnd sol hpos, step_cost H hw hnd _ (Real.exp_pos _), choiceOf_ofChoice hw] at h3
    exact h3

/-- **C147, landing feet, refuted in general.** When the next support is a double support, made of the current foot and the one that
lands, as `make_supports` builds it, the foot that lands is never changed: it is the current foot that is moved, in the double
support only. It ends in the operational space, so away from itself if the origin is not in it. -/
theorem C147_landing_refuted (g : Wpg) (a : StepArea) (hor : SolverOptimal g.oracle) (hqr : StepQR g) (hh : 0 < g.p.walkComHeight) (t : ℝ)
    (current next : Support) (later : List Support) (dcm : V2) (f landing : Footstep) (hc : current.footsteps = [f])
    (hnx : next.footsteps = [f, landing]) (hn : NoRepeat a.opSpacePolygon)
    (hs : 0 < (current.supportPolygon g.hull).2.length ∧ NoRepeat (current.supportPolygon g.hull).2)
    (r : List Support) (h : g.updateSupports a t (current :: next :: later) dcm = .ok r) :
    ∃ p, InStepRegion a f.side p ∧ (r.map Support.footsteps).take 2 = [[f], [{ f with frame := ⟨f.frame.linear,
      ![(planarPoint f.frame p.x p.y).x, (planarPoint f.frame p.x p.y).y, f.frame.translation 2]⟩ }, landing]] ∧
      (planarDet f.frame ≠ 0 → ¬ InStepRegion a f.side ⟨0, 0⟩ →
        ((planarPoint f.frame p.x p.y).x, (planarPoint f.frame p.x p.y).y) ≠ (f.frame.translation 0, f.frame.translation 1)) := by
  obtain ⟨cu, nx, la, f', n0, ns, ratio, zmp, choice, e, hc', hnx', hr, -, hok, -⟩ := C147 g a hor hqr hh t _ dcm hn
    (fun s h => by cases h; exact hs) r h
  simp only [List.cons.injEq] at e
  obtain ⟨rfl, rfl, rfl⟩ := e
  rw [hc] at hc'
  rw [hnx] at hnx'
  simp only [List.cons.injEq] at hc' hnx'
  obtain ⟨rfl, -⟩ := hc'
  obtain ⟨rfl, rfl⟩ := hnx'
  refine ⟨choice.place, hok.place, ?_, fun hdet ho e => ho ?_⟩
  · rw [hr]
    simp only [List.map_cons, List.take_succ_cons, List.take_zero, hc]
  · have hp := hok.place
    have : choice.place = ⟨0, 0⟩ := by
      unfold planarPoint at e
      rw [Prod.mk.injEq] at e
      obtain ⟨e1, e2⟩ := e
      simp only at e1 e2
      have m1 : f.frame.linear 0 0 * choice.place.x + f.frame.linear 0 1 * choice.place.y = 0 := by linarith
      have m2 : f.frame.linear 1 0 * choice.place.x + f.frame.linear 1 1 * choice.place.y = 0 := by linarith
      have x0 : choice.place.x * planarDet f.frame = 0 := by
        unfold planarDet; linear_combination f.frame.linear 1 1 * m1 - f.frame.linear 0 1 * m2
      have y0 : choice.place.y * planarDet f.frame = 0 := by
        unfold planarDet; linear_combination f.frame.linear 0 0 * m2 - f.frame.linear 1 0 * m1
      have := (mul_eq_zero.1 x0).resolve_right hdet
      have := (mul_eq_zero.1 y0).resolve_right hdet
      cases hcp : choice.place
      simp_all
    rw [this] at hp
    exact hp

/-- **C147, mirror image, refuted.** If the operational space is in front of a right foot, `update_supports` can only place the next
support behind a left foot: the region of a left support is not the mirror image of that of a right one. -/
theorem C147_mirror_refuted (g : Wpg) (a : StepArea) (hor : SolverOptimal g.oracle) (hqr : StepQR g) (hh : 0 < g.p.walkComHeight) (t : ℝ)
    (current next : Support) (later : List Support) (dcm : V2) (f : Footstep) (hc : current.footsteps = [f]) (hside : f.side = .left)
    (hn : NoRepeat a.opSpacePolygon) (hs : 0 < (current.supportPolygon g.hull).2.length ∧ NoRepeat (current.supportPolygon g.hull).2)
    (hfront : ∀ p, InStepRegion a .right p → 0 < p.x)
    (r : List Support) (h : g.updateSupports a t (current :: next :: later) dcm = .ok r) :
    ∃ p : V2, p.x < 0 ∧ ∃ s, r[1]? = some s ∧ ∃ f' ∈ s.footsteps.head?, (f'.frame.translation 0, f'.frame.translation 1) =
      ((planarPoint f.frame p.x p.y).x, (planarPoint f.frame p.x p.y).y) := by
  obtain ⟨cu, nx, la, f', n0, ns, ratio, zmp, choice, e, hc', hnx', hr, -, hok, -⟩ := C147 g a hor hqr hh t _ dcm hn
    (fun s h => by cases h; exact hs) r h
  simp only [List.cons.injEq] at e
  obtain ⟨rfl, rfl, rfl⟩ := e
  rw [hc] at hc'
  simp only [List.cons.injEq] at hc'
  obtain ⟨rfl, -⟩ := hc'
  have hp := hok.place
  rw [hside] at hp
  have := hfront ⟨-choice.place.x, -choice.place.y⟩ hp
  simp only at this
  refine ⟨choice.place, by linarith, _, by rw [hr]; rfl, _, rfl, rfl⟩

/-! ## Examples -/

/-- An operational space: a square of 10 cm, in front of a right foot and on its left. -/
noncomputable def stepArea : StepArea :=
  ⟨[⟨1 / 10, 1 / 10⟩, ⟨1 / 10, 2 / 10⟩, ⟨2 / 10, 2 / 10⟩, ⟨2 / 10, 1 / 10⟩], [⟨-1, -1⟩, ⟨-1, 1⟩, ⟨1, 1⟩, ⟨1, -1⟩]⟩

noncomputable def stepCurrent : Support := { demoSupport with tStart := 0 }

noncomputable def landingStep : Footstep := { demoStep with side := .right, frame := ⟨1, ![1 / 10, -1 / 10, 0]⟩ }

theorem stepArea_noRepeat : NoRepeat stepArea.opSpacePolygon := by
  intro i hi
  have h4 : i < 4 := hi
  have : i = 0 ∨ i = 1 ∨ i = 2 ∨ i = 3 := by omega
  rcases this with rfl | rfl | rfl | rfl <;> norm_num [stepArea, vertex, vertices]

theorem stepArea_region (p : V2) : InStepRegion stepArea .right p ↔ 1 / 10 ≤ p.x ∧ p.x ≤ 2 / 10 ∧ 1 / 10 ≤ p.y ∧ p.y ≤ 2 / 10 := by
  have key : ∀ A B P : P2, A ≠ B → (0 ≤ signedDistance A B P ↔ 0 ≤ (B.2 - A.2) * (P.1 - A.1) - (B.1 - A.1) * (P.2 - A.2)) := by
    intro A B P hne
    unfold signedDistance
    have hpos : 0 < Real.sqrt ((B.1 - A.1) ^ 2 + (B.2 - A.2) ^ 2) := by
      refine Real.sqrt_pos.2 ?_
      by_contra hle
      apply hne
      have h1 : B.1 - A.1 = 0 := by nlinarith [sq_nonneg (B.1 - A.1), sq_nonneg (B.2 - A.2)]
      have h2 : B.2 - A.2 = 0 := by nlinarith [sq_nonneg (B.1 - A.1), sq_nonneg (B.2 - A.2)]
      exact Prod.ext (by linarith) (by linarith)
    rw [le_div_iff₀ hpos, zero_mul]
  constructor
  · intro h
    have e : ∀ i, i < 4 → _ := fun i hi => (key _ _ _ (stepArea_noRepeat i hi)).1 (h i hi)
    have e0 := e 0 (by norm_num)
    have e1 := e 1 (by norm_num)
    have e2 := e 2 (by norm_num)
    have e3 := e 3 (by norm_num)
    simp [stepArea, vertex] at e0 e1 e2 e3
    refine ⟨?_, ?_, ?_, ?_⟩ <;> nlinarith
  · rintro ⟨h1, h2, h3, h4⟩ i hi
    refine (key _ _ _ (stepArea_noRepeat i hi)).2 ?_
    have hi' : i < 4 := hi
    have : i = 0 ∨ i = 1 ∨ i = 2 ∨ i = 3 := by omega
    rcases this with rfl | rfl | rfl | rfl <;> simp [stepArea, vertex] <;> nlinarith

theorem stepCurrent_polygon : (stepCurrent.supportPolygon (restWpg 5).hull).2 = (demoSupport.supportPolygon demoWpg.hull).2 := rfl

/-- Non-vacuity of `C147` and `C147_exists`: whatever the next support and the DCM, `update_supports` succeeds. -/
theorem step_example (t : ℝ) (next : Support) (n0 : Footstep) (ns : List Footstep) (hn : next.footsteps = n0 :: ns) (later : List Support)
    (dcm : V2) : ∃ r, (restWpg 5).updateSupports stepArea t (stepCurrent :: next :: later) dcm = .ok r := by
  refine (C147_exists (restWpg 5) stepArea bestOracle_optimal (fun eqs => someQR_spec _ _ _) (by norm_num [restWpg]) t stepCurrent next later dcm
    demoStep n0 ns rfl hn (by simp [planarDet, demoStep, Affine.one]) (by simp [stepArea]) stepArea_noRepeat (by simp [stepArea])
    (by rw [stepCurrent_polygon, demo_polygon]; simp) (by rw [stepCurrent_polygon]; exact demo_noRepeat)).1.2 ⟨⟨⟨0, 0⟩, demo_inside⟩, ?_⟩
  exact ⟨⟨-15 / 100, -15 / 100⟩, (stepArea_region ⟨-(-15 / 100), -(-15 / 100)⟩).2 (by norm_num)⟩

/-- The last two supports that `make_supports` builds for three footsteps. -/
theorem last_supports (f0 f1 f2 : Footstep) (t : ℝ) : ∃ first, makeSupports [f0, f1, f2] t true false true =
    .ok [first, { footsteps := [f1] }, { footsteps := [f1, f2], isEnd := true }] := ⟨_, rfl⟩

/-- Non-vacuity of `C147_landing_refuted`, on these supports: the foot on which the robot stands moves by at least 10 cm, in both
directions, in the last support, and the foot that lands does not move. -/
example (t : ℝ) (dcm : V2) : ∃ r, (restWpg 5).updateSupports stepArea t [stepCurrent, { footsteps := [demoStep, landingStep], isEnd := true }] dcm = .ok r ∧
    ∃ s f', r[1]? = some s ∧ s.footsteps = [f', landingStep] ∧ f'.frame.translation 0 ≤ -1 / 10 ∧ f'.frame.translation 1 ≤ -1 / 10 ∧
      demoStep.frame.translation 0 = 0 ∧ demoStep.frame.translation 1 = 0 := by
  obtain ⟨r, hr⟩ := step_example t { footsteps := [demoStep, landingStep], isEnd := true } demoStep [landingStep] rfl [] dcm
  refine ⟨r, hr, ?_⟩
  obtain ⟨p, hp, e, -⟩ := C147_landing_refuted (restWpg 5) stepArea bestOracle_optimal (fun eqs => someQR_spec _ _ _) (by norm_num [restWpg])
    t stepCurrent { footsteps := [demoStep, landingStep], isEnd := true } [] dcm demoStep landingStep rfl rfl stepArea_noRepeat
    ⟨by rw [stepCurrent_polygon, demo_polygon]; simp, by rw [stepCurrent_polygon]; exact demo_noRepeat⟩ r hr
  obtain ⟨h1, -, h3, -⟩ := (stepArea_region ⟨-p.x, -p.y⟩).1 hp
  simp only at h1 h3
  match r, e with
  | [], e => cases e
  | [_], e => simp at e
  | _ :: s :: _, e =>
    simp only [List.map_cons, List.take_succ_cons, List.take_zero, List.cons.injEq, and_true] at e
    refine ⟨s, _, rfl, e.2, ?_, ?_, rfl, rfl⟩
    · simp [planarPoint, demoStep, Affine.one]; linarith
    · simp [planarPoint, demoStep, Affine.one]; linarith

/-- Non-vacuity of `C147_mirror_refuted`: the operational space is in front of a right foot, and the next support is placed behind the left one. -/
example : ∀ p, InStepRegion stepArea .right p → 0 < p.x := fun p h => by linarith [((stepArea_region p).1 h).1]

/-- Non-vacuity of `C146`. -/
example (a b : V2) : ∃ z, (restWpg 5).getOptimalZmp a b 1 stepCurrent = .ok z :=
  (C146 (restWpg 5) bestOracle_optimal (by norm_num [restWpg]) a b 1 one_pos stepCurrent
    (by rw [stepCurrent_polygon, demo_polygon]; simp) (by rw [stepCurrent_polygon]; exact demo_noRepeat)).1.2 ⟨⟨0, 0⟩, demo_inside⟩

/-! ### Non-vacuity of `C147_best_partial` -/

/-- Nothing is lost when the columns are orthogonal, and either zero or not small. -/
theorem lost_orthogonal (w : ℝ) (e : Expr ℝ) (ho : ∀ r c, r < e.cols → c < e.cols → r ≠ c → ∑ i ∈ Finset.range e.rows, e.A i r * e.A i c = 0)
    (hz : ∀ r, r < e.cols → (∀ i, i < e.rows → e.A i r = 0) ∨ ¬ ColZero (1 / 1000000000000) ⟨e.rows, e.cols, e.A⟩ r) (v : Nat → ℝ) :
    lost (1 / 1000000000000) w e v = 0 := by
  classical
  unfold lost
  refine Finset.sum_eq_zero fun r hr' => Finset.sum_eq_zero fun c hc' => ?_
  have h1 := Finset.mem_range.1 hr'
  have h2 := Finset.mem_range.1 hc'
  by_cases h : r = c
  · subst h
    rcases hz r h1 with h0 | h0
    · have : ∑ i ∈ Finset.range e.rows, e.A i r * e.A i r = 0 :=
        Finset.sum_eq_zero fun i hi => by rw [h0 i (Finset.mem_range.1 hi), zero_mul]
      rw [this]
      simp
    · rw [if_pos]
      rw [C12_runs _ e r r le_rfl]
      refine ⟨h1, fun j h3 h4 => ?_⟩
      have : j = r := by omega
      subst this
      exact h0
  · rw [ho r c h1 h2 h]
    simp

/-- The two equations of `update_supports` when the DCM is on the ZMP and the support is not rotated. -/
def niceA : Nat → Nat → ℝ
  | 0, 0 => 1
  | 0, 3 => 1
  | 1, 1 => 1
  | 1, 4 => 1
  | _, _ => 0

/-- An orthogonal matrix when `2 s² = 1`. -/
def niceQ (s : ℝ) : Nat → Nat → ℝ
  | 0, 0 => s
  | 0, 2 => s
  | 1, 1 => s
  | 1, 3 => s
  | 2, 4 => 1
  | 3, 0 => s
  | 3, 2 => -s
  | 4, 1 => s
  | 4, 3 => -s
  | _, _ => 0

theorem niceQ_cols (s : ℝ) (hs : s * s = 1 / 2) (i j : Nat) (hi : i < 5) (hj : j < 5) :
    ∑ k ∈ Finset.range 5, niceQ s k i * niceQ s k j = if i = j then 1 else 0 := by
  interval_cases i <;> interval_cases j <;> simp [Finset.sum_range_succ, niceQ] <;> linarith

theorem niceQ_rows (s : ℝ) (hs : s * s = 1 / 2) (i j : Nat) (hi : i < 5) (hj : j < 5) :
    ∑ k ∈ Finset.range 5, niceQ s i k * niceQ s j k = if i = j then 1 else 0 := by
  interval_cases i <;> interval_cases j <;> simp [Finset.sum_range_succ, niceQ] <;> linarith

theorem niceQ_fact (s : ℝ) (hs : s * s = 1 / 2) (i k : Nat) (hi : i < 2) (hk : k < 5) :
    niceA i k = ∑ j ∈ Finset.range 5, niceQ s k j * (if j = i then 2 * s else 0) := by
  interval_cases i <;> interval_cases k <;> simp [Finset.sum_range_succ, niceQ, niceA] <;> linarith

noncomputable def niceQR : QR ℝ := ⟨2, niceQ (√(1 / 2)), fun j i => if j = i then 2 * √(1 / 2) else 0, id⟩

theorem half_sqrt : √(1 / 2) * √(1 / 2) = (1 / 2 : ℝ) := Real.mul_self_sqrt (by norm_num)

theorem niceQR_spec (A : Nat → Nat → ℝ) (hA : ∀ i k, i < 2 → k < 5 → A i k = niceA i k) : IsExactQR 5 2 A niceQR := by
  have h2 : (0 : ℝ) < √(1 / 2) := Real.sqrt_pos.2 (by norm_num)
  refine ⟨⟨by decide, niceQ_cols _ half_sqrt, niceQ_rows _ half_sqrt, fun i k hi hk => ?_, ?_, ?_, fun i hi => hi, fun r hr => ⟨r, hr, rfl⟩⟩,
    fun _ => rfl⟩
  · rw [show niceQR.perm i = i from rfl, hA i k hi hk]
    exact niceQ_fact _ half_sqrt i k hi hk
  · intro i j _ hij
    show (if j = i then 2 * √(1 / 2) else 0) = 0
    rw [if_neg (by omega)]
  · intro _ i _
    show (if i = i then 2 * √(1 / 2) else 0) ≠ 0
    rw [if_pos rfl]
    positivity

open Classical in
/-- A generator whose factorisation is the one above whenever it applies. -/
noncomputable def niceWpg : Wpg :=
  { restWpg 5 with qr := fun m eqs => if ∀ i k, i < 2 → k < 5 → eqs.A i k = niceA i k then niceQR else someQR 5 m eqs.A }

theorem nice_qr : StepQR niceWpg := by
  intro eqs
  classical
  by_cases h : ∀ i k, i < 2 → k < 5 → eqs.A i k = niceA i k
  · have : niceWpg.qr 2 eqs = niceQR := by unfold niceWpg; exact if_pos h
    rw [this]
    exact niceQR_spec _ h
  · have : niceWpg.qr 2 eqs = someQR 5 2 eqs.A := by unfold niceWpg; exact if_neg h
    rw [this]
    exact someQR_spec _ _ _

theorem nice_polygon : (stepCurrent.supportPolygon niceWpg.hull).2 = (demoSupport.supportPolygon demoWpg.hull).2 := rfl

theorem nice_zmp (d : ℝ) (hd : 0 < d) : niceWpg.getOptimalZmp ⟨0, 0⟩ ⟨0, 0⟩ d stepCurrent = .ok ⟨0, 0⟩ := by
  obtain ⟨h1, -, h3⟩ := C146 niceWpg bestOracle_optimal (by norm_num [niceWpg, restWpg]) ⟨0, 0⟩ ⟨0, 0⟩ d hd stepCurrent
    (by rw [nice_polygon, demo_polygon]; simp) (by rw [nice_polygon]; exact demo_noRepeat)
  obtain ⟨z, hz⟩ := h1.2 ⟨⟨0, 0⟩, demo_inside⟩
  have := ((h3 z hz).2 ⟨0, 0⟩ (by simp [dcmAfter]) ⟨0, 0⟩ demo_inside).2 (by unfold zmpCost; simp; positivity)
  rw [hz, ← this]

theorem reduced_row (n : Nat) (r : Red ℝ) (e : Expr ℝ) (he : e.cols ≤ n) (i j : Nat) :
    (reduceExpr n (some r) e).A i j = e.rowVal (fun k => r.Q k (r.d + j)) i - e.rowVal (fun _ => 0) i := by
  rw [Expr.rowVal_pad e n he, Expr.rowVal_pad e n he]
  simp [reduceExpr]

theorem nice_lossless (t : ℝ) (target : V2) : StepLossless niceWpg stepArea t stepCurrent demoStep target ⟨0, 0⟩ ⟨0, 0⟩ := by
  intro cs hcs qp hqp v
  obtain ⟨c1, c2, c3, c4, c5, c6, c7, c8, hcs', H⟩ := stepConstraints_spec niceWpg stepArea t stepCurrent demoStep.side demoStep.frame
    target ⟨0, 0⟩ ⟨0, 0⟩
  rw [hcs] at hcs'
  cases hcs'
  obtain ⟨n8, n7, h8⟩ := step_count H
  obtain ⟨r1, r2, r3, r4, r5, r6, r7, r8⟩ := H.rows
  have hA : ∀ i k, i < 2 → k < 5 → (equalities [c1, c2, c3, c4, c5, c6, c7, c8]).A i k = niceA i k := by
    obtain ⟨-, -, i3, -⟩ := equalities_inv [c1, c2, c3, c4, c5, c6, c7, c8]
    have e := fun j hj => (i3 7 c8 rfl h8 j hj).1
    have ht : [c1, c2, c3, c4, c5, c6, c7, c8].take 7 = [c1, c2, c3, c4, c5, c6, c7] := rfl
    rw [ht, n7] at e
    intro i k hi hk
    have e' := e i (by omega) k
    rw [zero_add] at e'
    rw [e']
    have hc8 : c8.expr.cols ≤ 5 := (H.cols c8 (by simp)).1
    have hp : c8.expr.pad i k = c8.expr.rowVal (fun l => if l = k then 1 else 0) i - c8.expr.rowVal (fun _ => 0) i := by
      rw [Expr.rowVal_pad c8.expr 5 hc8, Expr.rowVal_pad c8.expr 5 hc8]
      simp [hk]
    rw [hp]
    obtain ⟨a0, a1⟩ := H.v8 fun _ => 0
    obtain ⟨b0, b1⟩ := H.v8 fun l => if l = k then 1 else 0
    interval_cases i
    · rw [a0, b0]
      interval_cases k <;> simp [planarPoint, planarVector, demoStep, Affine.one, niceA]
    · rw [a1, b1]
      interval_cases k <;> simp [planarPoint, planarVector, demoStep, Affine.one, niceA]
  have hred : qp.red = some (reduction niceQR (equalities [c1, c2, c3, c4, c5, c6, c7, c8]).b) := by
    rw [(assembled_of_ok hqp).red]
    have : niceWpg.qr (nEqualities [c1, c2, c3, c4, c5, c6, c7, c8]) (equalities [c1, c2, c3, c4, c5, c6, c7, c8]) = niceQR := by
      unfold niceWpg
      exact if_pos hA
    rw [this, n8]
    rfl
  obtain ⟨⟨t1, p1, -⟩, ⟨t2, p2, -⟩, ⟨t3, p3, -⟩, ⟨t7, p7, -⟩⟩ := H.soft
  obtain ⟨⟨t4, p4⟩, ⟨t5, p5⟩, ⟨t6, p6⟩, ⟨t8, p8⟩⟩ := H.hard
  have hs2 : (1 : ℝ) / 1000000000000 < √(1 / 2) := by
    rw [Real.lt_sqrt (by norm_num)]
    norm_num
  have hs0 : ¬ (√(1 / 2) ≤ (1 : ℝ) / 1000000000000) := not_le.2 hs2
  generalize hrd : reduction niceQR (equalities [c1, c2, c3, c4, c5, c6, c7, c8]).b = rd at hred
  have hd : rd.d = 2 := by rw [← hrd]; rfl
  have hQ : rd.Q = niceQ (√(1 / 2)) := by rw [← hrd]; rfl
  have z1 : lost (1 / 1000000000000) c1.weight (reduceExpr 5 (some rd) c1.expr) v = 0 := by
    have hr : ∀ j, (reduceExpr 5 (some rd) c1.expr).A 0 j = niceQ (√(1 / 2)) 2 (2 + j) := by
      intro j
      rw [reduced_row 5 rd c1.expr (H.cols c1 (by simp)).1, H.v1, H.v1, hd, hQ]; ring
    have hcols : (reduceExpr 5 (some rd) c1.expr).cols = 3 := by show 5 - rd.d = 3; rw [hd]
    have hrows : (reduceExpr 5 (some rd) c1.expr).rows = 1 := r1
    refine lost_orthogonal _ _ (fun r c h1 h2 hne => ?_) (fun r h1 => ?_) v
    · rw [hrows, Finset.sum_range_one, hr, hr]
      rw [hcols] at h1 h2
      interval_cases r <;> interval_cases c <;> simp_all [niceQ]
    · rw [hcols] at h1
      rw [hrows]
      interval_cases r
      · left; intro i hi; obtain rfl : i = 0 := by omega
        rw [hr]; rfl
      · left; intro i hi; obtain rfl : i = 0 := by omega
        rw [hr]; rfl
      · right; intro hz
        have := (hz 0 (by show 0 < 1; omega)).2
        simp only [hr] at this
        norm_num [niceQ] at this
  have z2 : lost (1 / 1000000000000) c2.weight (reduceExpr 5 (some rd) c2.expr) v = 0 := by
    have hr : ∀ i j, i < 2 → (reduceExpr 5 (some rd) c2.expr).A i j = niceQ (√(1 / 2)) i (2 + j) := by
      intro i j hi
      rw [reduced_row 5 rd c2.expr (H.cols c2 (by simp)).1]
      obtain ⟨a0, a1⟩ := H.v2 fun _ => 0
      obtain ⟨b0, b1⟩ := H.v2 fun k => rd.Q k (rd.d + j)
      interval_cases i
      · rw [a0, b0, hd, hQ]; simp [planarPoint, demoStep, Affine.one]
      · rw [a1, b1, hd, hQ]; simp [planarPoint, demoStep, Affine.one]
    have hcols : (reduceExpr 5 (some rd) c2.expr).cols = 3 := by show 5 - rd.d = 3; rw [hd]
    have hrows : (reduceExpr 5 (some rd) c2.expr).rows = 2 := r2
    refine lost_orthogonal _ _ (fun r c h1 h2 hne => ?_) (fun r h1 => ?_) v
    · rw [hrows, Finset.sum_range_succ, Finset.sum_range_one, hr _ _ (by omega), hr _ _ (by omega), hr _ _ (by omega), hr _ _ (by omega)]
      rw [hcols] at h1 h2
      interval_cases r <;> interval_cases c <;> simp_all [niceQ]
    · rw [hcols] at h1
      rw [hrows]
      interval_cases r
      · right; intro hz
        have := (hz 0 (by show 0 < 2; omega)).2
        simp only [hr 0 0 (by omega)] at this
        exact hs0 this
      · right; intro hz
        have := (hz 1 (by show 1 < 2; omega)).2
        simp only [hr 1 1 (by omega)] at this
        exact hs0 this
      · left; intro i hi
        rw [hr i 2 hi]
        interval_cases i <;> rfl
  have z3 : lost (1 / 1000000000000) c3.weight (reduceExpr 5 (some rd) c3.expr) v = 0 := by
    have hr : ∀ i j, i < 2 → (reduceExpr 5 (some rd) c3.expr).A i j = niceQ (√(1 / 2)) (3 + i) (2 + j) := by
      intro i j hi
      rw [reduced_row 5 rd c3.expr (H.cols c3 (by simp)).1]
      obtain ⟨a0, a1⟩ := H.v3 fun _ => 0
      obtain ⟨b0, b1⟩ := H.v3 fun k => rd.Q k (rd.d + j)
      interval_cases i
      · rw [a0, b0, hd, hQ]; simp [planarVector, demoStep, Affine.one, stepCurrent, demoSupport]
      · rw [a1, b1, hd, hQ]; simp [planarVector, demoStep, Affine.one, stepCurrent, demoSupport]
    have hcols : (reduceExpr 5 (some rd) c3.expr).cols = 3 := by show 5 - rd.d = 3; rw [hd]
    have hrows : (reduceExpr 5 (some rd) c3.expr).rows = 2 := r3
    have hs0' : ¬ (-(1 / 1000000000000 : ℝ) ≤ -√(1 / 2)) := fun h => hs0 (neg_le_neg_iff.1 h)
    refine lost_orthogonal _ _ (fun r c h1 h2 hne => ?_) (fun r h1 => ?_) v
    · rw [hrows, Finset.sum_range_succ, Finset.sum_range_one, hr _ _ (by omega), hr _ _ (by omega), hr _ _ (by omega), hr _ _ (by omega)]
      rw [hcols] at h1 h2
      interval_cases r <;> interval_cases c <;> simp_all [niceQ]
    · rw [hcols] at h1
      rw [hrows]
      interval_cases r
      · right; intro hz
        have := (hz 0 (by show 0 < 2; omega)).1
        simp only [hr 0 0 (by omega)] at this
        exact hs0' this
      · right; intro hz
        have := (hz 1 (by show 1 < 2; omega)).1
        simp only [hr 1 1 (by omega)] at this
        exact hs0' this
      · left; intro i hi
        rw [hr i 2 hi]
        interval_cases i <;> rfl
  have s1 : c1.softEq = true := by simp [Constr.softEq, t1, p1]
  have s2 : c2.softEq = true := by simp [Constr.softEq, t2, p2]
  have s3 : c3.softEq = true := by simp [Constr.softEq, t3, p3]
  have s4 : c4.softEq = false := by simp [Constr.softEq, t4]
  have s5 : c5.softEq = false := by simp [Constr.softEq, t5]
  have s6 : c6.softEq = false := by simp [Constr.softEq, t6]
  have s7 : c7.softEq = false := by simp [Constr.softEq, t7]
  have s8 : c8.softEq = false := by simp [Constr.softEq, p8]
  simp only [lostSum, List.map_cons, List.map_nil, List.sum_cons, List.sum_nil, s1, s2, s3, s4, s5, s6, s7, s8, hred, if_true,
    Bool.false_eq_true, if_false, z1, z2, z3, add_zero]

/-- Non-vacuity of `C147_best_partial`: a robot at rest above its foot takes the best step. -/
example (t : ℝ) : ∃ r choice, niceWpg.updateSupports stepArea t [stepCurrent, { footsteps := [landingStep] }] ⟨0, 0⟩ = .ok r ∧
    StepOK niceWpg stepArea t .left Affine.one ⟨0, 0⟩ ⟨0, 0⟩ choice ∧
    ∀ other, StepOK niceWpg stepArea t .left Affine.one ⟨0, 0⟩ ⟨0, 0⟩ other →
      stepCost niceWpg stepArea stepCurrent Affine.one ⟨1 / 10, -1 / 10⟩ choice ≤
        stepCost niceWpg stepArea stepCurrent Affine.one ⟨1 / 10, -1 / 10⟩ other := by
  have ht : t - stepCurrent.tStart = t := sub_zero t
  obtain ⟨r, hr⟩ := (C147_exists niceWpg stepArea bestOracle_optimal nice_qr (by norm_num [niceWpg, restWpg]) t stepCurrent
    { footsteps := [landingStep] } [] ⟨0, 0⟩ demoStep landingStep [] rfl rfl (by simp [planarDet, demoStep, Affine.one]) (by simp [stepArea])
    stepArea_noRepeat (by simp [stepArea]) (by rw [nice_polygon, demo_polygon]; simp) (by rw [nice_polygon]; exact demo_noRepeat)).1.2
    ⟨⟨⟨0, 0⟩, demo_inside⟩, ⟨-15 / 100, -15 / 100⟩, (stepArea_region ⟨-(-15 / 100), -(-15 / 100)⟩).2 (by norm_num)⟩
  have hnd : NoRepeat stepArea.dcmOffsetPolygon := by
    intro i hi
    have h4 : i < 4 := hi
    have : i = 0 ∨ i = 1 ∨ i = 2 ∨ i = 3 := by omega
    rcases this with rfl | rfl | rfl | rfl <;> norm_num [stepArea, vertex, vertices]
  obtain ⟨choice, -, h2, h3⟩ := C147_best_partial niceWpg stepArea bestOracle_optimal nice_qr (by norm_num [niceWpg, restWpg]) t stepCurrent
    { footsteps := [landingStep] } [] ⟨0, 0⟩ demoStep landingStep [] rfl rfl stepArea_noRepeat hnd ⟨0, 0⟩
    (nice_zmp _ (by positivity)) landingStep.frame rfl (by rw [ht]; exact nice_lossless t _) r hr
  rw [ht] at h2 h3
  exact ⟨r, choice, hr, h2, h3⟩

end Verif.Humanoid
