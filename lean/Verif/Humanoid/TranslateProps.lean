/-
Property C216: the CoM planned for a walk does not depend on where the walk is.
-/
import Mathlib.Tactic.Ring
import Mathlib.Tactic.Linarith
import Verif.Humanoid.LipmProps
import Verif.Humanoid.Wpg

namespace Verif.Humanoid
open Verif.Problem Verif.Tools Verif.Robot Finset

/-! ## Specification -/

/-- The point moved by `o`. -/
def V2.shift (p o : V2) : V2 := ⟨p.x + o.x, p.y + o.y⟩

/-- Two results are the same error, or two values that are related. -/
inductive ExRel {α β : Type} (R : α → β → Prop) : Except Err α → Except Err β → Prop
  | err (e : Err) : ExRel R (.error e) (.error e)
  | ok {a : α} {b : β} (h : R a b) : ExRel R (.ok a) (.ok b)

/-- Boost's convex hull moves with the points. -/
def HullMoves (hull : List V2 → List V2) : Prop := ∀ (o : V2) (l : List V2), hull (l.map (V2.shift · o)) = (hull l).map (V2.shift · o)

/-- The polygon of the support is the one of its footsteps where they are (a polygon that was cached and is stale is excluded, C83). -/
def UpToDate (hull : List V2 → List V2) (s : Support) : Prop :=
  (s.supportPolygon hull).2 = (hull (s.footsteps.flatMap (·.computePolygon 0))).dropLast

/-- The part of the walk at another place: same times, same feet moved by `o`, at all times the CoM is moved by `o` and has the same
velocity, acceleration and jerk. -/
structure PartMoved (o : V2) (p p' : Part) : Prop where
  tStart : p'.tStart = p.tStart
  tEnd : p'.tEnd = p.tEnd
  swing : p'.swing = p.swing
  support : p'.support = { p.support.applyOffset o with targetDcm := V2.shift p.support.targetDcm o }
  pos : ∀ t, ExRel (fun a b => b = V2.shift a o) (p.com.pos t) (p'.com.pos t)
  vel : ∀ t, p'.com.vel t = p.com.vel t
  acc : ∀ t, p'.com.acc t = p.com.acc t
  jerk : ∀ t, p'.com.jerk t = p.com.jerk t

/-- The plans: both fail, or the parts are moved and the end is at the same time. -/
def PlanMoved (o : V2) : Option (List Part × ℝ) → Option (List Part × ℝ) → Prop
  | none, none => True
  | some (parts, te), some (parts', te') => List.Forall₂ (PartMoved o) parts parts' ∧ te' = te
  | _, _ => False

/-! ## Related computations -/

theorem ExRel.bind {α β γ δ : Type} {R : α → β → Prop} {S : γ → δ → Prop} {x : Except Err α} {y : Except Err β} (h : ExRel R x y)
    {f : α → Except Err γ} {g : β → Except Err δ} (hf : ∀ a b, R a b → ExRel S (f a) (g b)) : ExRel S (x >>= f) (y >>= g) := by
  cases h with
  | err e => exact .err e
  | ok h => exact hf _ _ h

theorem ExRel.refl {α : Type} {R : α → α → Prop} (h : ∀ a, R a a) (x : Except Err α) : ExRel R x x := by
  cases x with
  | error e => exact .err e
  | ok a => exact .ok (h a)

theorem ExRel.eq {α : Type} {x y : Except Err α} (h : ExRel (fun a b => b = a) x y) : y = x := by
  cases h with
  | err e => rfl
  | ok h => rw [h]

theorem ExRel.mono {α β : Type} {R S : α → β → Prop} (hRS : ∀ a b, R a b → S a b) {x : Except Err α} {y : Except Err β} (h : ExRel R x y) :
    ExRel S x y := by
  cases h with
  | err e => exact .err e
  | ok h => exact .ok (hRS _ _ h)

theorem ExRel.mapM {α β γ δ : Type} {R : α → β → Prop} {S : γ → δ → Prop} {f : α → Except Err γ} {g : β → Except Err δ}
    (hf : ∀ a b, R a b → ExRel S (f a) (g b)) {l : List α} {l' : List β} (h : List.Forall₂ R l l') :
    ExRel (List.Forall₂ S) (l.mapM f) (l'.mapM g) := by
  induction h with
  | nil => exact .ok .nil
  | cons h _ ih =>
    rw [List.mapM_cons, List.mapM_cons]
    refine (hf _ _ h).bind fun a b hab => ih.bind fun as bs habs => .ok (.cons hab habs)

/-! ## The QP only reads the rows of the constraints -/

/-- The constraint without what is after its rows. -/
noncomputable def trim (c : Constr ℝ) : Constr ℝ :=
  { c with expr := { c.expr with b := fun i => if i < c.expr.rows then c.expr.b i else 0 } }

/-- The same constraint, up to what is after its rows. -/
def SameRows (c c' : Constr ℝ) : Prop := trim c = trim c'

theorem eqStep_trim (st : EqSt ℝ) (c : Constr ℝ) : eqStep st (trim c) = eqStep st c := by
  unfold eqStep
  have h : (trim c).hardEq = c.hardEq := rfl
  rw [h]
  split
  · have : writeSeg st.b st.k (trim c).expr.rows (trim c).expr.b = writeSeg st.b st.k c.expr.rows c.expr.b := by
      funext r
      unfold writeSeg
      show (if st.k ≤ r ∧ r < st.k + c.expr.rows then (if r - st.k < c.expr.rows then c.expr.b (r - st.k) else 0) else st.b r) = _
      split
      · rw [if_pos (by omega)]
      · rfl
    rw [this]
    rfl
  · rfl

theorem reduce_trim (n : Nat) (red : Option (Red ℝ)) (c : Constr ℝ) :
    (reduceExpr n red (trim c).expr).rows = (reduceExpr n red c.expr).rows ∧
    (reduceExpr n red (trim c).expr).cols = (reduceExpr n red c.expr).cols ∧
    (reduceExpr n red (trim c).expr).A = (reduceExpr n red c.expr).A ∧
    ∀ i, i < (reduceExpr n red c.expr).rows → (reduceExpr n red (trim c).expr).b i = (reduceExpr n red c.expr).b i := by
  cases red with
  | none => exact ⟨rfl, rfl, rfl, fun i hi => if_pos hi⟩
  | some r =>
    refine ⟨rfl, rfl, rfl, fun i hi => ?_⟩
    have hi' : i < c.expr.rows := hi
    show (if i < c.expr.rows then c.expr.b i else 0) + _ = _
    rw [if_pos hi']
    rfl

theorem objStep_trim (n : Nat) (red : Option (Red ℝ)) (sp : Bool) (eps : ℝ) (Pq : (Nat → Nat → ℝ) × (Nat → ℝ)) (c : Constr ℝ) :
    objStep n red sp eps Pq (trim c) = objStep n red sp eps Pq c := by
  obtain ⟨h1, h2, h3, h4⟩ := reduce_trim n red c
  unfold objStep
  have h : (trim c).softEq = c.softEq := rfl
  have hw : (trim c).weight = c.weight := rfl
  rw [h, hw]
  split
  · dsimp only
    refine Prod.ext ?_ ?_
    · dsimp only
      have hs : addSparse eps Pq.1 c.weight (reduceExpr n red (trim c).expr) = addSparse eps Pq.1 c.weight (reduceExpr n red c.expr) := by
        unfold addSparse addIntervalBlock
        rw [h1, h2, h3]
      have hd : addDense Pq.1 c.weight (reduceExpr n red (trim c).expr) = addDense Pq.1 c.weight (reduceExpr n red c.expr) := by
        unfold addDense
        rw [h1, h2, h3]
      rw [hs, hd]
    · dsimp only
      unfold addLinear
      funext r
      rw [h1, h2, h3]
      congr 2
      congr 1
      exact sum_congr rfl fun i hi => by rw [h4 i (mem_range.1 hi)]
  · rfl

theorem ineqStep_trim (n : Nat) (red : Option (Red ℝ)) (free N : Nat) (st : IneqSt ℝ) (c : Constr ℝ) :
    ineqStep n red free N st (trim c) = ineqStep n red free N st c := by
  obtain ⟨h1, h2, h3, h4⟩ := reduce_trim n red c
  unfold ineqStep
  have ht : (trim c).ty = c.ty := rfl
  have hp : (trim c).priority = c.priority := rfl
  have hw : (trim c).weight = c.weight := rfl
  have hs : ∀ k i r, slackRow free k (reduceExpr n red (trim c).expr) i r = slackRow free k (reduceExpr n red c.expr) i r := by
    intro k i r
    unfold slackRow
    rw [h2, h3]
  have hseg : writeSeg st.h st.k (reduceExpr n red (trim c).expr).rows (reduceExpr n red (trim c).expr).b =
      writeSeg st.h st.k (reduceExpr n red c.expr).rows (reduceExpr n red c.expr).b := by
    funext r
    unfold writeSeg
    rw [h1]
    split
    · rw [h4 _ (by omega)]
    · rfl
  have hq : ∀ r, ∑ i ∈ range (reduceExpr n red c.expr).rows, slackRow free st.kSlack (reduceExpr n red c.expr) i r *
      (reduceExpr n red (trim c).expr).b i = ∑ i ∈ range (reduceExpr n red c.expr).rows,
        slackRow free st.kSlack (reduceExpr n red c.expr) i r * (reduceExpr n red c.expr).b i :=
    fun r => sum_congr rfl fun i hi => by rw [h4 i (mem_range.1 hi)]
  rw [ht, hp, hw]
  split
  · dsimp only
    split
    · rw [hseg, h1, h2, h3]
    · simp only [hs, h1, hq]
  · rfl

theorem foldl_trim {σ : Type} (f : σ → Constr ℝ → σ) (hf : ∀ s c, f s (trim c) = f s c) (cs : List (Constr ℝ)) :
    ∀ s, (cs.map trim).foldl f s = cs.foldl f s := by
  induction cs with
  | nil => intro s; rfl
  | cons c cs ih => intro s; simp only [List.map_cons, List.foldl_cons, hf, ih]

theorem mapM_check_trim (n : Nat) (cs : List (Constr ℝ)) : (cs.map trim).mapM (checkConstr n) = cs.mapM (checkConstr n) := by
  induction cs with
  | nil => rfl
  | cons c cs ih =>
    rw [List.map_cons, List.mapM_cons, List.mapM_cons, ih]
    rfl

theorem assemble_trim (s : Settings ℝ) (qr : Nat → EqSt ℝ → QR ℝ) (cs : List (Constr ℝ)) :
    assemble s qr (cs.map trim) = assemble s qr cs := by
  have h1 : equalitiesUB s.n (cs.map trim) = equalitiesUB s.n cs := by
    unfold equalitiesUB
    rw [List.any_map]
    rfl
  have h2 : equalities (cs.map trim) = equalities cs := foldl_trim eqStep eqStep_trim cs _
  have h3 : nEqualities (cs.map trim) = nEqualities cs := by
    unfold nEqualities
    rw [List.map_map]
    rfl
  have h4 : nSlack (cs.map trim) = nSlack cs := by
    unfold nSlack
    rw [List.map_map]
    rfl
  have h5 : nInequalities (cs.map trim) = nInequalities cs := by
    unfold nInequalities
    rw [List.map_map]
    rfl
  unfold assemble
  rw [h1, h2, h3, h4, h5, mapM_check_trim]
  simp only [foldl_trim _ (objStep_trim s.n _ s.useSparsity s.eps), foldl_trim _ (ineqStep_trim s.n _ _ _)]

theorem solveQP_trim (g : Wpg) (n : Nat) (cs : List (Constr ℝ)) : g.solveQP n (cs.map trim) = g.solveQP n cs := by
  have hi : initActive (cs.map trim) = initActive cs := by
    unfold initActive
    rw [List.map_map]
    rfl
  unfold Wpg.solveQP Problem.solve
  rw [assemble_trim, hi]

theorem solveQP_same (g : Wpg) (n : Nat) (cs cs' : List (Constr ℝ)) (h : List.Forall₂ SameRows cs cs') : g.solveQP n cs' = g.solveQP n cs := by
  have : cs.map trim = cs'.map trim := by
    induction h with
    | nil => rfl
    | cons h _ ih => rw [List.map_cons, List.map_cons, ih, show trim _ = trim _ from h]
  rw [← solveQP_trim, ← this, solveQP_trim]

/-! ## Expressions -/

/-- The expression with `δ` added to its rows. -/
structure Shifted (r : Nat) (δ : Nat → ℝ) (e e' : Expr ℝ) : Prop where
  rows : e.rows = r
  rows' : e'.rows = r
  cols : e'.cols = e.cols
  A : e'.A = e.A
  b : ∀ i, i < r → e'.b i = e.b i + δ i

theorem Shifted.add {r : Nat} {δ ε : Nat → ℝ} {e e' o o' : Expr ℝ} (h : Shifted r δ e e') (h' : Shifted r ε o o') :
    ExRel (Shifted r fun i => δ i + ε i) (e.add o) (e'.add o') := by
  have c1 : (e'.isScalar && e'.isConstant) = (e.isScalar && e.isConstant) := by
    unfold Expr.isScalar Expr.isConstant; rw [h.rows, h.rows', h.cols]
  have c2 : (o'.isScalar && o'.isConstant) = (o.isScalar && o.isConstant) := by
    unfold Expr.isScalar Expr.isConstant; rw [h'.rows, h'.rows', h'.cols]
  unfold Expr.add
  rw [c1, c2]
  by_cases k1 : (e.isScalar && e.isConstant) = true
  · rw [if_pos k1, if_pos k1]
    have hr : r = 1 := by
      have : e.rows = 1 := by simp [Expr.isScalar] at k1; exact k1.1
      rw [← h.rows, this]
    subst hr
    refine .ok ⟨h'.rows, h'.rows', h'.cols, h'.A, fun i hi => ?_⟩
    obtain rfl : i = 0 := by omega
    show o'.b 0 + e'.b 0 = o.b 0 + e.b 0 + _
    rw [h.b 0 hi, h'.b 0 hi]; ring
  · rw [if_neg k1, if_neg k1]
    by_cases k2 : (o.isScalar && o.isConstant) = true
    · rw [if_pos k2, if_pos k2]
      have hr : r = 1 := by
        have : o.rows = 1 := by simp [Expr.isScalar] at k2; exact k2.1
        rw [← h'.rows, this]
      subst hr
      refine .ok ⟨h.rows, h.rows', h.cols, h.A, fun i hi => ?_⟩
      obtain rfl : i = 0 := by omega
      show e'.b 0 + o'.b 0 = e.b 0 + o.b 0 + _
      rw [h.b 0 hi, h'.b 0 hi]; ring
    · rw [if_neg k2, if_neg k2, if_neg (not_not.2 (h.rows.trans h'.rows.symm)), if_neg (not_not.2 (h.rows'.trans h'.rows'.symm))]
      refine .ok ⟨h.rows, h.rows', ?_, ?_, fun i hi => ?_⟩
      · dsimp only; rw [h.cols, h'.cols]
      · dsimp only; rw [h.cols, h'.cols, h.A, h'.A]
      · show e'.b i + o'.b i = e.b i + o.b i + _
        rw [h.b i hi, h'.b i hi]; ring

theorem Shifted.smul {r : Nat} {δ : Nat → ℝ} {e e' : Expr ℝ} (h : Shifted r δ e e') (f : ℝ) :
    Shifted r (fun i => δ i * f) (e.smul f) (e'.smul f) := by
  refine ⟨h.rows, h.rows', h.cols, ?_, fun i hi => ?_⟩
  · show (fun i j => e'.A i j * f) = fun i j => e.A i j * f
    rw [h.A]
  · show e'.b i * f = e.b i * f + _
    rw [h.b i hi]; ring

theorem Shifted.congr {r : Nat} {δ ε : Nat → ℝ} {e e' : Expr ℝ} (h : Shifted r δ e e') (hd : ∀ i, i < r → δ i = ε i) : Shifted r ε e e' :=
  ⟨h.rows, h.rows', h.cols, h.A, fun i hi => by rw [h.b i hi, hd i hi]⟩

theorem Shifted.sub {r : Nat} {δ ε : Nat → ℝ} {e e' o o' : Expr ℝ} (h : Shifted r δ e e') (h' : Shifted r ε o o') :
    ExRel (Shifted r fun i => δ i - ε i) (e.sub o) (e'.sub o') :=
  (h.add (h'.smul (-1))).mono fun _ _ hs => hs.congr fun i _ => by ring

theorem Shifted.same (e : Expr ℝ) : Shifted e.rows (fun _ => 0) e e := ⟨rfl, rfl, rfl, rfl, fun i _ => by ring⟩

theorem Shifted.stack {δ ε : ℝ} {e e' o o' : Expr ℝ} (h : Shifted 1 (fun _ => δ) e e') (h' : Shifted 1 (fun _ => ε) o o') :
    Shifted 2 (fun i => if i = 0 then δ else ε) (e.stack o) (e'.stack o') := by
  refine ⟨?_, ?_, ?_, ?_, fun i hi => ?_⟩
  · show e.rows + o.rows = 2
    rw [h.rows, h'.rows]
  · show e'.rows + o'.rows = 2
    rw [h.rows', h'.rows']
  · show max e'.cols o'.cols = max e.cols o.cols
    rw [h.cols, h'.cols]
  · unfold Expr.stack
    dsimp only
    rw [h.rows, h.rows', h.cols, h'.cols, h.A, h'.A]
  · unfold Expr.stack
    dsimp only
    rw [h.rows, h.rows']
    by_cases h0 : i = 0
    · subst h0
      rw [if_pos (by omega), if_pos (by omega), if_pos rfl, h.b 0 (by omega)]
    · obtain rfl : i = 1 := by omega
      rw [if_neg (by omega), if_neg (by omega), if_neg (by omega), h'.b 0 (by omega)]

theorem sameRows_eqVec {δ : Nat → ℝ} {e e' : Expr ℝ} (h : Shifted 2 δ e e') (v v' : Vec ℝ) (hv : v.size = 2) (hv' : v'.size = 2)
    (hd : ∀ i, i < 2 → v'.v i = v.v i + δ i) : ExRel SameRows (e.eqVec v) (e'.eqVec v') := by
  have hs : Shifted 2 δ (Expr.fromVector v) (Expr.fromVector v') := ⟨hv, hv', rfl, rfl, hd⟩
  unfold Expr.eqVec Expr.eq
  refine (h.sub hs).bind fun a b hab => .ok ?_
  unfold SameRows trim
  dsimp only
  obtain ⟨r, c, A, f⟩ := a
  obtain ⟨r', c', A', f'⟩ := b
  obtain ⟨h1, h2, h3, h4, h5⟩ := hab
  dsimp only at h1 h2 h3 h4 h5 ⊢
  subst h1 h2 h3 h4
  congr 2
  funext i
  split
  · rename_i hi
    rw [h5 i hi]; ring
  · rfl

theorem edgeValue_same {o : V2} {e e' : Expr ℝ} (h : Shifted 2 (fun i => if i = 0 then o.x else o.y) e e') (A B : P2) (margin : ℝ) :
    edgeValue e' (A.1 + o.x, A.2 + o.y) (B.1 + o.x, B.2 + o.y) margin = edgeValue e A B margin := by
  unfold edgeValue
  have hn : ((B.2 + o.y) - (A.2 + o.y), (A.1 + o.x) - (B.1 + o.x)) = (B.2 - A.2, A.1 - B.1) := by
    rw [add_sub_add_right_eq_sub, add_sub_add_right_eq_sub]
  dsimp only
  rw [hn]
  have hs : e.subVec ⟨2, fun i => if i = 0 then A.1 else A.2⟩ = .ok { e with b := fun i => e.b i - (if i = 0 then A.1 else A.2) } := by
    unfold Expr.subVec; rw [if_pos h.rows.symm]
  have hs' : e'.subVec ⟨2, fun i => if i = 0 then A.1 + o.x else A.2 + o.y⟩ =
      .ok { e' with b := fun i => e'.b i - (if i = 0 then A.1 + o.x else A.2 + o.y) } := by
    unfold Expr.subVec; rw [if_pos h.rows'.symm]
  rw [hs, hs']
  have hm : ∀ N : Nat → Nat → ℝ, Expr.matMul ⟨1, 2, N⟩ { e' with b := fun i => e'.b i - (if i = 0 then A.1 + o.x else A.2 + o.y) } =
      Expr.matMul ⟨1, 2, N⟩ { e with b := fun i => e.b i - (if i = 0 then A.1 else A.2) } := by
    intro N
    unfold Expr.matMul
    dsimp only
    rw [if_pos h.rows.symm, if_pos h.rows'.symm, h.rows, h.rows', h.cols, h.A]
    congr 2
    funext i
    refine sum_congr rfl fun k hk => ?_
    rw [h.b k (mem_range.1 hk)]
    split <;> ring
  show (Expr.matMul _ _ >>= _) = (Expr.matMul _ _ >>= _)
  rw [hm]

theorem mapM_congr {α β : Type} (f g : α → Except Err β) (l : List α) (h : ∀ a ∈ l, f a = g a) : l.mapM f = l.mapM g := by
  induction l with
  | nil => rfl
  | cons a l ih => rw [List.mapM_cons, List.mapM_cons, h a (by simp), ih fun b hb => h b (by simp [hb])]

theorem inPolygon_same {o : V2} {e e' : Expr ℝ} (h : Shifted 2 (fun i => if i = 0 then o.x else o.y) e e') (l : List V2) (margin : ℝ) :
    inPolygonXY e' ((l.map (V2.shift · o)).map fun v => (v.x, v.y)) margin = inPolygonXY e (l.map fun v => (v.x, v.y)) margin := by
  unfold inPolygonXY
  rw [if_neg (not_not.2 h.rows), if_neg (not_not.2 h.rows')]
  have hlen : ((l.map (V2.shift · o)).map fun v => (v.x, v.y)).length = (l.map fun v => (v.x, v.y)).length := by simp
  have hv : ∀ i, i < l.length → vertex ((l.map (V2.shift · o)).map fun v => (v.x, v.y)) i =
      ((vertex (l.map fun v => (v.x, v.y)) i).1 + o.x, (vertex (l.map fun v => (v.x, v.y)) i).2 + o.y) := by
    intro i hi
    unfold vertex
    simp [List.getD, hi, V2.shift]
  have hl : (l.map fun v => (v.x, v.y)).length = l.length := by simp
  rw [hlen, h.cols]
  rw [mapM_congr _ (fun i => edgeValue e (vertex (l.map fun v => (v.x, v.y)) i)
    (vertex (l.map fun v => (v.x, v.y)) ((i + 1) % (l.map fun v => (v.x, v.y)).length)) margin)]
  intro i hi
  have hi := List.mem_range.1 hi
  rw [hl] at hi ⊢
  rw [hv i hi, hv _ (Nat.mod_lt _ (by omega)), edgeValue_same h]

/-! ## Integrators -/

theorem jerkAB_col (r : ℝ) (i : Nat) : (jerkAB r).1 i 0 = if i = 0 then 1 else 0 := by
  by_cases hi : i < 3
  · have h := jerkAB_motion (fun j => if j = 0 then 1 else 0) 0 r i hi
    have e : i = 0 ∨ i = 1 ∨ i = 2 := by omega
    rcases e with rfl | rfl | rfl <;> simpa [mvec, motion, sum_range_succ] using h
  · rw [if_neg (by omega)]
    unfold jerkAB abMatrices
    dsimp only
    rw [dif_neg (by omega)]

theorem mpow_col (r : ℝ) (s : Nat) : ∀ i, i < 3 → mpow 3 (jerkAB r).1 s i 0 = if i = 0 then 1 else 0 := by
  induction s with
  | zero => intro i _; rfl
  | succ s ih =>
    intro i _
    show ∑ k ∈ range 3, (jerkAB r).1 i k * mpow 3 (jerkAB r).1 s k 0 = _
    rw [sum_congr rfl fun k hk => by rw [ih k (mem_range.1 hk)]]
    simp [jerkAB_col]

/-- The integrator of an axis, with the initial position moved by `d`. -/
structure AxisMoved (d : ℝ) (I I' : Integrator ℝ) : Prop where
  built : Built I jerkAB
  order : I.order = 3
  same : I' = { I with X0 := I'.X0 }
  start : Shifted 3 (fun i => if i = 0 then d else 0) I.X0 I'.X0

theorem axisMoved_mk {d : ℝ} (n m : Nat) {X X' : Expr ℝ} (h : Shifted 3 (fun i => if i = 0 then d else 0) X X') (dt t : ℝ) :
    ExRel (fun I I' => AxisMoved d { I with tStart := t } { I' with tStart := t })
      (Integrator.mkOrder ⟨n, n + m⟩ X 3 jerkAB dt) (Integrator.mkOrder ⟨n, n + m⟩ X' 3 jerkAB dt) := by
  have e : Integrator.mkOrder ⟨n, n + m⟩ X 3 jerkAB dt = .ok (Integrator.mk' ⟨n, n + m⟩ X 3 jerkAB dt) := by
    unfold Integrator.mkOrder; rw [if_neg (not_not.2 h.rows)]
  have e' : Integrator.mkOrder ⟨n, n + m⟩ X' 3 jerkAB dt = .ok (Integrator.mk' ⟨n, n + m⟩ X' 3 jerkAB dt) := by
    unfold Integrator.mkOrder; rw [if_neg (not_not.2 h.rows')]
  rw [e, e']
  exact .ok ⟨built_mkOrder ⟨n, n + m⟩ (by simp) X 3 jerkAB dt _ e t, rfl, rfl, h⟩

theorem shifted_power {d : ℝ} {I I' : Integrator ℝ} (h : AxisMoved d I I') (s : Nat) (hs : s ≤ I.var.size) :
    ExRel (Shifted 3 (fun i => if i = 0 then d else 0)) (Expr.matMul ⟨3, 3, I.aPowers s⟩ I.X0) (Expr.matMul ⟨3, 3, I.aPowers s⟩ I'.X0) := by
  unfold Expr.matMul
  dsimp only
  rw [if_pos h.start.rows.symm, if_pos h.start.rows'.symm, h.start.rows, h.start.rows', h.start.A, h.start.cols]
  refine .ok ⟨rfl, rfl, rfl, rfl, fun i hi => ?_⟩
  dsimp only
  rw [sum_congr rfl fun k hk => by rw [h.start.b k (mem_range.1 hk)]]
  have hp : I.aPowers s i 0 = if i = 0 then 1 else 0 := by
    rw [h.built.powers s hs, h.order, h.built.A]
    exact mpow_col _ s i hi
  simp only [mul_add, sum_add_distrib, mul_ite, mul_zero, sum_ite_eq', mem_range]
  rw [if_pos (by norm_num), hp]
  split <;> simp

theorem expr_moved {d : ℝ} {I I' : Integrator ℝ} (h : AxisMoved d I I') (step : Int) (k : Nat) (hk : k < 3) :
    ExRel (Shifted 1 fun _ => if k = 0 then d else 0) (I.expr step k) (I'.expr step k) := by
  rw [h.same]
  unfold Integrator.expr
  dsimp only
  refine (ExRel.refl (R := fun a b => a = b) (fun _ => rfl) _).bind fun _ _ _ => ?_
  generalize hst : (if step = -1 then (I.var.size : Int) else step) = st
  by_cases hb : st < 0 ∨ (I.var.size : Int) < st
  · rw [if_pos hb, if_pos hb]
    exact .err _
  · have ho : ¬ ((k : Int) = (I.order : Int)) := by rw [h.order]; omega
    have hm : ¬ ((k : Int) = -1) := by omega
    rw [if_neg hb, if_neg hb, if_neg ho, if_neg ho, if_neg hm, if_neg hm, h.order]
    refine (shifted_power h st.toNat (by omega)).bind fun p p' hp => ?_
    have hsl : ∀ p : Expr ℝ, p.rows = 3 → p.slice (k : Int) 1 = .ok ⟨1, p.cols, fun i j => p.A (k + i) j, fun i => p.b (k + i)⟩ := by
      intro p hp
      unfold Expr.slice
      dsimp only
      rw [if_neg (by omega : ¬ ((1 : Int) < 0)), if_pos ⟨by omega, by omega, by omega⟩]
      rfl
    rw [hsl p hp.rows, hsl p' hp.rows']
    refine (Shifted.add (r := 1) (δ := fun _ => 0) (ε := fun _ => if k = 0 then d else 0) ⟨rfl, rfl, rfl, rfl, fun i _ => by ring⟩ ?_).mono
      fun _ _ hs => hs.congr fun i _ => zero_add _
    refine ⟨rfl, rfl, hp.cols, ?_, fun i hi => ?_⟩
    · dsimp only
      rw [hp.A]
    · obtain rfl : i = 0 := by omega
      exact hp.b k hk

theorem exprFinal_moved {d : ℝ} {I I' : Integrator ℝ} (h : AxisMoved d I I') :
    ExRel (Shifted 3 fun i => if i = 0 then d else 0) (I.expr (-1) (-1)) (I'.expr (-1) (-1)) := by
  rw [h.same]
  unfold Integrator.expr
  dsimp only
  refine (ExRel.refl (R := fun a b => a = b) (fun _ => rfl) _).bind fun _ _ _ => ?_
  rw [if_pos rfl]
  have hb : ¬ ((I.var.size : Int) < 0 ∨ (I.var.size : Int) < I.var.size) := by omega
  have ho : ¬ ((-1 : Int) = (I.order : Int)) := by omega
  have hm : (-1 : Int) = -1 := rfl
  rw [if_neg hb, if_neg hb, if_neg ho, if_neg ho, if_pos hm, if_pos hm, h.order]
  refine (shifted_power h _ (by omega)).bind fun p p' hp => ?_
  exact (Shifted.add (r := 3) (δ := fun _ => 0) ⟨rfl, rfl, rfl, rfl, fun i _ => by ring⟩ hp).mono fun _ _ hs => hs.congr fun i _ => zero_add _

/-- The LIPM with the initial position moved by `o`. -/
structure LipmMoved (o : V2) (l l' : Lipm) : Prop where
  dt : l'.dt = l.dt
  timesteps : l'.timesteps = l.timesteps
  tStart : l'.tStart = l.tStart
  x : AxisMoved o.x l.x l'.x
  y : AxisMoved o.y l.y l'.y

theorem makeLipm_moved (t0 : ℝ) (init : ComState) (o : V2) (prev prev' : Option Lipm) (hp : Option.Rel (LipmMoved o) prev prev') (n : Nat) (dt : ℝ)
    (m : Nat) (t : ℝ) :
    ExRel (fun r r' => LipmMoved o r.1 r'.1 ∧ r'.2 = r.2) (makeLipm t0 init prev n dt m t)
      (makeLipm t0 { init with pos := V2.shift init.pos o } prev' n dt m t) := by
  unfold makeLipm
  by_cases ht : t = t0
  · rw [if_pos ht, if_pos ht]
    unfold Lipm.fromState
    dsimp only
    have hi : ∀ p v a d : ℝ, Shifted 3 (fun i => if i = 0 then d else 0) (initialState p v a) (initialState (p + d) v a) := by
      intro p v a d
      refine ⟨rfl, rfl, rfl, rfl, fun i _ => ?_⟩
      show (if i = 0 then p + d else if i = 1 then v else a) = (if i = 0 then p else if i = 1 then v else a) + _
      split <;> simp
    refine (axisMoved_mk n m (hi _ _ _ _) dt t).bind fun x x' hx => ?_
    refine (axisMoved_mk (n + m) m (hi _ _ _ _) dt t).bind fun y y' hy => ?_
    exact .ok ⟨⟨rfl, rfl, rfl, hx, hy⟩, rfl⟩
  · rw [if_neg ht, if_neg ht]
    cases hp with
    | none => exact .err _
    | some h =>
      dsimp only
      unfold Lipm.fromPrevious
      dsimp only
      refine (exprFinal_moved h.x).bind fun a a' ha => ?_
      refine (axisMoved_mk n m ha dt t).bind fun x x' hx => ?_
      refine (exprFinal_moved h.y).bind fun b b' hb => ?_
      refine (axisMoved_mk (n + m) m hb dt t).bind fun y y' hy => ?_
      exact .ok ⟨⟨rfl, rfl, rfl, hx, hy⟩, rfl⟩

/-! ## Supports -/

/-- The frame moved by `o`. -/
structure FrameMoved (o : V2) (F F' : Affine) : Prop where
  linear : F'.linear = F.linear
  x : F'.translation 0 = F.translation 0 + o.x
  y : F'.translation 1 = F.translation 1 + o.y

theorem offset_frame (f : Footstep) (o : V2) : FrameMoved o f.frame (f.offset o).frame := ⟨rfl, rfl, rfl⟩

theorem planar_moved {o : V2} {F F' : Affine} (h : FrameMoved o F F') (x y : ℝ) : planar F' x y = V2.shift (planar F x y) o := by
  unfold planar V2.shift
  dsimp only
  rw [h.linear]
  simp only [Pi.add_apply, h.x, h.y, add_assoc]

theorem frameLoop_moved (slerp : M3 → M3 → ℝ → M3) (o : V2) (fs : List Footstep) : ∀ (F F' : Affine) (n : Nat), FrameMoved o F F' →
    FrameMoved o (frameLoop slerp F n fs) (frameLoop slerp F' n (fs.map (·.offset o))) := by
  induction fs with
  | nil => intro F F' n h; exact h
  | cons f fs ih =>
    intro F F' n h
    refine ih _ _ _ ⟨?_, ?_, ?_⟩
    · show slerp F'.linear (f.offset o).frame.linear _ = slerp F.linear f.frame.linear _
      rw [h.linear]
      rfl
    · show F'.translation 0 * _ + (f.offset o).frame.translation 0 * _ = F.translation 0 * _ + f.frame.translation 0 * _ + o.x
      rw [h.x, (offset_frame f o).x]; ring
    · show F'.translation 1 * _ + (f.offset o).frame.translation 1 * _ = F.translation 1 * _ + f.frame.translation 1 * _ + o.y
      rw [h.y, (offset_frame f o).y]; ring

theorem frame_moved (slerp : M3 → M3 → ℝ → M3) (o : V2) (s : Support) :
    ExRel (FrameMoved o) (s.frame slerp) ((s.applyOffset o).frame slerp) := by
  unfold Support.frame Support.applyOffset
  dsimp only
  cases s.footsteps with
  | nil => exact .err _
  | cons f fs => exact .ok (frameLoop_moved slerp o fs _ _ _ (offset_frame f o))

theorem read_offset (o : V2) (fs : List Footstep) :
    (readFootsteps (fs.map (·.offset o))).2 = (fs.flatMap (·.computePolygon 0)).map (V2.shift · o) := by
  induction fs with
  | nil => rfl
  | cons f fs ih =>
    have hf : (f.offset o).supportPolygon.2 = (f.computePolygon 0).map (V2.shift · o) := by
      unfold Footstep.supportPolygon
      rw [if_neg (by simp [Footstep.offset])]
      show (f.offset o).computePolygon 0 = _
      unfold Footstep.computePolygon
      rw [List.map_map]
      refine List.map_congr_left fun s _ => ?_
      exact planar_moved (offset_frame f o) _ _
    rw [List.map_cons, List.flatMap_cons, List.map_append, ← ih, ← hf]
    rfl

theorem polygon_moved {hull : List V2 → List V2} (hh : HullMoves hull) (o : V2) (s : Support) (hs : UpToDate hull s) :
    ((s.applyOffset o).supportPolygon hull).2 = ((s.supportPolygon hull).2).map (V2.shift · o) := by
  rw [show (s.supportPolygon hull).2 = _ from hs]
  unfold Support.supportPolygon
  rw [if_neg (by simp [Support.applyOffset])]
  show (hull (readFootsteps (s.footsteps.map (·.offset o))).2).dropLast = _
  rw [read_offset, hh, List.map_dropLast]

theorem stamped_offset (s : Support) (t : ℝ) (o : V2) : stamped (s.applyOffset o) t = (stamped s t).applyOffset o := by
  unfold stamped
  have h : (s.applyOffset o).tStart = s.tStart := rfl
  rw [h]
  split <;> rfl

theorem stamped_upToDate {hull : List V2 → List V2} {s : Support} (h : UpToDate hull s) (t : ℝ) : UpToDate hull (stamped s t) := by
  unfold stamped
  split
  · unfold UpToDate Support.supportPolygon at h ⊢
    dsimp only at h ⊢
    by_cases hc : s.computed = true
    · rw [if_pos hc] at h ⊢; exact h
    · rw [if_neg hc] at h ⊢; exact h
  · exact h

theorem isBoth_offset (s : Support) (o : V2) : (s.applyOffset o).isBoth = s.isBoth := by
  unfold Support.isBoth Support.applyOffset
  dsimp only
  rw [List.length_map]

theorem side_offset (s : Support) (o : V2) : (s.applyOffset o).side = s.side := by
  unfold Support.side Support.applyOffset
  dsimp only
  rw [List.length_map]
  cases s.footsteps <;> rfl

theorem duration_offset (g : Wpg) (s : Support) (o : V2) : g.duration (s.applyOffset o) = g.duration s := by
  unfold Wpg.duration Params.supportDuration
  rw [isBoth_offset]
  rfl

theorem timesteps_offset (g : Wpg) (s : Support) (o : V2) : g.timesteps (s.applyOffset o) = g.timesteps s := by
  unfold Wpg.timesteps Params.supportTimesteps
  rw [isBoth_offset]
  rfl

/-! ## The constraints -/

theorem zmpExpr_moved {o : V2} {l l' : Lipm} (h : LipmMoved o l l') (step : Int) (w : ℝ) :
    ExRel (Shifted 2 fun i => if i = 0 then o.x else o.y) (l.zmp step w) (l'.zmp step w) := by
  have row : ∀ {d : ℝ} {I I' : Integrator ℝ}, AxisMoved d I I' → ExRel (Shifted 1 fun _ => d) (zmpRow I step w) (zmpRow I' step w) := by
    intro d I I' h
    unfold zmpRow
    refine (expr_moved h step 0 (by omega)).bind fun a a' ha => ?_
    refine (expr_moved h step 2 (by omega)).bind fun b b' hb => ?_
    exact (ha.sub (hb.smul _)).mono fun _ _ hs => hs.congr fun i _ => by simp
  unfold Lipm.zmp
  exact (row h.x).bind fun a a' ha => (row h.y).bind fun b b' hb => .ok (ha.stack hb)

theorem component_moved {o : V2} {l l' : Lipm} (h : LipmMoved o l l') (step : Int) (k : Nat) (hk : k < 3) :
    ExRel (Shifted 2 fun i => if i = 0 then (if k = 0 then o.x else 0) else (if k = 0 then o.y else 0))
      (l.component step k) (l'.component step k) := by
  unfold Lipm.component
  exact (expr_moved h.x step k hk).bind fun a a' ha => (expr_moved h.y step k hk).bind fun b b' hb => .ok (ha.stack hb)

theorem SameRows.configure {c c' : Constr ℝ} (h : SameRows c c') (p : Problem.Priority) (w : ℝ) : SameRows (c.configureP p w) (c'.configureP p w) := by
  unfold SameRows trim Constr.configureP at *
  dsimp only at *
  injection h with h1 h2 h3 h4 h5
  rw [h1, h2, h5]

theorem SameRows.soften {c c' : Constr ℝ} (h : SameRows c c') (soft : Bool) (w : ℝ) : SameRows (softenIf soft w c) (softenIf soft w c') := by
  unfold softenIf
  split
  · exact h.configure _ _
  · exact h

theorem constrainZmp_moved (g : Wpg) (hh : HullMoves g.hull) {o : V2} {l l' : Lipm} (h : LipmMoved o l l') (s : Support)
    (hs : UpToDate g.hull s) (k : Nat) :
    ExRel (List.Forall₂ SameRows) (g.constrainZmp l s k) (g.constrainZmp l' (s.applyOffset o) k) := by
  unfold Wpg.constrainZmp
  refine (zmpExpr_moved h k g.omega2).bind fun z z' hz => ?_
  rw [polygon_moved hh o s hs, inPolygon_same hz]
  refine (ExRel.refl (R := SameRows) (fun _ => rfl) _).bind fun c c' hc => ?_
  have ho : g.zmpOffset (s.applyOffset o) = g.zmpOffset s := by
    unfold Wpg.zmpOffset
    rw [isBoth_offset, side_offset]
  rw [ho]
  refine (ExRel.refl (R := fun a b => a = b) (fun _ => rfl) _).bind fun off off' hoff => ?_
  subst hoff
  refine (frame_moved g.slerp o s).bind fun F F' hF => ?_
  refine (zmpExpr_moved h k g.omega2).bind fun y y' hy => ?_
  rw [planar_moved hF]
  refine (sameRows_eqVec hy _ _ rfl rfl fun i _ => ?_).bind fun r r' hr => .ok (.cons (hc.soften _ _) (.cons (hr.configure _ _) .nil))
  show (if i = 0 then _ + o.x else _ + o.y) = (if i = 0 then _ else _) + _
  split <;> rfl

theorem constrainEnd_moved (g : Wpg) {o : V2} {l l' : Lipm} (h : LipmMoved o l l') (s : Support) (k : Nat) :
    ExRel (List.Forall₂ SameRows) (g.constrainEnd l s k) (g.constrainEnd l' (s.applyOffset o) k) := by
  unfold Wpg.constrainEnd
  have he : (s.applyOffset o).isEnd = s.isEnd := rfl
  rw [he, h.timesteps]
  split
  · unfold Wpg.constrainStop
    refine (frame_moved g.slerp o s).bind fun F F' hF => ?_
    refine (component_moved h k 0 (by omega)).bind fun p p' hp => ?_
    refine (sameRows_eqVec hp _ _ rfl rfl fun i _ => ?_).bind fun a a' ha => ?_
    · show (if i = 0 then F'.translation 0 else F'.translation 1) = (if i = 0 then F.translation 0 else F.translation 1) + _
      rw [hF.x, hF.y]
      split <;> simp
    refine (component_moved h k 1 (by omega)).bind fun v v' hv => ?_
    refine (sameRows_eqVec hv _ _ rfl rfl fun i _ => by simp).bind fun b b' hb => ?_
    refine (component_moved h k 2 (by omega)).bind fun w w' hw => ?_
    refine (sameRows_eqVec hw _ _ rfl rfl fun i _ => by simp).bind fun c c' hc => ?_
    exact .ok (.cons (ha.soften _ _) (.cons (hb.soften _ _) (.cons (hc.soften _ _) .nil)))
  · exact .ok .nil

theorem constrainLoop_moved (g : Wpg) (hh : HullMoves g.hull) {o : V2} {l l' : Lipm} (h : LipmMoved o l l') (s : Support)
    (hs : UpToDate g.hull s) (count : Nat) : ∀ k,
    ExRel (List.Forall₂ SameRows) (g.constrainLoop l s count k) (g.constrainLoop l' (s.applyOffset o) count k) := by
  induction count with
  | zero => intro k; exact .ok .nil
  | succ count ih =>
    intro k
    have hstep : ExRel (List.Forall₂ SameRows) (g.constrainStep l s k) (g.constrainStep l' (s.applyOffset o) k) := by
      unfold Wpg.constrainStep
      exact (constrainZmp_moved g hh h s hs k).bind fun a a' ha => (constrainEnd_moved g h s k).bind fun b b' hb => .ok (List.rel_append ha hb)
    unfold Wpg.constrainLoop
    exact hstep.bind fun a a' ha => (ih (k + 1)).bind fun b b' hb => .ok (List.rel_append ha hb)

/-! ## The plan -/

/-- What the loop computes for a support that is moved. -/
structure PlannedMoved (o : V2) (p p' : Planned) : Prop where
  tStart : p'.tStart = p.tStart
  tEnd : p'.tEnd = p.tEnd
  support : p'.support = p.support.applyOffset o
  lipm : LipmMoved o p.lipm p'.lipm
  cs : List.Forall₂ SameRows p.cs p'.cs

theorem planLoop_moved (g : Wpg) (hh : HullMoves g.hull) (t0 : ℝ) (init : ComState) (o : V2) (ss : List Support) :
    ∀ (t : ℝ) (n : Nat) (prev prev' : Option Lipm), (∀ s ∈ ss, UpToDate g.hull s) → Option.Rel (LipmMoved o) prev prev' →
      ExRel (fun r r' => List.Forall₂ (PlannedMoved o) r.1 r'.1 ∧ r'.2 = r.2) (g.planLoop t0 init ss t n prev)
        (g.planLoop t0 { init with pos := V2.shift init.pos o } (ss.map (·.applyOffset o)) t n prev') := by
  induction ss with
  | nil => intro t n prev prev' _ _; exact .ok ⟨.nil, rfl⟩
  | cons s ss ih =>
    intro t n prev prev' hs hp
    rw [List.map_cons]
    unfold Wpg.planLoop
    dsimp only
    rw [duration_offset, timesteps_offset, stamped_offset]
    refine (makeLipm_moved t0 init o prev prev' hp n _ _ t).bind fun r r' hr => ?_
    have hc : ExRel (List.Forall₂ SameRows) (g.constrainLipm r.1 (stamped s t)) (g.constrainLipm r'.1 ((stamped s t).applyOffset o)) := by
      unfold Wpg.constrainLipm
      rw [hr.1.timesteps]
      exact constrainLoop_moved g hh hr.1 _ (stamped_upToDate (hs s (by simp)) t) _ 1
    refine hc.bind fun cs cs' hcs => ?_
    rw [hr.2]
    refine (ih (t + g.duration s) r.2 (some r.1) (some r'.1) (fun s hs' => hs s (by simp [hs'])) (.some hr.1)).bind fun q q' hq => ?_
    exact .ok ⟨.cons ⟨rfl, rfl, rfl, hr.1, hcs⟩ hq.1, hq.2⟩

theorem keyframes_moved (dt d : ℝ) (us : List ℝ) : ∀ X X' : Nat → ℝ, (∀ i, i < 3 → X' i = X i + if i = 0 then d else 0) →
    ∀ k i, k < us.length + 1 → i < 3 → ((keyframes 3 (jerkAB dt).1 (jerkAB dt).2 X' us).getD k fun _ => 0) i =
      ((keyframes 3 (jerkAB dt).1 (jerkAB dt).2 X us).getD k fun _ => 0) i + if i = 0 then d else 0 := by
  induction us with
  | nil =>
    intro X X' h k i hk hi
    obtain rfl : k = 0 := by simpa using hk
    exact h i hi
  | cons u us ih =>
    intro X X' h k i hk hi
    cases k with
    | zero => exact h i hi
    | succ k =>
      refine ih _ _ (fun j hj => ?_) k i (by simpa using hk) hi
      have : mvec 3 (jerkAB dt).1 X' j = mvec 3 (jerkAB dt).1 X j + if j = 0 then d else 0 := by
        unfold mvec
        rw [sum_congr rfl fun k hk => by rw [h k (mem_range.1 hk)]]
        simp only [mul_add, sum_add_distrib, mul_ite, mul_zero, sum_ite_eq', mem_range]
        rw [if_pos (by norm_num), jerkAB_col]
        split <;> simp
      rw [this]; ring

/-- The trajectory of an axis whose initial position is moved. -/
theorem value_moved {d : ℝ} {I I' : Integrator ℝ} (h : AxisMoved d I I') (sol : Nat → ℝ) (t : ℝ) (k : Nat) :
    ExRel (fun a b => b = a + if k = 0 then d else 0)
      (Trajectory.value { I.makeTrajectory sol (sliceOf I.var sol) with tStart := I.tStart } t k)
      (Trajectory.value { I'.makeTrajectory sol (sliceOf I'.var sol) with tStart := I'.tStart } t k) := by
  have hx : ∀ i, i < 3 → I'.X0.rowVal sol i = I.X0.rowVal sol i + if i = 0 then d else 0 := by
    intro i hi
    unfold Expr.rowVal
    rw [h.start.cols, h.start.A, h.start.b i hi]; ring
  have hsame := h.same
  generalize hX : I'.X0 = X' at hx hsame
  subst hsame
  unfold Integrator.makeTrajectory Trajectory.value
  dsimp only
  refine (ExRel.refl (R := fun a b => a = b) (fun _ => rfl) _).bind fun _ _ _ => ?_
  generalize hq : (if (((sliceOf I.var sol).length : Nat) : Int) ≤ (if ⌊(t - I.tStart) / I.dt⌋ < 0 then 0 else ⌊(t - I.tStart) / I.dt⌋) then
    (((sliceOf I.var sol).length : Nat) : Int) - 1 else (if ⌊(t - I.tStart) / I.dt⌋ < 0 then 0 else ⌊(t - I.tStart) / I.dt⌋)) = q
  have hle : q < ((sliceOf I.var sol).length : Nat) := by
    rw [← hq]
    split_ifs <;> omega
  by_cases h0 : q < 0
  · rw [if_pos h0, if_pos h0]
    exact .err _
  · rw [if_neg h0, if_neg h0]
    by_cases h3 : (k : Int) = (I.order : Int)
    · rw [if_pos h3, if_pos h3]
      rw [h.order] at h3
      exact .ok (by rw [if_neg (by omega), add_zero])
    · rw [if_neg h3, if_neg h3, h.order, h.built.ab, h.built.A, h.built.B]
      refine .ok ?_
      have hk := keyframes_moved I.dt d (sliceOf I.var sol) (fun i => I.X0.rowVal sol i) (fun i => X'.rowVal sol i) hx q.toNat
      unfold mvec
      rw [sum_congr rfl fun j hj => by rw [hk j (by omega) (mem_range.1 hj)]]
      simp only [mul_add, sum_add_distrib, mul_ite, mul_zero, sum_ite_eq', mem_range]
      rw [if_pos (by norm_num), jerkAB_col]
      by_cases hk0 : k = 0
      · subst hk0; simp; ring
      · simp [hk0]

theorem traj_moved {o : V2} {l l' : Lipm} (h : LipmMoved o l l') (sol : Nat → ℝ) (t : ℝ) (k : Nat) :
    ExRel (fun a b => b = if k = 0 then V2.shift a o else a) ((l.getTrajectory sol).component t k) ((l'.getTrajectory sol).component t k) := by
  unfold LTraj.component Lipm.getTrajectory
  refine (value_moved h.x sol t k).bind fun a a' ha => (value_moved h.y sol t k).bind fun b b' hb => .ok ?_
  subst ha hb
  by_cases hk : k = 0
  · simp [hk, V2.shift]
  · simp [hk]

theorem traj_deriv {o : V2} {l l' : Lipm} (h : LipmMoved o l l') (sol : Nat → ℝ) (t : ℝ) (k : Nat) (hk : k ≠ 0) :
    (l'.getTrajectory sol).component t k = (l.getTrajectory sol).component t k :=
  ((traj_moved h sol t k).mono fun a b hab => by rwa [if_neg hk] at hab).eq

theorem attach_moved (g : Wpg) (sol : Nat → ℝ) (o : V2) (p p' : Planned) (h : PlannedMoved o p p') :
    ExRel (PartMoved o) (g.attach sol p) (g.attach sol p') := by
  have hd : ExRel (fun a b => b = V2.shift a o) ((p.lipm.getTrajectory sol).dcm p.tEnd g.omega) ((p'.lipm.getTrajectory sol).dcm p'.tEnd g.omega) := by
    rw [h.tEnd]
    unfold LTraj.dcm
    refine (traj_moved h.lipm sol p.tEnd 0).bind fun a a' ha => ?_
    refine (traj_moved h.lipm sol p.tEnd 1).bind fun b b' hb => .ok ?_
    subst ha hb
    simp only [if_true, V2.shift]
    ext <;> dsimp only <;> ring
  unfold Wpg.attach
  dsimp only
  refine hd.bind fun a a' ha => .ok ?_
  subst ha
  refine ⟨h.tStart, h.tEnd, rfl, ?_, fun t => ?_, fun t => ?_, fun t => ?_, fun t => ?_⟩
  · dsimp only
    rw [h.support]
    rfl
  · exact (traj_moved h.lipm sol t 0).mono fun a b hab => by rwa [if_pos rfl] at hab
  · exact traj_deriv h.lipm sol t 1 (by omega)
  · exact traj_deriv h.lipm sol t 2 (by omega)
  · exact traj_deriv h.lipm sol t 3 (by omega)

theorem flatten_same {o : V2} {ps ps' : List Planned} (h : List.Forall₂ (PlannedMoved o) ps ps') :
    List.Forall₂ SameRows (ps.map Planned.cs).flatten (ps'.map Planned.cs).flatten := by
  induction h with
  | nil => exact .nil
  | cons h _ ih => exact List.rel_append h.cs ih

/-! ## C216 -/

/-- The supports and the initial position of the CoM are moved by the same vector: the call returns false in the same cases and otherwise the
plan is moved by this vector, at all times; velocities, accelerations and jerks are the same. This does not assume anything of the QP
solver nor of the QR factorisation: they are given the same numbers. -/
theorem C216 (g : Wpg) (hh : HullMoves g.hull) (t0 : ℝ) (ss : List Support) (hs : ∀ s ∈ ss, UpToDate g.hull s) (init : ComState) (o : V2) :
    ExRel (PlanMoved o) (g.planCom t0 ss init)
      (g.planCom t0 (ss.map (·.applyOffset o)) { init with pos := V2.shift init.pos o }) := by
  unfold Wpg.planCom
  refine (planLoop_moved g hh t0 init o ss t0 0 none none hs .none).bind fun r r' hr => ?_
  rw [hr.2, solveQP_same g r.2.1 _ _ (flatten_same hr.1)]
  cases g.solveQP r.2.1 (r.1.map Planned.cs).flatten with
  | error e =>
    cases e <;> first | exact .err _ | exact .ok trivial
  | ok sol =>
    dsimp only
    exact (ExRel.mapM (attach_moved g sol o) hr.1).bind fun a b hab => .ok ⟨hab, rfl⟩

/-- The ZMP and the DCM of the parts are moved too. -/
theorem C216_zmp {o : V2} {p p' : Part} (h : PartMoved o p p') (t w : ℝ) :
    ExRel (fun a b => b = V2.shift a o) (p.com.zmp t w) (p'.com.zmp t w) ∧
      ExRel (fun a b => b = V2.shift a o) (p.com.dcm t w) (p'.com.dcm t w) := by
  constructor
  · unfold LTraj.zmp
    rw [h.acc]
    refine (h.pos t).bind fun a a' ha => (ExRel.refl (R := fun a b => a = b) (fun _ => rfl) _).bind fun b b' hb => .ok ?_
    subst ha hb
    unfold V2.shift
    ext <;> dsimp only <;> ring
  · unfold LTraj.dcm
    rw [h.vel]
    refine (h.pos t).bind fun a a' ha => (ExRel.refl (R := fun a b => a = b) (fun _ => rfl) _).bind fun b b' hb => .ok ?_
    subst ha hb
    unfold V2.shift
    ext <;> dsimp only <;> ring

/-- The polygon of a support is up to date when it was never read. -/
theorem C216_fresh (hull : List V2 → List V2) (s : Support) (h : s.computed = false) (hf : ∀ f ∈ s.footsteps, f.computed = false) :
    UpToDate hull s := by
  have hr : ∀ fs : List Footstep, (∀ f ∈ fs, f.computed = false) → (readFootsteps fs).2 = fs.flatMap (·.computePolygon 0) := by
    intro fs
    induction fs with
    | nil => intro _; rfl
    | cons f fs ih =>
      intro hf
      have h1 : f.supportPolygon.2 = f.computePolygon 0 := by
        unfold Footstep.supportPolygon
        rw [if_neg (by rw [hf f (by simp)]; simp)]
      show f.supportPolygon.2 ++ (readFootsteps fs).2 = _
      rw [h1, ih fun f hf' => hf f (by simp [hf']), List.flatMap_cons]
  unfold UpToDate Support.supportPolygon
  rw [if_neg (by rw [h]; simp)]
  show (hull (readFootsteps s.footsteps).2).dropLast = _
  rw [hr _ hf]

/-- The ring of points that is closed (the hull of the corners of one footstep) moves with the points. -/
example : HullMoves fun l => l ++ l.take 1 := by
  intro o l
  simp

/-- Supports that meet the hypothesis: a double support and a single one of a walk. -/
example (hull : List V2 → List V2) (A B : Affine) :
    ∀ s ∈ [({ footsteps := [⟨1, 2, .left, A, [], false⟩, ⟨1, 2, .right, B, [], false⟩], start := true } : Support),
      { footsteps := [⟨1, 2, .left, A, [], false⟩] }], UpToDate hull s := by
  intro s hs
  refine C216_fresh hull s ?_ ?_ <;> simp at hs <;> rcases hs with rfl | rfl <;> simp

end Verif.Humanoid
