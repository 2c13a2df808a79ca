/-
Helper lemmas: what a successful assembly of the QP means.
-/
import Verif.Problem.ProblemQPLemmas

namespace Verif.Problem
open Finset

section
variable {K : Type} [Field K]

/-- What a successful assembly means, field by field. -/
structure Assembled [LinearOrder K] (s : Settings K) (qr : Nat → EqSt K → QR K) (cs : List (Constr K))
    (qp : QP K) : Prop where
  ok : ∀ c ∈ cs, c.expr.cols ≤ s.n ∧ 0 < c.expr.rows ∧ c.brows = c.expr.rows
  red : qp.red = if s.rewriteEqualities && decide (0 < nEqualities cs) then
    some (reduction (qr (nEqualities cs) (equalities cs)) (equalities cs).b) else none
  rank : (s.rewriteEqualities && decide (0 < nEqualities cs)) = true →
    (qr (nEqualities cs) (equalities cs)).rank = nEqualities cs
  free : qp.free = match qp.red with | some r => s.n - r.d | none => s.n
  slack : qp.slack = nSlack cs
  nEq : qp.nEq = if s.rewriteEqualities && decide (0 < nEqualities cs) then 0 else nEqualities cs
  eqCols : qp.eqCols = if s.rewriteEqualities && decide (0 < nEqualities cs) then 0 else s.n
  Aeq : qp.Aeq = (equalities cs).A
  beq : qp.beq = (equalities cs).b
  nIneq : qp.nIneq = nInequalities cs
  st : ∃ Pq st, Pq = cs.foldl (objStep s.n qp.red s.useSparsity s.eps) (regP qp.free s.regularization, fun _ => 0) ∧
    st = cs.foldl (ineqStep s.n qp.red qp.free (qp.free + qp.slack)) (ineqInit qp.free qp.slack Pq.1 Pq.2) ∧
    qp.P = st.P ∧ qp.q = st.q ∧ qp.G = st.G ∧ qp.h = st.h ∧ qp.hardMap = st.hardMap ∧ qp.softMap = st.softMap

theorem mapM_check_ok (n : Nat) : ∀ (cs : List (Constr K)) (u : List Unit), cs.mapM (checkConstr n) = .ok u →
    ∀ c ∈ cs, c.expr.cols ≤ n ∧ 0 < c.expr.rows ∧ c.brows = c.expr.rows := by
  intro cs
  induction cs with
  | nil => intro u _ c hc; simp at hc
  | cons a l ih =>
    intro u h c hc
    rw [List.mapM_cons] at h
    cases h1 : checkConstr n a with
    | error e => rw [h1] at h; cases h
    | ok x =>
      rw [h1] at h
      cases h2 : l.mapM (checkConstr n) with
      | error e => rw [h2] at h; cases h
      | ok y =>
        rcases List.mem_cons.1 hc with rfl | hc
        · unfold checkConstr at h1
          split at h1
          · cases h1
          · split at h1
            · cases h1
            · split at h1
              · cases h1
              · omega
        · exact ih y h2 c hc

theorem assembled_of_ok [LinearOrder K] {s : Settings K} {qr : Nat → EqSt K → QR K} {cs : List (Constr K)}
    {qp : QP K} (h : assemble s qr cs = .ok qp) : Assembled s qr cs qp := by
  unfold assemble at h
  split at h
  · cases h
  · simp only at h
    split at h
    · cases h
    · rename_i hr
      split at h
      · cases h
      · rename_i u hu
        have hok := mapM_check_ok s.n cs u hu
        cases h
        refine ⟨hok, rfl, ?_, rfl, rfl, rfl, rfl, rfl, rfl, rfl, ⟨_, _, rfl, rfl, rfl, rfl, rfl, rfl, rfl, rfl⟩⟩
        intro h1
        rw [h1] at hr
        simpa using hr

/-- The contract assumed of the QR factorisation for this problem (only when it
is used). -/
def QRContract (s : Settings K) (qr : Nat → EqSt K → QR K) (cs : List (Constr K)) : Prop :=
  (s.rewriteEqualities && decide (0 < nEqualities cs)) = true →
  IsQR s.n (nEqualities cs) (equalities cs).A (qr (nEqualities cs) (equalities cs))

theorem Assembled.d_le [LinearOrder K] {s : Settings K} {qr : Nat → EqSt K → QR K} {cs : List (Constr K)}
    {qp : QP K} (A : Assembled s qr cs qp) (hqr : QRContract s qr cs) : ∀ r, qp.red = some r → r.d ≤ s.n := by
  intro r hr
  rw [A.red] at hr
  split at hr
  · rename_i hc
    cases hr; exact (hqr hc).rank_le
  · cases hr

theorem Assembled.cols_le [LinearOrder K] {s : Settings K} {qr : Nat → EqSt K → QR K} {cs : List (Constr K)}
    {qp : QP K} (A : Assembled s qr cs qp) : ∀ c ∈ cs, (reduceExpr s.n qp.red c.expr).cols ≤ qp.free := by
  intro c hc
  rw [A.free]
  exact reduce_cols s.n qp.red c.expr (A.ok c hc).1

/-- Value of a reduced row. -/
theorem Assembled.rowVal [LinearOrder K] {s : Settings K} {qr : Nat → EqSt K → QR K} {cs : List (Constr K)}
    {qp : QP K} (A : Assembled s qr cs qp) (hqr : QRContract s qr cs) (c : Constr K) (hc : c ∈ cs) (v : Nat → K)
    (i : Nat) : (reduceExpr s.n qp.red c.expr).rowVal v i = c.expr.rowVal (qp.recover s.n v) i := by
  rw [recover_eq]
  exact reduce_rowVal s.n qp.red (A.d_le hqr) c.expr (A.ok c hc).1 v i

/-- Slack variable of row `i` of constraint number `ci`. -/
def slackOf (qp : QP K) (cs : List (Constr K)) (v : Nat → K) (ci i : Nat) : K :=
  v (qp.free + nSlack (cs.take ci) + i)

/-- Cost of one soft constraint for a QP point: `s i` is the slack of row `i`. -/
def softTerm (x : Nat → K) (s : Nat → K) (c : Constr K) : K :=
  match c.priority, c.ty with
  | .hard, _ => 0
  | .soft, .equality => ∑ i ∈ range c.expr.rows, c.weight * c.expr.rowVal x i ^ 2
  | .soft, .inequality => ∑ i ∈ range c.expr.rows, c.weight * (c.expr.rowVal x i - s i) ^ 2

theorem softCost_eq (n : Nat) (red : Option (Red K)) (x v : Nat → K) (cs : List (Constr K))
    (h : ∀ c ∈ cs, ∀ i, (reduceExpr n red c.expr).rowVal v i = c.expr.rowVal x i) :
    softCost n red cs v = (cs.map fun c => if c.softEq then
        ∑ i ∈ range c.expr.rows, c.weight * c.expr.rowVal x i ^ 2 else 0).sum
      - (cs.map fun c => if c.softEq then
        ∑ i ∈ range c.expr.rows, c.weight * (reduceExpr n red c.expr).b i ^ 2 else 0).sum := by
  unfold softCost
  induction cs with
  | nil => simp
  | cons c cs ih =>
    simp only [List.map_cons, List.sum_cons]
    rw [ih fun c' h' => h c' (by simp [h'])]
    have hc := h c (by simp)
    by_cases hs : c.softEq = true
    · simp only [hs, if_true, hc]
      have : ∑ i ∈ range c.expr.rows, c.weight * (c.expr.rowVal x i ^ 2 - (reduceExpr n red c.expr).b i ^ 2)
          = (∑ i ∈ range c.expr.rows, c.weight * c.expr.rowVal x i ^ 2)
            - ∑ i ∈ range c.expr.rows, c.weight * (reduceExpr n red c.expr).b i ^ 2 := by
        rw [← sum_sub_distrib]; exact sum_congr rfl fun i _ => by ring
      rw [this]; ring
    · simp only [if_neg hs]; ring

theorem slackCost_eq (n : Nat) (red : Option (Red K)) (x v : Nat → K) (cs : List (Constr K)) (free : Nat)
    (h : ∀ c ∈ cs, ∀ i, (reduceExpr n red c.expr).rowVal v i = c.expr.rowVal x i) :
    slackCost n red free cs v
      = (cs.mapIdx fun ci c => if c.softIneq then
        ∑ i ∈ range c.expr.rows, c.weight * (c.expr.rowVal x i - v (free + nSlack (cs.take ci) + i)) ^ 2 else 0).sum
      - (cs.map fun c => if c.softIneq then
        ∑ i ∈ range c.expr.rows, c.weight * (reduceExpr n red c.expr).b i ^ 2 else 0).sum := by
  induction cs generalizing free with
  | nil => simp [slackCost]
  | cons c cs ih =>
    simp only [List.map_cons, List.sum_cons, List.mapIdx_cons, slackCost]
    rw [ih _ fun c' h' => h c' (by simp [h'])]
    have hc := h c (by simp)
    have hrest : (cs.mapIdx fun ci c' => if c'.softIneq then
          ∑ i ∈ range c'.expr.rows, c'.weight * (c'.expr.rowVal x i
            - v (free + (if c.softIneq then c.expr.rows else 0) + nSlack (cs.take ci) + i)) ^ 2 else 0)
        = cs.mapIdx fun ci c' => if c'.softIneq then
          ∑ i ∈ range c'.expr.rows, c'.weight * (c'.expr.rowVal x i
            - v (free + nSlack ((c :: cs).take (ci + 1)) + i)) ^ 2 else 0 := by
      congr 1
      funext ci c'
      have : free + nSlack ((c :: cs).take (ci + 1))
          = free + (if c.softIneq then c.expr.rows else 0) + nSlack (cs.take ci) := by
        simp [nSlack]; omega
      rw [this]
    rw [hrest]
    by_cases hs : c.softIneq = true
    · simp only [hs, if_true, hc]
      have : ∑ i ∈ range c.expr.rows, c.weight * ((c.expr.rowVal x i - v (free + i)) ^ 2 - (reduceExpr n red c.expr).b i ^ 2)
          = (∑ i ∈ range c.expr.rows, c.weight * (c.expr.rowVal x i - v (free + i)) ^ 2)
            - ∑ i ∈ range c.expr.rows, c.weight * (reduceExpr n red c.expr).b i ^ 2 := by
        rw [← sum_sub_distrib]; exact sum_congr rfl fun i _ => by ring
      rw [this]
      simp only [List.take_zero, nSlack, List.map_nil, List.sum_nil, add_zero]
      ring
    · simp only [if_neg hs]; ring

theorem sum_map_add_mapIdx {α : Type} (l : List α) (f : α → K) (g : Nat → α → K) :
    (l.map f).sum + (l.mapIdx g).sum = (l.mapIdx fun i a => f a + g i a).sum := by
  induction l generalizing g with
  | nil => simp
  | cons a l ih =>
    simp only [List.map_cons, List.sum_cons, List.mapIdx_cons]
    rw [← ih]; ring

/-- The constant dropped by the QP. -/
def QP.dropped (s : Settings K) (cs : List (Constr K)) (qp : QP K) : K :=
  (match qp.red with | some r => s.regularization * ∑ i ∈ range r.d, r.y i ^ 2 | none => 0)
  + (cs.map fun c => if c.softEq then
        ∑ i ∈ range c.expr.rows, c.weight * (reduceExpr s.n qp.red c.expr).b i ^ 2 else 0).sum
  + (cs.map fun c => if c.softIneq then
        ∑ i ∈ range c.expr.rows, c.weight * (reduceExpr s.n qp.red c.expr).b i ^ 2 else 0).sum

theorem reg_eq [LinearOrder K] {s : Settings K} {qr : Nat → EqSt K → QR K} {cs : List (Constr K)}
    {qp : QP K} (A : Assembled s qr cs qp) (hqr : QRContract s qr cs) (v : Nat → K) :
    ∑ j ∈ range qp.free, s.regularization * v j ^ 2
      = s.regularization * (∑ j ∈ range s.n, qp.recover s.n v j ^ 2)
        - (match qp.red with | some r => s.regularization * ∑ i ∈ range r.d, r.y i ^ 2 | none => 0) := by
  rw [recover_eq, A.free]
  have hred := A.red
  by_cases hr : (s.rewriteEqualities && decide (0 < nEqualities cs)) = true
  · rw [if_pos hr] at hred
    rw [hred]
    simp only [point]
    rw [point_norm (hqr hr)]
    have hd : (reduction (qr (nEqualities cs) (equalities cs)) (equalities cs).b).d
      = (qr (nEqualities cs) (equalities cs)).rank := rfl
    rw [hd, ← mul_sum]; ring
  · rw [if_neg hr] at hred
    rw [hred]
    simp only [point]
    rw [← mul_sum]; ring

theorem recover_congr (qp : QP K) (n : Nat) (v v' : Nat → K)
    (hf : qp.free = match qp.red with | some r => n - r.d | none => n)
    (h : ∀ k, k < qp.free → v k = v' k) : ∀ i, i < n → qp.recover n v i = qp.recover n v' i := by
  intro i hi
  unfold QP.recover
  cases hr : qp.red with
  | none =>
    rw [hr] at hf
    exact h i (by rw [hf]; exact hi)
  | some r =>
    rw [hr] at hf
    refine sum_congr rfl fun k hk => ?_
    have hk := mem_range.1 hk
    by_cases hkd : k < r.d
    · rw [if_pos hkd, if_pos hkd]
    · rw [if_neg hkd, if_neg hkd, h (k - r.d) (by rw [hf]; show k - r.d < n - r.d; omega)]

/-- The optimal slack of every soft inequality row, in order. -/
def bestSlacks [LinearOrder K] (x : Nat → K) (cs : List (Constr K)) : List K :=
  cs.flatMap fun c => if c.softIneq then (List.range c.expr.rows).map fun i => max 0 (c.expr.rowVal x i) else []

theorem bestSlacks_getD [LinearOrder K] (x : Nat → K) (cs : List (Constr K)) (ci i : Nat) (c : Constr K)
    (h : cs[ci]? = some c) (hc : c.softIneq = true) (hi : i < c.expr.rows) :
    (bestSlacks x cs).getD (nSlack (cs.take ci) + i) 0 = max 0 (c.expr.rowVal x i) := by
  induction cs generalizing ci with
  | nil => simp at h
  | cons a l ih =>
    cases ci with
    | zero =>
      simp only [List.getElem?_cons_zero, Option.some.injEq] at h
      subst h
      simp only [bestSlacks, List.flatMap_cons, hc, if_true, List.take_zero, nSlack, List.map_nil, List.sum_nil,
        zero_add]
      simp [List.getD, List.getElem?_append_left, hi]
    | succ ci =>
      have := ih ci (by simpa using h)
      have hb : bestSlacks x (a :: l)
          = (if a.softIneq then (List.range a.expr.rows).map fun i => max 0 (a.expr.rowVal x i) else [])
            ++ bestSlacks x l := by
        simp [bestSlacks]
      have hn : nSlack ((a :: l).take (ci + 1)) + i
          = (if a.softIneq then (List.range a.expr.rows).map fun i => max 0 (a.expr.rowVal x i) else []).length
            + (nSlack (l.take ci) + i) := by
        by_cases ha : a.softIneq = true
        · simp [nSlack, ha]; omega
        · simp [nSlack, ha]
      rw [hb, hn, ← this]
      generalize (if a.softIneq = true then (List.range a.expr.rows).map fun i => max 0 (a.expr.rowVal x i)
        else []) = l1
      unfold List.getD
      rw [List.getElem?_append_right (Nat.le_add_right _ _), Nat.add_sub_cancel_left]

theorem bestSlacks_nonneg [LinearOrder K] (x : Nat → K) (cs : List (Constr K)) (k : Nat) :
    0 ≤ (bestSlacks x cs).getD k 0 := by
  unfold List.getD
  cases h : (bestSlacks x cs)[k]? with
  | none => exact le_refl _
  | some a =>
    have hm := List.mem_of_getElem? h
    unfold bestSlacks at hm
    rw [List.mem_flatMap] at hm
    obtain ⟨c, _, hc⟩ := hm
    split at hc
    · rw [List.mem_map] at hc
      obtain ⟨i, _, rfl⟩ := hc
      exact le_max_left _ _
    · simp at hc

theorem nHard_owner (l : List (Constr K)) (r : Nat) (hr : r < nHard l) :
    ∃ i c j, l[i]? = some c ∧ c.hardIneq = true ∧ j < c.expr.rows ∧ r = nHard (l.take i) + j := by
  induction l using List.reverseRecOn with
  | nil => simp [nHard] at hr
  | append_singleton l c ih =>
    by_cases hlt : r < nHard l
    · obtain ⟨i, c', j, h1, h2, h3, h4⟩ := ih hlt
      exact ⟨i, c', j, getElem?_append_left' h1, h2, h3, by rw [take_append_of_getElem? h1]; exact h4⟩
    · rw [nHard_append] at hr
      by_cases hc : c.hardIneq = true
      · rw [if_pos hc] at hr
        exact ⟨l.length, c, r - nHard l, by simp, hc, by omega, by simp; omega⟩
      · rw [if_neg hc] at hr; omega

theorem sum_mapIdx_le {α : Type} [LinearOrder K] [IsStrictOrderedRing K] (l : List α) (f g : Nat → α → K)
    (h : ∀ i a, l[i]? = some a → f i a ≤ g i a) : (l.mapIdx f).sum ≤ (l.mapIdx g).sum := by
  induction l generalizing f g with
  | nil => simp
  | cons a l ih =>
    simp only [List.mapIdx_cons, List.sum_cons]
    exact add_le_add (h 0 a (by simp)) (ih _ _ fun i b hb => h (i + 1) b (by simpa using hb))

theorem sum_mapIdx_congr {α : Type} (l : List α) (f g : Nat → α → K)
    (h : ∀ i a, l[i]? = some a → f i a = g i a) : (l.mapIdx f).sum = (l.mapIdx g).sum := by
  induction l generalizing f g with
  | nil => simp
  | cons a l ih =>
    simp only [List.mapIdx_cons, List.sum_cons]
    rw [h 0 a (by simp), ih _ _ fun i b hb => h (i + 1) b (by simpa using hb)]

theorem _root_.List.mapIdx_eq_map_const {α β : Type} (l : List α) (f : α → β) : (l.mapIdx fun _ a => f a) = l.map f := by
  induction l with
  | nil => rfl
  | cons a l ih => simp [List.mapIdx_cons, ih]

theorem specCost_congr [LinearOrder K] (n : Nat) (reg : K) (cs : List (Constr K)) (x x' : Nat → K)
    (hc : ∀ c ∈ cs, c.expr.cols ≤ n) (h : ∀ k, k < n → x k = x' k) : specCost n reg cs x = specCost n reg cs x' := by
  unfold specCost
  congr 1
  · congr 1
    exact sum_congr rfl fun j hj => by rw [h j (mem_range.1 hj)]
  · congr 1
    refine List.map_congr_left fun c hcm => ?_
    have hv : ∀ i, c.expr.rowVal x i = c.expr.rowVal x' i :=
      fun i => Expr.rowVal_congr (fun j hj => h j (lt_of_lt_of_le hj (hc c hcm))) i
    unfold softPenalty
    cases c.priority <;> cases c.ty <;> simp only [hv]

end
end Verif.Problem
