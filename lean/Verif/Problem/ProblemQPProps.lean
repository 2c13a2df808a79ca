/-
Properties C06, C08, C09, C10, C13, C14, C15, C20: the quadratic program built
by `Problem::solve` is the documented optimisation problem.
-/
import Verif.Problem.ProblemAssembled

namespace Verif.Problem
open Finset

section
variable {K : Type} [Field K]

/-- **C09.** With dense accumulation, the objective handed to the QP solver is,
up to a constant independent of the unknowns, the sum of the regularisation
`reg * |x|²` over the *original* variables, the weighted squared residual of
every soft equality and the weighted squared slack-corrected residual of every
soft inequality, each slack variable being used by exactly its own row. -/
theorem C09_objective [LinearOrder K] (s : Settings K) (qr : Nat → EqSt K → QR K) (cs : List (Constr K)) (qp : QP K)
    (hqr : QRContract s qr cs) (hs : s.useSparsity = false) (h : assemble s qr cs = .ok qp) :
    ∃ const, ∀ v, qp.cost v =
      s.regularization * (∑ j ∈ range s.n, qp.recover s.n v j ^ 2)
      + (cs.mapIdx fun ci c => softTerm (qp.recover s.n v) (slackOf qp cs v ci) c).sum + const := by
  have A := assembled_of_ok h
  refine ⟨-(qp.dropped s cs), fun v => ?_⟩
  obtain ⟨Pq, st, hPq, hst, hP, hq, -⟩ := A.st
  unfold QP.cost
  rw [hP, hq, hst, ineq_quad s.n qp.red qp.free (qp.free + qp.slack) cs _ v A.cols_le
    (by simp [ineqInit, A.slack])]
  simp only [ineqInit, add_zero]
  rw [hPq, hs, obj_quad s.n qp.red s.eps (qp.free + qp.slack) cs _ v
    (fun c hc => le_trans (A.cols_le c hc) (Nat.le_add_right _ _))]
  rw [quad_reg _ _ _ _ (Nat.le_add_right _ _), reg_eq A hqr,
    softCost_eq s.n qp.red (qp.recover s.n v) v cs (fun c hc i => A.rowVal hqr c hc v i),
    slackCost_eq s.n qp.red (qp.recover s.n v) v cs qp.free (fun c hc i => A.rowVal hqr c hc v i)]
  have hmerge := sum_map_add_mapIdx cs
    (fun c => if c.softEq then ∑ i ∈ range c.expr.rows, c.weight * c.expr.rowVal (qp.recover s.n v) i ^ 2 else 0)
    (fun ci c => if c.softIneq then ∑ i ∈ range c.expr.rows,
      c.weight * (c.expr.rowVal (qp.recover s.n v) i - v (qp.free + nSlack (cs.take ci) + i)) ^ 2 else 0)
  have hterm : (cs.mapIdx fun ci c => softTerm (qp.recover s.n v) (slackOf qp cs v ci) c)
      = cs.mapIdx fun ci c => (if c.softEq then ∑ i ∈ range c.expr.rows, c.weight * c.expr.rowVal (qp.recover s.n v) i ^ 2 else 0)
        + (if c.softIneq then ∑ i ∈ range c.expr.rows,
      c.weight * (c.expr.rowVal (qp.recover s.n v) i - v (qp.free + nSlack (cs.take ci) + i)) ^ 2 else 0) := by
    congr 1
    funext ci c
    unfold softTerm slackOf
    cases h1 : c.ty <;> cases h2 : c.priority <;> simp [Constr.softEq, Constr.softIneq, h1, h2]
  rw [hterm, ← hmerge]
  unfold QP.dropped
  ring

/-- **C13 (row ownership).** Row `slack + (rows of earlier hard inequalities) + j`
of the inequality system is row `j` of that hard inequality, evaluated at the
recovered point; the first `slack` rows are the slack variables. -/
theorem C13_row_ownership [LinearOrder K] (s : Settings K) (qr : Nat → EqSt K → QR K) (cs : List (Constr K)) (qp : QP K)
    (hqr : QRContract s qr cs) (h : assemble s qr cs = .ok qp) (v : Nat → K) :
    (∀ k, k < qp.slack → (∑ j ∈ range (qp.free + qp.slack), qp.G k j * v j) + qp.h k = v (qp.free + k)) ∧
    (∀ ci c, cs[ci]? = some c → c.hardIneq = true → ∀ j, j < c.expr.rows →
      (∑ t ∈ range (qp.free + qp.slack), qp.G (qp.slack + nHard (cs.take ci) + j) t * v t)
        + qp.h (qp.slack + nHard (cs.take ci) + j) = c.expr.rowVal (qp.recover s.n v) j) := by
  have A := assembled_of_ok h
  obtain ⟨Pq, st, hPq, hst, hP, hq, hG, hh, -⟩ := A.st
  have I := ineq_inv s.n qp.red qp.free qp.slack (qp.free + qp.slack) Pq.1 Pq.2 cs
  rw [← hst] at I
  rw [hG, hh]
  refine ⟨fun k hk => ?_, fun ci c hci hc j hj => ?_⟩
  · obtain ⟨h1, h2⟩ := I.slackRows k hk
    rw [h2, add_zero, sum_congr rfl fun j _ => by rw [h1 j, ite_mul, one_mul, zero_mul]]
    rw [sum_ite_eq' (range (qp.free + qp.slack)), if_pos (mem_range.2 (by omega))]
  · obtain ⟨h1, h2⟩ := I.hardRows ci c hci hc j hj
    have hm := List.mem_of_getElem? hci
    rw [h2, ← A.rowVal hqr c hm v j,
      Expr.rowVal_pad _ (qp.free + qp.slack) (le_trans (A.cols_le c hm) (Nat.le_add_right _ _))]
    congr 1
    exact sum_congr rfl fun t _ => by rw [h1 t]

/-- **C13.** A point satisfies the inequality system handed to the QP solver iff
its slack variables are non-negative and every row of every hard inequality is
non-negative at the recovered point. -/
theorem C13_hard_inequalities [LinearOrder K] (s : Settings K) (qr : Nat → EqSt K → QR K) (cs : List (Constr K))
    (qp : QP K) (hqr : QRContract s qr cs) (h : assemble s qr cs = .ok qp) (v : Nat → K) :
    (∀ r, r < qp.nIneq → 0 ≤ (∑ j ∈ range (qp.free + qp.slack), qp.G r j * v j) + qp.h r) ↔
      (∀ k, k < qp.slack → 0 ≤ v (qp.free + k)) ∧
      ∀ c ∈ cs, c.ty = .inequality → c.priority = .hard → c.Sat (qp.recover s.n v) := by
  have A := assembled_of_ok h
  obtain ⟨o1, o2⟩ := C13_row_ownership s qr cs qp hqr h v
  have hn : qp.nIneq = qp.slack + nHard cs := by rw [A.nIneq, nInequalities_eq, A.slack]
  constructor
  · intro hr
    refine ⟨fun k hk => ?_, fun c hc hty hp => ?_⟩
    · rw [← o1 k hk]; exact hr k (by omega)
    · obtain ⟨ci, hci⟩ := List.getElem?_of_mem hc
      have hh : c.hardIneq = true := by simp [Constr.hardIneq, hty, hp]
      unfold Constr.Sat
      rw [hty]
      intro j hj
      show 0 ≤ c.expr.rowVal (qp.recover s.n v) j
      rw [← o2 ci c hci hh j hj]
      have := nHard_take_le cs ci c hci hh
      exact hr _ (by omega)
  · rintro ⟨h1, h2⟩ r hr
    by_cases hk : r < qp.slack
    · rw [o1 r hk]; exact h1 r hk
    · obtain ⟨ci, c, j, hci, hc, hj, hrj⟩ := nHard_owner cs (r - qp.slack) (by omega)
      have hr' : r = qp.slack + nHard (cs.take ci) + j := by omega
      rw [hr', o2 ci c hci hc j hj]
      have hty : c.ty = .inequality ∧ c.priority = .hard := by simpa [Constr.hardIneq] using hc
      have := h2 c (List.mem_of_getElem? hci) hty.1 hty.2
      unfold Constr.Sat at this
      rw [hty.1] at this
      exact this j hj

/-- **C15.** Whatever the value of `rewrite_equalities`, the points recovered
from QP-feasible points are exactly the points satisfying every hard
constraint: eliminating the equalities loses no solution and adds none. -/
theorem C15_equalities_lossless [LinearOrder K] (s : Settings K) (qr : Nat → EqSt K → QR K)
    (cs : List (Constr K)) (qp : QP K) (hqr : QRContract s qr cs) (h : assemble s qr cs = .ok qp) (x : Nat → K) :
    (∃ v, qp.Feasible v ∧ ∀ k, k < s.n → x k = qp.recover s.n v k) ↔ HardSat cs x := by
  have A := assembled_of_ok h
  have hcols : ∀ c ∈ cs, c.expr.cols ≤ s.n := fun c hc => (A.ok c hc).1
  have hsat : ∀ c ∈ cs, ∀ x x' : Nat → K, (∀ k, k < s.n → x k = x' k) → c.Sat x → c.Sat x' := by
    intro c hc x x' hx hs
    unfold Constr.Sat at hs ⊢
    have hv : ∀ i, c.expr.rowVal x i = c.expr.rowVal x' i :=
      fun i => Expr.rowVal_congr (fun j hj => hx j (lt_of_lt_of_le hj (hcols c hc))) i
    cases hty : c.ty <;> rw [hty] at hs <;> intro i hi <;> have := hs i hi <;> simpa [← hv i] using this
  have hineq := C13_hard_inequalities s qr cs qp hqr h
  -- equalities
  have heq : ∀ x : Nat → K, (∃ v, (∀ r, r < qp.nEq → (∑ j ∈ range qp.eqCols, qp.Aeq r j * v j) + qp.beq r = 0) ∧
      ∀ k, k < s.n → x k = qp.recover s.n v k) ↔ ∀ c ∈ cs, c.hardEq = true → c.Sat x := by
    intro x
    rw [← equalities_iff s.n cs hcols x]
    simp only [recover_eq]
    by_cases hr : (s.rewriteEqualities && decide (0 < nEqualities cs)) = true
    · have hred := A.red
      have hn := A.nEq
      rw [if_pos hr] at hred hn
      rw [hn, hred]
      rw [elimination (hqr hr) (A.rank hr) x]
      simp [point]
    · have hred := A.red
      have hn := A.nEq
      have he := A.eqCols
      rw [if_neg hr] at hred hn he
      rw [hn, hred, he, A.Aeq, A.beq]
      simp only [point]
      constructor
      · rintro ⟨v, h1, h2⟩ r hr
        rw [← h1 r hr]
        congr 1
        exact sum_congr rfl fun j hj => by rw [h2 j (mem_range.1 hj)]
      · intro h1
        exact ⟨x, h1, fun _ _ => rfl⟩
  have hprio : ∀ c : Constr K, c.priority = .hard → (c.hardEq = true ∨ c.hardIneq = true) := by
    intro c hc
    cases h1 : c.ty <;> simp [Constr.hardEq, Constr.hardIneq, h1, hc]
  constructor
  · rintro ⟨v, ⟨hf1, hf2⟩, hx⟩ c hc hp
    rcases hprio c hp with he | hi
    · exact (heq x).1 ⟨v, hf1, hx⟩ c hc he
    · have hty : c.ty = .inequality := by
        simp only [Constr.hardIneq, Bool.and_eq_true, decide_eq_true_eq] at hi
        exact hi.1
      exact hsat c hc _ _ (fun k hk => (hx k hk).symm) (((hineq v).1 hf2).2 c hc hty hp)
  · intro hs
    obtain ⟨v, hv1, hv2⟩ := (heq x).2 fun c hc he => hs c hc (by
      simp only [Constr.hardEq, Bool.and_eq_true, decide_eq_true_eq] at he; exact he.2)
    -- give non-negative values to the slack variables
    refine ⟨fun k => if k < qp.free then v k else 0, ⟨?_, ?_⟩, ?_⟩
    · intro r hr
      refine Eq.trans ?_ (hv1 r hr)
      congr 1
      refine sum_congr rfl fun j hj => ?_
      have hfree : qp.eqCols ≤ qp.free := by
        rw [A.eqCols, A.free, A.red]
        split
        · omega
        · exact le_refl _
      show qp.Aeq r j * (if j < qp.free then v j else 0) = _
      rw [if_pos (lt_of_lt_of_le (mem_range.1 hj) hfree)]
    · rw [hineq]
      refine ⟨fun k _ => ?_, fun c hc hty hp => ?_⟩
      · rw [if_neg (by omega)]
      · refine hsat c hc _ _ (fun k hk => ?_) (hs c hc hp)
        rw [hv2 k hk]
        exact recover_congr qp s.n _ _ A.free (fun k hk => by rw [if_pos hk]) k hk
    · intro k hk
      rw [hv2 k hk]
      exact recover_congr qp s.n _ _ A.free (fun k hk => by rw [if_pos hk]) k hk

section Ordered
variable [LinearOrder K] [IsStrictOrderedRing K]

theorem softTerm_ge (x : Nat → K) (sl : Nat → K) (c : Constr K) (hs : c.softIneq = true → ∀ i, i < c.expr.rows → 0 ≤ sl i)
    (hw : c.softIneq = true → 0 ≤ c.weight) : softPenalty x c ≤ softTerm x sl c := by
  unfold softPenalty softTerm
  cases h2 : c.priority <;> cases h1 : c.ty <;> simp only [le_refl]
  have hsi : c.softIneq = true := by simp [Constr.softIneq, h1, h2]
  refine sum_le_sum fun i hi => mul_le_mul_of_nonneg_left ?_ (hw hsi)
  have h0 := hs hsi i (mem_range.1 hi)
  unfold violation
  split
  · rw [zero_pow (by norm_num)]; positivity
  · rename_i hneg
    have hneg : c.expr.rowVal x i < 0 := not_le.1 hneg
    nlinarith

theorem softTerm_best (x : Nat → K) (sl : Nat → K) (c : Constr K)
    (hs : c.softIneq = true → ∀ i, i < c.expr.rows → sl i = max 0 (c.expr.rowVal x i)) :
    softTerm x sl c = softPenalty x c := by
  unfold softPenalty softTerm
  cases h2 : c.priority <;> cases h1 : c.ty <;> simp only
  have hsi : c.softIneq = true := by simp [Constr.softIneq, h1, h2]
  refine sum_congr rfl fun i hi => ?_
  rw [hs hsi i (mem_range.1 hi)]
  unfold violation
  split
  · rename_i h; rw [max_eq_right h]; ring
  · rename_i h; rw [max_eq_left (le_of_lt (not_le.1 h))]; ring

/-- **C14.** Soft inequalities cost exactly the weighted squared violation: over
all slack values allowed by the QP, the cost at a point `x` is bounded below by
the documented cost (where a satisfied row contributes nothing and a violated
one contributes `w * violation²`), and that bound is attained without moving `x`. -/
theorem C14_soft_inequalities (s : Settings K) (qr : Nat → EqSt K → QR K) (cs : List (Constr K)) (qp : QP K)
    (hqr : QRContract s qr cs) (hs : s.useSparsity = false) (h : assemble s qr cs = .ok qp)
    (hw : ∀ c ∈ cs, c.priority = .soft → c.ty = .inequality → 0 ≤ c.weight) :
    ∃ const,
      (∀ v, qp.Feasible v → specCost s.n s.regularization cs (qp.recover s.n v) + const ≤ qp.cost v) ∧
      (∀ v, qp.Feasible v → ∃ v', qp.Feasible v' ∧ (∀ k, k < s.n → qp.recover s.n v' k = qp.recover s.n v k) ∧
        qp.cost v' = specCost s.n s.regularization cs (qp.recover s.n v) + const) := by
  obtain ⟨const, hc⟩ := C09_objective s qr cs qp hqr hs h
  have A := assembled_of_ok h
  have hineq := C13_hard_inequalities s qr cs qp hqr h
  have hw' : ∀ c ∈ cs, c.softIneq = true → 0 ≤ c.weight := by
    intro c hc hsi
    have : c.ty = .inequality ∧ c.priority = .soft := by simpa [Constr.softIneq] using hsi
    exact hw c hc this.2 this.1
  refine ⟨const, fun v hv => ?_, fun v hv => ?_⟩
  · rw [hc v]
    unfold specCost
    have hpos := ((hineq v).1 hv.2).1
    have : (cs.map (softPenalty (qp.recover s.n v))).sum
        ≤ (cs.mapIdx fun ci c => softTerm (qp.recover s.n v) (slackOf qp cs v ci) c).sum := by
      rw [← List.mapIdx_eq_map_const]
      refine sum_mapIdx_le cs _ _ fun ci c hci => softTerm_ge _ _ _ (fun hsi i hi => ?_) (hw' c (List.mem_of_getElem? hci))
      unfold slackOf
      have := nSlack_take_le cs ci c hci hsi
      have := hpos (nSlack (cs.take ci) + i) (by rw [A.slack]; omega)
      rwa [← Nat.add_assoc] at this
    linarith
  · let x := qp.recover s.n v
    let v' : Nat → K := fun k => if k < qp.free then v k else (bestSlacks x cs).getD (k - qp.free) 0
    have hrec : ∀ k, k < s.n → qp.recover s.n v' k = qp.recover s.n v k :=
      recover_congr qp s.n _ _ A.free (fun k hk => by show (if k < qp.free then _ else _) = _; rw [if_pos hk])
    have hrow : ∀ c ∈ cs, ∀ i, c.expr.rowVal (qp.recover s.n v') i = c.expr.rowVal (qp.recover s.n v) i :=
      fun c hc i => Expr.rowVal_congr (fun j hj => hrec j (lt_of_lt_of_le hj (A.ok c hc).1)) i
    refine ⟨v', ⟨fun r hr => ?_, ?_⟩, hrec, ?_⟩
    · rw [← hv.1 r hr]
      congr 1
      refine sum_congr rfl fun j hj => ?_
      have hfree : qp.eqCols ≤ qp.free := by
        rw [A.eqCols, A.free, A.red]
        split
        · omega
        · exact le_refl _
      show qp.Aeq r j * (if j < qp.free then _ else _) = _
      rw [if_pos (lt_of_lt_of_le (mem_range.1 hj) hfree)]
    · rw [hineq]
      refine ⟨fun k _ => ?_, fun c hc hty hp => ?_⟩
      · show 0 ≤ (if qp.free + k < qp.free then _ else _)
        rw [if_neg (by omega)]
        exact bestSlacks_nonneg _ _ _
      · have := ((hineq v).1 hv.2).2 c hc hty hp
        unfold Constr.Sat at this ⊢
        rw [hty] at this ⊢
        intro j hj
        have h1 := this j hj
        have h2 := hrow c hc j
        exact h2 ▸ h1
    · rw [hc v']
      unfold specCost
      congr 1
      congr 1
      · congr 1
        exact sum_congr rfl fun j hj => by rw [hrec j (mem_range.1 hj)]
      · rw [← List.mapIdx_eq_map_const]
        refine sum_mapIdx_congr cs _ _ fun ci c hci => ?_
        rw [softTerm_best]
        · unfold softPenalty
          cases h2 : c.priority <;> cases h1 : c.ty <;> simp only
          · exact sum_congr rfl fun i _ => by rw [hrow c (List.mem_of_getElem? hci) i]
          · exact sum_congr rfl fun i _ => by rw [hrow c (List.mem_of_getElem? hci) i]
        · intro hsi i hi
          show (if _ < qp.free then _ else _) = _
          rw [if_neg (by omega)]
          rw [hrow c (List.mem_of_getElem? hci) i]
          rw [← bestSlacks_getD x cs ci i c hci hsi hi]
          congr 1; omega

/-- **C14/C15 (optimum).** An optimal point of the QP gives an optimal point of
the documented problem. -/
theorem C15_optimum (s : Settings K) (qr : Nat → EqSt K → QR K) (cs : List (Constr K)) (qp : QP K)
    (hqr : QRContract s qr cs) (hs : s.useSparsity = false) (h : assemble s qr cs = .ok qp)
    (hw : ∀ c ∈ cs, c.priority = .soft → c.ty = .inequality → 0 ≤ c.weight) (v : Nat → K)
    (hv : qp.Feasible v) (hopt : ∀ v', qp.Feasible v' → qp.cost v ≤ qp.cost v') :
    HardSat cs (qp.recover s.n v) ∧
      ∀ x, HardSat cs x → specCost s.n s.regularization cs (qp.recover s.n v) ≤ specCost s.n s.regularization cs x := by
  obtain ⟨const, h1, h2⟩ := C14_soft_inequalities s qr cs qp hqr hs h hw
  have A := assembled_of_ok h
  refine ⟨(C15_equalities_lossless s qr cs qp hqr h _).1 ⟨v, hv, fun _ _ => rfl⟩, fun x hx => ?_⟩
  obtain ⟨u, hu, hxu⟩ := (C15_equalities_lossless s qr cs qp hqr h x).2 hx
  obtain ⟨u', hu', hru, hcu⟩ := h2 u hu
  have hx' : specCost s.n s.regularization cs x = specCost s.n s.regularization cs (qp.recover s.n u) :=
    specCost_congr s.n s.regularization cs x _ (fun c hc => (A.ok c hc).1) hxu
  have := h1 v hv
  have := hopt u' hu'
  rw [hx']
  linarith

/-- **C20.** The order in which constraints were added is irrelevant: an optimum
of the QP built from any permutation of the constraints is an optimum of the
documented problem for the original order. -/
theorem C20_order_independence (s : Settings K) (qr : Nat → EqSt K → QR K) (cs cs' : List (Constr K))
    (hperm : cs.Perm cs') (qp' : QP K)
    (hqr' : QRContract s qr cs') (hs : s.useSparsity = false) (h' : assemble s qr cs' = .ok qp')
    (hw : ∀ c ∈ cs, c.priority = .soft → c.ty = .inequality → 0 ≤ c.weight) :
    (∀ x, (∃ v, qp'.Feasible v ∧ ∀ k, k < s.n → x k = qp'.recover s.n v k) ↔ HardSat cs x) ∧
    (∀ x, specCost s.n s.regularization cs' x = specCost s.n s.regularization cs x) ∧
    (∀ v, qp'.Feasible v → (∀ v', qp'.Feasible v' → qp'.cost v ≤ qp'.cost v') →
      HardSat cs (qp'.recover s.n v) ∧ ∀ x, HardSat cs x →
        specCost s.n s.regularization cs (qp'.recover s.n v) ≤ specCost s.n s.regularization cs x) := by
  have hh : ∀ x, HardSat cs' x ↔ HardSat cs x := fun x =>
    ⟨fun H c hc => H c (hperm.mem_iff.1 hc), fun H c hc => H c (hperm.mem_iff.2 hc)⟩
  have hcost : ∀ x, specCost s.n s.regularization cs' x = specCost s.n s.regularization cs x := by
    intro x
    unfold specCost
    rw [(hperm.symm.map (softPenalty x)).sum_eq]
  refine ⟨fun x => ?_, hcost, fun v hv hopt => ?_⟩
  · rw [← hh x]; exact C15_equalities_lossless s qr cs' qp' hqr' h' x
  · obtain ⟨h1, h2⟩ := C15_optimum s qr cs' qp' hqr' hs h' (fun c hc => hw c (hperm.mem_iff.2 hc)) v hv hopt
    refine ⟨(hh _).1 h1, fun x hx => ?_⟩
    rw [← hcost, ← hcost]
    exact h2 x ((hh x).2 hx)

end Ordered

end
end Verif.Problem
