/-
Property C131: the hard equalities of a solution, whatever the QP solver returns.
-/
import Verif.Problem.ProblemSolveProps

namespace Verif.Problem
open Finset

variable {K : Type} [Field K] [LinearOrder K]

/-- The rows of the stacked system are those of the hard equalities. -/
theorem stacked_rows (n : Nat) (cs : List (Constr K)) (hcols : ∀ c ∈ cs, c.expr.cols ≤ n) (x : Nat → K) (Q : K → Prop) :
    (∀ r, r < nEqualities cs → Q ((∑ j ∈ range n, (equalities cs).A r j * x j) + (equalities cs).b r)) ↔
      ∀ c ∈ cs, c.hardEq = true → ∀ i, i < c.expr.rows → Q (c.expr.rowVal x i) := by
  obtain ⟨_, _, i3, i4⟩ := equalities_inv cs
  have key : ∀ i c j, cs[i]? = some c → c.hardEq = true → j < c.expr.rows →
      (∑ t ∈ range n, (equalities cs).A (nEqualities (cs.take i) + j) t * x t)
        + (equalities cs).b (nEqualities (cs.take i) + j) = c.expr.rowVal x j := by
    intro i c j hi hc hj
    obtain ⟨h1, h2⟩ := i3 i c hi hc j hj
    rw [Expr.rowVal_pad c.expr n (hcols c (List.mem_of_getElem? hi)), h2]
    congr 1
    exact sum_congr rfl fun t _ => by rw [h1 t]
  constructor
  · intro h c hc hce j hj
    obtain ⟨i, hi⟩ := List.getElem?_of_mem hc
    rw [← key i c j hi hce hj]
    have hle := nEqualities_take_le cs i c hi hce
    exact h _ (by omega)
  · intro h r hr
    obtain ⟨i, c, j, h1, h2, h3, rfl⟩ := i4 r hr
    rw [key i c j h1 h2 h3]
    exact h c (List.mem_of_getElem? h1) h2 j h3

/-- The point that `solve` stores in the variables, on the coordinates below `n`: without elimination it is the answer of the QP solver. -/
theorem recover_plain {s : Settings K} {qr : Nat → EqSt K → QR K} {cs : List (Constr K)} {qp : QP K} (A : Assembled s qr cs qp)
    (hr : ¬ (s.rewriteEqualities && decide (0 < nEqualities cs)) = true) (v : Nat → K) : qp.recover s.n v = v := by
  have hred := A.red
  rw [if_neg hr] at hred
  rw [recover_eq, hred]
  rfl

variable [IsStrictOrderedRing K]

/-- **C131.** Whatever the QP solver returns: when `solve` succeeds, the values written in the variables satisfy every row of every hard
equality up to the tolerance, exactly when the equalities were eliminated. When they were not, an answer that violates a row by more
than the tolerance, on either side, is rejected and the variables keep their values. -/
theorem C131 (s : Settings K) (qr : Nat → EqSt K → QR K) (oracle : QP K → QPResult K) (tol : K) (htol : 0 ≤ tol) (cs : List (Constr K))
    (hqr : QRContract s qr cs) (st : PState K) :
    ((solve s qr oracle tol cs st).2 = .ok () → ∃ x : Nat → K,
      (∀ (i : Nat) (v : VarState K), st.vars[i]? = some v → ∃ v' : VarState K, (solve s qr oracle tol cs st).1.vars[i]? = some v' ∧
        Updated x v v') ∧
      (∀ c ∈ cs, c.ty = .equality → c.priority = .hard → ∀ i, i < c.expr.rows → |c.expr.rowVal x i| ≤ tol) ∧
      (s.rewriteEqualities = true → ∀ c ∈ cs, c.ty = .equality → c.priority = .hard → ∀ i, i < c.expr.rows → c.expr.rowVal x i = 0)) ∧
    (∀ qp, s.rewriteEqualities = false → assemble s qr cs = .ok qp → qp.dimMismatch = false →
      (∃ c ∈ cs, c.ty = .equality ∧ c.priority = .hard ∧ ∃ i, i < c.expr.rows ∧ tol < |c.expr.rowVal (oracle qp).x i|) →
      (solve s qr oracle tol cs st).2 = .error .qpError ∧ (solve s qr oracle tol cs st).1.vars = st.vars) := by
  have hE : ∀ c : Constr K, c.ty = .equality → c.priority = .hard → c.hardEq = true := by
    intro c h1 h2; simp [Constr.hardEq, h1, h2]
  constructor
  · intro hok
    have eff : ∃ qp, assemble s qr cs = .ok qp ∧ (∀ r, r < qp.nEq →
          |(∑ j ∈ range s.n, qp.Aeq r j * qp.recover s.n (oracle qp).x j) + qp.beq r| ≤ tol) ∧
        (∀ (i : Nat) (v : VarState K), st.vars[i]? = some v → ∃ v' : VarState K, (solve s qr oracle tol cs st).1.vars[i]? = some v' ∧
          Updated (qp.recover s.n (oracle qp).x) v v') := by
      rcases C16_solve_effect s qr oracle tol cs st with ⟨e, h, -⟩ | ⟨-, qp, hq, -, -, -, hv⟩
      · rw [h] at hok; cases hok
      · refine ⟨qp, hq, ?_, hv⟩
        unfold solve at hok
        rw [hq] at hok
        simp only at hok
        split at hok
        · cases hok
        split at hok
        · cases hok
        split at hok
        · cases hok
        rename_i hchk
        simp only [List.any_eq_true, List.mem_range, Bool.or_eq_true, decide_eq_true_eq, not_exists, not_and, not_or, not_lt] at hchk
        intro r hr
        obtain ⟨h1, h2⟩ := hchk r hr
        exact abs_le.2 ⟨by linarith, h1⟩
    obtain ⟨qp, hq, hchk, hv⟩ := eff
    have A := assembled_of_ok hq
    have hcols : ∀ c ∈ cs, c.expr.cols ≤ s.n := fun c hc => (A.ok c hc).1
    by_cases hr : (s.rewriteEqualities && decide (0 < nEqualities cs)) = true
    · have hred := A.red
      rw [if_pos hr] at hred
      have hex : ∀ c ∈ cs, c.hardEq = true → ∀ i, i < c.expr.rows → c.expr.rowVal (qp.recover s.n (oracle qp).x) i = 0 := by
        have := (elimination (b := (equalities cs).b) (hqr hr) (A.rank hr) (qp.recover s.n (oracle qp).x)).2
          ⟨(oracle qp).x, fun k hk => by rw [recover_eq, hred]; simp [point]⟩
        exact (stacked_rows s.n cs hcols _ (fun v => v = 0)).1 this
      refine ⟨_, hv, fun c hc h1 h2 i hi => ?_, fun _ c hc h1 h2 i hi => hex c hc (hE c h1 h2) i hi⟩
      rw [hex c hc (hE c h1 h2) i hi, abs_zero]
      exact htol
    · have hn := A.nEq
      rw [if_neg hr] at hn
      rw [hn, A.Aeq, A.beq] at hchk
      have hall := (stacked_rows s.n cs hcols _ (fun v => |v| ≤ tol)).1 hchk
      refine ⟨_, hv, fun c hc h1 h2 i hi => hall c hc (hE c h1 h2) i hi, fun hrw c hc h1 h2 i hi => ?_⟩
      exfalso
      obtain ⟨k, hk⟩ := List.getElem?_of_mem hc
      have hle := nEqualities_take_le cs k c hk (hE c h1 h2)
      exact hr (by simp only [hrw, Bool.true_and, decide_eq_true_eq]; omega)
  · rintro qp hrw hq hdim ⟨c, hc, h1, h2, i, hi, hv⟩
    have A := assembled_of_ok hq
    have hcols : ∀ c ∈ cs, c.expr.cols ≤ s.n := fun c hc => (A.ok c hc).1
    have hr : ¬ (s.rewriteEqualities && decide (0 < nEqualities cs)) = true := by simp [hrw]
    have hn := A.nEq
    rw [if_neg hr] at hn
    have hbad : ((List.range qp.nEq).any fun k =>
        decide (tol < (∑ j ∈ range s.n, qp.Aeq k j * qp.recover s.n (oracle qp).x j) + qp.beq k) ||
        decide (tol < -((∑ j ∈ range s.n, qp.Aeq k j * qp.recover s.n (oracle qp).x j) + qp.beq k))) = true := by
      by_contra hno
      simp only [List.any_eq_true, List.mem_range, Bool.or_eq_true, decide_eq_true_eq, not_exists, not_and, not_or, not_lt] at hno
      rw [hn, A.Aeq, A.beq, recover_plain A hr] at hno
      have := (stacked_rows s.n cs hcols (oracle qp).x (fun v => |v| ≤ tol)).1
        (fun r hr => abs_le.2 ⟨by linarith [(hno r hr).2], (hno r hr).1⟩) c hc (hE c h1 h2) i hi
      exact absurd hv (not_lt.2 this)
    unfold solve
    rw [hq]
    simp only [hdim, Bool.false_eq_true, if_false]
    rw [if_pos hbad]
    split <;> exact ⟨rfl, rfl⟩

/-- Both parts occur: an answer that satisfies `x0 = 3`, and one that violates it from below, without elimination. -/
example : (solve (demoSettings false) idQR (fun _ => ⟨false, fun _ => 3, false, []⟩) (1 / 1000000) [demoEq] ⟨[⟨⟨0, 2⟩, 0, []⟩], []⟩).2
    = .ok () ∧
    (solve (demoSettings false) idQR (fun _ => ⟨false, fun _ => 2, false, []⟩) (1 / 1000000) [demoEq] ⟨[⟨⟨0, 2⟩, 0, []⟩], []⟩).2
    = .error .qpError := by
  constructor <;> decide +kernel

end Verif.Problem
