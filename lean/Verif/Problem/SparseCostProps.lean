/-
Complements to C10 and C12: which columns share a detected interval, and the exact objective of the QP assembled with
`use_sparsity`.
-/
import Verif.Problem.ProblemMiscProps

namespace Verif.Problem
open Finset

section
variable {K : Type} [Field K] [LinearOrder K]

/-! ## The detected intervals are the maximal runs of non-zero columns -/

theorem addInterval_last (start stop : Int) (h : start ≤ stop) : ∀ l : List Interval, (∀ o ∈ l, o.start ≤ o.stop ∧ o.stop < start) →
    Sparsity.addInterval start stop l = l ++ [⟨start, stop⟩] := by
  intro l
  induction l with
  | nil => intro _; rfl
  | cons o l ih =>
    intro hl
    obtain ⟨h1, h2⟩ := hl o (by simp)
    have c1 : o.contains start = false := by
      simp only [Interval.contains, Bool.and_eq_false_iff, decide_eq_false_iff_not]; right; omega
    have c2 : o.contains stop = false := by
      simp only [Interval.contains, Bool.and_eq_false_iff, decide_eq_false_iff_not]; right; omega
    unfold Sparsity.addInterval
    rw [if_neg (by omega : ¬ stop < o.start), c1, c2]
    simp only [Bool.false_and, Bool.false_eq_true, if_false]
    rw [if_pos (by omega : start > o.start), ih fun o' ho' => hl o' (by simp [ho'])]
    rfl

/-- Between two intervals there is at least one index. -/
def Apart (l : List Interval) : Prop := l.Pairwise fun a b => a.stop + 1 < b.start

theorem detect_apart_inv (eps : K) (M : Mat K) (n : Nat) :
    let st := (List.range n).foldl (Sparsity.detectStep eps M) ([], none)
    Apart st.1 ∧ (∀ o ∈ st.1, o.start ≤ o.stop) ∧
    (match st.2 with
      | none => ∀ o ∈ st.1, o.stop + 1 < n
      | some last => last < n ∧ ∀ o ∈ st.1, o.stop + 1 < last) := by
  induction n with
  | zero => simp [Apart]
  | succ n ih =>
    simp only [List.range_succ, List.foldl_append, List.foldl_cons, List.foldl_nil]
    simp only at ih
    generalize (List.range n).foldl (Sparsity.detectStep eps M) ([], none) = st at ih ⊢
    obtain ⟨l, last⟩ := st
    simp only at ih
    obtain ⟨ha, hs, hl⟩ := ih
    unfold Sparsity.detectStep
    by_cases hz : Sparsity.colIsZero eps M n = true
    · rw [if_pos hz]
      cases last with
      | none =>
        refine ⟨ha, hs, fun o ho => ?_⟩
        have := hl o ho
        push_cast
        omega
      | some last =>
        obtain ⟨hlt, hl⟩ := hl
        have e : Sparsity.addInterval (last : Int) ((n : Int) - 1) l = l ++ [⟨(last : Int), (n : Int) - 1⟩] :=
          addInterval_last _ _ (by omega) l fun o ho => ⟨hs o ho, by have := hl o ho; omega⟩
        simp only [e]
        refine ⟨?_, ?_, ?_⟩
        · refine List.pairwise_append.2 ⟨ha, List.pairwise_singleton _ _, fun a h b hb => ?_⟩
          rw [List.mem_singleton] at hb
          subst hb
          exact hl a h
        · intro o ho
          rcases List.mem_append.1 ho with h | h
          · exact hs o h
          · rw [List.mem_singleton] at h; subst h; show (last : Int) ≤ (n : Int) - 1; omega
        · intro o ho
          rcases List.mem_append.1 ho with h | h
          · have := hl o h; push_cast; omega
          · rw [List.mem_singleton] at h; subst h; show (n : Int) - 1 + 1 < ((n + 1 : Nat) : Int); push_cast; omega
    · rw [if_neg hz]
      cases last with
      | none => exact ⟨ha, hs, by simp, fun o ho => hl o ho⟩
      | some last => exact ⟨ha, hs, Nat.lt_succ_of_lt hl.1, hl.2⟩

theorem detect_apart (eps : K) (M : Mat K) : Apart (Sparsity.detectColumns eps M) := by
  have inv := detect_apart_inv eps M M.cols
  unfold Sparsity.detectColumns
  simp only at inv ⊢
  generalize (List.range M.cols).foldl (Sparsity.detectStep eps M) ([], none) = st at inv
  obtain ⟨l, last⟩ := st
  obtain ⟨ha, hs, hl⟩ := inv
  cases last with
  | none => exact ha
  | some last =>
    obtain ⟨hlt, hl⟩ := hl
    show Apart (Sparsity.addInterval (last : Int) ((M.cols : Int) - 1) l)
    rw [addInterval_last _ _ (by omega) l fun o ho => ⟨hs o ho, by have := hl o ho; omega⟩]
    refine List.pairwise_append.2 ⟨ha, List.pairwise_singleton _ _, fun a h b hb => ?_⟩
    rw [List.mem_singleton] at hb
    subst hb
    exact hl a h

/-- **C12 (runs).** Two columns are in the same detected interval exactly when no column from one to the other is numerically
zero: the intervals are the maximal runs of non-zero columns. -/
theorem C12_runs (eps : K) (e : Expr K) (r c : Nat) (hrc : r ≤ c) :
    SameInterval eps e r c ↔ c < e.cols ∧ ∀ j, r ≤ j → j ≤ c → ¬ ColZero eps ⟨e.rows, e.cols, e.A⟩ j := by
  have hd := C12_detect_columns eps ⟨e.rows, e.cols, e.A⟩
  have ha := detect_apart eps ⟨e.rows, e.cols, e.A⟩
  constructor
  · rintro ⟨o, ho, hr, hc⟩
    rw [C11.contains_iff] at hr hc
    refine ⟨?_, fun j h1 h2 => ?_⟩
    · obtain ⟨j, hj, hlt, -⟩ := (hd.2 c).1 ⟨o, ho, hc⟩
      have : j = c := by exact_mod_cast hj
      subst this
      exact hlt
    · obtain ⟨j', hj, -, hz⟩ := (hd.2 j).1 ⟨o, ho, by omega, by omega⟩
      have : j' = j := by exact_mod_cast hj
      subst this
      exact hz
  · rintro ⟨hc, hz⟩
    have cov : ∀ j : Nat, r ≤ j → j ≤ c → covers (Sparsity.detectColumns eps ⟨e.rows, e.cols, e.A⟩) (j : Int) :=
      fun j h1 h2 => (hd.2 j).2 ⟨j, rfl, show j < e.cols by omega, hz j h1 h2⟩
    obtain ⟨o, ho, h1, h2⟩ := cov r le_rfl hrc
    refine ⟨o, ho, (C11.contains_iff _ _).2 ⟨h1, h2⟩, (C11.contains_iff _ _).2 ⟨by omega, ?_⟩⟩
    by_contra hn
    have hb : r ≤ (o.stop + 1).toNat ∧ (o.stop + 1).toNat ≤ c ∧ (((o.stop + 1).toNat : Nat) : Int) = o.stop + 1 := by omega
    obtain ⟨o', ho', h3, h4⟩ := cov (o.stop + 1).toNat hb.1 hb.2.1
    rw [hb.2.2] at h3 h4
    have key : ∀ l : List Interval, Apart l → (∀ a ∈ l, a.start ≤ a.stop) → o ∈ l → o' ∈ l → False := by
      intro l
      induction l with
      | nil => intro _ _ h _; simp at h
      | cons a l ih =>
        intro hp hw m1 m2
        have hp' := List.pairwise_cons.1 hp
        rcases List.mem_cons.1 m1 with e1 | m1' <;> rcases List.mem_cons.1 m2 with e2 | m2'
        · rw [← e1] at e2
          rw [e2] at h4
          omega
        · have := hp'.1 o' m2'
          rw [← e1] at this
          omega
        · have := hp'.1 o m1'
          rw [← e2] at this
          have := hw o (by simp [m1'])
          omega
        · exact ih hp'.2 (fun b hb => hw b (by simp [hb])) m1' m2'
    exact key _ ha hd.1.1 ho ho'

theorem SameInterval.symm {eps : K} {e : Expr K} {r c : Nat} (h : SameInterval eps e r c) : SameInterval eps e c r := by
  obtain ⟨o, ho, hr, hc⟩ := h
  exact ⟨o, ho, hc, hr⟩

/-! ## The objective with `use_sparsity` -/

open Classical in
/-- Specification: what the sparse accumulation leaves out of the weighted squared residual of a soft equality: the products of
columns separated by a numerically zero column. -/
noncomputable def lost (eps w : K) (e : Expr K) (v : Nat → K) : K :=
  ∑ r ∈ range e.cols, ∑ c ∈ range e.cols,
    if SameInterval eps e r c then 0 else w * (∑ i ∈ range e.rows, e.A i r * e.A i c) * (v r * v c)

theorem quad_sparse (eps : K) (N : Nat) (P : Nat → Nat → K) (q v : Nat → K) (w : K) (e : Expr K) (h : e.cols ≤ N) :
    quad N (addSparse eps P w e) q v = quad N (addDense P w e) q v - lost eps w e v := by
  classical
  have hS : ∀ r c, r < N → c < N → addDense P w e r c = addSparse eps P w e r c +
      (if r < e.cols ∧ c < e.cols then
        (if SameInterval eps e r c then 0 else w * ∑ i ∈ range e.rows, e.A i r * e.A i c) else 0) := by
    intro r c hr hc
    rw [C10_sparse_entry]
    unfold addDense
    by_cases hs : SameInterval eps e r c
    · have hin : r < e.cols ∧ c < e.cols := by
        rcases le_total r c with hle | hle
        · have := ((C12_runs eps e r c hle).1 hs).1
          exact ⟨lt_of_le_of_lt hle this, this⟩
        · have := ((C12_runs eps e c r hle).1 hs.symm).1
          exact ⟨this, lt_of_le_of_lt hle this⟩
      rw [if_pos hs, if_pos hin, if_pos hin, if_pos hs, add_zero]
    · rw [if_neg hs, if_neg hs, add_zero]
  have e1 := quad_congr (v := v) (q := q) (q' := q) hS fun _ _ => rfl
  have e2 := quad_add N (addSparse eps P w e) (fun r c => if r < e.cols ∧ c < e.cols then
        (if SameInterval eps e r c then 0 else w * ∑ i ∈ range e.rows, e.A i r * e.A i c) else 0) q (fun _ => 0) v
  simp only [add_zero] at e2
  rw [e1, e2]
  have e3 : quad N (fun r c => if r < e.cols ∧ c < e.cols then
        (if SameInterval eps e r c then 0 else w * ∑ i ∈ range e.rows, e.A i r * e.A i c) else 0) (fun _ => 0) v = lost eps w e v := by
    unfold quad lost
    simp only [zero_mul, sum_const_zero, mul_zero, add_zero]
    rw [← sum_subset (range_subset_range.2 h)]
    · refine sum_congr rfl fun r hr => ?_
      rw [← sum_subset (range_subset_range.2 h)]
      · refine sum_congr rfl fun c hc => ?_
        rw [if_pos ⟨mem_range.1 hr, mem_range.1 hc⟩]
        by_cases hs : SameInterval eps e r c
        · rw [if_pos hs, if_pos hs]; ring
        · rw [if_neg hs, if_neg hs]; ring
      · intro c _ hc
        rw [if_neg (fun hh => hc (mem_range.2 hh.2))]; ring
    · intro r _ hr
      refine sum_eq_zero fun c _ => ?_
      rw [if_neg (fun hh => hr (mem_range.2 hh.1))]; ring
  rw [e3]
  ring

/-- The sum of what is left out, over the soft equalities. -/
noncomputable def lostSum (eps : K) (n : Nat) (red : Option (Red K)) (l : List (Constr K)) (v : Nat → K) : K :=
  (l.map fun c => if c.softEq then lost eps c.weight (reduceExpr n red c.expr) v else 0).sum

theorem obj_quad_sparse (n : Nat) (red : Option (Red K)) (eps : K) (N : Nat) (l : List (Constr K))
    (Pq : (Nat → Nat → K) × (Nat → K)) (v : Nat → K)
    (hcols : ∀ c ∈ l, (reduceExpr n red c.expr).cols ≤ N) :
    quad N (l.foldl (objStep n red true eps) Pq).1 (l.foldl (objStep n red true eps) Pq).2 v
      = quad N Pq.1 Pq.2 v + softCost n red l v - lostSum eps n red l v := by
  induction l generalizing Pq with
  | nil => simp [softCost, lostSum]
  | cons c l ih =>
    rw [List.foldl_cons, ih _ fun c' h => hcols c' (by simp [h])]
    unfold objStep
    by_cases hs : c.softEq = true
    · rw [if_pos hs]
      simp only [if_true]
      rw [quad_sparse eps N _ _ v _ _ (hcols c (by simp)), quad_dense N _ _ v _ _ (hcols c (by simp))]
      simp only [softCost, lostSum, List.map_cons, List.sum_cons, hs, if_true, reduceExpr_rows]
      ring
    · rw [if_neg hs]
      simp only [softCost, lostSum, List.map_cons, List.sum_cons, if_neg hs, zero_add]

theorem ineqInit_congr (n : Nat) (red : Option (Red K)) (free N slack : Nat) : ∀ (l : List (Constr K)) (st st' : IneqSt K),
    st.ci = st'.ci → st.k = st'.k → st.kSlack = st'.kSlack → st.G = st'.G → st.h = st'.h →
    (l.foldl (ineqStep n red free N) st).G = (l.foldl (ineqStep n red free N) st').G ∧
      (l.foldl (ineqStep n red free N) st).h = (l.foldl (ineqStep n red free N) st').h := by
  intro l
  induction l with
  | nil => intro st st' _ _ _ h4 h5; exact ⟨h4, h5⟩
  | cons c l ih =>
    intro st st' h1 h2 h3 h4 h5
    rw [List.foldl_cons, List.foldl_cons]
    apply ih
    all_goals
      unfold ineqStep
      by_cases a : c.ty = .inequality
      · by_cases b : c.priority = .hard
        · simp [a, b, h1, h2, h3, h4, h5]
        · simp [a, b, h1, h2, h3, h4, h5]
      · simp [a, h1, h2, h3, h4, h5]

/-- **C10 (exact objective).** Whatever the constraints, `use_sparsity` leaves the feasible set, the change of variables and the
linear terms as they are, and subtracts from the objective, for every soft equality, the products of the columns that are separated
by a zero column. -/
theorem C10_exact (s : Settings K) (qr : Nat → EqSt K → QR K) (cs : List (Constr K)) (qp : QP K)
    (hqp : assemble { s with useSparsity := true } qr cs = .ok qp) :
    ∃ qp', assemble { s with useSparsity := false } qr cs = .ok qp' ∧
      (∀ v, qp.Feasible v ↔ qp'.Feasible v) ∧ (∀ v, qp.recover s.n v = qp'.recover s.n v) ∧
      ∀ v, qp.cost v = qp'.cost v - lostSum s.eps s.n qp.red cs v := by
  have A := assembled_of_ok hqp
  have ex : ∃ qp', assemble { s with useSparsity := false } qr cs = .ok qp' := by
    unfold assemble at hqp ⊢
    split at hqp
    · cases hqp
    · rename_i h1
      rw [if_neg (by exact h1)]
      simp only at hqp ⊢
      split at hqp
      · cases hqp
      · rename_i h2
        rw [if_neg (by exact h2)]
        split at hqp
        · cases hqp
        · exact ⟨_, rfl⟩
  obtain ⟨qp', h'⟩ := ex
  have B := assembled_of_ok h'
  have hred : qp'.red = qp.red := by rw [A.red, B.red]
  have hfree : qp'.free = qp.free := by rw [A.free, B.free, hred]
  have hslack : qp'.slack = qp.slack := by rw [A.slack, B.slack]
  obtain ⟨Pq, st, hPq, hst, hP, hq, hG, hh, -⟩ := A.st
  obtain ⟨Pq', st', hPq', hst', hP', hq', hG', hh', -⟩ := B.st
  refine ⟨qp', h', fun v => ?_, fun v => ?_, fun v => ?_⟩
  · unfold QP.Feasible
    have g := ineqInit_congr s.n qp.red qp.free (qp.free + qp.slack) qp.slack cs (ineqInit qp.free qp.slack Pq.1 Pq.2)
      (ineqInit qp.free qp.slack Pq'.1 Pq'.2) rfl rfl rfl rfl rfl
    have e1 : qp.G = qp'.G := by rw [hG, hG', hst, hst', hred, hfree, hslack]; exact g.1
    have e2 : qp.h = qp'.h := by rw [hh, hh', hst, hst', hred, hfree, hslack]; exact g.2
    rw [e1, e2, A.nEq, B.nEq, A.eqCols, B.eqCols, A.Aeq, B.Aeq, A.beq, B.beq, A.nIneq, B.nIneq, hfree, hslack]
  · unfold QP.recover
    rw [hred]
  · unfold QP.cost
    rw [hP, hq, hst, ineq_quad s.n qp.red qp.free (qp.free + qp.slack) cs _ v A.cols_le (by simp [ineqInit, A.slack])]
    rw [hP', hq', hst', hred, hfree, hslack, ineq_quad s.n qp.red qp.free (qp.free + qp.slack) cs _ v A.cols_le
      (by simp [ineqInit, A.slack])]
    simp only [ineqInit, add_zero]
    rw [hPq, hPq', hred, hfree]
    rw [obj_quad s.n qp.red s.eps (qp.free + qp.slack) cs _ v (fun c hc => le_trans (A.cols_le c hc) (Nat.le_add_right _ _)),
      obj_quad_sparse s.n qp.red s.eps (qp.free + qp.slack) cs _ v (fun c hc => le_trans (A.cols_le c hc) (Nat.le_add_right _ _))]
    ring

/-! ## Reading the entries from the values of an expression -/

/-- Specification: the coefficient of variable `j` in row `i`. -/
def coef (e : Expr K) (i j : Nat) : K := e.rowVal (fun k => if k = j then 1 else 0) i - e.rowVal (fun _ => 0) i

theorem coef_lt (e : Expr K) (i j : Nat) (h : j < e.cols) : e.A i j = coef e i j := by
  unfold coef Expr.rowVal
  simp [Finset.sum_ite_eq', h]

theorem coef_ge (e : Expr K) (i j : Nat) (h : e.cols ≤ j) : coef e i j = 0 := by
  unfold coef Expr.rowVal
  simp [Finset.sum_ite_eq', Nat.not_lt.2 h]

theorem same_iff [IsStrictOrderedRing K] (eps : K) (h0 : 0 ≤ eps) (e : Expr K) (r c : Nat) (hrc : r ≤ c) :
    SameInterval eps e r c ↔ ∀ j, r ≤ j → j ≤ c → ∃ i < e.rows, ¬ (-eps ≤ coef e i j ∧ coef e i j ≤ eps) := by
  rw [C12_runs eps e r c hrc]
  have key : ∀ j, j < e.cols → (¬ ColZero eps ⟨e.rows, e.cols, e.A⟩ j ↔
      ∃ i < e.rows, ¬ (-eps ≤ coef e i j ∧ coef e i j ≤ eps)) := by
    intro j hj
    unfold ColZero
    simp only [coef_lt e _ j hj]
    push Not
    rfl
  constructor
  · rintro ⟨hc, h⟩ j h1 h2
    exact (key j (by omega)).1 (h j h1 h2)
  · intro h
    have hc : c < e.cols := by
      by_contra hn
      obtain ⟨i, -, hi⟩ := h c hrc le_rfl
      rw [coef_ge e i c (by omega)] at hi
      exact hi ⟨by linarith, h0⟩
    exact ⟨hc, fun j h1 h2 => (key j (by omega)).2 (h j h1 h2)⟩

open Classical in
theorem lost_eq (eps w : K) (e : Expr K) (v : Nat → K) (N : Nat) (hN : e.cols ≤ N) :
    lost eps w e v = ∑ r ∈ range N, ∑ c ∈ range N,
      if SameInterval eps e r c then 0 else w * (∑ i ∈ range e.rows, coef e i r * coef e i c) * (v r * v c) := by
  unfold lost
  rw [← sum_subset (range_subset_range.2 hN)]
  · refine sum_congr rfl fun r hr => ?_
    rw [← sum_subset (range_subset_range.2 hN)]
    · refine sum_congr rfl fun c hc => ?_
      simp only [coef_lt e _ r (mem_range.1 hr), coef_lt e _ c (mem_range.1 hc)]
    · intro c _ hc
      have : e.cols ≤ c := by rw [mem_range] at hc; omega
      simp only [coef_ge e _ c this, mul_zero, sum_const_zero, zero_mul, ite_self]
  · intro r _ hr
    have : e.cols ≤ r := by rw [mem_range] at hr; omega
    refine sum_eq_zero fun c _ => ?_
    simp only [coef_ge e _ r this, zero_mul, mul_zero, sum_const_zero, ite_self]

end

/-- The hypotheses are met, and the difference is not zero: with the soft equality `x0 + x2 == 2`, the columns 0 and 2 are not in
the same interval, so `2 x0 x2` is left out. -/
example : ¬ SameInterval (1 / 1000) twoBlocks.expr 0 2 := by
  rw [C12_runs _ _ _ _ (by decide)]
  rintro ⟨-, h⟩
  exact h 1 (by decide) (by decide) fun i _ => by norm_num [twoBlocks]

end Verif.Problem
