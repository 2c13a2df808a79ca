/-
Helper lemmas about the QP assembly (not property theorems).
-/
import Mathlib.Tactic.Ring
import Mathlib.Tactic.Linarith
import Mathlib.Algebra.BigOperators.Group.Finset.Piecewise
import Mathlib.Algebra.Order.BigOperators.Group.Finset
import Verif.Problem.Problem
import Verif.Problem.ExpressionLemmas

namespace Verif.Problem
open Finset

section
variable {K : Type} [Field K]

/-- Twice the QP objective `1/2 vᵀ P v + qᵀ v` on the first `N` entries. -/
def quad (N : Nat) (P : Nat → Nat → K) (q v : Nat → K) : K :=
  (∑ r ∈ range N, ∑ c ∈ range N, v r * P r c * v c) + 2 * ∑ r ∈ range N, q r * v r

theorem quad_add (N : Nat) (P P' : Nat → Nat → K) (q q' v : Nat → K) :
    quad N (fun r c => P r c + P' r c) (fun r => q r + q' r) v = quad N P q v + quad N P' q' v := by
  simp only [quad, mul_add, add_mul, sum_add_distrib]
  ring

theorem quad_congr {N : Nat} {P P' : Nat → Nat → K} {q q' v : Nat → K}
    (hP : ∀ r c, r < N → c < N → P r c = P' r c) (hq : ∀ r, r < N → q r = q' r) :
    quad N P q v = quad N P' q' v := by
  unfold quad
  congr 1
  · refine sum_congr rfl fun r hr => sum_congr rfl fun c hc => ?_
    rw [hP r c (mem_range.1 hr) (mem_range.1 hc)]
  · congr 1
    refine sum_congr rfl fun r hr => ?_
    rw [hq r (mem_range.1 hr)]

/-- Least-squares contribution of rows `a i` with offsets `b i`. -/
theorem quad_rows (N m : Nat) (w : K) (a : Nat → Nat → K) (b v : Nat → K) :
    quad N (fun r c => w * ∑ i ∈ range m, a i r * a i c) (fun r => w * ∑ i ∈ range m, a i r * b i) v
      = ∑ i ∈ range m, w * (((∑ c ∈ range N, a i c * v c) + b i) ^ 2 - b i ^ 2) := by
  have h1 : ∑ r ∈ range N, ∑ c ∈ range N, v r * (w * ∑ i ∈ range m, a i r * a i c) * v c
      = ∑ i ∈ range m, w * ((∑ c ∈ range N, a i c * v c) * (∑ c ∈ range N, a i c * v c)) := by
    simp only [mul_sum, sum_mul]
    rw [sum_comm]
    rw [sum_congr rfl fun c _ => sum_comm]
    rw [sum_comm]
    refine sum_congr rfl fun i _ => sum_congr rfl fun c _ => sum_congr rfl fun r _ => ?_
    ring
  have h2 : ∑ r ∈ range N, w * (∑ i ∈ range m, a i r * b i) * v r
      = ∑ i ∈ range m, w * ((∑ c ∈ range N, a i c * v c) * b i) := by
    simp only [mul_sum, sum_mul]
    rw [sum_comm]
    refine sum_congr rfl fun i _ => sum_congr rfl fun c _ => ?_
    ring
  unfold quad
  rw [h1, h2, mul_sum, ← sum_add_distrib]
  refine sum_congr rfl fun i _ => ?_
  ring

/-- Dense accumulation adds the weighted squared residuals minus a constant. -/
theorem quad_dense (N : Nat) (P : Nat → Nat → K) (q v : Nat → K) (w : K) (e : Expr K) (h : e.cols ≤ N) :
    quad N (addDense P w e) (addLinear q w e) v
      = quad N P q v + ∑ i ∈ range e.rows, w * ((e.rowVal v i) ^ 2 - e.b i ^ 2) := by
  have hP : addDense P w e = fun r c => P r c + w * ∑ i ∈ range e.rows, e.pad i r * e.pad i c := by
    funext r c
    simp only [addDense, Expr.pad]
    by_cases hr : r < e.cols <;> by_cases hc : c < e.cols <;> simp [hr, hc]
  have hq : addLinear q w e = fun r => q r + w * ∑ i ∈ range e.rows, e.pad i r * e.b i := by
    funext r
    simp only [addLinear, Expr.pad]
    by_cases hr : r < e.cols <;> simp [hr]
  rw [hP, hq, quad_add, quad_rows]
  congr 1
  refine sum_congr rfl fun i _ => ?_
  simp only [Expr.pad, Expr.rowVal]
  rw [sum_pad e.cols N h]

theorem sum_slackRow (free N kS i : Nat) (e : Expr K) (v : Nat → K) (h1 : e.cols ≤ free)
    (h2 : free + (kS + i) < N) :
    ∑ c ∈ range N, slackRow free kS e i c * v c
      = (∑ c ∈ range e.cols, e.A i c * v c) - v (free + (kS + i)) := by
  have hsplit : ∀ c, slackRow free kS e i c * v c
      = (if c < e.cols then e.A i c else 0) * v c + (if c = free + (kS + i) then -v c else 0) := by
    intro c
    unfold slackRow
    by_cases hc : c = free + (kS + i)
    · rw [if_pos hc, if_pos hc, if_neg (by omega)]; ring
    · rw [if_neg hc, if_neg hc]; ring
  rw [sum_congr rfl fun c _ => hsplit c, sum_add_distrib, sum_pad e.cols N (by omega),
    sum_ite_eq' (range N), if_pos (mem_range.2 h2)]
  ring

/-- Contribution of a soft inequality with its slack variables. -/
theorem quad_slack (free N kS : Nat) (P : Nat → Nat → K) (q v : Nat → K) (w : K) (e : Expr K)
    (h1 : e.cols ≤ free) (h2 : free + (kS + e.rows) ≤ N) :
    quad N (fun r s => P r s + if r < N ∧ s < N then
        w * ∑ i ∈ range e.rows, slackRow free kS e i r * slackRow free kS e i s else 0)
      (fun r => q r + if r < N then w * ∑ i ∈ range e.rows, slackRow free kS e i r * e.b i else 0) v
      = quad N P q v + ∑ i ∈ range e.rows, w * ((e.rowVal v i - v (free + (kS + i))) ^ 2 - e.b i ^ 2) := by
  rw [quad_congr (P' := fun r s => P r s + w * ∑ i ∈ range e.rows, slackRow free kS e i r * slackRow free kS e i s)
    (q' := fun r => q r + w * ∑ i ∈ range e.rows, slackRow free kS e i r * e.b i)
    (fun r c hr hc => by rw [if_pos ⟨hr, hc⟩]) (fun r hr => by rw [if_pos hr])]
  rw [quad_add, quad_rows]
  congr 1
  refine sum_congr rfl fun i hi => ?_
  rw [sum_slackRow free N kS i e v h1 (by have := mem_range.1 hi; omega)]
  simp only [Expr.rowVal]
  ring

theorem quad_reg (N free : Nat) (reg : K) (v : Nat → K) (h : free ≤ N) :
    quad N (regP free reg) (fun _ => 0) v = ∑ j ∈ range free, reg * v j ^ 2 := by
  simp only [quad, zero_mul, sum_const_zero, mul_zero, add_zero]
  have : ∀ r ∈ range N, ∑ c ∈ range N, v r * regP free reg r c * v c = if r < free then reg * v r ^ 2 else 0 := by
    intro r hr
    by_cases hf : r < free
    · rw [if_pos hf]
      have h1 : ∀ c ∈ range N, v r * regP free reg r c * v c = if c = r then reg * v r ^ 2 else 0 := by
        intro c _
        simp only [regP]
        by_cases hc : c = r
        · subst hc; rw [if_pos ⟨rfl, hf⟩, if_pos rfl]; ring
        · rw [if_neg (fun h => hc h.1.symm), if_neg hc]; ring
      rw [sum_congr rfl h1, sum_ite_eq' (range N), if_pos hr]
    · rw [if_neg hf]
      refine sum_eq_zero fun c _ => ?_
      simp [regP, hf]
  rw [sum_congr rfl this]
  have hs : range free ⊆ range N := by intro j; simp only [mem_range]; omega
  rw [← sum_subset hs (f := fun r => if r < free then reg * v r ^ 2 else 0)]
  · exact sum_congr rfl fun j hj => by rw [if_pos (mem_range.1 hj)]
  · intro j _ hj; rw [if_neg (by simpa using hj)]

@[simp] theorem reduceExpr_rows (n : Nat) (red : Option (Red K)) (e : Expr K) :
    (reduceExpr n red e).rows = e.rows := by
  cases red <;> rfl

theorem nSlack_append (l : List (Constr K)) (c : Constr K) :
    nSlack (l ++ [c]) = nSlack l + if c.softIneq then c.expr.rows else 0 := by
  simp [nSlack]

/-- Number of rows of hard inequalities. -/
def nHard (cs : List (Constr K)) : Nat := (cs.map fun c => if c.hardIneq then c.expr.rows else 0).sum

theorem nHard_append (l : List (Constr K)) (c : Constr K) :
    nHard (l ++ [c]) = nHard l + if c.hardIneq then c.expr.rows else 0 := by
  simp [nHard]

theorem nInequalities_eq (cs : List (Constr K)) : nInequalities cs = nSlack cs + nHard cs := by
  induction cs with
  | nil => rfl
  | cons c cs ih =>
    simp only [nInequalities, nSlack, nHard, List.map_cons, List.sum_cons] at ih ⊢
    rw [ih]
    have : (if c.ty = .inequality then c.expr.rows else 0)
        = (if c.softIneq = true then c.expr.rows else 0) + (if c.hardIneq = true then c.expr.rows else 0) := by
      cases h1 : c.ty <;> cases h2 : c.priority <;> simp [Constr.softIneq, Constr.hardIneq, h1, h2]
    omega

theorem nHard_take_le (l : List (Constr K)) (i : Nat) (c : Constr K) (h : l[i]? = some c) (hc : c.hardIneq = true) :
    nHard (l.take i) + c.expr.rows ≤ nHard l := by
  induction l generalizing i with
  | nil => simp at h
  | cons a l ih =>
    cases i with
    | zero =>
      simp only [List.getElem?_cons_zero, Option.some.injEq] at h
      subst h
      simp [nHard, hc]
    | succ i =>
      have := ih i (by simpa using h)
      simp only [nHard, List.take_succ_cons, List.map_cons, List.sum_cons] at this ⊢
      omega

theorem nSlack_take_le (l : List (Constr K)) (i : Nat) (c : Constr K) (h : l[i]? = some c) (hc : c.softIneq = true) :
    nSlack (l.take i) + c.expr.rows ≤ nSlack l := by
  induction l generalizing i with
  | nil => simp at h
  | cons a l ih =>
    cases i with
    | zero =>
      simp only [List.getElem?_cons_zero, Option.some.injEq] at h
      subst h
      simp [nSlack, hc]
    | succ i =>
      have := ih i (by simpa using h)
      simp only [nSlack, List.take_succ_cons, List.map_cons, List.sum_cons] at this ⊢
      omega

/-- Cost of the soft inequalities together with slack values, minus constants. -/
def slackCost (n : Nat) (red : Option (Red K)) (free : Nat) (cs : List (Constr K)) (v : Nat → K) : K :=
  match cs with
  | [] => 0
  | c :: cs =>
    (if c.softIneq then
      ∑ i ∈ range c.expr.rows, c.weight *
        (((reduceExpr n red c.expr).rowVal v i - v (free + i)) ^ 2 - (reduceExpr n red c.expr).b i ^ 2)
     else 0) +
    slackCost n red (free + if c.softIneq then c.expr.rows else 0) cs v

/-- Everything the inequality loop establishes, for a processed list `l`. -/
structure IneqInv (n : Nat) (red : Option (Red K)) (free S N : Nat) (P0 : Nat → Nat → K) (q0 : Nat → K)
    (l : List (Constr K)) (st : IneqSt K) : Prop where
  ci : st.ci = l.length
  k : st.k = S + nHard l
  kSlack : st.kSlack = nSlack l
  slackRows : ∀ r, r < S → (∀ c, st.G r c = if c = free + r then 1 else 0) ∧ st.h r = 0
  hardRows : ∀ i c, l[i]? = some c → c.hardIneq = true → ∀ j, j < c.expr.rows →
    (∀ t, st.G (S + nHard (l.take i) + j) t = (reduceExpr n red c.expr).pad j t) ∧
    st.h (S + nHard (l.take i) + j) = (reduceExpr n red c.expr).b j
  hardZero : ∀ r, S + nHard l ≤ r → (∀ t, st.G r t = 0)
  hardMap : ∀ r i, st.hardMap r = some i ↔ ∃ c, l[i]? = some c ∧ c.hardIneq = true ∧
    ∃ j, j < c.expr.rows ∧ r = S + nHard (l.take i) + j
  softMap : ∀ r i, st.softMap r = some i ↔ ∃ c, l[i]? = some c ∧ c.softIneq = true ∧
    ∃ j, j < c.expr.rows ∧ r = nSlack (l.take i) + j

theorem take_append_of_getElem? {α : Type} {l : List α} {i : Nat} {a b : α} (h : l[i]? = some a) :
    (l ++ [b]).take i = l.take i := by
  have : i < l.length := by
    by_contra hc
    rw [List.getElem?_eq_none (by omega)] at h; cases h
  rw [List.take_append_of_le_length (by omega)]

theorem getElem?_append_cases {α : Type} {l : List α} {i : Nat} {a b : α} (h : (l ++ [b])[i]? = some a) :
    l[i]? = some a ∨ (i = l.length ∧ a = b) := by
  rw [List.getElem?_append] at h
  split at h
  · left; exact h
  · rename_i hi
    right
    have : i - l.length = 0 := by
      by_contra hc
      rw [List.getElem?_eq_none (by simp; omega)] at h; cases h
    rw [this] at h
    simp at h
    exact ⟨by omega, h.symm⟩

theorem getElem?_append_left' {α : Type} {l : List α} {i : Nat} {a b : α} (h : l[i]? = some a) :
    (l ++ [b])[i]? = some a := by
  have : i < l.length := by
    by_contra hc
    rw [List.getElem?_eq_none (by omega)] at h; cases h
  rw [List.getElem?_append_left this]; exact h

theorem ineq_inv (n : Nat) (red : Option (Red K)) (free S N : Nat) (P0 : Nat → Nat → K) (q0 : Nat → K)
    (l : List (Constr K)) :
    IneqInv n red free S N P0 q0 l (l.foldl (ineqStep n red free N) (ineqInit free S P0 q0)) := by
  induction l using List.reverseRecOn with
  | nil =>
    refine ⟨rfl, rfl, rfl, ?_, ?_, ?_, ?_, ?_⟩
    · intro r hr; simp [ineqInit, hr]
    · intro i c h; simp at h
    · intro r hr t
      have : ¬ r < S := by simp [nHard] at hr; omega
      simp [ineqInit, this]
    · intro r i; simp [ineqInit]
    · intro r i; simp [ineqInit]
  | append_singleton l c ih =>
    rw [List.foldl_append, List.foldl_cons, List.foldl_nil]
    generalize l.foldl (ineqStep n red free N) (ineqInit free S P0 q0) = st at ih
    have hlen : (l ++ [c])[l.length]? = some c := by simp
    have htake : (l ++ [c]).take l.length = l := by simp
    unfold ineqStep
    by_cases hty : c.ty = .inequality
    · rw [if_pos hty]
      by_cases hp : c.priority = .hard
      · rw [if_pos hp]
        have hh : c.hardIneq = true := by simp [Constr.hardIneq, hty, hp]
        have hs : c.softIneq = false := by simp [Constr.softIneq, hty, hp]
        refine ⟨by simp [ih.ci], ?_, ?_, ?_, ?_, ?_, ?_, ?_⟩
        · simp only [nHard_append, hh, if_true, reduceExpr_rows, ih.k]; omega
        · simp [nSlack_append, hs, ih.kSlack]
        · intro r hr
          obtain ⟨h1, h2⟩ := ih.slackRows r hr
          have hk := ih.k
          refine ⟨fun t => ?_, ?_⟩
          · simp only [writeBlock]
            rw [if_neg (by omega)]; exact h1 t
          · simp only [writeSeg]
            rw [if_neg (by omega)]; exact h2
        · intro i c' hi hc' j hj
          have hk := ih.k
          rcases getElem?_append_cases hi with hi' | ⟨rfl, rfl⟩
          · rw [take_append_of_getElem? hi']
            have hle := nHard_take_le l i c' hi' hc'
            obtain ⟨h1, h2⟩ := ih.hardRows i c' hi' hc' j hj
            refine ⟨fun t => ?_, ?_⟩
            · simp only [writeBlock]
              rw [if_neg (by omega)]; exact h1 t
            · simp only [writeSeg]
              rw [if_neg (by omega)]; exact h2
          · rw [htake]
            refine ⟨fun t => ?_, ?_⟩
            · simp only [writeBlock, Expr.pad, reduceExpr_rows]
              by_cases ht : t < (reduceExpr n red c'.expr).cols
              · rw [if_pos ⟨by omega, by omega, ht⟩, if_pos ht]
                congr 1; omega
              · rw [if_neg (fun h => ht h.2.2), if_neg ht]
                exact ih.hardZero _ (by omega) t
            · simp only [writeSeg, reduceExpr_rows]
              rw [if_pos ⟨by omega, by omega⟩]
              congr 1; omega
        · intro r hr t
          rw [nHard_append, hh, if_pos rfl] at hr
          have hk := ih.k
          simp only [writeBlock, reduceExpr_rows]
          rw [if_neg (by omega)]
          exact ih.hardZero r (by omega) t
        · intro r i
          have hk := ih.k
          have hci := ih.ci
          simp only [reduceExpr_rows]
          by_cases hr : st.k ≤ r ∧ r < st.k + c.expr.rows
          · rw [if_pos hr]
            constructor
            · intro h
              have : i = l.length := by simp at h; omega
              subst this
              exact ⟨c, hlen, hh, r - st.k, by omega, by rw [htake]; omega⟩
            · rintro ⟨c', hi, hc', j, hj, hr'⟩
              rcases getElem?_append_cases hi with hi' | ⟨rfl, rfl⟩
              · rw [take_append_of_getElem? hi'] at hr'
                have hle := nHard_take_le l i c' hi' hc'
                omega
              · rw [hci]
          · rw [if_neg hr, ih.hardMap]
            constructor
            · rintro ⟨c', hi, hc', j, hj, hr'⟩
              exact ⟨c', getElem?_append_left' hi, hc', j, hj, by rw [take_append_of_getElem? hi]; exact hr'⟩
            · rintro ⟨c', hi, hc', j, hj, hr'⟩
              rcases getElem?_append_cases hi with hi' | ⟨rfl, rfl⟩
              · exact ⟨c', hi', hc', j, hj, by rw [take_append_of_getElem? hi'] at hr'; exact hr'⟩
              · rw [htake] at hr'; omega
        · intro r i
          rw [ih.softMap]
          constructor
          · rintro ⟨c', hi, hc', j, hj, hr'⟩
            exact ⟨c', getElem?_append_left' hi, hc', j, hj, by rw [take_append_of_getElem? hi]; exact hr'⟩
          · rintro ⟨c', hi, hc', j, hj, hr'⟩
            rcases getElem?_append_cases hi with hi' | ⟨rfl, rfl⟩
            · exact ⟨c', hi', hc', j, hj, by rw [take_append_of_getElem? hi'] at hr'; exact hr'⟩
            · rw [hs] at hc'; cases hc'
      · rw [if_neg hp]
        have hp' : c.priority = .soft := by
          cases h : c.priority with
          | soft => rfl
          | hard => exact absurd h hp
        have hh : c.hardIneq = false := by simp [Constr.hardIneq, hty, hp']
        have hs : c.softIneq = true := by simp [Constr.softIneq, hty, hp']
        refine ⟨by simp [ih.ci], ?_, ?_, ih.slackRows, ?_, ?_, ?_, ?_⟩
        · simp [nHard_append, hh, ih.k]
        · simp [nSlack_append, hs, ih.kSlack]
        · intro i c' hi hc' j hj
          rcases getElem?_append_cases hi with hi' | ⟨rfl, rfl⟩
          · rw [take_append_of_getElem? hi']
            exact ih.hardRows i c' hi' hc' j hj
          · rw [hh] at hc'; cases hc'
        · intro r hr t
          rw [nHard_append, hh] at hr
          exact ih.hardZero r (by simpa using hr) t
        · intro r i
          show st.hardMap r = some i ↔ _
          rw [ih.hardMap]
          constructor
          · rintro ⟨c', hi, hc', j, hj, hr'⟩
            exact ⟨c', getElem?_append_left' hi, hc', j, hj, by rw [take_append_of_getElem? hi]; exact hr'⟩
          · rintro ⟨c', hi, hc', j, hj, hr'⟩
            rcases getElem?_append_cases hi with hi' | ⟨rfl, rfl⟩
            · exact ⟨c', hi', hc', j, hj, by rw [take_append_of_getElem? hi'] at hr'; exact hr'⟩
            · rw [hh] at hc'; cases hc'
        · intro r i
          have hk := ih.kSlack
          have hci := ih.ci
          simp only [reduceExpr_rows]
          by_cases hr : st.kSlack ≤ r ∧ r < st.kSlack + c.expr.rows
          · rw [if_pos hr]
            constructor
            · intro h
              have : i = l.length := by simp at h; omega
              subst this
              exact ⟨c, hlen, hs, r - st.kSlack, by omega, by rw [htake]; omega⟩
            · rintro ⟨c', hi, hc', j, hj, hr'⟩
              rcases getElem?_append_cases hi with hi' | ⟨rfl, rfl⟩
              · rw [take_append_of_getElem? hi'] at hr'
                have hle := nSlack_take_le l i c' hi' hc'
                omega
              · rw [hci]
          · rw [if_neg hr, ih.softMap]
            constructor
            · rintro ⟨c', hi, hc', j, hj, hr'⟩
              exact ⟨c', getElem?_append_left' hi, hc', j, hj, by rw [take_append_of_getElem? hi]; exact hr'⟩
            · rintro ⟨c', hi, hc', j, hj, hr'⟩
              rcases getElem?_append_cases hi with hi' | ⟨rfl, rfl⟩
              · exact ⟨c', hi', hc', j, hj, by rw [take_append_of_getElem? hi'] at hr'; exact hr'⟩
              · rw [htake] at hr'; omega
    · rw [if_neg hty]
      have hh : c.hardIneq = false := by simp [Constr.hardIneq, hty]
      have hs : c.softIneq = false := by simp [Constr.softIneq, hty]
      refine ⟨by simp [ih.ci], ?_, ?_, ih.slackRows, ?_, ?_, ?_, ?_⟩
      · simp [nHard_append, hh, ih.k]
      · simp [nSlack_append, hs, ih.kSlack]
      · intro i c' hi hc' j hj
        rcases getElem?_append_cases hi with hi' | ⟨rfl, rfl⟩
        · rw [take_append_of_getElem? hi']
          exact ih.hardRows i c' hi' hc' j hj
        · rw [hh] at hc'; cases hc'
      · intro r hr t
        rw [nHard_append, hh] at hr
        exact ih.hardZero r (by simpa using hr) t
      · intro r i
        show st.hardMap r = some i ↔ _
        rw [ih.hardMap]
        constructor
        · rintro ⟨c', hi, hc', j, hj, hr'⟩
          exact ⟨c', getElem?_append_left' hi, hc', j, hj, by rw [take_append_of_getElem? hi]; exact hr'⟩
        · rintro ⟨c', hi, hc', j, hj, hr'⟩
          rcases getElem?_append_cases hi with hi' | ⟨rfl, rfl⟩
          · exact ⟨c', hi', hc', j, hj, by rw [take_append_of_getElem? hi'] at hr'; exact hr'⟩
          · rw [hh] at hc'; cases hc'
      · intro r i
        show st.softMap r = some i ↔ _
        rw [ih.softMap]
        constructor
        · rintro ⟨c', hi, hc', j, hj, hr'⟩
          exact ⟨c', getElem?_append_left' hi, hc', j, hj, by rw [take_append_of_getElem? hi]; exact hr'⟩
        · rintro ⟨c', hi, hc', j, hj, hr'⟩
          rcases getElem?_append_cases hi with hi' | ⟨rfl, rfl⟩
          · exact ⟨c', hi', hc', j, hj, by rw [take_append_of_getElem? hi'] at hr'; exact hr'⟩
          · rw [hs] at hc'; cases hc'

/-- Objective after the inequality loop. -/
theorem ineq_quad (n : Nat) (red : Option (Red K)) (free N : Nat) (l : List (Constr K)) (st : IneqSt K)
    (v : Nat → K) (hcols : ∀ c ∈ l, (reduceExpr n red c.expr).cols ≤ free)
    (hN : free + (st.kSlack + nSlack l) ≤ N) :
    quad N (l.foldl (ineqStep n red free N) st).P (l.foldl (ineqStep n red free N) st).q v
      = quad N st.P st.q v + slackCost n red (free + st.kSlack) l v := by
  induction l generalizing st with
  | nil => simp [slackCost]
  | cons c l ih =>
    rw [List.foldl_cons]
    have hcols' : ∀ c ∈ l, (reduceExpr n red c.expr).cols ≤ free := fun c' h => hcols c' (by simp [h])
    have hsl : nSlack (c :: l) = (if c.softIneq then c.expr.rows else 0) + nSlack l := by simp [nSlack]
    rw [hsl] at hN
    by_cases hs : c.softIneq = true
    · have hty : c.ty = .inequality ∧ c.priority = .soft := by simpa [Constr.softIneq] using hs
      rw [hs, if_pos rfl] at hN
      have hstep : ineqStep n red free N st c = { st with
        ci := st.ci + 1
        kSlack := st.kSlack + (reduceExpr n red c.expr).rows
        softMap := fun s => if st.kSlack ≤ s ∧ s < st.kSlack + (reduceExpr n red c.expr).rows then some st.ci else st.softMap s
        P := fun r s => st.P r s + if r < N ∧ s < N then
          c.weight * ∑ i ∈ range (reduceExpr n red c.expr).rows, slackRow free st.kSlack (reduceExpr n red c.expr) i r * slackRow free st.kSlack (reduceExpr n red c.expr) i s else 0
        q := fun r => st.q r + if r < N then
          c.weight * ∑ i ∈ range (reduceExpr n red c.expr).rows, slackRow free st.kSlack (reduceExpr n red c.expr) i r * (reduceExpr n red c.expr).b i else 0 } := by
        unfold ineqStep
        rw [if_pos hty.1, if_neg (by rw [hty.2]; decide)]
      rw [ih _ hcols' (by rw [hstep]; simp only [reduceExpr_rows]; omega)]
      rw [hstep]
      simp only
      rw [quad_slack free N st.kSlack st.P st.q v c.weight (reduceExpr n red c.expr) (hcols c (by simp))
        (by simp only [reduceExpr_rows]; omega)]
      simp only [slackCost, hs, if_true, reduceExpr_rows]
      simp only [add_assoc]
    · have hk : (ineqStep n red free N st c).P = st.P ∧ (ineqStep n red free N st c).q = st.q ∧
          (ineqStep n red free N st c).kSlack = st.kSlack := by
        unfold ineqStep
        by_cases hty : c.ty = .inequality
        · rw [if_pos hty]
          by_cases hp : c.priority = .hard
          · rw [if_pos hp]; simp
          · exfalso; apply hs
            cases h : c.priority with
            | soft => simp [Constr.softIneq, hty, h]
            | hard => exact absurd h hp
        · rw [if_neg hty]; simp
      rw [ih _ hcols' (by rw [hk.2.2]; rw [if_neg hs] at hN; omega), hk.1, hk.2.1, hk.2.2]
      simp only [slackCost, if_neg hs, add_zero, zero_add]

/-- Cost of the soft equalities minus constants. -/
def softCost (n : Nat) (red : Option (Red K)) (cs : List (Constr K)) (v : Nat → K) : K :=
  (cs.map fun c => if c.softEq then
    ∑ i ∈ range c.expr.rows, c.weight *
      ((reduceExpr n red c.expr).rowVal v i ^ 2 - (reduceExpr n red c.expr).b i ^ 2) else 0).sum

theorem obj_quad [LinearOrder K] (n : Nat) (red : Option (Red K)) (eps : K) (N : Nat) (l : List (Constr K))
    (Pq : (Nat → Nat → K) × (Nat → K)) (v : Nat → K)
    (hcols : ∀ c ∈ l, (reduceExpr n red c.expr).cols ≤ N) :
    quad N (l.foldl (objStep n red false eps) Pq).1 (l.foldl (objStep n red false eps) Pq).2 v
      = quad N Pq.1 Pq.2 v + softCost n red l v := by
  induction l generalizing Pq with
  | nil => simp [softCost]
  | cons c l ih =>
    rw [List.foldl_cons, ih _ fun c' h => hcols c' (by simp [h])]
    unfold objStep
    by_cases hs : c.softEq = true
    · rw [if_pos hs]
      simp only [Bool.false_eq_true, if_false]
      rw [quad_dense N _ _ v _ _ (hcols c (by simp))]
      simp only [softCost, List.map_cons, List.sum_cons, hs, if_true, reduceExpr_rows]
      ring
    · rw [if_neg hs]
      simp only [softCost, List.map_cons, List.sum_cons, if_neg hs, zero_add]

end
end Verif.Problem
