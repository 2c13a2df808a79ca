/-
Properties C06 (variables), C08 (`add_limit`), C10 (sparsity option).
-/
import Mathlib.Data.Rat.Cast.Order
import Mathlib.Tactic.IntervalCases
import Mathlib.Tactic.NormNum
import Verif.Problem.ProblemAssembled
import Verif.Problem.ConstraintProps
import Verif.Problem.SparsityProps

namespace Verif.Problem
open Finset

/-! ## C06 -/

section
variable {K : Type}

/-- Consecutive ranges from `a` to `b`. -/
inductive Chain : Nat → List Var → Nat → Prop
  | nil (a : Nat) : Chain a [] a
  | cons (a m b : Nat) (l : List Var) : a ≤ m → Chain m l b → Chain a (⟨a, m⟩ :: l) b

theorem Chain.snoc {a b c : Nat} {l : List Var} (h : Chain a l b) (hbc : b ≤ c) : Chain a (l ++ [⟨b, c⟩]) c := by
  induction h with
  | nil a => exact .cons _ _ _ _ hbc (.nil _)
  | cons a m b l hm _ ih => exact .cons _ _ _ _ hm (ih hbc)

theorem Chain.le {a b : Nat} {l : List Var} (h : Chain a l b) : a ≤ b := by
  induction h with
  | nil a => exact le_refl _
  | cons a m b l hm _ ih => exact le_trans hm ih

theorem Chain.bounds {a b : Nat} {l : List Var} (h : Chain a l b) :
    ∀ v ∈ l, a ≤ v.kStart ∧ v.kStart ≤ v.kEnd ∧ v.kEnd ≤ b := by
  induction h with
  | nil a => simp
  | cons a m b l hm hl ih =>
    intro v hv
    rcases List.mem_cons.1 hv with rfl | hv
    · exact ⟨le_refl _, hm, hl.le⟩
    · obtain ⟨h1, h2, h3⟩ := ih v hv
      exact ⟨le_trans hm h1, h2, h3⟩

/-- Every index belongs to exactly one position of a chain. -/
theorem Chain.unique {a b : Nat} {l : List Var} (h : Chain a l b) :
    ∀ k, a ≤ k → k < b → ∃! i : Nat, ∃ v : Var, l[i]? = some v ∧ v.kStart ≤ k ∧ k < v.kEnd := by
  induction h with
  | nil a => intro k h1 h2; omega
  | cons a m b l hm hl ih =>
    intro k h1 h2
    by_cases hk : k < m
    · refine ⟨0, ⟨⟨a, m⟩, by simp, h1, hk⟩, ?_⟩
      rintro i ⟨v, hv, hv1, hv2⟩
      cases i with
      | zero => rfl
      | succ i =>
        have := hl.bounds v (List.mem_of_getElem? (by simpa using hv))
        omega
    · obtain ⟨i, ⟨v, hv, hv1, hv2⟩, huniq⟩ := ih k (by omega) h2
      refine ⟨i + 1, ⟨v, by simpa using hv, hv1, hv2⟩, ?_⟩
      rintro j ⟨w, hw, hw1, hw2⟩
      cases j with
      | zero =>
        simp only [List.getElem?_cons_zero, Option.some.injEq] at hw
        subst hw
        simp only at hw2; omega
      | succ j => rw [huniq j ⟨w, by simpa using hw, hw1, hw2⟩]

/-- State after a sequence of `add_variable` calls. -/
def addVariables (sizes : List Nat) : Nat × List (VarState K) := sizes.foldl addVariable (0, [])

theorem addVariables_chain (sizes : List Nat) (a : Nat) (l0 : List (VarState K)) (st : Nat)
    (h : Chain a (l0.map (·.var)) st) :
    Chain a ((sizes.foldl addVariable (st, l0)).2.map (·.var)) (sizes.foldl addVariable (st, l0)).1 := by
  induction sizes generalizing st l0 with
  | nil => exact h
  | cons s sizes ih =>
    rw [List.foldl_cons]
    refine ih _ _ ?_
    simp only [List.map_append, List.map_cons, List.map_nil]
    exact h.snoc (Nat.le_add_right _ _)

theorem addVariables_sizes (sizes : List Nat) (st : Nat × List (VarState K)) :
    (sizes.foldl addVariable st).1 = st.1 + sizes.sum ∧
    (sizes.foldl addVariable st).2.map (·.var.size) = st.2.map (·.var.size) ++ sizes := by
  induction sizes generalizing st with
  | nil => simp
  | cons s sizes ih =>
    rw [List.foldl_cons]
    obtain ⟨h1, h2⟩ := ih (addVariable st s)
    rw [h1, h2]
    constructor
    · simp [addVariable]; omega
    · simp [addVariable, Var.size]

/-- **C06.** After any sequence of `add_variable` calls: there is one variable per
call, in order and with the requested size; the ranges lie within
`0..n_variables`, each starts where the previous ended, and every index of the
decision vector belongs to exactly one variable. -/
theorem C06_variables_partition (sizes : List Nat) :
    let st : Nat × List (VarState K) := addVariables sizes
    st.1 = sizes.sum ∧ st.2.map (·.var.size) = sizes ∧
    Chain 0 (st.2.map (·.var)) st.1 ∧
    (∀ v ∈ st.2, v.var.kStart ≤ v.var.kEnd ∧ v.var.kEnd ≤ st.1 ∧ v.version = 0) ∧
    ∀ k, k < st.1 → ∃! i : Nat, ∃ v : VarState K, st.2[i]? = some v ∧ v.var.kStart ≤ k ∧ k < v.var.kEnd := by
  have hc : Chain 0 ((addVariables (K := K) sizes).2.map (·.var)) (addVariables (K := K) sizes).1 :=
    addVariables_chain sizes 0 [] 0 (.nil 0)
  obtain ⟨h1, h2⟩ := addVariables_sizes (K := K) sizes (0, [])
  have hver : ∀ (l : List Nat) (st : Nat × List (VarState K)), (∀ v ∈ st.2, v.version = 0) →
      ∀ v ∈ (l.foldl addVariable st).2, v.version = 0 := by
    intro l
    induction l with
    | nil => intro st h; exact h
    | cons s l ih =>
      intro st h
      refine ih _ ?_
      intro v hv
      simp only [addVariable, List.mem_append, List.mem_singleton] at hv
      rcases hv with hv | rfl
      · exact h v hv
      · rfl
  refine ⟨by simpa [addVariables] using h1, by simpa [addVariables] using h2, hc, fun v hv => ?_, fun k hk => ?_⟩
  · have := hc.bounds v.var (List.mem_map.2 ⟨v, hv, rfl⟩)
    exact ⟨this.2.1, this.2.2, hver sizes (0, []) (by simp) v hv⟩
  · obtain ⟨i, ⟨v, hv, hv1, hv2⟩, hu⟩ := hc.unique k (Nat.zero_le _) hk
    rw [List.getElem?_map, Option.map_eq_some_iff] at hv
    obtain ⟨w, hw, rfl⟩ := hv
    refine ⟨i, ⟨w, hw, hv1, hv2⟩, ?_⟩
    rintro j ⟨u, hju, hu1, hu2⟩
    exact hu j ⟨u.var, by rw [List.getElem?_map, hju]; rfl, hu1, hu2⟩

example : (addVariables (K := ℚ) [2, 0, 3]).2.map (fun v => (v.var.kStart, v.var.kEnd)) = [(0, 2), (2, 2), (2, 5)] := by
  decide +kernel

end

/-! ## C08 -/

section
variable {K : Type} [Field K] [LinearOrder K] [IsStrictOrderedRing K]

/-- **C08.** `add_limit(e, t)` adds a hard constraint which holds at `x` iff
`-t_i <= e_i(x) <= t_i` for every row. -/
theorem C08_add_limit (e : Expr K) (t : Vec K) (h : t.size = e.rows) :
    ∃ c, addLimit e t = .ok c ∧ c.priority = .hard ∧
      ∀ x, c.Sat x ↔ ∀ i, i < e.rows → -(t.v i) ≤ e.rowVal x i ∧ e.rowVal x i ≤ t.v i := by
  unfold addLimit
  simp only
  generalize he : (⟨e.rows * 2, e.cols,
      fun i j => if i < e.rows then e.A i j else -(e.A (i - e.rows) j),
      fun i => if i < e.rows then e.b i else -(e.b (i - e.rows))⟩ : Expr K) = e2
  generalize ht : (⟨t.size * 2, fun i => if i < t.size then t.v i else t.v (i - t.size)⟩ : Vec K) = t2
  have hr : e2.rows = e.rows * 2 := by rw [← he]
  have hsz : t2.size = e2.rows := by rw [← he, ← ht]; simp [h]
  have hlow : ∀ x i, i < e.rows → e2.rowVal x i = e.rowVal x i := by
    intro x i hi
    rw [← he]
    simp only [Expr.rowVal, if_pos hi]
  have hhigh : ∀ x i, e2.rowVal x (e.rows + i) = -(e.rowVal x i) := by
    intro x i
    rw [← he]
    have hn : ¬ (e.rows + i < e.rows) := by omega
    simp only [Expr.rowVal, if_neg hn, Nat.add_sub_cancel_left]
    rw [neg_add, ← sum_neg_distrib]
    congr 1
    exact sum_congr rfl fun j _ => by ring
  have htlow : ∀ i, i < e.rows → t2.v i = t.v i := by
    intro i hi; rw [← ht]; simp only [h, if_pos hi]
  have hthigh : ∀ i, t2.v (e.rows + i) = t.v i := by
    intro i
    rw [← ht]
    have hn : ¬ (e.rows + i < e.rows) := by omega
    simp only [h, if_neg hn, Nat.add_sub_cancel_left]
  obtain ⟨d, hd, hdr, hdv⟩ := C02.sub_same e2 (Expr.fromVector t2) hsz.symm
  obtain ⟨-, ⟨c, hc, hsat⟩, -⟩ := C02_vector e2 t2 hsz
  refine ⟨c, hc, ?_, fun x => ?_⟩
  · have : e2.leVec t2 = .ok { expr := d.neg, ty := .inequality, weight := 1 } := by
      rw [Expr.leVec, Expr.le, hd]; rfl
    rw [this] at hc
    cases hc; rfl
  · rw [hsat x, hr]
    constructor
    · intro H i hi
      have h1 := H i (by omega)
      have h2 := H (e.rows + i) (by omega)
      rw [hlow x i hi, htlow i hi] at h1
      rw [hhigh, hthigh] at h2
      exact ⟨by linarith, h1⟩
    · intro H i hi
      by_cases hlt : i < e.rows
      · rw [hlow x i hlt, htlow i hlt]; exact (H i hlt).2
      · obtain ⟨j, rfl⟩ : ∃ j, i = e.rows + j := ⟨i - e.rows, by omega⟩
        rw [hhigh, hthigh]
        have := (H j (by omega)).1
        linarith

/-- With another number of bounds, `add_limit` raises. -/
theorem C08_add_limit_mismatch (e : Expr K) (t : Vec K) (h : t.size ≠ e.rows) :
    addLimit e t = .error .runtimeError := by
  have h1 : ∀ k : Nat, (k * 2 == 1) = false := by intro k; rw [beq_eq_false_iff_ne]; omega
  have h2 : e.rows * 2 ≠ t.size * 2 := by omega
  unfold addLimit Expr.leVec Expr.le Expr.sub Expr.add Expr.isScalar Expr.smul Expr.fromVector
  simp only [h1, Bool.false_and, Bool.false_eq_true, if_false]
  rw [if_pos h2]
  rfl

/-- The hypotheses of `C08_add_limit` are met by a 2-row expression and bounds (1, 3):
the point (1/2, -3) is accepted, (2, 0) is not. -/
example :
    let e : Expr ℚ := ⟨2, 2, fun i j => if i = j then 1 else 0, fun _ => 0⟩
    let t : Vec ℚ := ⟨2, fun i => if i = 0 then 1 else 3⟩
    ∃ c, addLimit e t = .ok c ∧ c.Sat (fun k => if k = 0 then 1 / 2 else -3) ∧
      ¬ c.Sat (fun k => if k = 0 then 2 else 0) := by
  intro e t
  obtain ⟨c, hc, -, hs⟩ := C08_add_limit e t rfl
  refine ⟨c, hc, (hs _).2 ?_, fun H => ?_⟩
  · intro i hi
    have hi : i < 2 := hi
    interval_cases i <;> norm_num [e, t, Expr.rowVal, sum_range_succ]
  · have := ((hs _).1 H 0 (by decide)).2
    norm_num [e, t, Expr.rowVal, sum_range_succ] at this

end

/-! ## C10 -/

section
variable {K : Type} [Field K] [LinearOrder K]

theorem foldl_intervals (w : K) (e : Expr K) (l : List Interval) (wf : WellFormed l) (P : Nat → Nat → K) (r c : Nat) :
    l.foldl (addIntervalBlock w e) P r c
      = P r c + if (∃ o ∈ l, o.contains r = true ∧ o.contains c = true) then
        w * ∑ i ∈ range e.rows, e.A i r * e.A i c else 0 := by
  induction l generalizing P with
  | nil => simp
  | cons o l ih =>
    obtain ⟨h1, h2, h3⟩ := C11.wf_cons.1 wf
    rw [List.foldl_cons, ih h3]
    simp only [addIntervalBlock, Bool.and_eq_true, List.mem_cons, exists_eq_or_imp]
    by_cases ho : o.contains r = true ∧ o.contains c = true
    · have hn : ¬ ∃ o' ∈ l, o'.contains r = true ∧ o'.contains c = true := by
        rintro ⟨o', ho', hr, _⟩
        have hr1 := (C11.contains_iff o' r).1 hr
        have hr2 := (C11.contains_iff o r).1 ho.1
        have := h2 o' ho'
        omega
      rw [if_pos ho, if_neg hn, if_pos (Or.inl ho), add_zero]
    · rw [if_neg ho, add_zero]
      congr 1
      by_cases hl : ∃ o' ∈ l, o'.contains r = true ∧ o'.contains c = true
      · rw [if_pos hl, if_pos (Or.inr hl)]
      · rw [if_neg hl, if_neg (by rintro (h | h) <;> contradiction)]

/-- Columns `r` and `c` lie in the same detected interval. -/
def SameInterval (eps : K) (e : Expr K) (r c : Nat) : Prop :=
  ∃ o ∈ Sparsity.detectColumns eps ⟨e.rows, e.cols, e.A⟩, o.contains r = true ∧ o.contains c = true

/-- Exact value of the matrix accumulated by the sparse path: the products of
columns lying in different intervals are missing. -/
theorem C10_sparse_entry (eps : K) (P : Nat → Nat → K) (w : K) (e : Expr K) (r c : Nat) [Decidable (SameInterval eps e r c)] :
    addSparse eps P w e r c
      = P r c + if SameInterval eps e r c then w * ∑ i ∈ range e.rows, e.A i r * e.A i c else 0 := by
  unfold addSparse
  rw [foldl_intervals w e _ (C12_detect_columns eps _).1]
  congr 1
  by_cases h : SameInterval eps e r c
  · rw [if_pos h, if_pos (by exact h)]
  · rw [if_neg h, if_neg (by exact h)]

theorem sparse_eq_dense (eps : K) (P : Nat → Nat → K) (w : K) (e : Expr K)
    (h : ∀ r c, r < e.cols → c < e.cols → SameInterval eps e r c ∨ ∑ i ∈ range e.rows, e.A i r * e.A i c = 0) :
    addSparse eps P w e = addDense P w e := by
  classical
  funext r c
  rw [C10_sparse_entry]
  unfold addDense
  congr 1
  by_cases hs : SameInterval eps e r c
  · have hin : ∀ k : Nat, (∃ o ∈ Sparsity.detectColumns eps ⟨e.rows, e.cols, e.A⟩, o.contains k = true) → k < e.cols := by
      rintro k ⟨o, ho, hk⟩
      have hk' := (C11.contains_iff o k).1 hk
      obtain ⟨j, hj, hlt, -⟩ := ((C12_detect_columns eps ⟨e.rows, e.cols, e.A⟩).2 k).1 ⟨o, ho, hk'⟩
      have : j = k := by exact_mod_cast hj
      subst this; exact hlt
    obtain ⟨o, ho, hr, hc⟩ := hs
    rw [if_pos ⟨o, ho, hr, hc⟩, if_pos ⟨hin r ⟨o, ho, hr⟩, hin c ⟨o, ho, hc⟩⟩]
  · rw [if_neg hs]
    by_cases hrc : r < e.cols ∧ c < e.cols
    · rw [if_pos hrc, (h r c hrc.1 hrc.2).resolve_left hs, mul_zero]
    · rw [if_neg hrc]

/-- **C10, partial.** Full statement: the assembled QP does not depend on
`use_sparsity`. It holds when, in every soft equality (after elimination of the
hard equalities), any two columns that are not in the same detected interval are
orthogonal; in particular when the columns outside a single block are exactly
zero. Missing: soft equalities whose non-zero columns form several blocks with
non-orthogonal columns, for which the statement is false (`C10_sparsity_refuted`). -/
theorem C10_sparsity_partial (s : Settings K) (qr : Nat → EqSt K → QR K) (cs : List (Constr K)) (qp : QP K)
    (hqp : assemble { s with useSparsity := true } qr cs = .ok qp)
    (h : ∀ c ∈ cs, c.ty = .equality → c.priority = .soft →
      let e := reduceExpr s.n qp.red c.expr
      ∀ r k, r < e.cols → k < e.cols → SameInterval s.eps e r k ∨ ∑ i ∈ range e.rows, e.A i r * e.A i k = 0) :
    assemble { s with useSparsity := false } qr cs = .ok qp := by
  have A := assembled_of_ok hqp
  have hobj : ∀ (red : Option (Red K)) (l : List (Constr K)) (Pq : (Nat → Nat → K) × (Nat → K)), red = qp.red →
      (∀ c ∈ l, c ∈ cs) →
      l.foldl (objStep s.n red true s.eps) Pq = l.foldl (objStep s.n red false s.eps) Pq := by
    intro red l Pq hred
    subst hred
    induction l generalizing Pq with
    | nil => intro _; rfl
    | cons c l ih =>
      intro hl
      rw [List.foldl_cons, List.foldl_cons, ih _ fun c hc => hl c (by simp [hc])]
      congr 1
      unfold objStep
      by_cases hs : c.softEq = true
      · rw [if_pos hs, if_pos hs]
        have hty : c.ty = .equality ∧ c.priority = .soft := by simpa [Constr.softEq] using hs
        simp only [Bool.false_eq_true, if_false, if_true]
        rw [sparse_eq_dense s.eps Pq.1 c.weight _ (h c (hl c (by simp)) hty.1 hty.2)]
      · rw [if_neg hs, if_neg hs]
  unfold assemble at hqp ⊢
  split at hqp
  · cases hqp
  · rename_i h1
    rw [if_neg (by exact h1)]
    simp only at hqp ⊢
    split at hqp
    · cases hqp
    · rename_i h2
      rw [if_neg (by exact h2)]
      split at hqp
      · cases hqp
      · rename_i u hu
        have hq : _ = qp := Except.ok.inj hqp
        rw [← hobj _ cs _ (by rw [← hq]) (fun c hc => hc)]
        exact hqp

end

/-- A soft equality on `x0 + x2` with three variables. -/
def twoBlocks : Constr ℚ :=
  { expr := ⟨1, 3, fun _ j => if j = 1 then 0 else 1, fun _ => -2⟩, ty := .equality, priority := .soft, weight := 1 }

/-- **C10, refuted.** For the single soft equality `x0 + x2 == 2` the matrix
assembled with `use_sparsity` lacks the cross term: the QP objective differs at
the point `(1, 0, 1)` (by more than a constant: both agree at `(1, 0, 0)`). -/
theorem C10_sparsity_refuted :
    ∃ (s : Settings ℚ) (cs : List (Constr ℚ)) (qr : Nat → EqSt ℚ → QR ℚ) (qp qp' : QP ℚ),
      assemble { s with useSparsity := true } qr cs = .ok qp ∧
      assemble { s with useSparsity := false } qr cs = .ok qp' ∧
      (∃ v, qp.cost v = qp'.cost v) ∧ (∃ v, qp.cost v ≠ qp'.cost v) := by
  refine ⟨⟨3, 0, true, true, 1 / 1000⟩, [twoBlocks], fun _ _ => ⟨0, fun _ _ => 0, fun _ _ => 0, id⟩, _, _, rfl, rfl,
    ⟨fun k => if k = 0 then 1 else 0, ?_⟩, ⟨fun k => if k = 1 then 0 else 1, ?_⟩⟩
  · decide +kernel
  · decide +kernel

/-- The hypothesis of `C10_sparsity_partial` is met by a soft equality with one
block of columns. -/
example :
    let c : Constr ℚ := { expr := ⟨1, 3, fun _ j => if j = 0 then 0 else 1, fun _ => -2⟩, ty := .equality,
                          priority := .soft, weight := 5 }
    ∀ r k, r < c.expr.cols → k < c.expr.cols →
      SameInterval (1 / 1000) c.expr r k ∨ ∑ i ∈ range c.expr.rows, c.expr.A i r * c.expr.A i k = 0 := by
  intro c r k hr hk
  have hr : r < 3 := hr
  have hk : k < 3 := hk
  have hd : Sparsity.detectColumns (1 / 1000) ⟨c.expr.rows, c.expr.cols, c.expr.A⟩ = [⟨1, 2⟩] := by decide +kernel
  unfold SameInterval
  rw [hd]
  interval_cases r <;> interval_cases k <;> simp [Interval.contains, c]

end Verif.Problem
