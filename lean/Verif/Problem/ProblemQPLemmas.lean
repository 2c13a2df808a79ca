/-
Helper lemmas relating the assembled QP and the specification.
-/
import Verif.Problem.ProblemSpec
import Mathlib.Tactic.FieldSimp
import Mathlib.Tactic.LinearCombination

namespace Verif.Problem
open Finset

section
variable {K : Type} [Field K]

/-- `u = [y; v]`. -/
def Red.lift (r : Red K) (v : Nat → K) (k : Nat) : K := if k < r.d then r.y k else v (k - r.d)

/-- `x = Q u`. -/
def Red.point (r : Red K) (n : Nat) (v : Nat → K) (i : Nat) : K :=
  ∑ k ∈ range n, r.Q i k * r.lift v k

/-- The point of the original space. -/
def point (n : Nat) (red : Option (Red K)) (v : Nat → K) : Nat → K :=
  match red with
  | some r => r.point n v
  | none => v

theorem recover_eq (qp : QP K) (n : Nat) (v : Nat → K) : qp.recover n v = point n qp.red v := by
  unfold QP.recover point
  cases qp.red <;> rfl

theorem Expr.rowVal_pad (e : Expr K) (n : Nat) (h : e.cols ≤ n) (x : Nat → K) (i : Nat) :
    e.rowVal x i = (∑ k ∈ range n, e.pad i k * x k) + e.b i := by
  unfold Expr.rowVal Expr.pad
  rw [sum_pad e.cols n h]

theorem Expr.rowVal_congr {e : Expr K} {x x' : Nat → K} (h : ∀ j, j < e.cols → x j = x' j) (i : Nat) :
    e.rowVal x i = e.rowVal x' i := by
  unfold Expr.rowVal
  congr 1
  exact sum_congr rfl fun j hj => by rw [h j (mem_range.1 hj)]

/-- Constraints keep their value under the change of variables (no property of
`Q` is needed for that). -/
theorem reduce_rowVal (n : Nat) (red : Option (Red K)) (hd : ∀ r, red = some r → r.d ≤ n) (e : Expr K)
    (he : e.cols ≤ n) (v : Nat → K) (i : Nat) :
    (reduceExpr n red e).rowVal v i = e.rowVal (point n red v) i := by
  cases red with
  | none => rfl
  | some r =>
    have hd := hd r rfl
    rw [Expr.rowVal_pad e n he]
    simp only [reduceExpr, Expr.rowVal, point, Red.point]
    have h1 : ∑ k ∈ range n, e.pad i k * ∑ t ∈ range n, r.Q k t * r.lift v t
        = ∑ t ∈ range n, (∑ k ∈ range n, e.pad i k * r.Q k t) * r.lift v t := by
      simp only [mul_sum, sum_mul]
      rw [sum_comm]
      exact sum_congr rfl fun t _ => sum_congr rfl fun k _ => by ring
    rw [h1]
    obtain ⟨m, rfl⟩ : ∃ m, n = r.d + m := ⟨n - r.d, by omega⟩
    rw [sum_range_add_sum_lift r.d m]
    · rw [Nat.add_sub_cancel_left]
      have h2 : ∀ j ∈ range r.d, (∑ k ∈ range (r.d + m), e.pad i k * r.Q k j) * r.lift v j
          = (∑ k ∈ range (r.d + m), e.pad i k * r.Q k j) * r.y j := fun j hj => by
        rw [Red.lift, if_pos (mem_range.1 hj)]
      have h3 : ∀ j ∈ range m, (∑ k ∈ range (r.d + m), e.pad i k * r.Q k (r.d + j)) * r.lift v (r.d + j)
          = (∑ k ∈ range (r.d + m), e.pad i k * r.Q k (r.d + j)) * v j := fun j _ => by
        rw [Red.lift, if_neg (by omega), Nat.add_sub_cancel_left]
      rw [sum_congr rfl h2, sum_congr rfl h3]
      ring
where
  sum_range_add_sum_lift (d m : Nat) {f : Nat → K} :
      ∑ t ∈ range (d + m), f t = (∑ t ∈ range d, f t) + ∑ t ∈ range m, f (d + t) :=
    sum_range_add f d m

theorem reduce_cols (n : Nat) (red : Option (Red K)) (e : Expr K) (he : e.cols ≤ n) :
    (reduceExpr n red e).cols ≤ (match red with | some r => n - r.d | none => n) := by
  cases red with
  | none => exact he
  | some r => exact le_refl _

/-! ### The equality system -/

theorem nEqualities_append (l : List (Constr K)) (c : Constr K) :
    nEqualities (l ++ [c]) = nEqualities l + if c.hardEq then c.expr.rows else 0 := by
  simp [nEqualities]

theorem nEqualities_take_le (l : List (Constr K)) (i : Nat) (c : Constr K) (h : l[i]? = some c)
    (hc : c.hardEq = true) : nEqualities (l.take i) + c.expr.rows ≤ nEqualities l := by
  induction l generalizing i with
  | nil => simp at h
  | cons a l ih =>
    cases i with
    | zero =>
      simp only [List.getElem?_cons_zero, Option.some.injEq] at h
      subst h
      simp [nEqualities, hc]
    | succ i =>
      have := ih i (by simpa using h)
      simp only [nEqualities, List.take_succ_cons, List.map_cons, List.sum_cons] at this ⊢
      omega

theorem equalities_inv (l : List (Constr K)) :
    (equalities l).k = nEqualities l ∧
    (∀ r, nEqualities l ≤ r → ∀ t, (equalities l).A r t = 0) ∧
    (∀ i c, l[i]? = some c → c.hardEq = true → ∀ j, j < c.expr.rows →
      (∀ t, (equalities l).A (nEqualities (l.take i) + j) t = c.expr.pad j t) ∧
      (equalities l).b (nEqualities (l.take i) + j) = c.expr.b j) ∧
    (∀ r, r < nEqualities l → ∃ i c j, l[i]? = some c ∧ c.hardEq = true ∧ j < c.expr.rows ∧
      r = nEqualities (l.take i) + j) := by
  induction l using List.reverseRecOn with
  | nil => simp [equalities, nEqualities]
  | append_singleton l c ih =>
    have hfold : equalities (l ++ [c]) = eqStep (equalities l) c := by
      simp [equalities, List.foldl_append]
    have hlen : (l ++ [c])[l.length]? = some c := by simp
    have htake : (l ++ [c]).take l.length = l := by simp
    obtain ⟨i1, i2, i3, i4⟩ := ih
    rw [hfold]
    unfold eqStep
    by_cases hc : c.hardEq = true
    · rw [if_pos hc]
      refine ⟨?_, ?_, ?_, ?_⟩
      · simp [nEqualities_append, hc, i1]
      · intro r hr t
        rw [nEqualities_append, hc, if_pos rfl] at hr
        simp only [writeBlock]
        rw [if_neg (by omega)]
        exact i2 r (by omega) t
      · intro i c' hi hc' j hj
        rcases getElem?_append_cases hi with hi' | ⟨rfl, rfl⟩
        · rw [take_append_of_getElem? hi']
          have hle := nEqualities_take_le l i c' hi' hc'
          obtain ⟨h1, h2⟩ := i3 i c' hi' hc' j hj
          refine ⟨fun t => ?_, ?_⟩
          · simp only [writeBlock]; rw [if_neg (by omega)]; exact h1 t
          · simp only [writeSeg]; rw [if_neg (by omega)]; exact h2
        · rw [htake]
          refine ⟨fun t => ?_, ?_⟩
          · simp only [writeBlock, Expr.pad]
            by_cases ht : t < c'.expr.cols
            · rw [if_pos ⟨by omega, by omega, ht⟩, if_pos ht]; congr 1; omega
            · rw [if_neg (fun h => ht h.2.2), if_neg ht]; exact i2 _ (by omega) t
          · simp only [writeSeg]; rw [if_pos ⟨by omega, by omega⟩]; congr 1; omega
      · intro r hr
        rw [nEqualities_append, hc, if_pos rfl] at hr
        by_cases hlt : r < nEqualities l
        · obtain ⟨i, c', j, h1, h2, h3, h4⟩ := i4 r hlt
          exact ⟨i, c', j, getElem?_append_left' h1, h2, h3, by rw [take_append_of_getElem? h1]; exact h4⟩
        · exact ⟨l.length, c, r - nEqualities l, hlen, hc, by omega, by rw [htake]; omega⟩
    · rw [if_neg hc]
      have hn : nEqualities (l ++ [c]) = nEqualities l := by simp [nEqualities_append, hc]
      rw [hn]
      refine ⟨i1, i2, ?_, ?_⟩
      · intro i c' hi hc' j hj
        rcases getElem?_append_cases hi with hi' | ⟨rfl, rfl⟩
        · rw [take_append_of_getElem? hi']; exact i3 i c' hi' hc' j hj
        · exact absurd hc' hc
      · intro r hr
        obtain ⟨i, c', j, h1, h2, h3, h4⟩ := i4 r hr
        exact ⟨i, c', j, getElem?_append_left' h1, h2, h3, by rw [take_append_of_getElem? h1]; exact h4⟩

/-- The stacked equality system holds iff every hard equality holds. -/
theorem equalities_iff [LinearOrder K] (n : Nat) (cs : List (Constr K)) (hcols : ∀ c ∈ cs, c.expr.cols ≤ n)
    (x : Nat → K) :
    (∀ r, r < nEqualities cs → (∑ j ∈ range n, (equalities cs).A r j * x j) + (equalities cs).b r = 0) ↔
      ∀ c ∈ cs, c.hardEq = true → c.Sat x := by
  obtain ⟨_, _, i3, i4⟩ := equalities_inv cs
  have key : ∀ i c j, cs[i]? = some c → c.hardEq = true → j < c.expr.rows →
      (∑ t ∈ range n, (equalities cs).A (nEqualities (cs.take i) + j) t * x t)
        + (equalities cs).b (nEqualities (cs.take i) + j) = c.expr.rowVal x j := by
    intro i c j hi hc hj
    obtain ⟨h1, h2⟩ := i3 i c hi hc j hj
    rw [Expr.rowVal_pad c.expr n (hcols c (List.mem_of_getElem? hi)), h2]
    congr 1
    exact sum_congr rfl fun t _ => by rw [h1 t]
  have hty : ∀ c : Constr K, c.hardEq = true → c.ty = .equality := by
    intro c hc
    simp only [Constr.hardEq, Bool.and_eq_true, decide_eq_true_eq] at hc
    exact hc.1
  constructor
  · intro h c hc hce
    obtain ⟨i, hi⟩ := List.getElem?_of_mem hc
    unfold Constr.Sat
    rw [hty c hce]
    intro j hj
    rw [← key i c j hi hce hj]
    have hle := nEqualities_take_le cs i c hi hce
    exact h _ (by omega)
  · intro h r hr
    obtain ⟨i, c, j, h1, h2, h3, rfl⟩ := i4 r hr
    rw [key i c j h1 h2 h3]
    have := h c (List.mem_of_getElem? h1) h2
    unfold Constr.Sat at this
    rw [hty c h2] at this
    exact this j h3

/-! ### Forward substitution and the QR elimination -/

theorem forwardSub_length (R : Nat → Nat → K) (b2 : Nat → K) (d : Nat) : (forwardSub R b2 d).length = d := by
  induction d with
  | zero => rfl
  | succ d ih => simp [forwardSub, ih]

theorem getD_append_lt (l : List K) (a z : K) (i : Nat) (h : i < l.length) : (l ++ [a]).getD i z = l.getD i z := by
  simp [List.getD, List.getElem?_append_left h]

theorem getD_append_eq (l : List K) (a z : K) : (l ++ [a]).getD l.length z = a := by
  simp [List.getD]

/-- Forward substitution solves the triangular system. -/
theorem forwardSub_spec (R : Nat → Nat → K) (b2 : Nat → K) (d : Nat) (hd : ∀ i, i < d → R i i ≠ 0) :
    ∀ i, i < d → (∑ j ∈ range (i + 1), R j i * (forwardSub R b2 d).getD j 0) = -(b2 i) := by
  induction d with
  | zero => intro i hi; omega
  | succ d ih =>
    intro i hi
    have hlen := forwardSub_length R b2 d
    have hpre : ∀ j, j < d → (forwardSub R b2 (d + 1)).getD j 0 = (forwardSub R b2 d).getD j 0 := by
      intro j hj
      simp only [forwardSub]
      exact getD_append_lt _ _ _ _ (by omega)
    by_cases hid : i < d
    · rw [← ih (fun j hj => hd j (by omega)) i hid]
      exact sum_congr rfl fun j hj => by rw [hpre j (by have := mem_range.1 hj; omega)]
    · have : i = d := by omega
      subst this
      rw [sum_range_succ]
      have hlast : (forwardSub R b2 (i + 1)).getD i 0
          = (-(b2 i) - ∑ j ∈ range i, R j i * (forwardSub R b2 i).getD j 0) / R i i := by
        simp only [forwardSub]
        conv_lhs => rw [← hlen]
        rw [hlen]
        have := getD_append_eq (forwardSub R b2 i)
          ((-(b2 i) - ∑ j ∈ range i, R j i * (forwardSub R b2 i).getD j 0) / R i i) 0
        rw [hlen] at this
        exact this
      rw [hlast, sum_congr rfl fun j hj => by rw [hpre j (mem_range.1 hj)]]
      field_simp [hd i hi]
      ring

/-- Qᵀ x. -/
def qtx (n : Nat) (Q : Nat → Nat → K) (x : Nat → K) (j : Nat) : K := ∑ k ∈ range n, Q k j * x k

theorem sum_delta (n i : Nat) (hi : i < n) (f : Nat → K) :
    ∑ j ∈ range n, (if i = j then 1 else 0) * f j = f i := by
  rw [sum_congr rfl fun j _ => by rw [ite_mul, one_mul, zero_mul]]
  rw [sum_ite_eq (range n), if_pos (mem_range.2 hi)]

/-- `Qᵀ (Q u) = u`. -/
theorem qtx_mul (n : Nat) (Q : Nat → Nat → K) (u : Nat → K)
    (horth : ∀ i j, i < n → j < n → ∑ k ∈ range n, Q k i * Q k j = if i = j then 1 else 0)
    (j : Nat) (hj : j < n) : qtx n Q (fun i => ∑ k ∈ range n, Q i k * u k) j = u j := by
  unfold qtx
  simp only [mul_sum]
  rw [sum_comm]
  have : ∀ t ∈ range n, ∑ k ∈ range n, Q k j * (Q k t * u t) = (if j = t then 1 else 0) * u t := by
    intro t ht
    rw [← horth j t hj (mem_range.1 ht), sum_mul]
    exact sum_congr rfl fun k _ => by ring
  rw [sum_congr rfl this, sum_delta n j hj]

/-- `Q (Qᵀ x) = x`. -/
theorem mul_qtx (n : Nat) (Q : Nat → Nat → K) (x : Nat → K)
    (horth : ∀ i j, i < n → j < n → ∑ k ∈ range n, Q i k * Q j k = if i = j then 1 else 0)
    (i : Nat) (hi : i < n) : ∑ k ∈ range n, Q i k * qtx n Q x k = x i := by
  unfold qtx
  simp only [mul_sum]
  rw [sum_comm]
  have : ∀ t ∈ range n, ∑ k ∈ range n, Q i k * (Q t k * x t) = (if i = t then 1 else 0) * x t := by
    intro t ht
    rw [← horth i t hi (mem_range.1 ht), sum_mul]
    exact sum_congr rfl fun k _ => by ring
  rw [sum_congr rfl this, sum_delta n i hi]

/-- Norm preservation. -/
theorem norm_mul (n : Nat) (Q : Nat → Nat → K) (u : Nat → K)
    (horth : ∀ i j, i < n → j < n → ∑ k ∈ range n, Q k i * Q k j = if i = j then 1 else 0) :
    ∑ i ∈ range n, (∑ k ∈ range n, Q i k * u k) ^ 2 = ∑ k ∈ range n, u k ^ 2 := by
  have h1 : ∀ i ∈ range n, (∑ k ∈ range n, Q i k * u k) ^ 2
      = ∑ k ∈ range n, Q i k * (∑ t ∈ range n, Q i t * u t) * u k := by
    intro i _
    rw [sq, sum_mul]
    exact sum_congr rfl fun k _ => by ring
  rw [sum_congr rfl h1, sum_comm]
  refine sum_congr rfl fun k hk => ?_
  rw [← sum_mul]
  have := qtx_mul n Q u horth k (mem_range.1 hk)
  unfold qtx at this
  rw [this, sq]

/-- One row of the system in the rotated coordinates. -/
theorem qr_row {n m : Nat} {A : Nat → Nat → K} {f : QR K} (hqr : IsQR n m A f) (x : Nat → K) (i : Nat)
    (hi : i < m) (hin : i < n) :
    ∑ k ∈ range n, A (f.perm i) k * x k = ∑ j ∈ range (i + 1), f.R j i * qtx n f.Q x j := by
  have h1 : ∑ k ∈ range n, A (f.perm i) k * x k = ∑ j ∈ range n, f.R j i * qtx n f.Q x j := by
    unfold qtx
    rw [sum_congr rfl fun k hk => by rw [hqr.fact i k hi (mem_range.1 hk), sum_mul]]
    rw [sum_comm]
    refine sum_congr rfl fun j _ => ?_
    rw [mul_sum]
    exact sum_congr rfl fun k _ => by ring
  rw [h1]
  have hs : range (i + 1) ⊆ range n := by intro j; simp only [mem_range]; omega
  rw [← sum_subset hs]
  intro j _ hj
  rw [hqr.upper i j hi (by simpa using hj), zero_mul]

/-- The solution set of the equalities is exactly the image of the reduced
variables. -/
theorem elimination {n m : Nat} {A : Nat → Nat → K} {b : Nat → K} {f : QR K} (hqr : IsQR n m A f)
    (hrank : f.rank = m) (x : Nat → K) :
    (∀ r, r < m → (∑ k ∈ range n, A r k * x k) + b r = 0) ↔
      ∃ v, ∀ i, i < n → x i = (reduction f b).point n v i := by
  have hmn : m ≤ n := hrank ▸ hqr.rank_le
  have hd : (reduction f b).d = m := hrank
  have hQ : (reduction f b).Q = f.Q := rfl
  have hy : ∀ i, i < m → ∑ j ∈ range (i + 1), f.R j i * (reduction f b).y j = -(b (f.perm i)) := by
    intro i hi
    have := forwardSub_spec f.R (fun i => b (f.perm i)) f.rank (fun i hi => hqr.diag hrank i (hrank ▸ hi)) i (hrank ▸ hi)
    exact this
  constructor
  · intro h
    have hu : ∀ i, i < m → qtx n f.Q x i = (reduction f b).y i := by
      intro i
      induction i using Nat.strong_induction_on with
      | _ i ih =>
        intro hi
        have h1 := h (f.perm i) (hqr.permLt i hi)
        rw [qr_row hqr x i hi (by omega)] at h1
        have h2 := hy i hi
        have h3 : ∑ j ∈ range i, f.R j i * qtx n f.Q x j = ∑ j ∈ range i, f.R j i * (reduction f b).y j :=
          sum_congr rfl fun j hj => by rw [ih j (mem_range.1 hj) (by have := mem_range.1 hj; omega)]
        rw [sum_range_succ, h3] at h1
        rw [sum_range_succ] at h2
        have h4 : f.R i i * (qtx n f.Q x i - (reduction f b).y i) = 0 := by
          linear_combination h1 - h2
        rcases mul_eq_zero.1 h4 with h5 | h5
        · exact absurd h5 (hqr.diag hrank i hi)
        · exact sub_eq_zero.1 h5
    refine ⟨fun j => qtx n f.Q x (m + j), fun i hi => ?_⟩
    rw [← mul_qtx n f.Q x hqr.orthRows i hi]
    unfold Red.point
    rw [hQ]
    refine sum_congr rfl fun k hk => ?_
    congr 1
    unfold Red.lift
    rw [hd]
    by_cases hkm : k < m
    · rw [if_pos hkm, hu k hkm]
    · rw [if_neg hkm]; congr 1; omega
  · rintro ⟨v, hv⟩ r hr
    obtain ⟨i, hi, rfl⟩ := hqr.permSurj r hr
    rw [qr_row hqr x i hi (by omega)]
    have hu : ∀ j, j < n → qtx n f.Q x j = (reduction f b).lift v j := by
      intro j hj
      rw [← qtx_mul n f.Q ((reduction f b).lift v) hqr.orthCols j hj]
      unfold qtx
      exact sum_congr rfl fun k hk => by rw [hv k (mem_range.1 hk)]; rfl
    have h2 := hy i hi
    rw [sum_congr rfl fun j hj => by
      rw [hu j (by have := mem_range.1 hj; omega), Red.lift, if_pos (by rw [hd]; have := mem_range.1 hj; omega)]]
    rw [h2]; ring

/-- Squared norm of the recovered point. -/
theorem point_norm {n m : Nat} {A : Nat → Nat → K} {b : Nat → K} {f : QR K} (hqr : IsQR n m A f) (v : Nat → K) :
    ∑ i ∈ range n, (reduction f b).point n v i ^ 2
      = (∑ i ∈ range f.rank, (reduction f b).y i ^ 2) + ∑ j ∈ range (n - f.rank), v j ^ 2 := by
  have h0 : ∑ i ∈ range n, (reduction f b).point n v i ^ 2 = ∑ k ∈ range n, (reduction f b).lift v k ^ 2 :=
    norm_mul n f.Q ((reduction f b).lift v) hqr.orthCols
  rw [h0]
  have hle := hqr.rank_le
  obtain ⟨t, ht⟩ : ∃ t, n = f.rank + t := ⟨n - f.rank, by omega⟩
  have h1 : n - f.rank = t := by omega
  rw [h1, ht, sum_range_add]
  congr 1
  · exact sum_congr rfl fun j hj => by
      rw [Red.lift, if_pos (show j < (reduction f b).d from mem_range.1 hj)]
  · refine sum_congr rfl fun j _ => ?_
    rw [Red.lift, if_neg (show ¬ f.rank + j < (reduction f b).d from by show ¬ f.rank + j < f.rank; omega)]
    congr 2
    show f.rank + j - f.rank = j
    omega

end
end Verif.Problem
