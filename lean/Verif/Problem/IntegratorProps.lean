/-
Properties C24, C26, C27, C28 of the integrator.
-/
import Mathlib.Data.Rat.Floor
import Mathlib.Tactic.Ring
import Mathlib.Tactic.Linarith
import Mathlib.Tactic.FieldSimp
import Mathlib.Tactic.LinearCombination
import Mathlib.Tactic.NormNum
import Verif.Problem.ConstraintProps
import Verif.Problem.Integrator

namespace Verif.Problem
open Finset

section
variable {K : Type} [Field K]

/-- Specification: the state after `k` steps of `X <- A X + B u_k`. -/
def stateAfter (n : Nat) (A : Nat → Nat → K) (B : Nat → K) (X0 u : Nat → K) : Nat → Nat → K
  | 0 => X0
  | k + 1 => fun i => (∑ j ∈ range n, A i j * stateAfter n A B X0 u k j) + B i * u k

/-- Powers by left multiplication. -/
def mpow (n : Nat) (A : Nat → Nat → K) : Nat → Nat → Nat → K
  | 0 => ident
  | k + 1 => mmul n A (mpow n A k)

theorem ident_mvec (n : Nat) (v : Nat → K) (i : Nat) (hi : i < n) : mvec n ident v i = v i := by
  unfold mvec ident
  rw [sum_congr rfl fun k _ => by rw [ite_mul, one_mul, zero_mul]]
  rw [sum_ite_eq (range n), if_pos (mem_range.2 hi)]

theorem mmul_mvec (n : Nat) (P Q : Nat → Nat → K) (v : Nat → K) (i : Nat) :
    mvec n (mmul n P Q) v i = mvec n P (mvec n Q v) i := by
  simp only [mvec, mmul, mul_sum, sum_mul]
  rw [sum_comm]
  exact sum_congr rfl fun j _ => sum_congr rfl fun k _ => by ring

/-- Closed form of the state. -/
theorem state_closed (n : Nat) (A : Nat → Nat → K) (B : Nat → K) (X0 u : Nat → K) (k : Nat) :
    ∀ i, i < n → stateAfter n A B X0 u k i
      = mvec n (mpow n A k) X0 i + ∑ j ∈ range k, mvec n (mpow n A (k - 1 - j)) B i * u j := by
  induction k with
  | zero => intro i hi; simp [stateAfter, mpow, ident_mvec n X0 i hi]
  | succ k ih =>
    intro i hi
    simp only [stateAfter]
    have h1 : ∑ j ∈ range n, A i j * stateAfter n A B X0 u k j
        = ∑ j ∈ range n, A i j * (mvec n (mpow n A k) X0 j + ∑ t ∈ range k, mvec n (mpow n A (k - 1 - t)) B j * u t) :=
      sum_congr rfl fun j hj => by rw [ih j (mem_range.1 hj)]
    rw [h1, sum_range_succ]
    have h2 : k + 1 - 1 - k = 0 := by omega
    rw [h2, show mpow n A 0 = ident from rfl, ident_mvec n B i hi]
    rw [show mpow n A (k + 1) = mmul n A (mpow n A k) from rfl, mmul_mvec]
    simp only [mul_add, sum_add_distrib]
    have h3 : ∑ j ∈ range n, A i j * ∑ t ∈ range k, mvec n (mpow n A (k - 1 - t)) B j * u t
        = ∑ t ∈ range k, mvec n (mpow n A (k + 1 - 1 - t)) B i * u t := by
      simp only [mul_sum]
      rw [sum_comm]
      refine sum_congr rfl fun t ht => ?_
      have ht := mem_range.1 ht
      have : k + 1 - 1 - t = (k - 1 - t) + 1 := by omega
      rw [this, show mpow n A (k - 1 - t + 1) = mmul n A (mpow n A (k - 1 - t)) from rfl, mmul_mvec]
      rw [show mvec n A (mvec n (mpow n A (k - 1 - t)) B) i = ∑ j ∈ range n, A i j * mvec n (mpow n A (k - 1 - t)) B j from rfl,
        sum_mul]
      exact sum_congr rfl fun j _ => by ring
    rw [h3]
    show mvec n A (mvec n (mpow n A k) X0) i + _ + _ = _
    ring

/-- What the constructor's loop computes. -/
theorem ctor_inv (order N : Nat) (A : Nat → Nat → K) (B : Nat → K) (m : Nat) (hm : m ≤ N) :
    let st := (List.range m).foldl (ctorStep order N A B)
      ⟨ident, fun _ _ => 0, fun s => if s = 0 then ident else fun _ _ => 0⟩
    st.Ak = mpow order A m ∧ (∀ s, s ≤ m → st.powers s = mpow order A s) ∧
    (∀ s i, s < m → st.ftm i (N - s - 1) = mvec order (mpow order A s) B i) := by
  induction m with
  | zero =>
    refine ⟨rfl, fun s hs => ?_, fun s i hs => by omega⟩
    have : s = 0 := by omega
    subst this; rfl
  | succ m ih =>
    obtain ⟨h1, h2, h3⟩ := ih (by omega)
    rw [List.range_succ, List.foldl_append, List.foldl_cons, List.foldl_nil]
    generalize (List.range m).foldl (ctorStep order N A B)
      ⟨ident, fun _ _ => 0, fun s => if s = 0 then ident else fun _ _ => 0⟩ = st at h1 h2 h3
    refine ⟨?_, fun s hs => ?_, fun s i hs => ?_⟩
    · simp only [ctorStep, h1]; rfl
    · simp only [ctorStep]
      by_cases hsm : s = m + 1
      · rw [if_pos hsm, h1, hsm]; rfl
      · rw [if_neg hsm]; exact h2 s (by omega)
    · simp only [ctorStep]
      by_cases hsm : s = m
      · subst hsm; rw [if_pos rfl, h1]
      · rw [if_neg (by omega)]; exact h3 s i (by omega)

theorem add_rows_eq (e o : Expr K) (h : e.rows = o.rows) :
    ∃ r, e.add o = .ok r ∧ r.rows = e.rows ∧ ∀ x i, i < e.rows → r.rowVal x i = e.rowVal x i + o.rowVal x i := by
  obtain ⟨r, hr⟩ := Expr.add_ok_of_rows e o h
  obtain ⟨h1, h2⟩ := Expr.add_rowVal_of_rows hr h
  exact ⟨r, hr, h1, h2⟩

theorem rowVal_matMul (m n : Nat) (P : Nat → Nat → K) (e : Expr K) (h : n = e.rows) :
    ∃ r, Expr.matMul ⟨m, n, P⟩ e = .ok r ∧ r.rows = m ∧ r.cols = e.cols ∧
      ∀ x i, r.rowVal x i = ∑ k ∈ range n, P i k * e.rowVal x k := by
  subst h
  refine ⟨⟨m, e.cols, fun i j => ∑ k ∈ range e.rows, P i k * e.A k j, fun i => ∑ k ∈ range e.rows, P i k * e.b k⟩,
    by unfold Expr.matMul; rw [if_pos rfl], rfl, rfl, fun x i => ?_⟩
  simp only [Expr.rowVal, mul_add, sum_add_distrib, mul_sum, sum_mul]
  congr 1
  rw [sum_comm]
  exact sum_congr rfl fun k _ => sum_congr rfl fun j _ => by ring

/-- Value of the block of inputs written in an expression. -/
theorem block_rowVal (v : Var) (hv : v.kStart ≤ v.kEnd) (s : Nat) (hs : s ≤ v.size) (f : Nat → K) (x : Nat → K) :
    ∑ j ∈ range v.kEnd, (if v.kStart ≤ j ∧ j < v.kStart + s then f (j - v.kStart) else 0) * x j
      = ∑ t ∈ range s, f t * x (v.kStart + t) := by
  have hsz : v.size = v.kEnd - v.kStart := rfl
  obtain ⟨m, hm⟩ : ∃ m, v.kEnd = v.kStart + (s + m) := ⟨v.kEnd - v.kStart - s, by omega⟩
  rw [hm, sum_range_add, sum_range_add]
  have h1 : ∑ j ∈ range v.kStart, (if v.kStart ≤ j ∧ j < v.kStart + s then f (j - v.kStart) else 0) * x j = 0 :=
    sum_eq_zero fun j hj => by
      have := mem_range.1 hj
      rw [if_neg (by omega), zero_mul]
  have h2 : ∑ j ∈ range m, (if v.kStart ≤ v.kStart + (s + j) ∧ v.kStart + (s + j) < v.kStart + s
      then f (v.kStart + (s + j) - v.kStart) else 0) * x (v.kStart + (s + j)) = 0 :=
    sum_eq_zero fun j _ => by rw [if_neg (by omega), zero_mul]
  rw [h1, h2, zero_add, add_zero]
  refine sum_congr rfl fun t ht => ?_
  have := mem_range.1 ht
  rw [if_pos (by omega), Nat.add_sub_cancel_left]

/-- The integrators built by the constructors. -/
structure Built (I : Integrator K) (AB : K → (Nat → Nat → K) × (Nat → K)) : Prop where
  range : I.var.kStart ≤ I.var.kEnd
  rows : I.X0.rows = I.order
  ab : I.AB = AB
  A : I.A = (AB I.dt).1
  B : I.B = (AB I.dt).2
  powers : ∀ s, s ≤ I.var.size → I.aPowers s = mpow I.order I.A s
  ftm : ∀ s i, s < I.var.size → I.finalTransition i (I.var.size - s - 1) = mvec I.order (mpow I.order I.A s) I.B i

theorem built_mkOrder (var : Var) (hv : var.kStart ≤ var.kEnd) (X0 : Expr K) (order : Nat)
    (AB : K → (Nat → Nat → K) × (Nat → K)) (dt : K) (I : Integrator K)
    (h : Integrator.mkOrder var X0 order AB dt = .ok I) (t0 : K) : Built { I with tStart := t0 } AB := by
  unfold Integrator.mkOrder at h
  split at h
  · cases h
  · rename_i hr
    cases h
    obtain ⟨-, h2, h3⟩ := ctor_inv order var.size (AB dt).1 (AB dt).2 var.size (le_refl _)
    exact ⟨hv, not_not.1 hr, rfl, rfl, rfl, h2, h3⟩

variable {I : Integrator K} {AB : K → (Nat → Nat → K) × (Nat → K)}

/-- Inputs read by the integrator at `x`. -/
def inputs (I : Integrator K) (x : Nat → K) (k : Nat) : K := x (I.var.kStart + k)

theorem var_expr_one (v : Var) (hv : v.kStart ≤ v.kEnd) (k : Nat) (hk : k < v.size) :
    ∃ e : Expr K, v.expr k 1 = .ok e ∧ e.rows = 1 ∧ ∀ x, e.rowVal x 0 = x (v.kStart + k) := by
  have hsz : v.size = v.kEnd - v.kStart := rfl
  refine ⟨_, by
    unfold Var.expr
    simp only
    rw [if_neg (by omega : ¬ ((k : Int) = -1)), if_neg (by omega : ¬ ((1 : Int) = -1)), if_pos (by omega)], rfl, fun x => ?_⟩
  simp only [Expr.rowVal, add_zero]
  have : ((v.kStart : Int) + (k : Int)).toNat = v.kStart + k := by omega
  rw [this, sum_congr rfl fun j _ => by rw [ite_mul, one_mul, zero_mul]]
  rw [sum_ite_eq' (range v.kEnd), if_pos (mem_range.2 (by omega))]

/-- Row `d` of the inputs' contribution. -/
theorem inputs_contribution (hb : Built I AB) (s d : Nat) (hs : s ≤ I.var.size) (x : Nat → K) :
    ∑ j ∈ range I.var.kEnd, (if I.var.kStart ≤ j ∧ j < I.var.kStart + s then
        I.finalTransition d (I.var.size - s + (j - I.var.kStart)) else 0) * x j
      = ∑ t ∈ range s, mvec I.order (mpow I.order I.A (s - 1 - t)) I.B d * inputs I x t := by
  rw [block_rowVal I.var hb.range s hs (fun j => I.finalTransition d (I.var.size - s + j)) x]
  refine sum_congr rfl fun t ht => ?_
  have ht := mem_range.1 ht
  have h := hb.ftm (s - 1 - t) d (by omega)
  have e1 : I.var.size - (s - 1 - t) - 1 = I.var.size - s + t := by omega
  rw [e1] at h
  rw [h]; rfl

/-- **C24 (state).** `expr(k)` has `order` rows and evaluates, for every assignment of
the decision variables, to the state after `k` steps. -/
theorem C24_state (hb : Built I AB) (k : Nat) (hk : k ≤ I.var.size) :
    ∃ e, I.expr k (-1) = .ok e ∧ e.rows = I.order ∧ ∀ x i, i < I.order →
      e.rowVal x i = stateAfter I.order I.A I.B (fun j => I.X0.rowVal x j) (inputs I x) k i := by
  obtain ⟨p, hp, hpr, -, hpv⟩ := rowVal_matMul I.order I.order (I.aPowers k) I.X0 hb.rows.symm
  obtain ⟨r, hr, hrr, hrv⟩ := add_rows_eq (⟨I.order, I.var.kEnd,
    fun i j => if I.var.kStart ≤ j ∧ j < I.var.kStart + k then
      I.finalTransition i (I.var.size - k + (j - I.var.kStart)) else 0, fun _ => 0⟩ : Expr K) p hpr.symm
  refine ⟨r, ?_, hrr, fun x i hi => ?_⟩
  · unfold Integrator.expr checkDiff
    rw [if_neg (by simp only [if_true]; omega)]
    show (if _ then _ else _) = _
    rw [if_neg (by omega : ¬ ((k : Int) = -1)), if_neg (by omega), if_neg (by omega), if_pos rfl, Int.toNat_natCast, hp]
    exact hr
  · rw [hrv x i hi, hpv, state_closed _ _ _ _ _ k i hi, hb.powers k hk]
    have := inputs_contribution hb k i hk x
    simp only [Expr.rowVal, add_zero] at this ⊢
    rw [this]
    unfold mvec
    ring

/-- **C24 (component).** `expr(k, d)` is component `d` of the state. -/
theorem C24_component (hb : Built I AB) (k d : Nat) (hk : k ≤ I.var.size) (hd : d < I.order) :
    ∃ e, I.expr k d = .ok e ∧ e.rows = 1 ∧ ∀ x,
      e.rowVal x 0 = stateAfter I.order I.A I.B (fun j => I.X0.rowVal x j) (inputs I x) k d := by
  obtain ⟨p, hp, hpr, -, hpv⟩ := rowVal_matMul I.order I.order (I.aPowers k) I.X0 hb.rows.symm
  have hslice : p.slice d 1 = .ok ⟨1, p.cols, fun i j => p.A (d + i) j, fun i => p.b (d + i)⟩ := by
    unfold Expr.slice
    simp only
    rw [if_neg (by omega : ¬ ((1 : Int) < 0)), if_pos (by omega)]
    simp
  obtain ⟨r, hr, hrr, hrv⟩ := add_rows_eq (⟨1, I.var.kEnd,
    fun _ j => if I.var.kStart ≤ j ∧ j < I.var.kStart + k then
      I.finalTransition d (I.var.size - k + (j - I.var.kStart)) else 0, fun _ => 0⟩ : Expr K)
    ⟨1, p.cols, fun i j => p.A (d + i) j, fun i => p.b (d + i)⟩ rfl
  refine ⟨r, ?_, hrr, fun x => ?_⟩
  · unfold Integrator.expr checkDiff
    rw [if_neg (by simp; omega)]
    show (if _ then _ else _) = _
    rw [if_neg (by omega : ¬ ((k : Int) = -1)), if_neg (by omega), if_neg (by omega), if_neg (by omega),
      Int.toNat_natCast, Int.toNat_natCast, hp]
    show (do let q ← p.slice d 1; _) = _
    rw [hslice]
    exact hr
  · rw [hrv x 0 Nat.zero_lt_one, state_closed _ _ _ _ _ k d hd]
    have hq : (⟨1, p.cols, fun i j => p.A (d + i) j, fun i => p.b (d + i)⟩ : Expr K).rowVal x 0 = p.rowVal x d := rfl
    rw [hq, hpv, hb.powers k hk]
    have := inputs_contribution hb k d hk x
    simp only [Expr.rowVal, add_zero] at this ⊢
    rw [this]
    unfold mvec
    ring

/-- **C24 (input).** `expr(k, order)` is the `k`-th input, for `k < N`. -/
theorem C24_input (hb : Built I AB) (k : Nat) (hk : k < I.var.size) :
    ∃ e, I.expr k I.order = .ok e ∧ e.rows = 1 ∧ ∀ x, e.rowVal x 0 = inputs I x k := by
  obtain ⟨e, he, her, hev⟩ := var_expr_one (K := K) I.var hb.range k hk
  refine ⟨e, ?_, her, hev⟩
  unfold Integrator.expr checkDiff
  rw [if_neg (by simp)]
  show (if _ then _ else _) = _
  rw [if_neg (by omega : ¬ ((k : Int) = -1)), if_neg (by omega), if_pos rfl]
  exact he

/-- **C24 (last step).** `expr(-1, d)` is `expr(N, d)`. -/
theorem C24_last_step (I : Integrator K) (diff : Int) : I.expr (-1) diff = I.expr (I.var.size : Nat) diff := by
  unfold Integrator.expr
  have h : ¬ ((I.var.size : Int) = -1) := by omega
  simp only [if_true, if_neg h]

/-- **C24 (errors).** Steps other than -1, 0..N and orders other than -1..order raise. -/
theorem C24_errors (I : Integrator K) (step diff : Int)
    (h : diff < -1 ∨ (I.order : Int) < diff ∨ step < -1 ∨ (I.var.size : Int) < step) :
    I.expr step diff = .error .runtimeError := by
  unfold Integrator.expr checkDiff
  by_cases hd : diff < -1 ∨ (I.order : Int) < diff
  · simp only [if_true]
    rw [if_pos hd]; rfl
  · simp only [if_true]
    rw [if_neg hd]
    show (if _ then _ else _) = _
    have : ¬ (step = -1) := by omega
    rw [if_neg this, if_pos (by omega)]

/-- **C24, refuted part.** At the last step the input expression `expr(N, order)` passes
all checks but writes outside of its matrix. -/
theorem C24_refuted (I : Integrator K) (hv : I.var.kStart ≤ I.var.kEnd) :
    I.expr I.var.size I.order = .error .ub ∧ I.expr (-1) I.order = .error .ub := by
  have hsz : I.var.size = I.var.kEnd - I.var.kStart := rfl
  have h1 : I.expr I.var.size I.order = .error .ub := by
    unfold Integrator.expr checkDiff
    rw [if_neg (by simp)]
    show (if _ then _ else _) = _
    rw [if_neg (by omega : ¬ ((I.var.size : Int) = -1)), if_neg (by omega), if_pos rfl]
    unfold Var.expr
    simp only
    rw [if_neg (by omega : ¬ ((I.var.size : Int) = -1)), if_neg (by omega : ¬ ((1 : Int) = -1)), if_neg (by omega)]
  exact ⟨h1, by rw [C24_last_step]; exact h1⟩

/-- **C24, partial.** Everything claimed, except the input expression at the last step
(`expr(N, order)`, `expr(-1, order)`), which is neither an input nor an error: see
`C24_refuted`. -/
theorem C24_dynamics_partial (hb : Built I AB) :
    (∀ k, k ≤ I.var.size → ∃ e, I.expr k (-1) = .ok e ∧ e.rows = I.order ∧ ∀ x i, i < I.order →
      e.rowVal x i = stateAfter I.order I.A I.B (fun j => I.X0.rowVal x j) (inputs I x) k i) ∧
    (∀ k d, k ≤ I.var.size → d < I.order → ∃ e, I.expr k d = .ok e ∧ e.rows = 1 ∧ ∀ x,
      e.rowVal x 0 = stateAfter I.order I.A I.B (fun j => I.X0.rowVal x j) (inputs I x) k d) ∧
    (∀ k, k < I.var.size → ∃ e, I.expr k I.order = .ok e ∧ e.rows = 1 ∧ ∀ x, e.rowVal x 0 = inputs I x k) ∧
    (∀ step diff : Int, diff < -1 ∨ (I.order : Int) < diff ∨ step < -1 ∨ (I.var.size : Int) < step →
      I.expr step diff = .error .runtimeError) :=
  ⟨C24_state hb, fun k d => C24_component hb k d, C24_input hb, C24_errors I⟩

end

/-! ## C26 -/

section
variable {K : Type} [Field K] [LinearOrder K] [IsStrictOrderedRing K] [FloorRing K]
variable {I : Integrator K} {AB : K → (Nat → Nat → K) × (Nat → K)}

theorem keyframes_getD (order : Nat) (A : Nat → Nat → K) (B : Nat → K) (us : List K) : ∀ (X : Nat → K) (u : Nat → K),
    (∀ k, k < us.length → us.getD k 0 = u k) → ∀ k, k ≤ us.length → ∀ i,
    (keyframes order A B X us).getD k (fun _ => 0) i = stateAfter order A B X u k i := by
  induction us with
  | nil =>
    intro X u _ k hk i
    have : k = 0 := by simpa using hk
    subst this; rfl
  | cons a us ih =>
    intro X u hu k hk i
    cases k with
    | zero => rfl
    | succ k =>
      simp only [keyframes, List.getD_cons_succ]
      rw [ih _ (fun j => u (j + 1)) (fun j hj => by
        have := hu (j + 1) (by simpa using hj)
        simpa using this) k (by simpa using hk) i]
      have h0 : a = u 0 := by simpa using hu 0 (by simp)
      have : ∀ m i, stateAfter order A B (fun i => mvec order A X i + B i * a) (fun j => u (j + 1)) m i
          = stateAfter order A B X u (m + 1) i := by
        intro m
        induction m with
        | zero => intro i; simp only [stateAfter, mvec, h0]
        | succ m ihm =>
          intro i
          simp only [stateAfter] at ihm ⊢
          congr 1
          exact sum_congr rfl fun j _ => by rw [ihm j]
      exact this k i

theorem keyframes_length (order : Nat) (A : Nat → Nat → K) (B : Nat → K) (us : List K) : ∀ X,
    (keyframes order A B X us).length = us.length + 1 := by
  induction us with
  | nil => intro X; rfl
  | cons a us ih => intro X; simp [keyframes, ih]

/-- The variable's value in a solution `x`. -/
def sliceOf (v : Var) (x : Nat → K) : List K := (List.range v.size).map fun k => x (v.kStart + k)

theorem sliceOf_getD (v : Var) (x : Nat → K) (k : Nat) (hk : k < v.size) : (sliceOf v x).getD k 0 = x (v.kStart + k) := by
  simp [sliceOf, List.getD, hk]

/-- The segment index computed by both functions for a time inside the horizon. -/
theorem segment_index (N : Nat) (hN : 0 < N) (dt : K) (hdt : 0 < dt) (t : K) (h0 : 0 ≤ t) (h1 : t ≤ N * dt) :
    ∃ k : Nat, k < N ∧ (k : K) * dt ≤ t ∧ t ≤ (k + 1) * dt ∧
      max (min ((N : Int) - 1) (truncZ (t / dt))) 0 = (k : Int) ∧
      (let f : Int := ⌊t / dt⌋
       let a : Int := if f < 0 then 0 else f
       (if (N : Int) ≤ a then (N : Int) - 1 else a)) = (k : Int) := by
  have hq0 : 0 ≤ t / dt := div_nonneg h0 hdt.le
  have hf0 : 0 ≤ ⌊t / dt⌋ := Int.floor_nonneg.2 hq0
  have htr : truncZ (t / dt) = ⌊t / dt⌋ := by unfold truncZ; rw [if_pos hq0]
  have hq1 : t / dt ≤ N := by rw [div_le_iff₀ hdt]; exact h1
  have hfl : (⌊t / dt⌋ : K) ≤ t / dt := Int.floor_le _
  have hlt : t / dt < ⌊t / dt⌋ + 1 := Int.lt_floor_add_one _
  rw [htr]
  by_cases hc : ⌊t / dt⌋ < (N : Int)
  · obtain ⟨k, hk⟩ : ∃ k : Nat, ⌊t / dt⌋ = (k : Int) := ⟨⌊t / dt⌋.toNat, by omega⟩
    rw [hk] at hfl hlt hc ⊢
    refine ⟨k, by omega, ?_, ?_, by omega, ?_⟩
    · rw [← le_div_iff₀ hdt]; exact_mod_cast hfl
    · rw [← div_le_iff₀ hdt]; exact le_of_lt (by exact_mod_cast hlt)
    · simp only
      rw [if_neg (by omega), if_neg (by omega)]
  · have hfN : ⌊t / dt⌋ ≤ (N : Int) := by
      have : ⌊t / dt⌋ ≤ ⌊((N : Int) : K)⌋ := Int.floor_le_floor (by exact_mod_cast hq1)
      rwa [Int.floor_intCast] at this
    have hfeq : ⌊t / dt⌋ = (N : Int) := by omega
    have hteq : t / dt = N := le_antisymm hq1 (by rw [hfeq] at hfl; exact_mod_cast hfl)
    have ht : t = N * dt := by rw [← hteq]; field_simp
    obtain ⟨m, rfl⟩ : ∃ m, N = m + 1 := ⟨N - 1, by omega⟩
    refine ⟨m, by omega, ?_, ?_, by rw [hfeq]; omega, ?_⟩
    · rw [ht]; push_cast; nlinarith
    · rw [ht]; push_cast; exact le_refl _
    · rw [hfeq]
      have h1 : ¬ (((m + 1 : Nat) : Int) < 0) := by omega
      simp only [if_neg h1, le_refl, if_true]
      omega

/-- **C26.** For every `t` inside the horizon and every derivative order, the value of
the planned expression at the solution equals the executed trajectory's value. -/
theorem C26_plan_equals_execution (hb : Built I AB) (hN : 0 < I.var.size) (hdt : 0 < I.dt) (t : K)
    (h0 : I.tStart ≤ t) (h1 : t ≤ I.tStart + I.var.size * I.dt) (d : Nat) (hd : d ≤ I.order) (x : Nat → K) :
    ∃ e, I.exprT t d = .ok e ∧ e.rows = 1 ∧
      (I.makeTrajectory x (sliceOf I.var x)).value t d = .ok (e.rowVal x 0) := by
  obtain ⟨k, hkN, hkt, hkt', hstep, hstep'⟩ := segment_index I.var.size hN I.dt hdt (t - I.tStart)
    (by linarith) (by linarith)
  obtain ⟨u, hu, hur, huv⟩ := var_expr_one (K := K) I.var hb.range k hkN
  have hrem : max 0 (min I.dt (t - I.tStart - (k : K) * I.dt)) = t - I.tStart - (k : K) * I.dt := by
    rw [min_eq_right (by linarith), max_eq_right (by linarith)]
  have hlen : (sliceOf I.var x).length = I.var.size := by simp [sliceOf]
  have hval : (I.makeTrajectory x (sliceOf I.var x)).value t d
      = if (d : Int) = I.order then .ok (inputs I x k) else
        .ok (mvec I.order (I.AB (t - I.tStart - (k : K) * I.dt)).1
          (stateAfter I.order I.A I.B (fun j => I.X0.rowVal x j) (inputs I x) k) d
          + (I.AB (t - I.tStart - (k : K) * I.dt)).2 d * inputs I x k) := by
    unfold Trajectory.value checkDiff Integrator.makeTrajectory
    simp only [Bool.false_eq_true, if_false, hlen]
    rw [if_neg (by omega)]
    simp only at hstep'
    show (if _ < (0 : Int) then _ else _) = _
    rw [hstep', if_neg (by omega)]
    simp only [Int.toNat_natCast, Int.cast_natCast]
    rw [hrem, sliceOf_getD I.var x k hkN]
    have hkf : (keyframes I.order I.A I.B (fun i => I.X0.rowVal x i) (sliceOf I.var x)).getD k (fun _ => 0)
        = stateAfter I.order I.A I.B (fun j => I.X0.rowVal x j) (inputs I x) k := by
      funext i
      exact keyframes_getD I.order I.A I.B (sliceOf I.var x) _ (inputs I x)
        (fun k hk => sliceOf_getD I.var x k (by rw [← hlen]; exact hk)) k (by omega) i
    rw [hkf]
    split <;> rfl
  rw [hval]
  by_cases hdo : (d : Int) = I.order
  · rw [if_pos hdo]
    refine ⟨u, ?_, hur, by rw [huv x]; rfl⟩
    unfold Integrator.exprT
    simp only
    rw [if_pos hdo, hstep]
    exact hu
  · rw [if_neg hdo]
    obtain ⟨es, hes, hesr, hesv⟩ := C24_state hb k hkN.le
    obtain ⟨l, hl, hlr, -, hlv⟩ := rowVal_matMul I.order I.order (I.AB (t - I.tStart - (k : K) * I.dt)).1 es hesr.symm
    obtain ⟨r, hr, hrr, -, hrv⟩ := rowVal_matMul I.order 1 (fun i _ => (I.AB (t - I.tStart - (k : K) * I.dt)).2 i) u hur.symm
    obtain ⟨e, he, her, hev⟩ := add_rows_eq l r (by rw [hlr, hrr])
    refine ⟨⟨1, e.cols, fun _ j => e.A d j, fun _ => e.b d⟩, ?_, rfl, ?_⟩
    · unfold Integrator.exprT
      simp only
      rw [if_neg hdo, hstep]
      simp only [Int.cast_natCast]
      rw [hes]
      show (do let l ← Expr.matMul _ es; _) = _
      rw [hl]
      show (do let u ← I.var.expr k 1; _) = _
      rw [hu]
      show (do let r ← Expr.matMul _ u; _) = _
      rw [hr]
      show (do let e ← l.add r; _) = _
      rw [he]
      have hlt : (d : Int) < e.rows := by rw [her, hlr]; omega
      have hpos : (-1 : Int) < d := by omega
      show (if (-1 : Int) < d then (if (d : Int) < e.rows then
        pure (⟨1, e.cols, fun _ j => e.A (d : Int).toNat j, fun _ => e.b (d : Int).toNat⟩ : Expr K) else (Except.error Err.ub : Except Err (Expr K)))
        else pure e) = _
      rw [if_pos hpos, if_pos hlt]
      rfl
    · congr 1
      have : (⟨1, e.cols, fun _ j => e.A d j, fun _ => e.b d⟩ : Expr K).rowVal x 0 = e.rowVal x d := rfl
      rw [this, hev x d (by rw [hlr]; omega), hlv, hrv, sum_range_one, huv]
      unfold mvec
      congr 1
      exact sum_congr rfl fun j hj => by rw [hesv x j (mem_range.1 hj)]

/-- **C26 (step boundaries).** At the boundary `t_start + k dt` the planned value of
component `d` is the state of `expr(k, d)`, provided the transition matrices over
duration 0 are the identity (proved for the matrix exponential in C25). -/
theorem C26_boundaries (hb : Built I AB) (hN : 0 < I.var.size) (hdt : 0 < I.dt)
    (hAB0 : (∀ i j, i < I.order → j < I.order → (AB 0).1 i j = if i = j then 1 else 0) ∧ ∀ i, i < I.order → (AB 0).2 i = 0)
    (k d : Nat) (hk : k ≤ I.var.size) (hd : d < I.order) (x : Nat → K) :
    ∃ e e', I.exprT (I.tStart + k * I.dt) d = .ok e ∧ I.expr k d = .ok e' ∧ e.rowVal x 0 = e'.rowVal x 0 := by
  obtain ⟨e', he', -, hev'⟩ := C24_component hb k d hk hd
  have hmul : (k : K) * I.dt ≤ I.var.size * I.dt :=
    mul_le_mul_of_nonneg_right (by exact_mod_cast hk) hdt.le
  have hk0 : 0 ≤ (k : K) * I.dt := mul_nonneg (Nat.cast_nonneg _) hdt.le
  obtain ⟨e, he, her, hv⟩ := C26_plan_equals_execution hb hN hdt (I.tStart + k * I.dt) (by linarith) (by linarith) d hd.le x
  refine ⟨e, e', he, he', ?_⟩
  rw [hev' x]
  -- recompute the trajectory value
  have hlen : (sliceOf I.var x).length = I.var.size := by simp [sliceOf]
  have hq : (I.tStart + (k : K) * I.dt - I.tStart) / I.dt = (k : K) := by field_simp; ring
  have hkf : ∀ m, m ≤ I.var.size →
      (keyframes I.order I.A I.B (fun i => I.X0.rowVal x i) (sliceOf I.var x)).getD m (fun _ => 0)
        = stateAfter I.order I.A I.B (fun j => I.X0.rowVal x j) (inputs I x) m := by
    intro m hm
    funext i
    exact keyframes_getD I.order I.A I.B (sliceOf I.var x) _ (inputs I x)
      (fun k hk => sliceOf_getD I.var x k (by rw [← hlen]; exact hk)) m (by omega) i
  have hdo : ¬ ((d : Int) = I.order) := by omega
  unfold Trajectory.value checkDiff Integrator.makeTrajectory at hv
  simp only [Bool.false_eq_true, if_false, hlen] at hv
  rw [if_neg (by omega)] at hv
  have hfl : ⌊(I.tStart + (k : K) * I.dt - I.tStart) / I.dt⌋ = (k : Int) := by
    rw [hq]; exact_mod_cast Int.floor_natCast (R := K) k
  rw [hfl] at hv
  have hneg : ¬ ((k : Int) < 0) := by omega
  simp only [if_neg hneg] at hv
  by_cases hkN : k < I.var.size
  · have hlt : ¬ ((I.var.size : Int) ≤ (k : Int)) := by omega
    simp only [if_neg hlt, if_neg hneg, if_neg hdo, Int.toNat_natCast, Int.cast_natCast] at hv
    have hrem : max 0 (min I.dt (I.tStart + (k : K) * I.dt - I.tStart - (k : K) * I.dt)) = 0 := by
      have : I.tStart + (k : K) * I.dt - I.tStart - (k : K) * I.dt = 0 := by ring
      rw [this, min_eq_right hdt.le, max_self]
    rw [hrem, hkf k hk, hb.ab] at hv
    have hv : .ok _ = (.ok (e.rowVal x 0) : Except Err K) := hv
    have hv := Except.ok.inj hv
    rw [← hv, hAB0.2 d hd, zero_mul, add_zero]
    unfold mvec
    rw [sum_congr rfl fun j hj => by rw [hAB0.1 d j hd (mem_range.1 hj), ite_mul, one_mul, zero_mul]]
    rw [sum_ite_eq (range I.order), if_pos (mem_range.2 hd)]
  · have hkeq : k = I.var.size := by omega
    obtain ⟨m, hm⟩ : ∃ m, I.var.size = m + 1 := ⟨I.var.size - 1, by omega⟩
    have hge : (I.var.size : Int) ≤ (k : Int) := by omega
    have hm1 : (I.var.size : Int) - 1 = (m : Int) := by omega
    have hmn : ¬ ((m : Int) < 0) := by omega
    simp only [if_pos hge, hm1, if_neg hmn, if_neg hdo, Int.toNat_natCast, Int.cast_natCast] at hv
    have hrem : max 0 (min I.dt (I.tStart + (k : K) * I.dt - I.tStart - (m : K) * I.dt)) = I.dt := by
      have : I.tStart + (k : K) * I.dt - I.tStart - (m : K) * I.dt = I.dt := by
        rw [hkeq, hm]; push_cast; ring
      rw [this, min_self, max_eq_right hdt.le]
    rw [hrem, hkf m (by omega), sliceOf_getD I.var x m (by omega), hb.ab, ← hb.A, ← hb.B] at hv
    have hv : .ok _ = (.ok (e.rowVal x 0) : Except Err K) := hv
    have hv := Except.ok.inj hv
    rw [← hv, hkeq, hm]
    rfl

/-! ## C27 -/

/-- **C27, partial.** `duration()` is `(N + 1) dt`, one step too long: full statement
`N dt`; refuted below for every positive `dt`. -/
theorem C27_duration_partial (I : Integrator K) (x : Nat → K) (value : List K) :
    (I.makeTrajectory x value).duration = (value.length + 1 : K) * I.dt := by
  unfold Trajectory.duration Integrator.makeTrajectory
  simp only [keyframes_length]
  push_cast; ring

/-- **C27, refuted**, for every integrator with a positive time step. -/
theorem C27_refuted (I : Integrator K) (hdt : 0 < I.dt) (x : Nat → K) (value : List K) :
    (I.makeTrajectory x value).duration ≠ (value.length : K) * I.dt := by
  rw [C27_duration_partial]
  intro h
  have : I.dt = 0 := by linear_combination h
  exact hdt.ne' this

/-! ## C28 -/

/-- Run a history; outputs are collected. -/
def intRun (s : IntSt K) : List (IntOp K) → IntSt K × List (Except Err (Trajectory K))
  | [] => (s, [])
  | op :: ops =>
    let r := intStep s op
    let r' := intRun r.1 ops
    (r'.1, r.2.toList ++ r'.2)

/-- Initial state. -/
def intInit (I : Integrator K) (x : Nat → K) : IntSt K := ⟨I, 0, none, 0, [], x⟩

/-- Specification: what a read must return given the last successful solution. -/
def expectedRead (I : Integrator K) : Option (Nat → K) → Except Err (Trajectory K)
  | none => .error .runtimeError
  | some x => .ok (I.makeTrajectory x (sliceOf I.var x))

/-- Specification of a whole history: the results of the reads. -/
def specRun (I : Integrator K) (last : Option (Nat → K)) : List (IntOp K) → List (Except Err (Trajectory K))
  | [] => []
  | .solveOk x :: ops => specRun I (some x) ops
  | .solveFail _ :: ops => specRun I last ops
  | .setTStart t :: ops => specRun { I with tStart := t } last ops
  | .read :: ops => expectedRead I last :: specRun I last ops

/-- `t_start` is never assigned after a solve in the history. -/
def NoTStart (ops : List (IntOp K)) : Prop := ∀ op ∈ ops, ∀ t, op ≠ .setTStart t

/-- **C28, partial.** For a constant initial state `X0` (no decision variable in it),
every history of successful solves, failed solves and reads returns, at each
read, the trajectory of the most recent successful solve, or raises if there
was none. Missing: changes of `t_start` after a read, and failed solves between
a solve and the first read when `X0` depends on decision variables: the
statement is false there (`C28_refuted_tstart`, `C28_refuted_failed_solve`). -/
theorem C28_cache_partial (I : Integrator K) (hX0 : I.X0.cols = 0) (ops : List (IntOp K)) (hops : NoTStart ops)
    (x0 : Nat → K) : (intRun (intInit I x0) ops).2 = specRun I none ops := by
  have hX : ∀ x x' : Nat → K, ∀ v, I.makeTrajectory x v = I.makeTrajectory x' v := by
    intro x x' v
    unfold Integrator.makeTrajectory
    have : (fun i => I.X0.rowVal x i) = fun i => I.X0.rowVal x' i := by
      funext i; simp [Expr.rowVal, hX0]
    rw [this]
  -- invariant
  have key : ∀ (ops : List (IntOp K)) (s : IntSt K) (last : Option (Nat → K)), NoTStart ops → s.I = I →
      (match last with
        | none => s.varVersion = 0
        | some x => 0 < s.varVersion ∧ s.varValue = sliceOf I.var x) →
      s.version ≤ s.varVersion →
      (s.version = s.varVersion → 0 < s.varVersion →
        ∀ x, last = some x → s.trajectory = some (I.makeTrajectory x (sliceOf I.var x))) →
      (intRun s ops).2 = specRun I last ops := by
    intro ops
    induction ops with
    | nil => intros; rfl
    | cons op ops ih =>
      intro s last hops hI hlast hver htr
      have hops' : NoTStart ops := fun o ho => hops o (by simp [ho])
      cases op with
      | solveOk x =>
        simp only [intRun, intStep, specRun, Option.toList_none, List.nil_append]
        refine ih _ (some x) hops' hI ⟨by simp, ?_⟩ (by simp; omega) ?_
        · simp only [hI]; rfl
        · intro h; simp only at h; omega
      | solveFail y =>
        simp only [intRun, intStep, specRun, Option.toList_none, List.nil_append]
        exact ih _ last hops' hI hlast hver htr
      | setTStart t => exact absurd rfl (hops (.setTStart t) (by simp) t)
      | read =>
        simp only [intRun, specRun]
        cases last with
        | none =>
          simp only at hlast
          have : intStep s .read = (s, some (.error .runtimeError)) := by
            simp only [intStep]; rw [if_pos hlast]
          rw [this]
          simp only [Option.toList_some, List.singleton_append, expectedRead]
          rw [ih s none hops' hI hlast hver htr]
        | some x =>
          simp only at hlast
          obtain ⟨hpos, hval⟩ := hlast
          have hmk : s.I.makeTrajectory s.x s.varValue = I.makeTrajectory x (sliceOf I.var x) := by
            rw [hI, hval]; exact hX _ _ _
          by_cases hv : s.version ≠ s.varVersion
          · have : intStep s .read = (⟨s.I, s.varVersion, some (I.makeTrajectory x (sliceOf I.var x)), s.varVersion, s.varValue, s.x⟩, some (.ok (I.makeTrajectory x (sliceOf I.var x)))) := by
              simp only [intStep]
              rw [if_neg (by omega), if_pos hv, hmk]
            rw [this]
            simp only [Option.toList_some, List.singleton_append, expectedRead]
            rw [ih ⟨s.I, s.varVersion, some (I.makeTrajectory x (sliceOf I.var x)), s.varVersion, s.varValue, s.x⟩
              (some x) hops' hI ⟨hpos, hval⟩ (le_refl _) (by
              intro _ _ x' hx'; cases hx'; rfl)]
          · have hv' : s.version = s.varVersion := not_not.1 hv
            have htraj := htr hv' hpos x rfl
            have : intStep s .read = (s, some (.ok (I.makeTrajectory x (sliceOf I.var x)))) := by
              simp only [intStep]
              rw [if_neg (by omega), if_neg hv, htraj]
            rw [this]
            simp only [Option.toList_some, List.singleton_append, expectedRead]
            rw [ih s (some x) hops' hI ⟨hpos, hval⟩ hver htr]
  exact key ops (intInit I x0) none hops rfl rfl (le_refl _) (by intro _ h; simp [intInit] at h)

/-- Specification: the `t_start` in force after the events, from `t`. -/
def lastTStart (t : K) : List (IntOp K) → K
  | [] => t
  | .setTStart t' :: ops => lastTStart t' ops
  | .solveOk _ :: ops | .solveFail _ :: ops | .read :: ops => lastTStart t ops

/-- Specification: the values computed by the last solve of the events, failed or not, from `x`. -/
def lastComputed (x : Nat → K) : List (IntOp K) → Nat → K
  | [] => x
  | .solveOk x' :: ops | .solveFail (some x') :: ops => lastComputed x' ops
  | .solveFail none :: ops | .setTStart _ :: ops | .read :: ops => lastComputed x ops

/-- No solve succeeds in the events. -/
def NoSuccess (ops : List (IntOp K)) : Prop := ∀ op ∈ ops, ∀ x, op ≠ .solveOk x

/-- The trajectory is not read in the events. -/
def NoRead (ops : List (IntOp K)) : Prop := ∀ op ∈ ops, op ≠ .read

/-- The state after the events. -/
theorem intRun_cons (s : IntSt K) (op : IntOp K) (ops : List (IntOp K)) :
    (intRun s (op :: ops)).1 = (intRun (intStep s op).1 ops).1 := rfl

theorem intRun_append (ops : List (IntOp K)) : ∀ (s : IntSt K) (ops' : List (IntOp K)),
    (intRun s (ops ++ ops')).1 = (intRun (intRun s ops).1 ops').1 := by
  induction ops with
  | nil => intro s ops'; rfl
  | cons op ops ih => intro s ops'; rw [List.cons_append, intRun_cons, intRun_cons, ih]

theorem read_I (s : IntSt K) : (intStep s .read).1.I = s.I ∧ (intStep s .read).1.varVersion = s.varVersion ∧
    (intStep s .read).1.varValue = s.varValue ∧ (intStep s .read).1.x = s.x := by
  simp only [intStep]
  split
  · exact ⟨rfl, rfl, rfl, rfl⟩
  · split
    · exact ⟨rfl, rfl, rfl, rfl⟩
    · split <;> exact ⟨rfl, rfl, rfl, rfl⟩

theorem intRun_I (ops : List (IntOp K)) : ∀ s : IntSt K,
    (intRun s ops).1.I = { s.I with tStart := lastTStart s.I.tStart ops } ∧ (intRun s ops).1.x = lastComputed s.x ops := by
  induction ops with
  | nil => intro s; exact ⟨rfl, rfl⟩
  | cons op ops ih =>
    intro s
    rw [intRun_cons]
    obtain ⟨h1, h2⟩ := ih (intStep s op).1
    rw [h1, h2]
    cases op with
    | solveOk x => exact ⟨rfl, rfl⟩
    | solveFail x => cases x <;> exact ⟨rfl, rfl⟩
    | setTStart t => exact ⟨rfl, rfl⟩
    | read =>
      obtain ⟨e1, -, -, e4⟩ := read_I s
      rw [e1, e4]; exact ⟨rfl, rfl⟩

/-- The version of the cache never passes that of the variable. -/
theorem intRun_version (ops : List (IntOp K)) : ∀ s : IntSt K, s.version ≤ s.varVersion →
    (intRun s ops).1.version ≤ (intRun s ops).1.varVersion := by
  induction ops with
  | nil => intro s h; exact h
  | cons op ops ih =>
    intro s h
    rw [intRun_cons]
    refine ih _ ?_
    cases op with
    | solveOk x => simp only [intStep]; omega
    | solveFail x => exact h
    | setTStart t => exact h
    | read =>
      simp only [intStep]
      split
      · exact h
      · split
        · exact le_refl _
        · split <;> exact h

/-- Without a successful solve, the variable keeps its value. -/
theorem intRun_quiet (ops : List (IntOp K)) : ∀ s : IntSt K, NoSuccess ops →
    (intRun s ops).1.varVersion = s.varVersion ∧ (intRun s ops).1.varValue = s.varValue := by
  induction ops with
  | nil => intro s _; exact ⟨rfl, rfl⟩
  | cons op ops ih =>
    intro s h
    rw [intRun_cons]
    obtain ⟨h1, h2⟩ := ih (intStep s op).1 fun o ho => h o (List.mem_cons_of_mem _ ho)
    rw [h1, h2]
    cases op with
    | solveOk x => exact absurd rfl (h _ List.mem_cons_self x)
    | solveFail x => exact ⟨rfl, rfl⟩
    | setTStart t => exact ⟨rfl, rfl⟩
    | read => obtain ⟨-, e2, e3, -⟩ := read_I s; exact ⟨e2, e3⟩

/-- Without a read, the cache is kept. -/
theorem intRun_noRead (ops : List (IntOp K)) : ∀ s : IntSt K, NoRead ops → (intRun s ops).1.version = s.version := by
  induction ops with
  | nil => intro s _; rfl
  | cons op ops ih =>
    intro s h
    rw [intRun_cons, ih (intStep s op).1 fun o ho => h o (List.mem_cons_of_mem _ ho)]
    cases op with
    | solveOk x => rfl
    | solveFail x => rfl
    | setTStart t => rfl
    | read => exact absurd rfl (h _ List.mem_cons_self)

/-- An up-to-date cache answers every read until the next successful solve. -/
theorem intRun_cached (T : Trajectory K) (ops : List (IntOp K)) : ∀ s : IntSt K, NoSuccess ops → s.varVersion ≠ 0 →
    s.version = s.varVersion → s.trajectory = some T → (intStep (intRun s ops).1 .read).2 = some (.ok T) := by
  induction ops with
  | nil =>
    intro s _ h1 h2 h3
    show (intStep s .read).2 = _
    simp only [intStep]
    rw [if_neg h1, if_neg (not_not.2 h2), h3]
  | cons op ops ih =>
    intro s h h1 h2 h3
    rw [intRun_cons]
    have h' : NoSuccess ops := fun o ho => h o (List.mem_cons_of_mem _ ho)
    cases op with
    | solveOk x => exact absurd rfl (h _ List.mem_cons_self x)
    | solveFail x => exact ih _ h' h1 h2 h3
    | setTStart t => exact ih _ h' h1 h2 h3
    | read =>
      have e : (intStep s .read).1 = s := by
        simp only [intStep]; rw [if_neg h1, if_neg (not_not.2 h2), h3]
      rw [e]; exact ih _ h' h1 h2 h3

/-- **C28, exactly, for every history.** A read before any successful solve raises. Otherwise let `x` be the values of the last
successful solve; the trajectory is made at the first read after it, and is kept until the next successful solve: its input is that
of `x`, its `t_start` is the one in force at that first read, and its initial state is computed from the values of the last solve
before that first read, even if it failed. -/
theorem C28_exact (I : Integrator K) (x0 : Nat → K) :
    (∀ ops, NoSuccess ops → (intStep (intRun (intInit I x0) ops).1 .read).2 = some (.error .runtimeError)) ∧
    ∀ (before : List (IntOp K)) (x : Nat → K) (mid : List (IntOp K)), NoSuccess mid → NoRead mid →
      ∃ T : Trajectory K,
        (intStep (intRun (intInit I x0) (before ++ .solveOk x :: mid)).1 .read).2 = some (.ok T) ∧
        (∀ after, NoSuccess after →
          (intStep (intRun (intInit I x0) (before ++ .solveOk x :: (mid ++ .read :: after))).1 .read).2 = some (.ok T)) ∧
        T.order = I.order ∧ T.dt = I.dt ∧ T.AB = I.AB ∧
        T.tStart = lastTStart I.tStart (before ++ mid) ∧
        T.variableValue = (List.range I.var.size).map (fun k => x (I.var.kStart + k)) ∧
        T.keyframes = keyframes I.order I.A I.B (fun i => I.X0.rowVal (lastComputed x mid) i) T.variableValue := by
  refine ⟨fun ops h => ?_, fun before x mid hs hr => ?_⟩
  · have h0 : (intRun (intInit I x0) ops).1.varVersion = 0 := (intRun_quiet ops (intInit I x0) h).1
    simp only [intStep]
    rw [if_pos h0]
  · set s1 := (intRun (intInit I x0) before).1 with hs1
    have hv : s1.version ≤ s1.varVersion := intRun_version before _ (le_refl _)
    obtain ⟨hI, -⟩ := intRun_I before (intInit I x0)
    rw [← hs1] at hI
    set s2 := (intStep s1 (.solveOk x)).1 with hs2
    set s3 := (intRun s2 mid).1 with hs3
    obtain ⟨q1, q2⟩ := intRun_quiet mid s2 hs
    have q3 := intRun_noRead mid s2 hr
    obtain ⟨q4, q5⟩ := intRun_I mid s2
    rw [← hs3] at q1 q2 q3 q4 q5
    have e2 : s2.varVersion = s1.varVersion + 1 := rfl
    have e2' : s2.version = s1.version := rfl
    have e2'' : s2.I = s1.I := rfl
    have n0 : s3.varVersion ≠ 0 := by omega
    have n1 : s3.version ≠ s3.varVersion := by omega
    have hread : intStep s3 .read = ({ s3 with trajectory := some (s3.I.makeTrajectory s3.x s3.varValue), version := s3.varVersion },
        some (.ok (s3.I.makeTrajectory s3.x s3.varValue))) := by
      simp only [intStep]; rw [if_neg n0, if_pos n1]
    have ht : ∀ (a b : List (IntOp K)) (t : K), lastTStart t (a ++ b) = lastTStart (lastTStart t a) b := by
      intro a
      induction a with
      | nil => intro b t; rfl
      | cons op a ih => intro b t; cases op <;> exact ih b _
    refine ⟨s3.I.makeTrajectory s3.x s3.varValue, ?_, fun after ha => ?_, ?_⟩
    · rw [intRun_append, intRun_cons, ← hs1, ← hs2, ← hs3, hread]
    · rw [intRun_append, intRun_cons, intRun_append, intRun_cons, ← hs1, ← hs2, ← hs3, hread]
      exact intRun_cached _ after _ ha n0 rfl rfl
    · have hI3 : s3.I = { I with tStart := lastTStart I.tStart (before ++ mid) } := by
        rw [q4, e2'', hI, ht]; rfl
      have hx : s3.x = lastComputed x mid := q5
      have hval : s3.varValue = (List.range I.var.size).map (fun k => x (I.var.kStart + k)) := by
        rw [q2, hs2]
        simp only [intStep, hI]; rfl
      rw [hI3, hx, hval]
      exact ⟨rfl, rfl, rfl, rfl, rfl, rfl⟩

end

/-- First order integrator over one variable of size 1, `X0 = x1` (a decision
variable), `dt = 1`. -/
def demoI : Integrator ℚ :=
  Integrator.mk' ⟨0, 1⟩ ⟨1, 2, fun _ j => if j = 1 then 1 else 0, fun _ => 0⟩ 1
    (fun d => (fun _ _ => 1, fun _ => d)) 1

/-- **C28, refuted (t_start).** solve, read, `t_start = 5`, read: the second read still
uses the old `t_start`. -/
theorem C28_refuted_tstart :
    (((intRun (intInit demoI fun _ => 0) [.solveOk fun _ => 1, .read, .setTStart 5, .read]).2).map
      (Except.map Trajectory.tStart))
    ≠ (specRun demoI none [.solveOk fun _ => 1, .read, .setTStart 5, .read]).map (Except.map Trajectory.tStart) := by
  decide +kernel

/-- **C28, refuted (failed solve).** solve with `x = (1, 1)`, then a solve that raises
after computing `x = (7, 7)`, then the first read: the initial state of the
trajectory comes from the failed solve, the input from the successful one. -/
theorem C28_refuted_failed_solve :
    (((intRun (intInit demoI fun _ => 0) [.solveOk fun _ => 1, .solveFail (some fun _ => 7), .read]).2).map
      (Except.map fun T => (T.variableValue, T.keyframes.map (· 0))))
    ≠ (specRun demoI none [.solveOk fun _ => 1, .solveFail (some fun _ => 7), .read]).map
      (Except.map fun T => (T.variableValue, T.keyframes.map (· 0))) := by
  decide +kernel

/-- Non-vacuity of C24/C26/C28: a double integrator with `dt = 1` on two inputs. -/
def demoI2 : Except Err (Integrator ℚ) :=
  Integrator.mkOrder ⟨1, 3⟩ ⟨2, 0, fun _ _ => 0, fun _ => 1⟩ 2
    (fun d => (fun i j => if i = j then 1 else if i < j then d else 0, fun i => if i = 0 then d * d / 2 else d)) 1

example : (demoI2.bind fun I => (I.expr 2 (-1)).map fun e => e.value fun k => (k : ℚ)) = .ok [1 + 1 + 1/2 + 2 + 1, 1 + 1 + 2] := by
  decide +kernel

example : (demoI2.bind fun I => (I.exprT (3/2) 0).map fun e => e.value fun k => (k : ℚ))
    = (demoI2.bind fun I => ((I.makeTrajectory (fun k => (k : ℚ)) [1, 2]).value (3/2) 0).map fun v => [v]) := by
  decide +kernel

example : (intRun (intInit demoI fun _ => 0) [.read, .solveOk fun _ => 1, .read, .read]).2.length = 3 := by
  decide +kernel

end Verif.Problem
