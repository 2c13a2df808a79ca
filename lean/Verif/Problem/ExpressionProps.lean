/-
Properties C01-C05, C07: expressions.
-/
import Mathlib.Algebra.Field.Rat
import Mathlib.Algebra.Order.Ring.Rat
import Verif.Problem.ExpressionLemmas

namespace Verif.Problem
open Finset

section
variable {K : Type} [Field K]

/-! ## Specification: formulas and their pointwise meaning -/

/-- Formulas a user can write with the overloaded operators of `Expression`. -/
inductive Term (K : Type) where
  | var (v : Var) (start rows : Int)
  | double (f : K)
  | vector (l : List K)
  | add (a b : Term K)
  | sub (a b : Term K)
  | neg (a : Term K)
  | scale (a : Term K) (f : K)
  | mul (a b : Term K)
  | addVec (a : Term K) (l : List K)
  | subVec (a : Term K) (l : List K)
  | addDouble (a : Term K) (f : K)
  | doubleSub (f : K) (a : Term K)
  | matMul (M : Mat K) (a : Term K)
  | sum (a : Term K)
  | stack (a b : Term K)
  | slice (a : Term K) (start rows : Int)

/-- Does the formula depend on a (non-empty prefix of the) decision vector? -/
def Term.mentions : Term K → Bool
  | var v _ _ => v.kEnd != 0
  | double _ => false
  | vector _ => false
  | add a b | sub a b | mul a b | stack a b => a.mentions || b.mentions
  | neg a | scale a _ | addVec a _ | subVec a _ | addDouble a _ | doubleSub _ a | matMul _ a
  | sum a | slice a _ _ => a.mentions

/-- Pointwise combination of two values: a single-row formula without decision
variables is broadcast, otherwise the row counts must agree. -/
def pointwise (op : K → K → K) (ca cb : Bool) (la lb : List K) : Except Err (List K) :=
  match ca, la with
  | true, [f] => .ok (lb.map fun y => op f y)
  | _, _ =>
    match cb, lb with
    | true, [g] => .ok (la.map fun y => op y g)
    | _, _ => if la.length = lb.length then .ok (List.zipWith op la lb) else .error .runtimeError

/-- The meaning of a formula at the assignment `x`: usual vector arithmetic on
lists. This does not refer to the matrices built by the code. -/
def Term.denote (x : Nat → K) : Term K → Except Err (List K)
  | var v start rows =>
    let s : Int := if start = -1 then 0 else start
    let r : Int := if rows = -1 then (v.kEnd : Int) - v.kStart - s else rows
    if 0 ≤ r ∧ (r = 0 ∨ (0 ≤ (v.kStart : Int) + s ∧ (v.kStart : Int) + s + r ≤ v.kEnd)) then
      .ok ((List.range r.toNat).map fun k => x (((v.kStart : Int) + s).toNat + k))
    else .error .ub
  | double f => .ok [f]
  | vector l => .ok l
  | add a b => do
    let la ← a.denote x
    let lb ← b.denote x
    pointwise (· + ·) (!a.mentions) (!b.mentions) la lb
  | sub a b => do
    let la ← a.denote x
    let lb ← b.denote x
    pointwise (· - ·) (!a.mentions) (!b.mentions) la lb
  | neg a => do
    let la ← a.denote x
    pure (la.map fun y => -y)
  | scale a f => do
    let la ← a.denote x
    pure (la.map fun y => f * y)
  | mul a b => do
    let la ← a.denote x
    let lb ← b.denote x
    match la, lb, a.mentions, b.mentions with
    | [f], lb, _, false => pure (lb.map fun y => f * y)
    | la, [g], false, _ => pure (la.map fun y => y * g)
    | _, _, _, _ => .error .runtimeError
  | addVec a l => do
    let la ← a.denote x
    if l.length = la.length then pure (List.zipWith (· + ·) la l) else .error .ub
  | subVec a l => do
    let la ← a.denote x
    if l.length = la.length then pure (List.zipWith (· - ·) la l) else .error .ub
  | addDouble a f => do
    let la ← a.denote x
    pure (la.map fun y => y + f)
  | doubleSub f a => do
    let la ← a.denote x
    pure (la.map fun y => f - y)
  | matMul M a => do
    let la ← a.denote x
    if M.cols = la.length then
      pure ((List.range M.rows).map fun i => ∑ k ∈ range la.length, M.m i k * la.getD k 0)
    else .error .ub
  | sum a => do
    let la ← a.denote x
    pure [la.sum]
  | stack a b => do
    let la ← a.denote x
    let lb ← b.denote x
    pure (la ++ lb)
  | slice a start rows => do
    let la ← a.denote x
    let r : Int := if rows < 0 then (la.length : Int) - start else rows
    if 0 ≤ start ∧ 0 ≤ r ∧ start + r ≤ (la.length : Int) then
      pure ((la.drop start.toNat).take r.toNat)
    else .error .ub

/-- Vector literal of a formula. -/
def Vec.ofList (l : List K) : Vec K := ⟨l.length, fun i => l.getD i 0⟩

/-- What the code does for a formula: run the overloaded operators
(`expression.cpp`, see `Verif.Problem.Expression`). -/
def Term.build : Term K → Except Err (Expr K)
  | var v start rows => v.expr start rows
  | double f => .ok (Expr.fromDouble f)
  | vector l => .ok (Expr.fromVector (Vec.ofList l))
  | add a b => do (← a.build).add (← b.build)
  | sub a b => do (← a.build).sub (← b.build)
  | neg a => do pure (← a.build).neg
  | scale a f => do pure ((← a.build).smul f)
  | mul a b => do (← a.build).mul (← b.build)
  | addVec a l => do (← a.build).addVec (Vec.ofList l)
  | subVec a l => do (← a.build).subVec (Vec.ofList l)
  | addDouble a f => do (← a.build).addDouble f
  | doubleSub f a => do Expr.doubleSub f (← a.build)
  | matMul M a => do Expr.matMul M (← a.build)
  | sum a => do pure (← a.build).sum
  | stack a b => do pure ((← a.build).stack (← b.build))
  | slice a start rows => do (← a.build).slice start rows

/-! ## C01: expression arithmetic is pointwise -/

namespace C01

theorem value_one (e : Expr K) (h : e.rows = 1) (x : Nat → K) : e.value x = [e.rowVal x 0] := by
  simp [Expr.value, h, List.range_succ]

/-- The value list is a singleton exactly for one-row expressions. -/
theorem rows_of_value_singleton {e : Expr K} {x : Nat → K} {f : K} (h : e.value x = [f]) :
    e.rows = 1 ∧ e.rowVal x 0 = f := by
  have h1 := congrArg List.length h
  simp only [Expr.length_value, List.length_singleton] at h1
  rw [value_one e h1] at h
  exact ⟨h1, by simpa using h⟩

theorem map_value (e o : Expr K) (x : Nat → K) (g : K → K) (hr : o.rows = e.rows)
    (h : ∀ i, o.rowVal x i = g (e.rowVal x i)) : o.value x = (e.value x).map g := by
  simp [Expr.value, hr, h]

/-- `pointwise` only looks at broadcastable singletons. -/
theorem pointwise_eq (op : K → K → K) (ca cb : Bool) (la lb : List K) :
    pointwise op ca cb la lb =
      if ca = true ∧ la.length = 1 then .ok (lb.map fun y => op (la.getD 0 0) y)
      else if cb = true ∧ lb.length = 1 then .ok (la.map fun y => op y (lb.getD 0 0))
      else if la.length = lb.length then .ok (List.zipWith op la lb) else .error .runtimeError := by
  unfold pointwise
  rcases ca with _ | _ <;> rcases cb with _ | _ <;> rcases la with _ | ⟨a, _ | ⟨a', la⟩⟩ <;>
    rcases lb with _ | ⟨b, _ | ⟨b', lb⟩⟩ <;> simp

theorem add_pointwise (e o : Expr K) (x : Nat → K) :
    pointwise (· + ·) e.isConstant o.isConstant (e.value x) (o.value x)
      = (e.add o).map (fun r => r.value x) := by
  rw [pointwise_eq]
  simp only [Expr.add, Expr.isConstant, Expr.isScalar, Expr.length_value, beq_iff_eq, Bool.and_eq_true]
  by_cases h1 : e.rows = 1 ∧ e.cols = 0
  · rw [if_pos h1.symm, if_pos h1]
    simp only [Except.map]
    rw [Expr.getD_value _ _ _ (by omega), Expr.rowVal_constant e h1.2]
    congr 1
    exact (map_value o (o.piecewiseAdd (e.b 0)) x (fun y => e.b 0 + y) rfl (fun i => by simp [add_comm])).symm
  · have h1' : ¬ (e.cols = 0 ∧ e.rows = 1) := fun h => h1 h.symm
    rw [if_neg h1', if_neg h1]
    by_cases h2 : o.rows = 1 ∧ o.cols = 0
    · rw [if_pos h2.symm, if_pos h2]
      simp only [Except.map]
      rw [Expr.getD_value _ _ _ (by omega), Expr.rowVal_constant o h2.2]
      congr 1
      exact (map_value e (e.piecewiseAdd (o.b 0)) x (fun y => y + o.b 0) rfl (fun i => by simp)).symm
    · have h2' : ¬ (o.cols = 0 ∧ o.rows = 1) := fun h => h2 h.symm
      rw [if_neg h2', if_neg h2]
      by_cases h3 : e.rows = o.rows
      · rw [if_pos h3, if_neg (not_not.2 h3)]
        simp only [Except.map]
        congr 1
        symm
        rw [Expr.value_eq_iff]
        refine ⟨by simp [h3], fun i hi => ?_⟩
        rw [Expr.rowVal_addMain]
        simp
      · rw [if_neg h3, if_pos h3]
        rfl

theorem pointwise_sub (ca cb : Bool) (la lb : List K) :
    pointwise (· - ·) ca cb la lb = pointwise (· + ·) ca cb la (lb.map fun y => y * (-1)) := by
  rw [pointwise_eq, pointwise_eq]
  simp only [List.length_map]
  congr 1
  · simp [sub_eq_add_neg]
  · congr 1
    · rcases lb with _ | ⟨b, lb⟩ <;> simp [sub_eq_add_neg]
    · congr 2
      simp [List.zipWith_map_right, sub_eq_add_neg]

theorem sub_pointwise (e o : Expr K) (x : Nat → K) :
    pointwise (· - ·) e.isConstant o.isConstant (e.value x) (o.value x)
      = (e.sub o).map (fun r => r.value x) := by
  rw [pointwise_sub, Expr.sub, ← add_pointwise]
  congr 1
  exact (map_value o (o.smul (-1)) x (fun y => y * (-1)) rfl (fun i => by simp)).symm

theorem add_cols {e o r : Expr K} (h : e.add o = .ok r) :
    (r.cols == 0) = ((e.cols == 0) && (o.cols == 0)) := by
  unfold Expr.add at h
  split at h
  · rename_i hc
    simp only [Expr.isScalar, Expr.isConstant, Bool.and_eq_true, beq_iff_eq] at hc
    cases h; simp [Expr.piecewiseAdd, hc.2]
  · split at h
    · rename_i hc
      simp only [Expr.isScalar, Expr.isConstant, Bool.and_eq_true, beq_iff_eq] at hc
      cases h; simp [Expr.piecewiseAdd, hc.2]
    · split at h
      · cases h
      · cases h
        simp only
        rw [Bool.eq_iff_iff]
        simp

/-- The refinement relation proved by induction: the code builds an expression
whose value is the meaning of the formula at every assignment, or fails exactly
as the meaning does. -/
def Refines (t : Term K) : Prop :=
  (∃ e, t.build = .ok e ∧ (∀ x, t.denote x = .ok (e.value x)) ∧ (e.cols == 0) = !t.mentions) ∨
  (∃ k, t.build = .error k ∧ ∀ x, t.denote x = .error k)

theorem except_cases {α : Type} (r : Except Err α) : (∃ a, r = .ok a) ∨ ∃ k, r = .error k := by
  cases r with
  | ok a => exact .inl ⟨a, rfl⟩
  | error k => exact .inr ⟨k, rfl⟩

theorem refines_bin {a b t : Term K} (op : Expr K → Expr K → Except Err (Expr K))
    (dop : List K → List K → Except Err (List K))
    (hb : t.build = (do op (← a.build) (← b.build)))
    (hd : ∀ x, t.denote x = (do let la ← a.denote x; let lb ← b.denote x; dop la lb))
    (ha : Refines a) (hbb : Refines b)
    (hop : ∀ e o, (e.cols == 0) = !a.mentions → (o.cols == 0) = !b.mentions →
      (∀ x, dop (e.value x) (o.value x) = (op e o).map (fun r => r.value x)) ∧
      (∀ r, op e o = .ok r → (r.cols == 0) = !t.mentions)) : Refines t := by
  rcases ha with ⟨e, he, hev, hec⟩ | ⟨k, hk, hkv⟩
  · rcases hbb with ⟨o, ho, hov, hoc⟩ | ⟨k, hk, hkv⟩
    · obtain ⟨h1, h2⟩ := hop e o hec hoc
      have hbuild : t.build = op e o := by rw [hb, he, ho]; rfl
      rcases except_cases (op e o) with ⟨r, hr⟩ | ⟨k, hr⟩
      · refine .inl ⟨r, by rw [hbuild, hr], fun x => ?_, h2 r hr⟩
        rw [hd, hev, hov]
        change dop (e.value x) (o.value x) = _
        rw [h1, hr]; rfl
      · refine .inr ⟨k, by rw [hbuild, hr], fun x => ?_⟩
        rw [hd, hev, hov]
        change dop (e.value x) (o.value x) = _
        rw [h1, hr]; rfl
    · exact .inr ⟨k, by rw [hb, he, hk]; rfl, fun x => by rw [hd, hev, hkv]; rfl⟩
  · exact .inr ⟨k, by rw [hb, hk]; rfl, fun x => by rw [hd, hkv]; rfl⟩

theorem refines_un {a t : Term K} (op : Expr K → Except Err (Expr K))
    (dop : List K → Except Err (List K))
    (hb : t.build = (do op (← a.build)))
    (hd : ∀ x, t.denote x = (do let la ← a.denote x; dop la))
    (ha : Refines a)
    (hop : ∀ e, (e.cols == 0) = !a.mentions →
      (∀ x, dop (e.value x) = (op e).map (fun r => r.value x)) ∧
      (∀ r, op e = .ok r → (r.cols == 0) = !t.mentions)) : Refines t := by
  rcases ha with ⟨e, he, hev, hec⟩ | ⟨k, hk, hkv⟩
  · obtain ⟨h1, h2⟩ := hop e hec
    have hbuild : t.build = op e := by rw [hb, he]; rfl
    rcases except_cases (op e) with ⟨r, hr⟩ | ⟨k, hr⟩
    · refine .inl ⟨r, by rw [hbuild, hr], fun x => ?_, h2 r hr⟩
      rw [hd, hev]
      change dop (e.value x) = _
      rw [h1, hr]; rfl
    · refine .inr ⟨k, by rw [hbuild, hr], fun x => ?_⟩
      rw [hd, hev]
      change dop (e.value x) = _
      rw [h1, hr]; rfl
  · exact .inr ⟨k, by rw [hb, hk]; rfl, fun x => by rw [hd, hkv]; rfl⟩

theorem value_addVec (e : Expr K) (l : List K) (x : Nat → K) :
    (if l.length = (e.value x).length then pure (List.zipWith (· + ·) (e.value x) l) else .error .ub)
      = (e.addVec (Vec.ofList l)).map (fun r => r.value x) := by
  unfold Expr.addVec Vec.ofList
  simp only [Expr.length_value]
  split
  · rename_i h
    simp only [Except.map]
    show Except.ok _ = _
    congr 1
    symm
    rw [Expr.value_eq_iff]
    refine ⟨by simp [h], fun i hi => ?_⟩
    simp only [List.length_zipWith, Expr.length_value] at hi
    have hi' : i < l.length := by omega
    simp [Expr.rowVal, List.getElem?_eq_getElem hi', add_assoc]
  · rfl

theorem value_subVec (e : Expr K) (l : List K) (x : Nat → K) :
    (if l.length = (e.value x).length then pure (List.zipWith (· - ·) (e.value x) l) else .error .ub)
      = (e.subVec (Vec.ofList l)).map (fun r => r.value x) := by
  unfold Expr.subVec Vec.ofList
  simp only [Expr.length_value]
  split
  · rename_i h
    simp only [Except.map]
    show Except.ok _ = _
    congr 1
    symm
    rw [Expr.value_eq_iff]
    refine ⟨by simp [h], fun i hi => ?_⟩
    simp only [List.length_zipWith, Expr.length_value] at hi
    have hi' : i < l.length := by omega
    simp [Expr.rowVal, List.getElem?_eq_getElem hi', add_sub_assoc]
  · rfl

theorem value_addDouble (e : Expr K) (f : K) (x : Nat → K) :
    Except.ok ((e.value x).map fun y => y + f) = (e.addDouble f).map (fun r => r.value x) := by
  unfold Expr.addDouble Expr.addVec
  simp only [if_pos, Except.map]
  congr 1
  exact (map_value e (e.piecewiseAdd f) x (fun y => y + f) rfl (fun i => by simp)).symm

theorem sum_map_range (f : Nat → K) (n : Nat) :
    ((List.range n).map f).sum = ∑ k ∈ range n, f k := by
  induction n with
  | zero => simp
  | succ n ih => rw [List.range_succ, List.map_append, List.sum_append, ih, sum_range_succ]; simp

theorem value_sum (e : Expr K) (x : Nat → K) : e.sum.value x = [(e.value x).sum] := by
  rw [value_one _ rfl, Expr.rowVal_sum]
  simp only [Expr.value, sum_map_range]

theorem value_slice (e : Expr K) (start rows : Int) (x : Nat → K) :
    (let r : Int := if rows < 0 then ((e.value x).length : Int) - start else rows
     if 0 ≤ start ∧ 0 ≤ r ∧ start + r ≤ ((e.value x).length : Int) then
      pure (((e.value x).drop start.toNat).take r.toNat)
     else .error .ub) = (e.slice start rows).map (fun r => r.value x) := by
  unfold Expr.slice
  simp only [Expr.length_value]
  generalize (if rows < 0 then (e.rows : Int) - start else rows) = r
  split
  · rename_i h
    simp only [Except.map]
    show Except.ok _ = _
    congr 1
    symm
    rw [Expr.value_eq_iff]
    refine ⟨?_, fun i hi => ?_⟩
    · simp only [List.length_take, List.length_drop, Expr.length_value]; omega
    · simp [Expr.rowVal]
  · rfl

theorem value_matMul (M : Mat K) (e : Expr K) (x : Nat → K) :
    (if M.cols = (e.value x).length then
      pure ((List.range M.rows).map fun i => ∑ k ∈ range (e.value x).length, M.m i k * (e.value x).getD k 0)
     else .error .ub) = (Expr.matMul M e).map (fun r => r.value x) := by
  unfold Expr.matMul
  simp only [Expr.length_value]
  split
  · simp only [Except.map]
    show Except.ok _ = _
    congr 1
    symm
    rw [Expr.value_eq_iff]
    refine ⟨by simp, fun i hi => ?_⟩
    rw [Expr.rowVal_matMulMain]
    simp only [List.getElem_map, List.getElem_range]
    refine sum_congr rfl fun k hk => ?_
    rw [Expr.getD_value _ _ _ (mem_range.1 hk)]
  · rfl

/-- What multiplication means, with the singleton tests spelled out. -/
def mulSpec (ma mb : Bool) (la lb : List K) : Except Err (List K) :=
  match la, lb, ma, mb with
  | [f], lb, _, false => pure (lb.map fun y => f * y)
  | la, [g], false, _ => pure (la.map fun y => y * g)
  | _, _, _, _ => .error .runtimeError

theorem mulSpec_eq (ma mb : Bool) (la lb : List K) :
    mulSpec ma mb la lb =
      if la.length = 1 ∧ mb = false then .ok (lb.map fun y => la.getD 0 0 * y)
      else if lb.length = 1 ∧ ma = false then .ok (la.map fun y => y * lb.getD 0 0)
      else .error .runtimeError := by
  unfold mulSpec
  rcases ma with _ | _ <;> rcases mb with _ | _ <;> rcases la with _ | ⟨a, _ | ⟨a', la⟩⟩ <;>
    rcases lb with _ | ⟨b, _ | ⟨b', lb⟩⟩ <;> simp <;> rfl

theorem value_mul (e o : Expr K) (x : Nat → K) :
    mulSpec (!e.isConstant) (!o.isConstant) (e.value x) (o.value x)
      = (e.mul o).map (fun r => r.value x) := by
  rw [mulSpec_eq]
  simp only [Expr.mul, Expr.isConstant, Expr.isScalar, Expr.length_value, beq_iff_eq, Bool.and_eq_true,
    Bool.not_eq_false']
  by_cases h1 : e.rows = 1 ∧ o.cols = 0
  · rw [if_pos h1, if_pos h1]
    simp only [Except.map]
    rw [Expr.getD_value _ _ _ (by omega)]
    congr 1
    symm
    rw [Expr.value_eq_iff]
    refine ⟨by simp, fun i hi => ?_⟩
    simp only [List.getElem_map, Expr.getElem_value]
    rw [Expr.rowVal_constant o h1.2]
    simp only [Expr.rowVal, add_mul, sum_mul]
    congr 1
    exact sum_congr rfl fun j _ => by ring
  · rw [if_neg h1, if_neg h1]
    by_cases h2 : o.rows = 1 ∧ e.cols = 0
    · rw [if_pos h2, if_pos h2]
      simp only [Except.map]
      rw [Expr.getD_value _ _ _ (by omega)]
      congr 1
      symm
      rw [Expr.value_eq_iff]
      refine ⟨by simp, fun i hi => ?_⟩
      simp only [List.getElem_map, Expr.getElem_value]
      rw [Expr.rowVal_constant e h2.2]
      simp only [Expr.rowVal, mul_add, mul_sum]
      congr 1
      · exact sum_congr rfl fun j _ => by ring
      · ring
    · rw [if_neg h2, if_neg h2]
      rfl

theorem mul_cols {e o r : Expr K} (h : e.mul o = .ok r) :
    (r.cols == 0) = ((e.cols == 0) && (o.cols == 0)) := by
  unfold Expr.mul at h
  split at h
  · rename_i hc
    simp only [Expr.isScalar, Expr.isConstant, Bool.and_eq_true, beq_iff_eq] at hc
    cases h; simp [hc.2]
  · split at h
    · rename_i hc
      simp only [Expr.isScalar, Expr.isConstant, Bool.and_eq_true, beq_iff_eq] at hc
      cases h; simp [hc.2]
    · cases h

theorem refines (t : Term K) : Refines t := by
  induction t with
  | var v start rows =>
    unfold Refines Term.build Term.denote Var.expr Term.mentions
    simp only
    generalize (if start = -1 then (0 : Int) else start) = s
    generalize (if rows = -1 then (v.kEnd : Int) - v.kStart - s else rows) = r
    by_cases h : 0 ≤ r ∧ (r = 0 ∨ (0 ≤ (v.kStart : Int) + s ∧ (v.kStart : Int) + s + r ≤ v.kEnd))
    · rw [if_pos h]
      refine .inl ⟨_, rfl, fun x => ?_, ?_⟩
      · rw [if_pos h]
        congr 1
        simp only [Expr.value]
        refine List.map_congr_left fun k hk => ?_
        have hk' : k < r.toNat := by simpa using hk
        simp only [Expr.rowVal, add_zero, ite_mul, one_mul, zero_mul]
        rw [sum_ite_eq' (range v.kEnd), if_pos]
        rw [mem_range]; omega
      · simp [bne]
    · simp only [if_neg h]
      exact .inr ⟨_, rfl, fun x => rfl⟩
  | double f =>
    exact .inl ⟨_, rfl, fun x => by
      rw [value_one _ rfl]; simp [Term.denote, Expr.fromDouble, Expr.rowVal], rfl⟩
  | vector l =>
    refine .inl ⟨_, rfl, fun x => ?_, rfl⟩
    simp only [Term.denote]
    congr 1
    symm
    rw [Expr.value_eq_iff]
    refine ⟨rfl, fun i hi => ?_⟩
    simp [Expr.fromVector, Expr.rowVal, Vec.ofList, List.getElem?_eq_getElem hi]
  | add a b iha ihb =>
    refine refines_bin Expr.add (pointwise (· + ·) (!a.mentions) (!b.mentions)) rfl (fun x => rfl) iha ihb
      fun e o he ho => ⟨fun x => ?_, fun r hr => ?_⟩
    · rw [← he, ← ho]; exact add_pointwise e o x
    · rw [add_cols hr, he, ho]; simp [Term.mentions]
  | sub a b iha ihb =>
    refine refines_bin Expr.sub (pointwise (· - ·) (!a.mentions) (!b.mentions)) rfl (fun x => rfl) iha ihb
      fun e o he ho => ⟨fun x => ?_, fun r hr => ?_⟩
    · rw [← he, ← ho]; exact sub_pointwise e o x
    · rw [add_cols hr]
      show ((e.cols == 0) && (o.cols == 0)) = _
      rw [he, ho]; simp [Term.mentions]
  | neg a iha =>
    refine refines_un (fun e => pure e.neg) (fun la => pure (la.map fun y => -y)) rfl (fun x => rfl) iha
      fun e he => ⟨fun x => ?_, fun r hr => ?_⟩
    · show Except.ok _ = Except.ok _
      congr 1
      exact (map_value e e.neg x (fun y => -y) rfl (fun i => by simp)).symm
    · cases hr; exact he
  | scale a f iha =>
    refine refines_un (fun e => pure (e.smul f)) (fun la => pure (la.map fun y => f * y)) rfl (fun x => rfl) iha
      fun e he => ⟨fun x => ?_, fun r hr => ?_⟩
    · show Except.ok _ = Except.ok _
      congr 1
      exact (map_value e (e.smul f) x (fun y => f * y) rfl (fun i => by simp [mul_comm])).symm
    · cases hr; exact he
  | mul a b iha ihb =>
    refine refines_bin Expr.mul (mulSpec a.mentions b.mentions) rfl (fun x => rfl) iha ihb
      fun e o he ho => ⟨fun x => ?_, fun r hr => ?_⟩
    · rw [← value_mul e o x]
      have h1 : a.mentions = !e.isConstant := by simp [Expr.isConstant, he]
      have h2 : b.mentions = !o.isConstant := by simp [Expr.isConstant, ho]
      rw [h1, h2]
    · rw [mul_cols hr, he, ho]; simp [Term.mentions]
  | addVec a l iha =>
    refine refines_un (fun e => e.addVec (Vec.ofList l))
      (fun la => if l.length = la.length then pure (List.zipWith (· + ·) la l) else .error .ub)
      rfl (fun x => rfl) iha fun e he => ⟨fun x => value_addVec e l x, fun r hr => ?_⟩
    unfold Expr.addVec at hr
    split at hr <;> cases hr
    exact he
  | subVec a l iha =>
    refine refines_un (fun e => e.subVec (Vec.ofList l))
      (fun la => if l.length = la.length then pure (List.zipWith (· - ·) la l) else .error .ub)
      rfl (fun x => rfl) iha fun e he => ⟨fun x => value_subVec e l x, fun r hr => ?_⟩
    unfold Expr.subVec at hr
    split at hr <;> cases hr
    exact he
  | addDouble a f iha =>
    refine refines_un (fun e => e.addDouble f) (fun la => pure (la.map fun y => y + f)) rfl (fun x => rfl) iha
      fun e he => ⟨fun x => value_addDouble e f x, fun r hr => ?_⟩
    unfold Expr.addDouble Expr.addVec at hr
    split at hr <;> cases hr
    exact he
  | doubleSub f a iha =>
    refine refines_un (fun e => Expr.doubleSub f e) (fun la => pure (la.map fun y => f - y)) rfl (fun x => rfl) iha
      fun e he => ⟨fun x => ?_, fun r hr => ?_⟩
    · rw [Expr.doubleSub, ← value_addDouble]
      show Except.ok _ = _
      congr 1
      rw [map_value e e.neg x (fun y => -y) rfl (fun i => by simp), List.map_map]
      refine List.map_congr_left fun y _ => ?_
      simp only [Function.comp]; ring
    · unfold Expr.doubleSub Expr.addDouble Expr.addVec at hr
      split at hr <;> cases hr
      exact he
  | matMul M a iha =>
    refine refines_un (fun e => Expr.matMul M e)
      (fun la => if M.cols = la.length then
        pure ((List.range M.rows).map fun i => ∑ k ∈ range la.length, M.m i k * la.getD k 0)
       else .error .ub) rfl (fun x => rfl) iha fun e he => ⟨fun x => value_matMul M e x, fun r hr => ?_⟩
    unfold Expr.matMul at hr
    split at hr <;> cases hr
    exact he
  | sum a iha =>
    refine refines_un (fun e => pure e.sum) (fun la => pure [la.sum]) rfl (fun x => rfl) iha
      fun e he => ⟨fun x => ?_, fun r hr => ?_⟩
    · show Except.ok _ = Except.ok (e.sum.value x)
      rw [value_sum]
    · cases hr; exact he
  | stack a b iha ihb =>
    refine refines_bin (fun e o => pure (e.stack o)) (fun la lb => pure (la ++ lb)) rfl (fun x => rfl) iha ihb
      fun e o he ho => ⟨fun x => ?_, fun r hr => ?_⟩
    · show Except.ok _ = Except.ok _
      congr 1
      symm
      rw [Expr.value_eq_iff]
      refine ⟨by simp [Expr.stack], fun i hi => ?_⟩
      rw [Expr.rowVal_stack, List.getElem_append]
      simp
    · cases hr
      simp only [Expr.stack, Term.mentions]
      rw [Bool.not_or, ← he, ← ho, Bool.eq_iff_iff]
      simp
  | slice a start rows iha =>
    refine refines_un (fun e => e.slice start rows)
      (fun la =>
        let r : Int := if rows < 0 then (la.length : Int) - start else rows
        if 0 ≤ start ∧ 0 ≤ r ∧ start + r ≤ (la.length : Int) then
          pure ((la.drop start.toNat).take r.toNat)
        else .error .ub)
      rfl (fun x => rfl) iha fun e he => ⟨fun x => value_slice e start rows x, fun r hr => ?_⟩
    unfold Expr.slice at hr
    simp only at hr
    generalize (if rows < 0 then (e.rows : Int) - start else rows) = r' at hr
    split at hr <;> cases hr
    exact he

end C01

/-- **C01.** For every formula and every assignment `x`, evaluating the
expression built by the code gives the pointwise meaning of the formula, and
the code fails exactly when (and as) the formula has no pointwise meaning. -/
theorem C01_expression_arithmetic (t : Term K) (x : Nat → K) :
    t.build.map (fun e => e.value x) = t.denote x := by
  rcases C01.refines t with ⟨e, he, hev, _⟩ | ⟨k, hk, hkv⟩
  · rw [he, hev]; rfl
  · rw [hk, hkv]; rfl

/-- A formula never fails with a "defined" error other than the row mismatch
exception. -/
theorem C01_only_runtime_error_or_ub (t : Term K) (k : Err) (h : t.build = .error k) :
    k = .runtimeError ∨ k = .ub := by
  induction t generalizing k with
  | var v s r => 
    simp only [Term.build, Var.expr] at h
    generalize (if s = -1 then (0 : Int) else s) = s' at h
    generalize (if r = -1 then (v.kEnd : Int) - v.kStart - s' else r) = r' at h
    split at h <;> cases h
    simp
  | double f => cases h
  | vector l => cases h
  | add a b iha ihb | sub a b iha ihb | mul a b iha ihb | stack a b iha ihb =>
    simp only [Term.build] at h
    rcases C01.except_cases a.build with ⟨e, he⟩ | ⟨k', hk⟩
    · rcases C01.except_cases b.build with ⟨o, ho⟩ | ⟨k', hk⟩
      · rw [he, ho] at h
        simp only [bind, Except.bind, Expr.sub, Expr.add, Expr.mul, pure, Except.pure] at h
        repeat' split at h
        all_goals cases h
        all_goals simp
      · rw [he, hk] at h; cases h; exact ihb _ hk
    · rw [hk] at h; cases h; exact iha _ hk
  | neg a iha | scale a f iha | addVec a l iha | subVec a l iha | addDouble a f iha
  | doubleSub f a iha | matMul M a iha | sum a iha | slice a s r iha =>
    simp only [Term.build] at h
    rcases C01.except_cases a.build with ⟨e, he⟩ | ⟨k', hk⟩
    · rw [he] at h
      simp only [bind, Except.bind, Expr.addVec, Expr.subVec, Expr.addDouble, Expr.doubleSub,
        Expr.matMul, Expr.slice, pure, Except.pure] at h
      repeat' split at h
      all_goals cases h
      all_goals simp
    · rw [hk] at h; cases h; exact iha _ hk

/-- Non-vacuity: `2 * x[1..3) - (1 - 3*stack(x0, 7))` style formula, evaluated. -/
example : (Term.denote (K := ℚ) (fun i => (i : ℚ) + 1)
    (.sub (.scale (.var ⟨0, 3⟩ 1 2) 2) (.doubleSub 1 (.stack (.var ⟨0, 1⟩ (-1) (-1)) (.double 7)))))
    = .ok [4, 12] := by decide +kernel

example : (Term.denote (K := ℚ) (fun i => (i : ℚ)) (.add (.var ⟨0, 3⟩ 0 2) (.var ⟨0, 3⟩ 0 3)))
    = .error .runtimeError := by decide +kernel

end
end Verif.Problem
