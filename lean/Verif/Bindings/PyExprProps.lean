/-
Theorems about the arithmetic of expressions in Python (C199).
-/
import Mathlib.Data.Int.Log
import Mathlib.Data.Finite.Prod
import Mathlib.Data.Set.Finite.Lemmas
import Mathlib.Algebra.Order.Field.Power
import Mathlib.Algebra.Order.Archimedean.Real.Basic
import Mathlib.Tactic.Positivity
import Mathlib.Tactic.NormNum.Pow
import Mathlib.Order.Interval.Finset.Defs
import Mathlib.Data.Int.Interval
import Mathlib.Algebra.Order.Round
import Verif.Problem.ConstraintProps
import Verif.Bindings.PyExpr

namespace Verif.Bindings
open Verif.Problem

/-! ## Specification -/

/-- The numbers of single precision (IEEE 754, binary32). -/
def IsSingle (x : ℝ) : Prop := ∃ m e : ℤ, |m| < 2 ^ 24 ∧ -149 ≤ e ∧ e ≤ 104 ∧ x = m * (2 : ℝ) ^ e

/-- The greatest of them. -/
noncomputable def maxSingle : ℝ := (2 ^ 24 - 1) * 2 ^ 104

/-- The conversion from double to single precision: a nearest number (whichever is chosen when there are two); undefined beyond the greatest. -/
structure RoundsToNearest (toFloat : ℝ → Except Err ℝ) : Prop where
  inRange : ∀ x, |x| ≤ maxSingle → ∃ y, toFloat x = .ok y ∧ IsSingle y ∧ ∀ z, IsSingle z → |y - x| ≤ |z - x|
  beyond : ∀ x, maxSingle < |x| → toFloat x = .error .ub

/-- `r` is the expression whose rows have the values `f` of the rows of `e`. -/
def Rows (r : Option (Except Err Answer)) (e : Expr ℝ) (f : ℝ → ℝ) : Prop :=
  ∃ d, r = some (.ok (.expr d)) ∧ d.rows = e.rows ∧ ∀ x i, i < e.rows → d.rowVal x i = f (e.rowVal x i)

/-- `r` is the constraint that each row of `e` is in relation `f` with the number. -/
def Bounds (r : Option (Except Err Answer)) (e : Expr ℝ) (f : ℝ → Prop) : Prop :=
  ∃ c, r = some (.ok (.constr c)) ∧ ∀ x, c.Sat x ↔ ∀ y ∈ e.value x, f y

/-- Every operator between `e` and the number `x` of Python means what it means between `e` and `z`. (`e - x` is for expressions of one row: see
C01.) -/
structure Means (toFloat : ℝ → Except Err ℝ) (e : Expr ℝ) (x z : ℝ) : Prop where
  add : Rows (python toFloat .add (.expr e) (.num x)) e fun v => v + z
  radd : Rows (python toFloat .add (.num x) (.expr e)) e fun v => z + v
  sub : e.rows = 1 → Rows (python toFloat .sub (.expr e) (.num x)) e fun v => v - z
  rsub : Rows (python toFloat .sub (.num x) (.expr e)) e fun v => z - v
  mul : Rows (python toFloat .mul (.expr e) (.num x)) e fun v => v * z
  rmul : Rows (python toFloat .mul (.num x) (.expr e)) e fun v => z * v
  ge : Bounds (python toFloat .ge (.expr e) (.num x)) e fun v => v ≥ z
  rge : Bounds (python toFloat .ge (.num x) (.expr e)) e fun v => z ≥ v
  le : Bounds (python toFloat .le (.expr e) (.num x)) e fun v => v ≤ z
  rle : Bounds (python toFloat .le (.num x) (.expr e)) e fun v => z ≤ v
  eq : Bounds (python toFloat .eq (.expr e) (.num x)) e fun v => v = z
  req : Bounds (python toFloat .eq (.num x) (.expr e)) e fun v => z = v

/-! ## Single precision -/

theorem single_le {x : ℝ} (h : IsSingle x) : |x| ≤ maxSingle := by
  obtain ⟨m, e, hm, h1, h2, rfl⟩ := h
  have hm' : |(m : ℝ)| ≤ 2 ^ 24 - 1 := by
    have : |m| ≤ 2 ^ 24 - 1 := by omega
    exact_mod_cast this
  rw [abs_mul, abs_of_pos (by positivity : (0 : ℝ) < 2 ^ e)]
  unfold maxSingle
  have he : (2 : ℝ) ^ e ≤ 2 ^ 104 := by
    have := zpow_le_zpow_right₀ (by norm_num : (1 : ℝ) ≤ 2) h2
    exact_mod_cast this
  exact mul_le_mul hm' he (by positivity) (by norm_num)

/-- There is such a conversion. -/
theorem rounding_exists : ∃ toFloat, RoundsToNearest toFloat := by
  have hfin : {x : ℝ | IsSingle x}.Finite := by
    have : {x : ℝ | IsSingle x} ⊆ (fun p : ℤ × ℤ => (p.1 : ℝ) * 2 ^ p.2) '' (Set.Ioo (-2 ^ 24) (2 ^ 24) ×ˢ Set.Icc (-149) 104) := by
      rintro x ⟨m, e, hm, h1, h2, rfl⟩
      exact ⟨(m, e), ⟨abs_lt.mp hm, h1, h2⟩, rfl⟩
    exact (((Set.finite_Ioo _ _).prod (Set.finite_Icc _ _)).image _).subset this
  have hne : {x : ℝ | IsSingle x}.Nonempty := ⟨0, 0, 0, by norm_num, by norm_num, by norm_num, by norm_num⟩
  have : ∀ x : ℝ, ∃ y, IsSingle y ∧ ∀ z, IsSingle z → |y - x| ≤ |z - x| := by
    intro x
    obtain ⟨y, hy, h⟩ := Set.exists_min_image _ (fun z => |z - x|) hfin hne
    exact ⟨y, hy, fun z hz => h z hz⟩
  choose f hf using this
  classical
  refine ⟨fun x => if |x| ≤ maxSingle then .ok (f x) else .error .ub, fun x hx => ⟨f x, if_pos hx, hf x⟩, fun x hx => if_neg (not_le.mpr hx)⟩

theorem rounds_single {toFloat : ℝ → Except Err ℝ} (h : RoundsToNearest toFloat) {x : ℝ} (hx : IsSingle x) : toFloat x = .ok x := by
  obtain ⟨y, hy, -, hn⟩ := h.inRange x (single_le hx)
  have := hn x hx
  rw [sub_self, abs_zero] at this
  rw [hy, sub_eq_zero.mp (abs_nonpos_iff.mp this)]

/-- A number of single precision close to any number. -/
theorem single_near (x : ℝ) (hx : |x| ≤ maxSingle) : ∃ z, IsSingle z ∧ |z - x| ≤ max (2 ^ (-24 : ℤ) * |x|) (2 ^ (-150 : ℤ)) := by
  obtain ⟨e, he, hlow, hup, hbig⟩ : ∃ e : ℤ, -149 ≤ e ∧ e ≤ 104 ∧ |x| < 2 ^ 24 * (2 : ℝ) ^ e ∧ (e = -149 ∨ 2 ^ 23 * (2 : ℝ) ^ e ≤ |x|) := by
    by_cases h0 : |x| < 2 ^ 24 * (2 : ℝ) ^ (-149 : ℤ)
    · exact ⟨-149, le_refl _, by norm_num, h0, .inl rfl⟩
    · have hpos : 0 < |x| := lt_of_lt_of_le (by positivity) (not_lt.mp h0)
      have l1 := Int.zpow_log_le_self (b := 2) (by norm_num) hpos
      have l2 := Int.lt_zpow_succ_log_self (b := 2) (by norm_num) |x|
      push_cast at l1 l2
      have e23 : (2 : ℝ) ^ (Int.log 2 |x|) = 2 ^ 23 * 2 ^ (Int.log 2 |x| - 23) := by
        rw [show (2 : ℝ) ^ 23 = 2 ^ (23 : ℤ) by norm_cast, ← zpow_add₀ (by norm_num)]
        congr 1; ring
      have e24 : (2 : ℝ) ^ (Int.log 2 |x| + 1) = 2 ^ 24 * 2 ^ (Int.log 2 |x| - 23) := by
        rw [show (2 : ℝ) ^ 24 = 2 ^ (24 : ℤ) by norm_cast, ← zpow_add₀ (by norm_num)]
        congr 1; ring
      refine ⟨Int.log 2 |x| - 23, ?_, ?_, by rw [← e24]; exact l2, .inr (by rw [← e23]; exact l1)⟩
      · by_contra hc
        have : Int.log 2 |x| + 1 ≤ -125 := by omega
        have h := zpow_le_zpow_right₀ (by norm_num : (1 : ℝ) ≤ 2) this
        have e' : (2 : ℝ) ^ (-125 : ℤ) = 2 ^ 24 * 2 ^ (-149 : ℤ) := by
          rw [show (2 : ℝ) ^ 24 = 2 ^ (24 : ℤ) by norm_cast, ← zpow_add₀ (by norm_num)]
          norm_num
        rw [e'] at h
        linarith
      · by_contra hc
        have : 128 ≤ Int.log 2 |x| := by omega
        have h := zpow_le_zpow_right₀ (by norm_num : (1 : ℝ) ≤ 2) this
        have e' : (2 : ℝ) ^ (128 : ℤ) = 2 ^ 24 * 2 ^ 104 := by norm_cast
        rw [e'] at h
        unfold maxSingle at hx
        have : (2 : ℝ) ^ 104 > 0 := by positivity
        nlinarith
  have hpe : (0 : ℝ) < 2 ^ e := by positivity
  have hr := abs_sub_round (x / 2 ^ e)
  have hdist : |(round (x / 2 ^ e) : ℝ) * 2 ^ e - x| ≤ 2 ^ e / 2 := by
    have : (round (x / 2 ^ e) : ℝ) * 2 ^ e - x = -(x / 2 ^ e - round (x / 2 ^ e)) * 2 ^ e := by
      rw [neg_mul, sub_mul, div_mul_cancel₀ _ hpe.ne']; ring
    rw [this, abs_mul, abs_neg, abs_of_pos hpe]
    linarith [mul_le_mul_of_nonneg_right hr hpe.le]
  refine ⟨round (x / 2 ^ e) * 2 ^ e, ?_, hdist.trans ?_⟩
  · have hq : |x / 2 ^ e| < 2 ^ 24 := by
      rw [abs_div, abs_of_pos hpe, div_lt_iff₀ hpe]; exact hup
    have hm : |round (x / 2 ^ e)| ≤ 2 ^ 24 := by
      have : |(round (x / 2 ^ e) : ℝ)| < 2 ^ 24 + 1 := by
        have := abs_sub_abs_le_abs_sub (round (x / 2 ^ e) : ℝ) (x / 2 ^ e)
        rw [abs_sub_comm] at this
        linarith
      have h' : |round (x / 2 ^ e)| < 2 ^ 24 + 1 := by exact_mod_cast this
      omega
    rcases lt_or_eq_of_le hm with h | h
    · exact ⟨_, e, h, he, hlow, rfl⟩
    · have hlt : e < 104 := by
        rcases lt_or_eq_of_le hlow with h' | h'
        · exact h'
        · exfalso
          have hx' : |x / 2 ^ e| ≤ 2 ^ 24 - 1 := by
            rw [abs_div, abs_of_pos hpe, div_le_iff₀ hpe, h']
            unfold maxSingle at hx
            exact_mod_cast hx
          have h1 : |(round (x / 2 ^ e) : ℝ)| = 2 ^ 24 := by exact_mod_cast h
          have := abs_sub_abs_le_abs_sub (round (x / 2 ^ e) : ℝ) (x / 2 ^ e)
          rw [abs_sub_comm (round (x / 2 ^ e) : ℝ)] at this
          linarith
      rcases abs_eq (by norm_num : (0 : ℤ) ≤ 2 ^ 24) |>.mp h with h | h
      · refine ⟨2 ^ 23, e + 1, by norm_num, by omega, by omega, ?_⟩
        rw [h, zpow_add_one₀ (by norm_num)]; push_cast; ring
      · refine ⟨-2 ^ 23, e + 1, by norm_num, by omega, by omega, ?_⟩
        rw [h, zpow_add_one₀ (by norm_num)]; push_cast; ring
  · rcases hbig with h | h
    · apply le_max_of_le_right
      rw [h]
      norm_num
    · apply le_max_of_le_left
      rw [show (2 : ℝ) ^ (-24 : ℤ) = 1 / 2 ^ 24 by norm_num]
      rw [div_mul_eq_mul_div, le_div_iff₀ (by norm_num)]
      linarith

/-! ## The operators -/

theorem python_means (toFloat : ℝ → Except Err ℝ) (e : Expr ℝ) (x z : ℝ) (h : toFloat x = .ok z) : Means toFloat e x z := by
  have hd := C02_double e z
  have nums : ∀ m, dispatch toFloat m e (.num x) = match m with
      | .add | .radd => some (anExpr (e.addDouble z))
      | .sub => some (anExpr (e.subDouble z))
      | .rsub => some (anExpr (Expr.doubleSub z e))
      | .mul | .rmul => some (anExpr (.ok (e.smul z)))
      | .truediv => none
      | .ge => some (aConstr (e.geDouble z))
      | .le => some (aConstr (Expr.doubleGe z e))
      | .eq => some (aConstr (Expr.doubleEq z e)) := by
    intro m
    cases m <;> simp [dispatch, overloads, Overload.call, h, Bind.bind, Except.bind]
  have hb : ∀ {r : Except Err (Constr ℝ)} {f : ℝ → Prop}, (∃ c, r = .ok c ∧ ∀ x, c.Sat x ↔ ∀ y ∈ e.value x, f y) →
      Bounds (some (aConstr r)) e f := by
    rintro r f ⟨c, rfl, hc⟩
    exact ⟨c, rfl, hc⟩
  obtain ⟨hge, hle, heq, hdge, hdle, hdeq⟩ := hd
  have hadd : e.addDouble z = .ok { e with b := fun i => e.b i + z } := by simp [Expr.addDouble, Expr.addVec]
  refine ⟨?_, ?_, ?_, ?_, ?_, ?_, ?_, ?_, ?_, ?_, ?_, ?_⟩
  · refine ⟨{ e with b := fun i => e.b i + z }, by simp only [python, PyOp.method, nums, hadd]; rfl, rfl, fun y i _ => ?_⟩
    simp only [Expr.rowVal]; ring
  · refine ⟨{ e with b := fun i => e.b i + z }, by simp only [python, PyOp.reflected, nums, hadd]; rfl, rfl, fun y i _ => ?_⟩
    simp only [Expr.rowVal]; ring
  · intro h1
    have hsub : e.subDouble z = .ok { e with b := fun i => e.b i - z } := by simp [Expr.subDouble, Expr.subVec, h1]
    refine ⟨{ e with b := fun i => e.b i - z }, by simp only [python, PyOp.method, nums, hsub]; rfl, rfl, fun y i _ => ?_⟩
    simp only [Expr.rowVal]; ring
  · have hs : Expr.doubleSub z e = .ok { e.neg with b := fun i => e.neg.b i + z } := by
      simp [Expr.doubleSub, Expr.addDouble, Expr.addVec]
    refine ⟨{ e.neg with b := fun i => e.neg.b i + z }, by simp only [python, PyOp.reflected, nums, hs]; rfl, rfl, fun y i _ => ?_⟩
    have : ({ e.neg with b := fun i => e.neg.b i + z } : Expr ℝ).rowVal y i = e.neg.rowVal y i + z := by
      simp only [Expr.rowVal]; ring
    rw [this, Expr.rowVal_neg]; ring
  · exact ⟨e.smul z, by simp only [python, PyOp.method, nums]; rfl, rfl, fun y i _ => Expr.rowVal_smul e z y i⟩
  · exact ⟨e.smul z, by simp only [python, PyOp.reflected, nums]; rfl, rfl, fun y i _ => (Expr.rowVal_smul e z y i).trans (mul_comm _ _)⟩
  · simp only [python, PyOp.method, nums]; exact hb hge
  · simp only [python, PyOp.reflected, nums]; exact hb hdge
  · simp only [python, PyOp.method, nums]; exact hb hdge
  · simp only [python, PyOp.reflected, nums]; exact hb hge
  · simp only [python, PyOp.method, nums]
    obtain ⟨c, h1, h2⟩ := heq
    exact ⟨c, by rw [show Expr.doubleEq z e = e.eqDouble z from rfl, h1]; rfl, h2⟩
  · simp only [python, PyOp.reflected, nums]; exact hb hdeq

/-- **C199.** Every operator between an expression and a number of Python means what is written, for the numbers that single precision represents.
Missing: the other numbers (`C199_exact`, `C199_error`). -/
theorem C199_partial (toFloat : ℝ → Except Err ℝ) (hf : RoundsToNearest toFloat) (e : Expr ℝ) (x : ℝ) (hx : IsSingle x) :
    Means toFloat e x x :=
  python_means toFloat e x x (rounds_single hf hx)

/-- **C199, the domain.** For all the other numbers no operator means what is written: the sum has another value, and a constraint that the
expression equals the number is satisfied by no assignment that gives it the number. -/
theorem C199_exact (toFloat : ℝ → Except Err ℝ) (hf : RoundsToNearest toFloat) (e : Expr ℝ) (he : 0 < e.rows) (x : ℝ) (hx : ¬ IsSingle x) :
    (¬ Rows (python toFloat .add (.expr e) (.num x)) e fun v => v + x) ∧ (¬ Rows (python toFloat .add (.num x) (.expr e)) e fun v => x + v) ∧
    (¬ Rows (python toFloat .sub (.num x) (.expr e)) e fun v => x - v) ∧
    (∀ c, python toFloat .eq (.expr e) (.num x) = some (.ok (.constr c)) → ∀ a, (∀ y ∈ e.value a, y = x) → ¬ c.Sat a) := by
  by_cases hr : |x| ≤ maxSingle
  · obtain ⟨z, hz, hs, -⟩ := hf.inRange x hr
    have hne : z ≠ x := by rintro rfl; exact hx hs
    have hm := python_means toFloat e x z hz
    refine ⟨?_, ?_, ?_, ?_⟩
    · rintro ⟨d, h1, -, h2⟩
      obtain ⟨d', h1', -, h2'⟩ := hm.add
      rw [h1] at h1'
      cases h1'
      have := (h2 0 0 he).symm.trans (h2' 0 0 he)
      exact hne (by linarith)
    · rintro ⟨d, h1, -, h2⟩
      obtain ⟨d', h1', -, h2'⟩ := hm.radd
      rw [h1] at h1'
      cases h1'
      have := (h2 0 0 he).symm.trans (h2' 0 0 he)
      exact hne (by linarith)
    · rintro ⟨d, h1, -, h2⟩
      obtain ⟨d', h1', -, h2'⟩ := hm.rsub
      rw [h1] at h1'
      cases h1'
      have := (h2 0 0 he).symm.trans (h2' 0 0 he)
      exact hne (by linarith)
    · intro c hc a ha hsat
      obtain ⟨c', h1', h2'⟩ := hm.eq
      rw [hc] at h1'
      cases h1'
      have hmem : e.rowVal a 0 ∈ e.value a := by
        unfold Expr.value
        exact List.mem_map.mpr ⟨0, List.mem_range.mpr he, rfl⟩
      exact hne (((h2' a).mp hsat _ hmem).symm.trans (ha _ hmem))
  · have hub := hf.beyond x (not_le.mp hr)
    refine ⟨?_, ?_, ?_, ?_⟩
    · rintro ⟨d, h1, -⟩
      simp [python, PyOp.method, dispatch, overloads, Overload.call, hub, Bind.bind, Except.bind] at h1
    · rintro ⟨d, h1, -⟩
      simp [python, PyOp.reflected, dispatch, overloads, Overload.call, hub, Bind.bind, Except.bind] at h1
    · rintro ⟨d, h1, -⟩
      simp [python, PyOp.reflected, dispatch, overloads, Overload.call, hub, Bind.bind, Except.bind] at h1
    · intro c hc
      simp [python, PyOp.method, dispatch, overloads, Overload.call, hub, Bind.bind, Except.bind] at hc

/-- **C199, how far.** Up to the greatest number of single precision every operator means what is written with a number at a relative distance of
at most 2^-24 (at most 2^-150 for the numbers next to zero), the same one for all operators and expressions. -/
theorem C199_error (toFloat : ℝ → Except Err ℝ) (hf : RoundsToNearest toFloat) (x : ℝ) (hx : |x| ≤ maxSingle) :
    ∃ z, |z - x| ≤ max (2 ^ (-24 : ℤ) * |x|) (2 ^ (-150 : ℤ)) ∧ ∀ e : Expr ℝ, Means toFloat e x z := by
  obtain ⟨z, hz, -, hn⟩ := hf.inRange x hx
  obtain ⟨w, hw, hd⟩ := single_near x hx
  exact ⟨z, (hn w hw).trans hd, fun e => python_means toFloat e x z hz⟩

/-- **C199 is false** for one tenth: `e <= 0.1` accepts values above 0.1, and `e == 0.1` does not accept 0.1. -/
theorem C199_refuted (toFloat : ℝ → Except Err ℝ) (hf : RoundsToNearest toFloat) (e : Expr ℝ) (he : 0 < e.rows) :
    ∃ z : ℝ, 1 / 10 < z ∧ (∃ c, python toFloat .le (.expr e) (.num (1 / 10)) = some (.ok (.constr c)) ∧
        ∀ a, (∀ y ∈ e.value a, y = z) → c.Sat a) ∧
      (∃ c, python toFloat .eq (.expr e) (.num (1 / 10)) = some (.ok (.constr c)) ∧ ∀ a, (∀ y ∈ e.value a, y = 1 / 10) → ¬ c.Sat a) := by
  have hmax : |(1 / 10 : ℝ)| ≤ maxSingle := by unfold maxSingle; norm_num
  obtain ⟨z, hz, ⟨m, k, hm, h1, h2, rfl⟩, hn⟩ := hf.inRange (1 / 10) hmax
  have hnear := hn (13421773 * (2 : ℝ) ^ (-27 : ℤ)) ⟨13421773, -27, by norm_num, by norm_num, by norm_num, by norm_num⟩
  have hdist : |(m : ℝ) * 2 ^ k - 1 / 10| ≤ 2 / 10 * 2 ^ (-27 : ℤ) := by
    refine hnear.trans (le_of_eq ?_)
    rw [abs_of_pos (by norm_num)]
    norm_num
  have hval : (m : ℝ) * 2 ^ k = 13421773 * (2 : ℝ) ^ (-27 : ℤ) := by
    rw [abs_le] at hdist
    by_cases hk : k < -27
    · exfalso
      have : (2 : ℝ) ^ k ≤ 2 ^ (-28 : ℤ) := zpow_le_zpow_right₀ (by norm_num) (by omega)
      have hm' : (m : ℝ) ≤ 2 ^ 24 := by
        have : m ≤ 2 ^ 24 := by have := abs_lt.mp hm; omega
        exact_mod_cast this
      have hp : (0 : ℝ) < 2 ^ k := by positivity
      have : (m : ℝ) * 2 ^ k ≤ 2 ^ 24 * 2 ^ (-28 : ℤ) :=
        (mul_le_mul_of_nonneg_right hm' hp.le).trans (mul_le_mul_of_nonneg_left this (by norm_num))
      norm_num at this hdist
      linarith
    · obtain ⟨j, rfl⟩ : ∃ j : ℕ, k = -27 + j := ⟨(k + 27).toNat, by omega⟩
      have e1 : (m : ℝ) * 2 ^ (-27 + (j : ℤ)) = ((m * 2 ^ j : ℤ) : ℝ) * 2 ^ (-27 : ℤ) := by
        rw [zpow_add₀ (by norm_num)]; push_cast; rw [zpow_natCast]; ring
      rw [e1] at hdist ⊢
      have l1 : (13421772 : ℝ) < ((m * 2 ^ j : ℤ) : ℝ) := by
        have := hdist.1; norm_num at this ⊢; linarith
      have l2 : ((m * 2 ^ j : ℤ) : ℝ) < 13421774 := by
        have := hdist.2; norm_num at this ⊢; linarith
      have : m * 2 ^ j = 13421773 := by
        have a1 : (13421772 : ℤ) < m * 2 ^ j := by exact_mod_cast l1
        have a2 : m * 2 ^ j < (13421774 : ℤ) := by exact_mod_cast l2
        omega
      rw [this]; norm_num
  have hgt : (1 / 10 : ℝ) < m * 2 ^ k := by rw [hval]; norm_num
  have hmns := python_means toFloat e (1 / 10) _ hz
  refine ⟨m * 2 ^ k, hgt, ?_, ?_⟩
  · obtain ⟨c, hc, hsat⟩ := hmns.le
    exact ⟨c, hc, fun a ha => (hsat a).mpr fun y hy => (ha y hy).le⟩
  · obtain ⟨c, hc, hsat⟩ := hmns.eq
    refine ⟨c, hc, fun a ha h => ?_⟩
    have hmem : e.rowVal a 0 ∈ e.value a := by
      unfold Expr.value
      exact List.mem_map.mpr ⟨0, List.mem_range.mpr he, rfl⟩
    have := ((hsat a).mp h _ hmem).symm.trans (ha _ hmem)
    linarith

/-- `r` is a constraint that holds of the assignments `f`. -/
def Holds (r : Option (Except Err Answer)) (f : (Nat → ℝ) → Prop) : Prop := ∃ c, r = some (.ok (.constr c)) ∧ ∀ x, c.Sat x ↔ f x

/-- **C199 for the other operands.** Between expressions the operators of Python are those of C++; with a vector on the right, of one number per row,
they do what is written on each row. -/
theorem C199_vectors (toFloat : ℝ → Except Err ℝ) (e o : Expr ℝ) (v : Vec ℝ) (hv : v.size = e.rows) :
    (python toFloat .add (.expr e) (.expr o) = some ((e.add o).map .expr) ∧ python toFloat .sub (.expr e) (.expr o) = some ((e.sub o).map .expr) ∧
      python toFloat .mul (.expr e) (.expr o) = some ((e.mul o).map .expr) ∧ python toFloat .ge (.expr e) (.expr o) = some ((e.ge o).map .constr) ∧
      python toFloat .le (.expr e) (.expr o) = some ((e.le o).map .constr) ∧
      python toFloat .eq (.expr e) (.expr o) = some ((e.eq o).map .constr)) ∧
    (∃ d, python toFloat .add (.expr e) (.vec v) = some (.ok (.expr d)) ∧ d.rows = e.rows ∧ ∀ x i, d.rowVal x i = e.rowVal x i + v.v i) ∧
    (∃ d, python toFloat .sub (.expr e) (.vec v) = some (.ok (.expr d)) ∧ d.rows = e.rows ∧ ∀ x i, d.rowVal x i = e.rowVal x i - v.v i) ∧
    (e.rows = 1 → ∃ d, python toFloat .mul (.expr e) (.vec v) = some (.ok (.expr d)) ∧ d.rows = v.size ∧
      ∀ x i, d.rowVal x i = e.rowVal x 0 * v.v i) ∧
    Holds (python toFloat .ge (.expr e) (.vec v)) (fun x => ∀ i, i < e.rows → e.rowVal x i ≥ v.v i) ∧
    Holds (python toFloat .le (.expr e) (.vec v)) (fun x => ∀ i, i < e.rows → e.rowVal x i ≤ v.v i) ∧
    Holds (python toFloat .eq (.expr e) (.vec v)) (fun x => ∀ i, i < e.rows → e.rowVal x i = v.v i) := by
  obtain ⟨hge, -, heq, hvge, -, -⟩ := C02_vector e v hv
  refine ⟨⟨rfl, rfl, rfl, rfl, rfl, rfl⟩, ?_, ?_, ?_, ?_, ?_, ?_⟩
  · refine ⟨{ e with b := fun i => e.b i + v.v i }, ?_, rfl, fun x i => ?_⟩
    · show some (anExpr (e.addVec v)) = _
      rw [Expr.addVec, if_pos hv]; rfl
    · simp only [Expr.rowVal]; ring
  · refine ⟨{ e with b := fun i => e.b i - v.v i }, ?_, rfl, fun x i => ?_⟩
    · show some (anExpr (e.subVec v)) = _
      rw [Expr.subVec, if_pos hv]; rfl
    · simp only [Expr.rowVal]; ring
  · intro h1
    refine ⟨⟨v.size, e.cols, fun k j => e.A 0 j * v.v k, fun k => e.b 0 * v.v k⟩, ?_, rfl, fun x i => ?_⟩
    · show some (anExpr (e.mul (Expr.fromVector v))) = _
      rw [Expr.mul, if_pos (by simp [Expr.isScalar, Expr.isConstant, h1, Expr.fromVector])]
      rfl
    · simp only [Expr.rowVal]
      rw [add_mul, Finset.sum_mul]
      congr 1
      exact Finset.sum_congr rfl fun j _ => by ring
  · obtain ⟨c, hc, h⟩ := hge
    exact ⟨c, by show some (aConstr (e.geVec v)) = _; rw [hc]; rfl, h⟩
  · obtain ⟨c, hc, h⟩ := hvge
    exact ⟨c, by show some (aConstr (Expr.vecGe v e)) = _; rw [hc]; rfl, h⟩
  · obtain ⟨c, hc, h⟩ := heq
    exact ⟨c, by show some (aConstr (e.eqVec v)) = _; rw [hc]; rfl, h⟩

/-- The numbers that are exact: all the integers up to 2^24, and one half. -/
example (n : ℤ) (h : |n| < 2 ^ 24) : IsSingle n := ⟨n, 0, h, by norm_num, by norm_num, by norm_num⟩
example : IsSingle (1 / 2) := ⟨1, -1, by norm_num, by norm_num, by norm_num, by norm_num⟩

/-- And not one tenth. -/
example : ¬ IsSingle (1 / 10) := by
  intro h
  obtain ⟨f, hf⟩ := rounding_exists
  obtain ⟨z, hz, -, c, hc, hn⟩ := C199_refuted f hf (Expr.fromDouble (1 / 10)) Nat.one_pos
  obtain ⟨c', hc', hs⟩ := (C199_partial f hf (Expr.fromDouble (1 / 10)) _ h).eq
  rw [hc] at hc'
  cases hc'
  have hv : ∀ y ∈ (Expr.fromDouble (1 / 10 : ℝ)).value 0, y = 1 / 10 := by
    intro y hy
    simpa [Expr.value, Expr.rowVal, Expr.fromDouble] using hy
  exact hn 0 hv ((hs 0).mpr hv)

end Verif.Bindings
