/-
Property C165: when an inverse kinematics step exists, `solve` finds it.
-/
import Verif.Kinematics.OrderProps
import Verif.Kinematics.LoopProps
import Verif.Kinematics.SolverProps
import Mathlib.LinearAlgebra.Matrix.Rank

namespace Verif.Kinematics
open Finset Verif.Problem

/-! ## Sizes -/

/-- The constraint passes the checks made before solving, for `n` variables. -/
def SizedFor (n : Nat) (c : Constr ℝ) : Prop := c.brows = c.expr.rows ∧ 0 < c.expr.rows ∧ c.expr.cols ≤ n

theorem SizedFor.mono {n n' : Nat} {c : Constr ℝ} (h : SizedFor n c) (hn : n ≤ n') : SizedFor n' c := ⟨h.1, h.2.1, le_trans h.2.2 hn⟩

theorem add_size {e o d : Expr ℝ} (h : e.add o = .ok d) (he : 0 < e.rows) (ho : 0 < o.rows) : 0 < d.rows ∧ d.cols ≤ max e.cols o.cols := by
  unfold Expr.add at h
  split at h
  · cases h; exact ⟨ho, le_max_right _ _⟩
  · split at h
    · cases h; exact ⟨he, le_max_left _ _⟩
    · split at h
      · cases h
      · cases h; exact ⟨he, le_refl _⟩

theorem eq_sized {n : Nat} {e o : Expr ℝ} {c : Constr ℝ} (h : e.eq o = .ok c) (he : 0 < e.rows) (ho : 0 < o.rows)
    (h1 : e.cols ≤ n) (h2 : o.cols ≤ n) : SizedFor n c := by
  unfold Expr.eq at h
  obtain ⟨d, hd, h⟩ := do_ok h
  cases h
  obtain ⟨a, b⟩ := add_size hd he ho
  exact ⟨rfl, a, le_trans b (max_le h1 h2)⟩

theorem ge_sized {n : Nat} {e o : Expr ℝ} {c : Constr ℝ} (h : e.ge o = .ok c) (he : 0 < e.rows) (ho : 0 < o.rows)
    (h1 : e.cols ≤ n) (h2 : o.cols ≤ n) : SizedFor n c ∧ c.ty = .inequality := by
  unfold Expr.ge at h
  obtain ⟨d, hd, h⟩ := do_ok h
  cases h
  obtain ⟨a, b⟩ := add_size hd he ho
  exact ⟨⟨rfl, a, le_trans b (max_le h1 h2)⟩, rfl⟩

theorem le_sized {n : Nat} {e o : Expr ℝ} {c : Constr ℝ} (h : e.le o = .ok c) (he : 0 < e.rows) (ho : 0 < o.rows)
    (h1 : e.cols ≤ n) (h2 : o.cols ≤ n) : SizedFor n c ∧ c.ty = .inequality := by
  unfold Expr.le at h
  obtain ⟨d, hd, h⟩ := do_ok h
  cases h
  obtain ⟨a, b⟩ := add_size hd he ho
  exact ⟨⟨rfl, a, le_trans b (max_le h1 h2)⟩, rfl⟩

/-! ## Independence of hard equalities -/

/-- The linear part of a row of a constraint. -/
noncomputable def lin (c : Constr ℝ) (x : Nat → ℝ) (i : Nat) : ℝ := c.expr.rowVal x i - c.expr.rowVal (fun _ => 0) i

/-- The point gives the rows of the hard equalities the listed values. -/
def MeetsRhs (ps : List (Constr ℝ × (Nat → ℝ))) (x : Nat → ℝ) : Prop :=
  ∀ p ∈ ps, p.1.hardEq = true → ∀ i, i < p.1.expr.rows → lin p.1 x i = p.2 i

theorem lin_eq (c : Constr ℝ) (n : Nat) (h : c.expr.cols ≤ n) (x : Nat → ℝ) (i : Nat) : lin c x i = ∑ k ∈ range n, c.expr.pad i k * x k := by
  unfold lin Expr.rowVal Expr.pad
  simp only [mul_zero, Finset.sum_const_zero, zero_add, add_sub_cancel_right]
  rw [← Finset.sum_subset (Finset.range_mono h)]
  · exact Finset.sum_congr rfl fun k hk => by rw [if_pos (Finset.mem_range.1 hk)]
  · intro k _ hk
    rw [if_neg (by simpa using hk), zero_mul]

/-- Hard equalities whose rows can be given any values are independent. -/
theorem indep_of_free (n : Nat) (cs : List (Constr ℝ)) (hs : ∀ c ∈ cs, SizedFor n c)
    (h : ∀ ps : List (Constr ℝ × (Nat → ℝ)), ps.map Prod.fst = cs → ∃ x, MeetsRhs ps x) :
    RowsIndep n (nEqualities cs) (equalities cs).A := by
  rw [rowsIndep_iff]
  rintro ps rfl hc
  obtain ⟨x, hx⟩ := h ps rfl
  have hzero : ∑ k ∈ range n, comb ps k * x k = 0 := Finset.sum_eq_zero fun k hk => by rw [hc k (Finset.mem_range.1 hk), zero_mul]
  have hsq : ∀ l : List (Constr ℝ × (Nat → ℝ)), (∀ p ∈ l, p ∈ ps) →
      ∑ k ∈ range n, comb l k * x k = (l.map fun p => ∑ i ∈ range (eqRowsOf p.1), p.2 i ^ 2).sum := by
    intro l
    induction l with
    | nil => intro _; simp [comb]
    | cons p l ih =>
      intro hl
      have ih := ih fun q hq => hl q (List.mem_cons_of_mem _ hq)
      have hp := hl p List.mem_cons_self
      unfold comb at ih ⊢
      simp only [List.map_cons, List.sum_cons, add_mul, Finset.sum_add_distrib]
      rw [ih]
      congr 1
      simp only [Finset.sum_mul]
      rw [Finset.sum_comm]
      refine Finset.sum_congr rfl fun i hi => ?_
      have hi := Finset.mem_range.1 hi
      unfold eqRowsOf at hi
      split at hi
      · rename_i hq
        have h1 := hx p hp hq i hi
        rw [lin_eq p.1 n (hs p.1 (List.mem_map.2 ⟨p, hp, rfl⟩)).2.2] at h1
        simp only [mul_assoc]
        rw [← Finset.mul_sum, h1, sq]
      · omega
  have hsum := hsq ps fun _ h => h
  rw [hzero] at hsum
  intro p hp i hi
  have hnn : ∀ q ∈ ps, 0 ≤ ∑ i ∈ range (eqRowsOf q.1), q.2 i ^ 2 := fun q _ => Finset.sum_nonneg fun i _ => sq_nonneg _
  have hp0 : ∑ i ∈ range (eqRowsOf p.1), p.2 i ^ 2 = 0 := by
    refine le_antisymm ?_ (hnn p hp)
    rw [hsum]
    exact List.single_le_sum (by
      intro a ha
      obtain ⟨q, hq, rfl⟩ := List.mem_map.1 ha
      exact hnn q hq) _ (List.mem_map.2 ⟨p, hp, rfl⟩)
  have := (Finset.sum_eq_zero_iff_of_nonneg (fun i _ => sq_nonneg (p.2 i))).1 hp0 i (Finset.mem_range.2 hi)
  exact pow_eq_zero_iff (two_ne_zero) |>.1 this

/-- Independent rows can be given any values. -/
theorem rowsIndep_onto {n m : Nat} {A : Nat → Nat → ℝ} (h : RowsIndep n m A) (b : Nat → ℝ) :
    ∃ x : Nat → ℝ, ∀ i, i < m → ∑ k ∈ range n, A i k * x k = b i := by
  let M : Matrix (Fin m) (Fin n) ℝ := Matrix.of fun i k => A i k
  have hli : LinearIndependent ℝ M.row := by
    rw [Fintype.linearIndependent_iff]
    intro g hg i
    have := h (fun i => if h : i < m then g ⟨i, h⟩ else 0) (fun k hk => by
      have e := congrFun hg ⟨k, hk⟩
      simp only [Finset.sum_apply, Pi.smul_apply, smul_eq_mul, Pi.zero_apply] at e
      rw [Finset.sum_range]
      rw [← e]
      refine Finset.sum_congr rfl fun i _ => ?_
      simp [M]) i i.2
    simpa using this
  have hr := hli.rank_matrix
  have hs : Function.Surjective M.mulVecLin := by
    rw [← LinearMap.range_eq_top]
    apply Submodule.eq_top_of_finrank_eq
    rw [Module.finrank_fin_fun]
    have : M.rank = Module.finrank ℝ (LinearMap.range M.mulVecLin) := rfl
    rw [← this, hr, Fintype.card_fin]
  obtain ⟨v, hv⟩ := hs fun i => b i
  refine ⟨fun k => if h : k < n then v ⟨k, h⟩ else 0, fun i hi => ?_⟩
  have := congrFun hv ⟨i, hi⟩
  rw [← this, Finset.sum_range, Matrix.mulVecLin_apply, Matrix.mulVec, dotProduct]
  refine Finset.sum_congr rfl fun k _ => ?_
  simp [M]

/-- Independent hard equalities can be given any values. -/
theorem free_of_indep (n : Nat) (cs : List (Constr ℝ)) (hs : ∀ c ∈ cs, SizedFor n c)
    (h : RowsIndep n (nEqualities cs) (equalities cs).A) (ps : List (Constr ℝ × (Nat → ℝ))) (hps : ps.map Prod.fst = cs) :
    ∃ x, MeetsRhs ps x := by
  subst hps
  obtain ⟨x, hx⟩ := rowsIndep_onto h (stackW ps)
  refine ⟨x, fun p hp hh i hi => ?_⟩
  rw [lin_eq p.1 n (hs p.1 (List.mem_map.2 ⟨p, hp, rfl⟩)).2.2]
  have hi' : i < eqRowsOf p.1 := by unfold eqRowsOf; rw [if_pos hh]; exact hi
  clear hs h hi hh
  induction ps with
  | nil => cases hp
  | cons q l ih =>
    rw [List.map_cons, nEqualities_cons] at hx
    rcases List.mem_cons.1 hp with rfl | hp
    · have := hx i (by omega)
      rw [stackW, if_pos hi'] at this
      rw [← this]
      exact Finset.sum_congr rfl fun k _ => by rw [equalities_cons_head p.1 _ i hi' k]
    · refine ih (fun j hj => ?_) hp
      have := hx (eqRowsOf q.1 + j) (by omega)
      rw [stackW, if_neg (by omega), Nat.add_sub_cancel_left] at this
      rw [← this]
      exact Finset.sum_congr rfl fun k _ => by rw [equalities_cons_tail q.1 _ j hj k]

/-! ## Tasks -/

/-- The values `ρ` are given to the rows of a hard task, or of a scaled task with scale `σ`. -/
def TaskRhs (robot : RState ℝ) (t : Task ℝ) (ρ : Nat → ℝ) (y : Nat → ℝ) (σ : ℝ) : Prop :=
  ∀ M, t.update robot = .ok M → ∀ i, i < M.rows →
    (t.priority = .hard → ∑ j ∈ range M.cols, M.A i j * y j = ρ i) ∧
    (t.priority = .scaled → (∑ j ∈ range M.cols, M.A i j * y j) - σ * M.b i = ρ i)

/-- Added constraints have good sizes, no soft inequality, and the weight of a task. -/
def GoodNew (n : Nat) (ts : List (Task ℝ)) (c : Constr ℝ) : Prop :=
  SizedFor n c ∧ c.softIneq = false ∧ (c.softEq = true → c.weight = 1 ∨ ∃ t ∈ ts, t.priority = .soft ∧ c.weight = t.weight)

theorem scale_new (nv : Nat) : ∃ l : List (Constr ℝ), scaleConstraints (⟨nv, nv + 1⟩ : Var) = .ok l ∧
    ∀ c ∈ l, GoodNew (nv + 1) [] c ∧ c.hardEq = false := by
  unfold scaleConstraints
  rw [var_expr_all _ (by simp)]
  simp only [bind, Except.bind]
  generalize he : (⟨(⟨nv, nv + 1⟩ : Var).kEnd - (⟨nv, nv + 1⟩ : Var).kStart, nv + 1,
      fun k j => if j = nv + k then 1 else 0, fun _ => 0⟩ : Expr ℝ) = e
  have hr : 0 < e.rows := by subst he; simp
  have hc : e.cols = nv + 1 := by subst he; rfl
  have hns : (e.isScalar && e.isConstant) = false := by simp [Expr.isConstant, hc]
  have hsub : ∀ f : ℝ, ∃ d, e.sub (Expr.fromDouble f) = .ok d := by
    intro f
    unfold Expr.sub Expr.add
    rw [if_neg (by rw [hns]; exact Bool.false_ne_true), if_pos (by rfl)]
    exact ⟨_, rfl⟩
  obtain ⟨d0, h0⟩ := hsub 0
  obtain ⟨d1, h1⟩ := hsub 1
  have e1 : e.geDouble 0 = .ok { expr := d0, ty := .inequality, weight := 1 } := by unfold Expr.geDouble Expr.ge; rw [h0]; rfl
  have e2 : e.leDouble 1 = .ok { expr := d1.neg, ty := .inequality, weight := 1 } := by unfold Expr.leDouble Expr.le; rw [h1]; rfl
  have e3 : e.eqDouble 1 = .ok { expr := d1, weight := 1 } := by unfold Expr.eqDouble Expr.eq; rw [h1]; rfl
  have w1 := (ge_sized (n := nv + 1) e1 hr one_pos (by omega) (Nat.zero_le _)).1
  have w2 := (le_sized (n := nv + 1) e2 hr one_pos (by omega) (Nat.zero_le _)).1
  have w3 := eq_sized (n := nv + 1) e3 hr one_pos (by omega) (Nat.zero_le _)
  rw [e1, e2, e3]
  refine ⟨_, rfl, ?_⟩
  intro c hc
  simp only [List.mem_cons, List.not_mem_nil, or_false] at hc
  rcases hc with rfl | rfl | rfl
  · exact ⟨⟨w1, rfl, fun h => by cases h⟩, rfl⟩
  · exact ⟨⟨w2, rfl, fun h => by cases h⟩, rfl⟩
  · exact ⟨⟨w3, rfl, fun _ => .inl rfl⟩, rfl⟩

/-- `ensureScale` succeeds. -/
theorem ensureScale_total (nv : Nat) (st : LoopSt ℝ) (hi : LInv nv st) :
    ∃ st' l, ensureScale st = (st', none) ∧ LInv nv st' ∧ st'.scaleVar = some 1 ∧ st'.prob.1 = nv + 1 ∧ st'.cs = st.cs ++ l ∧
      st.prob.1 ≤ st'.prob.1 ∧ ∀ c ∈ l, GoodNew st'.prob.1 [] c ∧ c.hardEq = false := by
  obtain ⟨st', h1, h2, h3, h4, h5⟩ := ensureScale_spec nv st hi
  have hsv := h2.2 h3
  have hn : st'.prob.1 = nv + 1 := by
    rcases h2.1 with ⟨h, -⟩ | ⟨-, h, -⟩ | ⟨-, -, h, -⟩
    · cases h
    · rw [hsv] at h; cases h
    · exact h
  have hle : st.prob.1 ≤ st'.prob.1 := by
    rw [hn]
    rcases hi.1 with ⟨h, -⟩ | ⟨-, -, h, -⟩ | ⟨-, -, h, -⟩
    · cases h
    · omega
    · omega
  obtain ⟨l, hl, hg⟩ := scale_new nv
  by_cases hs : st.hasScaling = true
  · have e := h4 hs
    subst e
    exact ⟨st', [], h1, h2, hsv, hn, by simp, le_refl _, by simp⟩
  · refine ⟨st', l, h1, h2, hsv, hn, ?_, hle, by rw [hn]; exact hg⟩
    unfold ensureScale at h1
    rw [if_neg hs] at h1
    simp only at h1
    have hvar := varAt_scale nv st'.prob st'.scaleVar h2.1 hsv
    cases hsc : st.scaleVar with
    | none =>
      simp only [hsc] at h1
      split at h1
      · cases h1
      · rename_i l' hl'
        have e := (Prod.mk.inj h1).1
        subst e
        simp only at hvar hsv hl' ⊢
        rw [hsv] at hl'
        have : varAt (addVariable st.prob 1) ((some 1).getD 0) = ⟨nv, nv + 1⟩ := hvar
        rw [this, hl] at hl'
        cases hl'
        rfl
    | some i =>
      simp only [hsc] at h1
      split at h1
      · cases h1
      · rename_i l' hl'
        have e := (Prod.mk.inj h1).1
        subst e
        simp only at hvar hsv hl' ⊢
        rw [hsv] at hl'
        have : varAt st.prob ((some 1).getD 0) = ⟨nv, nv + 1⟩ := hvar
        rw [this, hl] at hl'
        cases hl'
        rfl

/-- One task is added without error. -/
theorem taskStep_total (nv : Nat) (robot : RState ℝ) (st : LoopSt ℝ) (hi : LInv nv st) (t : Task ℝ) (M : TaskMat ℝ)
    (hM : t.update robot = .ok M) (hc0 : 0 < M.cols) (hcn : M.cols ≤ nv) :
    ∃ st' l, taskStep robot st t = (st', none) ∧ LInv nv st' ∧ st'.cs = st.cs ++ l ∧ st.prob.1 ≤ st'.prob.1 ∧
      (∀ c ∈ l, GoodNew st'.prob.1 [t] c) ∧
      (∀ ps : List (Constr ℝ × (Nat → ℝ)), ps.map Prod.fst = l → ∃ ρ, ∀ x, TaskRhs robot t ρ x (x nv) → MeetsRhs ps x) ∧
      ∀ ρ, ∃ ps : List (Constr ℝ × (Nat → ℝ)), ps.map Prod.fst = l ∧ ∀ x, MeetsRhs ps x → TaskRhs robot t ρ x (x nv) := by
  have hnvle : nv ≤ st.prob.1 := by
    rcases hi.1 with ⟨h, -⟩ | ⟨-, -, h, -⟩ | ⟨-, -, h, -⟩
    · cases h
    · omega
    · omega
  have hinv : ∀ st', taskStep robot st t = (st', none) → LInv nv st' := fun st' h =>
    (taskStep_spec nv robot st hi t (fun M' hM' => by rw [hM] at hM'; cases hM'; exact hcn) st' none h).1
  by_cases h0 : M.rows = 0
  · have e : taskStep robot st t = (st, none) := by
      unfold taskStep
      simp only [hM, if_pos h0]
    exact ⟨st, [], e, hinv _ e, by simp, le_refl _, by simp, fun ps hps => ⟨fun _ => 0, fun x _ p hp => by
      rw [List.map_eq_nil_iff.1 hps] at hp; cases hp⟩, fun ρ => ⟨[], rfl, fun x _ M' hM' i hi => by
      rw [hM] at hM'; cases hM'; omega⟩⟩
  · by_cases hp : t.priority = .scaled
    · obtain ⟨st1, l, h1, h2, h3, h4, h5, h6, h7⟩ := ensureScale_total nv st hi
      have hvar : varAt st1.prob 1 = ⟨nv, nv + 1⟩ := varAt_scale nv st1.prob st1.scaleVar h2.1 h3
      obtain ⟨ex, he1, he2, he3, he4⟩ := scaledExpr_spec nv M hcn
      obtain ⟨c, hc1, hc2, hc3, hc4⟩ := eqDouble_zero ex 0
      obtain ⟨hr, hcl, hv⟩ := hc4 (by omega)
      have e : taskStep robot st t = ({ st1 with cs := st1.cs ++ [c.configureP .hard t.weight] }, none) := by
        unfold taskStep
        simp only [hM, if_neg h0, if_pos hp, h1, h3, Option.getD_some, hvar, he1]
        simp only [bind, Except.bind, hc1]
      have hs := eq_sized (n := nv + 1) hc1 (by rw [he2]; omega) one_pos (by omega) (Nat.zero_le _)
      refine ⟨_, l ++ [c.configureP .hard t.weight], e, hinv _ e, by simp [h5], h6, ?_, ?_, ?_⟩
      · intro d hd
        rcases List.mem_append.1 hd with hd | hd
        · obtain ⟨⟨a, b, k⟩, -⟩ := h7 d hd
          refine ⟨a, b, fun h => ?_⟩
          rcases k h with k | ⟨t', ht', -⟩
          · exact .inl k
          · cases ht'
        · rw [List.mem_singleton.1 hd]
          exact ⟨by show SizedFor st1.prob.1 _; rw [h4]; exact hs, by simp [Constr.softIneq, Constr.configureP],
            fun h => by simp [Constr.softEq, Constr.configureP] at h⟩
      · intro ps hps
        obtain ⟨p1, p2, rfl, hp1, hp2⟩ := List.map_eq_append_iff.1 hps
        obtain ⟨q, rfl, hq⟩ := List.map_eq_singleton_iff.1 hp2
        refine ⟨q.2, fun x hx p hpm hh i hi => ?_⟩
        rcases List.mem_append.1 hpm with hpm | hpm
        · have := (h7 p.1 (by rw [← hp1]; exact List.mem_map.2 ⟨p, hpm, rfl⟩)).2
          rw [hh] at this
          cases this
        · rw [List.mem_singleton.1 hpm] at hi ⊢
          rw [hq] at hi ⊢
          have hi' : i < M.rows := by rw [← he2, ← hr]; exact hi
          have := (hx M hM i hi').2 hp
          rw [← this]
          show c.expr.rowVal x i - c.expr.rowVal (fun _ => 0) i = _
          rw [hv, hv, he4, he4]
          simp [TaskMat.app]
      · intro ρ
        refine ⟨l.map (fun c => (c, fun _ => 0)) ++ [(c.configureP .hard t.weight, ρ)], by simp [Function.comp_def], fun x hx M' hM' i hi => ?_⟩
        rw [hM] at hM'
        cases hM'
        refine ⟨fun h => (by rw [hp] at h; cases h), fun _ => ?_⟩
        have hx' := hx (c.configureP .hard t.weight, ρ) (by simp) (by simp [Constr.hardEq, Constr.configureP, hc2]) i (by
          show i < c.expr.rows; rw [hr, he2]; exact hi)
        refine Eq.trans ?_ hx'
        show _ = c.expr.rowVal x i - c.expr.rowVal (fun _ => 0) i
        rw [hv, hv, he4, he4]
        simp [TaskMat.app]
    · obtain ⟨c, hc1, hc2, hc3, hc4⟩ := eqDouble_zero (plainExpr M) 0
      obtain ⟨hr, hcl, hv⟩ := hc4 hc0
      have e : taskStep robot st t =
          ({ st with cs := st.cs ++ [c.configureP (if t.priority = .soft then .soft else .hard) t.weight] }, none) := by
        unfold taskStep
        simp only [hM, if_neg h0, if_neg hp, hc1]
      have hs := eq_sized (n := st.prob.1) hc1 (by show 0 < M.rows; omega) one_pos (by show M.cols ≤ _; omega) (Nat.zero_le _)
      refine ⟨_, [c.configureP (if t.priority = .soft then .soft else .hard) t.weight], e, hinv _ e, rfl, le_refl _, ?_, ?_, ?_⟩
      · intro d hd
        rw [List.mem_singleton.1 hd]
        refine ⟨hs, by simp [Constr.softIneq, Constr.configureP, hc2], fun h => .inr ⟨t, by simp, ?_, rfl⟩⟩
        by_contra hn
        simp [Constr.softEq, Constr.configureP, hn] at h
      · intro ps hps
        obtain ⟨q, rfl, hq⟩ := List.map_eq_singleton_iff.1 hps
        refine ⟨q.2, fun x hx p hpm hh i hi => ?_⟩
        rw [List.mem_singleton.1 hpm] at hi hh ⊢
        rw [hq] at hi hh ⊢
        have hhard : t.priority = .hard := by
          cases hpr : t.priority with
          | hard => rfl
          | soft => simp [Constr.hardEq, Constr.configureP, hpr] at hh
          | scaled => exact absurd hpr hp
        have hi' : i < M.rows := by
          have : i < c.expr.rows := hi
          rw [hr] at this
          exact this
        rw [← (hx M hM i hi').1 hhard]
        show c.expr.rowVal x i - c.expr.rowVal (fun _ => 0) i = _
        rw [hv, hv, plainExpr_rowVal, plainExpr_rowVal]
        simp [TaskMat.app]
      · intro ρ
        refine ⟨[(c.configureP (if t.priority = .soft then .soft else .hard) t.weight, ρ)], rfl, fun x hx M' hM' i hi => ?_⟩
        rw [hM] at hM'
        cases hM'
        refine ⟨fun hhard => ?_, fun h => absurd h hp⟩
        have hx' := hx (c.configureP (if t.priority = .soft then .soft else .hard) t.weight, ρ) (by simp) (by
          simp [Constr.hardEq, Constr.configureP, hc2, hhard]) i (by show i < c.expr.rows; rw [hr]; exact hi)
        refine Eq.trans ?_ hx'
        show _ = c.expr.rowVal x i - c.expr.rowVal (fun _ => 0) i
        rw [hv, hv, plainExpr_rowVal, plainExpr_rowVal]
        simp [TaskMat.app]

theorem GoodNew.mono {n n' : Nat} {ts ts' : List (Task ℝ)} {c : Constr ℝ} (h : GoodNew n ts c) (hn : n ≤ n') (ht : ∀ t ∈ ts, t ∈ ts') :
    GoodNew n' ts' c := by
  refine ⟨h.1.mono hn, h.2.1, fun hs => ?_⟩
  rcases h.2.2 hs with h | ⟨t, h1, h2⟩
  · exact .inl h
  · exact .inr ⟨t, ht t h1, h2⟩

/-- All the tasks are added without error. -/
theorem runTasks_total (nv : Nat) (robot : RState ℝ) : ∀ (ts : List (Task ℝ)) (st : LoopSt ℝ), LInv nv st →
    (∀ t ∈ ts, ∃ M, t.update robot = .ok M ∧ 0 < M.cols ∧ M.cols ≤ nv) →
    ∃ st' l, runTasks robot st ts = (st', none) ∧ LInv nv st' ∧ st'.cs = st.cs ++ l ∧ st.prob.1 ≤ st'.prob.1 ∧
      (∀ c ∈ l, GoodNew st'.prob.1 ts c) ∧
      (∀ ps : List (Constr ℝ × (Nat → ℝ)), ps.map Prod.fst = l → ∃ rs : List (Task ℝ × (Nat → ℝ)), rs.map Prod.fst = ts ∧
        ∀ x, (∀ q ∈ rs, TaskRhs robot q.1 q.2 x (x nv)) → MeetsRhs ps x) ∧
      ∀ rs : List (Task ℝ × (Nat → ℝ)), rs.map Prod.fst = ts → ∃ ps : List (Constr ℝ × (Nat → ℝ)), ps.map Prod.fst = l ∧
        ∀ x, MeetsRhs ps x → ∀ q ∈ rs, TaskRhs robot q.1 q.2 x (x nv)
  | [], st, hi, _ => ⟨st, [], rfl, hi, by simp, le_refl _, by simp, fun ps hps => ⟨[], rfl, fun x _ p hp => by
      rw [List.map_eq_nil_iff.1 hps] at hp; cases hp⟩, fun rs hrs => ⟨[], rfl, fun x _ p hp => by
      rw [List.map_eq_nil_iff.1 hrs] at hp; cases hp⟩⟩
  | t :: ts, st, hi, hu => by
    obtain ⟨M, hM, h0, hn⟩ := hu t List.mem_cons_self
    obtain ⟨st1, l1, a1, a2, a3, a4, a5, a6, a7⟩ := taskStep_total nv robot st hi t M hM h0 hn
    obtain ⟨st2, l2, b1, b2, b3, b4, b5, b6, b7⟩ := runTasks_total nv robot ts st1 a2 fun t' h => hu t' (List.mem_cons_of_mem _ h)
    refine ⟨st2, l1 ++ l2, by rw [runTasks, a1]; exact b1, b2, by rw [b3, a3, List.append_assoc], le_trans a4 b4, ?_, ?_, ?_⟩
    · intro c hc
      rcases List.mem_append.1 hc with hc | hc
      · exact (a5 c hc).mono b4 (by simp)
      · exact (b5 c hc).mono (le_refl _) fun t h => List.mem_cons_of_mem _ h
    · intro ps hps
      obtain ⟨p1, p2, rfl, hp1, hp2⟩ := List.map_eq_append_iff.1 hps
      obtain ⟨ρ, hρ⟩ := a6 p1 hp1
      obtain ⟨rs, hrs, hrx⟩ := b6 p2 hp2
      refine ⟨(t, ρ) :: rs, by simp [hrs], fun x hx p hp => ?_⟩
      rcases List.mem_append.1 hp with hp | hp
      · exact hρ x (hx (t, ρ) List.mem_cons_self) p hp
      · exact hrx x (fun q hq => hx q (List.mem_cons_of_mem _ hq)) p hp
    · intro rs hrs
      obtain ⟨q0, rs', rfl, hq0, hrs'⟩ := List.map_eq_cons_iff.1 hrs
      obtain ⟨p1, hp1, hx1⟩ := a7 q0.2
      obtain ⟨p2, hp2, hx2⟩ := b7 rs' hrs'
      refine ⟨p1 ++ p2, by simp [hp1, hp2], fun x hx q hq => ?_⟩
      rcases List.mem_cons.1 hq with rfl | hq
      · rw [hq0]
        exact hx1 x fun p hp => hx p (List.mem_append_left _ hp)
      · exact hx2 x (fun p hp => hx p (List.mem_append_right _ hp)) q hq

/-! ## Masks and limits -/

theorem mask_one_rhs (nv d : Nat) (c : Constr ℝ)
    (h : (do let e ← (⟨0, nv⟩ : Var).expr (d : Int) 1; e.eqDouble 0 : Except Err (Constr ℝ)) = .ok c) :
    SizedFor nv c ∧ c.ty = .equality ∧ c.priority = .hard ∧ c.expr.rows = 1 ∧ ∀ x, lin c x 0 = x d := by
  have hd := (mask_one nv d c h).1
  have := var_expr (K := ℝ) ⟨0, nv⟩ d 1 (by show 0 + d + 1 ≤ nv; omega)
  rw [show (1 : Int) = ((1 : Nat) : Int) from rfl, this] at h
  simp only [bind, Except.bind] at h
  obtain ⟨c', hc1, hc2, hc3, hc4⟩ := eqDouble_zero (⟨1, nv, fun k j => if j = 0 + d + k then 1 else 0, fun _ => 0⟩ : Expr ℝ) 0
  rw [hc1] at h
  cases h
  obtain ⟨hr, -, hv⟩ := hc4 (by show 0 < nv; omega)
  refine ⟨eq_sized hc1 one_pos one_pos (le_refl nv) (Nat.zero_le _), hc2, hc3, hr, fun x => ?_⟩
  have h0 := fun x => var_rowVal (K := ℝ) ⟨0, nv⟩ d 1 x 0 (by show 0 + d + 0 < nv; omega)
  unfold lin
  simp only at h0
  rw [hv, hv, h0, h0]
  simp

/-- The masks: good hard equalities, which can be given any values when no degree of freedom is masked twice. -/
theorem mask_rhs (nv : Nat) (s : KState ℝ) (l : List (Constr ℝ)) (h : maskConstraints s ⟨0, nv⟩ = .ok l) :
    (∀ c ∈ l, SizedFor nv c ∧ c.ty = .equality ∧ c.priority = .hard) ∧
    (s.maskedDof.Nodup → ∀ ps : List (Constr ℝ × (Nat → ℝ)), ps.map Prod.fst = l → ∃ u u' : Nat → ℝ, ∀ x,
      (∀ d ∈ s.maskedDof, x d = u d) → (s.maskedFbase = true → ∀ k, k < 6 → x k = u' k) → MeetsRhs ps x) ∧
    ∀ u u' : Nat → ℝ, ∃ ps : List (Constr ℝ × (Nat → ℝ)), ps.map Prod.fst = l ∧ ∀ x, MeetsRhs ps x →
      (∀ d ∈ s.maskedDof, x d = u d) ∧ (s.maskedFbase = true → ∀ k, k < 6 → x k = u' k) := by
  have h6 := (mask_spec nv s l h).2.2.1
  unfold maskConstraints at h
  obtain ⟨l1, h1, h⟩ := do_ok h
  have key : ∀ (md : List Nat) (l1 : List (Constr ℝ)), md.mapM
      (fun (j : Nat) => (do let e ← (⟨0, nv⟩ : Var).expr (j : Int) 1; e.eqDouble 0 : Except Err (Constr ℝ))) = .ok l1 →
      (∀ c ∈ l1, SizedFor nv c ∧ c.ty = .equality ∧ c.priority = .hard) ∧
      (md.Nodup → ∀ ps : List (Constr ℝ × (Nat → ℝ)), ps.map Prod.fst = l1 → ∃ u : Nat → ℝ, ∀ x, (∀ d ∈ md, x d = u d) → MeetsRhs ps x) ∧
      ∀ u : Nat → ℝ, ∃ ps : List (Constr ℝ × (Nat → ℝ)), ps.map Prod.fst = l1 ∧ ∀ x, MeetsRhs ps x → ∀ d ∈ md, x d = u d := by
    intro md l1 hm
    have hf := mapM_cases _ _ _ hm
    clear hm h h1
    induction hf with
    | nil => exact ⟨by simp, fun _ ps hps => ⟨fun _ => 0, fun x _ p hp => by rw [List.map_eq_nil_iff.1 hps] at hp; cases hp⟩,
        fun u => ⟨[], rfl, fun x _ d hd => by cases hd⟩⟩
    | @cons d c md l hab _ ih =>
      obtain ⟨m1, m2, m3, m4, m5⟩ := mask_one_rhs nv d c hab
      obtain ⟨i1, i2, i3⟩ := ih
      refine ⟨?_, fun hn ps hps => ?_, fun u => ?_⟩
      · intro c' hc'
        rcases List.mem_cons.1 hc' with rfl | hc'
        · exact ⟨m1, m2, m3⟩
        · exact i1 c' hc'
      · obtain ⟨q, ps', rfl, hq, hps'⟩ := List.map_eq_cons_iff.1 hps
        obtain ⟨hnd, hn'⟩ := List.nodup_cons.1 hn
        obtain ⟨u, hu⟩ := i2 hn' ps' hps'
        refine ⟨Function.update u d (q.2 0), fun x hx p hp hh i hi => ?_⟩
        rcases List.mem_cons.1 hp with rfl | hp
        · rw [hq] at hi ⊢
          rw [m4] at hi
          have : i = 0 := by omega
          subst this
          rw [m5, hx d List.mem_cons_self, Function.update_self]
        · refine hu x (fun e he => ?_) p hp hh i hi
          rw [hx e (List.mem_cons_of_mem _ he), Function.update_of_ne]
          rintro rfl
          exact hnd he
      · obtain ⟨ps, hps, hx⟩ := i3 u
        refine ⟨(c, fun _ => u d) :: ps, by simp [hps], fun x hm e he => ?_⟩
        rcases List.mem_cons.1 he with rfl | he
        · rw [← m5 x]
          exact hm _ List.mem_cons_self (by simp [Constr.hardEq, m2, m3]) 0 (by rw [m4]; exact one_pos)
        · exact hx x (fun p hp => hm p (List.mem_cons_of_mem _ hp)) e he
  obtain ⟨k1, k2, k3⟩ := key _ _ h1
  by_cases hb : s.maskedFbase = true
  · have h6 := h6 hb
    have hvar := var_expr (K := ℝ) ⟨0, nv⟩ 0 6 (by show 0 + 0 + 6 ≤ nv; omega)
    obtain ⟨c', hc1, hc2, hc3, hc4⟩ := eqDouble_zero (⟨6, nv, fun k j => if j = 0 + 0 + k then 1 else 0, fun _ => 0⟩ : Expr ℝ) 0
    obtain ⟨hr, -, hv⟩ := hc4 (by show 0 < nv; omega)
    simp only [hb, if_true, bind, Except.bind] at h
    rw [show ((⟨0, nv⟩ : Var).expr 0 6 : Except Err (Expr ℝ)) = (⟨0, nv⟩ : Var).expr ((0 : Nat) : Int) ((6 : Nat) : Int)
      from rfl, hvar] at h
    simp only at h
    rw [hc1] at h
    cases h
    have hlin : ∀ x i, i < 6 → lin c' x i = x i := by
      intro x i hi
      have h0 := fun x => var_rowVal (K := ℝ) ⟨0, nv⟩ 0 6 x i (by show 0 + 0 + i < nv; omega)
      simp only at h0
      unfold lin
      rw [hv, hv, h0, h0]
      simp
    refine ⟨?_, fun hn ps hps => ?_, fun u u' => ?_⟩
    · intro c hc
      rcases List.mem_append.1 hc with hc | hc
      · exact k1 c hc
      · rw [List.mem_singleton.1 hc]
        exact ⟨eq_sized hc1 (by simp) one_pos (le_refl nv) (Nat.zero_le _), hc2, hc3⟩
    · obtain ⟨p1, p2, rfl, hp1, hp2⟩ := List.map_eq_append_iff.1 hps
      obtain ⟨q, rfl, hq⟩ := List.map_eq_singleton_iff.1 hp2
      obtain ⟨u, hu⟩ := k2 hn p1 hp1
      refine ⟨u, q.2, fun x h1 h2 p hp hh i hi => ?_⟩
      rcases List.mem_append.1 hp with hp | hp
      · exact hu x h1 p hp hh i hi
      · rw [List.mem_singleton.1 hp] at hi ⊢
        rw [hq] at hi ⊢
        rw [hr] at hi
        have hi : i < 6 := hi
        rw [hlin x i hi, h2 hb i hi]
    · obtain ⟨ps, hps, hx⟩ := k3 u
      refine ⟨ps ++ [(c', u')], by simp [hps], fun x hm => ⟨hx x fun p hp => hm p (List.mem_append_left _ hp), fun _ k hk => ?_⟩⟩
      rw [← hlin x k hk]
      exact hm (c', u') (by simp) (by simp [Constr.hardEq, hc2, hc3]) k (by rw [hr]; exact hk)
  · simp only [hb, bind, Except.bind] at h
    cases h
    simp only [List.append_nil]
    refine ⟨k1, fun hn ps hps => ?_, fun u u' => ?_⟩
    · obtain ⟨u, hu⟩ := k2 hn ps hps
      exact ⟨u, fun _ => 0, fun x h1 _ => hu x h1⟩
    · obtain ⟨ps, hps, hx⟩ := k3 u
      exact ⟨ps, hps, fun x hm => ⟨hx x hm, fun h => absurd h hb⟩⟩

/-- The limits are built without error: good inequalities. -/
theorem limits_total (r : Robot ℝ) (s : KState ℝ) (hn : 6 < r.nv) (hq : r.nv - 6 ≤ r.nq) (hdt : ¬ (s.velocityLimits = true ∧ s.dt = 0)) :
    ∃ l, limitsInequalities r s ⟨0, r.nv⟩ = .ok l ∧ ∀ c ∈ l, SizedFor r.nv c ∧ c.ty = .inequality := by
  have hvexpr := var_expr_rest (K := ℝ) ⟨0, r.nv⟩ 6 (by simpa using hn.le)
  unfold limitsInequalities
  rw [if_neg hdt]
  generalize he : (⟨r.nv - 0 - 6, r.nv, fun k j => if j = 0 + 6 + k then 1 else 0, fun _ => 0⟩ : Expr ℝ) = e at hvexpr
  have hvexpr : ((⟨0, r.nv⟩ : Var).expr 6 (-1) : Except Err (Expr ℝ)) = .ok e := hvexpr
  have her : e.rows = r.nv - 6 := by subst he; simp
  have hec : e.cols = r.nv := by subst he; rfl
  have hm : ((r.nv : Int) - 6).toNat = r.nv - 6 := by omega
  have hb : ∀ (size : Nat) (f : Nat → ℝ), r.nv - 6 ≤ size → bottomRows size ((r.nv : Int) - 6) f
      = .ok ⟨r.nv - 6, fun i => f (size - (r.nv - 6) + i)⟩ := by
    intro size f hsz
    unfold bottomRows
    rw [if_pos (by omega), hm]
  have hadd : ∀ f, ∃ e1, e.addVec ⟨r.nv - 6, f⟩ = .ok e1 ∧ e1.rows = r.nv - 6 ∧ e1.cols = r.nv := by
    intro f
    unfold Expr.addVec
    rw [if_pos (by exact her.symm)]
    exact ⟨_, rfl, her, hec⟩
  have hle : ∀ (e : Expr ℝ) (v : Vec ℝ), e.rows = r.nv - 6 → e.cols = r.nv → v.size = r.nv - 6 →
      ∃ c, e.leVec v = .ok c ∧ SizedFor r.nv c ∧ c.ty = .inequality := by
    intro e v h1 h2 h3
    obtain ⟨c, hc, -⟩ := leVec_spec e v (by omega)
    exact ⟨c, hc, le_sized hc (by omega) (by show 0 < v.size; omega) h2.le (Nat.zero_le _)⟩
  have hge : ∀ (e : Expr ℝ) (v : Vec ℝ), e.rows = r.nv - 6 → e.cols = r.nv → v.size = r.nv - 6 →
      ∃ c, Expr.vecLe v e = .ok c ∧ SizedFor r.nv c ∧ c.ty = .inequality := by
    intro e v h1 h2 h3
    obtain ⟨c, hc, -⟩ := vecLe_spec e v (by omega)
    exact ⟨c, hc, le_sized hc (by show 0 < v.size; omega) (by omega) (Nat.zero_le _) h2.le⟩
  have hvel : r.nv - 6 ≤ r.nv := by omega
  obtain ⟨e1, a1, a2, a3⟩ := hadd fun i => s.robot.q (r.nq - (r.nv - 6) + i)
  obtain ⟨c1, h1, g1⟩ := hle e1 ⟨r.nv - 6, fun i => r.upper (r.nq - (r.nv - 6) + i)⟩ a2 a3 rfl
  obtain ⟨c2, h2, g2⟩ := hge e1 ⟨r.nv - 6, fun i => r.lower (r.nq - (r.nv - 6) + i)⟩ a2 a3 rfl
  obtain ⟨c3, h3, g3⟩ := hle e ⟨r.nv - 6, fun i => s.dt * r.vlim (r.nv - (r.nv - 6) + i)⟩ her hec rfl
  obtain ⟨c4, h4, g4⟩ := hge e ⟨r.nv - 6, fun i => -s.dt * r.vlim (r.nv - (r.nv - 6) + i)⟩ her hec rfl
  simp only [hvexpr, hb _ _ hq, hb _ _ hvel, bind, Except.bind, a1, h1, h2, h3, h4, pure, Except.pure]
  by_cases hj : s.jointLimits = true <;> by_cases hvl : s.velocityLimits = true <;>
    simp only [hj, hvl, if_true, if_false, Bool.false_eq_true]
  · exact ⟨_, rfl, by simp only [List.mem_append, List.mem_cons, List.not_mem_nil, or_false]; rintro c ((rfl | rfl) | (rfl | rfl)) <;> assumption⟩
  · exact ⟨_, rfl, by simp only [List.mem_append, List.mem_cons, List.not_mem_nil, or_false]; rintro c (rfl | rfl) <;> assumption⟩
  · exact ⟨_, rfl, by simp only [List.mem_append, List.mem_cons, List.not_mem_nil, or_false, false_or]; rintro c (rfl | rfl) <;> assumption⟩
  · exact ⟨_, rfl, by simp⟩

/-! ## When a step is found -/

/-- The hard requirements are independent: whatever values are asked of the rows of the hard and scaled tasks, of the masked degrees of
freedom (`u`) and of the masked floating base (`u'`), some step and scale give them these values. -/
def HardFree (robot : RState ℝ) (tasks : List (Task ℝ)) (masked : List Nat) (fbase : Bool) : Prop :=
  ∀ (rs : List (Task ℝ × (Nat → ℝ))) (u u' : Nat → ℝ), rs.map Prod.fst = tasks → ∃ (y : Nat → ℝ) (σ : ℝ),
    (∀ q ∈ rs, TaskRhs robot q.1 q.2 y σ) ∧ (∀ d ∈ masked, y d = u d) ∧ (fbase = true → ∀ k, k < 6 → y k = u' k)

theorem taskRhs_congr (nv : Nat) (robot : RState ℝ) (t : Task ℝ) (hc : ∀ M, t.update robot = .ok M → M.cols ≤ nv) (ρ x y : Nat → ℝ) (σ : ℝ)
    (h : ∀ k, k < nv → x k = y k) (hy : TaskRhs robot t ρ y σ) : TaskRhs robot t ρ x σ := by
  intro M hM i hi
  have : ∑ j ∈ range M.cols, M.A i j * x j = ∑ j ∈ range M.cols, M.A i j * y j :=
    Finset.sum_congr rfl fun j hj => by rw [h j (lt_of_lt_of_le (Finset.mem_range.1 hj) (hc M hM))]
  rw [this]
  exact hy M hM i hi

theorem nSlack_zero (cs : List (Constr ℝ)) (h : ∀ c ∈ cs, c.softIneq = false) : nSlack cs = 0 := by
  unfold nSlack
  refine List.sum_eq_zero fun a ha => ?_
  obtain ⟨c, hc, rfl⟩ := List.mem_map.1 ha
  rw [h c hc]
  rfl

theorem sized_defined (n : Nat) (cs : List (Constr ℝ)) (hs : ∀ c ∈ cs, SizedFor n c) : equalitiesUB n cs = false := by
  unfold equalitiesUB
  rw [List.any_eq_false]
  intro c hc
  obtain ⟨a, -, b⟩ := hs c hc
  simp [a, b]

theorem assemble_total (s : Settings ℝ) (qr : Nat → EqSt ℝ → QR ℝ) (cs : List (Constr ℝ)) (hs : ∀ c ∈ cs, SizedFor s.n c)
    (hr : s.rewriteEqualities = true → (qr (nEqualities cs) (equalities cs)).rank = nEqualities cs) : ∃ qp, assemble s qr cs = .ok qp := by
  have h := assembleEnd_eq s qr cs
  have h1 := sized_defined s.n cs hs
  have h2 : ∀ c ∈ cs, checkConstr s.n c = .ok () := by
    intro c hc
    obtain ⟨a, b, d⟩ := hs c hc
    unfold checkConstr
    rw [if_neg (by omega), if_neg (by omega), if_neg (by omega)]
  rw [h1, if_neg (by simp), if_neg (by rintro ⟨a, -, b⟩; exact b (hr a)), if_pos h2] at h
  unfold assembleEnd at h
  cases ha : assemble s qr cs with
  | error e => rw [ha] at h; cases h
  | ok qp => exact ⟨qp, rfl⟩

/-- Dependent hard equalities stop the assembly, when it rewrites them. -/
theorem assemble_deficient (s : Settings ℝ) (qr : Nat → EqSt ℝ → QR ℝ) (cs : List (Constr ℝ)) (hs : ∀ c ∈ cs, SizedFor s.n c)
    (hre : s.rewriteEqualities = true) (hr : ¬ (qr (nEqualities cs) (equalities cs)).rank = nEqualities cs)
    (h0 : 0 < nEqualities cs) : assemble s qr cs = .error .qpError := by
  have h := assembleEnd_eq s qr cs
  rw [sized_defined s.n cs hs, if_neg (by simp), if_pos ⟨hre, h0, hr⟩] at h
  unfold assembleEnd at h
  cases ha : assemble s qr cs with
  | error e => rw [ha] at h; cases h; rfl
  | ok qp => rw [ha] at h; cases h

/-- **C165, exact.** Without user constraints, when every task can be updated and uses the columns of the robot, with exact external
solvers, a positive regularisation and non negative weights: `solve` finds a step exactly when one meets the hard tasks, the scaled
tasks up to a scale in `[0, 1]`, the masks and the enabled limits and, with `rewrite_equalities` (the default), the hard requirements are
independent; otherwise it raises `QPError`. -/
theorem C165_exact (env : QPEnv ℝ) (r : Robot ℝ) (hL : r.Layout) (hsize : ∀ j ∈ r.joints, j.nV ≤ j.nQ) (hn : 6 < r.nv)
    (tasks : List (Task ℝ)) (apply : Bool) (s : KState ℝ) (hv : VarsOK r.nv s.prob s.qdVar s.scaleVar)
    (hupd : ∀ t ∈ tasks, ∃ M, t.update s.robot = .ok M ∧ 0 < M.cols ∧ M.cols ≤ r.nv)
    (hw : ∀ t ∈ tasks, t.priority = .soft → 0 ≤ t.weight) (hreg : 0 < env.regularization) (htol : 0 ≤ env.tol)
    (hex : env.Exact) (hmask : s.maskedDof.Nodup ∧ ∀ d ∈ s.maskedDof, d < r.nv)
    (hdt : ¬ (s.velocityLimits = true ∧ s.dt = 0)) :
    ((∃ dq, (solve env r tasks [] apply s).2 = .ok dq) ↔
      (∃ y σ, Admissible r tasks s true y σ) ∧ (env.rewriteEqualities = true → HardFree s.robot tasks s.maskedDof s.maskedFbase)) ∧
    (¬ ((∃ y σ, Admissible r tasks s true y σ) ∧ (env.rewriteEqualities = true → HardFree s.robot tasks s.maskedDof s.maskedFbase)) →
      (solve env r tasks [] apply s).2 = .error .qpError) := by
  have hqv : r.nv - 6 ≤ r.nq := by have := sum_le_of_forall r.joints hsize; have := hL.nq; have := hL.nv; omega
  have hfit : ∀ t ∈ tasks, ∀ M, t.update s.robot = .ok M → 0 < M.cols ∧ M.cols ≤ r.nv := by
    intro t ht M hM
    obtain ⟨M', hM', h⟩ := hupd t ht
    rw [hM] at hM'
    cases hM'
    exact h
  obtain ⟨hv1, hq1⟩ := ensureQd_vars r s hv
  have hrobot : (ensureQd r s).robot = s.robot := by unfold ensureQd; split <;> rfl
  have hcfg : SameConfig s (ensureQd r s) := by unfold ensureQd; split <;> exact ⟨rfl, rfl, rfl, rfl, rfl⟩
  have hqd : (ensureQd r s).qdVar = some 0 := hq1
  unfold solve
  simp only
  generalize ensureQd r s = s1 at *
  obtain ⟨st, l, a1, a2, a3, a4, a5, a6, a7⟩ := runTasks_total r.nv s.robot tasks ⟨s1.prob, s1.scaleVar, false, []⟩ ⟨hv1, fun h => by cases h⟩ hupd
  obtain ⟨-, -, hok⟩ := runTasks_spec r.nv s.robot tasks ⟨s1.prob, s1.scaleVar, false, []⟩ ⟨hv1, fun h => by cases h⟩
    (fun t ht M hM => (hfit t ht M hM).2) st none a1
  obtain ⟨-, hsc, hmean⟩ := hok rfl
  have hmean := hmean fun t ht M hM => (hfit t ht M hM).1
  simp only [List.nil_append] at a3
  rw [hrobot, a1]
  simp only
  have hvar : varAt st.prob 0 = ⟨0, r.nv⟩ := varAt_qd r.nv st.prob st.scaleVar a2.1
  have hnle : r.nv ≤ st.prob.1 := by
    rcases a2.1 with ⟨h, -⟩ | ⟨-, -, h, -⟩ | ⟨-, -, h, -⟩
    · cases h
    · omega
    · omega
  unfold afterTasks
  simp only [hqd, Option.getD_some, hvar]
  generalize hs2 : ({ s1 with robot := s.robot, prob := st.prob, qdVar := some 0, scaleVar := st.scaleVar, hasScaling := st.hasScaling } : KState ℝ) = s2
  have c1 : s2.maskedDof = s.maskedDof := by rw [← hs2]; exact hcfg.1
  have c2 : s2.maskedFbase = s.maskedFbase := by rw [← hs2]; exact hcfg.2
  have c3 : s2.jointLimits = s.jointLimits := by rw [← hs2]; exact hcfg.3
  have c4 : s2.velocityLimits = s.velocityLimits := by rw [← hs2]; exact hcfg.4
  have c5 : s2.dt = s.dt := by rw [← hs2]; exact hcfg.5
  have c6 : s2.robot = s.robot := by rw [← hs2]
  have c7 : s2.prob = st.prob := by rw [← hs2]
  clear hs2
  obtain ⟨m, hm⟩ := C45_total r.nv s2 (by rw [c1]; exact hmask.2) (fun _ => by omega)
  obtain ⟨lim, hlim, lim2⟩ := limits_total r s2 hn hqv (by rw [c4, c5]; exact hdt)
  obtain ⟨-, -, -, m4⟩ := mask_spec r.nv s2 m hm
  obtain ⟨mr1, mr2, mr3⟩ := mask_rhs r.nv s2 m hm
  obtain ⟨-, l2, l3⟩ := limits_spec r s2 lim hlim hqv
  rw [c1, c2] at m4
  rw [c1, c2] at mr2 mr3
  simp only [c3, c4, c5, c6] at l3
  have hoth : otherConstraints r [] s2 ⟨0, r.nv⟩ = .ok (m ++ lim) := by
    unfold otherConstraints
    rw [hm, hlim]
    simp [bind, Except.bind, pure, Except.pure]
  rw [hoth]
  simp only
  have hsized : ∀ c ∈ st.cs ++ (m ++ lim), SizedFor st.prob.1 c := by
    intro c hc
    simp only [List.mem_append] at hc
    rcases hc with hc | hc | hc
    · exact (a5 c (a3 ▸ hc)).1
    · exact (mr1 c hc).1.mono hnle
    · exact (lim2 c hc).1.mono hnle
  have hslack : ∀ c ∈ st.cs ++ (m ++ lim), c.softIneq = false := by
    intro c hc
    simp only [List.mem_append] at hc
    rcases hc with hc | hc | hc
    · exact (a5 c (a3 ▸ hc)).2.1
    · simp [Constr.softIneq, (mr1 c hc).2.1]
    · simp [Constr.softIneq, l2 c hc]
  have hweights : ∀ c ∈ st.cs ++ (m ++ lim), c.softEq = true → 0 ≤ c.weight := by
    intro c hc hs
    simp only [List.mem_append] at hc
    rcases hc with hc | hc | hc
    · rcases (a5 c (a3 ▸ hc)).2.2 hs with h | ⟨t, ht, h1, h2⟩
      · rw [h]; exact zero_le_one
      · rw [h2]; exact hw t ht h1
    · simp [Constr.softEq, (mr1 c hc).2.2] at hs
    · simp [Constr.softEq, l2 c hc] at hs
  have hrank : HardFree s.robot tasks s.maskedDof s.maskedFbase → (env.qr (nEqualities (st.cs ++ (m ++ lim))) (equalities (st.cs ++ (m ++ lim)))).rank =
      nEqualities (st.cs ++ (m ++ lim)) := by
    intro hfree
    refine (hex.1.equalities (sized_defined _ _ hsized)).full (indep_of_free st.prob.1 _ hsized fun ps hps => ?_)
    obtain ⟨p1, p2, rfl, hp1, hp2⟩ := List.map_eq_append_iff.1 hps
    obtain ⟨p3, p4, rfl, hp3, hp4⟩ := List.map_eq_append_iff.1 hp2
    obtain ⟨rs, hrs, hrx⟩ := a6 p1 (hp1.trans a3)
    obtain ⟨u, u', hu⟩ := mr2 hmask.1 p3 hp3
    obtain ⟨y, σ, y1, y2, y3⟩ := hfree rs u u' hrs
    let x : Nat → ℝ := fun k => if k < r.nv then y k else σ
    have hx : ∀ k, k < r.nv → x k = y k := fun k hk => by simp [x, hk]
    have hxn : x r.nv = σ := by simp [x]
    refine ⟨x, fun p hp hh i hi => ?_⟩
    simp only [List.mem_append] at hp
    rcases hp with hp | hp | hp
    · refine hrx x (fun q hq => ?_) p hp hh i hi
      rw [hxn]
      have hqt : q.1 ∈ tasks := by rw [← hrs]; exact List.mem_map.2 ⟨q, hq, rfl⟩
      exact taskRhs_congr r.nv s.robot q.1 (fun M hM => (hfit q.1 hqt M hM).2) q.2 x y σ hx (y1 q hq)
    · refine hu x (fun d hd => ?_) (fun hb k hk => ?_) p hp hh i hi
      · rw [hx d (hmask.2 d hd)]; exact y2 d hd
      · rw [hx k (by omega)]; exact y3 hb k hk
    · have := (lim2 p.1 (by rw [← hp4]; exact List.mem_map.2 ⟨p, hp, rfl⟩)).2
      simp [Constr.hardEq, this] at hh
  have hback : (env.qr (nEqualities (st.cs ++ (m ++ lim))) (equalities (st.cs ++ (m ++ lim)))).rank =
      nEqualities (st.cs ++ (m ++ lim)) → HardFree s.robot tasks s.maskedDof s.maskedFbase := by
    intro hr rs u u' hrs
    have hi := (hex.1.equalities (sized_defined _ _ hsized)).qr.indep hr
    obtain ⟨p1, hp1, hx1⟩ := a7 rs hrs
    obtain ⟨p2, hp2, hx2⟩ := mr3 u u'
    obtain ⟨x, hx⟩ := free_of_indep st.prob.1 _ hsized hi (p1 ++ (p2 ++ lim.map fun c => (c, fun _ => 0))) (by
      simp [hp1, hp2, ← a3, Function.comp_def])
    obtain ⟨y1, y2⟩ := hx2 x fun p hp => hx p (by simp [hp])
    exact ⟨x, x r.nv, fun q hq => hx1 x (fun p hp => hx p (by simp [hp])) q hq, y1, y2⟩
  have hpos : ¬ (env.qr (nEqualities (st.cs ++ (m ++ lim))) (equalities (st.cs ++ (m ++ lim)))).rank = nEqualities (st.cs ++ (m ++ lim)) →
      0 < nEqualities (st.cs ++ (m ++ lim)) := by
    intro hnr
    by_contra h0
    have h0 : nEqualities (st.cs ++ (m ++ lim)) = 0 := by omega
    exact hnr ((hex.1.equalities (sized_defined _ _ hsized)).full fun w _ i hi => by omega)
  by_cases hfree : env.rewriteEqualities = true → HardFree s.robot tasks s.maskedDof s.maskedFbase
  swap
  · have hre : env.rewriteEqualities = true := by
      by_contra h
      exact hfree fun h' => absurd h' h
    have hnr : ¬ (env.qr (nEqualities (st.cs ++ (m ++ lim))) (equalities (st.cs ++ (m ++ lim)))).rank = nEqualities (st.cs ++ (m ++ lim)) :=
      fun h => hfree fun _ => hback h
    have herr := assemble_deficient (env.settings st.prob.1) env.qr (st.cs ++ (m ++ lim)) hsized hre hnr (hpos hnr)
    have hfin : (finish env r apply (st.cs ++ (m ++ lim)) s2).2 = .error .qpError := by
      unfold finish Problem.solve
      simp only [c7, herr]
    rw [hfin]
    exact ⟨⟨fun ⟨_, h⟩ => (by cases h), fun h => absurd h.2 hfree⟩, fun _ => rfl⟩
  obtain ⟨qp, hqp⟩ := assemble_total (env.settings st.prob.1) env.qr (st.cs ++ (m ++ lim)) hsized fun h => hrank (hfree h)
  obtain ⟨k1, k2, -⟩ := C144_solve_partial (env.settings st.prob.1) env.qr (st.cs ++ (m ++ lim)) qp
    (hex.1.contract hqp) (.inr (.inr (nSlack_zero _ hslack))) hqp hreg hweights
    (fun c hc h => by rw [hslack c hc] at h; cases h) env.tol env.tol htol htol ⟨st.prob.2, []⟩ (vars_inside a2.1) env.oracle env.oracle (hex.2 qp) (hex.2 qp)
  have hadm : (∃ x, HardSat (st.cs ++ (m ++ lim)) x) ↔ ∃ y σ, Admissible r tasks s true y σ := by
    constructor
    · rintro ⟨x, hx⟩
      rw [HardSat_append, HardSat_append, (hmean x).1, m4, l3] at hx
      obtain ⟨⟨-, x1, x2⟩, ⟨x3, x4⟩, x5, x6⟩ := hx
      by_cases hs : st.hasScaling = true
      · exact ⟨x, x r.nv, x1, fun _ => x2 rfl hs, x3, x4, x5, x6⟩
      · refine ⟨x, 1, fun t ht M hM i hi => ⟨(x1 t ht M hM i hi).1, fun hp => absurd ?_ hs⟩, fun _ => ⟨zero_le_one, le_refl _⟩, x3, x4, x5, x6⟩
        rw [hsc, Bool.false_or, List.any_eq_true]
        refine ⟨t, ht, ?_⟩
        unfold Task.isScaled
        rw [hM]
        simp only [hp, decide_true, Bool.true_and, decide_eq_true_eq]
        omega
    · rintro ⟨y, σ, hy⟩
      let x : Nat → ℝ := fun k => if k < r.nv then y k else σ
      have hx : ∀ k, k < r.nv → x k = y k := fun k hk => by simp [x, hk]
      have hxn : x r.nv = σ := by simp [x]
      refine ⟨x, ?_⟩
      rw [HardSat_append, HardSat_append, (hmean x).1, m4, l3, hxn]
      refine ⟨⟨HardSat_nil _, fun t ht => ?_, fun _ _ => by rw [hxn]; exact hy.scale rfl⟩, ⟨fun d hd => ?_, fun hb k hk => ?_⟩, fun hj i hi => ?_, fun hj i hi => ?_⟩
      · rw [TaskHard_congr r.nv s.robot t (fun M hM => (hfit t ht M hM).2) x y _ hx]
        exact hy.tasks t ht
      · rw [hx d (hmask.2 d hd)]; exact hy.masked d hd
      · rw [hx k (by omega)]; exact hy.fbase hb k hk
      · rw [hx (6 + i) (by omega)]; exact hy.joint hj i hi
      · rw [hx (6 + i) (by omega)]; exact hy.velocity hj i hi
  rw [and_iff_left hfree, ← hadm]
  unfold finish
  simp only [c7]
  constructor
  · rw [← k1]
    constructor
    · rintro ⟨dq, h⟩
      split at h
      · cases h
      · assumption
    · intro h
      rw [h]
      exact ⟨_, rfl⟩
  · intro h
    rw [k2 h]

/-- **C165, partial.** Without user constraints, when every task can be updated and uses the columns of the robot, with exact external
solvers, a positive regularisation and non negative weights: `solve` finds a step exactly when one meets the hard tasks, the scaled
tasks up to a scale in `[0, 1]`, the masks and the enabled limits; otherwise it raises `QPError`. Missing: with `rewrite_equalities` (the
default), hard requirements that are not independent, for which the property is false (`C165_refuted`); robots without actuated joints,
for which the limits are empty expressions (`C165_base_refuted`). -/
theorem C165_partial (env : QPEnv ℝ) (r : Robot ℝ) (hL : r.Layout) (hsize : ∀ j ∈ r.joints, j.nV ≤ j.nQ) (hn : 6 < r.nv)
    (tasks : List (Task ℝ)) (apply : Bool) (s : KState ℝ) (hv : VarsOK r.nv s.prob s.qdVar s.scaleVar)
    (hupd : ∀ t ∈ tasks, ∃ M, t.update s.robot = .ok M ∧ 0 < M.cols ∧ M.cols ≤ r.nv)
    (hw : ∀ t ∈ tasks, t.priority = .soft → 0 ≤ t.weight) (hreg : 0 < env.regularization) (htol : 0 ≤ env.tol)
    (hex : env.Exact) (hmask : s.maskedDof.Nodup ∧ ∀ d ∈ s.maskedDof, d < r.nv)
    (hdt : ¬ (s.velocityLimits = true ∧ s.dt = 0))
    (hind : env.rewriteEqualities = true → HardFree s.robot tasks s.maskedDof s.maskedFbase) :
    ((∃ dq, (solve env r tasks [] apply s).2 = .ok dq) ↔ ∃ y σ, Admissible r tasks s true y σ) ∧
    ((¬ ∃ y σ, Admissible r tasks s true y σ) → (solve env r tasks [] apply s).2 = .error .qpError) := by
  obtain ⟨h1, h2⟩ := C165_exact env r hL hsize hn tasks apply s hv hupd hw hreg htol hex hmask hdt
  rw [and_iff_left hind] at h1
  exact ⟨h1, fun h => h2 fun h' => h h'.1⟩

/-- When the hard tasks are already satisfied and the robot is inside the enabled limits, staying there is admissible: scaled tasks are
met with the scale 0. -/
theorem C165_standstill (r : Robot ℝ) (tasks : List (Task ℝ)) (s : KState ℝ)
    (ht : ∀ t ∈ tasks, t.priority = .hard → ∀ M, t.update s.robot = .ok M → ∀ i, i < M.rows → M.b i = 0)
    (hj : s.jointLimits = true → ∀ i, i < r.nv - 6 → r.lower (r.nq - (r.nv - 6) + i) ≤ s.robot.q (r.nq - (r.nv - 6) + i) ∧
      s.robot.q (r.nq - (r.nv - 6) + i) ≤ r.upper (r.nq - (r.nv - 6) + i))
    (hvl : s.velocityLimits = true → ∀ i, i < r.nv - 6 → 0 ≤ s.dt * r.vlim (6 + i)) : ∃ y σ, Admissible r tasks s true y σ := by
  refine ⟨fun _ => 0, 0, fun t ht' M hM i hi => ?_, fun _ => ⟨le_refl _, zero_le_one⟩, fun _ _ => rfl, fun _ _ _ => rfl, fun h i hi => ?_,
    fun h i hi => ?_⟩
  · refine ⟨fun hp => ?_, fun _ => ?_⟩
    · rw [ht t ht' hp M hM i hi]; simp [TaskMat.app]
    · simp [TaskMat.app]
  · have := hj h i hi
    simpa using ⟨this.2, this.1⟩
  · have := hvl h i hi
    constructor
    · linarith
    · linarith

/-- Masks are independent, unless a degree of freedom of the floating base is masked together with the floating base. -/
theorem hardFree_soft (robot : RState ℝ) (tasks : List (Task ℝ)) (masked : List Nat) (fbase : Bool) (hs : ∀ t ∈ tasks, t.priority = .soft)
    (hm : fbase = true → ∀ d ∈ masked, 6 ≤ d) : HardFree robot tasks masked fbase := by
  intro rs u u' hrs
  refine ⟨fun k => if fbase = true ∧ k < 6 then u' k else u k, 0, fun q hq => ?_, fun d hd => ?_, fun hb k hk => ?_⟩
  · have hq' : q.1 ∈ tasks := by rw [← hrs]; exact List.mem_map.2 ⟨q, hq, rfl⟩
    intro M hM i hi
    constructor <;> intro h <;> rw [hs q.1 hq'] at h <;> cases h
  · by_cases hb : fbase = true
    · have := hm hb d hd
      simp only [hb, true_and]
      rw [if_neg (by omega)]
    · simp [hb]
  · simp [hb, hk]

/-- **C165 (soft tasks).** With soft tasks only, on a robot inside the enabled limits, every solve succeeds. -/
theorem C165_soft (env : QPEnv ℝ) (r : Robot ℝ) (hL : r.Layout) (hsize : ∀ j ∈ r.joints, j.nV ≤ j.nQ) (hn : 6 < r.nv)
    (tasks : List (Task ℝ)) (apply : Bool) (s : KState ℝ) (hv : VarsOK r.nv s.prob s.qdVar s.scaleVar)
    (hupd : ∀ t ∈ tasks, ∃ M, t.update s.robot = .ok M ∧ 0 < M.cols ∧ M.cols ≤ r.nv)
    (hw : ∀ t ∈ tasks, t.priority = .soft ∧ 0 ≤ t.weight) (hreg : 0 < env.regularization) (htol : 0 ≤ env.tol)
    (hex : env.Exact) (hmask : s.maskedDof.Nodup ∧ ∀ d ∈ s.maskedDof, d < r.nv)
    (hbase : s.maskedFbase = true → ∀ d ∈ s.maskedDof, 6 ≤ d)
    (hj : s.jointLimits = true → ∀ i, i < r.nv - 6 → r.lower (r.nq - (r.nv - 6) + i) ≤ s.robot.q (r.nq - (r.nv - 6) + i) ∧
      s.robot.q (r.nq - (r.nv - 6) + i) ≤ r.upper (r.nq - (r.nv - 6) + i))
    (hvl : s.velocityLimits = true → s.dt ≠ 0 ∧ ∀ i, i < r.nv - 6 → 0 ≤ s.dt * r.vlim (6 + i)) :
    ∃ dq, (solve env r tasks [] apply s).2 = .ok dq := by
  refine (C165_partial env r hL hsize hn tasks apply s hv hupd (fun t ht _ => (hw t ht).2) hreg htol hex hmask
    (fun h => (hvl h.1).1 h.2) (fun _ => hardFree_soft _ _ _ _ (fun t ht => (hw t ht).1) hbase)).1.2 ?_
  refine C165_standstill r tasks s (fun t ht hp => ?_) hj fun h => (hvl h).2
  rw [(hw t ht).1] at hp
  cases hp

/-! ## Where the property is false -/

theorem limits_empty (r : Robot ℝ) (s : KState ℝ) (hn : r.nv = 6) (hj : s.jointLimits = true) {l : List (Constr ℝ)}
    (h : limitsInequalities r s ⟨0, r.nv⟩ = .ok l) : ∃ c ∈ l, c.expr.rows = 0 := by
  have hvexpr := var_expr_rest (K := ℝ) ⟨0, r.nv⟩ 6 (by simp [hn])
  generalize he : (⟨r.nv - 0 - 6, r.nv, fun k j => if j = 0 + 6 + k then 1 else 0, fun _ => 0⟩ : Expr ℝ) = e at hvexpr
  have hvexpr : ((⟨0, r.nv⟩ : Var).expr 6 (-1) : Except Err (Expr ℝ)) = .ok e := hvexpr
  have her : e.rows = 0 := by subst he; simp [hn]
  have hb : ∀ (size : Nat) (f : Nat → ℝ), bottomRows size ((r.nv : Int) - 6) f = .ok ⟨0, fun i => f (size + i)⟩ := by
    intro size f
    unfold bottomRows
    rw [hn]
    simp
  have hadd : ∀ f, ∃ e1, e.addVec ⟨0, f⟩ = .ok e1 ∧ e1.rows = 0 := by
    intro f
    unfold Expr.addVec
    rw [if_pos (by exact her.symm)]
    exact ⟨_, rfl, her⟩
  have hle : ∀ (e : Expr ℝ) (v : Vec ℝ), e.rows = 0 → v.size = 0 → ∃ c, e.leVec v = .ok c ∧ c.expr.rows = 0 := by
    intro e v h1 h2
    obtain ⟨c, hc, -⟩ := leVec_spec e v (by omega)
    refine ⟨c, hc, ?_⟩
    unfold Expr.leVec Expr.le at hc
    obtain ⟨d, hd, hc⟩ := do_ok hc
    cases hc
    unfold Expr.sub Expr.add at hd
    rw [if_neg (by simp [Expr.isScalar, h1]), if_neg (by simp [Expr.isScalar, Expr.smul, Expr.fromVector, h2])] at hd
    split at hd
    · cases hd
    · cases hd
      exact h1
  obtain ⟨e1, a1, a2⟩ := hadd fun i => s.robot.q (r.nq + i)
  obtain ⟨c1, h1, g1⟩ := hle e1 ⟨0, fun i => r.upper (r.nq + i)⟩ a2 rfl
  unfold limitsInequalities at h
  by_cases hdt : s.velocityLimits = true ∧ s.dt = 0
  · rw [if_pos hdt] at h
    cases h
  rw [if_neg hdt] at h
  simp only [hj, if_true, hvexpr, hb] at h
  obtain ⟨e', he', h⟩ := do_ok h
  cases he'
  obtain ⟨w, hw, h⟩ := do_ok h
  cases hw
  obtain ⟨e', he', h⟩ := do_ok h
  rw [a1] at he'
  cases he'
  obtain ⟨w, hw, h⟩ := do_ok h
  cases hw
  obtain ⟨e', he', h⟩ := do_ok h
  rw [h1] at he'
  cases he'
  obtain ⟨w, hw, h⟩ := do_ok h
  obtain ⟨c2, -, h⟩ := do_ok h
  obtain ⟨jl, hjl, h⟩ := do_ok h
  cases hjl
  split at h
  · obtain ⟨_, -, h⟩ := do_ok h
    obtain ⟨_, -, h⟩ := do_ok h
    obtain ⟨_, -, h⟩ := do_ok h
    obtain ⟨_, -, h⟩ := do_ok h
    obtain ⟨_, -, h⟩ := do_ok h
    obtain ⟨_, -, h⟩ := do_ok h
    cases h
    exact ⟨c1, by simp, g1⟩
  · obtain ⟨_, -, h⟩ := do_ok h
    cases h
    exact ⟨c1, by simp, g1⟩

/-- **C165 is false** of a robot without actuated joints whose joint limits are enabled (the default): staying in place is admissible,
but no solve ever succeeds. -/
theorem C165_base_refuted (env : QPEnv ℝ) (r : Robot ℝ) (hn : r.nv = 6) (tasks : List (Task ℝ)) (cons : List (KConstraint ℝ)) (apply : Bool)
    (s : KState ℝ) (hv : VarsOK r.nv s.prob s.qdVar s.scaleVar) (hfit : TasksFit r.nv s.robot tasks) (hj : s.jointLimits = true) :
    (∀ dq, (solve env r tasks cons apply s).2 ≠ .ok dq) ∧ (s.velocityLimits = false → ∃ y σ, Admissible r [] s true y σ) := by
  refine ⟨fun dq h => ?_, fun hvl => C165_standstill r [] s (by simp) (fun _ i hi => by omega) fun h => by rw [hvl] at h; cases h⟩
  obtain ⟨hv1, hq1⟩ := ensureQd_vars r s hv
  have hrobot : (ensureQd r s).robot = s.robot := by unfold ensureQd; split <;> rfl
  have hjl : (ensureQd r s).jointLimits = true := by unfold ensureQd; split <;> exact hj
  unfold solve at h
  simp only at h
  generalize ensureQd r s = s1 at *
  cases hrt : runTasks s1.robot ⟨s1.prob, s1.scaleVar, false, []⟩ tasks with
  | mk st e =>
  rw [hrt] at h
  cases e with
  | some e => cases h
  | none =>
    obtain ⟨ok, -, -⟩ := runTasks_spec r.nv s1.robot tasks ⟨s1.prob, s1.scaleVar, false, []⟩ ⟨hv1, fun h => by cases h⟩
      (by rw [hrobot]; exact hfit) st none hrt
    have hvar : varAt st.prob 0 = ⟨0, r.nv⟩ := varAt_qd r.nv st.prob st.scaleVar ok.1
    simp only at h
    unfold afterTasks at h
    simp only [hq1, Option.getD_some, hvar] at h
    split at h
    · cases h
    · rename_i l hl
      unfold otherConstraints at hl
      obtain ⟨m, -, hl⟩ := do_ok hl
      obtain ⟨lim, hlim, hl⟩ := do_ok hl
      obtain ⟨k, -, hl⟩ := do_ok hl
      cases hl
      obtain ⟨c, hc, hrows⟩ : ∃ c ∈ lim, c.expr.rows = 0 := by
        exact limits_empty r _ hn hjl hlim
      have hasm : ∃ qp, assemble (env.settings st.prob.1) env.qr (st.cs ++ (m ++ lim ++ k.flatten)) = .ok qp := by
        unfold finish at h
        simp only at h
        cases hq : assemble (env.settings st.prob.1) env.qr (st.cs ++ (m ++ lim ++ k.flatten)) with
        | ok qp => exact ⟨qp, rfl⟩
        | error e =>
          unfold Problem.solve at h
          simp only [hq] at h
          cases h
      obtain ⟨qp, hqp⟩ := hasm
      have hend := assembleEnd_eq (env.settings st.prob.1) env.qr (st.cs ++ (m ++ lim ++ k.flatten))
      unfold assembleEnd at hend
      rw [hqp] at hend
      simp only [Except.map] at hend
      split at hend
      · cases hend
      split at hend
      · cases hend
      split at hend
      · rename_i hall
        have := hall c (by simp [hc])
        unfold checkConstr at this
        split at this
        · cases this
        rw [if_pos (.inl hrows)] at this
        cases this
      · cases hend

/-- Two equal rows have no factorisation of full rank. -/
theorem qr_twice (n : Nat) (A : Nat → Nat → ℝ) (f : QR ℝ) (h : IsQR n 2 A f) (hA : ∀ k, k < n → A 0 k = A 1 k) : f.rank ≠ 2 := by
  intro hr
  have hi := h.indep hr (fun i => if i = 0 then 1 else -1) (fun k hk => by simp [Finset.sum_range_succ, hA k hk]) 0 (by omega)
  simp at hi

/-- A floating base and one joint, limited to `[-1, 1]` and to the velocity 1. -/
noncomputable def hingeRobot : Robot ℝ :=
  { nq := 8, nv := 7, joints := [⟨"hinge", 7, 1, 6, 1⟩], lower := fun _ => -1, upper := fun _ => 1, vlim := fun _ => 1,
    integrate := fun q v i => if i = 7 then q 7 + v 6 else q i, difference := fun q q' i => q' i - q i }

/-- The joint at its zero, with the default settings. -/
noncomputable def hingeState : KState ℝ := { robot := ⟨fun _ => 0, fun _ => 0, fun _ => 0⟩, dt := 0, scale := 1 }

/-- A hard task asking the joint to move by `b`. -/
noncomputable def hingeTask (b : ℝ) : Task ℝ :=
  ⟨.hard, 1, fun _ => .ok ⟨1, 7, fun _ j => if j = 6 then 1 else 0, fun _ => b⟩⟩

theorem hinge_layout : hingeRobot.Layout := by
  refine ⟨?_, rfl, rfl⟩
  intro pre j post h
  match pre, h with
  | [], h => simp only [hingeRobot, List.nil_append, List.cons.injEq] at h; obtain ⟨rfl, -⟩ := h; simp
  | a :: l, h =>
    have := congrArg List.length h
    simp [hingeRobot] at this

/-- **C165 is false** with `rewrite_equalities` (the default) when the same hard task is given twice: a step meets both, and is found
when the task is given once, but `solve` raises. -/
theorem C165_refuted (env : QPEnv ℝ) (hre : env.rewriteEqualities = true) (hex : env.Exact) (hreg : 0 < env.regularization) (htol : 0 ≤ env.tol)
    (apply : Bool) : (∃ y σ, Admissible hingeRobot [hingeTask (1 / 2), hingeTask (1 / 2)] hingeState true y σ) ∧
      (solve env hingeRobot [hingeTask (1 / 2), hingeTask (1 / 2)] [] apply hingeState).2 = .error .qpError ∧
      ∃ dq, (solve env hingeRobot [hingeTask (1 / 2)] [] apply hingeState).2 = .ok dq := by
  have hadm : ∃ y σ, Admissible hingeRobot [hingeTask (1 / 2), hingeTask (1 / 2)] hingeState true y σ := by
    refine ⟨fun _ => 1 / 2, 0, ?_, fun _ => ⟨le_refl _, zero_le_one⟩, fun d hd => (by cases hd), fun h => (by cases h), fun _ i _ => ?_,
      fun h => (by cases h)⟩
    · intro t ht M hM i hi
      have : t = hingeTask (1 / 2) := by simpa using ht
      subst this
      cases hM
      exact ⟨fun _ => by simp [TaskMat.app], fun h => by cases h⟩
    · norm_num [hingeState, hingeRobot]
  have hupd : ∀ t ∈ [hingeTask (1 / 2)], ∃ M, t.update hingeState.robot = .ok M ∧ 0 < M.cols ∧ M.cols ≤ hingeRobot.nv := by
    intro t ht
    rw [List.mem_singleton] at ht
    subst ht
    exact ⟨_, rfl, by decide, by decide⟩
  refine ⟨hadm, ?_, ?_⟩
  · obtain ⟨cs, hrun, hn, h0, hu, hA⟩ : ∃ cs : List (Constr ℝ), solve env hingeRobot [hingeTask (1 / 2), hingeTask (1 / 2)] [] apply hingeState =
        finish env hingeRobot apply cs { hingeState with prob := (7, [⟨⟨0, 7⟩, 0, []⟩]), qdVar := some 0 } ∧ nEqualities cs = 2 ∧
        equalitiesUB 7 cs = false ∧ True ∧ ∀ k, k < 7 → (equalities cs).A 0 k = (equalities cs).A 1 k := by
      refine ⟨_, rfl, rfl, rfl, trivial, fun k hk => ?_⟩
      interval_cases k <;> rfl
    rw [hrun]
    have hend := assembleEnd_eq (env.settings 7) env.qr cs
    have hr : ¬ (env.qr (nEqualities cs) (equalities cs)).rank = nEqualities cs := by
      have := (hex.1.equalities h0).qr
      rw [hn] at this ⊢
      exact qr_twice 7 _ _ this hA
    rw [show (env.settings 7).n = 7 from rfl, h0, if_neg (by simp), if_pos ⟨hre, by rw [hn]; decide, hr⟩] at hend
    unfold assembleEnd at hend
    unfold finish
    simp only
    cases ha : assemble (env.settings 7) env.qr cs with
    | ok qp => rw [ha] at hend; cases hend
    | error e =>
      rw [ha] at hend
      injection hend with hend
      subst hend
      unfold Problem.solve
      simp only [ha]
  · refine (C165_partial env hingeRobot hinge_layout ?_ (by decide) _ apply hingeState (.inl ⟨rfl, rfl, rfl⟩) hupd ?_ hreg htol hex
      ⟨List.nodup_nil, fun d hd => by cases hd⟩ (fun h => by cases h.1) (fun _ => ?_)).1.2 ?_
    · intro j hj
      rw [show hingeRobot.joints = [⟨"hinge", 7, 1, 6, 1⟩] from rfl, List.mem_singleton] at hj
      subst hj
      decide
    · intro t ht h
      rw [List.mem_singleton] at ht
      subst ht
      cases h
    · intro rs u u' hrs
      obtain ⟨q, rfl, hq⟩ := List.map_eq_singleton_iff.1 hrs
      refine ⟨fun _ => q.2 0, 0, fun p hp => ?_, fun d hd => (by cases hd), fun h => (by cases h)⟩
      rw [List.mem_singleton] at hp
      subst hp
      intro M hM i hi
      rw [hq] at hM
      cases hM
      have : i = 0 := by have : i < 1 := hi; omega
      subst this
      exact ⟨fun _ => by simp, fun h => by rw [hq] at h; cases h⟩
    · obtain ⟨y, σ, h⟩ := hadm
      exact ⟨y, σ, ⟨fun t ht => h.tasks t (by rw [List.mem_singleton] at ht; subst ht; simp), h.scale, h.masked, h.fbase, h.joint, h.velocity⟩⟩

/-! ## Any history, any number of solves -/

/-- The masked degrees of freedom are those of joints of the robot, each one once: a `std::set`. -/
def MasksOK (r : Robot ℝ) (s : KState ℝ) : Prop := s.maskedDof.Nodup ∧ ∀ d ∈ s.maskedDof, d < r.nv

/-- It holds after any history. -/
theorem run_masks (env : QPEnv ℝ) (r : Robot ℝ) (hL : r.Layout) : ∀ (ops : List (Op ℝ)) (s : KState ℝ), OpsFit r.nv ops →
    VarsOK r.nv s.prob s.qdVar s.scaleVar → MasksOK r s → MasksOK r (run env r s ops) := by
  intro ops
  induction ops with
  | nil => intro s _ _ h; exact h
  | cons op ops ih =>
    intro s hf hv hm
    rw [run_cons]
    refine ih _ (OpsFit_cons hf) (step_vars env r s op (fun t c a h => hf t c a (by simp [h]) _) hv) ?_
    cases op with
    | mask d =>
      simp only [step, maskDof]
      cases hj : r.vJoint d with
      | error e => exact hm
      | ok j =>
        have hjm := (vJoint_mem r d j hj).1
        have hlt := hL.idxV_lt j hjm
        have : ∀ (l : List Nat) (m : List Nat), (∀ i ∈ l, i < j.nV) → (m.Nodup ∧ ∀ d ∈ m, d < r.nv) →
            (l.foldl (fun l i => l.insert (j.idxV + i)) m).Nodup ∧ ∀ d ∈ l.foldl (fun l i => l.insert (j.idxV + i)) m, d < r.nv := by
          intro l
          induction l with
          | nil => intro m _ h; exact h
          | cons i l ih =>
            intro m hl h
            refine ih _ (fun i hi => hl i (by simp [hi])) ⟨h.1.insert, fun d hd => ?_⟩
            rcases List.mem_insert_iff.1 hd with rfl | hd
            · have := hl i (by simp)
              omega
            · exact h.2 d hd
        exact this _ _ (fun i hi => List.mem_range.1 hi) hm
    | unmask d =>
      simp only [step, unmaskDof]
      cases hj : r.vJoint d with
      | error e => exact hm
      | ok j =>
        have : ∀ (l : List Nat) (m : List Nat), (m.Nodup ∧ ∀ d ∈ m, d < r.nv) →
            (l.foldl (fun l i => l.filter (· ≠ j.idxV + i)) m).Nodup ∧ ∀ d ∈ l.foldl (fun l i => l.filter (· ≠ j.idxV + i)) m, d < r.nv := by
          intro l
          induction l with
          | nil => intro m h; exact h
          | cons i l ih =>
            intro m h
            exact ih _ ⟨h.1.filter _, fun d hd => h.2 d (List.mem_filter.1 hd).1⟩
        exact this _ _ hm
    | maskFbase b => exact hm
    | enableJointLimits b => exact hm
    | enableVelocityLimits b => exact hm
    | setDt dt => exact hm
    | setRobot rs => exact hm
    | solve ts cs a =>
      simp only [step]
      obtain ⟨-, h, -⟩ := solve_spec' env r ts cs a s hv (hf ts cs a (by simp) _)
      unfold MasksOK
      rw [h.maskedDof]
      exact hm

/-- **C165 (histories).** After any history of calls, on a robot whose joints have one coordinate each and are inside the enabled
limits, any number of solves of the same soft tasks, all of which can always be updated, succeed. -/
theorem C165_forever (env : QPEnv ℝ) (r : Robot ℝ) (hL : r.Layout) (hI : r.IntegrateOK) (hone : ∀ j ∈ r.joints, j.Simple) (hn : r.joints ≠ [])
    (s0 : KState ℝ) (hs0 : VarsOK r.nv s0.prob s0.qdVar s0.scaleVar) (hm0 : MasksOK r s0) (ops : List (Op ℝ)) (hops : OpsFit r.nv ops)
    (tasks : List (Task ℝ)) (hupd : ∀ rs, ∀ t ∈ tasks, ∃ M, t.update rs = .ok M ∧ 0 < M.cols ∧ M.cols ≤ r.nv)
    (hw : ∀ t ∈ tasks, t.priority = .soft ∧ 0 ≤ t.weight) (hreg : 0 < env.regularization) (htol : 0 ≤ env.tol) (hex : env.Exact)
    (s : KState ℝ) (hs : s = run env r s0 ops) (hbase : s.maskedFbase = true → ∀ d ∈ s.maskedDof, 6 ≤ d)
    (hj : s.jointLimits = true → ∀ j ∈ r.joints, r.InLimits j s.robot.q)
    (hvl : s.velocityLimits = true → s.dt ≠ 0 ∧ ∀ j ∈ r.joints, 0 ≤ s.dt * r.vlim j.idxV) (n : Nat) :
    AllSolved env r tasks n s := by
  have hnq := hL.nq
  have hnv := hL.nv
  have hsum : ∀ l : List Joint, (∀ j ∈ l, j.Simple) → (l.map (·.nQ)).sum = l.length ∧ (l.map (·.nV)).sum = l.length := by
    intro l
    induction l with
    | nil => intro _; exact ⟨rfl, rfl⟩
    | cons j l ih =>
      intro h
      obtain ⟨h1, h2⟩ := ih fun j hj => h j (by simp [hj])
      obtain ⟨g1, g2⟩ := h j (by simp)
      simp only [List.map_cons, List.sum_cons, List.length_cons, h1, h2, g1, g2]
      omega
  obtain ⟨e1, e2⟩ := hsum _ hone
  have hpos := List.length_pos_of_ne_nil hn
  have hat : ∀ i, i < r.nv - 6 → ∃ j ∈ r.joints, j.idxQ = r.nq - (r.nv - 6) + i ∧ j.idxV = 6 + i := by
    intro i hi
    have hil : i < r.joints.length := by omega
    refine ⟨r.joints[i], List.getElem_mem _, ?_⟩
    have hd : r.joints = r.joints.take i ++ r.joints[i] :: r.joints.drop (i + 1) := by
      rw [List.getElem_cons_drop hil]
      exact (List.take_append_drop i r.joints).symm
    obtain ⟨h1, h2⟩ := hL.idx _ _ _ hd
    obtain ⟨g1, g2⟩ := hsum (r.joints.take i) fun j hj => hone j (List.mem_of_mem_take hj)
    rw [h1, h2, g1, g2, List.length_take]
    omega
  have hv : VarsOK r.nv s.prob s.qdVar s.scaleVar := by rw [hs]; exact run_vars env r ops s0 hops hs0
  have hm : MasksOK r s := by rw [hs]; exact run_masks env r hL ops s0 hops hs0 hm0
  have hfit : ∀ rs, TasksFit r.nv rs tasks := by
    intro rs t ht M hM
    obtain ⟨M', hM', -, h⟩ := hupd rs t ht
    rw [hM] at hM'
    cases hM'
    exact h
  have hle : ∀ j ∈ r.joints, j.nV ≤ j.nQ := fun j hj => by rw [(hone j hj).1, (hone j hj).2]
  clear hs hm0 hs0 hops
  have key : ∀ k, (s.jointLimits = true → ∀ j ∈ r.joints, r.InLimits j (iterSolve env r tasks k s).robot.q) ∧
      ∃ dq, (solve env r tasks [] true (iterSolve env r tasks k s)).2 = .ok dq := by
    have hsolve : ∀ k, (s.jointLimits = true → ∀ j ∈ r.joints, r.InLimits j (iterSolve env r tasks k s).robot.q) →
        ∃ dq, (solve env r tasks [] true (iterSolve env r tasks k s)).2 = .ok dq := by
      intro k hk
      obtain ⟨hv', hc⟩ := iter_config env r tasks hfit s hv k
      refine C165_soft env r hL hle (by omega) tasks true _ hv' (hupd _) hw hreg htol hex ?_ ?_ ?_ ?_
      · rw [hc.maskedDof]; exact hm
      · rw [hc.maskedFbase, hc.maskedDof]; exact hbase
      · rw [hc.jointLimits]
        intro h i hi
        obtain ⟨j, hjm, hq, -⟩ := hat i hi
        rw [← hq]
        exact hk h j hjm
      · rw [hc.velocityLimits, hc.dt]
        intro h
        refine ⟨(hvl h).1, fun i hi => ?_⟩
        obtain ⟨j, hjm, -, hq⟩ := hat i hi
        rw [← hq]
        exact (hvl h).2 j hjm
    intro k
    induction k with
    | zero => exact ⟨hj, hsolve 0 hj⟩
    | succ k ih =>
      obtain ⟨ih, dq, hdq⟩ := ih
      obtain ⟨hv', hc⟩ := iter_config env r tasks hfit s hv k
      have : s.jointLimits = true → ∀ j ∈ r.joints, r.InLimits j (iterSolve env r tasks (k + 1) s).robot.q := by
        intro h j hjm
        obtain ⟨pre, post, hpp⟩ := List.append_of_mem hjm
        have hst : iterSolve env r tasks (k + 1) s = (solve env r tasks [] true (iterSolve env r tasks k s)).1 := by
          unfold iterSolve
          rw [Function.iterate_succ_apply']
        rw [hst]
        refine (C43_step env hex.sound r hL hI hle pre post j hpp (hone j hjm) (fun j' hj' => ?_) tasks [] _ _ dq hv' (hfit _)
          (by rw [hc.jointLimits]; exact h) (by rw [← hdq])).1
        have := hone j' (by rw [hpp]; simp [hj'])
        rw [this.1, this.2]
      exact ⟨this, hsolve _ this⟩
  exact fun k _ => (key k).2

/-! ## A case that meets the hypotheses of C164 and C165 -/

/-- A soft joints task asking the hinge to reach 1/2. -/
noncomputable def hingeGoal : Task ℝ := ⟨.soft, 1, jointsUpdate hingeRobot [("hinge", 1 / 2)]⟩

theorem hinge_find : hingeRobot.vJoint "hinge" = .ok ⟨"hinge", 7, 1, 6, 1⟩ := by
  simp [Robot.vJoint, hingeRobot]

theorem hingeGoal_update (rs : RState ℝ) : ∃ M, hingeGoal.update rs = .ok M ∧ M.cols = 7 := by
  simp only [hingeGoal, jointsUpdate, List.mapM_cons, List.mapM_nil, jointsRow, hinge_find, bind, Except.bind, pure, Except.pure]
  exact ⟨_, rfl, rfl⟩

theorem hinge_integrate : hingeRobot.IntegrateOK := by
  intro j hj _ _ q v
  rw [show hingeRobot.joints = [⟨"hinge", 7, 1, 6, 1⟩] from rfl, List.mem_singleton] at hj
  subst hj
  simp [hingeRobot]

/-- With exact solvers and the default settings (rewriting of the equalities, joint limits), every solve succeeds and the hinge gets as
close as one wants to its target. -/
example : ∃ env : QPEnv ℝ, env.Exact ∧ env.rewriteEqualities = true ∧ (∀ n, AllSolved env hingeRobot [hingeGoal] n hingeState) ∧
    ∀ ε, 0 < ε → ∃ N, ∀ n, N ≤ n → |(iterSolve env hingeRobot [hingeGoal] n hingeState).robot.q 7 - 1 / 2| < ε := by
  obtain ⟨env, hex, hS, hO, hreg, hre, -, htol⟩ := exact_env_exists 1 0 0 true
  have hupd : ∀ rs, ∀ t ∈ [hingeGoal], ∃ M, t.update rs = .ok M ∧ 0 < M.cols ∧ M.cols ≤ hingeRobot.nv := by
    intro rs t ht
    rw [List.mem_singleton] at ht
    subst ht
    obtain ⟨M, h1, h2⟩ := hingeGoal_update rs
    exact ⟨M, h1, by omega, by rw [h2]; decide⟩
  have hjs : ∀ j ∈ hingeRobot.joints, j = ⟨"hinge", 7, 1, 6, 1⟩ := fun j hj => List.mem_singleton.1 hj
  have hall : ∀ n, AllSolved env hingeRobot [hingeGoal] n hingeState := fun n =>
    C165_forever env hingeRobot hinge_layout hinge_integrate (fun j hj => by rw [hjs j hj]; exact ⟨rfl, rfl⟩) (by simp [hingeRobot]) hingeState
      (.inl ⟨rfl, rfl, rfl⟩) ⟨List.nodup_nil, fun d hd => (by cases hd)⟩ [] (fun _ _ _ h => by cases h) [hingeGoal] hupd
      (fun t ht => by rw [List.mem_singleton] at ht; subst ht; exact ⟨rfl, zero_le_one⟩) (by rw [hreg]; exact one_pos) (by rw [htol]) hex
      hingeState rfl (fun h => by cases h) (fun _ j hj => by rw [hjs j hj]; constructor <;> norm_num [hingeRobot, hingeState])
      (fun h => by cases h) n
  refine ⟨env, hex, hre, hall, ?_⟩
  have hT : Tracks hingeRobot [hingeGoal] [("hinge", 1 / 2)] hingeGoal ⟨"hinge", 7, 1, 6, 1⟩ (1 / 2) :=
    { layout := hinge_layout
      integrate := hinge_integrate
      size := fun j hj => by rw [hjs j hj]; decide
      joint := hinge_find
      simple := ⟨rfl, rfl⟩
      after := ⟨[], [], rfl, fun _ h => by cases h⟩
      update := rfl
      soft := rfl
      nodup := by simp
      target := by simp
      others := ⟨[], [], rfl, fun _ h => by cases h⟩
      fit := fun rs t ht M hM => by
        obtain ⟨M', h1, h2⟩ := hupd rs t ht
        rw [hM] at h1
        cases h1
        exact h2 }
  exact (C164_converges env hS hO (by rw [hreg]; exact one_pos) hingeRobot [hingeGoal] _ hingeGoal _ (1 / 2) hT one_pos hingeState
    (.inl ⟨rfl, rfl, rfl⟩) (fun h => by cases h) (fun _ => by norm_num [hingeRobot]) (fun h => by cases h) hall).2

end Verif.Kinematics
