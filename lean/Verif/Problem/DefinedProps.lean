/-
Exact forms of C03, C05 (expressions), C18 and C19 (when `Problem::solve` is undefined).
-/
import Mathlib.Tactic.FieldSimp
import Mathlib.Tactic.Linarith
import Mathlib.Tactic.NormNum
import Verif.Problem.ProblemSolveProps
import Verif.Problem.ConstraintProps

namespace Verif.Problem
open Finset

section
variable {K : Type} [Field K] [LinearOrder K] [IsStrictOrderedRing K]

/-- **C03, exactly.** `v - e` is right at a point and a row if and only if the value of `e` there is `v` already. -/
theorem C03_exact (v : Vec K) (e : Expr K) (h : v.size = e.rows) :
    ∃ r, Expr.vecSub v e = .ok r ∧ ∀ x i, i < e.rows →
      (r.rowVal x i = v.v i - e.rowVal x i ↔ e.rowVal x i = v.v i) := by
  obtain ⟨r, h1, -, h2⟩ := C03_vector_minus_expression_partial v e h
  refine ⟨r, h1, fun x i hi => ?_⟩
  rw [h2 x i hi]
  constructor <;> intro h <;> linarith

/-- **C05, exactly.** `mean()` is the mean of the rows at a point if and only if there are as many rows as columns, or the rows have a zero
sum there. -/
theorem C05_exact (e : Expr K) (hr : 0 < e.rows) (hc : 0 < e.cols) (x : Nat → K) :
    e.mean.value x = [(e.value x).sum / (e.rows : K)] ↔ e.rows = e.cols ∨ (e.value x).sum = 0 := by
  rw [(C05_mean_partial e hc x).1, List.cons.injEq]
  have h1 : (e.rows : K) ≠ 0 := Nat.cast_ne_zero.2 (by omega)
  have h2 : (e.cols : K) ≠ 0 := Nat.cast_ne_zero.2 (by omega)
  generalize (e.value x).sum = s
  rw [div_eq_div_iff h2 h1]
  constructor
  · rintro ⟨h, -⟩
    by_cases hs : s = 0
    · exact .inr hs
    · left
      have := mul_left_cancel₀ hs h
      exact_mod_cast this
  · rintro (h | h)
    · exact ⟨by rw [h], rfl⟩
    · exact ⟨by rw [h]; ring, rfl⟩

end

section
variable {K : Type} [Field K] [LinearOrder K]

omit [Field K] [LinearOrder K] in
theorem equalitiesUB_iff (n : Nat) (cs : List (Constr K)) : equalitiesUB n cs = true ↔
    ∃ c ∈ cs, c.ty = .equality ∧ c.priority = .hard ∧ (n < c.expr.cols ∨ c.brows ≠ c.expr.rows) := by
  unfold equalitiesUB
  rw [List.any_eq_true]
  constructor
  · rintro ⟨c, hc, h⟩
    exact ⟨c, hc, by simpa [Constr.hardEq, and_assoc] using h⟩
  · rintro ⟨c, hc, h⟩
    exact ⟨c, hc, by simpa [Constr.hardEq, and_assoc] using h⟩

theorem sum_pos_of {α : Type} (f : α → Nat) (l : List α) (a : α) (h : a ∈ l) (hp : 0 < f a) : 0 < (l.map f).sum := by
  induction l with
  | nil => cases h
  | cons b l ih =>
    rw [List.map_cons, List.sum_cons]
    rcases List.mem_cons.1 h with rfl | h
    · omega
    · have := ih h; omega

/-- **C19, exactly.** Once the constraints are accepted, the equality matrix has other columns than the objective if and only if the
equalities are not rewritten and there are a hard equality and a soft inequality. -/
theorem C19_exact (s : Settings K) (qr : Nat → EqSt K → QR K) (cs : List (Constr K)) (qp : QP K)
    (h : assemble s qr cs = .ok qp) :
    qp.dimMismatch = true ↔ s.rewriteEqualities = false ∧ (∃ c ∈ cs, c.ty = .equality ∧ c.priority = .hard) ∧
      ∃ c ∈ cs, c.ty = .inequality ∧ c.priority = .soft := by
  constructor
  · intro hd
    by_contra hn
    have := C19_dimensions_partial s qr cs qp h (by
      by_cases h1 : s.rewriteEqualities = true
      · exact .inl h1
      · right
        by_cases h2 : ∃ c ∈ cs, c.ty = .equality ∧ c.priority = .hard
        · right
          intro c hc hcc
          exact hn ⟨by simpa using h1, h2, c, hc, hcc⟩
        · left
          intro c hc hcc
          exact h2 ⟨c, hc, hcc⟩)
    rw [this] at hd; cases hd
  · rintro ⟨hr, ⟨a, ha, ha1, ha2⟩, b, hb, hb1, hb2⟩
    have A := assembled_of_ok h
    have hrows : ∀ c ∈ cs, 0 < c.expr.rows := by
      unfold assemble at h
      split at h
      · cases h
      · simp only at h
        split at h
        · cases h
        · split at h
          · cases h
          · rename_i u hu
            intro c hc
            exact (mapM_check_ok s.n cs u hu c hc).2.1
    have h1 : 0 < nEqualities cs := sum_pos_of _ cs a ha (by simp [Constr.hardEq, ha1, ha2, hrows a ha])
    have h2 : 0 < nSlack cs := sum_pos_of _ cs b hb (by simp [Constr.softIneq, hb1, hb2, hrows b hb])
    unfold QP.dimMismatch
    rw [A.nEq, A.eqCols, A.slack, A.free, A.red]
    simp [hr, h1]
    omega

/-- **C18, exactly.** `solve` is undefined if and only if a hard equality does not fit the problem, or all the constraints fit, the
equalities are not rewritten and there are a hard equality and a soft inequality. Everything else it raises is a `QPError`. -/
theorem C18_exact (s : Settings K) (qr : Nat → EqSt K → QR K) (oracle : QP K → QPResult K) (tol : K)
    (cs : List (Constr K)) (st : PState K) :
    ((solve s qr oracle tol cs st).2 = .error .ub ↔
      (∃ c ∈ cs, c.ty = .equality ∧ c.priority = .hard ∧ (s.n < c.expr.cols ∨ c.brows ≠ c.expr.rows)) ∨
      ((∀ c ∈ cs, c.expr.cols ≤ s.n ∧ 0 < c.expr.rows ∧ c.brows = c.expr.rows) ∧ s.rewriteEqualities = false ∧
        (∃ c ∈ cs, c.ty = .equality ∧ c.priority = .hard) ∧ ∃ c ∈ cs, c.ty = .inequality ∧ c.priority = .soft)) ∧
    ∀ e, (solve s qr oracle tol cs st).2 = .error e → e = .ub ∨ e = .qpError := by
  refine ⟨⟨fun h => ?_, fun h => ?_⟩, fun e he => ?_⟩
  · rcases C18_only_qp_error s qr oracle tol cs st _ h with h1 | ⟨-, h1 | ⟨qp, hqp, h1⟩⟩
    · cases h1
    · exact .inl ((equalitiesUB_iff s.n cs).1 h1)
    · right
      refine ⟨?_, (C19_exact s qr cs qp hqp).1 h1⟩
      unfold assemble at hqp
      split at hqp
      · cases hqp
      · simp only at hqp
        split at hqp
        · cases hqp
        · split at hqp
          · cases hqp
          · rename_i u hu
            exact mapM_check_ok s.n cs u hu
  · by_cases hu : equalitiesUB s.n cs = true
    · have hA : assemble s qr cs = .error .ub := by unfold assemble; rw [if_pos hu]
      unfold solve
      simp only [hA]
    · rcases h with h | ⟨hfit, hr, he, hi⟩
      · exact absurd ((equalitiesUB_iff s.n cs).2 h) hu
      · have hA : ∃ qp, assemble s qr cs = .ok qp := by
          cases hq : assemble s qr cs with
          | ok qp => exact ⟨qp, rfl⟩
          | error e =>
            exfalso
            unfold assemble at hq
            rw [if_neg hu] at hq
            simp only [hr, Bool.false_and, Bool.false_eq_true, if_false] at hq
            have hc : ∃ u, cs.mapM (checkConstr s.n) = .ok u := by
              clear hq he hi hu
              induction cs with
              | nil => exact ⟨[], rfl⟩
              | cons a l ih =>
                obtain ⟨u, hu⟩ := ih fun c hc => hfit c (by simp [hc])
                have ha := hfit a (by simp)
                have h1 : checkConstr s.n a = .ok () := by
                  unfold checkConstr
                  rw [if_neg (by omega), if_neg (by omega), if_neg (by omega)]
                exact ⟨() :: u, by rw [List.mapM_cons, h1, hu]; rfl⟩
            obtain ⟨u, hu⟩ := hc
            rw [hu] at hq
            cases hq
        obtain ⟨qp, hqp⟩ := hA
        have hd := (C19_exact s qr cs qp hqp).2 ⟨hr, he, hi⟩
        unfold solve
        simp only [hqp, hd, if_true]
  · rcases C18_only_qp_error s qr oracle tol cs st e he with h1 | ⟨h1, -⟩
    · exact .inr h1
    · exact .inl h1

end

/-- Both sides of C18 and C19 occur: the hard equality `x0 == 0` with the soft inequality `x0 >= 0`, rewritten or not. -/
example : ∃ (s : Settings ℚ) (cs : List (Constr ℚ)), s.rewriteEqualities = false ∧
    (∀ c ∈ cs, c.expr.cols ≤ s.n ∧ 0 < c.expr.rows ∧ c.brows = c.expr.rows) ∧
    (∃ c ∈ cs, c.ty = .equality ∧ c.priority = .hard) ∧ ∃ c ∈ cs, c.ty = .inequality ∧ c.priority = .soft := by
  refine ⟨⟨1, 0, false, false, 0⟩, [⟨⟨1, 1, fun _ _ => 1, fun _ => 0⟩, .equality, .hard, 1, 1⟩,
    ⟨⟨1, 1, fun _ _ => 1, fun _ => 0⟩, .inequality, .soft, 1, 1⟩], rfl, ?_, ⟨_, List.mem_cons_self, rfl, rfl⟩,
    ⟨_, List.mem_cons_of_mem _ List.mem_cons_self, rfl, rfl⟩⟩
  intro c hc
  rcases List.mem_cons.1 hc with rfl | hc
  · exact ⟨le_refl _, Nat.one_pos, rfl⟩
  · rw [List.mem_singleton] at hc; subst hc; exact ⟨le_refl _, Nat.one_pos, rfl⟩

end Verif.Problem
