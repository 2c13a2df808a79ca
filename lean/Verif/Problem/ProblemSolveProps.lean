/-
Properties C16 (failed solves), C17 (active constraints), C18 (errors), C19
(dimensions) of `Problem::solve`; and a concrete problem meeting the hypotheses
of C09, C13, C14, C15 and C20.
-/
import Mathlib.Data.Rat.Cast.Order
import Mathlib.Tactic.IntervalCases
import Mathlib.Tactic.NormNum
import Verif.Problem.ProblemQPProps

namespace Verif.Problem
open Finset

section
variable {K : Type} [Field K] [LinearOrder K]

/-! ## C16 -/

/-- `v'` is `v` after a successful solve with solution vector `x`. -/
def Updated (x : Nat → K) (v v' : VarState K) : Prop :=
  v'.var = v.var ∧ v'.version = v.version + 1 ∧ v'.value.length = v.var.size ∧
    ∀ k, k < v.var.size → v'.value[k]? = some (x (v.var.kStart + k))

/-- **C16.** Either `solve` raises and no variable changed, or it returns and every
variable's version increased by one and its value is its slice of the point
recovered from the QP solution. -/
theorem C16_solve_effect (s : Settings K) (qr : Nat → EqSt K → QR K) (oracle : QP K → QPResult K) (tol : K)
    (cs : List (Constr K)) (st : PState K) :
    (∃ e, (solve s qr oracle tol cs st).2 = .error e ∧ (solve s qr oracle tol cs st).1.vars = st.vars) ∨
    ((solve s qr oracle tol cs st).2 = .ok () ∧
      ∃ qp, assemble s qr cs = .ok qp ∧ (oracle qp).infeasible = false ∧ (oracle qp).hasNaN = false ∧
        (solve s qr oracle tol cs st).1.vars.length = st.vars.length ∧
        ∀ (i : Nat) (v : VarState K), st.vars[i]? = some v → ∃ v' : VarState K, (solve s qr oracle tol cs st).1.vars[i]? = some v' ∧
          Updated (qp.recover s.n (oracle qp).x) v v') := by
  unfold solve
  simp only
  cases h : assemble s qr cs with
  | error e => exact .inl ⟨e, rfl, rfl⟩
  | ok qp =>
    simp only
    split
    · exact .inl ⟨_, rfl, rfl⟩
    · split
      · exact .inl ⟨_, rfl, rfl⟩
      · rename_i hinf
        split
        · exact .inl ⟨_, rfl, rfl⟩
        · split
          · exact .inl ⟨_, rfl, rfl⟩
          · rename_i hnan
            refine .inr ⟨rfl, qp, rfl, by simpa using hinf, by simpa using hnan, by simp, fun i v hv => ?_⟩
            refine ⟨updateVar (qp.recover s.n (oracle qp).x) v, by simp [hv], rfl, rfl, by simp [updateVar], ?_⟩
            intro k hk
            simp [updateVar, hk]

/-- One call of `solve`. -/
structure Call (K : Type) where
  s : Settings K
  qr : Nat → EqSt K → QR K
  oracle : QP K → QPResult K
  tol : K
  cs : List (Constr K)

/-- State and number of calls that returned after a history. -/
def runCalls (st : PState K) : List (Call K) → PState K × Nat
  | [] => (st, 0)
  | c :: cs =>
    let r := solve c.s c.qr c.oracle c.tol c.cs st
    let (st', n) := runCalls r.1 cs
    (st', n + match r.2 with | .ok _ => 1 | .error _ => 0)

/-- **C16 (histories).** After any history of `solve` calls, with any constraints,
settings and solver outcomes, every variable kept its range and its version
increased by the number of calls that returned. -/
theorem C16_history (calls : List (Call K)) (st : PState K) :
    (runCalls st calls).1.vars.map (fun v => (v.var.kStart, v.var.kEnd, v.version))
      = st.vars.map fun v => (v.var.kStart, v.var.kEnd, v.version + (runCalls st calls).2) := by
  induction calls generalizing st with
  | nil => simp [runCalls]
  | cons c cs ih =>
    simp only [runCalls]
    rw [ih]
    rcases C16_solve_effect c.s c.qr c.oracle c.tol c.cs st with ⟨e, h1, h2⟩ | ⟨h1, qp, -, -, -, hl, h2⟩
    · rw [h1, h2]; rfl
    · rw [h1]
      apply List.ext_getElem?
      intro i
      rw [List.getElem?_map, List.getElem?_map]
      cases hv : st.vars[i]? with
      | none =>
        have : st.vars.length ≤ i := by
          by_contra hc
          rw [List.getElem?_eq_getElem (by omega)] at hv; cases hv
        rw [List.getElem?_eq_none (by omega)]; rfl
      | some v =>
        obtain ⟨v', hv', h3, h4, -⟩ := h2 i v hv
        rw [hv']
        simp only [Option.map_some, h3, h4, Option.some.injEq, Prod.mk.injEq, true_and]
        omega

/-! ## C17 -/

/-- Generic marking. -/
def markAll {α : Type} (f : α → Option Nat) (l : List α) (act : List Bool) : List Bool :=
  l.foldl (fun act a => match f a with | some ci => act.set ci true | none => act) act

theorem markAll_length {α : Type} (f : α → Option Nat) (l : List α) (act : List Bool) :
    (markAll f l act).length = act.length := by
  unfold markAll
  induction l generalizing act with
  | nil => rfl
  | cons a l ih =>
    rw [List.foldl_cons, ih]
    split <;> simp

theorem markAll_spec {α : Type} (f : α → Option Nat) (l : List α) (act : List Bool) (ci : Nat) (hci : ci < act.length) :
    (markAll f l act)[ci]? = some true ↔ (act[ci]? = some true ∨ ∃ a ∈ l, f a = some ci) := by
  unfold markAll
  induction l generalizing act with
  | nil => simp
  | cons a l ih =>
    rw [List.foldl_cons]
    cases hf : f a with
    | none => simp only; rw [ih act hci]; simp [hf]
    | some cj =>
      simp only
      rw [ih _ (by simpa using hci)]
      by_cases hij : cj = ci
      · subst hij; simp [hci, hf]
      · rw [List.getElem?_set_ne hij]
        simp [hf, hij]

theorem markHard_eq (m : Nat → Option Nat) (l : List Int) (act : List Bool) :
    l.foldl (markHard m) act = markAll (fun a => if 0 ≤ a then m a.toNat else none) l act := by
  unfold markAll
  congr 1
  funext act a
  unfold markHard
  by_cases h : 0 ≤ a
  · simp only [h, if_true]; cases m a.toNat <;> rfl
  · simp [h]

theorem markSoft_eq (tol : K) (m : Nat → Option Nat) (sv : Nat → K) (l : List Nat) (act : List Bool) :
    l.foldl (markSoft tol m sv) act = markAll (fun k => if sv k ≤ tol then m k else none) l act := by
  unfold markAll
  congr 1
  funext act a
  unfold markSoft
  by_cases h : sv a ≤ tol
  · simp only [h, if_true]; cases m a <;> rfl
  · simp [h]

/-- **C17.** After a successful solve: an equality is reported active; a hard
inequality iff one of its rows (at its position in the inequality system, see
`C13_row_ownership`) is in the solver's active set; a soft inequality iff the
slack variable of one of its rows (see `C09_objective`) is at most `tol`. -/
theorem C17_active (s : Settings K) (qr : Nat → EqSt K → QR K) (oracle : QP K → QPResult K) (tol : K)
    (cs : List (Constr K)) (st : PState K) (hok : (solve s qr oracle tol cs st).2 = .ok ()) :
    ∃ qp, assemble s qr cs = .ok qp ∧ (solve s qr oracle tol cs st).1.isActive.length = cs.length ∧
      ∀ (ci : Nat) (c : Constr K), cs[ci]? = some c →
        ((solve s qr oracle tol cs st).1.isActive[ci]? = some true ↔
          match c.ty, c.priority with
          | .equality, _ => True
          | .inequality, .hard => ∃ j, j < c.expr.rows ∧
              ((qp.slack + nHard (cs.take ci) + j : Nat) : Int) ∈ (oracle qp).active
          | .inequality, .soft => ∃ j, j < c.expr.rows ∧ slackOf qp cs (oracle qp).x ci j ≤ tol) := by
  unfold solve at hok ⊢
  simp only at hok ⊢
  cases h : assemble s qr cs with
  | error e => rw [h] at hok; cases hok
  | ok qp =>
    rw [h] at hok
    simp only at hok ⊢
    split at hok
    · cases hok
    rename_i h1
    rw [if_neg h1]
    split at hok
    · cases hok
    rename_i h2
    rw [if_neg h2]
    split at hok
    · cases hok
    rename_i h3
    rw [if_neg h3]
    split at hok
    · cases hok
    rename_i h4
    rw [if_neg h4]
    refine ⟨qp, rfl, ?_, fun ci c hci => ?_⟩
    · rw [markHard_eq, markSoft_eq, markAll_length, markAll_length]
      simp [initActive]
    have A := assembled_of_ok h
    obtain ⟨Pq, stt, hPq, hst, hP, hq, hG, hh, hH, hS⟩ := A.st
    have I := ineq_inv s.n qp.red qp.free qp.slack (qp.free + qp.slack) Pq.1 Pq.2 cs
    rw [← hst] at I
    have hlt : ci < cs.length := by
      by_contra hc
      rw [List.getElem?_eq_none (by omega)] at hci; cases hci
    rw [markHard_eq, markSoft_eq, markAll_spec _ _ _ _ (by rw [markAll_length]; simpa [initActive] using hlt),
      markAll_spec _ _ _ _ (by simpa [initActive] using hlt)]
    have hinit : (initActive cs)[ci]? = some (decide (c.ty = .equality)) := by
      simp [initActive, hci]
    rw [hinit, hH, hS]
    have hard_iff : (∃ a ∈ (oracle qp).active, (if 0 ≤ a then stt.hardMap a.toNat else none) = some ci) ↔
        (c.hardIneq = true ∧ ∃ j, j < c.expr.rows ∧
          ((qp.slack + nHard (cs.take ci) + j : Nat) : Int) ∈ (oracle qp).active) := by
      constructor
      · rintro ⟨a, ha, hm⟩
        split at hm
        · rename_i ha0
          obtain ⟨c', hc', hh', j, hj, hr⟩ := (I.hardMap _ _).1 hm
          rw [hci] at hc'; cases hc'
          refine ⟨hh', j, hj, ?_⟩
          have : ((qp.slack + nHard (cs.take ci) + j : Nat) : Int) = a := by omega
          rw [this]; exact ha
        · cases hm
      · rintro ⟨hh', j, hj, ha⟩
        refine ⟨_, ha, ?_⟩
        rw [if_pos (by omega)]
        exact (I.hardMap _ _).2 ⟨c, hci, hh', j, hj, by omega⟩
    have soft_iff : (∃ k ∈ List.range qp.slack,
        (if (oracle qp).x (qp.free + k) ≤ tol then stt.softMap k else none) = some ci) ↔
        (c.softIneq = true ∧ ∃ j, j < c.expr.rows ∧ slackOf qp cs (oracle qp).x ci j ≤ tol) := by
      constructor
      · rintro ⟨k, hk, hm⟩
        split at hm
        · rename_i hle
          obtain ⟨c', hc', hs', j, hj, hr⟩ := (I.softMap _ _).1 hm
          rw [hci] at hc'; cases hc'
          refine ⟨hs', j, hj, ?_⟩
          unfold slackOf
          rw [hr, ← Nat.add_assoc] at hle
          exact hle
        · cases hm
      · rintro ⟨hs', j, hj, hle⟩
        have hb := nSlack_take_le cs ci c hci hs'
        refine ⟨nSlack (cs.take ci) + j, List.mem_range.2 (by rw [A.slack]; omega), ?_⟩
        unfold slackOf at hle
        rw [Nat.add_assoc] at hle
        rw [if_pos hle]
        exact (I.softMap _ _).2 ⟨c, hci, hs', j, hj, rfl⟩
    rw [hard_iff, soft_iff]
    cases h1 : c.ty <;> cases h2 : c.priority <;> simp [Constr.hardIneq, Constr.softIneq, h1, h2]

/-! ## C18 -/

/-- A constraint that does not fit a problem with `n` variables. -/
def Bad (n : Nat) (c : Constr K) : Prop :=
  n < c.expr.cols ∨ c.expr.rows = 0 ∨ c.brows = 0 ∨ c.expr.rows ≠ c.brows

theorem check_error (n : Nat) : ∀ (cs : List (Constr K)),
    (∃ c ∈ cs, Bad n c) → cs.mapM (checkConstr n) = .error .qpError := by
  intro cs
  induction cs with
  | nil => rintro ⟨c, hc, -⟩; simp at hc
  | cons a l ih =>
    rintro ⟨c, hc, hbad⟩
    rw [List.mapM_cons]
    by_cases ha : Bad n a
    · have : checkConstr n a = .error .qpError := by
        unfold checkConstr
        unfold Bad at ha
        split
        · rfl
        · split
          · rfl
          · split
            · rfl
            · omega
      rw [this]; rfl
    · have : checkConstr n a = .ok () := by
        unfold checkConstr
        unfold Bad at ha
        rw [if_neg (by omega), if_neg (by omega), if_neg (by omega)]
      rw [this]
      rcases List.mem_cons.1 hc with rfl | hc
      · exact absurd hbad ha
      · show (do let r ← l.mapM (checkConstr n); pure (() :: r)) = _
        rw [ih ⟨c, hc, hbad⟩]; rfl

/-- **C18, partial.** Full statement: a problem with a constraint that does not fit
makes `solve` raise `QPError`. It holds when no *hard equality* is out of range;
in that case every variable is also left untouched. Missing: hard equalities
are copied into the equality matrix before the checks (`C18_refuted`). -/
theorem C18_bad_constraints_partial (s : Settings K) (qr : Nat → EqSt K → QR K) (oracle : QP K → QPResult K) (tol : K)
    (cs : List (Constr K)) (st : PState K) (hbad : ∃ c ∈ cs, Bad s.n c)
    (hgood : ∀ c ∈ cs, c.ty = .equality → c.priority = .hard → c.expr.cols ≤ s.n ∧ c.brows = c.expr.rows) :
    (solve s qr oracle tol cs st).2 = .error .qpError ∧ (solve s qr oracle tol cs st).1.vars = st.vars := by
  have hub : equalitiesUB s.n cs = false := by
    unfold equalitiesUB
    rw [List.any_eq_false]
    intro c hc
    cases h1 : c.ty <;> cases h2 : c.priority <;> simp [Constr.hardEq, h1, h2]
    exact hgood c hc h1 h2
  have hA : assemble s qr cs = .error .qpError := by
    unfold assemble
    rw [if_neg (by rw [hub]; exact Bool.false_ne_true)]
    simp only
    split
    · rfl
    · rw [check_error s.n cs hbad]
  unfold solve
  simp only [hA]
  exact ⟨trivial, trivial⟩

/-- Everything `solve` raises is a `QPError`, except for out of range hard
equalities and the dimension mismatch of C19. -/
theorem C18_only_qp_error (s : Settings K) (qr : Nat → EqSt K → QR K) (oracle : QP K → QPResult K) (tol : K)
    (cs : List (Constr K)) (st : PState K) (e : Err) (h : (solve s qr oracle tol cs st).2 = .error e) :
    e = .qpError ∨ (e = .ub ∧ (equalitiesUB s.n cs = true ∨ ∃ qp, assemble s qr cs = .ok qp ∧ qp.dimMismatch = true)) := by
  unfold solve at h
  simp only at h
  cases hA : assemble s qr cs with
  | error e' =>
    rw [hA] at h
    simp only [Except.error.injEq] at h
    subst h
    unfold assemble at hA
    split at hA
    · rename_i hu
      cases hA
      exact .inr ⟨rfl, .inl hu⟩
    · simp only at hA
      split at hA
      · cases hA; exact .inl rfl
      · split at hA
        · rename_i e'' he
          cases hA
          left
          by_cases hb : ∃ c ∈ cs, Bad s.n c
          · rw [check_error s.n cs hb] at he; cases he; rfl
          · exfalso
            have : ∀ l : List (Constr K), (∀ c ∈ l, ¬ Bad s.n c) → ∃ u, l.mapM (checkConstr s.n) = .ok u := by
              intro l
              induction l with
              | nil => intro _; exact ⟨[], rfl⟩
              | cons a l ih =>
                intro hl
                have ha := hl a (by simp)
                obtain ⟨u, hu⟩ := ih fun c hc => hl c (by simp [hc])
                have h1 : checkConstr s.n a = .ok () := by
                  unfold checkConstr
                  unfold Bad at ha
                  rw [if_neg (by omega), if_neg (by omega), if_neg (by omega)]
                exact ⟨() :: u, by rw [List.mapM_cons, h1, hu]; rfl⟩
            obtain ⟨u, hu⟩ := this cs fun c hc hbad => hb ⟨c, hc, hbad⟩
            rw [hu] at he; cases he
        · cases hA
  | ok qp =>
    rw [hA] at h
    simp only at h
    split at h
    · rename_i hd
      cases h
      exact .inr ⟨rfl, .inr ⟨qp, rfl, hd⟩⟩
    · split at h
      · cases h; exact .inl rfl
      · split at h
        · cases h; exact .inl rfl
        · split at h
          · cases h; exact .inl rfl
          · cases h

/-! ## C19 -/

/-- **C19, partial.** Full statement: whenever assembly succeeds, the equality
matrix has as many columns as the objective. It holds when equalities are
rewritten, or there is no hard equality row, or there is no soft inequality row.
Missing case: `C19_refuted`. -/
theorem C19_dimensions_partial (s : Settings K) (qr : Nat → EqSt K → QR K) (cs : List (Constr K)) (qp : QP K)
    (h : assemble s qr cs = .ok qp)
    (hc : s.rewriteEqualities = true ∨ (∀ c ∈ cs, ¬ (c.ty = .equality ∧ c.priority = .hard)) ∨
      (∀ c ∈ cs, ¬ (c.ty = .inequality ∧ c.priority = .soft))) :
    qp.dimMismatch = false := by
  have A := assembled_of_ok h
  unfold QP.dimMismatch
  rw [A.nEq, A.eqCols, A.slack, A.free, A.red]
  by_cases hr : (s.rewriteEqualities && decide (0 < nEqualities cs)) = true
  · simp [hr]
  · simp only [if_neg hr]
    rcases hc with hc | hc | hc
    · have : nEqualities cs = 0 := by simpa [hc] using hr
      simp [this]
    · have : nEqualities cs = 0 := by
        unfold nEqualities
        apply List.sum_eq_zero
        intro x hx
        obtain ⟨c, hcm, rfl⟩ := List.mem_map.1 hx
        rw [if_neg]
        have := hc c hcm
        simpa [Constr.hardEq] using this
      simp [this]
    · have : nSlack cs = 0 := by
        unfold nSlack
        apply List.sum_eq_zero
        intro x hx
        obtain ⟨c, hcm, rfl⟩ := List.mem_map.1 hx
        rw [if_neg]
        have := hc c hcm
        simpa [Constr.softIneq] using this
      simp [this]

/-- The inequality matrix always has the columns of the objective; and every hard
inequality's columns fit in it. -/
theorem C19_inequality_columns (s : Settings K) (qr : Nat → EqSt K → QR K) (cs : List (Constr K)) (qp : QP K)
    (h : assemble s qr cs = .ok qp) :
    ∀ c ∈ cs, (reduceExpr s.n qp.red c.expr).cols ≤ qp.free + qp.slack :=
  fun c hc => le_trans ((assembled_of_ok h).cols_le c hc) (Nat.le_add_right _ _)

end

/-! ## Concrete problems -/

/-- `QR` of the identity row. -/
def idQR : Nat → EqSt ℚ → QR ℚ := fun m _ =>
  ⟨m, fun i j => if i = j then 1 else 0, fun i j => if i = j then 1 else 0, id⟩

/-- `x0 == 3` (hard). -/
def demoEq : Constr ℚ := { expr := ⟨1, 1, fun _ _ => 1, fun _ => -3⟩, ty := .equality, priority := .hard, weight := 1 }
/-- `x0 + x1 >= 2` (hard). -/
def demoIneq : Constr ℚ := { expr := ⟨1, 2, fun _ _ => 1, fun _ => -2⟩, ty := .inequality, priority := .hard, weight := 1 }
/-- `x1 == 5` (soft, weight 2). -/
def demoSoftEq : Constr ℚ :=
  { expr := ⟨1, 2, fun _ j => if j = 1 then 1 else 0, fun _ => -5⟩, ty := .equality, priority := .soft, weight := 2 }
/-- `-x1 >= 0` (soft, weight 4). -/
def demoSoftIneq : Constr ℚ :=
  { expr := ⟨1, 2, fun _ j => if j = 1 then -1 else 0, fun _ => 0⟩, ty := .inequality, priority := .soft, weight := 4 }

def demo : List (Constr ℚ) := [demoSoftIneq, demoEq, demoIneq, demoSoftEq]

def demoSettings (rewr : Bool) : Settings ℚ := ⟨2, 1 / 10, false, rewr, 0⟩

/-- The hypotheses of C09, C13, C15 and C20 are met by a problem with all four
kinds of constraints. -/
example : QRContract (demoSettings true) idQR demo ∧ (∃ qp, assemble (demoSettings true) idQR demo = .ok qp) ∧
    (∀ c ∈ demo, c.priority = .soft → c.ty = .inequality → 0 ≤ c.weight) ∧
    HardSat demo (fun k => if k = 0 then 3 else 1) := by
  refine ⟨?_, ⟨_, rfl⟩, ?_, ?_⟩
  · have hm : nEqualities demo = 1 := by decide +kernel
    have hA : ∀ k, k < 2 → (equalities demo).A 0 k = if k = 0 then 1 else 0 := by
      intro k hk; interval_cases k <;> decide +kernel
    unfold QRContract
    rw [hm]
    intro _
    refine ⟨by decide, ?_, ?_, ?_, ?_, ?_, ?_, ?_⟩
    · intro i j hi hj
      have hi : i < 2 := hi
      have hj : j < 2 := hj
      interval_cases i <;> interval_cases j <;> decide +kernel
    · intro i j hi hj
      have hi : i < 2 := hi
      have hj : j < 2 := hj
      interval_cases i <;> interval_cases j <;> decide +kernel
    · intro i k hi hk
      have hk : k < 2 := hk
      interval_cases i <;> interval_cases k <;> decide +kernel
    · intro i j _ hij
      simp only [idQR]
      rw [if_neg (by omega)]
    · intro _ i _; simp [idQR]
    · intro i hi; exact hi
    · intro r hr; exact ⟨r, hr, rfl⟩
  · intro c hc
    simp only [demo, List.mem_cons, List.not_mem_nil, or_false] at hc
    rcases hc with rfl | rfl | rfl | rfl <;> decide +kernel
  · intro c hc
    simp only [demo, List.mem_cons, List.not_mem_nil, or_false] at hc
    rcases hc with rfl | rfl | rfl | rfl <;> intro hp <;>
      simp [demoSoftIneq, demoEq, demoIneq, demoSoftEq] at hp <;> intro i hi <;>
      (have hi : i < 1 := hi) <;> interval_cases i <;> decide +kernel

/-- An oracle returning `x1 = 0` with slack 0 and the hard inequality row active. -/
def demoOracle : QP ℚ → QPResult ℚ := fun _ => ⟨false, fun _ => 0, false, [1]⟩

/-- A successful solve: both branches of C16 and the hypothesis of C17 occur. -/
example :
    let r := solve (demoSettings true) idQR demoOracle (1 / 1000000) demo ⟨[⟨⟨0, 2⟩, 0, []⟩], []⟩
    r.2 = .ok () ∧ r.1.isActive = [true, true, true, true] ∧ r.1.vars.map (·.version) = [1] ∧
      r.1.vars.map (·.value) = [[3, 0]] := by
  intro r
  refine ⟨?_, ?_, ?_, ?_⟩ <;> decide +kernel

example :
    (solve (demoSettings true) idQR (fun _ => ⟨true, fun _ => 0, false, []⟩) (1 / 1000000) demo
      ⟨[⟨⟨0, 2⟩, 7, [1, 2]⟩], []⟩).2 = .error .qpError := by
  decide +kernel

/-- **C18, refuted.** One variable and the hard equality `x0 + x1 == 0` (two
columns): undefined behaviour instead of `QPError`. -/
theorem C18_refuted : ∃ (s : Settings ℚ) (cs : List (Constr ℚ)), (∃ c ∈ cs, Bad s.n c) ∧
    ∀ qr oracle tol st, (solve s qr oracle tol cs st).2 = .error .ub := by
  refine ⟨⟨1, 0, false, true, 0⟩,
    [{ expr := ⟨1, 2, fun _ _ => 1, fun _ => 0⟩, ty := .equality, priority := .hard, weight := 1 }],
    ⟨_, List.mem_singleton.2 rfl, .inl (by decide)⟩, fun qr oracle tol st => rfl⟩

/-- Hypotheses of the partial theorem: a soft equality that refers to a missing
variable. -/
example : (∃ c ∈ [{ demoSoftEq with expr := ⟨1, 9, fun _ _ => 1, fun _ => 0⟩ }], Bad 2 c) :=
  ⟨_, List.mem_singleton.2 rfl, .inl (by decide)⟩

/-- **C19, refuted.** Without rewriting, a hard equality together with a soft
inequality gives an equality matrix with `n` columns and an objective with
`n + slack` columns: `solve` runs into undefined behaviour. -/
theorem C19_refuted : ∃ (s : Settings ℚ) (cs : List (Constr ℚ)), (∀ c ∈ cs, ¬ Bad s.n c) ∧
    ∀ qr, (∃ qp, assemble s qr cs = .ok qp ∧ qp.dimMismatch = true) ∧
      ∀ oracle tol st, (solve s qr oracle tol cs st).2 = .error .ub := by
  refine ⟨demoSettings false, [demoEq, demoSoftIneq], ?_, fun qr => ⟨⟨_, rfl, by rfl⟩, fun oracle tol st => rfl⟩⟩
  intro c hc
  simp only [List.mem_cons, List.not_mem_nil, or_false] at hc
  rcases hc with rfl | rfl <;> unfold Bad <;> decide

end Verif.Problem
