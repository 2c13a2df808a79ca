/-
Property C163: the order in which the constraints were added to a problem does not change its solution.
-/
import Verif.Problem.ConvexProps
import Verif.Problem.ExactQR

namespace Verif.Problem
open Finset

/-! ## The rows of the hard equalities -/

/-- Number of rows that a constraint adds to the stacked equalities. -/
def eqRowsOf (c : Constr ℝ) : Nat := if c.hardEq then c.expr.rows else 0

theorem nEqualities_cons (c : Constr ℝ) (l : List (Constr ℝ)) : nEqualities (c :: l) = eqRowsOf c + nEqualities l := by
  simp [nEqualities, eqRowsOf]

theorem equalities_cons_head (c : Constr ℝ) (l : List (Constr ℝ)) (i : Nat) (hi : i < eqRowsOf c) (k : Nat) :
    (equalities (c :: l)).A i k = c.expr.pad i k := by
  unfold eqRowsOf at hi
  split at hi
  · rename_i hc
    obtain ⟨-, -, i3, -⟩ := equalities_inv (c :: l)
    have := (i3 0 c rfl hc i hi).1 k
    simpa [nEqualities] using this
  · omega

theorem equalities_cons_tail (c : Constr ℝ) (l : List (Constr ℝ)) (i : Nat) (hi : i < nEqualities l) (k : Nat) :
    (equalities (c :: l)).A (eqRowsOf c + i) k = (equalities l).A i k := by
  obtain ⟨-, -, i3, -⟩ := equalities_inv (c :: l)
  obtain ⟨-, -, j3, j4⟩ := equalities_inv l
  obtain ⟨p, d, j, h1, h2, h3, rfl⟩ := j4 i hi
  have a := (i3 (p + 1) d (by simpa using h1) h2 j h3).1 k
  rw [List.take_succ_cons, nEqualities_cons, Nat.add_assoc] at a
  rw [a, (j3 p d h1 h2 j h3).1 k]

/-- A combination of the rows of the hard equalities: one vector of coefficients per constraint. -/
noncomputable def comb (ps : List (Constr ℝ × (Nat → ℝ))) (k : Nat) : ℝ :=
  (ps.map fun p => ∑ i ∈ range (eqRowsOf p.1), p.2 i * p.1.expr.pad i k).sum

/-- The coefficients of a combination, stacked. -/
def stackW : List (Constr ℝ × (Nat → ℝ)) → Nat → ℝ
  | [], _ => 0
  | p :: l, i => if i < eqRowsOf p.1 then p.2 i else stackW l (i - eqRowsOf p.1)

/-- The stacked coefficients, by constraint. -/
def splitW : List (Constr ℝ) → (Nat → ℝ) → List (Constr ℝ × (Nat → ℝ))
  | [], _ => []
  | c :: l, w => (c, w) :: splitW l fun i => w (eqRowsOf c + i)

theorem splitW_fst : ∀ (cs : List (Constr ℝ)) (w : Nat → ℝ), (splitW cs w).map Prod.fst = cs
  | [], _ => rfl
  | c :: l, w => by rw [splitW, List.map_cons, splitW_fst l]

theorem rows_sum_cons (c : Constr ℝ) (l : List (Constr ℝ)) (w : Nat → ℝ) (k : Nat) :
    ∑ i ∈ range (nEqualities (c :: l)), w i * (equalities (c :: l)).A i k =
      ∑ i ∈ range (eqRowsOf c), w i * c.expr.pad i k + ∑ i ∈ range (nEqualities l), w (eqRowsOf c + i) * (equalities l).A i k := by
  rw [nEqualities_cons, Finset.sum_range_add]
  congr 1
  · exact sum_congr rfl fun i hi => by rw [equalities_cons_head c l i (mem_range.1 hi) k]
  · exact sum_congr rfl fun i hi => by rw [equalities_cons_tail c l i (mem_range.1 hi) k]

theorem splitW_comb : ∀ (cs : List (Constr ℝ)) (w : Nat → ℝ) (k : Nat),
    comb (splitW cs w) k = ∑ i ∈ range (nEqualities cs), w i * (equalities cs).A i k
  | [], w, k => by simp [splitW, comb, nEqualities]
  | c :: l, w, k => by
    rw [rows_sum_cons]
    have := splitW_comb l (fun i => w (eqRowsOf c + i)) k
    rw [← this]
    simp [splitW, comb]

theorem stackW_comb : ∀ (ps : List (Constr ℝ × (Nat → ℝ))) (k : Nat),
    ∑ i ∈ range (nEqualities (ps.map Prod.fst)), stackW ps i * (equalities (ps.map Prod.fst)).A i k = comb ps k
  | [], k => by simp [comb, nEqualities]
  | p :: l, k => by
    rw [List.map_cons, rows_sum_cons]
    have := stackW_comb l k
    unfold comb at this ⊢
    rw [List.map_cons, List.sum_cons, ← this]
    congr 1
    · exact sum_congr rfl fun i hi => by rw [stackW, if_pos (mem_range.1 hi)]
    · refine sum_congr rfl fun i _ => ?_
      rw [stackW, if_neg (by omega), Nat.add_sub_cancel_left]

theorem splitW_zero : ∀ (cs : List (Constr ℝ)) (w : Nat → ℝ), (∀ p ∈ splitW cs w, ∀ i, i < eqRowsOf p.1 → p.2 i = 0) →
    ∀ i, i < nEqualities cs → w i = 0
  | [], w, _, i, hi => by simp [nEqualities] at hi
  | c :: l, w, h, i, hi => by
    rw [splitW] at h
    by_cases h1 : i < eqRowsOf c
    · exact h _ List.mem_cons_self i h1
    · have := splitW_zero l (fun i => w (eqRowsOf c + i)) (fun p hp => h p (List.mem_cons_of_mem _ hp)) (i - eqRowsOf c)
        (by rw [nEqualities_cons] at hi; omega)
      simpa [show eqRowsOf c + (i - eqRowsOf c) = i by omega] using this

theorem stackW_zero : ∀ (ps : List (Constr ℝ × (Nat → ℝ))), (∀ i, i < nEqualities (ps.map Prod.fst) → stackW ps i = 0) →
    ∀ p ∈ ps, ∀ i, i < eqRowsOf p.1 → p.2 i = 0
  | [], _, p, hp, _, _ => by cases hp
  | q :: l, h, p, hp, i, hi => by
    rw [List.map_cons, nEqualities_cons] at h
    rcases List.mem_cons.1 hp with rfl | hp
    · have := h i (by omega)
      rwa [stackW, if_pos hi] at this
    · refine stackW_zero l (fun j hj => ?_) p hp i hi
      have := h (eqRowsOf q.1 + j) (by omega)
      rwa [stackW, if_neg (by omega), Nat.add_sub_cancel_left] at this

/-- The rows of the hard equalities are independent, without stacking them. -/
theorem rowsIndep_iff (n : Nat) (cs : List (Constr ℝ)) : RowsIndep n (nEqualities cs) (equalities cs).A ↔
    ∀ ps : List (Constr ℝ × (Nat → ℝ)), ps.map Prod.fst = cs → (∀ k, k < n → comb ps k = 0) →
      ∀ p ∈ ps, ∀ i, i < eqRowsOf p.1 → p.2 i = 0 := by
  constructor
  · rintro h ps rfl hc
    refine stackW_zero ps (h _ fun k hk => ?_)
    rw [stackW_comb, hc k hk]
  · intro h w hw
    refine splitW_zero cs w (h _ (splitW_fst cs w) fun k hk => ?_)
    rw [splitW_comb, hw k hk]

theorem perm_lift {α β : Type} (f : α → β) {l l' : List β} (h : l.Perm l') : ∀ ps' : List α, ps'.map f = l' →
    ∃ ps : List α, ps.Perm ps' ∧ ps.map f = l := by
  induction h with
  | nil => intro ps' h; exact ⟨ps', List.Perm.refl _, h⟩
  | cons x _ ih =>
    intro ps' h
    cases ps' with
    | nil => cases h
    | cons p t =>
      obtain ⟨h1, h2⟩ := List.cons.inj h
      obtain ⟨ps, e1, e2⟩ := ih t h2
      exact ⟨p :: ps, e1.cons p, by rw [List.map_cons, e2]; exact congrArg (· :: _) h1⟩
  | swap x y l =>
    intro ps' h
    match ps', h with
    | p :: q :: t, h =>
      simp only [List.map_cons, List.cons.injEq] at h
      obtain ⟨h1, h2, h3⟩ := h
      exact ⟨q :: p :: t, List.Perm.swap _ _ _, by simp [h1, h2, h3]⟩
  | trans _ _ ih1 ih2 =>
    intro ps' h
    obtain ⟨ps, e1, e2⟩ := ih2 ps' h
    obtain ⟨ps2, e3, e4⟩ := ih1 ps e2
    exact ⟨ps2, e3.trans e1, e4⟩

theorem nEqualities_perm {cs cs' : List (Constr ℝ)} (h : cs.Perm cs') : nEqualities cs = nEqualities cs' := (h.map _).sum_eq

theorem rowsIndep_perm {n : Nat} {cs cs' : List (Constr ℝ)} (hp : cs.Perm cs')
    (h : RowsIndep n (nEqualities cs) (equalities cs).A) : RowsIndep n (nEqualities cs') (equalities cs').A := by
  rw [rowsIndep_iff] at h ⊢
  intro ps' he hc p hm
  obtain ⟨ps, e1, e2⟩ := perm_lift Prod.fst hp ps' he
  refine h ps e2 (fun k hk => ?_) p (e1.mem_iff.2 hm)
  rw [← hc k hk]
  exact (e1.map _).sum_eq

/-! ## Assembling -/

theorem mapM_check (n : Nat) (cs : List (Constr ℝ)) : cs.mapM (checkConstr n) =
    if (∀ c ∈ cs, checkConstr n c = .ok ()) then .ok (cs.map fun _ => ()) else .error .qpError := by
  induction cs with
  | nil => rfl
  | cons c l ih =>
    rw [List.mapM_cons, ih]
    have hc : checkConstr n c = .ok () ∨ checkConstr n c = .error .qpError := by
      unfold checkConstr
      split
      · exact .inr rfl
      · split
        · exact .inr rfl
        · split
          · exact .inr rfl
          · exact .inl rfl
    rcases hc with hc | hc
    · by_cases hl : ∀ c ∈ l, checkConstr n c = .ok ()
      · rw [if_pos hl, if_pos (by intro d hd; rcases List.mem_cons.1 hd with rfl | hd; exacts [hc, hl d hd]), hc]
        rfl
      · rw [if_neg hl, if_neg (fun h => hl fun d hd => h d (List.mem_cons_of_mem _ hd)), hc]
        rfl
    · have hno : ¬ ∀ d ∈ c :: l, checkConstr n d = .ok () := fun h => by
        have := h c List.mem_cons_self
        rw [hc] at this
        cases this
      rw [if_neg hno, hc]
      rfl

/-- How an assembly ends, without the QP. -/
noncomputable def assembleEnd (s : Settings ℝ) (qr : Nat → EqSt ℝ → QR ℝ) (cs : List (Constr ℝ)) : Except Err Unit := (assemble s qr cs).map fun _ => ()

theorem assembleEnd_eq (s : Settings ℝ) (qr : Nat → EqSt ℝ → QR ℝ) (l : List (Constr ℝ)) : assembleEnd s qr l = if equalitiesUB s.n l then .error .ub
    else if s.rewriteEqualities ∧ 0 < nEqualities l ∧ ¬ (qr (nEqualities l) (equalities l)).rank = nEqualities l then .error .qpError
    else if (∀ c ∈ l, checkConstr s.n c = .ok ()) then .ok () else .error .qpError := by
  unfold assembleEnd assemble
  split
  · rfl
  · simp only [mapM_check]
    by_cases hr : s.rewriteEqualities ∧ 0 < nEqualities l ∧ ¬ (qr (nEqualities l) (equalities l)).rank = nEqualities l
    · rw [if_pos (by simp [hr]), if_pos hr]
      rfl
    · rw [if_neg (by simpa [and_assoc] using hr), if_neg hr]
      by_cases hc : ∀ c ∈ l, checkConstr s.n c = .ok ()
      · simp only [if_pos hc]
        rfl
      · simp only [if_neg hc]
        rfl

/-- With an exact QR, an assembly ends the same way whatever the order of the constraints. -/
theorem assembleEnd_perm (s : Settings ℝ) (qr : Nat → EqSt ℝ → QR ℝ) (hqr : ExactQR qr)
    {cs cs' : List (Constr ℝ)} (hp : cs.Perm cs') : assembleEnd s qr cs' = assembleEnd s qr cs := by
  have h1 : equalitiesUB s.n cs' = equalitiesUB s.n cs := by
    unfold equalitiesUB
    exact (hp.symm.any_eq)
  have h2 := nEqualities_perm hp
  have h4 : (∀ c ∈ cs', checkConstr s.n c = .ok ()) ↔ ∀ c ∈ cs, checkConstr s.n c = .ok () :=
    ⟨fun h c hc => h c (hp.mem_iff.1 hc), fun h c hc => h c (hp.mem_iff.2 hc)⟩
  rw [assembleEnd_eq, assembleEnd_eq, h1]
  split
  · rfl
  · rename_i hub
    have hub : equalitiesUB s.n cs = false := by simpa using hub
    have q1 := hqr.equalities hub
    have q2 := hqr.equalities (h1.trans hub)
    have h3 : (qr (nEqualities cs') (equalities cs')).rank = nEqualities cs' ↔ (qr (nEqualities cs) (equalities cs)).rank = nEqualities cs :=
      ⟨fun h => q1.full (rowsIndep_perm hp.symm (q2.qr.indep h)), fun h => q2.full (rowsIndep_perm hp (q1.qr.indep h))⟩
    have e1 : (s.rewriteEqualities = true ∧ 0 < nEqualities cs' ∧ ¬ (qr (nEqualities cs') (equalities cs')).rank = nEqualities cs') ↔
        (s.rewriteEqualities = true ∧ 0 < nEqualities cs ∧ ¬ (qr (nEqualities cs) (equalities cs)).rank = nEqualities cs) := by
      rw [not_congr h3, h2]
    by_cases hr : s.rewriteEqualities = true ∧ 0 < nEqualities cs ∧ ¬ (qr (nEqualities cs) (equalities cs)).rank = nEqualities cs
    · rw [if_pos hr, if_pos (e1.2 hr)]
    · rw [if_neg hr, if_neg (fun h => hr (e1.1 h))]
      by_cases hc : ∀ c ∈ cs, checkConstr s.n c = .ok ()
      · rw [if_pos hc, if_pos (h4.2 hc)]
      · rw [if_neg hc, if_neg (fun h => hc (h4.1 h))]

/-! ## Solving -/

theorem hardSat_perm {cs cs' : List (Constr ℝ)} (hp : cs.Perm cs') (x : Nat → ℝ) : HardSat cs' x ↔ HardSat cs x :=
  ⟨fun H c hc => H c (hp.mem_iff.1 hc), fun H c hc => H c (hp.mem_iff.2 hc)⟩

/-- What `solve` stores when it succeeds. -/
theorem solve_point (s : Settings ℝ) (qr : Nat → EqSt ℝ → QR ℝ) (oracle : QP ℝ → QPResult ℝ) (tol : ℝ) (st : PState ℝ) (l : List (Constr ℝ))
    (q : QP ℝ) (hq : assemble s qr l = .ok q) (hok : (solve s qr oracle tol l st).2 = .ok ()) :
    (solve s qr oracle tol l st).1.vars = st.vars.map (updateVar (q.recover s.n (oracle q).x)) ∧ (oracle q).infeasible = false := by
  unfold solve at hok ⊢
  simp only [hq] at hok ⊢
  split at hok
  · cases hok
  · split at hok
    · cases hok
    · split at hok
      · cases hok
      · split at hok
        · cases hok
        · rename_i g1 g2 g3 g4
          simp only [if_neg g1, if_neg g2, if_neg g3, if_neg g4]
          exact ⟨trivial, by simpa using g2⟩

/-- The points found for two orders of the constraints agree on the variables. -/
theorem order_point (s : Settings ℝ) (hs : s.useSparsity = false) (hreg : 0 < s.regularization) (qr : Nat → EqSt ℝ → QR ℝ)
    (hqr : ExactQR qr) (oracle : QP ℝ → QPResult ℝ) (ho : ∀ qp, SolvesExactly qp (oracle qp))
    {cs cs' : List (Constr ℝ)} (hp : cs.Perm cs') (hw : ∀ c ∈ cs, c.softEq = true → 0 ≤ c.weight)
    (hw' : ∀ c ∈ cs, c.softIneq = true → 0 < c.weight) {qp qp' : QP ℝ} (h : assemble s qr cs = .ok qp) (h' : assemble s qr cs' = .ok qp')
    (i1 : (oracle qp).infeasible = false) (i2 : (oracle qp').infeasible = false) :
    ∀ k, k < s.n → qp'.recover s.n (oracle qp').x k = qp.recover s.n (oracle qp).x k := by
  have hQ := fun l qp => hqr.contract (s := s) (cs := l) (qp := qp)
  obtain ⟨-, f1, m1⟩ := (ho qp).2 i1
  obtain ⟨-, f2, m2⟩ := (ho qp').2 i2
  have hwi : ∀ c ∈ cs, c.priority = .soft → c.ty = .inequality → 0 ≤ c.weight := fun c hc h1 h2 =>
    (hw' c hc (by simp [Constr.softIneq, h1, h2])).le
  obtain ⟨s1, o1⟩ := C15_optimum s qr cs qp (hQ cs qp h) hs h hwi _ f1 m1
  obtain ⟨s2, o2⟩ := (C20_order_independence s qr cs cs' hp qp' (hQ cs' qp' h') hs h' hwi).2.2 _ f2 m2
  exact (C144_solution s qr cs qp (hQ cs qp h) hs h hreg hw hw' ⟨_, s1⟩).2 _ _ s2 o2 s1 o1

/-- **C163 (problem).** `use_sparsity` is off, the regularisation positive, the weights of the soft equalities not negative and those
of the soft inequalities positive; the QR factorisation and the QP solver are exact. Whatever the order in which the same constraints
were added, `solve` ends in the same way (success, or the same exception) and, when it succeeds, gives the variables the same values. -/
theorem C163_problem (s : Settings ℝ) (hs : s.useSparsity = false) (hreg : 0 < s.regularization) (qr : Nat → EqSt ℝ → QR ℝ)
    (hqr : ExactQR qr) (oracle : QP ℝ → QPResult ℝ) (ho : ∀ qp, SolvesExactly qp (oracle qp))
    (tol : ℝ) (ht : 0 ≤ tol) (cs cs' : List (Constr ℝ)) (hp : cs.Perm cs') (hw : ∀ c ∈ cs, c.softEq = true → 0 ≤ c.weight)
    (hw' : ∀ c ∈ cs, c.softIneq = true → 0 < c.weight) (st : PState ℝ) (hin : ∀ v ∈ st.vars, v.var.kStart + v.var.size ≤ s.n) :
    (solve s qr oracle tol cs' st).2 = (solve s qr oracle tol cs st).2 ∧
    (solve s qr oracle tol cs' st).1.vars = (solve s qr oracle tol cs st).1.vars := by
  have hend := assembleEnd_perm s qr hqr hp
  have hQ := fun l qp => hqr.contract (s := s) (cs := l) (qp := qp)
  cases h : assemble s qr cs with
  | error e =>
    have h' : assemble s qr cs' = .error e := by
      unfold assembleEnd at hend
      rw [h] at hend
      cases h'' : assemble s qr cs' with
      | ok qp => rw [h''] at hend; cases hend
      | error e' => rw [h''] at hend; injection hend with he; rw [he]
    unfold solve
    simp only [h, h', and_self]
  | ok qp =>
    obtain ⟨qp', h'⟩ : ∃ qp', assemble s qr cs' = .ok qp' := by
      unfold assembleEnd at hend
      rw [h] at hend
      cases h'' : assemble s qr cs' with
      | ok qp => exact ⟨qp, rfl⟩
      | error e' => rw [h''] at hend; cases hend
    by_cases hre : s.rewriteEqualities = true ∨ nEqualities cs = 0 ∨ nSlack cs = 0
    · have hre' : s.rewriteEqualities = true ∨ nEqualities cs' = 0 ∨ nSlack cs' = 0 := by
        rw [← nEqualities_perm hp, show nSlack cs' = nSlack cs from (hp.symm.map _).sum_eq]
        exact hre
      have v1 : ∀ c ∈ cs', c.softEq = true → 0 ≤ c.weight := fun c hc => hw c (hp.mem_iff.2 hc)
      have v2 : ∀ c ∈ cs', c.softIneq = true → 0 < c.weight := fun c hc => hw' c (hp.mem_iff.2 hc)
      obtain ⟨a1, a2, -⟩ := C144_solve_partial s qr cs qp (hQ cs qp h) hre h hreg hw hw' tol tol ht ht st hin oracle oracle (ho qp) (ho qp)
      obtain ⟨b1, b2, -⟩ := C144_solve_partial s qr cs' qp' (hQ cs' qp' h') hre' h' hreg v1 v2 tol tol ht ht st hin oracle oracle (ho qp') (ho qp')
      have hfe : (∃ x, HardSat cs' x) ↔ ∃ x, HardSat cs x := exists_congr (hardSat_perm hp)
      by_cases hx : ∃ x, HardSat cs x
      · have ok1 := a1.2 hx
        have ok2 := b1.2 (hfe.2 hx)
        refine ⟨by rw [ok1, ok2], ?_⟩
        obtain ⟨e1, i1⟩ := solve_point s qr oracle tol st cs qp h ok1
        obtain ⟨e2, i2⟩ := solve_point s qr oracle tol st cs' qp' h' ok2
        rw [e1, e2]
        have e := order_point s hs hreg qr hqr oracle ho hp hw hw' h h' i1 i2
        refine List.map_congr_left fun v hv => ?_
        have := hin v hv
        unfold updateVar
        congr 1
        refine List.map_congr_left fun k hk => e _ ?_
        have := List.mem_range.1 hk
        omega
      · have er1 := a2 hx
        have er2 := b2 (fun h => hx (hfe.1 h))
        refine ⟨by rw [er1, er2], ?_⟩
        have keep : ∀ (l : List (Constr ℝ)), (solve s qr oracle tol l st).2 = .error .qpError → (solve s qr oracle tol l st).1.vars = st.vars := by
          intro l hl
          unfold solve at hl ⊢
          cases hq : assemble s qr l with
          | error e => rfl
          | ok q =>
            simp only [hq] at hl ⊢
            split
            · rfl
            · split
              · rfl
              · split
                · rfl
                · split
                  · rfl
                  · rename_i g1 g2 g3 g4
                    simp only [if_neg g1, if_neg g2, if_neg g3, if_neg g4] at hl
                    cases hl
        rw [keep cs er1, keep cs' er2]
    · simp only [not_or] at hre
      obtain ⟨r1, r2, r3⟩ := hre
      have r1 : s.rewriteEqualities = false := by simpa using r1
      have n1 : nEqualities cs' = nEqualities cs := (nEqualities_perm hp).symm
      have n2 : nSlack cs' = nSlack cs := (hp.symm.map _).sum_eq
      have u : ∀ (l : List (Constr ℝ)) (q : QP ℝ), assemble s qr l = .ok q → 0 < nEqualities l → 0 < nSlack l →
          solve s qr oracle tol l st = ({ st with isActive := initActive l }, .error .ub) := by
        intro l q hq h1 h2
        have hd : q.dimMismatch = true := by
          have A := assembled_of_ok hq
          unfold QP.dimMismatch
          rw [A.nEq, A.eqCols, A.free, A.slack, A.red]
          simp [r1, h1]
          omega
        unfold solve
        simp only [hq, hd, if_true]
      rw [u cs qp h (by omega) (by omega), u cs' qp' h' (by omega) (by omega)]
      exact ⟨rfl, rfl⟩

open Classical in
/-- There is an exact QP solver. -/
theorem exact_solver_exists : ∃ oracle : QP ℝ → QPResult ℝ, ∀ qp, SolvesExactly qp (oracle qp) := by
  refine ⟨fun qp => if h : ∃ v, qp.Feasible v ∧ ∀ v', qp.Feasible v' → qp.cost v ≤ qp.cost v' then ⟨false, h.choose, false, []⟩
    else ⟨true, fun _ => 0, false, []⟩, fun qp => ?_⟩
  by_cases h : ∃ v, qp.Feasible v ∧ ∀ v', qp.Feasible v' → qp.cost v ≤ qp.cost v'
  · simp only [dif_pos h]
    exact ⟨⟨fun _ => h, fun _ => rfl⟩, fun _ => ⟨rfl, h.choose_spec⟩⟩
  · simp only [dif_neg h]
    exact ⟨⟨fun hf => (Bool.noConfusion hf), fun hh => absurd hh h⟩, fun hf => (Bool.noConfusion hf)⟩

end Verif.Problem
