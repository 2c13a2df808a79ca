/-
Helper lemmas about the dynamics solver model.
-/
import Verif.Kinematics.SolverLimits
import Verif.Dynamics.Solver

namespace Verif.Dynamics
open Finset Verif.Problem Verif.Kinematics

/-- Inversion of a successful `do` step. -/
theorem bind_ok {α β : Type} {x : Except Err α} {f : α → Except Err β} {b : β} (h : (x >>= f) = .ok b) :
    ∃ a, x = .ok a ∧ f a = .ok b := by
  cases x with
  | error e => cases h
  | ok a => exact ⟨a, rfl, h⟩

section
variable {K : Type} [Field K] [LinearOrder K] [IsStrictOrderedRing K]

theorem addVec_ok {e t : Expr K} {v : Vec K} (h : e.addVec v = .ok t) :
    v.size = e.rows ∧ t.rows = e.rows ∧ t.cols = e.cols ∧ ∀ x i, t.rowVal x i = e.rowVal x i + v.v i := by
  unfold Expr.addVec at h
  split at h
  · rename_i hs
    cases h
    refine ⟨hs, rfl, rfl, fun x i => ?_⟩
    simp only [Expr.rowVal]; ring
  · cases h

theorem subVec_ok {e t : Expr K} {v : Vec K} (h : e.subVec v = .ok t) :
    v.size = e.rows ∧ t.rows = e.rows ∧ t.cols = e.cols ∧ ∀ x i, t.rowVal x i = e.rowVal x i - v.v i := by
  unfold Expr.subVec at h
  split at h
  · rename_i hs
    cases h
    refine ⟨hs, rfl, rfl, fun x i => ?_⟩
    simp only [Expr.rowVal]; ring
  · cases h

theorem matMul_ok {M : Mat K} {e t : Expr K} (h : Expr.matMul M e = .ok t) :
    M.cols = e.rows ∧ t.rows = M.rows ∧ t.cols = e.cols ∧
      ∀ x i, t.rowVal x i = ∑ k ∈ range e.rows, M.m i k * e.rowVal x k := by
  unfold Expr.matMul at h
  split at h
  · rename_i hs
    cases h
    exact ⟨hs, rfl, rfl, fun x i => Expr.rowVal_matMulMain M e x i⟩
  · cases h

theorem slice_ok {e t : Expr K} {start rows : Nat} (h : e.slice (start : Int) (rows : Int) = .ok t) :
    start + rows ≤ e.rows ∧ t.rows = rows ∧ t.cols = e.cols ∧ ∀ x i, t.rowVal x i = e.rowVal x (start + i) := by
  unfold Expr.slice at h
  simp only at h
  rw [if_neg (by omega : ¬ ((rows : Int) < 0))] at h
  split at h
  · rename_i hs
    cases h
    refine ⟨by omega, by simp, rfl, fun x i => ?_⟩
    simp [Expr.rowVal]
  · cases h

theorem slice_rest_ok {e t : Expr K} {start : Nat} (h : e.slice (start : Int) (-1) = .ok t) :
    start ≤ e.rows ∧ t.rows = e.rows - start ∧ t.cols = e.cols ∧ ∀ x i, t.rowVal x i = e.rowVal x (start + i) := by
  unfold Expr.slice at h
  simp only at h
  rw [if_pos (by omega : ((-1 : Int) < 0))] at h
  split at h
  · rename_i hs
    cases h
    refine ⟨by omega, by show ((e.rows : Int) - start).toNat = _; omega, rfl, fun x i => ?_⟩
    simp [Expr.rowVal]
  · cases h

theorem qddExpr_eq (n : Nat) : ((⟨0, n⟩ : Var).expr (-1) (-1) : Except Err (Expr K)) =
    .ok ⟨n, n, fun k j => if j = k then 1 else 0, fun _ => 0⟩ := by
  rw [var_expr_all ⟨0, n⟩ (by simp)]
  simp

theorem qddExpr_rowVal (n : Nat) (x : Nat → K) (i : Nat) (h : i < n) :
    (⟨n, n, fun k j => if j = k then 1 else 0, fun _ => 0⟩ : Expr K).rowVal x i = x i := by
  simp only [Expr.rowVal, add_zero]
  exact sum_pick _ _ h x

/-- The bias term added to `tau`. -/
def bias (r : DynRobot K) (s : DState K) (i : Nat) : K := if s.gravityOnly then r.gravity s.robot i else r.nle s.robot i

/-- The extra force added to `tau`. -/
def extra (s : DState K) (i : Nat) : K := match s.extraForce with | some f => f.v i | none => 0

theorem bareTau_spec (r : DynRobot K) (s : DState K) (t : Expr K)
    (h : bareTau r s ⟨r.nv, r.nv, fun k j => if j = k then 1 else 0, fun _ => 0⟩ = .ok t) :
    t.rows = r.nv ∧ t.cols = r.nv ∧ ∀ x i, t.rowVal x i =
      (∑ j ∈ range r.nv, r.mass s.robot i j * x j) + s.damping * s.robot.qd i + bias r s i + extra s i := by
  unfold bareTau at h
  obtain ⟨m, h1, h⟩ := bind_ok h
  obtain ⟨t1, h2, h⟩ := bind_ok h
  obtain ⟨t2, h3, h⟩ := bind_ok h
  obtain ⟨a1, a2, a3, a4⟩ := matMul_ok h1
  obtain ⟨b1, b2, b3, b4⟩ := addVec_ok h2
  have hv : ∀ x i, ∑ k ∈ range r.nv, r.mass s.robot i k *
      (⟨r.nv, r.nv, fun k j => if j = k then 1 else 0, fun _ => 0⟩ : Expr K).rowVal x k =
      ∑ j ∈ range r.nv, r.mass s.robot i j * x j := by
    intro x i
    exact sum_congr rfl fun k hk => by rw [qddExpr_rowVal _ _ _ (mem_range.1 hk)]
  obtain ⟨c1, c2, c3, c4⟩ := addVec_ok h3
  have hc : t2.rows = r.nv ∧ t2.cols = r.nv ∧ ∀ x i, t2.rowVal x i =
      (∑ j ∈ range r.nv, r.mass s.robot i j * x j) + s.damping * s.robot.qd i + bias r s i := by
    refine ⟨by rw [c2, b2, a2], by rw [c3, b3, a3], fun x i => ?_⟩
    rw [c4, b4, a4]
    simp only [hv, biasVec, bias]
    split <;> ring
  unfold addExtra at h
  unfold extra
  cases hf : s.extraForce with
  | none =>
    rw [hf] at h
    cases h
    refine ⟨hc.1, hc.2.1, fun x i => ?_⟩
    rw [hc.2.2]; ring
  | some f =>
    rw [hf] at h
    obtain ⟨d1, d2, d3, d4⟩ := addVec_ok h
    refine ⟨by rw [d2, hc.1], by rw [d3, hc.2.1], fun x i => ?_⟩
    rw [d4, hc.2.2]

/-- The columns of the forces follow each other from `k` to `n`. -/
def Chain : Nat → List (Mat K × Expr K) → Nat → Prop
  | k, [], n => k = n
  | k, (J, f) :: rest, n => f.rows = J.rows ∧ (∀ l, f.b l = 0) ∧ (∀ x l, l < J.rows → f.rowVal x l = x (k + l)) ∧
      Chain (k + J.rows) rest n

theorem Chain.le {k n : Nat} {js : List (Mat K × Expr K)} (h : Chain k js n) : k ≤ n := by
  induction js generalizing k with
  | nil => exact le_of_eq h
  | cons p rest ih =>
    obtain ⟨J, f⟩ := p
    have := ih h.2.2.2
    omega

/-- Generalised force of the contacts. -/
def contactTerm (js : List (Mat K × Expr K)) (x : Nat → K) (i : Nat) : K :=
  (js.map fun p => ∑ k ∈ range p.1.rows, p.1.m k i * p.2.rowVal x k).sum

theorem sum_window (n k m : Nat) (h : k + m ≤ n) (a x : Nat → K) (c : Nat → K) (h0 : ∀ j, k ≤ j → a j = 0) :
    ∑ j ∈ range n, (if k ≤ j ∧ j < k + m then c (j - k) else a j) * x j =
      (∑ j ∈ range n, a j * x j) + ∑ l ∈ range m, c l * x (k + l) := by
  have h1 : ∀ j ∈ range n, (if k ≤ j ∧ j < k + m then c (j - k) else a j) * x j =
      a j * x j + (if k ≤ j ∧ j < k + m then c (j - k) * x j else 0) := by
    intro j _
    by_cases hj : k ≤ j ∧ j < k + m
    · rw [if_pos hj, if_pos hj, h0 j hj.1]; ring
    · rw [if_neg hj, if_neg hj]; ring
  rw [sum_congr rfl h1, sum_add_distrib]
  congr 1
  have h2 : ∑ l ∈ range m, c l * x (k + l) = ∑ j ∈ (range m).map (addLeftEmbedding k),
      (if k ≤ j ∧ j < k + m then c (j - k) * x j else 0) := by
    rw [sum_map]
    refine sum_congr rfl fun l hl => ?_
    have := mem_range.1 hl
    simp only [addLeftEmbedding_apply]
    rw [if_pos ⟨by omega, by omega⟩]
    simp
  rw [h2]
  symm
  apply sum_subset
  · intro j hj
    simp only [mem_map, mem_range, addLeftEmbedding_apply] at hj
    obtain ⟨l, hl, rfl⟩ := hj
    exact mem_range.2 (by omega)
  · intro j _ hj
    refine if_neg fun hc => hj ?_
    simp only [mem_map, mem_range, addLeftEmbedding_apply]
    exact ⟨j - k, by omega, by omega⟩

theorem writeContacts_spec (N : Nat) (js : List (Mat K × Expr K)) : ∀ (k n : Nat) (tau t : Expr K),
    Chain k js n → n ≤ tau.cols → (∀ i j, k ≤ j → tau.A i j = 0) → writeContacts N k tau js = .ok t →
    t.rows = tau.rows ∧ t.cols = tau.cols ∧ ∀ x i, t.rowVal x i = tau.rowVal x i - contactTerm js x i := by
  induction js with
  | nil =>
    intro k n tau t _ _ _ h
    cases h
    exact ⟨rfl, rfl, fun x i => by simp [contactTerm]⟩
  | cons p rest ih =>
    obtain ⟨J, f⟩ := p
    intro k n tau t hc hn h0 h
    obtain ⟨c1, c2, c3, c4⟩ := hc
    unfold writeContacts at h
    split at h
    · rename_i hg
      have hz : ∀ i j, k + J.rows ≤ j → (if k ≤ j ∧ j < k + J.rows then -(J.m (j - k) i) else tau.A i j) = 0 := by
        intro i j hj
        rw [if_neg (by omega)]
        exact h0 i j (by omega)
      obtain ⟨e1, e2, e3⟩ := ih (k + J.rows) n { tau with
          A := fun i j => if k ≤ j ∧ j < k + J.rows then -(J.m (j - k) i) else tau.A i j
          b := fun i => tau.b i - ∑ l ∈ range J.rows, J.m l i * f.b l } t c4 hn hz h
      refine ⟨e1, e2, fun x i => ?_⟩
      rw [e3]
      simp only [contactTerm, List.map_cons, List.sum_cons]
      have hw := sum_window tau.cols k J.rows hg.2.1 (tau.A i) x (fun l => -(J.m l i)) (h0 i)
      have hs : ∑ l ∈ range J.rows, J.m l i * f.rowVal x l = ∑ l ∈ range J.rows, J.m l i * x (k + l) :=
        sum_congr rfl fun l hl => by rw [c3 x l (mem_range.1 hl)]
      have hb : ∑ l ∈ range J.rows, J.m l i * f.b l = 0 := sum_eq_zero fun l _ => by rw [c2, mul_zero]
      rw [hs]
      simp only [Expr.rowVal, hw, hb]
      have hneg : ∑ l ∈ range J.rows, -(J.m l i) * x (k + l) = -∑ l ∈ range J.rows, J.m l i * x (k + l) := by
        rw [← sum_neg_distrib]; exact sum_congr rfl fun l _ => by ring
      rw [hneg]
      ring
    · cases h

theorem fullTau_spec (N n : Nat) (tau t : Expr K) (js : List (Mat K × Expr K)) (hc : Chain N js n)
    (hcols : tau.cols = N) (h : fullTau N n tau js = .ok t) :
    t.rows = tau.rows ∧ t.cols = n ∧ ∀ x i, t.rowVal x i = tau.rowVal x i - contactTerm js x i := by
  unfold fullTau at h
  split at h
  · rename_i hle
    obtain ⟨h1, h2, h3⟩ := writeContacts_spec N js N n _ t hc (le_refl _)
      (by intro i j hj; show (if j < tau.cols then tau.A i j else 0) = 0; rw [if_neg (by omega)]) h
    refine ⟨h1, h2, fun x i => ?_⟩
    rw [h3]
    congr 1
    simp only [Expr.rowVal]
    rw [sum_pad tau.cols n hle (tau.A i) x]
  · cases h

/-- What the loop over the contacts builds. -/
theorem addContacts_spec (N : Nat) (robot : RState K) (contacts : List (Contact K)) : ∀ (k n : Nat)
    (js : List (Mat K × Expr K)) (cs : List (Constr K)), addContacts N robot k contacts = .ok (n, js, cs) →
    Chain k js n ∧ List.Forall₂ (fun c p => c.update N robot = .ok p.1 ∧ p.2.rows = p.1.rows ∧ p.2.cols ≤ n ∧ 
      (0 < p.1.rows → 0 < p.2.cols) ∧ ∃ l, c.constraints p.2 = .ok l ∧ ∀ a ∈ l, a ∈ cs)
      (contacts.filter (·.active)) js := by
  induction contacts with
  | nil =>
    intro k n js cs h
    cases h
    exact ⟨rfl, .nil⟩
  | cons c rest ih =>
    intro k n js cs h
    unfold addContacts at h
    by_cases ha : c.active = true
    · rw [if_pos ha] at h
      obtain ⟨J, h1, h⟩ := bind_ok h
      obtain ⟨f, h2, h⟩ := bind_ok h
      obtain ⟨l, h3, h⟩ := bind_ok h
      obtain ⟨⟨n', js', l'⟩, h4, h⟩ := bind_ok h
      cases h
      obtain ⟨i1, i2⟩ := ih _ _ _ _ h4
      rw [var_expr_all ⟨k, k + J.rows⟩ (by simp)] at h2
      have hf : f = ⟨J.rows, k + J.rows, fun a j => if j = k + a then 1 else 0, fun _ => 0⟩ := by
        cases h2
        simp
      have hrow : ∀ x l, l < J.rows → f.rowVal x l = x (k + l) := by
        intro x l hl
        rw [hf]
        simp only [Expr.rowVal, add_zero]
        exact sum_pick _ _ (by omega) x
      refine ⟨⟨by rw [hf], by rw [hf]; intro _; rfl, hrow, i1⟩, ?_⟩
      rw [List.filter_cons_of_pos ha]
      refine .cons ⟨h1, by rw [hf], by rw [hf]; exact i1.le, by rw [hf]; intro (h : 0 < J.rows); show 0 < k + J.rows; omega, l, h3,
        fun a ha => List.mem_append_left _ ha⟩ ?_
      refine i2.imp fun c p hp => ?_
      obtain ⟨p1, p2, p3, p3', l2, p4, p5⟩ := hp
      exact ⟨p1, p2, p3, p3', l2, p4, fun a ha => List.mem_append_right _ (p5 a ha)⟩
    · rw [if_neg ha] at h
      rw [List.filter_cons_of_neg ha]
      exact ih _ _ _ _ h

/-- What `build` puts together. -/
structure Parts (env : DEnv K) (r : DynRobot K) (tasks : List (DTask K)) (contacts : List (Contact K))
    (cons : List (DConstraint K)) (s : DState K) (p : Built K) : Prop where
  chain : Chain r.nv p.js p.n
  qdd : p.qdd = ⟨r.nv, r.nv, fun k j => if j = k then 1 else 0, fun _ => 0⟩
  six : 6 ≤ r.nv
  tauRows : p.tau.rows = r.nv
  tauCols : p.tau.cols = p.n
  tau : ∀ x i, p.tau.rowVal x i = (∑ j ∈ range r.nv, r.mass s.robot i j * x j) + s.damping * s.robot.qd i +
    bias r s i + extra s i - contactTerm p.js x i
  contactsOK : List.Forall₂ (fun c q => c.update r.nv s.robot = .ok q.1 ∧ q.2.rows = q.1.rows ∧ q.2.cols ≤ p.n ∧
      (0 < q.1.rows → 0 < q.2.cols) ∧ ∃ l, c.constraints q.2 = .ok l ∧ ∀ a ∈ l, a ∈ p.cs) (contacts.filter (·.active)) p.js
  parts : ∃ cm cc cl mats ct cu cf c, p.cs = cm ++ cc ++ cl ++ ct.flatten ++ cu.flatten ++ cf ++ [c] ∧
    addIf s.maskedFbase (zeroConstraint ((⟨0, r.nv⟩ : Var).expr 0 6)) = .ok cm ∧
    addContacts r.nv s.robot r.nv contacts = .ok (p.n, p.js, cc) ∧
    limitConstraints env.sqrt r s p.n p.tau = .ok cl ∧
    tasks.mapM (fun t => t.update s.robot) = .ok mats ∧
    (tasks.zip mats).mapM (fun q => dtaskConstraint p.tau q.1 q.2) = .ok ct ∧
    cons.mapM (fun c => c.add s p.tau) = .ok cu ∧
    addIf (!s.maskedFbase) (zeroConstraint (p.tau.slice 0 6)) = .ok cf ∧
    ∃ e k, p.tau.slice 6 (-1) = .ok e ∧ e.eqDouble 0 = .ok k ∧ c = k.configureP .soft s.torqueCost

theorem build_spec (env : DEnv K) (r : DynRobot K) (tasks : List (DTask K)) (contacts : List (Contact K))
    (cons : List (DConstraint K)) (s : DState K) (p : Built K) (h : build env r tasks contacts cons s = .ok p) :
    Parts env r tasks contacts cons s p := by
  unfold build at h
  simp only at h
  obtain ⟨qdd, h1, h⟩ := bind_ok h
  obtain ⟨cm, h2, h⟩ := bind_ok h
  obtain ⟨mats, h3, h⟩ := bind_ok h
  obtain ⟨tau0, h4, h⟩ := bind_ok h
  obtain ⟨⟨n, js, cc⟩, h5, h⟩ := bind_ok h
  obtain ⟨tau, h6, h⟩ := bind_ok h
  obtain ⟨cl, h7, h⟩ := bind_ok h
  obtain ⟨ct, h8, h⟩ := bind_ok h
  obtain ⟨cu, h9, h⟩ := bind_ok h
  obtain ⟨cf, h10, h⟩ := bind_ok h
  obtain ⟨e, h11, h⟩ := bind_ok h
  obtain ⟨k, h12, h⟩ := bind_ok h
  cases h
  rw [qddExpr_eq] at h1
  cases h1
  obtain ⟨hch, hfa⟩ := addContacts_spec _ _ _ _ _ _ _ h5
  obtain ⟨t1, t2, t3⟩ := bareTau_spec r s tau0 h4
  obtain ⟨f1, f2, f3⟩ := fullTau_spec _ _ _ _ _ hch t2 h6
  obtain ⟨s1, -⟩ := slice_rest_ok (start := 6) h11
  refine ⟨hch, rfl, by rw [f1, t1] at s1; exact s1, by rw [f1, t1], f2, fun x i => by rw [f3, t3], ?_, ?_⟩
  · refine hfa.imp fun c q hq => ?_
    obtain ⟨q1, q2, q3, q3', l, q4, q5⟩ := hq
    refine ⟨q1, q2, q3, q3', l, q4, fun a ha => ?_⟩
    simp only [List.mem_append]
    exact .inl (.inl (.inl (.inl (.inl (.inr (q5 a ha))))))
  · exact ⟨cm, cc, cl, mats, ct, cu, cf, _, rfl, h2, h5, h7, h3, h8, h9, h10, e, k, h11, h12, rfl⟩

/-- What a `solve` that returns has done: either nothing (`success = false`), or it has read the result from a
point satisfying the hard constraints. -/
theorem solve_cases (env : DEnv K) (r : DynRobot K) (tasks : List (DTask K)) (contacts : List (Contact K))
    (cons : List (DConstraint K)) (integrate : Bool) (s : DState K) (rs : RState K) (res : Except Err (Result K))
    (h : solve env r tasks contacts cons integrate s = (rs, res)) :
    (rs = s.robot ∧ ∀ k, res = .ok k → k.success = false) ∨
    ∃ p x, build env r tasks contacts cons s = .ok p ∧ res = .ok (readResult p.qdd p.js p.tau x) ∧
      (integrate = true → s.dt ≠ 0) ∧
      rs = (if integrate then applyQdd r.toRobot s (p.qdd.rowVal x) else s.robot) ∧
      (env.toQPEnv.Sound → HardSat p.cs x) ∧
      (env.toQPEnv.Sound → env.toQPEnv.Optimal → (∀ c ∈ p.cs, c.priority = .soft → c.ty = .inequality → 0 ≤ c.weight) →
        ∀ y, HardSat p.cs y → specCost p.n env.regularization p.cs x ≤ specCost p.n env.regularization p.cs y) := by
  unfold solve at h
  cases hb : build env r tasks contacts cons s with
  | error e =>
    rw [hb] at h
    cases h
    exact .inl ⟨rfl, fun k hk => by cases hk⟩
  | ok p =>
    rw [hb] at h
    simp only at h
    rcases C16_solve_effect (env.settings p.n) env.qr env.oracle env.tol p.cs ⟨[], []⟩ with
      ⟨e, h1, -⟩ | ⟨h1, qp, hqp, hinf, hnan, -⟩
    · rw [h1] at h
      left
      cases e <;> simp only at h <;> cases h <;> first
        | exact ⟨rfl, fun k hk => by cases hk; rfl⟩
        | exact ⟨rfl, fun k hk => by cases hk⟩
    · rw [h1] at h
      simp only at h
      have hx : solutionX env.toQPEnv p.n p.cs = qp.recover p.n (env.oracle qp).x := by
        unfold solutionX; rw [hqp]
      have hsat : env.toQPEnv.Sound → HardSat p.cs (qp.recover p.n (env.oracle qp).x) := by
        intro hS
        obtain ⟨hqr, hfeas⟩ := hS _ _ _ hqp
        exact (C15_equalities_lossless _ _ _ _ hqr hqp _).1 ⟨_, hfeas hinf hnan, fun _ _ => rfl⟩
      rw [hx] at h
      have hopt : env.toQPEnv.Sound → env.toQPEnv.Optimal →
          (∀ c ∈ p.cs, c.priority = .soft → c.ty = .inequality → 0 ≤ c.weight) →
          ∀ y, HardSat p.cs y → specCost p.n env.regularization p.cs (qp.recover p.n (env.oracle qp).x) ≤
            specCost p.n env.regularization p.cs y := by
        intro hS hO hw
        obtain ⟨hqr, hfeas⟩ := hS _ _ _ hqp
        exact (C15_optimum _ _ _ _ hqr rfl hqp hw _ (hfeas hinf hnan) (hO _ _ _ hqp hinf hnan)).2
      cases integrate with
      | false =>
        simp only [Bool.false_eq_true, if_false] at h
        cases h
        exact .inr ⟨p, _, rfl, rfl, by simp, rfl, hsat, hopt⟩
      | true =>
        rw [if_pos rfl] at h
        by_cases hd : s.dt = 0
        · rw [if_pos hd] at h
          cases h
          exact .inl ⟨rfl, fun k hk => by cases hk⟩
        · rw [if_neg hd] at h
          cases h
          exact .inr ⟨p, _, rfl, rfl, fun _ => hd, rfl, hsat, hopt⟩

end
end Verif.Dynamics
