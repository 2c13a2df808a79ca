/-
Properties C185, C186 and C187 for inverse dynamics: the weights of hard tasks and constraints have no effect, `solve` returns the motion of
least cost, and greater weights give smaller errors, torques and wrenches.
-/
import Verif.Dynamics.ConstrainedProps
import Verif.Dynamics.ContactWorkProps
import Verif.Problem.LeastProps

namespace Verif.Dynamics
open Finset Verif.Problem Verif.Kinematics

/-! ## The cost of a motion -/

/-- Specification: the number of values of the wrench of a contact. -/
def wrenchSize (N : Nat) (robot : RState ℝ) (c : Contact ℝ) : Nat :=
  match c.kind with
  | .point _ _ _ => 3
  | .planar _ _ _ _ => 6
  | .line _ _ _ _ _ => 5
  | .external _ _ => 6
  | .puppet => N
  | .task A => (A robot).rows

/-- Specification: the squared error of a task, on the accelerations or on the torques. -/
def dtaskError (robot : RState ℝ) (t : DTask ℝ) (y tau : Nat → ℝ) : ℝ :=
  match t.update robot with
  | .error _ => 0
  | .ok M => ∑ i ∈ range M.rows, ((∑ j ∈ range M.cols, M.A i j * (if t.tauTask then tau j else y j)) - M.b i) ^ 2

/-- Specification: what a task costs. -/
def dtaskCost (robot : RState ℝ) (t : DTask ℝ) (y tau : Nat → ℝ) : ℝ := if t.priority = .soft then t.weight * dtaskError robot t y tau else 0

/-- Specification: what the accelerations `y`, the torques `tau` and the wrenches `ws` of the active contacts cost: the regularisation on the
accelerations and on the wrenches, the soft tasks, the weights of the contacts and the torques of the joints. -/
noncomputable def motionCost (reg : ℝ) (r : DynRobot ℝ) (tasks : List (DTask ℝ)) (contacts : List (Contact ℝ)) (s : DState ℝ) (y tau : Nat → ℝ)
    (ws : List (Nat → ℝ)) : ℝ :=
  reg * ((∑ k ∈ range r.nv, y k ^ 2) +
    (((contacts.filter (·.active)).zip ws).map fun q => ∑ l ∈ range (wrenchSize r.nv s.robot q.1), q.2 l ^ 2).sum) +
  (tasks.map fun t => dtaskCost s.robot t y tau).sum +
  (((contacts.filter (·.active)).zip ws).map fun q => wrenchCost r.nv s.robot q.1 q.2).sum +
  s.torqueCost * ∑ i ∈ range (r.nv - 6), tau (6 + i) ^ 2

theorem update_size {N : Nat} {robot : RState ℝ} {c : Contact ℝ} {J : Mat ℝ} (h : c.update N robot = .ok J) : J.rows = wrenchSize N robot c := by
  unfold Contact.update at h
  unfold wrenchSize
  cases hk : c.kind with
  | point posA R u =>
    rw [hk] at h
    simp only at h ⊢
    by_cases h3 : (posA robot).rows = 3
    · rw [if_neg (by simp [h3])] at h
      cases h
      exact h3
    · rw [if_pos h3] at h
      cases h
  | planar jac u l w => rw [hk] at h; cases h; rfl
  | line jac A R u l =>
    rw [hk] at h
    simp only at h ⊢
    split at h
    · cases h
    · split at h
      · cases h
      · cases h; rfl
  | external jac g => rw [hk] at h; cases h; rfl
  | puppet => rw [hk] at h; cases h; rfl
  | task A => rw [hk] at h; cases h; rfl

theorem wrenchCost_congr (N : Nat) (robot : RState ℝ) (c : Contact ℝ) {w w' : Nat → ℝ} (h : ∀ l, l < wrenchSize N robot c → w l = w' l) :
    wrenchCost N robot c w = wrenchCost N robot c w' := by
  unfold wrenchSize at h
  unfold wrenchCost
  cases hk : c.kind with
  | point posA R u =>
    rw [hk] at h
    simp only at h ⊢
    have hs : ∀ i, surface R w i = surface R w' i := fun i => sum_congr rfl fun k hk => by rw [h k (mem_range.1 hk)]
    rw [hs, hs, h 0 (by omega), h 1 (by omega), h 2 (by omega)]
  | planar jac u l wd =>
    rw [hk] at h
    simp only at h ⊢
    rw [h 0 (by omega), h 1 (by omega), h 2 (by omega), h 3 (by omega), h 4 (by omega), h 5 (by omega)]
  | line jac A R u l =>
    rw [hk] at h
    simp only at h ⊢
    rw [h 3 (by omega), h 4 (by omega)]
  | external jac g => rfl
  | puppet =>
    rw [hk] at h
    simp only at h ⊢
    rw [sum_congr rfl fun l hl => by rw [h l (mem_range.1 hl)]]
  | task A =>
    rw [hk] at h
    simp only at h ⊢
    rw [sum_congr rfl fun l hl => by rw [h l (mem_range.1 hl)]]

/-! ## The cost of what is built -/

theorem addContacts_pen (N : Nat) (hN : 0 < N) (robot : RState ℝ) (x : Nat → ℝ) : ∀ (cs : List (Contact ℝ)) (k n : Nat) (js : List (Mat ℝ × Expr ℝ))
    (cc : List (Constr ℝ)), (∀ c ∈ cs, c.active = true → ContactReady N robot c) → addContacts N robot k cs = .ok (n, js, cc) →
    pen cc x = (((cs.filter (·.active)).zip (js.map fun p => p.2.rowVal x)).map fun q => wrenchCost N robot q.1 q.2).sum
  | [], k, n, js, cc, _, h => by
    rw [addContacts] at h
    cases h
    simp [pen]
  | c :: cs, k, n, js, cc, hr, h => by
    rw [addContacts] at h
    by_cases ha : c.active = true
    · rw [if_pos ha] at h
      obtain ⟨J, h1, h⟩ := bind_ok h
      obtain ⟨f, h2, h⟩ := bind_ok h
      obtain ⟨l, h3, h⟩ := bind_ok h
      obtain ⟨⟨n', js', l'⟩, h4, h⟩ := bind_ok h
      cases h
      have ih := addContacts_pen N hN robot x cs _ _ _ _ (fun c' hc' => hr c' (List.mem_cons_of_mem _ hc')) h4
      rw [var_expr_all ⟨k, k + J.rows⟩ (by simp)] at h2
      have hf : f = ⟨J.rows, k + J.rows, fun a j => if j = k + a then 1 else 0, fun _ => 0⟩ := by
        cases h2
        simp
      obtain ⟨J', hJ', -, hpos, -⟩ := ready_update hN (hr c List.mem_cons_self ha)
      rw [h1] at hJ'
      cases hJ'
      rw [pen_append, ih, List.filter_cons_of_pos ha]
      simp only [List.map_cons, List.zip_cons_cons, List.sum_cons]
      rw [C148_costs N robot c J h1 f (by rw [hf]) (by rw [hf]; show 0 < k + J.rows; omega) l h3 x]
    · rw [if_neg ha] at h
      rw [List.filter_cons_of_neg ha]
      exact addContacts_pen N hN robot x cs _ _ _ _ (fun c' hc' => hr c' (List.mem_cons_of_mem _ hc')) h

theorem taskExpr_ok {tau e : Expr ℝ} {t : DTask ℝ} {M : TaskMat ℝ} (hr : M.cols = tau.rows) (hc : 0 < tau.cols) (hM : 0 < M.cols)
    (h : taskExpr tau t M = .ok e) : e.rows = M.rows ∧ 0 < e.cols ∧
      ∀ x i, e.rowVal x i = (∑ j ∈ range M.cols, M.A i j * (if t.tauTask then tau.rowVal x j else x j)) - M.b i := by
  unfold taskExpr at h
  cases htau : t.tauTask with
  | false =>
    rw [htau] at h
    simp only [Bool.false_eq_true, if_false] at h ⊢
    cases h
    exact ⟨rfl, hM, fun x i => by rw [plainExpr_rowVal]; rfl⟩
  | true =>
    rw [htau] at h
    simp only [if_true] at h ⊢
    obtain ⟨m, h1, h⟩ := bind_ok h
    obtain ⟨-, m2, m3, m4⟩ := matMul_ok h1
    obtain ⟨-, e2, e3, e4⟩ := subVec_ok h
    exact ⟨by rw [e2, m2], by omega, fun x i => by rw [e4, m4, ← hr]⟩

theorem dtask_pen {tau : Expr ℝ} {t : DTask ℝ} {M : TaskMat ℝ} {robot : RState ℝ} (hu : t.update robot = .ok M) (hr : M.cols = tau.rows)
    (hc : 0 < tau.cols) (hM : 0 < M.cols) {l : List (Constr ℝ)} (h : dtaskConstraint tau t M = .ok l) (x : Nat → ℝ) :
    pen l x = dtaskCost robot t x (tau.rowVal x) := by
  unfold dtaskConstraint at h
  unfold dtaskCost dtaskError
  rw [hu]
  by_cases h0 : M.rows = 0
  · rw [if_pos h0] at h
    cases h
    simp [pen, h0]
  · rw [if_neg h0] at h
    by_cases hs : t.priority = .scaled
    · rw [if_pos hs] at h
      cases h
    · rw [if_neg hs] at h
      obtain ⟨e, h1, h⟩ := bind_ok h
      obtain ⟨c, h2, h⟩ := bind_ok h
      cases h
      obtain ⟨e1, e2, e3⟩ := taskExpr_ok hr hc hM h1
      obtain ⟨c', c1, c2, c3, c4⟩ := eqDouble_zero e 0
      rw [h2] at c1
      cases c1
      obtain ⟨c5, -, c6⟩ := c4 e2
      rw [pen_single]
      by_cases hp : t.priority = .soft
      · simp only [hp, if_true]
        rw [show c.configureP .soft t.weight = { { c with priority := .soft } with weight := t.weight } from rfl, softPenalty_weight _ _ rfl]
        unfold squaredViolation
        simp only [c2]
        rw [c5, e1]
        congr 1
        exact sum_congr rfl fun i _ => by rw [c6, e3, sub_zero]
      · simp only [hp, if_false]
        rfl

theorem dtasks_pen {tau : Expr ℝ} {robot : RState ℝ} {N : Nat} (hr : tau.rows = N) (hc : 0 < tau.cols) (hN : 0 < N) (x : Nat → ℝ) :
    ∀ (ts : List (DTask ℝ)) (mats : List (TaskMat ℝ)) (ct : List (List (Constr ℝ))), (∀ t ∈ ts, DTaskReady N robot t) →
      ts.mapM (fun t => t.update robot) = .ok mats → (ts.zip mats).mapM (fun q => dtaskConstraint tau q.1 q.2) = .ok ct →
      pen ct.flatten x = (ts.map fun t => dtaskCost robot t x (tau.rowVal x)).sum
  | [], mats, ct, _, h1, h2 => by
    cases h1
    cases h2
    simp [pen]
  | t :: ts, mats, ct, ht, h1, h2 => by
    obtain ⟨-, M, hM, hcols⟩ := ht t List.mem_cons_self
    rw [List.mapM_cons] at h1
    obtain ⟨M', h3, h1⟩ := bind_ok h1
    obtain ⟨mats', h4, h1⟩ := bind_ok h1
    cases h1
    rw [h3] at hM
    cases hM
    rw [List.zip_cons_cons, List.mapM_cons] at h2
    obtain ⟨l, h5, h2⟩ := bind_ok h2
    obtain ⟨ct', h6, h2⟩ := bind_ok h2
    cases h2
    rw [List.flatten_cons, pen_append, List.map_cons, List.sum_cons, dtask_pen h3 (by omega) hc (by omega) h5 x,
      dtasks_pen hr hc hN x ts mats' ct' (fun t' ht' => ht t' (List.mem_cons_of_mem _ ht')) h4 h6]

theorem limits_hard {sqrt : ℝ → ℝ} {r : DynRobot ℝ} {s : DState ℝ} {n : Nat} {tau : Expr ℝ} {l : List (Constr ℝ)}
    (h : limitConstraints sqrt r s n tau = .ok l) (x : Nat → ℝ) : pen l x = 0 := by
  obtain ⟨_, -, h⟩ := bind_ok h
  obtain ⟨t, h1, h⟩ := bind_ok h
  obtain ⟨j, h2, h⟩ := bind_ok h
  cases h
  rw [pen_append, addIf_hard h1 ?_ x, addIf_hard h2 ?_ x, add_zero]
  · intro l hl
    obtain ⟨e, -, hl⟩ := bind_ok hl
    obtain ⟨c, g1, hl⟩ := bind_ok hl
    cases hl
    intro c hc
    rw [List.mem_singleton.1 hc]
    exact le_hard g1
  · intro l hl
    obtain ⟨a, -, hl⟩ := bind_ok hl
    obtain ⟨u, -, hl⟩ := bind_ok hl
    obtain ⟨c1, g1, hl⟩ := bind_ok hl
    obtain ⟨v, -, hl⟩ := bind_ok hl
    obtain ⟨c2, g2, hl⟩ := bind_ok hl
    cases hl
    intro c hc
    simp only [List.mem_cons, List.not_mem_nil, or_false] at hc
    rcases hc with rfl | rfl
    · exact le_hard g1
    · exact ge_hard g2

theorem zero_pen {b : Bool} {e : Except Err (Expr ℝ)} {l : List (Constr ℝ)} (h : addIf b (zeroConstraint e) = .ok l) (x : Nat → ℝ) : pen l x = 0 := by
  refine addIf_hard h (fun l hl => ?_) x
  obtain ⟨t, c, -, h2, rfl⟩ := zeroConstraint_ok hl
  intro c' hc
  rw [List.mem_singleton.1 hc]
  exact (eq_hard h2).1

theorem chain_squares (N : Nat) (robot : RState ℝ) (x : Nat → ℝ) : ∀ (cs : List (Contact ℝ)) (js : List (Mat ℝ × Expr ℝ)) (k n : Nat), Chain k js n →
    List.Forall₂ (fun c p => c.update N robot = .ok p.1) cs js →
    ∑ j ∈ range n, x j ^ 2 = (∑ j ∈ range k, x j ^ 2) +
      ((cs.zip (js.map fun p => p.2.rowVal x)).map fun q => ∑ l ∈ range (wrenchSize N robot q.1), q.2 l ^ 2).sum
  | [], js, k, n, hch, h => by
    cases h
    cases hch
    simp
  | c :: cs, js, k, n, hch, h => by
    cases h with
    | @cons _ p _ js' h1 h2 =>
      obtain ⟨J, f⟩ := p
      obtain ⟨-, -, c3, c4⟩ := hch
      rw [chain_squares N robot x cs js' _ n c4 h2]
      simp only [List.map_cons, List.zip_cons_cons, List.sum_cons]
      rw [← update_size h1, sum_range_add, add_assoc]
      congr 2
      exact sum_congr rfl fun l hl => by rw [c3 x l (mem_range.1 hl)]

/-- The cost of the problem is the cost of the motion. -/
theorem built_cost (env : DEnv ℝ) (r : DynRobot ℝ) (hn : 6 < r.nv) (tasks : List (DTask ℝ)) (contacts : List (Contact ℝ)) (s : DState ℝ)
    (hc : ∀ c ∈ contacts, c.active = true → ContactReady r.nv s.robot c) (ht : ∀ t ∈ tasks, DTaskReady r.nv s.robot t) (p : Built ℝ)
    (hb : build env r tasks contacts [] s = .ok p) (x : Nat → ℝ) :
    specCost p.n env.regularization p.cs x =
      motionCost env.regularization r tasks contacts s x (p.tau.rowVal x) (p.js.map fun q => q.2.rowVal x) := by
  have P := build_spec env r tasks contacts [] s p hb
  obtain ⟨cm, cc, cl, mats, ct, cu, cf, c, e0, e1, e2, e3, e4, e5, e6, e7, e, k, e8, e9, rfl⟩ := P.parts
  have hle := P.chain.le
  have hcu : cu = [] := by cases e6; rfl
  subst hcu
  have hlast : pen [k.configureP .soft s.torqueCost] x = s.torqueCost * ∑ i ∈ range (r.nv - 6), p.tau.rowVal x (6 + i) ^ 2 := by
    obtain ⟨-, t2, t3, t4⟩ := slice_rest_ok (start := 6) e8
    obtain ⟨k', c1, c2, c3, c4⟩ := eqDouble_zero e 0
    rw [e9] at c1
    cases c1
    have hcols := P.tauCols
    obtain ⟨c5, -, c6⟩ := c4 (by omega)
    rw [pen_single, show k.configureP .soft s.torqueCost = { { k with priority := .soft } with weight := s.torqueCost } from rfl,
      softPenalty_weight _ _ rfl]
    unfold squaredViolation
    simp only [c2]
    rw [c5, t2, P.tauRows]
    congr 1
    exact sum_congr rfl fun i _ => by rw [c6, t4, sub_zero]
  have hfa : List.Forall₂ (fun c q => c.update r.nv s.robot = .ok q.1) (contacts.filter (·.active)) p.js := P.contactsOK.imp fun _ _ h => h.1
  have htc : 0 < p.tau.cols := by rw [P.tauCols]; omega
  unfold specCost motionCost
  rw [chain_squares r.nv s.robot x _ p.js r.nv p.n P.chain hfa]
  rw [show (p.cs.map (softPenalty x)).sum = pen p.cs x from rfl, e0]
  simp only [pen_append, hlast, zero_pen e1, zero_pen e7, limits_hard e3, addContacts_pen r.nv (by omega) s.robot x contacts _ _ _ _ hc e2,
    dtasks_pen P.tauRows htc (by omega) x tasks mats ct ht e4 e5, List.flatten_nil]
  simp only [pen, List.map_nil, List.sum_nil]
  ring

theorem dtaskCost_congr (N : Nat) (robot : RState ℝ) (t : DTask ℝ) (ht : DTaskReady N robot t) {y y' tau tau' : Nat → ℝ}
    (hy : ∀ k, k < N → y k = y' k) (htau : ∀ k, k < N → tau k = tau' k) : dtaskCost robot t y tau = dtaskCost robot t y' tau' := by
  obtain ⟨-, M, hM, hc⟩ := ht
  unfold dtaskCost dtaskError
  rw [hM]
  simp only
  split
  · congr 1
    refine sum_congr rfl fun i _ => ?_
    rw [sum_congr rfl fun j hj => by rw [hy j (by have := mem_range.1 hj; omega), htau j (by have := mem_range.1 hj; omega)]]
  · rfl

/-- The cost depends only on the values that exist. -/
theorem motionCost_congr (reg : ℝ) (r : DynRobot ℝ) (tasks : List (DTask ℝ)) (contacts : List (Contact ℝ)) (s : DState ℝ)
    (ht : ∀ t ∈ tasks, DTaskReady r.nv s.robot t) {y y' tau tau' : Nat → ℝ} {ws ws' : List (Nat → ℝ)}
    (hy : ∀ k, k < r.nv → y k = y' k) (htau : ∀ k, k < r.nv → tau k = tau' k)
    (hws : List.Forall₂ (fun q w => ∀ l, l < wrenchSize r.nv s.robot q.1 → q.2 l = w l) ((contacts.filter (·.active)).zip ws) ws')
    (hlen : ws.length = ws'.length) :
    motionCost reg r tasks contacts s y tau ws = motionCost reg r tasks contacts s y' tau' ws' := by
  have key : ∀ (g : Contact ℝ → (Nat → ℝ) → ℝ), (∀ c w w', (∀ l, l < wrenchSize r.nv s.robot c → w l = w' l) → g c w = g c w') →
      ∀ (cs : List (Contact ℝ)) (ws ws' : List (Nat → ℝ)), List.Forall₂ (fun q w => ∀ l, l < wrenchSize r.nv s.robot q.1 → q.2 l = w l) (cs.zip ws) ws' →
      ws.length = ws'.length → ((cs.zip ws).map fun q => g q.1 q.2).sum = ((cs.zip ws').map fun q => g q.1 q.2).sum := by
    intro g hg cs
    induction cs with
    | nil => intro ws ws' _ _; simp
    | cons c cs ih =>
      intro ws ws' h hl
      cases ws with
      | nil =>
        cases ws' with
        | nil => rfl
        | cons _ _ => cases hl
      | cons w ws =>
        rw [List.zip_cons_cons] at h
        cases h with
        | @cons _ w' _ ws'' h1 h2 =>
          simp only [List.zip_cons_cons, List.map_cons, List.sum_cons]
          rw [hg c w w' h1, ih ws ws'' h2 (by simpa using hl)]
  unfold motionCost
  rw [key (fun c w => ∑ l ∈ range (wrenchSize r.nv s.robot c), w l ^ 2) (fun c w w' h => sum_congr rfl fun l hl => by rw [h l (mem_range.1 hl)])
      _ ws ws' hws hlen,
    key (wrenchCost r.nv s.robot) (fun c w w' h => wrenchCost_congr _ _ c h) _ ws ws' hws hlen,
    List.map_congr_left fun t htm => dtaskCost_congr r.nv s.robot t (ht t htm) hy htau,
    show ∑ k ∈ range r.nv, y k ^ 2 = ∑ k ∈ range r.nv, y' k ^ 2 from sum_congr rfl fun k hk => by rw [hy k (mem_range.1 hk)],
    show ∑ i ∈ range (r.nv - 6), tau (6 + i) ^ 2 = ∑ i ∈ range (r.nv - 6), tau' (6 + i) ^ 2 from
      sum_congr rfl fun k hk => by rw [htau (6 + k) (by have := mem_range.1 hk; omega)]]

theorem motion_congr {sqrt : ℝ → ℝ} {r : DynRobot ℝ} (hn : 6 < r.nv) {tasks : List (DTask ℝ)} {contacts : List (Contact ℝ)} {s : DState ℝ}
    (ht : ∀ t ∈ tasks, DTaskReady r.nv s.robot t) {y y' tau : Nat → ℝ} {ws : List (Nat → ℝ)} (hy : ∀ k, k < r.nv → y k = y' k)
    (h : Motion sqrt r tasks contacts s y tau ws) : Motion sqrt r tasks contacts s y' tau ws := by
  obtain ⟨Js, j1, j2⟩ := h.dynamics
  have hl := h.limits
  refine ⟨⟨Js, j1, fun i hi => ?_⟩, h.wrenches, h.base, fun hb i hi => ?_, fun t htm hp M hM i hi => ?_,
    ⟨hl.torque, fun a b i h6 hi => ?_, fun a i h6 hi => ?_, fun a i h6 hi => ?_, fun a i h6 hi => ?_⟩⟩
  · rw [← j2 i hi, sum_congr rfl fun j hj => by rw [← hy j (mem_range.1 hj)]]
  · rw [← hy i (by omega)]; exact h.fbase hb i hi
  · obtain ⟨-, M', hM', hcols⟩ := ht t htm
    rw [hM] at hM'
    cases hM'
    rw [← h.tasks t htm hp M hM i hi]
    exact sum_congr rfl fun j hj => by rw [hy j (by have := mem_range.1 hj; omega)]
  · rw [← hy i hi]; exact hl.velocity a b i h6 hi
  · rw [← hy i hi]; exact hl.mixed a i h6 hi
  · rw [← hy i hi]; exact hl.upper a i h6 hi
  · rw [← hy i hi]; exact hl.lower a i h6 hi

theorem zip_read {N : Nat} {robot : RState ℝ} {x : Nat → ℝ} {act : List (Contact ℝ)} {js : List (Mat ℝ × Expr ℝ)} {ws : List (Nat → ℝ)}
    (h : List.Forall₂ (fun c p => c.update N robot = .ok p.1) act js)
    (hx : List.Forall₂ (fun p w => ∀ l, l < p.1.rows → p.2.rowVal x l = w l) js ws) :
    List.Forall₂ (fun (q : Contact ℝ × (Nat → ℝ)) (w : Nat → ℝ) => ∀ l, l < wrenchSize N robot q.1 → q.2 l = w l)
      (act.zip (js.map fun p => p.2.rowVal x)) ws := by
  induction h generalizing ws with
  | nil =>
    cases hx
    exact .nil
  | cons h1 _ ih =>
    cases hx with
    | cons g1 g2 =>
      refine .cons (fun l hl => ?_) (ih g2)
      exact g1 l (by rw [update_size h1]; exact hl)

/-- **C187.** Without user constraints, with sound and optimal external solvers, when the contacts and the tasks are ready: what a successful
`solve` returns is a motion compatible with the dynamics, the hard tasks, the contacts and the limits, and no other one costs less. -/
theorem C187 (env : DEnv ℝ) (hS : env.toQPEnv.Sound) (hO : env.toQPEnv.Optimal) (r : DynRobot ℝ) (hn : 6 < r.nv) (tasks : List (DTask ℝ))
    (contacts : List (Contact ℝ)) (integrate : Bool) (s : DState ℝ) (hc : ∀ c ∈ contacts, c.active = true → ContactReady r.nv s.robot c)
    (ht : ∀ t ∈ tasks, DTaskReady r.nv s.robot t) (hx : ∀ f, s.extraForce = some f → f.size = r.nv) (rs : RState ℝ) (res : Result ℝ)
    (h : solve env r tasks contacts [] integrate s = (rs, .ok res)) (hres : res.success = true) :
    Motion env.sqrt r tasks contacts s res.qdd res.tau res.wrenches ∧
    ∀ y tau ws, Motion env.sqrt r tasks contacts s y tau ws →
      motionCost env.regularization r tasks contacts s res.qdd res.tau res.wrenches ≤
        motionCost env.regularization r tasks contacts s y tau ws := by
  rcases solve_cases env r tasks contacts [] integrate s rs _ h with ⟨-, hf⟩ | ⟨p, x, hb, hr, -, -, hsat, hopt⟩
  · rw [hf res rfl] at hres
    cases hres
  · cases hr
    have P := build_spec env r tasks contacts [] s p hb
    have hdt : s.jointLimits = true ∨ s.velocityLimits = true ∨ s.velocityVsTorque = true → s.dt ≠ 0 := by
      obtain ⟨cm, cc, cl, mats, ct, cu, cf, c, e0, e1, e2, e3, -⟩ := P.parts
      intro h1 h2
      exact (limitConstraints_spec env.sqrt r s p.n p.tau P.tauRows cl e3 x).1 ⟨h1, h2⟩
    obtain ⟨p', hb', hgood, ⟨hm1, hm2⟩, -⟩ := build_motions env r hn tasks contacts s hc ht hx hdt
    rw [hb] at hb'
    cases hb'
    have hq : ∀ k, k < r.nv → x k = p.qdd.rowVal x k := by
      intro k hk
      rw [P.qdd]
      simp only [Expr.rowVal, add_zero]
      exact (sum_pick r.nv k hk x).symm
    have hfa : List.Forall₂ (fun c q => c.update r.nv s.robot = .ok q.1) (contacts.filter (·.active)) p.js := P.contactsOK.imp fun _ _ h => h.1
    have hrefl : List.Forall₂ (fun (q : Mat ℝ × Expr ℝ) (w : Nat → ℝ) => ∀ l, l < q.1.rows → q.2.rowVal x l = w l) p.js (p.js.map fun q => q.2.rowVal x) := by
      rw [List.forall₂_map_right_iff]
      exact List.forall₂_same.2 fun q _ l _ => rfl
    have hcost : motionCost env.regularization r tasks contacts s (p.qdd.rowVal x) (p.tau.rowVal x) (p.js.map fun q => q.2.rowVal x) =
        specCost p.n env.regularization p.cs x := by
      rw [built_cost env r hn tasks contacts s hc ht p hb x]
      refine (motionCost_congr _ r tasks contacts s ht hq (fun _ _ => rfl) (zip_read hfa hrefl) rfl).symm
    refine ⟨motion_congr hn ht hq (hm1 x (hsat hS)), fun y tau ws hm => ?_⟩
    obtain ⟨z, z1, z2, z3, z4⟩ := hm2 y tau ws hm
    show motionCost env.regularization r tasks contacts s (p.qdd.rowVal x) (p.tau.rowVal x) (p.js.map fun q => q.2.rowVal x) ≤ _
    have hlen : (p.js.map fun q => q.2.rowVal z).length = ws.length := by rw [List.length_map, z4.length_eq]
    rw [hcost, ← motionCost_congr env.regularization r tasks contacts s ht z2 z3 (zip_read hfa z4) hlen,
      ← built_cost env r hn tasks contacts s hc ht p hb z]
    refine hopt hS hO (fun c hcm h1 h2 => ?_) z z1
    have := (hgood c hcm).1.2
    simp [Constr.softIneq, h1, h2] at this

/-- **C187 (one motion).** With a positive regularisation and weights that are not negative, no other motion costs as little: the result is
determined by the requirements and by the cost. -/
theorem C187_unique (env : DEnv ℝ) (hS : env.toQPEnv.Sound) (hO : env.toQPEnv.Optimal) (hreg : 0 < env.regularization) (r : DynRobot ℝ)
    (hn : 6 < r.nv) (tasks : List (DTask ℝ)) (contacts : List (Contact ℝ)) (integrate : Bool) (s : DState ℝ)
    (hc : ∀ c ∈ contacts, c.active = true → ContactReady r.nv s.robot c) (ht : ∀ t ∈ tasks, DTaskReady r.nv s.robot t)
    (hw : ∀ t ∈ tasks, t.priority = .soft → 0 ≤ t.weight) (htc : 0 ≤ s.torqueCost)
    (hx : ∀ f, s.extraForce = some f → f.size = r.nv) (rs : RState ℝ) (res : Result ℝ)
    (h : solve env r tasks contacts [] integrate s = (rs, .ok res)) (hres : res.success = true) (y tau : Nat → ℝ) (ws : List (Nat → ℝ))
    (hm : Motion env.sqrt r tasks contacts s y tau ws)
    (hle : motionCost env.regularization r tasks contacts s y tau ws ≤
      motionCost env.regularization r tasks contacts s res.qdd res.tau res.wrenches) :
    (∀ k, k < r.nv → res.qdd k = y k ∧ res.tau k = tau k) ∧
    List.Forall₂ (fun (q : Contact ℝ × (Nat → ℝ)) (w : Nat → ℝ) => ∀ l, l < wrenchSize r.nv s.robot q.1 → q.2 l = w l)
      ((contacts.filter (·.active)).zip res.wrenches) ws := by
  rcases solve_cases env r tasks contacts [] integrate s rs _ h with ⟨-, hf⟩ | ⟨p, x, hb, hr, -, -, hsat, hopt⟩
  · rw [hf res rfl] at hres
    cases hres
  · cases hr
    have P := build_spec env r tasks contacts [] s p hb
    have hdt : s.jointLimits = true ∨ s.velocityLimits = true ∨ s.velocityVsTorque = true → s.dt ≠ 0 := by
      obtain ⟨cm, cc, cl, mats, ct, cu, cf, c, e0, e1, e2, e3, -⟩ := P.parts
      intro h1 h2
      exact (limitConstraints_spec env.sqrt r s p.n p.tau P.tauRows cl e3 x).1 ⟨h1, h2⟩
    obtain ⟨p', hb', hgood, ⟨hm1, hm2⟩, -⟩ := build_motions env r hn tasks contacts s hc ht hx hdt
    rw [hb] at hb'
    cases hb'
    have hq : ∀ k, k < r.nv → x k = p.qdd.rowVal x k := by
      intro k hk
      rw [P.qdd]
      simp only [Expr.rowVal, add_zero]
      exact (sum_pick r.nv k hk x).symm
    have hfa : List.Forall₂ (fun c q => c.update r.nv s.robot = .ok q.1) (contacts.filter (·.active)) p.js := P.contactsOK.imp fun _ _ h => h.1
    have hrefl : List.Forall₂ (fun (q : Mat ℝ × Expr ℝ) (w : Nat → ℝ) => ∀ l, l < q.1.rows → q.2.rowVal x l = w l) p.js (p.js.map fun q => q.2.rowVal x) := by
      rw [List.forall₂_map_right_iff]
      exact List.forall₂_same.2 fun q _ l _ => rfl
    have hcost : motionCost env.regularization r tasks contacts s (p.qdd.rowVal x) (p.tau.rowVal x) (p.js.map fun q => q.2.rowVal x) =
        specCost p.n env.regularization p.cs x := by
      rw [built_cost env r hn tasks contacts s hc ht p hb x]
      refine (motionCost_congr _ r tasks contacts s ht hq (fun _ _ => rfl) (zip_read hfa hrefl) rfl).symm
    obtain ⟨z, z1, z2, z3, z4⟩ := hm2 y tau ws hm
    have hle : motionCost env.regularization r tasks contacts s y tau ws ≤
      motionCost env.regularization r tasks contacts s (p.qdd.rowVal x) (p.tau.rowVal x) (p.js.map fun q => q.2.rowVal x) := hle
    have hlen : (p.js.map fun q => q.2.rowVal z).length = ws.length := by rw [List.length_map, z4.length_eq]
    rw [hcost, ← motionCost_congr env.regularization r tasks contacts s ht z2 z3 (zip_read hfa z4) hlen,
      ← built_cost env r hn tasks contacts s hc ht p hb z] at hle
    have hclean : ∀ c ∈ p.cs, c.priority = .soft → 0 ≤ c.weight := by
      intro c hcm h1
      obtain ⟨⟨-, g1⟩, g2⟩ := hgood c hcm
      refine (g2 hw htc).1 ?_
      cases hty : c.ty with
      | equality => simp [Constr.softEq, h1, hty]
      | inequality => simp [Constr.softIneq, h1, hty] at g1
    have key := least_cost_unique p.n env.regularization hreg p.cs hclean x z (hsat hS) z1 (hopt hS hO fun c hcm h1 _ => hclean c hcm h1) hle
    have hrow : ∀ e : Expr ℝ, e.cols ≤ p.n → ∀ i, e.rowVal x i = e.rowVal z i := by
      intro e he i
      unfold Expr.rowVal
      rw [sum_congr rfl fun j hj => by rw [← key j (by have := mem_range.1 hj; omega)]]
    have hnv := P.chain.le
    refine ⟨fun k hk => ⟨?_, ?_⟩, zip_read hfa ?_⟩
    · show p.qdd.rowVal x k = _
      rw [← hq k hk, ← z2 k hk, key k (by omega)]
    · show p.tau.rowVal x k = _
      rw [hrow p.tau P.tauCols.le, z3 k hk]
    · have hcols : ∀ q ∈ p.js, q.2.cols ≤ p.n := by
        intro q hq
        obtain ⟨c, -, hcq⟩ := forall₂_mem_right P.contactsOK q hq
        exact hcq.2.2.1
      have hgen : ∀ (js : List (Mat ℝ × Expr ℝ)) (ws : List (Nat → ℝ)), (∀ q ∈ js, q.2.cols ≤ p.n) →
          List.Forall₂ (fun (q : Mat ℝ × Expr ℝ) (w : Nat → ℝ) => ∀ l, l < q.1.rows → q.2.rowVal z l = w l) js ws →
          List.Forall₂ (fun (q : Mat ℝ × Expr ℝ) (w : Nat → ℝ) => ∀ l, l < q.1.rows → q.2.rowVal x l = w l) js ws := by
        intro js ws hcols hz
        induction hz with
        | nil => exact .nil
        | @cons q w js ws h1 _ ih =>
          refine .cons (fun l hl => ?_) (ih (fun q' hq' => hcols q' (List.mem_cons_of_mem _ hq')))
          rw [hrow q.2 (hcols q List.mem_cons_self), h1 l hl]
      exact hgen _ _ hcols z4

/-! ## C186: greater weights -/

/-- **C186 (torques).** The greater `torque_cost`, the smaller the torques of the joints. -/
theorem C186_torque (env : DEnv ℝ) (hS : env.toQPEnv.Sound) (hO : env.toQPEnv.Optimal) (r : DynRobot ℝ) (hn : 6 < r.nv) (tasks : List (DTask ℝ))
    (contacts : List (Contact ℝ)) (integrate : Bool) (s : DState ℝ) (hc : ∀ c ∈ contacts, c.active = true → ContactReady r.nv s.robot c)
    (ht : ∀ t ∈ tasks, DTaskReady r.nv s.robot t) (hx : ∀ f, s.extraForce = some f → f.size = r.nv) (w w' : ℝ) (hww : w < w')
    (rs rs' : RState ℝ) (res res' : Result ℝ) (h : solve env r tasks contacts [] integrate { s with torqueCost := w } = (rs, .ok res))
    (hres : res.success = true) (h' : solve env r tasks contacts [] integrate { s with torqueCost := w' } = (rs', .ok res'))
    (hres' : res'.success = true) :
    ∑ i ∈ range (r.nv - 6), res'.tau (6 + i) ^ 2 ≤ ∑ i ∈ range (r.nv - 6), res.tau (6 + i) ^ 2 := by
  obtain ⟨m1, o1⟩ := C187 env hS hO r hn tasks contacts integrate { s with torqueCost := w } hc ht hx rs res h hres
  obtain ⟨m2, o2⟩ := C187 env hS hO r hn tasks contacts integrate { s with torqueCost := w' } hc ht hx rs' res' h' hres'
  have hm : ∀ {v v' : ℝ} {y tau ws}, Motion env.sqrt r tasks contacts { s with torqueCost := v } y tau ws →
      Motion env.sqrt r tasks contacts { s with torqueCost := v' } y tau ws := fun m =>
    ⟨m.dynamics, m.wrenches, m.base, m.fbase, m.tasks, ⟨m.limits.torque, m.limits.velocity, m.limits.mixed, m.limits.upper, m.limits.lower⟩⟩
  have key := weight_tradeoff (K := ℝ) (fun p : (Nat → ℝ) × (Nat → ℝ) × List (Nat → ℝ) =>
      Motion env.sqrt r tasks contacts { s with torqueCost := 0 } p.1 p.2.1 p.2.2)
    (fun p => motionCost env.regularization r tasks contacts { s with torqueCost := 0 } p.1 p.2.1 p.2.2)
    (fun p => ∑ i ∈ range (r.nv - 6), p.2.1 (6 + i) ^ 2) hww (x := (res.qdd, res.tau, res.wrenches)) (x' := (res'.qdd, res'.tau, res'.wrenches))
    (hm m1) (hm m2)
    (fun p hp => by
      have := o1 p.1 p.2.1 p.2.2 (hm hp)
      unfold motionCost at this ⊢
      simp only at this ⊢
      linarith)
    (fun p hp => by
      have := o2 p.1 p.2.1 p.2.2 (hm hp)
      unfold motionCost at this ⊢
      simp only at this ⊢
      linarith)
  exact key.1

/-- **C186 (tasks).** The greater the weight of a soft task, the smaller its error. -/
theorem C186_task (env : DEnv ℝ) (hS : env.toQPEnv.Sound) (hO : env.toQPEnv.Optimal) (r : DynRobot ℝ) (hn : 6 < r.nv) (a b : List (DTask ℝ))
    (t : DTask ℝ) (hp : t.priority = .soft) (contacts : List (Contact ℝ)) (integrate : Bool) (s : DState ℝ)
    (hc : ∀ c ∈ contacts, c.active = true → ContactReady r.nv s.robot c)
    (ht : ∀ u ∈ a ++ t :: b, DTaskReady r.nv s.robot u) (hx : ∀ f, s.extraForce = some f → f.size = r.nv) (w w' : ℝ) (hww : w < w')
    (rs rs' : RState ℝ) (res res' : Result ℝ) (h : solve env r (a ++ { t with weight := w } :: b) contacts [] integrate s = (rs, .ok res))
    (hres : res.success = true) (h' : solve env r (a ++ { t with weight := w' } :: b) contacts [] integrate s = (rs', .ok res'))
    (hres' : res'.success = true) :
    dtaskError s.robot t res'.qdd res'.tau ≤ dtaskError s.robot t res.qdd res.tau := by
  have hready : ∀ v : ℝ, ∀ u ∈ a ++ { t with weight := v } :: b, DTaskReady r.nv s.robot u := by
    intro v u hu
    rcases List.mem_append.1 hu with hu | hu
    · exact ht u (by simp [hu])
    · rcases List.mem_cons.1 hu with rfl | hu
      · exact ht t (by simp)
      · exact ht u (by simp [hu])
  obtain ⟨m1, o1⟩ := C187 env hS hO r hn _ contacts integrate s hc (hready w) hx rs res h hres
  obtain ⟨m2, o2⟩ := C187 env hS hO r hn _ contacts integrate s hc (hready w') hx rs' res' h' hres'
  have htask : ∀ (v : ℝ) (y tau : Nat → ℝ), (∀ u ∈ a ++ { t with weight := v } :: b, DTaskMet s.robot u y tau) ↔ ∀ u ∈ a ++ b, DTaskMet s.robot u y tau := by
    intro v y tau
    constructor
    · intro H u hu
      exact H u (by rcases List.mem_append.1 hu with hu | hu <;> simp [hu])
    · intro H u hu
      rcases List.mem_append.1 hu with hu | hu
      · exact H u (by simp [hu])
      · rcases List.mem_cons.1 hu with rfl | hu
        · intro hh
          rw [show ({ t with weight := v } : DTask ℝ).priority = t.priority from rfl, hp] at hh
          cases hh
        · exact H u (by simp [hu])
  have hm : ∀ (v : ℝ) (y tau ws), Motion env.sqrt r (a ++ { t with weight := v } :: b) contacts s y tau ws ↔ Motion env.sqrt r (a ++ b) contacts s y tau ws :=
    fun v y tau ws => ⟨fun m => ⟨m.dynamics, m.wrenches, m.base, m.fbase, (htask v y tau).1 m.tasks, m.limits⟩,
      fun m => ⟨m.dynamics, m.wrenches, m.base, m.fbase, (htask v y tau).2 m.tasks, m.limits⟩⟩
  have hcost : ∀ (v : ℝ) (y tau ws), motionCost env.regularization r (a ++ { t with weight := v } :: b) contacts s y tau ws =
      motionCost env.regularization r (a ++ b) contacts s y tau ws + v * dtaskError s.robot t y tau := by
    intro v y tau ws
    have : dtaskCost s.robot { t with weight := v } y tau = v * dtaskError s.robot t y tau := by
      unfold dtaskCost
      rw [if_pos (by exact hp)]
      rfl
    unfold motionCost
    simp only [List.map_append, List.map_cons, List.sum_append, List.sum_cons, this]
    ring
  have key := weight_tradeoff (K := ℝ) (fun p : (Nat → ℝ) × (Nat → ℝ) × List (Nat → ℝ) => Motion env.sqrt r (a ++ b) contacts s p.1 p.2.1 p.2.2)
    (fun p => motionCost env.regularization r (a ++ b) contacts s p.1 p.2.1 p.2.2)
    (fun p => dtaskError s.robot t p.1 p.2.1) hww (x := (res.qdd, res.tau, res.wrenches)) (x' := (res'.qdd, res'.tau, res'.wrenches))
    ((hm w _ _ _).1 m1) ((hm w' _ _ _).1 m2)
    (fun p hp => by
      have := o1 p.1 p.2.1 p.2.2 ((hm w _ _ _).2 hp)
      rw [hcost, hcost] at this
      exact this)
    (fun p hp => by
      have := o2 p.1 p.2.1 p.2.2 ((hm w' _ _ _).2 hp)
      rw [hcost, hcost] at this
      exact this)
  exact key.1

/-- Specification: the squares that `weight_forces` weighs. -/
def forcesSq (N : Nat) (robot : RState ℝ) (c : Contact ℝ) (w : Nat → ℝ) : ℝ :=
  match c.kind with
  | .point _ _ _ => w 0 ^ 2 + w 1 ^ 2 + w 2 ^ 2
  | .planar _ _ _ _ => w 0 ^ 2 + w 1 ^ 2 + w 2 ^ 2
  | .puppet => ∑ i ∈ range N, w i ^ 2
  | .task A => ∑ i ∈ range (A robot).rows, w i ^ 2
  | _ => 0

/-- Specification: the squares that `weight_tangentials` weighs: the forces along the surface (`fy` and `fz` for planar contacts,
see `C61_refuted`). -/
noncomputable def tangentialsSq (c : Contact ℝ) (w : Nat → ℝ) : ℝ :=
  match c.kind with
  | .point _ R _ => surface R w 0 ^ 2 + surface R w 1 ^ 2
  | .planar _ _ _ _ => w 1 ^ 2 + w 2 ^ 2
  | _ => 0

/-- Specification: the squares that `weight_moments` weighs. -/
def momentsSq (c : Contact ℝ) (w : Nat → ℝ) : ℝ :=
  match c.kind with
  | .planar _ _ _ _ => w 3 ^ 2 + w 4 ^ 2 + w 5 ^ 2
  | .line _ _ _ _ _ => w 3 ^ 2 + w 4 ^ 2
  | _ => 0

theorem wrenchCost_split (N : Nat) (robot : RState ℝ) (c : Contact ℝ) (w : Nat → ℝ) :
    wrenchCost N robot c w = max 0 c.weightForces * forcesSq N robot c w + max 0 c.weightTangentials * tangentialsSq c w +
      max 0 c.weightMoments * momentsSq c w := by
  unfold wrenchCost forcesSq tangentialsSq momentsSq
  cases c.kind <;> simp only <;> ring

theorem zip_split {α β : Type} (f : α × β → ℝ) (d : β) : ∀ (a : List α) (c : α) (b : List α) (ws : List β), ws.length = (a ++ c :: b).length →
    (((a ++ c :: b).zip ws).map f).sum = ((a.zip ws).map f).sum + f (c, ws.getD a.length d) + ((b.zip (ws.drop (a.length + 1))).map f).sum
  | [], c, b, [], h => by simp at h
  | [], c, b, w :: ws, h => by simp
  | x :: a, c, b, [], h => by simp at h
  | x :: a, c, b, w :: ws, h => by
    have := zip_split f d a c b ws (by simpa using h)
    simp only [List.cons_append, List.zip_cons_cons, List.map_cons, List.sum_cons, List.length_cons, List.getD_cons_succ, List.drop_succ_cons]
    rw [this]
    ring

/-- The greater the weight `v` of a part `g` of the cost of the wrench of an active contact, the smaller this part. -/
theorem C186_part (env : DEnv ℝ) (hS : env.toQPEnv.Sound) (hO : env.toQPEnv.Optimal) (r : DynRobot ℝ) (hn : 6 < r.nv) (tasks : List (DTask ℝ))
    (a b : List (Contact ℝ)) (c c' : Contact ℝ) (ha : c.active = true) (ha' : c'.active = true) (hk : c'.kind = c.kind) (hmu : c'.mu = c.mu)
    (integrate : Bool) (s : DState ℝ) (hc : ∀ u ∈ a ++ c :: b, u.active = true → ContactReady r.nv s.robot u)
    (hc' : ∀ u ∈ a ++ c' :: b, u.active = true → ContactReady r.nv s.robot u) (ht : ∀ t ∈ tasks, DTaskReady r.nv s.robot t)
    (hx : ∀ f, s.extraForce = some f → f.size = r.nv) (f g : (Nat → ℝ) → ℝ) (v v' : ℝ) (hvv : v < v')
    (hcost : ∀ w, wrenchCost r.nv s.robot c w = f w + v * g w) (hcost' : ∀ w, wrenchCost r.nv s.robot c' w = f w + v' * g w)
    (rs rs' : RState ℝ) (res res' : Result ℝ) (h : solve env r tasks (a ++ c :: b) [] integrate s = (rs, .ok res)) (hres : res.success = true)
    (h' : solve env r tasks (a ++ c' :: b) [] integrate s = (rs', .ok res')) (hres' : res'.success = true) :
    g (res'.wrenches.getD (a.filter (·.active)).length fun _ => 0) ≤ g (res.wrenches.getD (a.filter (·.active)).length fun _ => 0) := by
  obtain ⟨m1, o1⟩ := C187 env hS hO r hn tasks _ integrate s hc ht hx rs res h hres
  obtain ⟨m2, o2⟩ := C187 env hS hO r hn tasks _ integrate s hc' ht hx rs' res' h' hres'
  have hf : ∀ u : Contact ℝ, u.active = true → (a ++ u :: b).filter (·.active) = a.filter (·.active) ++ u :: b.filter (·.active) := by
    intro u hu
    rw [List.filter_append, List.filter_cons_of_pos (by exact hu)]
  have hup : c'.update r.nv s.robot = c.update r.nv s.robot := by
    unfold Contact.update
    rw [hk]
  have hmapM : ((a ++ c' :: b).filter (·.active)).mapM (fun u => u.update r.nv s.robot) =
      ((a ++ c :: b).filter (·.active)).mapM (fun u => u.update r.nv s.robot) := by
    rw [hf c ha, hf c' ha']
    simp only [List.mapM_append, List.mapM_cons, hup]
  have hwr : ∀ {A : List (Contact ℝ)} {B : List (Contact ℝ)} {ws : List (Nat → ℝ)} {u u' : Contact ℝ}, (∀ w, WrenchOK u w → WrenchOK u' w) →
      List.Forall₂ WrenchOK (A ++ u :: B) ws → List.Forall₂ WrenchOK (A ++ u' :: B) ws := by
    intro A
    induction A with
    | nil =>
      intro B ws u u' hu H
      cases H with
      | cons h1 h2 => exact .cons (hu _ h1) h2
    | cons x A ih =>
      intro B ws u u' hu H
      cases H with
      | cons h1 h2 => exact .cons h1 (ih hu h2)
  have hok : ∀ w, WrenchOK c' w ↔ WrenchOK c w := by
    intro w
    unfold WrenchOK
    rw [hk, hmu]
  have hm : ∀ y tau ws, Motion env.sqrt r tasks (a ++ c' :: b) s y tau ws → Motion env.sqrt r tasks (a ++ c :: b) s y tau ws := by
    intro y tau ws m
    refine ⟨?_, ?_, m.base, m.fbase, m.tasks, m.limits⟩
    · rw [← hmapM]
      exact m.dynamics
    · have := m.wrenches
      rw [hf c' ha'] at this
      rw [hf c ha]
      exact hwr (fun w => (hok w).1) this
  have hm' : ∀ y tau ws, Motion env.sqrt r tasks (a ++ c :: b) s y tau ws → Motion env.sqrt r tasks (a ++ c' :: b) s y tau ws := by
    intro y tau ws m
    refine ⟨?_, ?_, m.base, m.fbase, m.tasks, m.limits⟩
    · rw [hmapM]
      exact m.dynamics
    · have := m.wrenches
      rw [hf c ha] at this
      rw [hf c' ha']
      exact hwr (fun w => (hok w).2) this
  have hsz : wrenchSize r.nv s.robot c' = wrenchSize r.nv s.robot c := by
    unfold wrenchSize
    rw [hk]
  let n := (a.filter (·.active)).length
  let F : (Nat → ℝ) × (Nat → ℝ) × List (Nat → ℝ) → ℝ := fun p =>
    env.regularization * ((∑ k ∈ range r.nv, p.1 k ^ 2) +
      (((a.filter (·.active) ++ c :: b.filter (·.active)).zip p.2.2).map fun q => ∑ l ∈ range (wrenchSize r.nv s.robot q.1), q.2 l ^ 2).sum) +
    (tasks.map fun t => dtaskCost s.robot t p.1 p.2.1).sum +
    ((((a.filter (·.active)).zip p.2.2).map fun q => wrenchCost r.nv s.robot q.1 q.2).sum + f (p.2.2.getD n fun _ => 0) +
      (((b.filter (·.active)).zip (p.2.2.drop (n + 1))).map fun q => wrenchCost r.nv s.robot q.1 q.2).sum) +
    s.torqueCost * ∑ i ∈ range (r.nv - 6), p.2.1 (6 + i) ^ 2
  have hlen : ∀ {y tau ws}, Motion env.sqrt r tasks (a ++ c :: b) s y tau ws → ws.length = (a.filter (·.active) ++ c :: b.filter (·.active)).length := by
    intro y tau ws m
    have := m.wrenches.length_eq
    rw [hf c ha] at this
    exact this.symm
  have hF : ∀ p : (Nat → ℝ) × (Nat → ℝ) × List (Nat → ℝ), Motion env.sqrt r tasks (a ++ c :: b) s p.1 p.2.1 p.2.2 →
      motionCost env.regularization r tasks (a ++ c :: b) s p.1 p.2.1 p.2.2 = F p + v * g (p.2.2.getD n fun _ => 0) := by
    intro p m
    unfold motionCost
    rw [hf c ha, zip_split (fun q => wrenchCost r.nv s.robot q.1 q.2) (fun _ => 0) _ c _ p.2.2 (hlen m)]
    simp only [hcost, F, n]
    ring
  have hF' : ∀ p : (Nat → ℝ) × (Nat → ℝ) × List (Nat → ℝ), Motion env.sqrt r tasks (a ++ c :: b) s p.1 p.2.1 p.2.2 →
      motionCost env.regularization r tasks (a ++ c' :: b) s p.1 p.2.1 p.2.2 = F p + v' * g (p.2.2.getD n fun _ => 0) := by
    intro p m
    have hl := hlen m
    have hl' : p.2.2.length = (a.filter (·.active) ++ c' :: b.filter (·.active)).length := by simpa using hl
    unfold motionCost
    rw [hf c' ha', zip_split (fun q => wrenchCost r.nv s.robot q.1 q.2) (fun _ => 0) _ c' _ p.2.2 hl',
      zip_split (fun q : Contact ℝ × (Nat → ℝ) => ∑ l ∈ range (wrenchSize r.nv s.robot q.1), q.2 l ^ 2) (fun _ => 0) _ c' _ p.2.2 hl']
    simp only [F, n]
    rw [zip_split (fun q : Contact ℝ × (Nat → ℝ) => ∑ l ∈ range (wrenchSize r.nv s.robot q.1), q.2 l ^ 2) (fun _ => 0) _ c _ p.2.2 hl]
    simp only [hcost', hsz]
    ring
  have key := weight_tradeoff (K := ℝ) (fun p : (Nat → ℝ) × (Nat → ℝ) × List (Nat → ℝ) => Motion env.sqrt r tasks (a ++ c :: b) s p.1 p.2.1 p.2.2)
    F (fun p => g (p.2.2.getD n fun _ => 0)) hvv (x := (res.qdd, res.tau, res.wrenches)) (x' := (res'.qdd, res'.tau, res'.wrenches))
    m1 (hm _ _ _ m2)
    (fun p hp => by
      have := o1 p.1 p.2.1 p.2.2 hp
      rw [← hF _ m1, ← hF p hp]
      exact this)
    (fun p hp => by
      have := o2 p.1 p.2.1 p.2.2 (hm' _ _ _ hp)
      rw [← hF' _ (hm _ _ _ m2), ← hF' p hp]
      exact this)
  exact key.1

/-- **C186 (contacts).** The greater `weight_forces` (`weight_tangentials`, `weight_moments`) of an active contact, the smaller the forces
(tangential forces, moments) of its wrench. -/
theorem C186_contact (env : DEnv ℝ) (hS : env.toQPEnv.Sound) (hO : env.toQPEnv.Optimal) (r : DynRobot ℝ) (hn : 6 < r.nv) (tasks : List (DTask ℝ))
    (a b : List (Contact ℝ)) (c c' : Contact ℝ) (ha : c.active = true)
    (integrate : Bool) (s : DState ℝ) (hc : ∀ u ∈ a ++ c :: b, u.active = true → ContactReady r.nv s.robot u)
    (hc' : ∀ u ∈ a ++ c' :: b, u.active = true → ContactReady r.nv s.robot u) (ht : ∀ t ∈ tasks, DTaskReady r.nv s.robot t)
    (hx : ∀ f, s.extraForce = some f → f.size = r.nv)
    (rs rs' : RState ℝ) (res res' : Result ℝ) (h : solve env r tasks (a ++ c :: b) [] integrate s = (rs, .ok res)) (hres : res.success = true)
    (h' : solve env r tasks (a ++ c' :: b) [] integrate s = (rs', .ok res')) (hres' : res'.success = true) (w w' : Nat → ℝ)
    (hw : res.wrenches[(a.filter (·.active)).length]? = some w) (hw' : res'.wrenches[(a.filter (·.active)).length]? = some w') :
    (∀ v, c' = { c with weightForces := v } → 0 ≤ c.weightForces → c.weightForces < v → forcesSq r.nv s.robot c w' ≤ forcesSq r.nv s.robot c w) ∧
    (∀ v, c' = { c with weightTangentials := v } → 0 ≤ c.weightTangentials → c.weightTangentials < v → tangentialsSq c w' ≤ tangentialsSq c w) ∧
    (∀ v, c' = { c with weightMoments := v } → 0 ≤ c.weightMoments → c.weightMoments < v → momentsSq c w' ≤ momentsSq c w) := by
  have e : res.wrenches.getD (a.filter (·.active)).length (fun _ => 0) = w := by rw [List.getD_eq_getElem?_getD, hw]; rfl
  have e' : res'.wrenches.getD (a.filter (·.active)).length (fun _ => 0) = w' := by rw [List.getD_eq_getElem?_getD, hw']; rfl
  refine ⟨?_, ?_, ?_⟩
  · rintro v rfl h0 hv
    have := C186_part env hS hO r hn tasks a b c { c with weightForces := v } ha ha rfl rfl integrate s hc hc' ht hx
      (fun w => max 0 c.weightTangentials * tangentialsSq c w + max 0 c.weightMoments * momentsSq c w) (forcesSq r.nv s.robot c) _ v hv
      (fun w => by rw [wrenchCost_split, max_eq_right h0]; ring)
      (fun w => by
        rw [wrenchCost_split]
        show max 0 v * forcesSq r.nv s.robot c w + max 0 c.weightTangentials * tangentialsSq c w + max 0 c.weightMoments * momentsSq c w = _
        rw [max_eq_right (h0.trans hv.le)]
        ring) rs rs' res res' h hres h' hres'
    rwa [e, e'] at this
  · rintro v rfl h0 hv
    have := C186_part env hS hO r hn tasks a b c { c with weightTangentials := v } ha ha rfl rfl integrate s hc hc' ht hx
      (fun w => max 0 c.weightForces * forcesSq r.nv s.robot c w + max 0 c.weightMoments * momentsSq c w) (tangentialsSq c) _ v hv
      (fun w => by rw [wrenchCost_split, max_eq_right h0]; ring)
      (fun w => by
        rw [wrenchCost_split]
        show max 0 c.weightForces * forcesSq r.nv s.robot c w + max 0 v * tangentialsSq c w + max 0 c.weightMoments * momentsSq c w = _
        rw [max_eq_right (h0.trans hv.le)]
        ring) rs rs' res res' h hres h' hres'
    rwa [e, e'] at this
  · rintro v rfl h0 hv
    have := C186_part env hS hO r hn tasks a b c { c with weightMoments := v } ha ha rfl rfl integrate s hc hc' ht hx
      (fun w => max 0 c.weightForces * forcesSq r.nv s.robot c w + max 0 c.weightTangentials * tangentialsSq c w) (momentsSq c) _ v hv
      (fun w => by rw [wrenchCost_split, max_eq_right h0])
      (fun w => by
        rw [wrenchCost_split]
        show max 0 c.weightForces * forcesSq r.nv s.robot c w + max 0 c.weightTangentials * tangentialsSq c w + max 0 v * momentsSq c w = _
        rw [max_eq_right (h0.trans hv.le)]) rs rs' res res' h hres h' hres'
    rwa [e, e'] at this

/-! ## C185: the weights of hard tasks and constraints -/

section
variable {K : Type} [Field K] [LinearOrder K] [IsStrictOrderedRing K]

/-- Specification: the same tasks, but for the weights of those that are not soft. -/
def SameButHardDTaskWeights (tasks tasks' : List (DTask K)) : Prop :=
  List.Forall₂ (fun t t' => t' = { t with weight := t'.weight } ∧ (t.priority = .soft → t'.weight = t.weight)) tasks tasks'

/-- Specification: constraints that add the same, but for the weights of hard constraints. -/
def SameButHardDConstraintWeights (cons cons' : List (DConstraint K)) : Prop :=
  List.Forall₂ (fun c c' => ∀ s tau, match c.add s tau, c'.add s tau with
    | .ok l, .ok l' => SameButHardWeights l l'
    | .error e, .error e' => e' = e
    | _, _ => False) cons cons'

/-- Same error, or same constraints but for the weights of the hard ones. -/
def SameAdded (a b : Except Err (List (Constr K))) : Prop :=
  match a, b with
  | .ok l, .ok l' => SameButHardWeights l l'
  | .error e, .error e' => e' = e
  | _, _ => False

omit [Field K] [LinearOrder K] [IsStrictOrderedRing K] in
theorem sameAdded_mapM {α : Type} (f g : α → Except Err (List (Constr K))) {l l' : List α} (h : List.Forall₂ (fun a b => SameAdded (f a) (g b)) l l') :
    (∃ e, l.mapM f = .error e ∧ l'.mapM g = .error e) ∨
      ∃ m m', l.mapM f = .ok m ∧ l'.mapM g = .ok m' ∧ SameButHardWeights m.flatten m'.flatten := by
  induction h with
  | nil => exact .inr ⟨[], [], rfl, rfl, .nil⟩
  | @cons c c' _ _ h1 _ ih =>
    rw [List.mapM_cons, List.mapM_cons]
    cases e1 : f c with
    | error e =>
      cases e2 : g c' with
      | error e' =>
        rw [e1, e2] at h1
        have h1 : e' = e := h1
        subst h1
        exact .inl ⟨_, rfl, rfl⟩
      | ok l' => rw [e1, e2] at h1; exact absurd h1 id
    | ok l =>
      cases e2 : g c' with
      | error e' => rw [e1, e2] at h1; exact absurd h1 id
      | ok l' =>
        rw [e1, e2] at h1
        have h1 : SameButHardWeights l l' := h1
        rcases ih with ⟨e, i1, i2⟩ | ⟨m, m', i1, i2, i3⟩
        · exact .inl ⟨e, by rw [i1]; rfl, by rw [i2]; rfl⟩
        · refine .inr ⟨l :: m, l' :: m', by rw [i1]; rfl, by rw [i2]; rfl, ?_⟩
          rw [List.flatten_cons, List.flatten_cons]
          exact sameWeights_append h1 i3

omit [LinearOrder K] [IsStrictOrderedRing K] in
theorem dtaskConstraint_same (tau : Expr K) (t : DTask K) (w : K) (hw : t.priority = .soft → w = t.weight) (M : TaskMat K) :
    SameAdded (dtaskConstraint tau t M) (dtaskConstraint tau { t with weight := w } M) := by
  unfold dtaskConstraint
  have he : taskExpr tau { t with weight := w } M = taskExpr tau t M := rfl
  rw [he]
  dsimp only
  by_cases h0 : M.rows = 0
  · rw [if_pos h0, if_pos h0]
    exact sameWeights_refl _
  rw [if_neg h0, if_neg h0]
  by_cases hs : t.priority = .scaled
  · simp only [if_pos hs]
    exact rfl
  simp only [if_neg hs]
  cases taskExpr tau t M with
  | error e => exact rfl
  | ok e =>
    simp only [Bind.bind, Except.bind]
    cases e.eqDouble 0 with
    | error e => exact rfl
    | ok c =>
      show SameButHardWeights [c.configureP _ _] [c.configureP _ _]
      refine List.Forall₂.cons ⟨rfl, fun h => ?_⟩ .nil
      by_cases hp : t.priority = .soft
      · exact hw hp
      · simp only [Constr.configureP, if_neg hp] at h
        cases h

omit [IsStrictOrderedRing K] in
/-- **C185 (dynamics).** The weights of the tasks that are not soft, and those of hard constraints, have no effect at all on `solve`. -/
theorem C185_dynamics (env : DEnv K) (r : DynRobot K) (tasks tasks' : List (DTask K)) (ht : SameButHardDTaskWeights tasks tasks')
    (contacts : List (Contact K)) (cons cons' : List (DConstraint K)) (hc : SameButHardDConstraintWeights cons cons') (integrate : Bool)
    (s : DState K) : solve env r tasks' contacts cons' integrate s = solve env r tasks contacts cons integrate s := by
  have hup : tasks'.mapM (fun t => t.update s.robot) = tasks.mapM (fun t => t.update s.robot) := by
    induction ht with
    | nil => rfl
    | @cons t t' _ _ h1 _ ih =>
      have : t'.update s.robot = t.update s.robot := by rw [h1.1]
      simp only [List.mapM_cons, this, ih]
  have hzip : ∀ (tau : Expr K) (mats : List (TaskMat K)), List.Forall₂ (fun p q => SameAdded (dtaskConstraint tau p.1 p.2) (dtaskConstraint tau q.1 q.2))
      (tasks.zip mats) (tasks'.zip mats) := by
    intro tau mats
    clear hup
    induction ht generalizing mats with
    | nil => exact .nil
    | @cons t t' _ _ h1 _ ih =>
      cases mats with
      | nil => exact .nil
      | cons M mats =>
        refine .cons ?_ (ih mats)
        obtain ⟨h1, h2⟩ := h1
        show SameAdded (dtaskConstraint tau t M) (dtaskConstraint tau t' M)
        rw [h1]
        exact dtaskConstraint_same tau t _ h2 M
  have hb : (∃ e, build env r tasks contacts cons s = .error e ∧ build env r tasks' contacts cons' s = .error e) ∨
      ∃ p cs', build env r tasks contacts cons s = .ok p ∧ build env r tasks' contacts cons' s = .ok { p with cs := cs' } ∧
        SameButHardWeights p.cs cs' := by
    unfold build
    simp only [hup]
    cases (⟨0, r.nv⟩ : Var).expr (K := K) (-1) (-1) with
    | error e => exact .inl ⟨e, rfl, rfl⟩
    | ok qdd =>
    simp only [Bind.bind, Except.bind]
    cases addIf s.maskedFbase (zeroConstraint ((⟨0, r.nv⟩ : Var).expr (K := K) 0 6)) with
    | error e => exact .inl ⟨e, rfl, rfl⟩
    | ok cm =>
    simp only
    cases tasks.mapM (fun t => t.update s.robot) with
    | error e => exact .inl ⟨e, rfl, rfl⟩
    | ok mats =>
    simp only
    cases bareTau r s qdd with
    | error e => exact .inl ⟨e, rfl, rfl⟩
    | ok tau0 =>
    simp only
    cases addContacts r.nv s.robot r.nv contacts with
    | error e => exact .inl ⟨e, rfl, rfl⟩
    | ok q =>
    obtain ⟨n, js, cc⟩ := q
    simp only
    cases fullTau r.nv n tau0 js with
    | error e => exact .inl ⟨e, rfl, rfl⟩
    | ok tau =>
    simp only
    cases limitConstraints env.sqrt r s n tau with
    | error e => exact .inl ⟨e, rfl, rfl⟩
    | ok cl =>
    simp only
    rcases sameAdded_mapM _ _ (hzip tau mats) with ⟨e, i1, i2⟩ | ⟨ct, ct', i1, i2, i3⟩
    · rw [i1, i2]
      exact .inl ⟨e, rfl, rfl⟩
    rw [i1, i2]
    simp only
    rcases sameAdded_mapM (fun c : DConstraint K => c.add s tau) (fun c : DConstraint K => c.add s tau) (hc.imp fun c c' h => h s tau) with
      ⟨e, j1, j2⟩ | ⟨cu, cu', j1, j2, j3⟩
    · rw [j1, j2]
      exact .inl ⟨e, rfl, rfl⟩
    rw [j1, j2]
    simp only
    cases addIf (!s.maskedFbase) (zeroConstraint (tau.slice 0 6)) with
    | error e => exact .inl ⟨e, rfl, rfl⟩
    | ok cf =>
    simp only
    cases tau.slice 6 (-1) with
    | error e => exact .inl ⟨e, rfl, rfl⟩
    | ok e =>
    simp only
    cases e.eqDouble 0 with
    | error e => exact .inl ⟨e, rfl, rfl⟩
    | ok c =>
    exact .inr ⟨_, _, rfl, rfl, sameWeights_append (sameWeights_append (sameWeights_append (sameWeights_append (sameWeights_refl _) i3) j3)
      (sameWeights_refl _)) (sameWeights_refl _)⟩
  unfold solve
  rcases hb with ⟨e, b1, b2⟩ | ⟨p, cs', b1, b2, b3⟩
  · rw [b1, b2]
  · rw [b1, b2]
    obtain ⟨c1, c2⟩ := C185_problem (env.settings p.n) env.qr env.oracle env.tol p.cs cs' b3 ⟨[], []⟩
    have c3 : solutionX env.toQPEnv p.n cs' = solutionX env.toQPEnv p.n p.cs := by
      unfold solutionX
      rw [c1]
    simp only [c2, c3]

end

/-! ## Non-vacuity -/

/-- Another weight for a hard task. -/
example : SameButHardDTaskWeights [hingeDTask (1 / 2), { hingeDTask 1 with priority := .soft }]
    [{ hingeDTask (1 / 2) with weight := 100 }, { hingeDTask 1 with priority := .soft }] :=
  .cons ⟨rfl, fun h => (by cases h)⟩ (.cons ⟨rfl, fun _ => rfl⟩ .nil)

/-- The hypotheses of `C187`, `C187_unique` and `C186_task` are met by the hinge with its foot on the ground and a soft task with any weight that
is not negative. -/
example : ∃ env : DEnv ℝ, env.toQPEnv.Sound ∧ env.toQPEnv.Optimal ∧ 0 < env.regularization ∧
    ∀ w, 0 ≤ w → ∃ rs res, solve env hingeDyn [{ hingeDTask (1 / 2) with priority := .soft, weight := w }] [hingeFoot] [] false hingeDState = (rs, .ok res) ∧
      res.success = true ∧ Motion env.sqrt hingeDyn [{ hingeDTask (1 / 2) with priority := .soft, weight := w }] [hingeFoot] hingeDState
        res.qdd res.tau res.wrenches := by
  obtain ⟨env, hex, hS, hO, hreg, hre, -, htol⟩ := exact_env_exists 1 0 0 true
  refine ⟨⟨env, Real.sqrt⟩, hS, hO, by show 0 < env.regularization; rw [hreg]; exact one_pos, fun w hw => ?_⟩
  have hc : ∀ c ∈ [hingeFoot], c.active = true → ContactReady hingeDyn.nv hingeDState.robot c := by
    intro c hc _
    rw [List.mem_singleton.1 hc]
    exact ⟨rfl, rfl⟩
  have ht : ∀ t ∈ [{ hingeDTask (1 / 2) with priority := .soft, weight := w }], DTaskReady hingeDyn.nv hingeDState.robot t := by
    intro t ht
    rw [List.mem_singleton.1 ht]
    exact ⟨by simp, _, rfl, rfl⟩
  obtain ⟨res, h1, h2⟩ := C166_soft ⟨env, Real.sqrt⟩ (fun x _ => Real.sqrt_nonneg x) hingeDyn (by decide)
    [{ hingeDTask (1 / 2) with priority := .soft, weight := w }] [hingeFoot] false hingeDState hc ht
    (fun t ht => by rw [List.mem_singleton.1 ht]; exact ⟨rfl, hw⟩) zero_le_one (fun f h => (by cases h))
    (hinge_mass _) (fun _ => one_ne_zero) rfl rfl (fun h => (by cases h)) (fun h => (by cases h))
    (by show 0 < env.regularization; rw [hreg]; exact one_pos) (by show 0 ≤ env.tol; rw [htol]) hex
  exact ⟨_, res, Prod.ext rfl h1, h2, (C187 ⟨env, Real.sqrt⟩ hS hO hingeDyn (by decide) _ _ false hingeDState hc ht (fun f h => (by cases h)) _ res
    (Prod.ext rfl h1) h2).1⟩

end Verif.Dynamics
