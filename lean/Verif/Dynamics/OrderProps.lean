/-
Property C163 for `DynamicsSolver`: the tasks and the constraints are kept in a `std::set` of pointers, iterated in the order of
their addresses; this order does not change the result.
-/
import Verif.Dynamics.SolverLemmas
import Verif.Kinematics.OrderProps

namespace Verif.Dynamics
open Finset Verif.Problem Verif.Kinematics

/-! ## The weights of the constraints -/

theorem good_append {l l' : List (Constr ℝ)} (h : ∀ c ∈ l, GoodWeight c) (h' : ∀ c ∈ l', GoodWeight c) : ∀ c ∈ l ++ l', GoodWeight c := by
  intro c hc
  rcases List.mem_append.1 hc with hc | hc
  exacts [h c hc, h' c hc]

theorem good_cons {a : Constr ℝ} {l : List (Constr ℝ)} (h : GoodWeight a) (h' : ∀ c ∈ l, GoodWeight c) : ∀ c ∈ a :: l, GoodWeight c := by
  intro c hc
  rcases List.mem_cons.1 hc with rfl | hc
  exacts [h, h' c hc]

theorem good_nil : ∀ c ∈ ([] : List (Constr ℝ)), GoodWeight c := by simp

theorem band_good {m : ℝ} {u z : Expr ℝ} {l : List (Constr ℝ)} (h : bandConstraints m u z = .ok l) : ∀ c ∈ l, GoodWeight c := by
  obtain ⟨c1, h1, h⟩ := bind_ok h
  obtain ⟨c2, h2, h⟩ := bind_ok h
  cases h
  exact good_cons (goodWeight_hard (le_hard h1)) (good_cons (goodWeight_hard (le_hard h2)) good_nil)

theorem soft_good {e : Expr ℝ} {c : Constr ℝ} {w : ℝ} (hw : 0 ≤ w) (h : e.eqDouble 0 = .ok c) : GoodWeight (c.configureP .soft w) := by
  refine ⟨fun _ => hw, fun h' => ?_⟩
  simp [Constr.softIneq, Constr.configureP, (eq_hard h).2] at h'

theorem softZero_good {w : ℝ} {e : Except Err (Expr ℝ)} {l : List (Constr ℝ)} (h : softZero w e = .ok l) : ∀ c ∈ l, GoodWeight c := by
  unfold softZero at h
  split at h
  · rename_i hw
    obtain ⟨e', -, h⟩ := bind_ok h
    obtain ⟨c, h1, h⟩ := bind_ok h
    cases h
    exact good_cons (soft_good hw.le h1) good_nil
  · cases h
    exact good_nil

theorem addIf_good {b : Bool} {x : Except Err (List (Constr ℝ))} {l : List (Constr ℝ)} (h : addIf b x = .ok l)
    (hx : ∀ l, x = .ok l → ∀ c ∈ l, GoodWeight c) : ∀ c ∈ l, GoodWeight c := by
  unfold addIf at h
  split at h
  · exact hx l h
  · cases h
    exact good_nil

theorem contact_good {c : Contact ℝ} {f : Expr ℝ} {l : List (Constr ℝ)} (h : c.constraints f = .ok l) : ∀ k ∈ l, GoodWeight k := by
  unfold Contact.constraints at h
  split at h
  · obtain ⟨u, h1, h⟩ := bind_ok h
    obtain ⟨o1, h2, h⟩ := bind_ok h
    obtain ⟨o2, h3, h⟩ := bind_ok h
    cases h
    refine good_append (good_append (addIf_good h1 fun l hl => ?_) (softZero_good h2)) (softZero_good h3)
    obtain ⟨fs, -, hl⟩ := bind_ok hl
    obtain ⟨z, -, hl⟩ := bind_ok hl
    obtain ⟨x, -, hl⟩ := bind_ok hl
    obtain ⟨y, -, hl⟩ := bind_ok hl
    obtain ⟨c0, g0, hl⟩ := bind_ok hl
    obtain ⟨b1, g1, hl⟩ := bind_ok hl
    obtain ⟨b2, g2, hl⟩ := bind_ok hl
    cases hl
    exact good_cons (goodWeight_hard (ge_hard g0)) (good_append (band_good g1) (band_good g2))
  · obtain ⟨u, h1, h⟩ := bind_ok h
    obtain ⟨o1, h2, h⟩ := bind_ok h
    obtain ⟨o2, h3, h⟩ := bind_ok h
    obtain ⟨o3, h4, h⟩ := bind_ok h
    cases h
    refine good_append (good_append (good_append (addIf_good h1 fun l hl => ?_) (softZero_good h2)) (softZero_good h3)) (softZero_good h4)
    unfold planarUnilateral at hl
    split at hl
    · cases hl
    · obtain ⟨z, -, hl⟩ := bind_ok hl
      obtain ⟨x, -, hl⟩ := bind_ok hl
      obtain ⟨y, -, hl⟩ := bind_ok hl
      obtain ⟨mx, -, hl⟩ := bind_ok hl
      obtain ⟨my, -, hl⟩ := bind_ok hl
      obtain ⟨c0, g0, hl⟩ := bind_ok hl
      obtain ⟨b1, g1, hl⟩ := bind_ok hl
      obtain ⟨b2, g2, hl⟩ := bind_ok hl
      obtain ⟨b3, g3, hl⟩ := bind_ok hl
      obtain ⟨b4, g4, hl⟩ := bind_ok hl
      cases hl
      exact good_cons (goodWeight_hard (ge_hard g0))
        (good_append (good_append (good_append (band_good g1) (band_good g2)) (band_good g3)) (band_good g4))
  · obtain ⟨u, h1, h⟩ := bind_ok h
    obtain ⟨o1, h2, h⟩ := bind_ok h
    obtain ⟨o2, h3, h⟩ := bind_ok h
    obtain ⟨o3, h4, h⟩ := bind_ok h
    cases h
    refine good_append (good_append (good_append (addIf_good h1 fun l hl => ?_) (softZero_good h2)) (softZero_good h3)) (softZero_good h4)
    unfold lineUnilateral at hl
    split at hl
    · cases hl
    · obtain ⟨fs, -, hl⟩ := bind_ok hl
      obtain ⟨z, -, hl⟩ := bind_ok hl
      obtain ⟨c0, g0, hl⟩ := bind_ok hl
      obtain ⟨my, -, hl⟩ := bind_ok hl
      obtain ⟨b1, g1, hl⟩ := bind_ok hl
      obtain ⟨x, -, hl⟩ := bind_ok hl
      obtain ⟨b2, g2, hl⟩ := bind_ok hl
      obtain ⟨y, -, hl⟩ := bind_ok hl
      obtain ⟨b3, g3, hl⟩ := bind_ok hl
      cases hl
      exact good_cons (goodWeight_hard (ge_hard g0)) (good_append (good_append (band_good g1) (band_good g2)) (band_good g3))
  · obtain ⟨k, h1, h⟩ := bind_ok h
    cases h
    exact good_cons (goodWeight_hard (eq_hard h1).1) good_nil
  · exact softZero_good h
  · exact softZero_good h

theorem addContacts_good (N : Nat) (robot : RState ℝ) : ∀ (contacts : List (Contact ℝ)) (n m : Nat) (js : List (Mat ℝ × Expr ℝ))
    (cc : List (Constr ℝ)), addContacts N robot n contacts = .ok (m, js, cc) → ∀ c ∈ cc, GoodWeight c
  | [], n, m, js, cc, h => by
    rw [addContacts] at h
    cases h
    exact good_nil
  | k :: ks, n, m, js, cc, h => by
    rw [addContacts] at h
    split at h
    · obtain ⟨J, -, h⟩ := bind_ok h
      obtain ⟨f, -, h⟩ := bind_ok h
      obtain ⟨l, h1, h⟩ := bind_ok h
      obtain ⟨⟨n', js', l'⟩, h2, h⟩ := bind_ok h
      cases h
      exact good_append (contact_good h1) (addContacts_good N robot ks _ _ _ _ h2)
    · exact addContacts_good N robot ks _ _ _ _ h

theorem zeroConstraint_good {e : Except Err (Expr ℝ)} {l : List (Constr ℝ)} (h : zeroConstraint e = .ok l) : ∀ c ∈ l, GoodWeight c := by
  obtain ⟨e', -, h⟩ := bind_ok h
  obtain ⟨c, h1, h⟩ := bind_ok h
  cases h
  exact good_cons (goodWeight_hard (eq_hard h1).1) good_nil

theorem limitConstraints_good {sqrt : ℝ → ℝ} {r : DynRobot ℝ} {s : DState ℝ} {n : Nat} {tau : Expr ℝ} {l : List (Constr ℝ)}
    (h : limitConstraints sqrt r s n tau = .ok l) : ∀ c ∈ l, GoodWeight c := by
  obtain ⟨_, -, h⟩ := bind_ok h
  obtain ⟨t, h1, h⟩ := bind_ok h
  obtain ⟨j, h2, h⟩ := bind_ok h
  cases h
  refine good_append (addIf_good h1 fun l hl => ?_) (addIf_good h2 fun l hl => ?_)
  · obtain ⟨a, -, hl⟩ := bind_ok hl
    obtain ⟨u, -, hl⟩ := bind_ok hl
    obtain ⟨c1, g1, hl⟩ := bind_ok hl
    obtain ⟨v, -, hl⟩ := bind_ok hl
    obtain ⟨c2, g2, hl⟩ := bind_ok hl
    cases hl
    exact good_cons (goodWeight_hard (le_hard g1)) (good_cons (goodWeight_hard (ge_hard g2)) good_nil)
  · obtain ⟨e, -, hl⟩ := bind_ok hl
    obtain ⟨c, g1, hl⟩ := bind_ok hl
    cases hl
    exact good_cons (goodWeight_hard (le_hard g1)) good_nil

theorem dtask_good {tau : Expr ℝ} {t : DTask ℝ} (hw : t.priority = .soft → 0 ≤ t.weight) {M : TaskMat ℝ} {l : List (Constr ℝ)}
    (h : dtaskConstraint tau t M = .ok l) : ∀ c ∈ l, GoodWeight c := by
  unfold dtaskConstraint at h
  split at h
  · cases h
    exact good_nil
  · split at h
    · cases h
    · obtain ⟨e, -, h⟩ := bind_ok h
      obtain ⟨c, h1, h⟩ := bind_ok h
      cases h
      refine good_cons ?_ good_nil
      by_cases hp : t.priority = .soft
      · rw [if_pos hp]
        exact soft_good (hw hp) h1
      · rw [if_neg hp]
        exact goodWeight_hard rfl

theorem flatten_good {ls : List (List (Constr ℝ))} (h : ∀ l ∈ ls, ∀ c ∈ l, GoodWeight c) : ∀ c ∈ ls.flatten, GoodWeight c := by
  intro c hc
  obtain ⟨l, h1, h2⟩ := List.mem_flatten.1 hc
  exact h l h1 c h2

/-! ## Building -/

/-- A task with its matrix. -/
def withMat {α β : Type} (f : α → Except Err β) (a : α) : Except Err (α × β) := (f a).map fun b => (a, b)

theorem zip_mapM {α β : Type} (f : α → Except Err β) : ∀ {l : List α} {r : List β}, l.mapM f = .ok r → l.mapM (withMat f) = .ok (l.zip r)
  | [], r, h => by
    cases h
    rfl
  | a :: l, r, h => by
    rw [List.mapM_cons] at h
    obtain ⟨b, h1, h⟩ := bind_ok h
    obtain ⟨bs, h2, h⟩ := bind_ok h
    cases h
    rw [List.mapM_cons, zip_mapM f h2]
    unfold withMat
    rw [h1]
    rfl

theorem unzip_mapM {α β : Type} (f : α → Except Err β) : ∀ {l : List α} {r : List (α × β)}, l.mapM (withMat f) = .ok r →
    l.mapM f = .ok (r.map Prod.snd) ∧ r = l.zip (r.map Prod.snd)
  | [], r, h => by
    cases h
    exact ⟨rfl, rfl⟩
  | a :: l, r, h => by
    rw [List.mapM_cons] at h
    obtain ⟨b, h1, h⟩ := bind_ok h
    obtain ⟨bs, h2, h⟩ := bind_ok h
    cases h
    obtain ⟨h3, h4⟩ := unzip_mapM f h2
    unfold withMat at h1
    cases hf : f a with
    | error e => rw [hf] at h1; cases h1
    | ok m =>
      rw [hf] at h1
      cases h1
      refine ⟨?_, ?_⟩
      · rw [List.mapM_cons, hf, h3]
        rfl
      · rw [List.map_cons, List.zip_cons_cons, ← h4]

/-- With the tasks and the constraints in another order, the same problem is built up to the order of its constraints. -/
theorem build_perm {env : DEnv ℝ} {r : DynRobot ℝ} {tasks tasks' : List (DTask ℝ)} (ht : tasks.Perm tasks') {contacts : List (Contact ℝ)}
    {cons cons' : List (DConstraint ℝ)} (hc : cons.Perm cons') {s : DState ℝ} {p : Built ℝ}
    (h : build env r tasks contacts cons s = .ok p) :
    ∃ cs', build env r tasks' contacts cons' s = .ok { p with cs := cs' } ∧ p.cs.Perm cs' := by
  unfold build at h ⊢
  simp only at h ⊢
  obtain ⟨qdd, h1, h⟩ := bind_ok h
  obtain ⟨cm, h2, h⟩ := bind_ok h
  obtain ⟨mats, h3, h⟩ := bind_ok h
  obtain ⟨tau0, h4, h⟩ := bind_ok h
  obtain ⟨⟨n, js, cc⟩, h5, h⟩ := bind_ok h
  obtain ⟨tau, h6, h⟩ := bind_ok h
  obtain ⟨cl, h7, h⟩ := bind_ok h
  obtain ⟨ct, h8, h⟩ := bind_ok h
  obtain ⟨cu, h9, h⟩ := bind_ok h
  obtain ⟨cf, h10, h⟩ := bind_ok h
  obtain ⟨e, h11, h⟩ := bind_ok h
  obtain ⟨k, h12, h⟩ := bind_ok h
  cases h
  obtain ⟨z', g1, g2⟩ := mapM_perm _ ht (zip_mapM _ h3)
  obtain ⟨g3, g4⟩ := unzip_mapM _ g1
  obtain ⟨ct', g5, g6⟩ := mapM_perm _ g2 h8
  obtain ⟨cu', g7, g8⟩ := mapM_perm _ hc h9
  rw [g4] at g5
  refine ⟨cm ++ cc ++ cl ++ ct'.flatten ++ cu'.flatten ++ cf ++ [k.configureP .soft s.torqueCost], ?_, ?_⟩
  · simp only [h1, h2, h4, h5, h6, h7, h10, h11, h12, g3, g5, g7, Bind.bind, Except.bind]
    rfl
  · refine ((((g6.flatten.append_left _).append_right _).trans (g8.flatten.append_left _)).append_right _).append_right _

theorem related_to {α β : Type} {R : α → β → Prop} {l : List α} {l' : List β} (h : List.Forall₂ R l l') : ∀ b ∈ l', ∃ a ∈ l, R a b := by
  induction h with
  | nil => intro b hb; cases hb
  | cons h1 _ ih =>
    intro b hb
    rcases List.mem_cons.1 hb with rfl | hb
    · exact ⟨_, List.mem_cons_self, h1⟩
    · obtain ⟨a, h2, h3⟩ := ih b hb
      exact ⟨a, List.mem_cons_of_mem _ h2, h3⟩

theorem rowVal_agree (e : Expr ℝ) (n : Nat) (he : e.cols ≤ n) (x y : Nat → ℝ) (h : ∀ k, k < n → x k = y k) : e.rowVal x = e.rowVal y := by
  funext i
  unfold Expr.rowVal
  congr 1
  exact sum_congr rfl fun j hj => by rw [h j (by have := mem_range.1 hj; omega)]

/-- **C163 (inverse dynamics).** With a positive regularisation, a torque cost and weights of the soft tasks that are not negative,
constraints whose soft equalities have weights that are not negative and whose soft inequalities have positive weights, and exact
external solvers: when `solve` returns a result, successful or not, it returns the same result and the same robot state whatever the
order of the tasks and of the constraints. -/
theorem C163_dynamics (env : DEnv ℝ) (r : DynRobot ℝ) (tasks tasks' : List (DTask ℝ)) (contacts : List (Contact ℝ))
    (cons cons' : List (DConstraint ℝ)) (integrate : Bool) (s : DState ℝ) (ht : tasks.Perm tasks') (hc : cons.Perm cons')
    (hreg : 0 < env.regularization) (htol : 0 ≤ env.tol) (hcost : 0 ≤ s.torqueCost) (hw : ∀ t ∈ tasks, t.priority = .soft → 0 ≤ t.weight)
    (hw' : ∀ k ∈ cons, ∀ tau l, k.add s tau = .ok l → ∀ c ∈ l, GoodWeight c)
    (hex : env.toQPEnv.Exact) (rs : RState ℝ) (res : Result ℝ)
    (h : solve env r tasks contacts cons integrate s = (rs, .ok res)) : solve env r tasks' contacts cons' integrate s = (rs, .ok res) := by
  rw [← h]
  cases hb : build env r tasks contacts cons s with
  | error e =>
    unfold solve at h
    rw [hb] at h
    cases h
  | ok p =>
    obtain ⟨cs', hb', hp⟩ := build_perm (env := env) ht hc hb
    have P := build_spec env r tasks contacts cons s p hb
    have good : ∀ c ∈ p.cs, GoodWeight c := by
      obtain ⟨cm, cc, cl, mats, ct, cu, cf, c, e, q1, q2, q3, q4, q5, q6, q7, ee, k, q8, q9, rfl⟩ := P.parts
      rw [e]
      refine good_append (good_append (good_append (good_append (good_append (good_append ?_ ?_) ?_) ?_) ?_) ?_) (good_cons ?_ good_nil)
      · exact addIf_good q1 fun l hl => zeroConstraint_good hl
      · exact addContacts_good _ _ _ _ _ _ _ q2
      · exact limitConstraints_good q3
      · refine flatten_good fun l hl => ?_
        obtain ⟨q, hq, hql⟩ := mapM_mem _ q5 l hl
        exact dtask_good (hw q.1 (List.of_mem_zip hq).1) hql
      · refine flatten_good fun l hl => ?_
        obtain ⟨q, hq, hql⟩ := mapM_mem _ q6 l hl
        exact hw' q hq _ l hql
      · exact addIf_good q7 fun l hl => zeroConstraint_good hl
      · exact soft_good hcost q9
    obtain ⟨k1, -⟩ := C163_problem (env.settings p.n) rfl hreg env.qr hex.1 env.oracle hex.2 env.tol htol p.cs cs' hp
      (fun c hcm => (good c hcm).1) (fun c hcm => (good c hcm).2) ⟨[], []⟩ (by simp)
    unfold solve
    simp only [hb, hb', k1]
    cases hs : (Problem.solve (env.settings p.n) env.qr env.oracle env.tol p.cs ⟨[], []⟩).2 with
    | error e => cases e <;> rfl
    | ok u =>
      have hs' := k1.trans hs
      cases hq : assemble (env.settings p.n) env.qr p.cs with
      | error e => unfold Problem.solve at hs; simp only [hq] at hs; cases hs
      | ok qp =>
        cases hq' : assemble (env.settings p.n) env.qr cs' with
        | error e => unfold Problem.solve at hs'; simp only [hq'] at hs'; cases hs'
        | ok qp' =>
          have i1 := (solve_point _ _ _ _ _ _ _ hq hs).2
          have i2 := (solve_point _ _ _ _ _ _ _ hq' hs').2
          have e : ∀ k, k < p.n → qp'.recover p.n (env.oracle qp').x k = qp.recover p.n (env.oracle qp).x k := order_point (env.settings p.n) rfl hreg env.qr hex.1 env.oracle hex.2 hp (fun c hcm => (good c hcm).1)
            (fun c hcm => (good c hcm).2) hq hq' i1 i2
          have hx : solutionX env.toQPEnv p.n p.cs = qp.recover p.n (env.oracle qp).x := by unfold solutionX; rw [hq]
          have hx' : solutionX env.toQPEnv p.n cs' = qp'.recover p.n (env.oracle qp').x := by unfold solutionX; rw [hq']
          have hrr : readResult p.qdd p.js p.tau (solutionX env.toQPEnv p.n cs') = readResult p.qdd p.js p.tau (solutionX env.toQPEnv p.n p.cs) := by
            rw [hx, hx']
            have f1 := rowVal_agree p.qdd p.n (by rw [P.qdd]; exact P.chain.le) _ _ e
            have f2 := rowVal_agree p.tau p.n (le_of_eq P.tauCols) _ _ e
            have f3 : ∀ q ∈ p.js, q.2.rowVal (qp'.recover p.n (env.oracle qp').x) = q.2.rowVal (qp.recover p.n (env.oracle qp).x) := by
              intro q hq
              obtain ⟨c, -, hcq⟩ := related_to P.contactsOK q hq
              exact rowVal_agree q.2 p.n hcq.2.2.1 _ _ e
            unfold readResult
            rw [f1, f2]
            congr 1
            · funext i
              congr 1
              exact List.map_congr_left fun q hq => by rw [f3 q hq]
            · exact List.map_congr_left f3
          simp only [hrr]

/-! ## A case that meets the hypotheses -/

/-- A floating base and one joint, of unit inertias, without gravity. -/
noncomputable def orderJoint : DynRobot ℝ :=
  { nq := 8, nv := 7, joints := [], lower := fun _ => 0, upper := fun _ => 0, vlim := fun _ => 0, integrate := fun q v i => q i + v i,
    difference := fun q q' i => q' i - q i, mass := fun _ i j => if i = j then 1 else 0, gravity := fun _ _ => 0, nle := fun _ _ => 0,
    effort := fun _ => 0 }

noncomputable def oneState : DState ℝ :=
  { robot := ⟨fun _ => 0, fun _ => 0, fun _ => 0⟩, dt := 1, damping := 0, torqueCost := 1, qddSafe := fun _ => 1 }

/-- A soft task on the acceleration of the joint. -/
noncomputable def jointAccel (b w : ℝ) : DTask ℝ :=
  { priority := .soft, weight := w, update := fun _ => .ok ⟨1, 7, fun _ j => if j = 6 then 1 else 0, fun _ => b⟩ }

/-- Exact external solvers exist, and with them two soft tasks are solved; so they are in both orders. -/
example : ∃ env : DEnv ℝ, 0 < env.regularization ∧ 0 ≤ env.tol ∧ env.toQPEnv.Exact ∧
    ∃ rs res, res.success = true ∧ solve env orderJoint [jointAccel 1 2, jointAccel 3 4] [] [] true oneState = (rs, .ok res) ∧
      solve env orderJoint [jointAccel 3 4, jointAccel 1 2] [] [] true oneState = (rs, .ok res) := by
  obtain ⟨qr, hqr⟩ := exactQR_exists
  obtain ⟨oracle, ho⟩ := exact_solver_exists
  refine ⟨⟨⟨1, true, 1, 0, qr, oracle⟩, fun x => x⟩, one_pos, le_refl _, ⟨hqr, ho⟩, ?_⟩
  generalize henv : (⟨⟨1, true, 1, 0, qr, oracle⟩, fun x => x⟩ : DEnv ℝ) = env
  have hex : env.toQPEnv.Exact := by subst henv; exact ⟨hqr, ho⟩
  have horc : ∀ qp, SolvesExactly qp (env.oracle qp) := by subst henv; exact ho
  have hregs : 0 < env.regularization := by subst henv; exact one_pos
  have htol : 0 ≤ env.tol := by subst henv; exact le_refl _
  have hrew : env.rewriteEqualities = true := by subst henv; rfl
  obtain ⟨a, b, f, c, q, tau, hb, p1, p2, p3, p4, k1, k2, k3, k4, hrows, hb0, hf⟩ : ∃ (a b f c : Constr ℝ) (q tau : Expr ℝ),
      build env orderJoint [jointAccel 1 2, jointAccel 3 4] [] [] oneState = .ok ⟨7, q, [], tau, [a, b, f, c]⟩ ∧
      (a.priority = .soft ∧ a.ty = .equality ∧ a.weight = 2) ∧ (b.priority = .soft ∧ b.ty = .equality ∧ b.weight = 4) ∧
      (f.priority = .hard ∧ f.ty = .equality) ∧ (c.priority = .soft ∧ c.ty = .equality ∧ c.weight = 1) ∧
      checkConstr 7 a = .ok () ∧ checkConstr 7 b = .ok () ∧ checkConstr 7 f = .ok () ∧ checkConstr 7 c = .ok () ∧
      f.expr.rows = 6 ∧ (∀ i, f.expr.b i = 0) ∧ ∀ i k, i < 6 → k < 7 → f.expr.pad i k = if i = k then 1 else 0 := by
    refine ⟨_, _, _, _, _, _, rfl, ⟨rfl, rfl, rfl⟩, ⟨rfl, rfl, rfl⟩, ⟨rfl, rfl⟩, ⟨rfl, rfl, rfl⟩, rfl, rfl, rfl, rfl, rfl, ?_, ?_⟩
    · intro i
      simp [Expr.smul, Expr.fromDouble, Expr.piecewiseAdd, biasVec, orderJoint, oneState]
    · intro i k hi hk
      simp [Expr.pad, Expr.smul, Expr.fromDouble, Expr.piecewiseAdd, biasVec, orderJoint, oneState, hk]
  have hfe : f.hardEq = true := by simp [Constr.hardEq, p3.1, p3.2]
  have hsoft : ∀ k ∈ [a, b, f, c], GoodWeight k := by
    refine good_cons ?_ (good_cons ?_ (good_cons (goodWeight_hard p3.1) (good_cons ?_ good_nil)))
    · exact ⟨fun _ => by rw [p1.2.2]; norm_num, fun h => by simp [Constr.softIneq, p1.2.1] at h⟩
    · exact ⟨fun _ => by rw [p2.2.2]; norm_num, fun h => by simp [Constr.softIneq, p2.2.1] at h⟩
    · exact ⟨fun _ => by rw [p4.2.2]; norm_num, fun h => by simp [Constr.softIneq, p4.2.1] at h⟩
  have hind : RowsIndep 7 (nEqualities [a, b, f, c]) (equalities [a, b, f, c]).A := by
    rw [rowsIndep_iff]
    intro ps hps hcomb
    have ra : eqRowsOf a = 0 := by simp [eqRowsOf, Constr.hardEq, p1.1]
    have rb : eqRowsOf b = 0 := by simp [eqRowsOf, Constr.hardEq, p2.1]
    have rc : eqRowsOf c = 0 := by simp [eqRowsOf, Constr.hardEq, p4.1]
    have rf : eqRowsOf f = 6 := by simp [eqRowsOf, hfe, hrows]
    match ps, hps with
    | [⟨_, wa⟩, ⟨_, wb⟩, ⟨_, wf⟩, ⟨_, wc⟩], rfl =>
      simp only [comb, List.map_cons, List.map_nil, List.sum_cons, List.sum_nil, ra, rb, rc, rf, range_zero, sum_empty, zero_add,
        add_zero] at hcomb
      intro p hp i hi
      simp only [List.mem_cons, List.not_mem_nil, or_false] at hp
      rcases hp with rfl | rfl | rfl | rfl
      · simp only [ra] at hi; omega
      · simp only [rb] at hi; omega
      · simp only [rf] at hi
        have := hcomb i (by omega)
        rw [sum_congr rfl fun j hj => by rw [hf j i (mem_range.1 hj) (by omega)]] at this
        simpa [hi] using this
      · simp only [rc] at hi; omega
  obtain ⟨qp, hqp⟩ : ∃ qp, assemble (env.settings 7) env.qr [a, b, f, c] = .ok qp := by
    have hend := assembleEnd_eq (env.settings 7) env.qr [a, b, f, c]
    have hchk : ∀ k ∈ [a, b, f, c], checkConstr (env.settings 7).n k = .ok () := by
      intro k hk
      simp only [List.mem_cons, List.not_mem_nil, or_false] at hk
      rcases hk with rfl | rfl | rfl | rfl <;> assumption
    have hub : equalitiesUB 7 [a, b, f, c] = false := by
      have hz : ¬ 7 < f.expr.cols ∧ f.brows = f.expr.rows := by
        unfold checkConstr at k3
        split at k3
        · cases k3
        · rename_i h7
          split at k3
          · cases k3
          · split at k3
            · cases k3
            · exact ⟨h7, by omega⟩
      simp [equalitiesUB, Constr.hardEq, p1.1, p2.1, p4.1, hz.1, hz.2]
    rw [if_neg (by rw [show (env.settings 7).n = 7 from rfl, hub]; decide), if_neg (fun h => h.2.2 ((hex.1.equalities hub).full hind)), if_pos hchk] at hend
    unfold assembleEnd at hend
    cases hq : assemble (env.settings 7) env.qr [a, b, f, c] with
    | error e => rw [hq] at hend; cases hend
    | ok qp => exact ⟨qp, rfl⟩
  have hok := (C144_solve_partial (env.settings 7) env.qr [a, b, f, c] qp (hex.1.contract hqp) (.inl hrew) hqp hregs
    (fun k hk => (hsoft k hk).1) (fun k hk => (hsoft k hk).2) env.tol env.tol htol htol ⟨[], []⟩ (by simp) env.oracle env.oracle
    (horc qp) (horc qp)).1.2 ⟨fun _ => 0, fun k hk h => by
      simp only [List.mem_cons, List.not_mem_nil, or_false] at hk
      rcases hk with rfl | rfl | rfl | rfl
      · rw [p1.1] at h; cases h
      · rw [p2.1] at h; cases h
      · rw [sat_equality _ p3.2]
        intro i _
        simp [Expr.rowVal, hb0]
      · rw [p4.1] at h; cases h⟩
  have hs : ∃ rs res, res.success = true ∧ solve env orderJoint [jointAccel 1 2, jointAccel 3 4] [] [] true oneState = (rs, .ok res) := by
    unfold solve
    simp only [hb, hok]
    rw [if_pos trivial, if_neg (by exact one_ne_zero)]
    exact ⟨_, _, rfl, rfl⟩
  obtain ⟨rs, res, h1, h2⟩ := hs
  refine ⟨rs, res, h1, h2, C163_dynamics env orderJoint _ _ [] [] [] true oneState (List.Perm.swap _ _ _) (List.Perm.refl _) hregs htol
    (by exact zero_le_one) ?_ (by simp) hex rs res h2⟩
  intro t ht _
  simp only [List.mem_cons, List.not_mem_nil, or_false] at ht
  rcases ht with rfl | rfl <;> norm_num [jointAccel]

end Verif.Dynamics
