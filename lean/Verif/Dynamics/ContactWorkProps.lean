/-
Properties of the contacts of the dynamics solver (C148): the generalised force they apply does the work of their
wrenches on the velocities of the constrained motions, external wrenches are imposed exactly, and the cost of a wrench is
the one given by the three weights.
-/
import Verif.Dynamics.ContactsProps
import Verif.Dynamics.TasksProps

namespace Verif.Dynamics
open Finset Verif.Problem Verif.Kinematics

section
variable {K : Type} [Field K] [LinearOrder K] [IsStrictOrderedRing K]

/-! ## Work -/

/-- Specification: velocity `row i` of a matrix-valued motion for the joint velocities `v`. -/
def rowVelocity (N : Nat) (M : Nat → Nat → K) (v : Nat → K) (i : Nat) : K := ∑ j ∈ range N, M i j * v j

/-- Specification: the power of the wrench `w` of a contact when the joints move at velocity `v`. -/
def contactPower (N : Nat) (robot : RState K) (c : Contact K) (w v : Nat → K) : K :=
  match c.kind with
  | .point posA _ _ => ∑ i ∈ range 3, w i * rowVelocity N (posA robot).m v i
  | .planar jac _ _ _ => ∑ i ∈ range 6, w i * rowVelocity N (jac robot) v i
  | .line jac oriA _ _ _ => (∑ i ∈ range 3, w i * rowVelocity N (jac robot) v i) +
      (w 3 * rowVelocity N (oriA robot).m v 0 + w 4 * rowVelocity N (oriA robot).m v 1)
  | .external jac _ => ∑ i ∈ range 6, w i * rowVelocity N (jac robot) v i
  | .puppet => ∑ i ∈ range N, w i * v i
  | .task A => ∑ i ∈ range (A robot).rows, w i * rowVelocity N (A robot).m v i

/-- The tasks of point and line contacts have the shapes the solver asks for. -/
def ContactShape (N : Nat) (robot : RState K) (c : Contact K) : Prop :=
  match c.kind with
  | .point posA _ _ => (posA robot).rows = 3
  | .line _ oriA _ _ _ => (oriA robot).rows = 2 ∧ (oriA robot).cols = N
  | _ => True

theorem update_shape_iff (N : Nat) (robot : RState K) (c : Contact K) :
    (∃ J, c.update N robot = .ok J) ↔ ContactShape N robot c := by
  unfold Contact.update ContactShape
  cases c.kind with
  | point posA R u =>
    by_cases h : (posA robot).rows = 3
    · simp only [h, ne_eq, not_true_eq_false, if_false, iff_true]
      exact ⟨_, rfl⟩
    · simp [h]
  | line jac oriA R u l =>
    by_cases h : (oriA robot).rows = 2
    · by_cases h' : (oriA robot).cols = N
      · simp only [h, h', ne_eq, not_true_eq_false, if_false, and_self, iff_true]
        exact ⟨_, rfl⟩
      · simp [h, h']
    · simp [h]
  | planar jac u l w => simp
  | external jac w => simp
  | puppet => simp
  | task A => simp

theorem update_power {N : Nat} {robot : RState K} {c : Contact K} {J : Mat K} (h : c.update N robot = .ok J)
    (w v : Nat → K) : ∑ k ∈ range J.rows, w k * rowVelocity N J.m v k = contactPower N robot c w v := by
  unfold Contact.update at h
  unfold contactPower
  cases hk : c.kind with
  | point posA R u =>
    rw [hk] at h
    simp only at h ⊢
    split at h
    · cases h
    · rename_i hr
      push Not at hr
      cases h
      rw [hr]
  | line jac oriA R u l =>
    rw [hk] at h
    simp only at h ⊢
    split at h
    · cases h
    split at h
    · cases h
    cases h
    simp [sum_range_succ, rowVelocity]
    ring
  | planar jac u l w => rw [hk] at h; cases h; rfl
  | external jac w => rw [hk] at h; cases h; rfl
  | puppet =>
    rw [hk] at h; cases h
    refine sum_congr rfl fun i hi => ?_
    congr 1
    unfold rowVelocity
    rw [sum_eq_single i (fun j _ hj => by simp [Ne.symm hj]) (fun hn => absurd hi hn)]
    simp
  | task A => rw [hk] at h; cases h; rfl

theorem generalised_power {N : Nat} {robot : RState K} (cs : List (Contact K)) (Js : List (Mat K))
    (ws : List (Nat → K)) (h : cs.mapM (fun c => c.update N robot) = .ok Js) (v : Nat → K) :
    ∑ i ∈ range N, generalised Js ws i * v i =
      ((cs.zip ws).map fun p => contactPower N robot p.1 p.2 v).sum := by
  induction cs generalizing Js ws with
  | nil => cases h; simp [generalised]
  | cons c cs ih =>
    rw [List.mapM_cons] at h
    obtain ⟨J, h1, h⟩ := bind_ok h
    obtain ⟨Js', h2, h⟩ := bind_ok h
    cases h
    cases ws with
    | nil => simp [generalised]
    | cons w ws =>
      have hsplit : ∀ i, generalised (J :: Js') (w :: ws) i = (∑ k ∈ range J.rows, J.m k i * w k) + generalised Js' ws i := by
        intro i
        simp [generalised]
      rw [List.zip_cons_cons, List.map_cons, List.sum_cons, ← ih Js' ws h2, ← update_power h1 w v]
      simp only [hsplit, add_mul, sum_add_distrib]
      congr 1
      unfold rowVelocity
      simp only [mul_sum, sum_mul]
      rw [sum_comm]
      exact sum_congr rfl fun k _ => sum_congr rfl fun i _ => by ring

/-- **C148 (work).** After a successful solve, whatever the contacts, the tasks of all the active point and line contacts
have the shapes they must have, and for every joint velocity `v` the generalised force `tau_contacts` works like the
wrenches on the motions they constrain: `tau_contacts · v` is the sum, over the active contacts, of force times velocity. -/
theorem C148_work (env : DEnv K) (hS : env.toQPEnv.Sound) (r : DynRobot K) (tasks : List (DTask K))
    (contacts : List (Contact K)) (cons : List (DConstraint K)) (integrate : Bool) (s : DState K) (rs : RState K)
    (res : Result K) (h : solve env r tasks contacts cons integrate s = (rs, .ok res)) (hok : res.success = true) :
    (∀ c ∈ contacts, c.active = true → ContactShape r.nv s.robot c) ∧
      res.wrenches.length = (contacts.filter (·.active)).length ∧
      ∀ v, ∑ i ∈ range r.nv, res.tauContacts i * v i =
        (((contacts.filter (·.active)).zip res.wrenches).map fun p => contactPower r.nv s.robot p.1 p.2 v).sum := by
  obtain ⟨Js, h1, h2, -, h4, -⟩ := C57 env hS r tasks contacts cons integrate s rs res h hok
  refine ⟨fun c hc ha => ?_, ?_, fun v => ?_⟩
  · refine (update_shape_iff r.nv s.robot c).1 ?_
    obtain ⟨J, -, hJ⟩ := mapM_mem h1 (List.mem_filter.2 ⟨hc, ha⟩)
    exact ⟨J, hJ⟩
  · rw [h2]; exact ((mapM_cases _ _ _ h1).length_eq).symm
  · rw [← generalised_power _ _ _ h1 v]
    exact sum_congr rfl fun i hi => by rw [h4 i (mem_range.1 hi)]

/-! ## External wrenches -/

/-- The wrench of an external contact is the one that was given. -/
def WrenchGiven (c : Contact K) (w : Nat → K) : Prop :=
  match c.kind with
  | .external _ g => g.size = 6 → ∀ i, i < 6 → w i = g.v i
  | _ => True

theorem external_exact (c : Contact K) (jac : RState K → Nat → Nat → K) (g : Vec K) (hk : c.kind = .external jac g)
    (hg : g.size = 6) (f : Expr K) (hf : f.rows = 6) (l : List (Constr K)) (hl : c.constraints f = .ok l) (x : Nat → K) :
    HardSat l x ↔ ∀ i, i < 6 → f.rowVal x i = g.v i := by
  unfold Contact.constraints at hl
  rw [hk] at hl
  obtain ⟨k, h1, hl⟩ := bind_ok hl
  cases hl
  unfold Expr.eqVec Expr.eq Expr.sub at h1
  obtain ⟨d, h2, h1⟩ := bind_ok h1
  cases h1
  obtain ⟨d1, d2⟩ := Expr.add_rowVal_of_rows h2 (show f.rows = ((Expr.fromVector g).smul (-1)).rows from by
    rw [hf]; exact hg.symm)
  rw [HardSat_cons]
  have hd : ∀ i, i < 6 → d.rowVal x i = f.rowVal x i - g.v i := by
    intro i hi
    rw [d2 x i (by omega), Expr.rowVal_smul]
    simp [Expr.rowVal, Expr.fromVector]
    ring
  constructor
  · intro h i hi
    have h0 : ∀ i, i < d.rows → d.rowVal x i = 0 := h.1 rfl
    have := h0 i (by omega)
    rw [hd i hi] at this
    exact sub_eq_zero.1 this
  · intro h
    refine ⟨fun _ => ?_, HardSat_nil x⟩
    show ∀ i, i < d.rows → d.rowVal x i = 0
    intro i hi
    rw [hd i (by omega), h i (by omega), sub_self]

/-- **C148 (external wrenches).** After a successful solve, the wrench of every active external contact is exactly the one
that was given (six values). -/
theorem C148_external (env : DEnv K) (hS : env.toQPEnv.Sound) (r : DynRobot K) (tasks : List (DTask K))
    (contacts : List (Contact K)) (cons : List (DConstraint K)) (integrate : Bool) (s : DState K) (rs : RState K)
    (res : Result K) (h : solve env r tasks contacts cons integrate s = (rs, .ok res)) (hok : res.success = true) :
    List.Forall₂ WrenchGiven (contacts.filter (·.active)) res.wrenches := by
  rcases solve_cases env r tasks contacts cons integrate s rs _ h with ⟨-, hf⟩ | ⟨p, x, hb, hres, -, -, hsat, -⟩
  · rw [hf res rfl] at hok; cases hok
  cases hres
  have P := build_spec env r tasks contacts cons s p hb
  show List.Forall₂ WrenchGiven _ (p.js.map fun q => q.2.rowVal x)
  rw [List.forall₂_map_right_iff]
  refine P.contactsOK.imp fun c q hq => ?_
  obtain ⟨hu, hrow, -, -, l, hl, hmem⟩ := hq
  have hl' : HardSat l x := fun k hk hp => hsat hS k (hmem k hk) hp
  unfold WrenchGiven
  split
  · rename_i jac g hk
    intro hg i hi
    have hr : q.1.rows = 6 := by
      unfold Contact.update at hu
      rw [hk] at hu
      cases hu' : q.1 with
      | mk a b m => rw [hu'] at hu; cases hu; rfl
    exact (external_exact c jac g hk hg q.2 (by omega) l hl x).1 hl' i hi
  · trivial

/-! ## Costs -/

/-- Specification: what a wrench costs, with negative weights ignored. Line contacts are only accepted without forces
or tangential weights (`C60`). The tangential cost of planar contacts is on `fy` and `fz` (see `C61_refuted`). -/
def wrenchCost (N : Nat) (robot : RState K) (c : Contact K) (w : Nat → K) : K :=
  match c.kind with
  | .point _ R _ => max 0 c.weightForces * (w 0 ^ 2 + w 1 ^ 2 + w 2 ^ 2) +
      max 0 c.weightTangentials * (surface R w 0 ^ 2 + surface R w 1 ^ 2)
  | .planar _ _ _ _ => max 0 c.weightForces * (w 0 ^ 2 + w 1 ^ 2 + w 2 ^ 2) +
      max 0 c.weightTangentials * (w 1 ^ 2 + w 2 ^ 2) + max 0 c.weightMoments * (w 3 ^ 2 + w 4 ^ 2 + w 5 ^ 2)
  | .line _ _ _ _ _ => max 0 c.weightMoments * (w 3 ^ 2 + w 4 ^ 2)
  | .external _ _ => 0
  | .puppet => max 0 c.weightForces * ∑ i ∈ range N, w i ^ 2
  | .task A => max 0 c.weightForces * ∑ i ∈ range (A robot).rows, w i ^ 2

theorem softZero_cost {w : K} {e : Except Err (Expr K)} {l : List (Constr K)} (h : softZero w e = .ok l) (x : Nat → K)
    (g : K) (hg : ∀ t, e = .ok t → 0 < t.cols ∧ ∑ i ∈ range t.rows, t.rowVal x i ^ 2 = g) :
    pen l x = max 0 w * g := by
  by_cases hw : 0 < w
  · obtain ⟨t, h1, h2⟩ := softZero_pen h hw
    obtain ⟨g1, g2⟩ := hg t h1
    rw [h2 g1 x, ← g2, mul_sum, max_eq_right hw.le]
  · rw [(softZero_soft h).2.2 hw, max_eq_left (not_lt.1 hw)]
    simp [pen]

theorem le_hard {e o : Expr K} {c : Constr K} (h : e.le o = .ok c) : c.priority = .hard := by
  unfold Expr.le at h
  obtain ⟨d, -, h⟩ := bind_ok h
  cases h
  rfl

theorem geDouble_hard {e : Expr K} {f : K} {c : Constr K} (h : e.geDouble f = .ok c) : c.priority = .hard := by
  unfold Expr.geDouble Expr.ge at h
  obtain ⟨d, -, h⟩ := bind_ok h
  cases h
  rfl

theorem band_hard {s : K} {u z : Expr K} {l : List (Constr K)} (h : bandConstraints s u z = .ok l) :
    ∀ c ∈ l, c.priority = .hard := by
  unfold bandConstraints at h
  obtain ⟨c1, h1, h⟩ := bind_ok h
  obtain ⟨c2, h2, h⟩ := bind_ok h
  cases h
  intro c hc
  simp only [List.mem_cons, List.not_mem_nil, or_false] at hc
  rcases hc with rfl | rfl
  · exact le_hard h1
  · exact le_hard h2

theorem pointUnilateral_hard {mu : K} {R : Nat → Nat → K} {f : Expr K} {l : List (Constr K)}
    (h : pointUnilateral mu R f = .ok l) : ∀ c ∈ l, c.priority = .hard := by
  unfold pointUnilateral at h
  obtain ⟨fs, -, h⟩ := bind_ok h
  obtain ⟨z, -, h⟩ := bind_ok h
  obtain ⟨x, -, h⟩ := bind_ok h
  obtain ⟨y, -, h⟩ := bind_ok h
  obtain ⟨c0, h0, h⟩ := bind_ok h
  obtain ⟨bx, h1, h⟩ := bind_ok h
  obtain ⟨by', h2, h⟩ := bind_ok h
  cases h
  intro c hc
  rcases List.mem_cons.1 hc with rfl | hc
  · exact geDouble_hard h0
  rcases List.mem_append.1 hc with hc | hc
  · exact band_hard h1 c hc
  · exact band_hard h2 c hc

theorem planarUnilateral_hard {mu length width : K} {f : Expr K} {l : List (Constr K)}
    (h : planarUnilateral mu length width f = .ok l) : ∀ c ∈ l, c.priority = .hard := by
  unfold planarUnilateral at h
  split at h
  · cases h
  obtain ⟨z, -, h⟩ := bind_ok h
  obtain ⟨x, -, h⟩ := bind_ok h
  obtain ⟨y, -, h⟩ := bind_ok h
  obtain ⟨mx, -, h⟩ := bind_ok h
  obtain ⟨my, -, h⟩ := bind_ok h
  obtain ⟨c0, h0, h⟩ := bind_ok h
  obtain ⟨b1, h1, h⟩ := bind_ok h
  obtain ⟨b2, h2, h⟩ := bind_ok h
  obtain ⟨b3, h3, h⟩ := bind_ok h
  obtain ⟨b4, h4, h⟩ := bind_ok h
  cases h
  intro c hc
  rcases List.mem_cons.1 hc with rfl | hc
  · exact geDouble_hard h0
  rcases List.mem_append.1 hc with hc | hc
  · rcases List.mem_append.1 hc with hc | hc
    · rcases List.mem_append.1 hc with hc | hc
      · exact band_hard h1 c hc
      · exact band_hard h2 c hc
    · exact band_hard h3 c hc
  · exact band_hard h4 c hc

theorem addIf_hard {b : Bool} {e : Except Err (List (Constr K))} {l : List (Constr K)} (h : addIf b e = .ok l)
    (he : ∀ l, e = .ok l → ∀ c ∈ l, c.priority = .hard) (x : Nat → K) : pen l x = 0 := by
  obtain ⟨a1, a2⟩ := addIf_ok h
  cases b with
  | true => exact pen_hard l (he l (a1 rfl)) x
  | false => rw [a2 rfl]; simp [pen]

theorem slice_cost {f : Expr K} {start rows : Nat} (hc : 0 < f.cols) (x : Nat → K) :
    ∀ t, f.slice (start : Int) (rows : Int) = .ok t →
      0 < t.cols ∧ ∑ i ∈ range t.rows, t.rowVal x i ^ 2 = ∑ i ∈ range rows, f.rowVal x (start + i) ^ 2 := by
  intro t ht
  obtain ⟨-, s2, s3, s4⟩ := slice_ok ht
  exact ⟨by rw [s3]; exact hc, by rw [s2]; exact sum_congr rfl fun i _ => by rw [s4]⟩

/-- A 3 × 3 rotation cannot be applied to five values. -/
theorem rotate_five (R : Nat → Nat → K) (f : Expr K) (hf : f.rows = 5) (fs : Expr K) :
    Expr.matMul (rotT R) f ≠ .ok fs := by
  intro h
  have := (surface_rowVal h).1
  omega

/-- **C148 (costs).** Whatever the kind and the weights of a contact whose update succeeds, the soft constraints added for
it cost exactly what its weights say: nothing else is penalised, and the hard constraints cost nothing. -/
theorem C148_costs (N : Nat) (robot : RState K) (c : Contact K) (J : Mat K) (hJ : c.update N robot = .ok J) (f : Expr K)
    (hr : f.rows = J.rows) (hc : 0 < f.cols) (l : List (Constr K)) (hl : c.constraints f = .ok l) (x : Nat → K) :
    pen l x = wrenchCost N robot c (f.rowVal x) := by
  unfold Contact.constraints at hl
  unfold Contact.update at hJ
  unfold wrenchCost
  cases hk : c.kind with
  | point posA R u =>
    rw [hk] at hl
    simp only at hl ⊢
    unfold pointConstraints at hl
    obtain ⟨a, h1, hl⟩ := bind_ok hl
    obtain ⟨b, h2, hl⟩ := bind_ok hl
    obtain ⟨d, h3, hl⟩ := bind_ok hl
    cases hl
    rw [pen_append, pen_append, addIf_hard h1 (fun l => pointUnilateral_hard) x,
      softZero_cost h2 x _ (slice_cost (start := 0) (rows := 3) hc x), softZero_cost h3 x
        (surface R (f.rowVal x) 0 ^ 2 + surface R (f.rowVal x) 1 ^ 2) ?_]
    · simp only [sum_range_succ, sum_range_zero, zero_add]
    · intro t ht
      obtain ⟨fs, h4, h5⟩ := bind_ok ht
      obtain ⟨-, -, h6, -⟩ := matMul_ok h4
      obtain ⟨-, -, h7⟩ := surface_rowVal h4
      obtain ⟨g1, g2⟩ := slice_cost (start := 0) (rows := 2) (f := fs) (by rw [h6]; exact hc) x t h5
      refine ⟨g1, g2.trans ?_⟩
      simp only [sum_range_succ, sum_range_zero, zero_add, h7]
  | planar jac u length width =>
    rw [hk] at hl
    simp only at hl ⊢
    unfold planarConstraints at hl
    obtain ⟨a, h1, hl⟩ := bind_ok hl
    obtain ⟨b, h2, hl⟩ := bind_ok hl
    obtain ⟨d, h3, hl⟩ := bind_ok hl
    obtain ⟨e, h4, hl⟩ := bind_ok hl
    cases hl
    rw [pen_append, pen_append, pen_append, addIf_hard h1 (fun l => planarUnilateral_hard) x,
      softZero_cost h2 x _ (slice_cost (start := 0) (rows := 3) hc x),
      softZero_cost h3 x _ (slice_cost (start := 1) (rows := 2) hc x),
      softZero_cost h4 x _ (slice_cost (start := 3) (rows := 3) hc x)]
    simp only [sum_range_succ, sum_range_zero, zero_add]
  | line jac oriA R u length =>
    rw [hk] at hl hJ
    simp only at hl hJ ⊢
    have h5 : f.rows = 5 := by
      split at hJ
      · cases hJ
      split at hJ
      · cases hJ
      cases hJ
      exact hr
    unfold lineConstraints at hl
    obtain ⟨a, h1, hl⟩ := bind_ok hl
    obtain ⟨b, h2, hl⟩ := bind_ok hl
    obtain ⟨d, h3, hl⟩ := bind_ok hl
    obtain ⟨e, h4, hl⟩ := bind_ok hl
    cases hl
    rw [pen_append, pen_append, pen_append, addIf_hard h1 ?_ x,
      softZero_cost h4 x _ (slice_cost (start := 3) (rows := 2) hc x)]
    · have e2 : b = [] := by
        refine (softZero_soft h2).2.2 fun hw => ?_
        obtain ⟨t, k, g1, -⟩ := (softZero_soft h2).2.1 hw
        obtain ⟨fs, g2, -⟩ := bind_ok g1
        exact rotate_five R f h5 fs g2
      have e3 : d = [] := by
        refine (softZero_soft h3).2.2 fun hw => ?_
        obtain ⟨t, k, g1, -⟩ := (softZero_soft h3).2.1 hw
        obtain ⟨fs, g2, -⟩ := bind_ok g1
        exact rotate_five R f h5 fs g2
      rw [e2, e3]
      simp [pen, sum_range_succ]
    · intro l hl
      unfold lineUnilateral at hl
      split at hl
      · cases hl
      obtain ⟨fs, g2, -⟩ := bind_ok hl
      exact absurd g2 (rotate_five R f h5 fs)
  | external jac w =>
    rw [hk] at hl
    simp only at hl ⊢
    obtain ⟨k, h1, hl⟩ := bind_ok hl
    cases hl
    refine pen_hard _ (fun c hc => ?_) x
    rw [List.mem_singleton.1 hc]
    unfold Expr.eqVec Expr.eq at h1
    obtain ⟨d, -, h1⟩ := bind_ok h1
    cases h1
    rfl
  | puppet =>
    rw [hk] at hl hJ
    simp only at hl hJ ⊢
    cases hJ
    refine softZero_cost hl x _ fun t ht => ?_
    cases ht
    exact ⟨hc, by rw [hr]⟩
  | task A =>
    rw [hk] at hl hJ
    simp only at hl hJ ⊢
    cases hJ
    refine softZero_cost hl x _ fun t ht => ?_
    cases ht
    exact ⟨hc, by rw [hr]⟩

end
end Verif.Dynamics
