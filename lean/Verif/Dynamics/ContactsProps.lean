/-
Properties of the equation of motion and of the contacts (C57-C61).
-/
import Mathlib.Tactic.FieldSimp
import Mathlib.Tactic.LinearCombination
import Mathlib.Tactic.IntervalCases
import Mathlib.Tactic.NormNum
import Verif.Dynamics.SolverLemmas

namespace Verif.Dynamics
open Finset Verif.Problem Verif.Kinematics

section
variable {K : Type} [Field K] [LinearOrder K] [IsStrictOrderedRing K]

/-! ## C57: the equation of motion -/

/-- Generalised force `Σ Jᵀ f` of the wrenches `ws` applied through the Jacobians `Js`. -/
def generalised (Js : List (Mat K)) (ws : List (Nat → K)) (i : Nat) : K :=
  ((Js.zip ws).map fun p => ∑ k ∈ range p.1.rows, p.1.m k i * p.2 k).sum

theorem generalised_eq (js : List (Mat K × Expr K)) (x : Nat → K) (i : Nat) :
    generalised (js.map (·.1)) (js.map fun p => p.2.rowVal x) i = contactTerm js x i := by
  unfold generalised contactTerm
  congr 1
  induction js with
  | nil => rfl
  | cons p rest ih => simp only [List.map_cons, List.zip_cons_cons]; rw [ih]

theorem updates_of_forall₂ {N : Nat} {robot : RState K} {cs : List (Contact K)} {js : List (Mat K × Expr K)}
    {P : Contact K → Mat K × Expr K → Prop} (hP : ∀ c p, P c p → c.update N robot = .ok p.1)
    (h : List.Forall₂ P cs js) : cs.mapM (fun c => c.update N robot) = .ok (js.map (·.1)) := by
  induction h with
  | nil => rfl
  | cons hp _ ih => rw [List.mapM_cons, hP _ _ hp, ih]; rfl

theorem zeroConstraint_ok {e : Except Err (Expr K)} {l : List (Constr K)} (h : zeroConstraint e = .ok l) :
    ∃ t c, e = .ok t ∧ t.eqDouble 0 = .ok c ∧ l = [c] := by
  unfold zeroConstraint at h
  obtain ⟨t, h1, h⟩ := bind_ok h
  obtain ⟨c, h2, h⟩ := bind_ok h
  cases h
  exact ⟨t, c, h1, h2, rfl⟩

/-- **C57.** When a solve succeeds, for every list of contacts, the returned torques, accelerations and contact
wrenches satisfy `M qdd + damping qd + h (+ extra) = tau + Σ Jᵀ f`, where `Js` are the Jacobians of the active
contacts; `tau_contacts` is that sum; and unless it is masked, the floating base has no torque. -/
theorem C57 (env : DEnv K) (hS : env.toQPEnv.Sound) (r : DynRobot K) (tasks : List (DTask K))
    (contacts : List (Contact K)) (cons : List (DConstraint K)) (integrate : Bool) (s : DState K) (rs : RState K)
    (res : Result K) (h : solve env r tasks contacts cons integrate s = (rs, .ok res)) (hok : res.success = true) :
    ∃ Js, (contacts.filter (·.active)).mapM (fun c => c.update r.nv s.robot) = .ok Js ∧
      res.wrenches.length = Js.length ∧
      (∀ i, i < r.nv → (∑ j ∈ range r.nv, r.mass s.robot i j * res.qdd j) + s.damping * s.robot.qd i +
          (if s.gravityOnly then r.gravity s.robot i else r.nle s.robot i) +
          (match s.extraForce with | some f => f.v i | none => 0) =
        res.tau i + generalised Js res.wrenches i) ∧
      (∀ i, i < r.nv → res.tauContacts i = generalised Js res.wrenches i) ∧
      (s.maskedFbase = false → 6 ≤ r.nv ∧ ∀ i, i < 6 → res.tau i = 0) ∧
      (s.maskedFbase = true → ∀ i, i < 6 → res.qdd i = 0) := by
  rcases solve_cases env r tasks contacts cons integrate s rs _ h with ⟨-, hf⟩ | ⟨p, x, hb, hres, -, -, hsat, -⟩
  · rw [hf res rfl] at hok; cases hok
  cases hres
  have P := build_spec env r tasks contacts cons s p hb
  have hU := updates_of_forall₂ (fun c q hq => hq.1) P.contactsOK
  refine ⟨p.js.map (·.1), hU, by simp [readResult], fun i hi => ?_, fun i _ => ?_, fun hm => ⟨P.six, fun i hi => ?_⟩,
    fun hm i hi => ?_⟩
  · show _ = p.tau.rowVal x i + generalised (p.js.map (·.1)) (p.js.map fun q => q.2.rowVal x) i
    rw [generalised_eq, P.tau x i]
    have hq : ∑ j ∈ range r.nv, r.mass s.robot i j * (readResult p.qdd p.js p.tau x).qdd j =
        ∑ j ∈ range r.nv, r.mass s.robot i j * x j := by
      refine sum_congr rfl fun j hj => ?_
      show _ * p.qdd.rowVal x j = _
      rw [P.qdd, qddExpr_rowVal _ _ _ (mem_range.1 hj)]
    rw [hq]
    change _ + bias r s i + extra s i = _
    ring
  · exact (generalised_eq p.js x i).symm
  · obtain ⟨cm, cc, cl, mats, ct, cu, cf, c, hcs, -, -, -, -, -, -, hf, -⟩ := P.parts
    rw [hm] at hf
    obtain ⟨t, k, h1, h2, rfl⟩ := zeroConstraint_ok hf
    obtain ⟨s1, s2, s3, s4⟩ := slice_ok (start := 0) (rows := 6) h1
    obtain ⟨k', k1, k2, k3, k4⟩ := eqDouble_zero t (0 : K)
    rw [k1] at h2; cases h2
    have hk := hsat hS k (by rw [hcs]; simp) k3
    rw [sat_equality _ k2] at hk
    have hcols : 0 < t.cols := by
      rw [s3, P.tauCols]
      have := P.chain.le
      have := P.six
      omega
    obtain ⟨r1, -, r2⟩ := k4 hcols
    have := hk i (by rw [r1, s2]; exact hi)
    rw [r2, s4, Nat.zero_add, sub_zero] at this
    exact this
  · obtain ⟨cm, cc, cl, mats, ct, cu, cf, c, hcs, hf, -⟩ := P.parts
    rw [hm] at hf
    obtain ⟨t, k, h1, h2, rfl⟩ := zeroConstraint_ok hf
    have hsix := P.six
    have h1' := var_expr (K := K) ⟨0, r.nv⟩ 0 6 (by simpa using hsix)
    rw [show ((⟨0, r.nv⟩ : Var).expr 0 6 : Except Err (Expr K)) = (⟨0, r.nv⟩ : Var).expr ((0 : Nat) : Int) ((6 : Nat) : Int)
      from rfl, h1'] at h1
    cases h1
    obtain ⟨k', k1, k2, k3, k4⟩ := eqDouble_zero (⟨6, r.nv, fun k j => if j = 0 + 0 + k then 1 else 0, fun _ => 0⟩ : Expr K) 0
    rw [k1] at h2; cases h2
    have hk := hsat hS k (by rw [hcs]; simp) k3
    rw [sat_equality _ k2] at hk
    obtain ⟨r1, -, r2⟩ := k4 (show 0 < r.nv by omega)
    have := hk i (by rw [r1]; exact hi)
    rw [r2, sub_zero] at this
    show p.qdd.rowVal x i = 0
    rw [P.qdd, qddExpr_rowVal _ _ _ (by omega), ← this]
    simp only [Expr.rowVal, add_zero, Nat.zero_add]
    exact (sum_pick _ _ (by omega) x).symm

/-! ## Building blocks of the contact constraints -/

theorem sub_one {e o d : Expr K} (he : e.rows = 1) (ho : o.rows = 1) (h : e.sub o = .ok d) :
    d.rows = 1 ∧ ∀ x, d.rowVal x 0 = e.rowVal x 0 - o.rowVal x 0 := by
  unfold Expr.sub at h
  obtain ⟨h1, h2⟩ := Expr.add_rowVal_of_rows h (by rw [he]; exact ho.symm)
  refine ⟨h1.trans he, fun x => ?_⟩
  rw [h2 x 0 (by omega), Expr.rowVal_smul]; ring

theorem le_one {e o : Expr K} {c : Constr K} (he : e.rows = 1) (ho : o.rows = 1) (h : e.le o = .ok c) :
    c.priority = .hard ∧ ∀ x, c.Sat x ↔ e.rowVal x 0 ≤ o.rowVal x 0 := by
  unfold Expr.le at h
  obtain ⟨d, h1, h⟩ := bind_ok h
  cases h
  obtain ⟨d1, d2⟩ := sub_one he ho h1
  refine ⟨rfl, fun x => ?_⟩
  show (∀ i, i < d.neg.rows → 0 ≤ d.neg.rowVal x i) ↔ _
  have hr : d.neg.rows = 1 := d1
  constructor
  · intro H
    have := H 0 (by omega)
    rw [Expr.rowVal_neg, d2] at this
    linarith
  · intro H i hi
    have : i = 0 := by omega
    subst this
    rw [Expr.rowVal_neg, d2]
    linarith

theorem geDouble_one {e : Expr K} {c : Constr K} {f : K} (he : e.rows = 1) (h : e.geDouble f = .ok c) :
    c.priority = .hard ∧ ∀ x, c.Sat x ↔ f ≤ e.rowVal x 0 := by
  unfold Expr.geDouble Expr.ge at h
  obtain ⟨d, h1, h⟩ := bind_ok h
  cases h
  obtain ⟨d1, d2⟩ := sub_one he rfl h1
  refine ⟨rfl, fun x => ?_⟩
  show (∀ i, i < d.rows → 0 ≤ d.rowVal x i) ↔ _
  have hf : (Expr.fromDouble f).rowVal x 0 = f := by simp [Expr.rowVal, Expr.fromDouble]
  constructor
  · intro H
    have := H 0 (by omega)
    rw [d2, hf] at this
    linarith
  · intro H i hi
    have : i = 0 := by omega
    subst this
    rw [d2, hf]
    linarith

theorem HardSat_cons (c : Constr K) (l : List (Constr K)) (x : Nat → K) :
    HardSat (c :: l) x ↔ (c.priority = .hard → c.Sat x) ∧ HardSat l x := by
  unfold HardSat
  simp

theorem band_spec {s : K} {u z : Expr K} {l : List (Constr K)} (hu : u.rows = 1) (hz : z.rows = 1)
    (h : bandConstraints s u z = .ok l) (x : Nat → K) :
    HardSat l x ↔ -(s * z.rowVal x 0) ≤ u.rowVal x 0 ∧ u.rowVal x 0 ≤ s * z.rowVal x 0 := by
  unfold bandConstraints at h
  obtain ⟨c1, h1, h⟩ := bind_ok h
  obtain ⟨c2, h2, h⟩ := bind_ok h
  cases h
  obtain ⟨p1, s1⟩ := le_one hu (show (z.smul s).rows = 1 from hz) h1
  obtain ⟨p2, s2⟩ := le_one (show (z.smul (-s)).rows = 1 from hz) hu h2
  rw [HardSat_cons, HardSat_cons, s1, s2]
  simp only [p1, p2, forall_const, Expr.rowVal_smul]
  have h1 : z.rowVal x 0 * s = s * z.rowVal x 0 := mul_comm _ _
  have h2 : z.rowVal x 0 * -s = -(s * z.rowVal x 0) := by ring
  rw [h1, h2]
  exact ⟨fun H => ⟨H.2.1, H.1⟩, fun H => ⟨H.2, H.1, HardSat_nil x⟩⟩

theorem softZero_soft {w : K} {e : Except Err (Expr K)} {l : List (Constr K)} (h : softZero w e = .ok l) :
    (∀ c ∈ l, c.priority = .soft) ∧ (0 < w → ∃ t k, e = .ok t ∧ t.eqDouble 0 = .ok k ∧ l = [k.configureP .soft w]) ∧
    (¬ 0 < w → l = []) := by
  unfold softZero at h
  split at h
  · rename_i hw
    obtain ⟨t, h1, h⟩ := bind_ok h
    obtain ⟨k, h2, h⟩ := bind_ok h
    cases h
    refine ⟨fun c hc => ?_, fun _ => ⟨t, k, h1, h2, rfl⟩, fun hn => absurd hw hn⟩
    rw [List.mem_singleton.1 hc]; rfl
  · rename_i hw
    cases h
    exact ⟨by simp, fun hn => absurd hn hw, fun _ => rfl⟩

theorem HardSat_soft {l : List (Constr K)} (h : ∀ c ∈ l, c.priority = .soft) (x : Nat → K) : HardSat l x := by
  intro c hc hp
  rw [h c hc] at hp; cases hp

theorem slice_exists {e : Expr K} {start rows : Nat} (h : start + rows ≤ e.rows) :
    ∃ t, e.slice (start : Int) (rows : Int) = .ok t := by
  unfold Expr.slice
  simp only
  rw [if_neg (by omega : ¬ ((rows : Int) < 0)), if_pos (by omega)]
  exact ⟨_, rfl⟩

/-- Force in the surface frame: `Rᵀ f`. -/
def surface (R : Nat → Nat → K) (w : Nat → K) (i : Nat) : K := ∑ k ∈ range 3, R k i * w k

/-- The normal component `z` is non-negative and the tangential components are at most `mu` times it. -/
def Pyramid (mu fx fy fz : K) : Prop := 0 ≤ fz ∧ |fx| ≤ mu * fz ∧ |fy| ≤ mu * fz

theorem surface_rowVal {R : Nat → Nat → K} {f fs : Expr K} (h : Expr.matMul (rotT R) f = .ok fs) :
    f.rows = 3 ∧ fs.rows = 3 ∧ ∀ x i, fs.rowVal x i = surface R (f.rowVal x) i := by
  obtain ⟨h1, h2, -, h3⟩ := matMul_ok h
  have h1 : f.rows = 3 := h1.symm
  refine ⟨h1, h2, fun x i => ?_⟩
  rw [h3, h1]; rfl

theorem pointUnilateral_spec {mu : K} {R : Nat → Nat → K} {f : Expr K} {l : List (Constr K)}
    (h : pointUnilateral mu R f = .ok l) (x : Nat → K) :
    HardSat l x ↔ Pyramid mu (surface R (f.rowVal x) 0) (surface R (f.rowVal x) 1) (surface R (f.rowVal x) 2) := by
  unfold pointUnilateral at h
  obtain ⟨fs, h1, h⟩ := bind_ok h
  obtain ⟨z, h2, h⟩ := bind_ok h
  obtain ⟨u, h3, h⟩ := bind_ok h
  obtain ⟨v, h4, h⟩ := bind_ok h
  obtain ⟨c0, h5, h⟩ := bind_ok h
  obtain ⟨bx, h6, h⟩ := bind_ok h
  obtain ⟨by', h7, h⟩ := bind_ok h
  cases h
  obtain ⟨-, -, hs⟩ := surface_rowVal h1
  obtain ⟨-, z2, -, z4⟩ := slice_ok (start := 2) (rows := 1) h2
  obtain ⟨-, u2, -, u4⟩ := slice_ok (start := 0) (rows := 1) h3
  obtain ⟨-, v2, -, v4⟩ := slice_ok (start := 1) (rows := 1) h4
  obtain ⟨p0, s0⟩ := geDouble_one z2 h5
  rw [HardSat_cons, HardSat_append, s0, band_spec u2 z2 h6, band_spec v2 z2 h7, z4, u4, v4, hs, hs, hs]
  unfold Pyramid
  rw [abs_le, abs_le]
  simp only [p0, forall_const]

theorem planarUnilateral_spec {mu length width : K} {f : Expr K} {l : List (Constr K)}
    (h : planarUnilateral mu length width f = .ok l) (x : Nat → K) :
    HardSat l x ↔ Pyramid mu (f.rowVal x 0) (f.rowVal x 1) (f.rowVal x 2) ∧
      |f.rowVal x 3| ≤ width / 2 * f.rowVal x 2 ∧ |f.rowVal x 4| ≤ length / 2 * f.rowVal x 2 := by
  unfold planarUnilateral at h
  split at h
  · cases h
  obtain ⟨z, h2, h⟩ := bind_ok h
  obtain ⟨u, h3, h⟩ := bind_ok h
  obtain ⟨v, h4, h⟩ := bind_ok h
  obtain ⟨mx, h8, h⟩ := bind_ok h
  obtain ⟨my, h9, h⟩ := bind_ok h
  obtain ⟨c0, h5, h⟩ := bind_ok h
  obtain ⟨bmy, h10, h⟩ := bind_ok h
  obtain ⟨bmx, h11, h⟩ := bind_ok h
  obtain ⟨bx, h6, h⟩ := bind_ok h
  obtain ⟨by', h7, h⟩ := bind_ok h
  cases h
  obtain ⟨-, z2, -, z4⟩ := slice_ok (start := 2) (rows := 1) h2
  obtain ⟨-, u2, -, u4⟩ := slice_ok (start := 0) (rows := 1) h3
  obtain ⟨-, v2, -, v4⟩ := slice_ok (start := 1) (rows := 1) h4
  obtain ⟨-, a2, -, a4⟩ := slice_ok (start := 3) (rows := 1) h8
  obtain ⟨-, b2, -, b4⟩ := slice_ok (start := 4) (rows := 1) h9
  obtain ⟨p0, s0⟩ := geDouble_one z2 h5
  rw [HardSat_cons, HardSat_append, HardSat_append, HardSat_append, s0, band_spec u2 z2 h6, band_spec v2 z2 h7,
    band_spec a2 z2 h11, band_spec b2 z2 h10, z4, u4, v4, a4, b4]
  unfold Pyramid
  simp only [abs_le, p0, forall_const, Nat.add_zero, Nat.zero_add]
  constructor
  · rintro ⟨h1, ⟨⟨h2, h3⟩, h4⟩, h5⟩
    exact ⟨⟨h1, h4, h5⟩, h3, h2⟩
  · rintro ⟨⟨h1, h4, h5⟩, h3, h2⟩
    exact ⟨h1, ⟨⟨h2, h3⟩, h4⟩, h5⟩

theorem addIf_ok {b : Bool} {e : Except Err (List (Constr K))} {l : List (Constr K)} (h : addIf b e = .ok l) :
    (b = true → e = .ok l) ∧ (b = false → l = []) := by
  unfold addIf at h
  cases b with
  | true => exact ⟨fun _ => h, fun h => by cases h⟩
  | false => cases h; exact ⟨fun h => (by cases h), fun _ => rfl⟩

/-- The hard constraints of a point contact. -/
theorem pointConstraints_spec {c : Contact K} {R : Nat → Nat → K} {u : Bool} {f : Expr K} {l : List (Constr K)}
    (h : pointConstraints c R u f = .ok l) (x : Nat → K) :
    HardSat l x ↔ (u = true →
      Pyramid c.mu (surface R (f.rowVal x) 0) (surface R (f.rowVal x) 1) (surface R (f.rowVal x) 2)) := by
  unfold pointConstraints at h
  obtain ⟨a, h1, h⟩ := bind_ok h
  obtain ⟨b, h2, h⟩ := bind_ok h
  obtain ⟨d, h3, h⟩ := bind_ok h
  cases h
  rw [HardSat_append, HardSat_append]
  simp only [HardSat_soft (softZero_soft h2).1 x, HardSat_soft (softZero_soft h3).1 x, and_true]
  obtain ⟨a1, a2⟩ := addIf_ok h1
  cases u with
  | true => rw [pointUnilateral_spec (a1 rfl) x]; simp
  | false => rw [a2 rfl]; simp [HardSat_nil]

/-- The hard constraints of a planar contact. -/
theorem planarConstraints_spec {c : Contact K} {u : Bool} {length width : K} {f : Expr K} {l : List (Constr K)}
    (h : planarConstraints c u length width f = .ok l) (x : Nat → K) :
    HardSat l x ↔ (u = true → Pyramid c.mu (f.rowVal x 0) (f.rowVal x 1) (f.rowVal x 2) ∧
      |f.rowVal x 3| ≤ width / 2 * f.rowVal x 2 ∧ |f.rowVal x 4| ≤ length / 2 * f.rowVal x 2) := by
  unfold planarConstraints at h
  obtain ⟨a, h1, h⟩ := bind_ok h
  obtain ⟨b, h2, h⟩ := bind_ok h
  obtain ⟨d, h3, h⟩ := bind_ok h
  obtain ⟨e, h4, h⟩ := bind_ok h
  cases h
  rw [HardSat_append, HardSat_append, HardSat_append]
  simp only [HardSat_soft (softZero_soft h2).1 x, HardSat_soft (softZero_soft h3).1 x,
    HardSat_soft (softZero_soft h4).1 x, and_true]
  obtain ⟨a1, a2⟩ := addIf_ok h1
  cases u with
  | true => rw [planarUnilateral_spec (a1 rfl) x]; simp
  | false => rw [a2 rfl]; simp [HardSat_nil]

/-! ## C58: friction pyramids -/

/-- What is asked of the wrench of a unilateral contact (nothing for the other contacts). -/
def NoPullNoSlip (c : Contact K) (w : Nat → K) : Prop :=
  match c.kind with
  | .point _ R true => Pyramid c.mu (surface R w 0) (surface R w 1) (surface R w 2)
  | .planar _ true _ _ => Pyramid c.mu (w 0) (w 1) (w 2)
  | _ => True

/-- **C58.** After a successful solve, the wrench of each active unilateral point or planar contact has a non-negative
normal force and tangential forces bounded by `mu` times the normal force, in the surface frame. -/
theorem C58 (env : DEnv K) (hS : env.toQPEnv.Sound) (r : DynRobot K) (tasks : List (DTask K))
    (contacts : List (Contact K)) (cons : List (DConstraint K)) (integrate : Bool) (s : DState K) (rs : RState K)
    (res : Result K) (h : solve env r tasks contacts cons integrate s = (rs, .ok res)) (hok : res.success = true) :
    List.Forall₂ NoPullNoSlip (contacts.filter (·.active)) res.wrenches := by
  rcases solve_cases env r tasks contacts cons integrate s rs _ h with ⟨-, hf⟩ | ⟨p, x, hb, hres, -, -, hsat, -⟩
  · rw [hf res rfl] at hok; cases hok
  cases hres
  have P := build_spec env r tasks contacts cons s p hb
  show List.Forall₂ NoPullNoSlip _ (p.js.map fun q => q.2.rowVal x)
  rw [List.forall₂_map_right_iff]
  refine P.contactsOK.imp fun c q hq => ?_
  obtain ⟨-, -, -, -, l, hl, hmem⟩ := hq
  have hl' : HardSat l x := fun k hk hp => hsat hS k (hmem k hk) hp
  unfold NoPullNoSlip
  unfold Contact.constraints at hl
  split
  · rename_i hk
    rw [hk] at hl
    exact (pointConstraints_spec hl x).1 hl' rfl
  · rename_i hk
    rw [hk] at hl
    exact ((planarConstraints_spec hl x).1 hl' rfl).1
  · trivial

/-- C58, converse: the constraints added by a unilateral point contact exclude no other force. -/
theorem C58_point_exact (c : Contact K) (posA : RState K → Mat K) (R : Nat → Nat → K)
    (hk : c.kind = .point posA R true) (f : Expr K) (l : List (Constr K)) (hl : c.constraints f = .ok l) (x : Nat → K) :
    HardSat l x ↔ NoPullNoSlip c (f.rowVal x) := by
  unfold Contact.constraints at hl
  rw [hk] at hl
  rw [pointConstraints_spec hl x]
  unfold NoPullNoSlip
  rw [hk]
  simp

/-! ## C59: centre of pressure -/

/-- The reported centre of pressure is in the rectangle. -/
def CoPInside (c : Contact K) (w : Nat → K) : Prop :=
  match c.kind with
  | .planar _ true length width =>
    0 < w 2 → |zmpPlanar w 0| ≤ length / 2 ∧ |zmpPlanar w 1| ≤ width / 2 ∧ zmpPlanar w 2 = 0
  | _ => True

/-- **C59.** After a successful solve, the ZMP reported by each active unilateral planar contact with a positive normal
force is inside its `length × width` rectangle. -/
theorem C59 (env : DEnv K) (hS : env.toQPEnv.Sound) (r : DynRobot K) (tasks : List (DTask K))
    (contacts : List (Contact K)) (cons : List (DConstraint K)) (integrate : Bool) (s : DState K) (rs : RState K)
    (res : Result K) (h : solve env r tasks contacts cons integrate s = (rs, .ok res)) (hok : res.success = true) :
    List.Forall₂ CoPInside (contacts.filter (·.active)) res.wrenches := by
  rcases solve_cases env r tasks contacts cons integrate s rs _ h with ⟨-, hf⟩ | ⟨p, x, hb, hres, -, -, hsat, -⟩
  · rw [hf res rfl] at hok; cases hok
  cases hres
  have P := build_spec env r tasks contacts cons s p hb
  show List.Forall₂ CoPInside _ (p.js.map fun q => q.2.rowVal x)
  rw [List.forall₂_map_right_iff]
  refine P.contactsOK.imp fun c q hq => ?_
  obtain ⟨-, -, -, -, l, hl, hmem⟩ := hq
  have hl' : HardSat l x := fun k hk hp => hsat hS k (hmem k hk) hp
  unfold CoPInside
  unfold Contact.constraints at hl
  split
  · rename_i hk
    rw [hk] at hl
    obtain ⟨-, h1, h2⟩ := (planarConstraints_spec hl x).1 hl' rfl
    intro hz
    have e0 : zmpPlanar (q.2.rowVal x) 0 = -(q.2.rowVal x 4) / q.2.rowVal x 2 := rfl
    have e1 : zmpPlanar (q.2.rowVal x) 1 = q.2.rowVal x 3 / q.2.rowVal x 2 := rfl
    refine ⟨?_, ?_, rfl⟩
    · rw [e0, abs_div, abs_neg, abs_of_pos hz, div_le_iff₀ hz]
      exact h2
    · rw [e1, abs_div, abs_of_pos hz, div_le_iff₀ hz]
      exact h1
  · trivial

/-- C59: the reported point is the centre of pressure: the moment of the wrench about it has no component along
the plane (the moment about `z` is `M - z × F`). -/
theorem C59_zero_moment (w : Nat → K) (hz : w 2 ≠ 0) :
    w 3 - (zmpPlanar w 1 * w 2 - zmpPlanar w 2 * w 1) = 0 ∧ w 4 - (zmpPlanar w 2 * w 0 - zmpPlanar w 0 * w 2) = 0 := by
  have e0 : zmpPlanar w 0 = -(w 4) / w 2 := rfl
  have e1 : zmpPlanar w 1 = w 3 / w 2 := rfl
  have e2 : zmpPlanar w 2 = 0 := rfl
  rw [e0, e1, e2]
  constructor <;> field_simp <;> ring

/-- C59: a unilateral planar contact with a missing dimension raises. -/
theorem C59_missing_size (c : Contact K) (jac : RState K → Nat → Nat → K) (length width : K)
    (hk : c.kind = .planar jac true length width) (h0 : length = 0 ∨ width = 0) (f : Expr K) :
    c.constraints f = .error .logicError := by
  unfold Contact.constraints
  rw [hk]
  simp only [planarConstraints, addIf, if_true, planarUnilateral, if_pos h0]
  rfl

/-! ## C60: line contacts -/

/-- **C60 is false.** Every unilateral line contact with a length multiplies a 3 × 3 rotation with its 5 forces:
undefined behaviour, for every expression of the forces the solver can create. -/
theorem C60_refuted (c : Contact K) (jac : RState K → Nat → Nat → K) (oriA : RState K → Mat K) (R : Nat → Nat → K)
    (length : K) (hk : c.kind = .line jac oriA R true length) (hlen : length ≠ 0) (N : Nat) (robot : RState K) (J : Mat K)
    (hJ : c.update N robot = .ok J) (f : Expr K) (hf : f.rows = J.rows) : c.constraints f = .error .ub := by
  have h5 : f.rows = 5 := by
    unfold Contact.update at hJ
    rw [hk] at hJ
    simp only at hJ
    split at hJ
    · cases hJ
    · split at hJ
      · cases hJ
      · cases hJ; exact hf
  have hm : Expr.matMul (rotT R) f = .error .ub := by
    unfold Expr.matMul
    rw [if_neg (by show ¬ (3 = f.rows); omega)]
  unfold Contact.constraints
  rw [hk]
  simp only [lineConstraints, addIf, if_true, lineUnilateral, if_neg hlen, hm]
  rfl

/-- C60 on the part of its domain where it holds: a line contact that is not unilateral and whose forces and tangential
forces are not weighted adds its constraints without size mismatch (and none of them is hard). -/
theorem C60_partial (c : Contact K) (jac : RState K → Nat → Nat → K) (oriA : RState K → Mat K) (R : Nat → Nat → K)
    (length : K) (hk : c.kind = .line jac oriA R false length) (hf : c.weightForces ≤ 0) (ht : c.weightTangentials ≤ 0)
    (N : Nat) (robot : RState K) (J : Mat K) (hJ : c.update N robot = .ok J) (f : Expr K) (hr : f.rows = J.rows) :
    ∃ l, c.constraints f = .ok l ∧ ∀ k ∈ l, k.priority = .soft := by
  have h5 : f.rows = 5 := by
    unfold Contact.update at hJ
    rw [hk] at hJ
    simp only at hJ
    split at hJ
    · cases hJ
    · split at hJ
      · cases hJ
      · cases hJ; exact hr
  have hs : ∃ t, f.slice 3 2 = .ok t := slice_exists (start := 3) (rows := 2) (by omega)
  obtain ⟨t, hs⟩ := hs
  unfold Contact.constraints
  rw [hk]
  simp only [lineConstraints, addIf, softZero, if_neg (not_lt.2 hf), if_neg (not_lt.2 ht), hs]
  obtain ⟨k, hk1, -⟩ := eqDouble_zero t (0 : K)
  by_cases hm : 0 < c.weightMoments
  · refine ⟨[k.configureP .soft c.weightMoments], ?_, ?_⟩
    · rw [if_pos hm]
      simp only [Bool.false_eq_true, if_false, bind, Except.bind, hk1]
      rfl
    · intro a ha
      rw [List.mem_singleton.1 ha]; rfl
  · refine ⟨[], ?_, by simp⟩
    rw [if_neg hm]
    rfl

/-- C60, second part, is false as well: the ZMP reported by a line contact reads `M_Z` (index 4 of
`(fx, fy, fz, my, mz)`): a wrench whose centre of pressure is the origin (`my = 0`) is reported anywhere. -/
theorem C60_zmp_refuted (z : K) : ∃ w : Nat → K, w 2 = 1 ∧ w 3 = 0 ∧ zmpLine w 0 = z := by
  refine ⟨fun i => if i = 2 then 1 else if i = 4 then -z else 0, by simp, by simp, ?_⟩
  simp [zmpLine]

/-! ## C61: tangential weight -/

/-- Weighted squared norm of what `softZero` penalises. -/
theorem softZero_pen {w : K} {e : Except Err (Expr K)} {l : List (Constr K)} (h : softZero w e = .ok l) (hw : 0 < w) :
    ∃ t, e = .ok t ∧ (0 < t.cols → ∀ x, pen l x = ∑ i ∈ range t.rows, w * t.rowVal x i ^ 2) := by
  obtain ⟨t, k, h1, h2, rfl⟩ := (softZero_soft h).2.1 hw
  refine ⟨t, h1, fun hc x => ?_⟩
  obtain ⟨k', k1, k2, k3, k4⟩ := eqDouble_zero t (0 : K)
  rw [k1] at h2; cases h2
  obtain ⟨r1, r2, r3⟩ := k4 hc
  rw [pen_single]
  unfold softPenalty
  rw [show (k.configureP .soft w).priority = .soft from rfl, show (k.configureP .soft w).ty = .equality from k2]
  show ∑ i ∈ range k.expr.rows, w * k.expr.rowVal x i ^ 2 = _
  rw [r1]
  exact sum_congr rfl fun i _ => by rw [r3]; ring

/-- **C61 is false for planar contacts.** With only the tangential weight set, the cost added by a planar contact is
`w (fy² + fz²)`: the normal force is penalised, and the tangential force `fx` is not. -/
theorem C61_refuted (c : Contact K) (jac : RState K → Nat → Nat → K) (length width : K)
    (hk : c.kind = .planar jac false length width) (hf : c.weightForces = 0) (hm : c.weightMoments = 0)
    (hw : 0 < c.weightTangentials) (f : Expr K) (hr : f.rows = 6) (hc : 0 < f.cols) :
    ∃ l, c.constraints f = .ok l ∧
      ∀ x, pen l x = c.weightTangentials * (f.rowVal x 1 ^ 2 + f.rowVal x 2 ^ 2) := by
  have hs : ∃ t, f.slice 1 2 = .ok t := slice_exists (start := 1) (rows := 2) (by omega)
  obtain ⟨t, hs⟩ := hs
  obtain ⟨k, hk1, -⟩ := eqDouble_zero t (0 : K)
  have hcon : c.constraints f = .ok [k.configureP .soft c.weightTangentials] := by
    unfold Contact.constraints
    rw [hk]
    simp only [planarConstraints, addIf, softZero, hf, hm, lt_irrefl, if_false, if_pos hw, hs, bind, Except.bind, hk1,
      Bool.false_eq_true]
    rfl
  refine ⟨_, hcon, fun x => ?_⟩
  obtain ⟨t', h1, h2⟩ := softZero_pen (w := c.weightTangentials) (e := f.slice 1 2)
    (l := [k.configureP .soft c.weightTangentials]) (by unfold softZero; rw [if_pos hw, hs]; simp only [bind, Except.bind, hk1]; rfl) hw
  rw [hs] at h1; cases h1
  obtain ⟨-, s2, s3, s4⟩ := slice_ok (start := 1) (rows := 2) hs
  rw [h2 (by rw [s3]; exact hc), s2]
  simp only [s4, sum_range_succ, sum_range_zero]
  ring

/-- C61 for point contacts: the cost added by the tangential weight is `w (fx² + fy²)` with the forces in the surface
frame. -/
theorem C61_partial (c : Contact K) (posA : RState K → Mat K) (R : Nat → Nat → K)
    (hk : c.kind = .point posA R false) (hf : c.weightForces = 0) (hw : 0 < c.weightTangentials) (f : Expr K)
    (hr : f.rows = 3) (hc : 0 < f.cols) :
    ∃ l, c.constraints f = .ok l ∧
      ∀ x, pen l x = c.weightTangentials * (surface R (f.rowVal x) 0 ^ 2 + surface R (f.rowVal x) 1 ^ 2) := by
  have hm : ∃ fs, Expr.matMul (rotT R) f = .ok fs := by
    unfold Expr.matMul
    rw [if_pos (by show 3 = f.rows; omega)]
    exact ⟨_, rfl⟩
  obtain ⟨fs, hm⟩ := hm
  obtain ⟨-, m2, m3⟩ := surface_rowVal hm
  obtain ⟨-, -, m4, -⟩ := matMul_ok hm
  have hs : ∃ t, fs.slice 0 2 = .ok t := slice_exists (start := 0) (rows := 2) (by omega)
  obtain ⟨t, hs⟩ := hs
  obtain ⟨k, hk1, -⟩ := eqDouble_zero t (0 : K)
  have hcon : c.constraints f = .ok [k.configureP .soft c.weightTangentials] := by
    unfold Contact.constraints
    rw [hk]
    simp only [pointConstraints, addIf, softZero, hf, lt_irrefl, if_false, if_pos hw, hm, hs, bind, Except.bind, hk1,
      Bool.false_eq_true]
    rfl
  refine ⟨_, hcon, fun x => ?_⟩
  obtain ⟨t', h1, h2⟩ := softZero_pen (w := c.weightTangentials) (e := fs.slice 0 2)
    (l := [k.configureP .soft c.weightTangentials]) (by unfold softZero; rw [if_pos hw, hs]; simp only [bind, Except.bind, hk1]; rfl) hw
  rw [hs] at h1; cases h1
  obtain ⟨-, s2, s3, s4⟩ := slice_ok (start := 0) (rows := 2) hs
  rw [h2 (by rw [s3, m4]; exact hc), s2]
  simp only [s4, sum_range_succ, sum_range_zero, m3]
  ring

end
end Verif.Dynamics
