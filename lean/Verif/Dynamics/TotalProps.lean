/-
Property C166: when a motion compatible with the dynamics exists, `DynamicsSolver::solve` finds it.
-/
import Verif.Dynamics.OrderProps
import Verif.Dynamics.LimitsProps
import Verif.Dynamics.ContactWorkProps
import Verif.Kinematics.TotalProps

namespace Verif.Dynamics
open Finset Verif.Problem Verif.Kinematics

/-! ## Sizes -/

/-- The constraint passes the checks made before solving and needs no slack variable. -/
def Clean (n : Nat) (c : Constr ℝ) : Prop := SizedFor n c ∧ c.softIneq = false

theorem Clean.mono {n n' : Nat} {c : Constr ℝ} (h : Clean n c) (hn : n ≤ n') : Clean n' c := ⟨h.1.mono hn, h.2⟩

theorem sub_total {e o : Expr ℝ} (h : e.rows = o.rows) : ∃ d, e.sub o = .ok d := by
  unfold Expr.sub Expr.add
  split
  · exact ⟨_, rfl⟩
  · split
    · exact ⟨_, rfl⟩
    · rw [if_neg (by simpa [Expr.smul] using h)]
      exact ⟨_, rfl⟩

theorem le_total' {n : Nat} {e o : Expr ℝ} (h : e.rows = o.rows) (h0 : 0 < e.rows) (h1 : e.cols ≤ n) (h2 : o.cols ≤ n) :
    ∃ c, e.le o = .ok c ∧ Clean n c ∧ c.hardEq = false := by
  obtain ⟨d, hd⟩ := sub_total h
  have e1 : e.le o = .ok { expr := d.neg, ty := .inequality, weight := 1 } := by unfold Expr.le; rw [hd]; rfl
  exact ⟨_, e1, ⟨(le_sized e1 h0 (by omega) h1 h2).1, rfl⟩, rfl⟩

theorem ge_total {n : Nat} {e o : Expr ℝ} (h : e.rows = o.rows) (h0 : 0 < e.rows) (h1 : e.cols ≤ n) (h2 : o.cols ≤ n) :
    ∃ c, e.ge o = .ok c ∧ Clean n c ∧ c.hardEq = false := by
  obtain ⟨d, hd⟩ := sub_total h
  have e1 : e.ge o = .ok { expr := d, ty := .inequality, weight := 1 } := by unfold Expr.ge; rw [hd]; rfl
  exact ⟨_, e1, ⟨(ge_sized e1 h0 (by omega) h1 h2).1, rfl⟩, rfl⟩

/-- `e == 0` on an expression with variables. -/
theorem zero_total {n : Nat} (e : Expr ℝ) (h0 : 0 < e.rows) (hc : 0 < e.cols) (h1 : e.cols ≤ n) :
    ∃ c, e.eqDouble 0 = .ok c ∧ Clean n c ∧ c.ty = .equality ∧ c.priority = .hard ∧ c.expr.rows = e.rows ∧
      ∀ x i, c.expr.rowVal x i = e.rowVal x i := by
  obtain ⟨c, a, b, d, g⟩ := eqDouble_zero e 0
  obtain ⟨g1, -, g3⟩ := g hc
  exact ⟨c, a, ⟨eq_sized a h0 one_pos h1 (Nat.zero_le _), by simp [Constr.softIneq, b]⟩, b, d, g1, fun x i => by rw [g3, sub_zero]⟩

theorem Clean.soft {n : Nat} {c : Constr ℝ} {w : ℝ} (h : Clean n c) (ht : c.ty = .equality) (p : Tools.Priority) :
    Clean n (c.configureP (if p = .soft then .soft else .hard) w) := by
  refine ⟨h.1, ?_⟩
  simp [Constr.softIneq, Constr.configureP, ht]

theorem band_total {n : Nat} {m : ℝ} {u z : Expr ℝ} (hu : u.rows = 1) (hz : z.rows = 1) (h1 : u.cols ≤ n) (h2 : z.cols ≤ n) :
    ∃ l, bandConstraints m u z = .ok l ∧ ∀ c ∈ l, Clean n c ∧ c.hardEq = false := by
  obtain ⟨c1, a1, b1⟩ := le_total' (n := n) (e := u) (o := z.smul m) (hu.trans hz.symm) (by omega) h1 h2
  obtain ⟨c2, a2, b2⟩ := le_total' (n := n) (e := z.smul (-m)) (o := u) (hz.trans hu.symm) (by show 0 < z.rows; omega) h2 h1
  refine ⟨[c1, c2], by unfold bandConstraints; rw [a1, a2]; rfl, fun c hc => ?_⟩
  simp only [List.mem_cons, List.not_mem_nil, or_false] at hc
  rcases hc with rfl | rfl <;> assumption

theorem softZero_total {n : Nat} (w : ℝ) (e : Except Err (Expr ℝ))
    (he : 0 < w → ∃ e', e = .ok e' ∧ 0 < e'.rows ∧ 0 < e'.cols ∧ e'.cols ≤ n) :
    ∃ l, softZero w e = .ok l ∧ ∀ c ∈ l, Clean n c ∧ c.hardEq = false := by
  unfold softZero
  split
  · rename_i hw
    obtain ⟨e', h, h0, hc, h1⟩ := he hw
    obtain ⟨c, a, b, ht, hp, -⟩ := zero_total e' h0 hc h1
    refine ⟨[c.configureP .soft w], by rw [h]; simp only [bind, Except.bind, a]; rfl, fun k hk => ?_⟩
    rw [List.mem_singleton.1 hk]
    refine ⟨⟨b.1, ?_⟩, ?_⟩
    · simp [Constr.softIneq, Constr.configureP, ht]
    · simp [Constr.hardEq, Constr.configureP]
  · exact ⟨[], rfl, by simp⟩

theorem slice_total {e : Expr ℝ} {start rows : Nat} (h : start + rows ≤ e.rows) :
    ∃ t, e.slice (start : Int) (rows : Int) = .ok t ∧ t.rows = rows ∧ t.cols = e.cols := by
  obtain ⟨t, ht⟩ := slice_exists h
  obtain ⟨-, h1, h2, -⟩ := slice_ok ht
  exact ⟨t, ht, h1, h2⟩

/-! ## Contacts -/

theorem pointUnilateral_total {n : Nat} (mu : ℝ) (R : Nat → Nat → ℝ) (f : Expr ℝ) (hr : f.rows = 3) (hn : f.cols ≤ n) :
    ∃ l, pointUnilateral mu R f = .ok l ∧ ∀ c ∈ l, Clean n c ∧ c.hardEq = false := by
  have h1 : ∃ fs, Expr.matMul (rotT R) f = .ok fs := by
    unfold Expr.matMul
    rw [if_pos (by rw [hr]; rfl)]
    exact ⟨_, rfl⟩
  obtain ⟨fs, h1⟩ := h1
  obtain ⟨-, f2, f3, -⟩ := matMul_ok h1
  have f2 : fs.rows = 3 := f2
  obtain ⟨z, z1, z2, z3⟩ := slice_total (e := fs) (start := 2) (rows := 1) (by omega)
  obtain ⟨x, x1, x2, x3⟩ := slice_total (e := fs) (start := 0) (rows := 1) (by omega)
  obtain ⟨y, y1, y2, y3⟩ := slice_total (e := fs) (start := 1) (rows := 1) (by omega)
  obtain ⟨c0, a1, a2⟩ := ge_total (n := n) (e := z) (o := Expr.fromDouble 0) z2 (by omega) (by omega) (Nat.zero_le _)
  obtain ⟨bx, b1, b2⟩ := band_total (n := n) (m := mu) x2 z2 (by omega) (by omega)
  obtain ⟨b', b3, b4⟩ := band_total (n := n) (m := mu) y2 z2 (by omega) (by omega)
  have a1 : z.geDouble 0 = .ok c0 := a1
  refine ⟨c0 :: (bx ++ b'), ?_, ?_⟩
  · unfold pointUnilateral
    rw [h1]
    simp only [bind, Except.bind]
    rw [show fs.slice 2 1 = .ok z from z1, show fs.slice 0 1 = .ok x from x1, show fs.slice 1 1 = .ok y from y1]
    simp only [a1, b1, b3]
    rfl
  · intro c hc
    simp only [List.mem_cons, List.mem_append] at hc
    rcases hc with rfl | hc | hc
    exacts [a2, b2 c hc, b4 c hc]

theorem planarUnilateral_total {n : Nat} (mu length width : ℝ) (f : Expr ℝ) (hl : length ≠ 0) (hw : width ≠ 0) (hr : f.rows = 6)
    (hn : f.cols ≤ n) : ∃ l, planarUnilateral mu length width f = .ok l ∧ ∀ c ∈ l, Clean n c ∧ c.hardEq = false := by
  obtain ⟨z, z1, z2, z3⟩ := slice_total (e := f) (start := 2) (rows := 1) (by omega)
  obtain ⟨x, x1, x2, x3⟩ := slice_total (e := f) (start := 0) (rows := 1) (by omega)
  obtain ⟨y, y1, y2, y3⟩ := slice_total (e := f) (start := 1) (rows := 1) (by omega)
  obtain ⟨mx, mx1, mx2, mx3⟩ := slice_total (e := f) (start := 3) (rows := 1) (by omega)
  obtain ⟨my, my1, my2, my3⟩ := slice_total (e := f) (start := 4) (rows := 1) (by omega)
  obtain ⟨c0, a1, a2⟩ := ge_total (n := n) (e := z) (o := Expr.fromDouble 0) z2 (by omega) (by omega) (Nat.zero_le _)
  have a1 : z.geDouble 0 = .ok c0 := a1
  obtain ⟨b1, g1, k1⟩ := band_total (n := n) (m := length / 2) my2 z2 (by omega) (by omega)
  obtain ⟨b2, g2, k2⟩ := band_total (n := n) (m := width / 2) mx2 z2 (by omega) (by omega)
  obtain ⟨b3, g3, k3⟩ := band_total (n := n) (m := mu) x2 z2 (by omega) (by omega)
  obtain ⟨b4, g4, k4⟩ := band_total (n := n) (m := mu) y2 z2 (by omega) (by omega)
  refine ⟨c0 :: (b1 ++ b2 ++ b3 ++ b4), ?_, ?_⟩
  · unfold planarUnilateral
    rw [if_neg (by rintro (h | h); exacts [hl h, hw h])]
    simp only [bind, Except.bind]
    rw [show f.slice 2 1 = .ok z from z1, show f.slice 0 1 = .ok x from x1, show f.slice 1 1 = .ok y from y1,
      show f.slice 3 1 = .ok mx from mx1, show f.slice 4 1 = .ok my from my1]
    simp only [a1, g1, g2, g3, g4]
    rfl
  · intro c hc
    simp only [List.mem_cons, List.mem_append] at hc
    rcases hc with rfl | ((hc | hc) | hc) | hc
    exacts [a2, k1 c hc, k2 c hc, k3 c hc, k4 c hc]

/-- What the solver asks of a contact so that its Jacobian and constraints can be built: the shape of its task, the dimensions of a
unilateral planar contact, six values for an external wrench. A line contact is only accepted when it is not unilateral and has no cost on
its forces (`C60_refuted`). -/
def ContactReady (N : Nat) (robot : RState ℝ) (c : Contact ℝ) : Prop :=
  match c.kind with
  | .point posA _ _ => (posA robot).rows = 3 ∧ (posA robot).cols = N
  | .planar _ u l w => u = true → l ≠ 0 ∧ w ≠ 0
  | .line _ oriA _ u _ => u = false ∧ c.weightForces ≤ 0 ∧ c.weightTangentials ≤ 0 ∧ (oriA robot).rows = 2 ∧ (oriA robot).cols = N
  | .external _ g => g.size = 6
  | .puppet => True
  | .task A => 0 < (A robot).rows ∧ (A robot).cols = N

/-- What is asked of the wrench of a contact: no pulling and no slipping for unilateral contacts, with a centre of pressure inside the
rectangle of a planar one; the given value for an external wrench. -/
def WrenchOK (c : Contact ℝ) (w : Nat → ℝ) : Prop :=
  match c.kind with
  | .point _ R true => Pyramid c.mu (surface R w 0) (surface R w 1) (surface R w 2)
  | .planar _ true length width => Pyramid c.mu (w 0) (w 1) (w 2) ∧ |w 3| ≤ width / 2 * w 2 ∧ |w 4| ≤ length / 2 * w 2
  | .external _ g => ∀ i, i < 6 → w i = g.v i
  | _ => True

/-- The wrench of an external contact has the values `ρ`. -/
def ExternalIs (c : Contact ℝ) (ρ w : Nat → ℝ) : Prop :=
  match c.kind with
  | .external _ _ => ∀ i, i < 6 → w i = ρ i
  | _ => True

theorem ready_update {N : Nat} (hN : 0 < N) {robot : RState ℝ} {c : Contact ℝ} (h : ContactReady N robot c) :
    ∃ J, c.update N robot = .ok J ∧ J.cols = N ∧ 0 < J.rows ∧
      (∀ posA R u, c.kind = .point posA R u → J.rows = 3) ∧ (∀ jac u l w, c.kind = .planar jac u l w → J.rows = 6) ∧
      (∀ jac A R u l, c.kind = .line jac A R u l → J.rows = 5) ∧ (∀ jac g, c.kind = .external jac g → J.rows = 6) := by
  unfold ContactReady at h
  unfold Contact.update
  cases hk : c.kind with
  | point posA R u =>
    rw [hk] at h
    simp only at h ⊢
    rw [if_neg (by simp [h.1])]
    exact ⟨_, rfl, h.2, by omega, fun _ _ _ _ => h.1, fun _ _ _ _ h => (by cases h), fun _ _ _ _ _ h => (by cases h), fun _ _ h => (by cases h)⟩
  | planar jac u l w =>
    exact ⟨_, rfl, rfl, by simp, fun _ _ _ h => (by cases h), fun _ _ _ _ _ => rfl, fun _ _ _ _ _ h => (by cases h), fun _ _ h => (by cases h)⟩
  | line jac oriA R u l =>
    rw [hk] at h
    simp only at h ⊢
    rw [if_neg (by simp [h.2.2.2.1]), if_neg (by simp [h.2.2.2.2])]
    exact ⟨_, rfl, rfl, by simp, fun _ _ _ h => (by cases h), fun _ _ _ _ h => (by cases h), fun _ _ _ _ _ _ => rfl, fun _ _ h => (by cases h)⟩
  | external jac g =>
    exact ⟨_, rfl, rfl, by simp, fun _ _ _ h => (by cases h), fun _ _ _ _ h => (by cases h), fun _ _ _ _ _ h => (by cases h), fun _ _ _ => rfl⟩
  | puppet =>
    exact ⟨_, rfl, rfl, hN, fun _ _ _ h => (by cases h), fun _ _ _ _ h => (by cases h), fun _ _ _ _ _ h => (by cases h), fun _ _ h => (by cases h)⟩
  | task A =>
    rw [hk] at h
    exact ⟨_, rfl, h.2, h.1, fun _ _ _ h => (by cases h), fun _ _ _ _ h => (by cases h), fun _ _ _ _ _ h => (by cases h), fun _ _ h => (by cases h)⟩

theorem addIf_total {n : Nat} (b : Bool) (e : Except Err (List (Constr ℝ)))
    (h : b = true → ∃ l, e = .ok l ∧ ∀ c ∈ l, Clean n c ∧ c.hardEq = false) :
    ∃ l, addIf b e = .ok l ∧ ∀ c ∈ l, Clean n c ∧ c.hardEq = false := by
  cases b with
  | true => exact h rfl
  | false => exact ⟨[], rfl, by simp⟩

/-- The constraints of a contact that is ready: they can be built, they mean `WrenchOK`, and the only hard equalities are those of
external wrenches. -/
theorem contact_total {n N : Nat} {robot : RState ℝ} {c : Contact ℝ} (h : ContactReady N robot c) {J : Mat ℝ} (hJ : c.update N robot = .ok J)
    (hN : 0 < N) (f : Expr ℝ) (hr : f.rows = J.rows) (hc : 0 < f.cols) (hn : f.cols ≤ n) :
    ∃ l, c.constraints f = .ok l ∧ (∀ k ∈ l, Clean n k) ∧ (∀ x, HardSat l x ↔ WrenchOK c (f.rowVal x)) ∧
      ∀ ps : List (Constr ℝ × (Nat → ℝ)), ps.map Prod.fst = l → ∃ ρ, ∀ x,
        ExternalIs c ρ (fun i => f.rowVal x i - f.rowVal (fun _ => 0) i) → MeetsRhs ps x := by
  have nofree : ∀ l : List (Constr ℝ), (∀ k ∈ l, k.hardEq = false) →
      ∀ ps : List (Constr ℝ × (Nat → ℝ)), ps.map Prod.fst = l → ∃ ρ, ∀ x,
        ExternalIs c ρ (fun i => f.rowVal x i - f.rowVal (fun _ => 0) i) → MeetsRhs ps x := by
    intro l hl ps hps
    refine ⟨fun _ => 0, fun x _ p hp hh => ?_⟩
    rw [hl p.1 (by rw [← hps]; exact List.mem_map.2 ⟨p, hp, rfl⟩)] at hh
    cases hh
  obtain ⟨J', hJ', -, hpos, r1, r2, r3, r4⟩ := ready_update hN h
  rw [hJ] at hJ'
  cases hJ'
  unfold ContactReady at h
  have sl : ∀ start rows : Nat, 0 < rows → start + rows ≤ f.rows →
      ∃ e', f.slice (start : Int) (rows : Int) = .ok e' ∧ 0 < e'.rows ∧ 0 < e'.cols ∧ e'.cols ≤ n := by
    intro start rows h0 h1
    obtain ⟨t, t1, t2, t3⟩ := slice_total (e := f) h1
    exact ⟨t, t1, by omega, by omega, by omega⟩
  cases hk : c.kind with
  | point posA R u =>
    have r1 := r1 _ _ _ hk
    obtain ⟨l1, a1, b1⟩ := addIf_total (n := n) u (pointUnilateral c.mu R f) fun _ => pointUnilateral_total c.mu R f (by omega) hn
    obtain ⟨l2, a2, b2⟩ := softZero_total (n := n) c.weightForces (f.slice 0 3) fun _ => sl 0 3 (by omega) (by omega)
    obtain ⟨l3, a3, b3⟩ := softZero_total (n := n) c.weightTangentials (Expr.matMul (rotT R) f >>= fun fs => fs.slice 0 2) fun _ => by
      have h1 : ∃ fs, Expr.matMul (rotT R) f = .ok fs := by
        unfold Expr.matMul
        rw [if_pos (by rw [hr, r1]; rfl)]
        exact ⟨_, rfl⟩
      obtain ⟨fs, h1⟩ := h1
      obtain ⟨-, f2, f3, -⟩ := matMul_ok h1
      have f2 : fs.rows = 3 := f2
      obtain ⟨t, t1, t2, t3⟩ := slice_total (e := fs) (start := 0) (rows := 2) (by omega)
      exact ⟨t, by rw [h1]; exact t1, by omega, by omega, by omega⟩
    have hcon : pointConstraints c R u f = .ok (l1 ++ l2 ++ l3) := by
      unfold pointConstraints
      simp only [bind, Except.bind] at a1 a2 a3 ⊢
      rw [a1, a2]
      simp only
      rw [a3]
      rfl
    have hall : ∀ k ∈ l1 ++ l2 ++ l3, Clean n k ∧ k.hardEq = false := by
      intro k hk
      simp only [List.mem_append] at hk
      rcases hk with (hk | hk) | hk
      exacts [b1 k hk, b2 k hk, b3 k hk]
    refine ⟨l1 ++ l2 ++ l3, by unfold Contact.constraints; rw [hk]; exact hcon, fun k hk => (hall k hk).1, fun x => ?_,
      nofree _ fun k hk => (hall k hk).2⟩
    rw [pointConstraints_spec hcon x]
    unfold WrenchOK
    rw [hk]
    cases u <;> simp
  | planar jac u len wid =>
    rw [hk] at h
    simp only at h
    have r1 := r2 _ _ _ _ hk
    obtain ⟨l1, a1, b1⟩ := addIf_total (n := n) u (planarUnilateral c.mu len wid f) fun hu =>
      planarUnilateral_total c.mu len wid f (h hu).1 (h hu).2 (by omega) hn
    obtain ⟨l2, a2, b2⟩ := softZero_total (n := n) c.weightForces (f.slice 0 3) fun _ => sl 0 3 (by omega) (by omega)
    obtain ⟨l3, a3, b3⟩ := softZero_total (n := n) c.weightTangentials (f.slice 1 2) fun _ => sl 1 2 (by omega) (by omega)
    obtain ⟨l4, a4, b4⟩ := softZero_total (n := n) c.weightMoments (f.slice 3 3) fun _ => sl 3 3 (by omega) (by omega)
    have hcon : planarConstraints c u len wid f = .ok (l1 ++ l2 ++ l3 ++ l4) := by
      unfold planarConstraints
      simp only [a1, a2, a3, a4, bind, Except.bind]
      rfl
    have hall : ∀ k ∈ l1 ++ l2 ++ l3 ++ l4, Clean n k ∧ k.hardEq = false := by
      intro k hk
      simp only [List.mem_append] at hk
      rcases hk with ((hk | hk) | hk) | hk
      exacts [b1 k hk, b2 k hk, b3 k hk, b4 k hk]
    refine ⟨_, by unfold Contact.constraints; rw [hk]; exact hcon, fun k hk => (hall k hk).1, fun x => ?_,
      nofree _ fun k hk => (hall k hk).2⟩
    rw [planarConstraints_spec hcon x]
    unfold WrenchOK
    rw [hk]
    cases u <;> simp
  | line jac oriA R u len =>
    rw [hk] at h
    simp only at h
    obtain ⟨h1, h2, h3, -⟩ := h
    subst h1
    have r1 := r3 _ _ _ _ _ hk
    obtain ⟨l4, a4, b4⟩ := softZero_total (n := n) c.weightMoments (f.slice 3 2) fun _ => sl 3 2 (by omega) (by omega)
    have hcon : lineConstraints c R false len f = .ok l4 := by
      unfold lineConstraints
      simp only [addIf, Bool.false_eq_true, if_false]
      unfold softZero at a4 ⊢
      rw [if_neg (not_lt.2 h2), if_neg (not_lt.2 h3)]
      simp only [bind, Except.bind, pure, Except.pure] at a4 ⊢
      rw [a4]
      simp
    refine ⟨l4, by unfold Contact.constraints; rw [hk]; exact hcon, fun k hk => (b4 k hk).1, fun x => ?_,
      nofree _ fun k hk => (b4 k hk).2⟩
    unfold WrenchOK
    rw [hk]
    simp only [iff_true]
    exact HardSat_soft (softZero_soft a4).1 x
  | external jac g =>
    rw [hk] at h
    simp only at h
    have r1 := r4 _ _ hk
    obtain ⟨d, hd⟩ := sub_total (e := f) (o := Expr.fromVector g) (by rw [hr, r1]; exact h.symm)
    have he : f.eqVec g = .ok { expr := d, weight := 1 } := by unfold Expr.eqVec Expr.eq; rw [hd]; rfl
    have hcon : c.constraints f = .ok [{ expr := d, weight := 1 }] := by
      unfold Contact.constraints
      rw [hk]
      simp only [he, bind, Except.bind]
      rfl
    have hs : SizedFor n ({ expr := d, weight := 1 } : Constr ℝ) := eq_sized he (by omega) (by show 0 < g.size; omega) hn (Nat.zero_le _)
    have hd' := hd
    unfold Expr.sub at hd'
    obtain ⟨d1, d2⟩ := Expr.add_rowVal_of_rows hd' (show f.rows = ((Expr.fromVector g).smul (-1)).rows by rw [hr, r1]; exact h.symm)
    refine ⟨_, hcon, fun k hk => ?_, fun x => ?_, fun ps hps => ?_⟩
    · rw [List.mem_singleton.1 hk]
      exact ⟨hs, rfl⟩
    · rw [external_exact c jac g hk h f (by omega) _ hcon x]
      unfold WrenchOK
      rw [hk]
    · obtain ⟨q, rfl, hq⟩ := List.map_eq_singleton_iff.1 hps
      refine ⟨q.2, fun x hx p hp hh i hi => ?_⟩
      unfold ExternalIs at hx
      rw [hk] at hx
      simp only at hx
      rw [List.mem_singleton.1 hp] at hi ⊢
      rw [hq] at hi ⊢
      have hi : i < d.rows := hi
      rw [← hx i (by omega)]
      show d.rowVal x i - d.rowVal (fun _ => 0) i = _
      rw [d2 x i (by omega), d2 _ i (by omega), Expr.rowVal_smul, Expr.rowVal_smul]
      simp only [Expr.rowVal, Expr.fromVector]
      simp
  | puppet =>
    obtain ⟨l4, a4, b4⟩ := softZero_total (n := n) c.weightForces (.ok f) fun _ => ⟨f, rfl, by omega, hc, hn⟩
    refine ⟨l4, by unfold Contact.constraints; rw [hk]; exact a4, fun k hk => (b4 k hk).1, fun x => ?_, nofree _ fun k hk => (b4 k hk).2⟩
    unfold WrenchOK
    rw [hk]
    simp only [iff_true]
    exact HardSat_soft (softZero_soft a4).1 x
  | task A =>
    obtain ⟨l4, a4, b4⟩ := softZero_total (n := n) c.weightForces (.ok f) fun _ => ⟨f, rfl, by omega, hc, hn⟩
    refine ⟨l4, by unfold Contact.constraints; rw [hk]; exact a4, fun k hk => (b4 k hk).1, fun x => ?_, nofree _ fun k hk => (b4 k hk).2⟩
    unfold WrenchOK
    rw [hk]
    simp only [iff_true]
    exact HardSat_soft (softZero_soft a4).1 x


/-- Conversely the hard equalities of a contact determine the wrench of an external contact. -/
theorem contact_back {N : Nat} {robot : RState ℝ} {c : Contact ℝ} (h : ContactReady N robot c) {J : Mat ℝ} (hJ : c.update N robot = .ok J)
    (hN : 0 < N) (f : Expr ℝ) (hr : f.rows = J.rows) {l : List (Constr ℝ)} (hl : c.constraints f = .ok l) (ρ : Nat → ℝ) :
    ∃ ps : List (Constr ℝ × (Nat → ℝ)), ps.map Prod.fst = l ∧
      ∀ x, MeetsRhs ps x → ExternalIs c ρ (fun i => f.rowVal x i - f.rowVal (fun _ => 0) i) := by
  have triv : (∀ w, ExternalIs c ρ w) → ∃ ps : List (Constr ℝ × (Nat → ℝ)), ps.map Prod.fst = l ∧
      ∀ x, MeetsRhs ps x → ExternalIs c ρ (fun i => f.rowVal x i - f.rowVal (fun _ => 0) i) :=
    fun H => ⟨l.map fun k => (k, fun _ => 0), by simp [Function.comp_def], fun x _ => H _⟩
  obtain ⟨J', hJ', -, hpos, r1, r2, r3, r4⟩ := ready_update hN h
  rw [hJ] at hJ'
  cases hJ'
  unfold ContactReady at h
  cases hk : c.kind with
  | external jac g =>
    rw [hk] at h
    simp only at h
    have r1 := r4 _ _ hk
    obtain ⟨d, hd⟩ := sub_total (e := f) (o := Expr.fromVector g) (by rw [hr, r1]; exact h.symm)
    have he : f.eqVec g = .ok { expr := d, weight := 1 } := by unfold Expr.eqVec Expr.eq; rw [hd]; rfl
    have hcon : c.constraints f = .ok [{ expr := d, weight := 1 }] := by
      unfold Contact.constraints
      rw [hk]
      simp only [he, bind, Except.bind]
      rfl
    rw [hcon] at hl
    cases hl
    have hd' := hd
    unfold Expr.sub at hd'
    obtain ⟨d1, d2⟩ := Expr.add_rowVal_of_rows hd' (show f.rows = ((Expr.fromVector g).smul (-1)).rows by rw [hr, r1]; exact h.symm)
    refine ⟨[({ expr := d, weight := 1 }, ρ)], rfl, fun x hx => ?_⟩
    unfold ExternalIs
    rw [hk]
    intro i hi
    have := hx _ (List.mem_singleton.2 rfl) rfl i (by show i < d.rows; omega)
    refine Eq.trans ?_ this
    show _ = d.rowVal x i - d.rowVal (fun _ => 0) i
    rw [d2 x i (by omega), d2 _ i (by omega), Expr.rowVal_smul, Expr.rowVal_smul]
    simp only [Expr.rowVal, Expr.fromVector]
    simp
  | point posA R u => exact triv fun w => by unfold ExternalIs; rw [hk]; trivial
  | planar jac u len wid => exact triv fun w => by unfold ExternalIs; rw [hk]; trivial
  | line jac oriA R u len => exact triv fun w => by unfold ExternalIs; rw [hk]; trivial
  | puppet => exact triv fun w => by unfold ExternalIs; rw [hk]; trivial
  | task A => exact triv fun w => by unfold ExternalIs; rw [hk]; trivial

/-- The loop over the contacts, when all the active ones are ready. -/
theorem addContacts_total (N : Nat) (hN : 0 < N) (robot : RState ℝ) : ∀ (cs : List (Contact ℝ)) (k : Nat),
    (∀ c ∈ cs, c.active = true → ContactReady N robot c) →
    ∃ n js cc, addContacts N robot k cs = .ok (n, js, cc) ∧ (∀ c ∈ cc, Clean n c) ∧ (∀ p ∈ js, p.1.cols = N) ∧
      (∀ x, HardSat cc x ↔ List.Forall₂ (fun c p => WrenchOK c (p.2.rowVal x)) (cs.filter (·.active)) js) ∧
      (∀ ps : List (Constr ℝ × (Nat → ℝ)), ps.map Prod.fst = cc → ∃ rs : List (Contact ℝ × (Nat → ℝ)),
        rs.map Prod.fst = cs.filter (·.active) ∧
        ∀ x, List.Forall₂ (fun q p => ExternalIs q.1 q.2 (p.2.rowVal x)) rs js → MeetsRhs ps x) ∧
      ∀ rs : List (Contact ℝ × (Nat → ℝ)), rs.map Prod.fst = cs.filter (·.active) → ∃ ps : List (Constr ℝ × (Nat → ℝ)),
        ps.map Prod.fst = cc ∧ ∀ x, MeetsRhs ps x → List.Forall₂ (fun q p => ExternalIs q.1 q.2 (p.2.rowVal x)) rs js
  | [], k, _ => ⟨k, [], [], rfl, by simp, by simp, fun x => by simp [HardSat_nil], fun ps hps => ⟨[], rfl, fun x _ p hp => by
      rw [List.map_eq_nil_iff.1 hps] at hp; cases hp⟩, fun rs hrs => ⟨[], rfl, fun x _ => by
      rw [List.map_eq_nil_iff.1 hrs]; exact .nil⟩⟩
  | c :: cs, k, h => by
    by_cases ha : c.active = true
    · have hr := h c List.mem_cons_self ha
      obtain ⟨J, hJ, hcols, hpos, -⟩ := ready_update hN hr
      obtain ⟨n, js, cc, a1, a2, a3, a4, a5, a6⟩ := addContacts_total N hN robot cs (k + J.rows) fun c' hc' => h c' (List.mem_cons_of_mem _ hc')
      have hle : k + J.rows ≤ n := (addContacts_spec N robot cs _ _ _ _ a1).1.le
      have hf : ((⟨k, k + J.rows⟩ : Var).expr (-1) (-1) : Except Err (Expr ℝ)) =
          .ok ⟨J.rows, k + J.rows, fun a j => if j = k + a then 1 else 0, fun _ => 0⟩ := by
        rw [var_expr_all ⟨k, k + J.rows⟩ (by simp)]
        simp
      generalize hfe : (⟨J.rows, k + J.rows, fun a j => if j = k + a then 1 else 0, fun _ => 0⟩ : Expr ℝ) = f at hf
      obtain ⟨l, l1, l2, l3, l4⟩ := contact_total (n := n) hr hJ hN f (by rw [← hfe]) (by rw [← hfe]; show 0 < k + J.rows; omega)
        (by rw [← hfe]; exact hle)
      have h0 : ∀ i, f.rowVal (fun _ => 0) i = 0 := by
        intro i
        rw [← hfe]
        simp [Expr.rowVal]
      refine ⟨n, (J, f) :: js, l ++ cc, ?_, ?_, ?_, fun x => ?_, fun ps hps => ?_, fun rs hrs => ?_⟩
      · rw [addContacts, if_pos ha]
        simp only [hJ, hf, l1, a1, bind, Except.bind]
        rfl
      · intro d hd
        rcases List.mem_append.1 hd with hd | hd
        exacts [l2 d hd, a2 d hd]
      · intro p hp
        rcases List.mem_cons.1 hp with rfl | hp
        exacts [hcols, a3 p hp]
      · rw [HardSat_append, l3, a4, List.filter_cons_of_pos ha, List.forall₂_cons]
      · obtain ⟨p1, p2, rfl, hp1, hp2⟩ := List.map_eq_append_iff.1 hps
        obtain ⟨ρ, hρ⟩ := l4 p1 hp1
        obtain ⟨rs, hrs, hrx⟩ := a5 p2 hp2
        refine ⟨(c, ρ) :: rs, by rw [List.filter_cons_of_pos ha]; simp [hrs], fun x hx p hp => ?_⟩
        rw [List.forall₂_cons] at hx
        rcases List.mem_append.1 hp with hp | hp
        · refine hρ x ?_ p hp
          simp only [h0, sub_zero]
          exact hx.1
        · exact hrx x hx.2 p hp
      · rw [List.filter_cons_of_pos ha] at hrs
        obtain ⟨q, rs', rfl, hq, hrs'⟩ := List.map_eq_cons_iff.1 hrs
        obtain ⟨p1, hp1, hx1⟩ := contact_back hr hJ hN f (by rw [← hfe]) l1 q.2
        obtain ⟨p2, hp2, hx2⟩ := a6 rs' hrs'
        refine ⟨p1 ++ p2, by simp [hp1, hp2], fun x hx => .cons ?_ (hx2 x fun p hp => hx p (List.mem_append_right _ hp))⟩
        have := hx1 x fun p hp => hx p (List.mem_append_left _ hp)
        simp only [h0, sub_zero] at this
        rw [hq]
        exact this
    · obtain ⟨n, js, cc, a1, a2, a3, a4, a5, a6⟩ := addContacts_total N hN robot cs k fun c' hc' => h c' (List.mem_cons_of_mem _ hc')
      rw [List.filter_cons_of_neg ha]
      exact ⟨n, js, cc, by rw [addContacts, if_neg ha]; exact a1, a2, a3, a4, a5, a6⟩

/-- Any accelerations and wrenches are read from some point. -/
theorem chain_point : ∀ (js : List (Mat ℝ × Expr ℝ)) (k n : Nat) (_ : Chain k js n) (y : Nat → ℝ) (ws : List (Nat → ℝ)),
    ws.length = js.length → ∃ x : Nat → ℝ, (∀ j, j < k → x j = y j) ∧
      List.Forall₂ (fun p w => ∀ l, l < p.1.rows → p.2.rowVal x l = w l) js ws
  | [], k, n, _, y, ws, hw => by
    have : ws = [] := by simpa using hw
    subst this
    exact ⟨y, fun _ _ => rfl, .nil⟩
  | (J, f) :: js, k, n, h, y, ws, hw => by
    obtain ⟨-, -, h3, h4⟩ := h
    cases ws with
    | nil => simp at hw
    | cons w ws =>
      obtain ⟨x, x1, x2⟩ := chain_point js (k + J.rows) n h4 (fun j => if k ≤ j then w (j - k) else y j) ws (by simpa using hw)
      refine ⟨x, fun j hj => ?_, .cons (fun l hl => ?_) x2⟩
      · rw [x1 j (by omega), if_neg (by omega)]
      · have hl : l < J.rows := hl
        show f.rowVal x l = w l
        rw [h3 x l hl, x1 _ (by omega), if_pos (by omega)]
        congr 1
        omega

/-! ## The torques -/

theorem bareTau_total (r : DynRobot ℝ) (s : DState ℝ) (hx : ∀ f, s.extraForce = some f → f.size = r.nv) :
    ∃ t, bareTau r s ⟨r.nv, r.nv, fun k j => if j = k then 1 else 0, fun _ => 0⟩ = .ok t := by
  unfold bareTau Expr.matMul
  rw [if_pos rfl]
  simp only [bind, Except.bind, Expr.addVec, biasVec, if_true, addExtra]
  cases hf : s.extraForce with
  | none => exact ⟨_, rfl⟩
  | some f =>
    simp only
    rw [if_pos (hx f hf)]
    exact ⟨_, rfl⟩

theorem writeContacts_total (N n : Nat) : ∀ (js : List (Mat ℝ × Expr ℝ)) (k : Nat) (tau : Expr ℝ), Chain k js n → n ≤ tau.cols →
    (∀ p ∈ js, p.1.cols = N) → ∃ t, writeContacts N k tau js = .ok t
  | [], _, tau, _, _, _ => ⟨tau, rfl⟩
  | (J, f) :: js, k, tau, h, hn, hc => by
    obtain ⟨h1, -, -, h4⟩ := h
    have := h4.le
    rw [writeContacts, if_pos ⟨hc (J, f) List.mem_cons_self, by omega, h1⟩]
    exact writeContacts_total N n js _ _ h4 hn fun p hp => hc p (List.mem_cons_of_mem _ hp)

theorem fullTau_total (N n : Nat) (tau : Expr ℝ) (js : List (Mat ℝ × Expr ℝ)) (h : Chain N js n) (hc : tau.cols = N)
    (hJ : ∀ p ∈ js, p.1.cols = N) : ∃ t, fullTau N n tau js = .ok t := by
  have := h.le
  unfold fullTau
  rw [if_pos (by omega)]
  exact writeContacts_total N n js N _ h (le_refl _) hJ

/-! ## Limits -/

/-- The enabled limits, on the accelerations `y` and torques `tau` of the actuated joints. The braking limits use the given square root:
inside its range a joint must be able to stop before the limit with the deceleration `qdd_safe`; outside it must decelerate by at least
`qdd_safe`. -/
structure LimitsOK (sqrt : ℝ → ℝ) (r : DynRobot ℝ) (s : DState ℝ) (y tau : Nat → ℝ) : Prop where
  torque : s.torqueLimits = true → ∀ i, 6 ≤ i → i < r.nv → |tau i| ≤ (s.overrides i).getD (r.effort i)
  velocity : s.velocityLimits = true → s.velocityVsTorque = false → ∀ i, 6 ≤ i → i < r.nv → |s.robot.qd i + s.dt * y i| ≤ r.vlim i
  mixed : s.velocityVsTorque = true → ∀ i, 6 ≤ i → i < r.nv →
    |s.robot.qd i + s.dt * y i + r.vlim i / r.effort i * tau i| ≤ r.vlim i
  upper : s.jointLimits = true → ∀ i, 6 ≤ i → i < r.nv →
    if r.upper (i + 1) < s.robot.q (i + 1) then y i ≤ -(s.qddSafe i)
    else s.robot.qd i + s.dt * y i ≤ sqrt (2 * (r.upper (i + 1) - s.robot.q (i + 1)) * s.qddSafe i)
  lower : s.jointLimits = true → ∀ i, 6 ≤ i → i < r.nv →
    if s.robot.q (i + 1) < r.lower (i + 1) then s.qddSafe i ≤ y i
    else -(s.robot.qd i + s.dt * y i) ≤ sqrt (2 * |r.lower (i + 1) - s.robot.q (i + 1)| * s.qddSafe i)

theorem limitRows_spec (sqrt : ℝ → ℝ) (r : DynRobot ℝ) (s : DState ℝ) (n : Nat) (tau : Expr ℝ) (hc : tau.cols = n) (k : Nat) (hk : k + 6 < n)
    (x : Nat → ℝ) : (∀ row ∈ limitRows sqrt r s tau k, row.val n x ≤ 0) ↔
      (s.velocityLimits = true → s.velocityVsTorque = false → |s.robot.qd (k + 6) + s.dt * x (k + 6)| ≤ r.vlim (k + 6)) ∧
      (s.velocityVsTorque = true →
        |s.robot.qd (k + 6) + s.dt * x (k + 6) + r.vlim (k + 6) / r.effort (k + 6) * tau.rowVal x (k + 6)| ≤ r.vlim (k + 6)) ∧
      (s.jointLimits = true →
        (if r.upper (k + 7) < s.robot.q (k + 7) then x (k + 6) ≤ -(s.qddSafe (k + 6))
          else s.robot.qd (k + 6) + s.dt * x (k + 6) ≤ sqrt (2 * (r.upper (k + 7) - s.robot.q (k + 7)) * s.qddSafe (k + 6))) ∧
        (if s.robot.q (k + 7) < r.lower (k + 7) then s.qddSafe (k + 6) ≤ x (k + 6)
          else -(s.robot.qd (k + 6) + s.dt * x (k + 6)) ≤ sqrt (2 * |r.lower (k + 7) - s.robot.q (k + 7)| * s.qddSafe (k + 6)))) := by
  have hpick : ∀ (c : ℝ), ∑ j ∈ range n, (if j = k + 6 then c else 0) * x j = c * x (k + 6) := by
    intro c
    rw [sum_eq_single_of_mem (k + 6) (mem_range.2 (by omega)) fun j _ hj => by simp [hj]]
    simp
  have hA : ∀ (ρ : ℝ), ∑ j ∈ range n, ρ * tau.A (k + 6) j * x j + ρ * tau.b (k + 6) = ρ * tau.rowVal x (k + 6) := by
    intro ρ
    unfold Expr.rowVal
    rw [hc, mul_add, mul_sum]
    congr 1
    exact sum_congr rfl fun j _ => by ring
  unfold limitRows
  simp only [List.mem_append, or_imp, forall_and]
  have hvel : (∀ row ∈ (if s.velocityVsTorque then
      [⟨fun j => r.vlim (k + 6) / r.effort (k + 6) * tau.A (k + 6) j + (if j = k + 6 then s.dt else 0),
        r.vlim (k + 6) / r.effort (k + 6) * tau.b (k + 6) + (s.robot.qd (k + 6) - r.vlim (k + 6))⟩,
       ⟨fun j => -(r.vlim (k + 6) / r.effort (k + 6)) * tau.A (k + 6) j - (if j = k + 6 then s.dt else 0),
        -(r.vlim (k + 6) / r.effort (k + 6)) * tau.b (k + 6) - (s.robot.qd (k + 6) + r.vlim (k + 6))⟩]
    else if s.velocityLimits then
      [unitRow (k + 6) s.dt (-(r.vlim (k + 6)) + s.robot.qd (k + 6)), unitRow (k + 6) (-s.dt) (-(r.vlim (k + 6)) - s.robot.qd (k + 6))]
    else [] : List (Row ℝ)), row.val n x ≤ 0) ↔
      (s.velocityLimits = true → s.velocityVsTorque = false → |s.robot.qd (k + 6) + s.dt * x (k + 6)| ≤ r.vlim (k + 6)) ∧
      (s.velocityVsTorque = true →
        |s.robot.qd (k + 6) + s.dt * x (k + 6) + r.vlim (k + 6) / r.effort (k + 6) * tau.rowVal x (k + 6)| ≤ r.vlim (k + 6)) := by
    by_cases hvt : s.velocityVsTorque = true
    · simp only [hvt, if_true, List.mem_cons, List.not_mem_nil, or_false, forall_eq_or_imp, forall_eq, forall_const, Bool.true_eq_false,
        IsEmpty.forall_iff, implies_true, true_and]
      unfold Row.val
      simp only [add_mul, sub_mul, sum_add_distrib, sum_sub_distrib, hpick]
      have e1 := hA (r.vlim (k + 6) / r.effort (k + 6))
      have e2 := hA (-(r.vlim (k + 6) / r.effort (k + 6)))
      rw [abs_le]
      constructor
      · rintro ⟨h1, h2⟩
        constructor <;> linarith
      · rintro ⟨h1, h2⟩
        constructor <;> linarith
    · have hvt' : s.velocityVsTorque = false := by simpa using hvt
      by_cases hv : s.velocityLimits = true
      · simp only [hvt', hv, if_true, Bool.false_eq_true, if_false, List.mem_cons, List.not_mem_nil, or_false, forall_eq_or_imp, forall_eq,
          forall_const, IsEmpty.forall_iff, and_true]
        rw [unitRow_val _ _ hk, unitRow_val _ _ hk, abs_le]
        constructor
        · rintro ⟨h1, h2⟩
          constructor <;> linarith
        · rintro ⟨h1, h2⟩
          constructor <;> linarith
      · simp [hvt', hv]
  rw [hvel, and_assoc]
  refine and_congr_right fun _ => and_congr_right fun _ => ?_
  by_cases hj : s.jointLimits = true
  · simp only [hj, if_true, List.mem_cons, List.not_mem_nil, or_false, forall_eq_or_imp, forall_eq, forall_const]
    refine and_congr ?_ ?_
    · split
      · rw [unitRow_val _ _ hk]
        constructor <;> intro h <;> linarith
      · rw [unitRow_val _ _ hk]
        constructor <;> intro h <;> linarith
    · split
      · rw [unitRow_val _ _ hk]
        constructor <;> intro h <;> linarith
      · rw [unitRow_val _ _ hk]
        constructor <;> intro h <;> linarith
  · simp [hj]

theorem limitRows_length (sqrt : ℝ → ℝ) (r : DynRobot ℝ) (s : DState ℝ) (tau : Expr ℝ) (N : Nat) :
    ((List.range (N - 6)).flatMap (limitRows sqrt r s tau)).length = limitCount N s := by
  have hl : ∀ k, (limitRows sqrt r s tau k).length =
      (if s.velocityLimits ∨ s.velocityVsTorque then 2 else 0) + (if s.jointLimits then 2 else 0) := by
    intro k
    unfold limitRows
    simp only [List.length_append]
    congr 1
    · cases s.velocityVsTorque <;> cases s.velocityLimits <;> rfl
    · cases s.jointLimits <;> rfl
  simp only [List.length_flatMap, hl, List.map_const', List.sum_replicate, List.length_range, smul_eq_mul]
  unfold limitCount
  by_cases h1 : (s.velocityLimits = true ∨ s.velocityVsTorque = true) <;> by_cases h2 : s.jointLimits = true <;> simp [h1, h2] <;> ring

theorem limitConstraints_total (sqrt : ℝ → ℝ) (r : DynRobot ℝ) (s : DState ℝ) (n : Nat) (tau : Expr ℝ) (hr : tau.rows = r.nv)
    (hc : tau.cols = n) (hn : 6 < r.nv) (hle : r.nv ≤ n)
    (hdt : s.jointLimits = true ∨ s.velocityLimits = true ∨ s.velocityVsTorque = true → s.dt ≠ 0) :
    ∃ l, limitConstraints sqrt r s n tau = .ok l ∧ (∀ c ∈ l, Clean n c ∧ c.hardEq = false) ∧
      ∀ x, HardSat l x ↔ LimitsOK sqrt r s x (tau.rowVal x) := by
  have h1 : checkDt s = .ok () := by
    unfold checkDt
    rw [if_neg (by rintro ⟨a, b⟩; exact hdt a b)]
  obtain ⟨t, t1, t2⟩ := addIf_total (n := n) s.torqueLimits (do
      let limit : Nat → ℝ := fun i => (s.overrides i).getD (r.effort i)
      let a ← tau.slice 6 (-1)
      let u ← bottomRows r.nv ((r.nv : Int) - 6) limit
      let c1 ← a.leVec u
      let l ← bottomRows r.nv ((r.nv : Int) - 6) fun i => -(limit i)
      let c2 ← a.geVec l
      pure [c1, c2]) fun _ => by
    have hm : ((r.nv : Int) - 6).toNat = r.nv - 6 := by omega
    have hsl : ∃ a, tau.slice 6 (-1) = .ok a := by
      unfold Expr.slice
      simp only
      rw [if_pos (by omega : ((-1 : Int) < 0)), if_pos (by omega)]
      exact ⟨_, rfl⟩
    obtain ⟨a, ha⟩ := hsl
    obtain ⟨-, a2, a3, -⟩ := slice_rest_ok (start := 6) ha
    have hb : ∀ f : Nat → ℝ, bottomRows r.nv ((r.nv : Int) - 6) f = .ok ⟨r.nv - 6, fun i => f (r.nv - (r.nv - 6) + i)⟩ := by
      intro f
      unfold bottomRows
      rw [if_pos (by omega), hm]
    have hle' : ∀ v : Vec ℝ, v.size = r.nv - 6 → ∃ c, a.leVec v = .ok c ∧ Clean n c ∧ c.hardEq = false := fun v hv =>
      le_total' (n := n) (e := a) (o := Expr.fromVector v) (by show a.rows = v.size; omega) (by omega) (by omega) (Nat.zero_le _)
    have hge' : ∀ v : Vec ℝ, v.size = r.nv - 6 → ∃ c, a.geVec v = .ok c ∧ Clean n c ∧ c.hardEq = false := fun v hv =>
      ge_total (n := n) (e := a) (o := Expr.fromVector v) (by show a.rows = v.size; omega) (by omega) (by omega) (Nat.zero_le _)
    obtain ⟨c1, e1, g1⟩ := hle' ⟨r.nv - 6, fun i => (s.overrides (r.nv - (r.nv - 6) + i)).getD (r.effort (r.nv - (r.nv - 6) + i))⟩ rfl
    obtain ⟨c2, e2, g2⟩ := hge' ⟨r.nv - 6, fun i => -(s.overrides (r.nv - (r.nv - 6) + i)).getD (r.effort (r.nv - (r.nv - 6) + i))⟩ rfl
    refine ⟨[c1, c2], ?_, ?_⟩
    · simp only [ha, hb, e1, e2, bind, Except.bind]
      rfl
    · intro c hc
      simp only [List.mem_cons, List.not_mem_nil, or_false] at hc
      rcases hc with rfl | rfl <;> assumption
  have t1 : torqueLimitConstraints r s tau = .ok t := t1
  obtain ⟨l, l1, l2⟩ := addIf_total (n := n) (0 < limitCount r.nv s) (jointConstraints sqrt r s n tau) fun hpos => by
    have hpos : 0 < limitCount r.nv s := of_decide_eq_true hpos
    have he : ∃ e, rowsExpr (limitCount r.nv s) n ((List.range (r.nv - 6)).flatMap (limitRows sqrt r s tau)) = .ok e ∧
        e.rows = limitCount r.nv s ∧ e.cols = n := by
      unfold rowsExpr
      rw [if_pos (limitRows_length sqrt r s tau r.nv)]
      exact ⟨_, rfl, rfl, rfl⟩
    obtain ⟨e, e1, e2, e3⟩ := he
    have hsub : ∃ c, e.leDouble 0 = .ok c ∧ Clean n c ∧ c.hardEq = false := by
      have hd : ∃ d, e.sub (Expr.fromDouble 0) = .ok d := by
        unfold Expr.sub Expr.add
        split
        · exact ⟨_, rfl⟩
        · rw [if_pos (by rfl)]
          exact ⟨_, rfl⟩
      obtain ⟨d, hd⟩ := hd
      have e4 : e.leDouble 0 = .ok { expr := d.neg, ty := .inequality, weight := 1 } := by unfold Expr.leDouble Expr.le; rw [hd]; rfl
      exact ⟨_, e4, ⟨(le_sized e4 (by omega) one_pos (by omega) (Nat.zero_le _)).1, rfl⟩, rfl⟩
    obtain ⟨c, c1, c2⟩ := hsub
    refine ⟨[c], ?_, fun k hk => by rw [List.mem_singleton.1 hk]; exact c2⟩
    unfold jointConstraints
    simp only [e1, c1, bind, Except.bind]
    rfl
  have hl : limitConstraints sqrt r s n tau = .ok (t ++ l) := by
    unfold limitConstraints
    simp only [h1, t1, l1, bind, Except.bind]
    rfl
  refine ⟨t ++ l, hl, fun c hc => ?_, fun x => ?_⟩
  · rcases List.mem_append.1 hc with hc | hc
    exacts [t2 c hc, l2 c hc]
  · rw [(limitConstraints_spec sqrt r s n tau hr (t ++ l) hl x).2]
    constructor
    · rintro ⟨a, b⟩
      have b' : ∀ i, 6 ≤ i → i < r.nv → _ := fun i h6 hi =>
        (limitRows_spec sqrt r s n tau hc (i - 6) (by omega) x).1 (b (i - 6) (by omega))
      have e6 : ∀ i, 6 ≤ i → i - 6 + 6 = i := fun i h => by omega
      have e7 : ∀ i, 6 ≤ i → i - 6 + 7 = i + 1 := fun i h => by omega
      refine ⟨a, fun h1 h2 i h6 hi => ?_, fun h1 i h6 hi => ?_, fun h1 i h6 hi => ?_, fun h1 i h6 hi => ?_⟩
      · have := (b' i h6 hi).1 h1 h2
        rw [e6 i h6] at this
        exact this
      · have := (b' i h6 hi).2.1 h1
        rw [e6 i h6] at this
        exact this
      · have := ((b' i h6 hi).2.2 h1).1
        rw [e6 i h6, e7 i h6] at this
        exact this
      · have := ((b' i h6 hi).2.2 h1).2
        rw [e6 i h6, e7 i h6] at this
        exact this
    · intro h
      refine ⟨h.torque, fun k hk => (limitRows_spec sqrt r s n tau hc k (by omega) x).2 ⟨fun h1 h2 => ?_, fun h1 => ?_, fun h1 => ⟨?_, ?_⟩⟩⟩
      · exact h.velocity h1 h2 (k + 6) (by omega) hk
      · exact h.mixed h1 (k + 6) (by omega) hk
      · exact h.upper h1 (k + 6) (by omega) hk
      · exact h.lower h1 (k + 6) (by omega) hk

/-! ## Tasks -/

/-- A hard task is met by the accelerations `y` and the torques `tau`. -/
def DTaskMet (robot : RState ℝ) (t : DTask ℝ) (y tau : Nat → ℝ) : Prop :=
  t.priority = .hard → ∀ M, t.update robot = .ok M → ∀ i, i < M.rows →
    ∑ j ∈ range M.cols, M.A i j * (if t.tauTask then tau j else y j) = M.b i

/-- The rows of a hard task take the values `ρ`. -/
def DTaskRhs (robot : RState ℝ) (t : DTask ℝ) (ρ y tau : Nat → ℝ) : Prop :=
  t.priority = .hard → ∀ M, t.update robot = .ok M → ∀ i, i < M.rows →
    ∑ j ∈ range M.cols, M.A i j * (if t.tauTask then tau j else y j) = ρ i

/-- A task that can be updated, with the columns of the robot, and that is not scaled (scaled tasks are refused). -/
def DTaskReady (N : Nat) (robot : RState ℝ) (t : DTask ℝ) : Prop :=
  t.priority ≠ .scaled ∧ ∃ M, t.update robot = .ok M ∧ M.cols = N

theorem dtask_total {N n : Nat} {robot : RState ℝ} {t : DTask ℝ} (h : t.priority ≠ .scaled) {M : TaskMat ℝ} (hM : t.update robot = .ok M)
    (hc : M.cols = N) (hN : 0 < N) (hn : N ≤ n) (tau : Expr ℝ) (hr : tau.rows = N) (htc : tau.cols = n) :
    ∃ l, dtaskConstraint tau t M = .ok l ∧ (∀ c ∈ l, Clean n c) ∧ (∀ x, HardSat l x ↔ DTaskMet robot t x (tau.rowVal x)) ∧
      (∀ ps : List (Constr ℝ × (Nat → ℝ)), ps.map Prod.fst = l → ∃ ρ, ∀ x,
        DTaskRhs robot t ρ x (fun i => tau.rowVal x i - tau.rowVal (fun _ => 0) i) → MeetsRhs ps x) ∧
      ∀ ρ, ∃ ps : List (Constr ℝ × (Nat → ℝ)), ps.map Prod.fst = l ∧ ∀ x, MeetsRhs ps x →
        DTaskRhs robot t ρ x (fun i => tau.rowVal x i - tau.rowVal (fun _ => 0) i) := by
  unfold dtaskConstraint
  by_cases h0 : M.rows = 0
  · rw [if_pos h0]
    refine ⟨[], rfl, by simp, fun x => ⟨fun _ _ M' hM' i hi => ?_, fun _ => HardSat_nil x⟩, fun ps hps => ⟨fun _ => 0, fun x _ p hp => by
      rw [List.map_eq_nil_iff.1 hps] at hp; cases hp⟩, fun ρ => ⟨[], rfl, fun x _ _ M' hM' i hi => ?_⟩⟩
    · rw [hM] at hM'
      cases hM'
      omega
    · rw [hM] at hM'
      cases hM'
      omega
  · rw [if_neg h0, if_neg h]
    have he : ∃ e, taskExpr tau t M = .ok e ∧ e.rows = M.rows ∧ 0 < e.cols ∧ e.cols ≤ n ∧
        ∀ x i, e.rowVal x i = (∑ j ∈ range M.cols, M.A i j * (if t.tauTask then tau.rowVal x j else x j)) - M.b i := by
      unfold taskExpr
      cases htau : t.tauTask with
      | false =>
        simp only [Bool.false_eq_true, if_false]
        refine ⟨_, rfl, rfl, by show 0 < M.cols; omega, by show M.cols ≤ n; omega, fun x i => ?_⟩
        rw [plainExpr_rowVal]
        rfl
      | true =>
        simp only [if_true]
        have h1 : ∃ m, Expr.matMul ⟨M.rows, M.cols, M.A⟩ tau = .ok m := by
          unfold Expr.matMul
          rw [if_pos (by show M.cols = tau.rows; omega)]
          exact ⟨_, rfl⟩
        obtain ⟨m, h1⟩ := h1
        obtain ⟨-, m2, m3, m4⟩ := matMul_ok h1
        have h2 : ∃ e, m.subVec ⟨M.rows, M.b⟩ = .ok e := by
          unfold Expr.subVec
          rw [if_pos (by exact m2.symm)]
          exact ⟨_, rfl⟩
        obtain ⟨e, h2⟩ := h2
        obtain ⟨-, e2, e3, e4⟩ := subVec_ok h2
        refine ⟨e, by rw [h1]; exact h2, by rw [e2, m2], by omega, by omega, fun x i => ?_⟩
        rw [e4, m4, hr, hc]
    obtain ⟨e, e1, e2, e3, e4, e5⟩ := he
    obtain ⟨c, c1, c2, c3, c4, c5, c6⟩ := zero_total e (by omega) e3 e4
    have hdiff : ∀ x i, c.expr.rowVal x i - c.expr.rowVal (fun _ => 0) i = ∑ j ∈ range M.cols, M.A i j *
        (if t.tauTask then tau.rowVal x j - tau.rowVal (fun _ => 0) j else x j) := by
      intro x i
      rw [c6, c6, e5, e5]
      cases t.tauTask with
      | false => simp
      | true =>
        simp only [if_true]
        rw [sub_sub_sub_cancel_right, ← sum_sub_distrib]
        exact sum_congr rfl fun j _ => by ring
    refine ⟨[c.configureP (if t.priority = .soft then .soft else .hard) t.weight], ?_, fun k hk => ?_, fun x => ?_, fun ps hps => ?_, fun ρ => ?_⟩
    · simp only [e1, c1, bind, Except.bind]
      rfl
    · rw [List.mem_singleton.1 hk]
      exact c2.soft c3 t.priority
    · rw [HardSat_single]
      have hprio : ((c.configureP (if t.priority = .soft then .soft else .hard) t.weight).priority = .hard) ↔ t.priority = .hard := by
        show (if t.priority = .soft then Priority.soft else Priority.hard) = .hard ↔ _
        cases hp : t.priority with
        | hard => simp
        | soft => simp
        | scaled => exact absurd hp h
      unfold DTaskMet
      rw [hprio]
      refine imp_congr_right fun _ => ?_
      show c.Sat x ↔ _
      rw [sat_equality _ c3]
      constructor
      · intro H M' hM' i hi
        rw [hM] at hM'
        cases hM'
        have := H i (by omega)
        rw [c6, e5] at this
        linarith
      · intro H i hi
        have := H M hM i (by omega)
        rw [c6, e5]
        linarith
    · obtain ⟨q, rfl, hq⟩ := List.map_eq_singleton_iff.1 hps
      refine ⟨q.2, fun x hx p hp hh i hi => ?_⟩
      rw [List.mem_singleton.1 hp] at hi hh ⊢
      rw [hq] at hi hh ⊢
      have hhard : t.priority = .hard := by
        cases hpr : t.priority with
        | hard => rfl
        | soft => simp [Constr.hardEq, Constr.configureP, hpr] at hh
        | scaled => exact absurd hpr h
      have hi : i < c.expr.rows := hi
      rw [← hx hhard M hM i (by omega)]
      show c.expr.rowVal x i - c.expr.rowVal (fun _ => 0) i = _
      exact hdiff x i
    · refine ⟨[(c.configureP (if t.priority = .soft then .soft else .hard) t.weight, ρ)], rfl, fun x hx hhard M' hM' i hi => ?_⟩
      rw [hM] at hM'
      cases hM'
      refine Eq.trans (hdiff x i).symm (hx _ (List.mem_singleton.2 rfl) (by simp [Constr.hardEq, Constr.configureP, c3, hhard]) i ?_)
      show i < c.expr.rows
      omega

theorem dtasks_total {N n : Nat} {robot : RState ℝ} (hN : 0 < N) (hn : N ≤ n) (tau : Expr ℝ) (hr : tau.rows = N) (htc : tau.cols = n) :
    ∀ ts : List (DTask ℝ), (∀ t ∈ ts, DTaskReady N robot t) → ∃ mats ct, ts.mapM (fun t => t.update robot) = .ok mats ∧
      (ts.zip mats).mapM (fun q => dtaskConstraint tau q.1 q.2) = .ok ct ∧ (∀ c ∈ ct.flatten, Clean n c) ∧
      (∀ x, HardSat ct.flatten x ↔ ∀ t ∈ ts, DTaskMet robot t x (tau.rowVal x)) ∧
      (∀ ps : List (Constr ℝ × (Nat → ℝ)), ps.map Prod.fst = ct.flatten → ∃ rs : List (DTask ℝ × (Nat → ℝ)), rs.map Prod.fst = ts ∧
        ∀ x, (∀ q ∈ rs, DTaskRhs robot q.1 q.2 x (fun i => tau.rowVal x i - tau.rowVal (fun _ => 0) i)) → MeetsRhs ps x) ∧
      ∀ rs : List (DTask ℝ × (Nat → ℝ)), rs.map Prod.fst = ts → ∃ ps : List (Constr ℝ × (Nat → ℝ)), ps.map Prod.fst = ct.flatten ∧
        ∀ x, MeetsRhs ps x → ∀ q ∈ rs, DTaskRhs robot q.1 q.2 x (fun i => tau.rowVal x i - tau.rowVal (fun _ => 0) i)
  | [], _ => ⟨[], [], rfl, rfl, by simp, fun x => by simp [HardSat_nil], fun ps hps => ⟨[], rfl, fun x _ p hp => by
      rw [List.map_eq_nil_iff.1 hps] at hp; cases hp⟩, fun rs hrs => ⟨[], rfl, fun x _ p hp => by
      rw [List.map_eq_nil_iff.1 hrs] at hp; cases hp⟩⟩
  | t :: ts, h => by
    obtain ⟨h1, M, hM, hc⟩ := h t List.mem_cons_self
    obtain ⟨l, l1, l2, l3, l4, l5⟩ := dtask_total h1 hM hc hN hn tau hr htc
    obtain ⟨mats, ct, a1, a2, a3, a4, a5, a6⟩ := dtasks_total hN hn tau hr htc ts fun t' ht' => h t' (List.mem_cons_of_mem _ ht')
    refine ⟨M :: mats, l :: ct, ?_, ?_, fun c hcm => ?_, fun x => ?_, fun ps hps => ?_, fun rs hrs => ?_⟩
    · rw [List.mapM_cons, hM, a1]
      rfl
    · rw [List.zip_cons_cons, List.mapM_cons, l1, a2]
      rfl
    · rw [List.flatten_cons] at hcm
      rcases List.mem_append.1 hcm with hcm | hcm
      exacts [l2 c hcm, a3 c hcm]
    · rw [List.flatten_cons, HardSat_append, l3, a4]
      simp
    · rw [List.flatten_cons] at hps
      obtain ⟨p1, p2, rfl, hp1, hp2⟩ := List.map_eq_append_iff.1 hps
      obtain ⟨ρ, hρ⟩ := l4 p1 hp1
      obtain ⟨rs, hrs, hrx⟩ := a5 p2 hp2
      refine ⟨(t, ρ) :: rs, by simp [hrs], fun x hx p hp => ?_⟩
      rcases List.mem_append.1 hp with hp | hp
      · exact hρ x (hx (t, ρ) List.mem_cons_self) p hp
      · exact hrx x (fun q hq => hx q (List.mem_cons_of_mem _ hq)) p hp
    · obtain ⟨q0, rs', rfl, hq0, hrs'⟩ := List.map_eq_cons_iff.1 hrs
      obtain ⟨p1, hp1, hx1⟩ := l5 q0.2
      obtain ⟨p2, hp2, hx2⟩ := a6 rs' hrs'
      refine ⟨p1 ++ p2, by simp [hp1, hp2], fun x hx q hq => ?_⟩
      rcases List.mem_cons.1 hq with rfl | hq
      · rw [hq0]
        exact hx1 x fun p hp => hx p (List.mem_append_left _ hp)
      · exact hx2 x (fun p hp => hx p (List.mem_append_right _ hp)) q hq

/-! ## The floating base -/

theorem fbase_total (N n : Nat) (h6 : 6 ≤ N) (hn : N ≤ n) : ∃ c : Constr ℝ, zeroConstraint ((⟨0, N⟩ : Var).expr 0 6) = .ok [c] ∧ Clean n c ∧
    c.ty = .equality ∧ c.priority = .hard ∧ c.expr.rows = 6 ∧ ∀ x i, i < 6 → c.expr.rowVal x i = x i := by
  have hvar := var_expr (K := ℝ) ⟨0, N⟩ 0 6 (by show 0 + 0 + 6 ≤ N; omega)
  obtain ⟨c, c1, c2, c3, c4, c5, c6⟩ := zero_total (n := n) (⟨6, N, fun k j => if j = 0 + 0 + k then 1 else 0, fun _ => 0⟩ : Expr ℝ)
    (by simp) (by show 0 < N; omega) hn
  refine ⟨c, ?_, c2, c3, c4, c5, fun x i hi => ?_⟩
  · unfold zeroConstraint
    rw [show ((⟨0, N⟩ : Var).expr 0 6 : Except Err (Expr ℝ)) = (⟨0, N⟩ : Var).expr ((0 : Nat) : Int) ((6 : Nat) : Int) from rfl, hvar]
    simp only [bind, Except.bind, c1]
    rfl
  · rw [c6]
    have h0 := var_rowVal (K := ℝ) ⟨0, N⟩ 0 6 x i (by show 0 + 0 + i < N; omega)
    simp only at h0
    rw [h0]
    simp

theorem base_total (n : Nat) (tau : Expr ℝ) (h6 : 6 ≤ tau.rows) (hc : tau.cols = n) (hn : 0 < n) :
    ∃ c : Constr ℝ, zeroConstraint (tau.slice 0 6) = .ok [c] ∧ Clean n c ∧
      c.ty = .equality ∧ c.priority = .hard ∧ c.expr.rows = 6 ∧ ∀ x i, c.expr.rowVal x i = tau.rowVal x i := by
  obtain ⟨t, t1, t2, t3⟩ := slice_total (e := tau) (start := 0) (rows := 6) (by omega)
  obtain ⟨-, -, -, t4⟩ := slice_ok t1
  obtain ⟨c, c1, c2, c3, c4, c5, c6⟩ := zero_total (n := n) t (by omega) (by omega) (by omega)
  refine ⟨c, ?_, c2, c3, c4, by omega, fun x i => by rw [c6, t4, Nat.zero_add]⟩
  unfold zeroConstraint
  rw [show tau.slice 0 6 = .ok t from t1]
  simp only [bind, Except.bind, c1]
  rfl

/-- One hard equality: what it means and when it takes given values. -/
theorem single_rhs {c : Constr ℝ} {m : Nat} (ht : c.ty = .equality) (hp : c.priority = .hard) (hm : c.expr.rows = m) (g : (Nat → ℝ) → Nat → ℝ)
    (hg : ∀ x i, i < m → c.expr.rowVal x i = g x i) :
    (∀ x, HardSat [c] x ↔ ∀ i, i < m → g x i = 0) ∧
    (∀ ps : List (Constr ℝ × (Nat → ℝ)), ps.map Prod.fst = [c] → ∃ u : Nat → ℝ, ∀ x, (∀ i, i < m → g x i - g (fun _ => 0) i = u i) → MeetsRhs ps x) ∧
    ∀ u : Nat → ℝ, ∀ x, MeetsRhs [(c, u)] x → ∀ i, i < m → g x i - g (fun _ => 0) i = u i := by
  refine ⟨fun x => ?_, fun ps hps => ?_, fun u x hx i hi => ?_⟩
  · rw [HardSat_single, show (c.priority = .hard → c.Sat x) ↔ c.Sat x from ⟨fun H => H hp, fun H _ => H⟩, sat_equality _ ht, hm]
    exact forall_congr' fun i => imp_congr_right fun hi => by rw [hg x i hi]
  · obtain ⟨q, rfl, hq⟩ := List.map_eq_singleton_iff.1 hps
    refine ⟨q.2, fun x hx p hp' _ i hi => ?_⟩
    rw [List.mem_singleton.1 hp'] at hi ⊢
    rw [hq] at hi ⊢
    rw [hm] at hi
    rw [← hx i hi]
    show c.expr.rowVal x i - c.expr.rowVal (fun _ => 0) i = _
    rw [hg x i hi, hg _ i hi]
  · have := hx _ (List.mem_singleton.2 rfl) (by simp [Constr.hardEq, ht, hp]) i (by rw [hm]; exact hi)
    refine Eq.trans ?_ this
    show _ = c.expr.rowVal x i - c.expr.rowVal (fun _ => 0) i
    rw [hg x i hi, hg _ i hi]

/-! ## When a motion is found -/

/-- A motion compatible with the dynamics: accelerations `y`, torques `tau` and wrenches `ws` of the active contacts that satisfy the
equation of motion, the requirements of the contacts, the hard tasks and the enabled limits, with no torque on the floating base (or no
acceleration of it when it is masked). -/
structure Motion (sqrt : ℝ → ℝ) (r : DynRobot ℝ) (tasks : List (DTask ℝ)) (contacts : List (Contact ℝ)) (s : DState ℝ) (y tau : Nat → ℝ)
    (ws : List (Nat → ℝ)) : Prop where
  dynamics : ∃ Js, (contacts.filter (·.active)).mapM (fun c => c.update r.nv s.robot) = .ok Js ∧ ∀ i, i < r.nv →
    (∑ j ∈ range r.nv, r.mass s.robot i j * y j) + s.damping * s.robot.qd i +
      (if s.gravityOnly then r.gravity s.robot i else r.nle s.robot i) + (match s.extraForce with | some f => f.v i | none => 0) =
    tau i + generalised Js ws i
  wrenches : List.Forall₂ WrenchOK (contacts.filter (·.active)) ws
  base : s.maskedFbase = false → ∀ i, i < 6 → tau i = 0
  fbase : s.maskedFbase = true → ∀ i, i < 6 → y i = 0
  tasks : ∀ t ∈ tasks, DTaskMet s.robot t y tau
  limits : LimitsOK sqrt r s y tau

/-- The hard requirements are independent: whatever values are asked of the rows of the hard tasks (`rs`), of the external wrenches (`es`)
and of the torques (or accelerations, when masked) of the floating base (`u`), some accelerations, torques and wrenches related by the mass
matrix and the Jacobians of the contacts have them. -/
def MotionFree (r : DynRobot ℝ) (tasks : List (DTask ℝ)) (contacts : List (Contact ℝ)) (s : DState ℝ) : Prop :=
  ∀ (rs : List (DTask ℝ × (Nat → ℝ))) (es : List (Contact ℝ × (Nat → ℝ))) (u : Nat → ℝ), rs.map Prod.fst = tasks →
    es.map Prod.fst = contacts.filter (·.active) → ∃ (y tau : Nat → ℝ) (ws : List (Nat → ℝ)) (Js : List (Mat ℝ)),
      (contacts.filter (·.active)).mapM (fun c => c.update r.nv s.robot) = .ok Js ∧
      (∀ i, i < r.nv → ∑ j ∈ range r.nv, r.mass s.robot i j * y j = tau i + generalised Js ws i) ∧
      List.Forall₂ (fun q w => ExternalIs q.1 q.2 w) es ws ∧
      (s.maskedFbase = false → ∀ i, i < 6 → tau i = u i) ∧ (s.maskedFbase = true → ∀ i, i < 6 → y i = u i) ∧
      ∀ q ∈ rs, DTaskRhs s.robot q.1 q.2 y tau

theorem wrench_congr {N : Nat} {robot : RState ℝ} (hN : 0 < N) {c : Contact ℝ} (h : ContactReady N robot c) {J : Mat ℝ}
    (hJ : c.update N robot = .ok J) {w w' : Nat → ℝ} (hw : ∀ l, l < J.rows → w l = w' l) (ρ : Nat → ℝ) :
    (WrenchOK c w ↔ WrenchOK c w') ∧ (ExternalIs c ρ w ↔ ExternalIs c ρ w') := by
  obtain ⟨J', hJ', -, -, r1, r2, -, r4⟩ := ready_update hN h
  rw [hJ] at hJ'
  cases hJ'
  unfold WrenchOK ExternalIs
  cases hk : c.kind with
  | point posA R u =>
    have r1 := r1 _ _ _ hk
    have hs : ∀ i, surface R w i = surface R w' i := fun i => sum_congr rfl fun k hk => by rw [hw k (by rw [r1]; exact mem_range.1 hk)]
    cases u <;> simp [hs]
  | planar jac u l wd =>
    have r1 := r2 _ _ _ _ hk
    cases u <;> simp [hw 0 (by omega), hw 1 (by omega), hw 2 (by omega), hw 3 (by omega), hw 4 (by omega)]
  | external jac g =>
    have r1 := r4 _ _ hk
    constructor <;> exact forall_congr' fun i => imp_congr_right fun hi => by rw [hw i (by omega)]
  | line jac A R u l => simp
  | puppet => simp
  | task A => simp

theorem wrenches_read {N : Nat} {robot : RState ℝ} (hN : 0 < N) {x : Nat → ℝ} {act : List (Contact ℝ)} {js : List (Mat ℝ × Expr ℝ)}
    (h : List.Forall₂ (fun c p => c.update N robot = .ok p.1) act js) (hr : ∀ c ∈ act, ContactReady N robot c) {ws : List (Nat → ℝ)}
    (hx : List.Forall₂ (fun p w => ∀ l, l < p.1.rows → p.2.rowVal x l = w l) js ws) (hw : List.Forall₂ WrenchOK act ws) :
    List.Forall₂ (fun c p => WrenchOK c (p.2.rowVal x)) act js := by
  induction h generalizing ws with
  | nil => exact .nil
  | @cons c p act js hcp _ ih =>
    cases hw with
    | @cons _ w _ ws' hw1 hw2 =>
      rw [List.forall₂_cons] at hx
      exact .cons ((wrench_congr hN (hr c List.mem_cons_self) hcp hx.1 (fun _ => 0)).1.2 hw1)
        (ih (fun c' hc' => hr c' (List.mem_cons_of_mem _ hc')) hx.2 hw2)

theorem externals_read {N : Nat} {robot : RState ℝ} (hN : 0 < N) {x : Nat → ℝ} : ∀ (es : List (Contact ℝ × (Nat → ℝ)))
    (js : List (Mat ℝ × Expr ℝ)) (ws : List (Nat → ℝ)), List.Forall₂ (fun c p => c.update N robot = .ok p.1) (es.map Prod.fst) js →
    (∀ c ∈ es.map Prod.fst, ContactReady N robot c) →
    List.Forall₂ (fun p w => ∀ l, l < p.1.rows → p.2.rowVal x l = w l) js ws → List.Forall₂ (fun q w => ExternalIs q.1 q.2 w) es ws →
    List.Forall₂ (fun q p => ExternalIs q.1 q.2 (p.2.rowVal x)) es js
  | [], js, ws, h, _, _, _ => by
    rw [List.map_nil] at h
    cases h
    exact .nil
  | q :: es, js, ws, h, hr, hx, hw => by
    rw [List.map_cons] at h hr
    cases h with
    | @cons _ p _ js' hcp h' =>
      cases hw with
      | @cons _ w _ ws' hw1 hw2 =>
        rw [List.forall₂_cons] at hx
        exact .cons ((wrench_congr hN (hr q.1 List.mem_cons_self) hcp hx.1 q.2).2.2 hw1)
          (externals_read hN es js' ws' h' (fun c' hc' => hr c' (List.mem_cons_of_mem _ hc')) hx.2 hw2)

theorem contactTerm_generalised (js : List (Mat ℝ × Expr ℝ)) (x : Nat → ℝ) (ws : List (Nat → ℝ))
    (h : List.Forall₂ (fun p w => ∀ l, l < p.1.rows → p.2.rowVal x l = w l) js ws) (i : Nat) :
    contactTerm js x i = generalised (js.map (·.1)) ws i := by
  unfold contactTerm generalised
  induction h with
  | nil => rfl
  | cons hp _ ih =>
    simp only [List.map_cons, List.zip_cons_cons, List.sum_cons] at ih ⊢
    rw [ih]
    congr 1
    exact sum_congr rfl fun l hl => by rw [hp l (mem_range.1 hl)]

theorem chain_zero : ∀ (js : List (Mat ℝ × Expr ℝ)) (k n : Nat), Chain k js n → ∀ i, contactTerm js (fun _ => 0) i = 0
  | [], _, _, _, _ => rfl
  | (J, f) :: js, k, n, h, i => by
    have ih := chain_zero js _ n h.2.2.2 i
    unfold contactTerm at ih ⊢
    rw [List.map_cons, List.sum_cons, ih, add_zero]
    exact sum_eq_zero fun l hl => by
      show J.m l i * f.rowVal _ l = 0
      rw [h.2.2.1 _ l (mem_range.1 hl), mul_zero]

/-- Everything `solve` builds when the contacts and tasks are ready, with its meaning: the points that satisfy the hard constraints are the
motions. -/
theorem build_motions (env : DEnv ℝ) (r : DynRobot ℝ) (hn : 6 < r.nv) (tasks : List (DTask ℝ)) (contacts : List (Contact ℝ)) (s : DState ℝ)
    (hc : ∀ c ∈ contacts, c.active = true → ContactReady r.nv s.robot c) (ht : ∀ t ∈ tasks, DTaskReady r.nv s.robot t)
    (hx : ∀ f, s.extraForce = some f → f.size = r.nv)
    (hdt : s.jointLimits = true ∨ s.velocityLimits = true ∨ s.velocityVsTorque = true → s.dt ≠ 0) :
    ∃ p, build env r tasks contacts [] s = .ok p ∧
      (∀ c ∈ p.cs, Clean p.n c ∧ ((∀ t ∈ tasks, t.priority = .soft → 0 ≤ t.weight) → 0 ≤ s.torqueCost → GoodWeight c)) ∧
      ((∀ x, HardSat p.cs x → Motion env.sqrt r tasks contacts s x (p.tau.rowVal x) (p.js.map fun q => q.2.rowVal x)) ∧
        ∀ y tau ws, Motion env.sqrt r tasks contacts s y tau ws → ∃ x, HardSat p.cs x ∧ (∀ k, k < r.nv → x k = y k) ∧
          (∀ i, i < r.nv → p.tau.rowVal x i = tau i) ∧ List.Forall₂ (fun q w => ∀ l, l < q.1.rows → q.2.rowVal x l = w l) p.js ws) ∧
      (MotionFree r tasks contacts s ↔ ∀ ps : List (Constr ℝ × (Nat → ℝ)), ps.map Prod.fst = p.cs → ∃ x, MeetsRhs ps x) := by
  have hN : 0 < r.nv := by omega
  obtain ⟨tau0, htau0⟩ := bareTau_total r s hx
  obtain ⟨t1, t2, t3⟩ := bareTau_spec r s tau0 htau0
  obtain ⟨n, js, cc, a1, a2, a3, a4, a5, a6⟩ := addContacts_total r.nv hN s.robot contacts r.nv hc
  obtain ⟨hch, hfa⟩ := addContacts_spec _ _ _ _ _ _ _ a1
  have hle := hch.le
  obtain ⟨tau, htau⟩ := fullTau_total r.nv n tau0 js hch t2 a3
  obtain ⟨f1, f2, f3⟩ := fullTau_spec _ _ _ _ _ hch t2 htau
  rw [t1] at f1
  obtain ⟨cl, l1, l2, l3⟩ := limitConstraints_total env.sqrt r s n tau f1 f2 hn hle hdt
  obtain ⟨mats, ct, k1, k2, k3, k4, k5, k6⟩ := dtasks_total (robot := s.robot) hN hle tau f1 f2 tasks ht
  obtain ⟨cm, m1, m2, m3, m4, m5, m6⟩ := fbase_total r.nv n (by omega) hle
  obtain ⟨cf, b1, b2, b3, b4, b5, b6⟩ := base_total n tau (by omega) f2 (by omega)
  obtain ⟨mm, mf, mb⟩ := single_rhs m3 m4 m5 (fun x i => x i) m6
  obtain ⟨bm, bf, bb⟩ := single_rhs b3 b4 b5 (fun x i => tau.rowVal x i) fun x i _ => b6 x i
  have hsl : ∃ e, tau.slice 6 (-1) = .ok e := by
    unfold Expr.slice
    simp only
    rw [if_pos (by omega : ((-1 : Int) < 0)), if_pos (by omega)]
    exact ⟨_, rfl⟩
  obtain ⟨e, he⟩ := hsl
  obtain ⟨-, e2, e3, -⟩ := slice_rest_ok (start := 6) he
  obtain ⟨ce, g1, g2, g3, -⟩ := zero_total (n := n) e (by omega) (by omega) (by omega)
  have hval : ∀ x i, tau.rowVal x i = (∑ j ∈ range r.nv, r.mass s.robot i j * x j) + s.damping * s.robot.qd i + bias r s i + extra s i -
      contactTerm js x i := fun x i => by rw [f3, t3]
  have hlin : ∀ x i, tau.rowVal x i - tau.rowVal (fun _ => 0) i = (∑ j ∈ range r.nv, r.mass s.robot i j * x j) - contactTerm js x i := by
    intro x i
    rw [hval, hval, chain_zero js _ n hch i]
    simp only [mul_zero, sum_const_zero]
    ring
  have hupd : (contacts.filter (·.active)).mapM (fun c => c.update r.nv s.robot) = .ok (js.map (·.1)) :=
    updates_of_forall₂ (fun c p hp => hp.1) hfa
  have hready : ∀ c ∈ contacts.filter (·.active), ContactReady r.nv s.robot c := fun c hcm => by
    obtain ⟨h1, h2⟩ := List.mem_filter.1 hcm
    exact hc c h1 h2
  -- the two constraints on the floating base
  have hcmE : addIf s.maskedFbase (zeroConstraint ((⟨0, r.nv⟩ : Var).expr 0 6)) = .ok (if s.maskedFbase then [cm] else []) := by
    unfold addIf
    split
    · exact m1
    · rfl
  have hcfE : addIf (!s.maskedFbase) (zeroConstraint (tau.slice 0 6)) = .ok (if s.maskedFbase then [] else [cf]) := by
    unfold addIf
    cases s.maskedFbase
    · exact b1
    · rfl
  generalize hcmL : (if s.maskedFbase then [cm] else []) = cmL at hcmE
  generalize hcfL : (if s.maskedFbase then [] else [cf]) = cfL at hcfE
  have hb : build env r tasks contacts [] s = .ok ⟨n, ⟨r.nv, r.nv, fun k j => if j = k then 1 else 0, fun _ => 0⟩, js, tau,
      cmL ++ cc ++ cl ++ ct.flatten ++ ([] : List (Constr ℝ)) ++ cfL ++ [ce.configureP .soft s.torqueCost]⟩ := by
    unfold build
    simp only [qddExpr_eq, bind, Except.bind, hcmE, k1, htau0, a1, htau, l1, k2, List.mapM_nil, pure, Except.pure, hcfE, he, g1,
      List.flatten_nil]
  have hcmC : ∀ c ∈ cmL, Clean n c := by
    intro c h
    rw [← hcmL] at h
    split at h
    · rw [List.mem_singleton.1 h]; exact m2
    · cases h
  have hcfC : ∀ c ∈ cfL, Clean n c := by
    intro c h
    rw [← hcfL] at h
    split at h
    · cases h
    · rw [List.mem_singleton.1 h]; exact b2
  have hcmS : ∀ x, HardSat cmL x ↔ (s.maskedFbase = true → ∀ i, i < 6 → x i = 0) := by
    intro x
    rw [← hcmL]
    cases s.maskedFbase
    · simp [HardSat_nil]
    · simp only [if_true, mm, forall_const]
  have hcfS : ∀ x, HardSat cfL x ↔ (s.maskedFbase = false → ∀ i, i < 6 → tau.rowVal x i = 0) := by
    intro x
    rw [← hcfL]
    cases s.maskedFbase
    · simp only [Bool.false_eq_true, if_false, bm, forall_const]
    · simp [HardSat_nil]
  refine ⟨_, hb, fun c hcm => ?_, ?_, fun hfree ps hps => ?_, fun hall rs es u hrs hes => ?_⟩
  · have hcm : c ∈ cmL ++ cc ++ cl ++ ct.flatten ++ ([] : List (Constr ℝ)) ++ cfL ++ [ce.configureP .soft s.torqueCost] := hcm
    simp only [List.mem_append, List.mem_singleton] at hcm
    rcases hcm with (((((h | h) | h) | h) | h) | h) | rfl
    · exact ⟨hcmC c h, fun _ _ => addIf_good hcmE (fun l hl => zeroConstraint_good hl) c h⟩
    · exact ⟨a2 c h, fun _ _ => addContacts_good _ _ _ _ _ _ _ a1 c h⟩
    · exact ⟨(l2 c h).1, fun _ _ => limitConstraints_good l1 c h⟩
    · refine ⟨k3 c h, fun hw _ => ?_⟩
      refine flatten_good (fun l hl => ?_) c h
      obtain ⟨q, hq, hql⟩ := Kinematics.mapM_mem _ k2 l hl
      exact dtask_good (hw q.1 (List.of_mem_zip hq).1) hql
    · cases h
    · exact ⟨hcfC c h, fun _ _ => addIf_good hcfE (fun l hl => zeroConstraint_good hl) c h⟩
    · exact ⟨⟨g2.1, by simp [Constr.softIneq, Constr.configureP, g3]⟩, fun _ htc => soft_good htc g1⟩
  · have hlast : ∀ x, HardSat [ce.configureP .soft s.torqueCost] x := fun x => HardSat_soft (by simp [Constr.configureP]) x
    have hall : ∀ x, HardSat (cmL ++ cc ++ cl ++ ct.flatten ++ ([] : List (Constr ℝ)) ++ cfL ++ [ce.configureP .soft s.torqueCost]) x ↔
        (((((s.maskedFbase = true → ∀ i, i < 6 → x i = 0) ∧
          List.Forall₂ (fun c p => WrenchOK c (p.2.rowVal x)) (contacts.filter (·.active)) js) ∧ LimitsOK env.sqrt r s x (tau.rowVal x)) ∧
          ∀ t ∈ tasks, DTaskMet s.robot t x (tau.rowVal x)) ∧ (s.maskedFbase = false → ∀ i, i < 6 → tau.rowVal x i = 0)) := fun x => by
      simp only [HardSat_append, hcmS, a4, l3, k4, hcfS, HardSat_nil, hlast, and_true]
    constructor
    · intro x hx
      obtain ⟨⟨⟨⟨h1, h2⟩, h3⟩, h4⟩, h5⟩ := (hall x).1 hx
      refine ⟨⟨_, hupd, fun i hi => ?_⟩, ?_, h5, h1, h4, h3⟩
      · rw [generalised_eq, hval]
        unfold bias extra
        cases s.extraForce <;> ring
      · rw [List.forall₂_map_right_iff]
        exact h2
    · intro y tv ws hm
      obtain ⟨Js, hJ1, hJ2⟩ := hm.dynamics
      rw [hupd] at hJ1
      cases hJ1
      have hlen : ws.length = js.length := by rw [← hm.wrenches.length_eq, hfa.length_eq]
      obtain ⟨x, x1, x2⟩ := chain_point js r.nv n hch y ws hlen
      have hsum : ∀ i, ∑ j ∈ range r.nv, r.mass s.robot i j * x j = ∑ j ∈ range r.nv, r.mass s.robot i j * y j := fun i =>
        sum_congr rfl fun j hj => by rw [x1 j (mem_range.1 hj)]
      have htv : ∀ i, i < r.nv → tau.rowVal x i = tv i := by
        intro i hi
        have h := hJ2 i hi
        rw [hval, hsum, contactTerm_generalised js x ws x2]
        unfold bias extra
        cases he : s.extraForce <;> rw [he] at h <;> simp only at h ⊢ <;> linarith
      refine ⟨x, (hall x).2 ⟨⟨⟨⟨fun hb i hi => ?_, ?_⟩, ?_⟩, fun t htm hp M hM i hi => ?_⟩, fun hb i hi => ?_⟩, x1, htv, x2⟩
      · rw [x1 i (by omega)]; exact hm.fbase hb i hi
      · exact wrenches_read hN (hfa.imp fun c p h => h.1) hready x2 hm.wrenches
      · have hl := hm.limits
        refine ⟨fun h i h6 hi => ?_, fun h h' i h6 hi => ?_, fun h i h6 hi => ?_, fun h i h6 hi => ?_, fun h i h6 hi => ?_⟩
        · rw [htv i hi]; exact hl.torque h i h6 hi
        · rw [x1 i hi]; exact hl.velocity h h' i h6 hi
        · rw [x1 i hi, htv i hi]; exact hl.mixed h i h6 hi
        · rw [x1 i hi]; exact hl.upper h i h6 hi
        · rw [x1 i hi]; exact hl.lower h i h6 hi
      · rw [← hm.tasks t htm hp M hM i hi]
        obtain ⟨-, M', hM', hcols⟩ := ht t htm
        rw [hM] at hM'
        cases hM'
        refine sum_congr rfl fun j hj => ?_
        have hj := mem_range.1 hj
        rw [x1 j (by omega), htv j (by omega)]
      · rw [htv i (by omega)]; exact hm.base hb i hi
  · have hps : ps.map Prod.fst = cmL ++ cc ++ cl ++ ct.flatten ++ ([] : List (Constr ℝ)) ++ cfL ++ [ce.configureP .soft s.torqueCost] := hps
    obtain ⟨q6, p7, rfl, hq6, hp7⟩ := List.map_eq_append_iff.1 hps
    obtain ⟨q5, p6, rfl, hq5, hp6⟩ := List.map_eq_append_iff.1 hq6
    rw [List.append_nil] at hq5
    obtain ⟨q3, p4, rfl, hq3, hp4⟩ := List.map_eq_append_iff.1 hq5
    obtain ⟨q2, p3, rfl, hq2, hp3⟩ := List.map_eq_append_iff.1 hq3
    obtain ⟨p1, p2, rfl, hp1, hp2⟩ := List.map_eq_append_iff.1 hq2
    obtain ⟨es, hes, hex⟩ := a5 p2 hp2
    obtain ⟨rs, hrs, hrx⟩ := k5 p4 hp4
    have hmask : ∃ u : Nat → ℝ, ∀ x, (s.maskedFbase = true → ∀ i, i < 6 → x i = u i) → MeetsRhs p1 x := by
      rw [← hcmL] at hp1
      cases hmk : s.maskedFbase
      · rw [hmk] at hp1
        refine ⟨fun _ => 0, fun x _ p hp => ?_⟩
        rw [List.map_eq_nil_iff.1 hp1] at hp
        cases hp
      · rw [hmk] at hp1
        obtain ⟨u, hu⟩ := mf p1 hp1
        exact ⟨u, fun x hx => hu x (by simpa using hx rfl)⟩
    have hbase : ∃ u : Nat → ℝ, ∀ x, (s.maskedFbase = false → ∀ i, i < 6 → tau.rowVal x i - tau.rowVal (fun _ => 0) i = u i) →
        MeetsRhs p6 x := by
      rw [← hcfL] at hp6
      cases hmk : s.maskedFbase
      · rw [hmk] at hp6
        obtain ⟨u, hu⟩ := bf p6 hp6
        exact ⟨u, fun x hx => hu x (hx rfl)⟩
      · rw [hmk] at hp6
        refine ⟨fun _ => 0, fun x _ p hp => ?_⟩
        rw [List.map_eq_nil_iff.1 hp6] at hp
        cases hp
    obtain ⟨u1, hu1⟩ := hmask
    obtain ⟨u2, hu2⟩ := hbase
    obtain ⟨y, tv, ws, Js, y1, y2, y3, y4, y5, y6⟩ := hfree rs es (fun i => if s.maskedFbase then u1 i else u2 i) hrs hes
    rw [hupd] at y1
    cases y1
    have hlen : ws.length = js.length := by
      rw [← y3.length_eq, ← hfa.length_eq, ← hes, List.length_map]
    obtain ⟨x, x1, x2⟩ := chain_point js r.nv n hch y ws hlen
    have hsum : ∀ i, ∑ j ∈ range r.nv, r.mass s.robot i j * x j = ∑ j ∈ range r.nv, r.mass s.robot i j * y j := fun i =>
      sum_congr rfl fun j hj => by rw [x1 j (mem_range.1 hj)]
    have htv : ∀ i, i < r.nv → tau.rowVal x i - tau.rowVal (fun _ => 0) i = tv i := by
      intro i hi
      have := y2 i hi
      rw [hlin, hsum, contactTerm_generalised js x ws x2]
      linarith
    refine ⟨x, fun p hp hh i hi => ?_⟩
    simp only [List.mem_append] at hp
    rcases hp with ((((hp | hp) | hp) | hp) | hp) | hp
    · refine hu1 x (fun hb k hk => ?_) p hp hh i hi
      rw [x1 k (by omega), y5 hb k hk, if_pos hb]
    · refine hex x ?_ p hp hh i hi
      exact externals_read hN es js ws (by rw [hes]; exact hfa.imp fun c p h => h.1) (by rw [hes]; exact hready) x2 y3
    · have := (l2 p.1 (by rw [← hp3]; exact List.mem_map.2 ⟨p, hp, rfl⟩)).2
      rw [this] at hh
      cases hh
    · refine hrx x (fun q hq hpr M hM k hk => ?_) p hp hh i hi
      rw [← y6 q hq hpr M hM k hk]
      obtain ⟨-, M', hM', hcols⟩ := ht q.1 (by rw [← hrs]; exact List.mem_map.2 ⟨q, hq, rfl⟩)
      rw [hM] at hM'
      cases hM'
      refine sum_congr rfl fun j hj => ?_
      have hj := mem_range.1 hj
      rw [x1 j (by omega), ← htv j (by omega)]
    · refine hu2 x (fun hb k hk => ?_) p hp hh i hi
      rw [htv k (by omega), y4 hb k hk, hb]
      rfl
    · have : p.1 = ce.configureP .soft s.torqueCost := by
        have : p.1 ∈ p7.map Prod.fst := List.mem_map.2 ⟨p, hp, rfl⟩
        rw [hp7] at this
        exact List.mem_singleton.1 this
      rw [this] at hh
      simp [Constr.hardEq, Constr.configureP] at hh
  · obtain ⟨p2, hp2, hx2⟩ := a6 es hes
    obtain ⟨p4, hp4, hx4⟩ := k6 rs hrs
    obtain ⟨x, hx⟩ := hall (cmL.map (fun c => (c, u)) ++ p2 ++ cl.map (fun c => (c, u)) ++ p4 ++ cfL.map (fun c => (c, u)) ++
      [(ce.configureP .soft s.torqueCost, u)]) (by simp [hp2, hp4, Function.comp_def])
    refine ⟨x, fun i => tau.rowVal x i - tau.rowVal (fun _ => 0) i, js.map fun p => p.2.rowVal x, js.map (·.1), hupd, fun i _ => ?_, ?_,
      fun hb => ?_, fun hb => ?_, ?_⟩
    · beta_reduce
      rw [hlin, generalised_eq]
      ring
    · rw [List.forall₂_map_right_iff]
      exact hx2 x fun p hp => hx p (by simp only [List.mem_append]; tauto)
    · refine bb u x fun p hp => hx p ?_
      rw [← hcfL, hb]
      simp only [List.mem_append, Bool.false_eq_true, if_false, List.map_cons, List.map_nil]
      exact .inl (.inr hp)
    · have := mb u x fun p hp => hx p (by
        rw [← hcmL, hb]
        simp only [List.mem_append, if_true, List.map_cons, List.map_nil]
        exact .inl (.inl (.inl (.inl (.inl hp)))))
      simpa using this
    · exact hx4 x fun p hp => hx p (by simp only [List.mem_append]; tauto)

/-- Everything `solve` builds when the contacts and tasks are ready, with its meaning. -/
theorem build_total (env : DEnv ℝ) (r : DynRobot ℝ) (hn : 6 < r.nv) (tasks : List (DTask ℝ)) (contacts : List (Contact ℝ)) (s : DState ℝ)
    (hc : ∀ c ∈ contacts, c.active = true → ContactReady r.nv s.robot c) (ht : ∀ t ∈ tasks, DTaskReady r.nv s.robot t)
    (hw : ∀ t ∈ tasks, t.priority = .soft → 0 ≤ t.weight) (htc : 0 ≤ s.torqueCost)
    (hx : ∀ f, s.extraForce = some f → f.size = r.nv)
    (hdt : s.jointLimits = true ∨ s.velocityLimits = true ∨ s.velocityVsTorque = true → s.dt ≠ 0) :
    ∃ p, build env r tasks contacts [] s = .ok p ∧ (∀ c ∈ p.cs, Clean p.n c ∧ GoodWeight c) ∧
      ((∃ x, HardSat p.cs x) ↔ ∃ y tau ws, Motion env.sqrt r tasks contacts s y tau ws) ∧
      (MotionFree r tasks contacts s ↔ ∀ ps : List (Constr ℝ × (Nat → ℝ)), ps.map Prod.fst = p.cs → ∃ x, MeetsRhs ps x) := by
  obtain ⟨p, h1, h2, ⟨h3, h4⟩, h5⟩ := build_motions env r hn tasks contacts s hc ht hx hdt
  refine ⟨p, h1, fun c h => ⟨(h2 c h).1, (h2 c h).2 hw htc⟩, ⟨fun ⟨x, hx⟩ => ⟨_, _, _, h3 x hx⟩, fun ⟨y, tau, ws, hm⟩ => ?_⟩, h5⟩
  obtain ⟨x, hx, -⟩ := h4 y tau ws hm
  exact ⟨x, hx⟩

/-- **C166, exact.** Without user constraints, on a robot with actuated joints, when the contacts and tasks are ready, with exact external
solvers, a positive regularisation and non negative weights: inverse dynamics succeeds exactly when a motion compatible with the dynamics
exists and, with `rewrite_equalities` (the default), the hard requirements are independent; otherwise `success` is false and the robot is
unchanged. -/
theorem C166_exact (env : DEnv ℝ) (r : DynRobot ℝ) (hn : 6 < r.nv) (tasks : List (DTask ℝ)) (contacts : List (Contact ℝ)) (integrate : Bool)
    (s : DState ℝ) (hc : ∀ c ∈ contacts, c.active = true → ContactReady r.nv s.robot c) (ht : ∀ t ∈ tasks, DTaskReady r.nv s.robot t)
    (hw : ∀ t ∈ tasks, t.priority = .soft → 0 ≤ t.weight) (htc : 0 ≤ s.torqueCost)
    (hx : ∀ f, s.extraForce = some f → f.size = r.nv)
    (hdt : s.jointLimits = true ∨ s.velocityLimits = true ∨ s.velocityVsTorque = true ∨ integrate = true → s.dt ≠ 0)
    (hreg : 0 < env.regularization) (htol : 0 ≤ env.tol) (hex : env.toQPEnv.Exact) :
    ((∃ res, (solve env r tasks contacts [] integrate s).2 = .ok res ∧ res.success = true) ↔
      (∃ y tau ws, Motion env.sqrt r tasks contacts s y tau ws) ∧ (env.rewriteEqualities = true → MotionFree r tasks contacts s)) ∧
    (¬ ((∃ y tau ws, Motion env.sqrt r tasks contacts s y tau ws) ∧ (env.rewriteEqualities = true → MotionFree r tasks contacts s)) →
      ∃ res, solve env r tasks contacts [] integrate s = (s.robot, .ok res) ∧ res.success = false) := by
  obtain ⟨p, hb, hgood, hiff, hfree⟩ := build_total env r hn tasks contacts s hc ht hw htc hx
    (fun h => hdt (by rcases h with h | h | h <;> simp [h]))
  have hsized : ∀ c ∈ p.cs, SizedFor p.n c := fun c h => (hgood c h).1.1
  have hslack : ∀ c ∈ p.cs, c.softIneq = false := fun c h => (hgood c h).1.2
  have hq := hex.1.equalities (sized_defined _ _ hsized)
  have hrank : MotionFree r tasks contacts s ↔ (env.qr (nEqualities p.cs) (equalities p.cs)).rank = nEqualities p.cs := by
    rw [hfree]
    exact ⟨fun h => hq.full (indep_of_free p.n _ hsized h), fun h => free_of_indep p.n _ hsized (hq.qr.indep h)⟩
  by_cases hf : env.rewriteEqualities = true → MotionFree r tasks contacts s
  swap
  · have hre : env.rewriteEqualities = true := by
      by_contra h
      exact hf fun h' => absurd h' h
    have hnr : ¬ (env.qr (nEqualities p.cs) (equalities p.cs)).rank = nEqualities p.cs := fun h => hf fun _ => hrank.2 h
    have hpos : 0 < nEqualities p.cs := by
      by_contra h0
      exact hnr (hq.full fun w _ i hi => by omega)
    have herr := assemble_deficient (env.settings p.n) env.qr p.cs hsized hre hnr hpos
    have hsol : (Problem.solve (env.settings p.n) env.qr env.oracle env.tol p.cs ⟨[], []⟩).2 = .error .qpError := by
      unfold Problem.solve
      simp only [herr]
    unfold solve
    rw [hb]
    simp only [hsol]
    exact ⟨⟨fun ⟨res, h, hs⟩ => (by cases h; cases hs), fun h => absurd h.2 hf⟩, fun _ => ⟨_, rfl, rfl⟩⟩
  obtain ⟨qp, hqp⟩ := assemble_total (env.settings p.n) env.qr p.cs hsized fun h => hrank.1 (hf h)
  obtain ⟨k1, k2, -⟩ := C144_solve_partial (env.settings p.n) env.qr p.cs qp (hex.1.contract hqp) (.inr (.inr (nSlack_zero _ hslack))) hqp hreg
    (fun c h => (hgood c h).2.1) (fun c h => (hgood c h).2.2) env.tol env.tol htol htol ⟨[], []⟩ (by simp) env.oracle env.oracle
    (hex.2 qp) (hex.2 qp)
  rw [and_iff_left hf, ← hiff]
  unfold solve
  rw [hb]
  simp only
  refine ⟨⟨?_, fun h => ?_⟩, fun h => ?_⟩
  · rintro ⟨res, h, hs⟩
    rw [← k1]
    generalize (Problem.solve (env.settings p.n) env.qr env.oracle env.tol p.cs ⟨[], []⟩).2 = o at h ⊢
    cases o with
    | ok _ => rfl
    | error e =>
      cases e <;> simp only at h <;> cases h
      cases hs
  · rw [k1.2 h]
    simp only
    cases integrate with
    | false => exact ⟨_, rfl, rfl⟩
    | true =>
      rw [if_pos rfl, if_neg (hdt (by simp))]
      exact ⟨_, rfl, rfl⟩
  · rw [k2 h]
    exact ⟨_, rfl, rfl⟩

/-- **C166, partial.** Without user constraints, on a robot with actuated joints, when the contacts and tasks are ready, with exact external
solvers, a positive regularisation and non negative weights: inverse dynamics succeeds exactly when a motion compatible with the dynamics
exists; otherwise `success` is false and the robot is unchanged. Missing: with `rewrite_equalities` (the default), hard requirements that are
not independent (`C166_refuted`); robots without actuated joints (`C166_base_refuted`). -/
theorem C166_partial (env : DEnv ℝ) (r : DynRobot ℝ) (hn : 6 < r.nv) (tasks : List (DTask ℝ)) (contacts : List (Contact ℝ)) (integrate : Bool)
    (s : DState ℝ) (hc : ∀ c ∈ contacts, c.active = true → ContactReady r.nv s.robot c) (ht : ∀ t ∈ tasks, DTaskReady r.nv s.robot t)
    (hw : ∀ t ∈ tasks, t.priority = .soft → 0 ≤ t.weight) (htc : 0 ≤ s.torqueCost)
    (hx : ∀ f, s.extraForce = some f → f.size = r.nv)
    (hdt : s.jointLimits = true ∨ s.velocityLimits = true ∨ s.velocityVsTorque = true ∨ integrate = true → s.dt ≠ 0)
    (hreg : 0 < env.regularization) (htol : 0 ≤ env.tol) (hex : env.toQPEnv.Exact)
    (hind : env.rewriteEqualities = true → MotionFree r tasks contacts s) :
    ((∃ res, (solve env r tasks contacts [] integrate s).2 = .ok res ∧ res.success = true) ↔
      ∃ y tau ws, Motion env.sqrt r tasks contacts s y tau ws) ∧
    ((¬ ∃ y tau ws, Motion env.sqrt r tasks contacts s y tau ws) →
      ∃ res, solve env r tasks contacts [] integrate s = (s.robot, .ok res) ∧ res.success = false) := by
  obtain ⟨h1, h2⟩ := C166_exact env r hn tasks contacts integrate s hc ht hw htc hx hdt hreg htol hex
  rw [and_iff_left hind] at h1
  exact ⟨h1, fun h => h2 fun h' => h h'.1⟩

/-! ## Soft tasks -/

/-- With a positive definite matrix, the first coordinates can be chosen, whatever the others, so that the first rows have given values. -/
theorem pd_solve (n m : Nat) (hm : m ≤ n) (M : Nat → Nat → ℝ) (hM : PosDef n M) (z b : Nat → ℝ) :
    ∃ y : Nat → ℝ, (∀ k, m ≤ k → y k = z k) ∧ ∀ i, i < m → ∑ j ∈ range n, M i j * y j = b i := by
  let ext : (Fin m → ℝ) → Nat → ℝ := fun v k => if h : k < m then v ⟨k, h⟩ else 0
  have hadd : ∀ v w k, ext (v + w) k = ext v k + ext w k := by
    intro v w k
    by_cases h : k < m <;> simp [ext, h]
  have hmul : ∀ (c : ℝ) v k, ext (c • v) k = c * ext v k := by
    intro c v k
    by_cases h : k < m <;> simp [ext, h]
  let L : (Fin m → ℝ) →ₗ[ℝ] (Fin m → ℝ) :=
    { toFun := fun v i => ∑ j ∈ range n, M i j * ext v j
      map_add' := fun v w => by
        funext i
        show ∑ j ∈ range n, M i j * ext (v + w) j = ∑ j ∈ range n, M i j * ext v j + ∑ j ∈ range n, M i j * ext w j
        rw [← sum_add_distrib]
        exact sum_congr rfl fun j _ => by rw [hadd]; ring
      map_smul' := fun c v => by
        funext i
        show ∑ j ∈ range n, M i j * ext (c • v) j = c * ∑ j ∈ range n, M i j * ext v j
        rw [mul_sum]
        exact sum_congr rfl fun j _ => by rw [hmul]; ring }
  have hinj : Function.Injective L := by
    rw [← LinearMap.ker_eq_bot, LinearMap.ker_eq_bot']
    intro v hv
    by_contra hne
    obtain ⟨k, hk⟩ := Function.ne_iff.1 hne
    have hpos := hM (ext v) ⟨k, by omega, by simpa [ext] using hk⟩
    unfold form at hpos
    have : ∑ i ∈ range n, ∑ j ∈ range n, ext v i * M i j * ext v j = 0 := by
      refine sum_eq_zero fun i hi => ?_
      by_cases h : i < m
      · have h0 : ∑ j ∈ range n, M i j * ext v j = 0 := congrFun hv ⟨i, h⟩
        calc ∑ j ∈ range n, ext v i * M i j * ext v j = ext v i * ∑ j ∈ range n, M i j * ext v j := by
              rw [mul_sum]
              exact sum_congr rfl fun j _ => by ring
          _ = 0 := by rw [h0, mul_zero]
      · exact sum_eq_zero fun j _ => by simp [ext, h]
    linarith
  obtain ⟨v, hv⟩ := (LinearMap.injective_iff_surjective.1 hinj) fun i => b i - ∑ j ∈ range n, M i j * (if j < m then 0 else z j)
  refine ⟨fun k => ext v k + (if k < m then 0 else z k), fun k hk => ?_, fun i hi => ?_⟩
  · have : ¬ k < m := by omega
    simp [ext, this]
  · have h0 : ∑ j ∈ range n, M i j * ext v j = b i - ∑ j ∈ range n, M i j * (if j < m then 0 else z j) := congrFun hv ⟨i, hi⟩
    simp only [mul_add, sum_add_distrib]
    rw [h0]
    ring

theorem updates_total {N : Nat} (hN : 0 < N) {robot : RState ℝ} : ∀ (cs : List (Contact ℝ)), (∀ c ∈ cs, ContactReady N robot c) →
    ∃ Js, cs.mapM (fun c => c.update N robot) = .ok Js
  | [], _ => ⟨[], rfl⟩
  | c :: cs, h => by
    obtain ⟨J, hJ, -⟩ := ready_update hN (h c List.mem_cons_self)
    obtain ⟨Js, hJs⟩ := updates_total hN cs fun c' hc' => h c' (List.mem_cons_of_mem _ hc')
    exact ⟨J :: Js, by rw [List.mapM_cons, hJ, hJs]; rfl⟩

/-- With a positive definite mass matrix and no hard task, the requirements are independent. -/
theorem motionFree_soft (r : DynRobot ℝ) (hn : 6 < r.nv) (tasks : List (DTask ℝ)) (contacts : List (Contact ℝ)) (s : DState ℝ)
    (hc : ∀ c ∈ contacts, c.active = true → ContactReady r.nv s.robot c) (hM : PosDef r.nv (r.mass s.robot))
    (hsoft : ∀ t ∈ tasks, t.priority = .soft) : MotionFree r tasks contacts s := by
  intro rs es u hrs hes
  obtain ⟨Js, hJs⟩ := updates_total (N := r.nv) (by omega) (contacts.filter (·.active)) fun c hcm => by
    obtain ⟨h1, h2⟩ := List.mem_filter.1 hcm
    exact hc c h1 h2
  have hex : List.Forall₂ (fun q w => ExternalIs q.1 q.2 w) es (es.map Prod.snd) := by
    clear hes
    induction es with
    | nil => exact .nil
    | cons q es ih =>
      refine .cons ?_ ih
      unfold ExternalIs
      split
      · exact fun i _ => rfl
      · trivial
  have htask : ∀ (y tau : Nat → ℝ), ∀ q ∈ rs, DTaskRhs s.robot q.1 q.2 y tau := by
    intro y tau q hq hh
    rw [hsoft q.1 (by rw [← hrs]; exact List.mem_map.2 ⟨q, hq, rfl⟩)] at hh
    cases hh
  obtain ⟨y, -, hy⟩ := pd_solve r.nv 6 hn.le (r.mass s.robot) hM (fun _ => 0) fun i => u i + generalised Js (es.map Prod.snd) i
  cases hmk : s.maskedFbase with
  | false =>
    exact ⟨y, fun i => (∑ j ∈ range r.nv, r.mass s.robot i j * y j) - generalised Js (es.map Prod.snd) i, es.map Prod.snd, Js, hJs,
      fun i _ => by ring, hex, fun _ i hi => by simp only; rw [hy i hi]; ring, fun h => (by cases h), htask _ _⟩
  | true =>
    exact ⟨u, fun i => (∑ j ∈ range r.nv, r.mass s.robot i j * u j) - generalised Js (es.map Prod.snd) i, es.map Prod.snd, Js, hJs,
      fun i _ => by ring, hex, fun h => (by cases h), fun _ i _ => rfl, htask _ _⟩

/-- The given value for an external wrench, nothing for the other contacts. -/
def givenWrench (c : Contact ℝ) : Nat → ℝ :=
  match c.kind with
  | .external _ g => g.v
  | _ => fun _ => 0

theorem givenWrench_ok (c : Contact ℝ) : WrenchOK c (givenWrench c) := by
  unfold WrenchOK givenWrench
  cases c.kind with
  | point posA R u =>
    cases u
    · trivial
    · simp [Pyramid, surface]
  | planar jac u l w =>
    cases u
    · trivial
    · simp [Pyramid]
  | line jac A R u l => trivial
  | external jac g => exact fun i _ => rfl
  | puppet => trivial
  | task A => trivial

/-- A motion that stops the actuated joints in one step. -/
theorem motion_stop_joints (sqrt : ℝ → ℝ) (hsq : ∀ x, 0 ≤ x → 0 ≤ sqrt x) (r : DynRobot ℝ) (hn : 6 < r.nv) (tasks : List (DTask ℝ))
    (contacts : List (Contact ℝ)) (s : DState ℝ) (hc : ∀ c ∈ contacts, c.active = true → ContactReady r.nv s.robot c)
    (hM : PosDef r.nv (r.mass s.robot)) (hsoft : ∀ t ∈ tasks, t.priority = .soft)
    (hdt : s.jointLimits = true ∨ s.velocityLimits = true → s.dt ≠ 0) (htl : s.torqueLimits = false) (hvt : s.velocityVsTorque = false)
    (hv : s.velocityLimits = true → ∀ i, 6 ≤ i → i < r.nv → 0 ≤ r.vlim i)
    (hj : s.jointLimits = true → ∀ i, 6 ≤ i → i < r.nv →
      r.lower (i + 1) ≤ s.robot.q (i + 1) ∧ s.robot.q (i + 1) ≤ r.upper (i + 1) ∧ 0 ≤ s.qddSafe i) :
    ∃ y tau ws, Motion sqrt r tasks contacts s y tau ws ∧ ∀ k, 6 ≤ k → y k = -(s.robot.qd k / s.dt) := by
  obtain ⟨Js, hJs⟩ := updates_total (N := r.nv) (by omega) (contacts.filter (·.active)) fun c hcm => by
    obtain ⟨h1, h2⟩ := List.mem_filter.1 hcm
    exact hc c h1 h2
  generalize hws : (contacts.filter (·.active)).map givenWrench = ws
  have hwr : List.Forall₂ WrenchOK (contacts.filter (·.active)) ws := by
    rw [← hws]
    generalize contacts.filter (·.active) = l
    induction l with
    | nil => exact .nil
    | cons c l ih => exact .cons (givenWrench_ok c) ih
  generalize hbias : (fun i => s.damping * s.robot.qd i + (if s.gravityOnly then r.gravity s.robot i else r.nle s.robot i) +
    (match s.extraForce with | some f => f.v i | none => 0)) = β
  have hy : ∃ y : Nat → ℝ, (∀ k, 6 ≤ k → y k = -(s.robot.qd k / s.dt)) ∧
      (s.maskedFbase = false → ∀ i, i < 6 → (∑ j ∈ range r.nv, r.mass s.robot i j * y j) + β i - generalised Js ws i = 0) ∧
      (s.maskedFbase = true → ∀ i, i < 6 → y i = 0) := by
    cases s.maskedFbase with
    | false =>
      obtain ⟨y, h1, h2⟩ := pd_solve r.nv 6 hn.le (r.mass s.robot) hM (fun k => -(s.robot.qd k / s.dt)) fun i => generalised Js ws i - β i
      exact ⟨y, h1, fun _ i hi => by rw [h2 i hi]; ring, fun h => (by cases h)⟩
    | true =>
      exact ⟨fun k => if k < 6 then 0 else -(s.robot.qd k / s.dt), fun k hk => by simp only; rw [if_neg (by omega)], fun h => (by cases h),
        fun _ i hi => by simp only; rw [if_pos hi]⟩
  obtain ⟨y, y1, y2, y3⟩ := hy
  have hstop : s.jointLimits = true ∨ s.velocityLimits = true → ∀ i, 6 ≤ i → s.robot.qd i + s.dt * y i = 0 := by
    intro h i hi
    have := hdt h
    rw [y1 i hi]
    field_simp
    ring
  refine ⟨y, fun i => (∑ j ∈ range r.nv, r.mass s.robot i j * y j) + β i - generalised Js ws i, ws, ⟨⟨Js, hJs, fun i _ => ?_⟩, hwr, y2, y3,
    fun t ht hh => ?_, ?_⟩, y1⟩
  · rw [← hbias]
    ring
  · rw [hsoft t ht] at hh
    cases hh
  · refine ⟨fun h => ?_, fun h _ i h6 hi => ?_, fun h => ?_, fun h i h6 hi => ?_, fun h i h6 hi => ?_⟩
    · rw [htl] at h
      cases h
    · rw [hstop (.inr h) i h6, abs_zero]
      exact hv h i h6 hi
    · rw [hvt] at h
      cases h
    · obtain ⟨h1, h2, h3⟩ := hj h i h6 hi
      rw [if_neg (not_lt.2 h2), hstop (.inl h) i h6]
      exact hsq _ (mul_nonneg (mul_nonneg zero_le_two (sub_nonneg.2 h2)) h3)
    · obtain ⟨h1, h2, h3⟩ := hj h i h6 hi
      rw [if_neg (not_lt.2 h1), hstop (.inl h) i h6, neg_zero]
      exact hsq _ (mul_nonneg (mul_nonneg zero_le_two (abs_nonneg _)) h3)

/-- There is a motion: the one that stops the actuated joints in one step. -/
theorem motion_stop (sqrt : ℝ → ℝ) (hsq : ∀ x, 0 ≤ x → 0 ≤ sqrt x) (r : DynRobot ℝ) (hn : 6 < r.nv) (tasks : List (DTask ℝ))
    (contacts : List (Contact ℝ)) (s : DState ℝ) (hc : ∀ c ∈ contacts, c.active = true → ContactReady r.nv s.robot c)
    (hM : PosDef r.nv (r.mass s.robot)) (hsoft : ∀ t ∈ tasks, t.priority = .soft)
    (hdt : s.jointLimits = true ∨ s.velocityLimits = true → s.dt ≠ 0) (htl : s.torqueLimits = false) (hvt : s.velocityVsTorque = false)
    (hv : s.velocityLimits = true → ∀ i, 6 ≤ i → i < r.nv → 0 ≤ r.vlim i)
    (hj : s.jointLimits = true → ∀ i, 6 ≤ i → i < r.nv →
      r.lower (i + 1) ≤ s.robot.q (i + 1) ∧ s.robot.q (i + 1) ≤ r.upper (i + 1) ∧ 0 ≤ s.qddSafe i) :
    ∃ y tau ws, Motion sqrt r tasks contacts s y tau ws := by
  obtain ⟨y, tau, ws, h, -⟩ := motion_stop_joints sqrt hsq r hn tasks contacts s hc hM hsoft hdt htl hvt hv hj
  exact ⟨y, tau, ws, h⟩

/-- **C166 (soft tasks).** With soft tasks only and a positive definite mass matrix, with joints inside their range when the joint limits
are enabled, non negative limits on the velocities when these are, and no limits on the torques: inverse dynamics always succeeds,
whatever the contacts. -/
theorem C166_soft (env : DEnv ℝ) (hsq : ∀ x, 0 ≤ x → 0 ≤ env.sqrt x) (r : DynRobot ℝ) (hn : 6 < r.nv) (tasks : List (DTask ℝ))
    (contacts : List (Contact ℝ)) (integrate : Bool) (s : DState ℝ)
    (hc : ∀ c ∈ contacts, c.active = true → ContactReady r.nv s.robot c) (ht : ∀ t ∈ tasks, DTaskReady r.nv s.robot t)
    (hsoft : ∀ t ∈ tasks, t.priority = .soft ∧ 0 ≤ t.weight) (htc : 0 ≤ s.torqueCost) (hx : ∀ f, s.extraForce = some f → f.size = r.nv)
    (hM : PosDef r.nv (r.mass s.robot)) (hdt : s.jointLimits = true ∨ s.velocityLimits = true ∨ integrate = true → s.dt ≠ 0)
    (htl : s.torqueLimits = false) (hvt : s.velocityVsTorque = false)
    (hv : s.velocityLimits = true → ∀ i, 6 ≤ i → i < r.nv → 0 ≤ r.vlim i)
    (hj : s.jointLimits = true → ∀ i, 6 ≤ i → i < r.nv →
      r.lower (i + 1) ≤ s.robot.q (i + 1) ∧ s.robot.q (i + 1) ≤ r.upper (i + 1) ∧ 0 ≤ s.qddSafe i)
    (hreg : 0 < env.regularization) (htol : 0 ≤ env.tol) (hex : env.toQPEnv.Exact) :
    ∃ res, (solve env r tasks contacts [] integrate s).2 = .ok res ∧ res.success = true :=
  (C166_partial env r hn tasks contacts integrate s hc ht (fun t h _ => (hsoft t h).2) htc hx
    (fun h => hdt (by rcases h with h | h | h | h; exacts [.inl h, .inr (.inl h), (by rw [hvt] at h; cases h), .inr (.inr h)])) hreg htol hex
    fun _ => motionFree_soft r hn tasks contacts s hc hM fun t h => (hsoft t h).1).1.2
    (motion_stop env.sqrt hsq r hn tasks contacts s hc hM (fun t h => (hsoft t h).1)
      (fun h => hdt (by rcases h with h | h; exacts [.inl h, .inr (.inl h)])) htl hvt hv hj)

/-! ## When a motion exists but is not found -/

/-- A success needs an assembled problem. -/
theorem success_assembled (env : DEnv ℝ) (r : DynRobot ℝ) (tasks : List (DTask ℝ)) (contacts : List (Contact ℝ)) (cons : List (DConstraint ℝ))
    (integrate : Bool) (s : DState ℝ) (res : Result ℝ) (h : (solve env r tasks contacts cons integrate s).2 = .ok res)
    (hs : res.success = true) : ∃ p qp, build env r tasks contacts cons s = .ok p ∧ assemble (env.settings p.n) env.qr p.cs = .ok qp := by
  unfold solve at h
  cases hb : build env r tasks contacts cons s with
  | error e => rw [hb] at h; cases h
  | ok p =>
    refine ⟨p, ?_⟩
    rw [hb] at h
    simp only at h
    cases ha : assemble (env.settings p.n) env.qr p.cs with
    | ok qp => exact ⟨qp, rfl, rfl⟩
    | error e =>
      unfold Problem.solve at h
      simp only [ha] at h
      cases e <;> simp only at h <;> cases h
      cases hs

/-- **C166 is false** of a robot without actuated joints: whatever the tasks, contacts and constraints, inverse dynamics never succeeds,
because the cost on the torques of the joints is then a constraint without rows. -/
theorem C166_base_refuted (env : DEnv ℝ) (r : DynRobot ℝ) (hn : r.nv = 6) (tasks : List (DTask ℝ)) (contacts : List (Contact ℝ))
    (cons : List (DConstraint ℝ)) (integrate : Bool) (s : DState ℝ) (res : Result ℝ)
    (h : (solve env r tasks contacts cons integrate s).2 = .ok res) : res.success = false := by
  cases hs : res.success with
  | false => rfl
  | true =>
    obtain ⟨p, qp, hb, hqp⟩ := success_assembled env r tasks contacts cons integrate s res h hs
    have P := build_spec env r tasks contacts cons s p hb
    obtain ⟨cm, cc, cl, mats, ct, cu, cf, c, hcs, -, -, -, -, -, -, -, e, k, he, hk, hck⟩ := P.parts
    obtain ⟨-, e2, e3, -⟩ := slice_rest_ok (start := 6) he
    have e2 : e.rows = 0 := by rw [e2, P.tauRows, hn]
    have hkr : k.expr.rows = 0 := by
      obtain ⟨k', a, -, -, g⟩ := eqDouble_zero e 0
      rw [hk] at a
      cases a
      rw [(g (by rw [e3, P.tauCols]; have := P.chain.le; omega)).1, e2]
    have hend := assembleEnd_eq (env.settings p.n) env.qr p.cs
    unfold assembleEnd at hend
    rw [hqp] at hend
    simp only [Except.map] at hend
    split at hend
    · cases hend
    split at hend
    · cases hend
    split at hend
    · rename_i hall
      have hck' := hall c (by rw [hcs]; simp)
      unfold checkConstr at hck'
      split at hck'
      · cases hck'
      rw [if_pos (.inl (by rw [hck]; exact hkr))] at hck'
      cases hck'
    · cases hend

/-- With rewriting, the same hard equality twice is never assembled. -/
theorem twice_fails (s : Settings ℝ) (qr : Nat → EqSt ℝ → QR ℝ) (hqr : ExactQR qr) (hre : s.rewriteEqualities = true) (a b d : List (Constr ℝ))
    (c : Constr ℝ) (hc : c.hardEq = true) (hrows : 0 < c.expr.rows) (qp : QP ℝ) : assemble s qr (a ++ (c :: b ++ c :: d)) ≠ .ok qp := by
  intro hqp
  have hend := assembleEnd_eq s qr (a ++ (c :: b ++ c :: d))
  unfold assembleEnd at hend
  rw [hqp] at hend
  simp only [Except.map] at hend
  split at hend
  · cases hend
  rename_i hub
  have hub : equalitiesUB s.n (a ++ (c :: b ++ c :: d)) = false := by simpa using hub
  have hrc : eqRowsOf c = c.expr.rows := by unfold eqRowsOf; rw [if_pos hc]
  have hpos : 0 < nEqualities (a ++ (c :: b ++ c :: d)) := by
    unfold nEqualities
    simp only [List.map_append, List.map_cons, List.sum_append, List.sum_cons, List.cons_append, if_pos hc]
    omega
  split at hend
  · cases hend
  rename_i hr
  have hr : (qr (nEqualities (a ++ (c :: b ++ c :: d))) (equalities (a ++ (c :: b ++ c :: d)))).rank = nEqualities (a ++ (c :: b ++ c :: d)) := by
    by_contra hne
    exact hr ⟨hre, hpos, hne⟩
  have hi := (hqr.equalities hub).qr.indep hr
  rw [rowsIndep_iff] at hi
  let z : Constr ℝ → Constr ℝ × (Nat → ℝ) := fun c => (c, fun _ => 0)
  have hz : ∀ l : List (Constr ℝ), (l.map z).map Prod.fst = l := by
    intro l
    rw [List.map_map]
    exact List.map_id'' (fun _ => rfl) l
  have hz0 : ∀ (l : List (Constr ℝ)) k, comb (l.map z) k = 0 := by
    intro l k
    unfold comb
    rw [List.map_map]
    exact List.sum_eq_zero fun x hx => by
      obtain ⟨c, -, rfl⟩ := List.mem_map.1 hx
      simp [z]
  have happ : ∀ (l l' : List (Constr ℝ × (Nat → ℝ))) k, comb (l ++ l') k = comb l k + comb l' k := by
    intro l l' k
    unfold comb
    rw [List.map_append, List.sum_append]
  have hcons : ∀ (p : Constr ℝ × (Nat → ℝ)) l k, comb (p :: l) k = ∑ i ∈ range (eqRowsOf p.1), p.2 i * p.1.expr.pad i k + comb l k := by
    intro p l k
    unfold comb
    rw [List.map_cons, List.sum_cons]
  have := hi (a.map z ++ ((c, fun i => if i = 0 then 1 else 0) :: b.map z ++ (c, fun i => if i = 0 then -1 else 0) :: d.map z))
    (by simp only [List.map_append, List.map_cons, hz]) (fun k _ => by
      rw [happ, happ, hcons, hcons, hz0, hz0, hz0]
      simp only [zero_add, add_zero]
      rw [← sum_add_distrib]
      exact sum_eq_zero fun i _ => by by_cases h : i = 0 <;> simp [h])
    (c, fun i => if i = 0 then 1 else 0) (by simp) 0 (by rw [hrc]; exact hrows)
  simp at this

theorem mapM_split {α β : Type} (f : α → Except Err β) : ∀ (l1 : List α) (a : α) (l2 : List α) (r : List β), (l1 ++ a :: l2).mapM f = .ok r →
    ∃ r1 b r2, r = r1 ++ b :: r2 ∧ l1.mapM f = .ok r1 ∧ f a = .ok b ∧ l2.mapM f = .ok r2
  | [], a, l2, r, h => by
    rw [List.nil_append, List.mapM_cons] at h
    obtain ⟨b, hb, h⟩ := bind_ok h
    obtain ⟨r2, h2, h⟩ := bind_ok h
    cases h
    exact ⟨[], b, r2, rfl, rfl, hb, h2⟩
  | c :: l1, a, l2, r, h => by
    rw [List.cons_append, List.mapM_cons] at h
    obtain ⟨b0, hb0, h⟩ := bind_ok h
    obtain ⟨r0, h0, h⟩ := bind_ok h
    cases h
    obtain ⟨r1, b, r2, rfl, e1, e2, e3⟩ := mapM_split f l1 a l2 r0 h0
    exact ⟨b0 :: r1, b, r2, rfl, by rw [List.mapM_cons, hb0, e1]; rfl, e2, e3⟩

theorem mapM_zip {α β γ : Type} (f : α → Except Err β) (g : α × β → Except Err γ) : ∀ (l : List α) (ms : List β) (r : List γ),
    l.mapM f = .ok ms → (l.zip ms).mapM g = .ok r → l.mapM (fun a => f a >>= fun b => g (a, b)) = .ok r
  | [], ms, r, h, h' => by
    cases h
    exact h'
  | a :: l, ms, r, h, h' => by
    rw [List.mapM_cons] at h
    obtain ⟨b, hb, h⟩ := bind_ok h
    obtain ⟨ms', hm, h⟩ := bind_ok h
    cases h
    change ((a :: l).zip (b :: ms')).mapM g = .ok r at h'
    rw [List.zip_cons_cons, List.mapM_cons] at h'
    obtain ⟨c, hc, h'⟩ := bind_ok h'
    obtain ⟨r', hr, h'⟩ := bind_ok h'
    cases h'
    rw [List.mapM_cons, mapM_zip f g l ms' r' hm hr]
    simp only [hb, hc, bind, Except.bind]
    rfl

/-- **C166, the same task twice.** With `rewrite_equalities` (the default), when a hard task with rows was added twice, inverse dynamics
does not succeed, whatever the other tasks, the contacts and the constraints. -/
theorem C166_twice (env : DEnv ℝ) (hre : env.rewriteEqualities = true) (hex : env.toQPEnv.Exact) (r : DynRobot ℝ) (t1 t2 t3 : List (DTask ℝ))
    (t : DTask ℝ) (hh : t.priority = .hard) (contacts : List (Contact ℝ)) (cons : List (DConstraint ℝ)) (integrate : Bool) (s : DState ℝ)
    (M : TaskMat ℝ) (hM : t.update s.robot = .ok M) (hrows : 0 < M.rows) (hcols : M.cols = r.nv) (res : Result ℝ)
    (h : (solve env r (t1 ++ t :: (t2 ++ t :: t3)) contacts cons integrate s).2 = .ok res) : res.success = false := by
  cases hs : res.success with
  | false => rfl
  | true =>
    exfalso
    obtain ⟨p, qp, hb, hqp⟩ := success_assembled env r _ contacts cons integrate s res h hs
    have P := build_spec env r _ contacts cons s p hb
    obtain ⟨cm, cc, cl, mats, ct, cu, cf, c, hcs, -, -, -, hmats, hct, -⟩ := P.parts
    have hall := mapM_zip _ _ _ _ _ hmats hct
    obtain ⟨r1, l, r', rfl, -, hl, hr'⟩ := mapM_split _ _ _ _ _ hall
    obtain ⟨r2, l', r3, rfl, -, hl', -⟩ := mapM_split _ _ _ _ _ hr'
    have hsix := P.six
    obtain ⟨l0, k1, k2, k3, -⟩ := dtask_total (robot := s.robot) (by rw [hh]; decide) hM hcols (by omega) P.chain.le p.tau P.tauRows P.tauCols
    simp only [hM, bind, Except.bind] at hl hl'
    rw [k1] at hl hl'
    cases hl
    cases hl'
    obtain ⟨k, hlk, hk1, hk2⟩ : ∃ k, l = [k] ∧ k.hardEq = true ∧ 0 < k.expr.rows := by
      unfold dtaskConstraint at k1
      rw [if_neg (by omega), if_neg (by rw [hh]; decide)] at k1
      obtain ⟨e, -, k1⟩ := bind_ok k1
      obtain ⟨k, hk, k1⟩ := bind_ok k1
      cases k1
      obtain ⟨k', a, b, -, -⟩ := eqDouble_zero e 0
      rw [hk] at a
      cases a
      exact ⟨_, rfl, by simp [Constr.hardEq, Constr.configureP, hh, b], by
        have h := (k2 _ (List.mem_singleton.2 rfl)).1
        exact h.2.1⟩
    subst hlk
    refine twice_fails (env.settings p.n) env.qr hex.1 hre (cm ++ cc ++ cl ++ r1.flatten) r2.flatten (r3.flatten ++ cu.flatten ++ cf ++ [c]) k hk1
      hk2 qp ?_
    rw [← hqp, hcs]
    simp [List.append_assoc]

/-- The hinge of the kinematics with an identity mass matrix, no gravity and no non linear effects. -/
noncomputable def hingeDyn : DynRobot ℝ :=
  { hingeRobot with mass := fun _ i j => if i = j then 1 else 0, gravity := fun _ _ => 0, nle := fun _ _ => 0, effort := fun _ => 1 }

/-- The hinge at its zero, with the default settings and a time step. -/
noncomputable def hingeDState : DState ℝ :=
  { robot := ⟨fun _ => 0, fun _ => 0, fun _ => 0⟩, dt := 1, damping := 0, torqueCost := 1, qddSafe := fun _ => 1 }

/-- A hard task asking the hinge for the acceleration `b`. -/
noncomputable def hingeDTask (b : ℝ) : DTask ℝ :=
  { priority := .hard, weight := 1, update := fun _ => .ok ⟨1, 7, fun _ j => if j = 6 then 1 else 0, fun _ => b⟩ }

theorem hinge_mass (robot : RState ℝ) : PosDef hingeDyn.nv (hingeDyn.mass robot) := by
  rintro v ⟨k, hk, hv⟩
  have h : form hingeDyn.nv (hingeDyn.mass robot) v = ∑ i ∈ range hingeDyn.nv, v i ^ 2 := by
    unfold form
    refine sum_congr rfl fun i hi => ?_
    rw [sum_eq_single_of_mem i hi fun j _ hj => by simp [hingeDyn, Ne.symm hj]]
    simp [hingeDyn]
    ring
  rw [h]
  exact sum_pos' (fun i _ => sq_nonneg _) ⟨k, mem_range.2 hk, by positivity⟩

theorem hinge_mass_mul (robot : RState ℝ) (y : Nat → ℝ) (i : Nat) (hi : i < hingeDyn.nv) :
    ∑ j ∈ range hingeDyn.nv, hingeDyn.mass robot i j * y j = y i := by
  rw [sum_eq_single_of_mem i (mem_range.2 hi) fun j _ hj => by simp [hingeDyn, Ne.symm hj]]
  simp [hingeDyn]

/-- **C166 is false** with `rewrite_equalities` (the default) when the same hard task is given twice: a motion meets both, and one is found
when the task is given once, but `success` is false. -/
theorem C166_refuted (env : DEnv ℝ) (hre : env.rewriteEqualities = true) (hex : env.toQPEnv.Exact) (hreg : 0 < env.regularization)
    (htol : 0 ≤ env.tol) (integrate : Bool) :
    (∃ y tau ws, Motion env.sqrt hingeDyn [hingeDTask (1 / 2), hingeDTask (1 / 2)] [] hingeDState y tau ws) ∧
    (∀ res, (solve env hingeDyn [hingeDTask (1 / 2), hingeDTask (1 / 2)] [] [] integrate hingeDState).2 = .ok res → res.success = false) ∧
    ∃ res, (solve env hingeDyn [hingeDTask (1 / 2)] [] [] integrate hingeDState).2 = .ok res ∧ res.success = true := by
  have hm : ∀ ts, (∀ t ∈ ts, t = hingeDTask (1 / 2)) → ∃ y tau ws, Motion env.sqrt hingeDyn ts [] hingeDState y tau ws := by
    intro ts hts
    refine ⟨fun k => if k = 6 then 1 / 2 else 0, fun k => if k = 6 then 1 / 2 else 0, [], ⟨⟨[], rfl, fun i hi => ?_⟩, .nil, fun _ i hi => ?_,
      fun h => (by cases h), fun t ht _ M hM i hi => ?_, ⟨fun h => (by cases h), fun h => (by cases h), fun h => (by cases h),
        fun h => (by cases h), fun h => (by cases h)⟩⟩⟩
    · rw [hinge_mass_mul _ _ i hi]
      simp [hingeDState, hingeDyn, generalised]
    · show (if i = 6 then (1 / 2 : ℝ) else 0) = 0
      rw [if_neg (by omega)]
    · rw [hts t ht] at hM ⊢
      cases hM
      simp [hingeDTask]
  refine ⟨hm _ (by simp), fun res h => ?_, ?_⟩
  · exact C166_twice env hre hex hingeDyn [] [] [] (hingeDTask (1 / 2)) rfl [] [] integrate hingeDState _ rfl (by simp) rfl res h
  · refine (C166_partial env hingeDyn (by decide) _ [] integrate hingeDState (by simp) ?_ ?_ zero_le_one (fun f h => (by cases h))
      (fun _ => one_ne_zero) hreg htol hex fun _ => ?_).1.2 (hm _ (by simp))
    · intro t ht
      rw [List.mem_singleton.1 ht]
      exact ⟨by simp [hingeDTask], _, rfl, rfl⟩
    · intro t ht h
      rw [List.mem_singleton.1 ht] at h
      cases h
    · intro rs es u hrs hes
      obtain ⟨q, rfl, hq⟩ := List.map_eq_singleton_iff.1 hrs
      have hes : es = [] := List.map_eq_nil_iff.1 hes
      subst hes
      refine ⟨fun k => if k = 6 then q.2 0 else u k, fun k => if k = 6 then q.2 0 else u k, [], [], rfl, fun i hi => ?_, .nil, fun _ i hi => ?_,
        fun h => (by cases h), fun p hp _ M hM i hi => ?_⟩
      · rw [hinge_mass_mul _ _ i hi]
        simp [generalised]
      · simp only
        rw [if_neg (by omega)]
      · rw [List.mem_singleton.1 hp] at hM ⊢
        rw [hq] at hM ⊢
        cases hM
        have hi : i < 1 := hi
        obtain rfl : i = 0 := by omega
        simp [hingeDTask, Finset.sum_range_succ]

/-- A foot on the ground: a unilateral contact of the base with three rows of Jacobian. -/
noncomputable def hingeFoot : Contact ℝ :=
  { kind := .point (fun _ => ⟨3, 7, fun i j => if j = i then 1 else 0⟩) (fun i j => if i = j then 1 else 0) true, active := true, mu := 1,
    weightForces := 0, weightTangentials := 0, weightMoments := 0 }

/-- The hypotheses of `C166_soft` are met by the hinge with a contact, a soft task and all the limits that do not involve torques. -/
example : ∃ env : DEnv ℝ, env.toQPEnv.Exact ∧ env.rewriteEqualities = true ∧
    ∃ res, (solve env hingeDyn [{ hingeDTask (1 / 2) with priority := .soft }] [hingeFoot] [] true
      { hingeDState with jointLimits := true, velocityLimits := true }).2 = .ok res ∧ res.success = true := by
  obtain ⟨env, hex, -, -, hreg, hre, -, htol⟩ := exact_env_exists 1 0 0 true
  refine ⟨⟨env, Real.sqrt⟩, hex, hre, ?_⟩
  refine C166_soft ⟨env, Real.sqrt⟩ (fun x _ => Real.sqrt_nonneg x) hingeDyn (by decide) _ _ true _ ?_ ?_ ?_ zero_le_one (fun f h => (by cases h))
    (hinge_mass _) (fun _ => one_ne_zero) rfl rfl (fun _ i _ _ => ?_) (fun _ i _ _ => ?_) ?_ ?_ hex
  · intro c hc _
    rw [List.mem_singleton.1 hc]
    exact ⟨rfl, rfl⟩
  · intro t ht
    rw [List.mem_singleton.1 ht]
    exact ⟨by simp, _, rfl, rfl⟩
  · intro t ht
    rw [List.mem_singleton.1 ht]
    exact ⟨rfl, zero_le_one⟩
  · norm_num [hingeDyn, hingeRobot]
  · norm_num [hingeDyn, hingeRobot, hingeDState]
  · show 0 < env.regularization
    rw [hreg]
    exact one_pos
  · show 0 ≤ env.tol
    rw [htol]

end Verif.Dynamics
