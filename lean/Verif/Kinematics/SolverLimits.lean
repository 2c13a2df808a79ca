/-
Meaning of the limit and mask constraints of the kinematics solver, and what they imply for accepted steps.
-/
import Verif.Kinematics.SolverSolve

namespace Verif.Kinematics
open Finset Verif.Problem

section
variable {K : Type} [Field K] [LinearOrder K] [IsStrictOrderedRing K]

/-! ## Specification vocabulary -/

/-- pinocchio's layout: a free-flyer (7 / 6 coordinates), then the joints one after the other. -/
structure Robot.Layout (r : Robot K) : Prop where
  idx : ∀ pre j post, r.joints = pre ++ j :: post →
    j.idxQ = 7 + (pre.map (·.nQ)).sum ∧ j.idxV = 6 + (pre.map (·.nV)).sum
  nq : r.nq = 7 + (r.joints.map (·.nQ)).sum
  nv : r.nv = 6 + (r.joints.map (·.nV)).sum

/-- Contract of `pinocchio::integrate` on joints with one coordinate: `q + v`. -/
def Robot.IntegrateOK (r : Robot K) : Prop :=
  ∀ j ∈ r.joints, j.nQ = 1 → j.nV = 1 → ∀ q v, r.integrate q v j.idxQ = q j.idxQ + v j.idxV

/-- The joint is inside its limits. -/
def Robot.InLimits (r : Robot K) (j : Joint) (q : Nat → K) : Prop :=
  r.lower j.idxQ ≤ q j.idxQ ∧ q j.idxQ ≤ r.upper j.idxQ

/-- The joint has one coordinate. -/
def Joint.Simple (j : Joint) : Prop := j.nQ = 1 ∧ j.nV = 1

/-! ## Limits and masks as constraints -/

theorem le_priority {e o : Expr K} {c : Constr K} (h : e.le o = .ok c) : c.priority = .hard := by
  unfold Expr.le at h
  cases hs : e.sub o with
  | error k => rw [hs] at h; cases h
  | ok d => rw [hs] at h; cases h; rfl

theorem leVec_spec (e : Expr K) (v : Vec K) (h : v.size = e.rows) :
    ∃ c, e.leVec v = .ok c ∧ c.priority = .hard ∧ ∀ x, c.Sat x ↔ ∀ i, i < e.rows → e.rowVal x i ≤ v.v i := by
  obtain ⟨-, ⟨c, h1, h2⟩, -⟩ := C02_vector e v h
  exact ⟨c, h1, le_priority h1, h2⟩

theorem vecLe_spec (e : Expr K) (v : Vec K) (h : v.size = e.rows) :
    ∃ c, Expr.vecLe v e = .ok c ∧ c.priority = .hard ∧ ∀ x, c.Sat x ↔ ∀ i, i < e.rows → v.v i ≤ e.rowVal x i := by
  obtain ⟨-, -, -, -, ⟨c, h1, h2⟩, -⟩ := C02_vector e v h
  exact ⟨c, h1, le_priority h1, h2⟩

theorem HardSat_pair (c d : Constr K) (hc : c.priority = .hard) (hd : d.priority = .hard) (x : Nat → K) :
    HardSat [c, d] x ↔ c.Sat x ∧ d.Sat x := by
  unfold HardSat; simp [hc, hd]

theorem var_expr_ub (v : Var) (start size : Nat) (h0 : 0 < size) (h : v.kEnd < v.kStart + start + size) :
    (v.expr (start : Int) (size : Int) : Except Err (Expr K)) = .error .ub := by
  unfold Var.expr
  simp only
  rw [if_neg (by omega : ¬ ((start : Int) = -1)), if_neg (by omega : ¬ ((size : Int) = -1))]
  exact if_neg (by omega)

theorem var_expr_rest_ub (v : Var) (start : Nat) (h : v.kEnd < v.kStart + start) :
    (v.expr (start : Int) (-1) : Except Err (Expr K)) = .error .ub := by
  unfold Var.expr
  simp only
  rw [if_neg (by omega : ¬ ((start : Int) = -1)), if_pos trivial]
  exact if_neg (by omega)

/-- Meaning of `compute_limits_inequalities` when it returns. -/
theorem limits_spec (r : Robot K) (s : KState K) (l : List (Constr K))
    (h : limitsInequalities r s ⟨0, r.nv⟩ = .ok l) (hq : r.nv - 6 ≤ r.nq) :
    ¬ (s.velocityLimits = true ∧ s.dt = 0) ∧ (∀ c ∈ l, c.priority = .hard) ∧
    ∀ x, HardSat l x ↔
      (s.jointLimits = true → ∀ i, i < r.nv - 6 →
        s.robot.q (r.nq - (r.nv - 6) + i) + x (6 + i) ≤ r.upper (r.nq - (r.nv - 6) + i) ∧
        r.lower (r.nq - (r.nv - 6) + i) ≤ s.robot.q (r.nq - (r.nv - 6) + i) + x (6 + i)) ∧
      (s.velocityLimits = true → ∀ i, i < r.nv - 6 →
        x (6 + i) ≤ s.dt * r.vlim (6 + i) ∧ -(s.dt * r.vlim (6 + i)) ≤ x (6 + i)) := by
  unfold limitsInequalities at h
  by_cases h0 : s.velocityLimits = true ∧ s.dt = 0
  · rw [if_pos h0] at h; cases h
  rw [if_neg h0] at h
  by_cases hn : 6 ≤ r.nv
  · -- general case
    have hvexpr := var_expr_rest (K := K) ⟨0, r.nv⟩ 6 (by simpa using hn)
    set e : Expr K := ⟨r.nv - 0 - 6, r.nv, fun k j => if j = 0 + 6 + k then 1 else 0, fun _ => 0⟩ with he
    have hvexpr : ((⟨0, r.nv⟩ : Var).expr 6 (-1) : Except Err (Expr K)) = .ok e := hvexpr
    have her : e.rows = r.nv - 6 := by simp [he]
    have hev : ∀ x i, i < r.nv - 6 → e.rowVal x i = x (6 + i) := by
      intro x i hi
      have := var_rowVal (K := K) ⟨0, r.nv⟩ 6 (r.nv - 0 - 6) x i (by show 0 + 6 + i < r.nv; omega)
      simp only [Nat.zero_add] at this
      rw [he]; simpa using this
    have hm : ((r.nv : Int) - 6).toNat = r.nv - 6 := by omega
    have hb : ∀ (size : Nat) (f : Nat → K), r.nv - 6 ≤ size → bottomRows size ((r.nv : Int) - 6) f
        = .ok ⟨r.nv - 6, fun i => f (size - (r.nv - 6) + i)⟩ := by
      intro size f hsz
      unfold bottomRows
      rw [if_pos (by omega), hm]
    -- joint limits
    set e1 : Expr K := { e with b := fun i => e.b i + s.robot.q (r.nq - (r.nv - 6) + i) } with he1
    have he1r : e1.rows = r.nv - 6 := her
    have he1v : ∀ x i, i < r.nv - 6 → e1.rowVal x i = s.robot.q (r.nq - (r.nv - 6) + i) + x (6 + i) := by
      intro x i hi
      rw [← hev x i hi]; simp only [Expr.rowVal, he1]; ring
    have hadd : e.addVec ⟨r.nv - 6, fun i => s.robot.q (r.nq - (r.nv - 6) + i)⟩ = .ok e1 := by
      unfold Expr.addVec; rw [if_pos (by exact her.symm)]
    obtain ⟨c1, hc1, hp1, hs1⟩ := leVec_spec e1 ⟨r.nv - 6, fun i => r.upper (r.nq - (r.nv - 6) + i)⟩ he1r.symm
    obtain ⟨c2, hc2, hp2, hs2⟩ := vecLe_spec e1 ⟨r.nv - 6, fun i => r.lower (r.nq - (r.nv - 6) + i)⟩ he1r.symm
    have h66 : ∀ i, r.nv - (r.nv - 6) + i = 6 + i := fun i => by omega
    obtain ⟨c3, hc3, hp3, hs3⟩ := leVec_spec e ⟨r.nv - 6, fun i => s.dt * r.vlim (r.nv - (r.nv - 6) + i)⟩ her.symm
    obtain ⟨c4, hc4, hp4, hs4⟩ := vecLe_spec e ⟨r.nv - 6, fun i => -s.dt * r.vlim (r.nv - (r.nv - 6) + i)⟩ her.symm
    have hvel : r.nv - 6 ≤ r.nv := by omega
    simp only [hvexpr, hb _ _ hq, hb _ _ hvel, bind, Except.bind, hadd, hc1, hc2, hc3, hc4, pure, Except.pure] at h
    have hJ : ∀ x, HardSat [c1, c2] x ↔ ∀ i, i < r.nv - 6 →
        s.robot.q (r.nq - (r.nv - 6) + i) + x (6 + i) ≤ r.upper (r.nq - (r.nv - 6) + i) ∧
        r.lower (r.nq - (r.nv - 6) + i) ≤ s.robot.q (r.nq - (r.nv - 6) + i) + x (6 + i) := by
      intro x
      rw [HardSat_pair _ _ hp1 hp2, hs1, hs2, he1r]
      constructor
      · rintro ⟨a, b⟩ i hi
        have a := a i hi
        have b := b i hi
        rw [he1v x i hi] at a b
        exact ⟨a, b⟩
      · intro a
        constructor <;> intro i hi <;> rw [he1v x i hi]
        · exact (a i hi).1
        · exact (a i hi).2
    have hV : ∀ x, HardSat [c3, c4] x ↔ ∀ i, i < r.nv - 6 →
        x (6 + i) ≤ s.dt * r.vlim (6 + i) ∧ -(s.dt * r.vlim (6 + i)) ≤ x (6 + i) := by
      intro x
      rw [HardSat_pair _ _ hp3 hp4, hs3, hs4, her]
      simp only [h66]
      constructor
      · rintro ⟨a, b⟩ i hi
        have a := a i hi
        have b := b i hi
        rw [hev x i hi] at a b
        exact ⟨a, by linarith⟩
      · intro a
        constructor <;> intro i hi <;> rw [hev x i hi]
        · exact (a i hi).1
        · have := (a i hi).2; linarith
    refine ⟨h0, ?_⟩
    by_cases hj : s.jointLimits = true <;> by_cases hvl : s.velocityLimits = true <;>
      simp only [hj, hvl, if_true, if_false, Bool.false_eq_true] at h <;> cases h <;>
      simp only [List.append_nil, List.nil_append, HardSat_append, hJ, hV, hj, hvl, true_implies, false_implies,
        Bool.false_eq_true, and_true, true_and, HardSat_nil, List.mem_append, List.mem_cons, List.not_mem_nil, or_false]
    · exact ⟨by rintro c ((rfl | rfl) | (rfl | rfl)) <;> assumption, fun x => by simp⟩
    · exact ⟨by rintro c (rfl | rfl) <;> assumption, fun x => by simp⟩
    · exact ⟨by rintro c (rfl | rfl) <;> assumption, fun x => by simp⟩
    · simp
  · have hz : r.nv - 6 = 0 := by omega
    have hb : ∀ (size : Nat) (f : Nat → K), bottomRows size ((r.nv : Int) - 6) f = .error .ub := by
      intro size f
      unfold bottomRows
      rw [if_neg (by omega)]
    have hexpr : ((⟨0, r.nv⟩ : Var).expr 6 (-1) : Except Err (Expr K)) = .error .ub :=
      var_expr_rest_ub ⟨0, r.nv⟩ 6 (by show r.nv < 0 + 6; omega)
    simp only [hexpr, hb, bind, Except.bind, pure, Except.pure] at h
    by_cases hj : s.jointLimits = true <;> by_cases hvl : s.velocityLimits = true <;>
      simp only [hj, hvl, if_true, if_false, Bool.false_eq_true] at h <;> cases h
    exact ⟨h0, by simp, fun x => by simp [hj, hvl, HardSat_nil]⟩

theorem mapM_cases {α β : Type} (f : α → Except Err β) : ∀ (l : List α) (r : List β), l.mapM f = .ok r →
    List.Forall₂ (fun a b => f a = .ok b) l r := by
  intro l
  induction l with
  | nil => intro r h; cases h; exact .nil
  | cons a l ih =>
    intro r h
    rw [List.mapM_cons] at h
    cases h1 : f a with
    | error e => rw [h1] at h; cases h
    | ok b =>
      rw [h1] at h
      cases h2 : l.mapM f with
      | error e => rw [h2] at h; cases h
      | ok r' =>
        rw [h2] at h
        cases h
        exact .cons h1 (ih r' h2)

theorem mask_one (nv d : Nat) (c : Constr K)
    (h : (do let e ← (⟨0, nv⟩ : Var).expr (d : Int) 1; e.eqDouble 0 : Except Err (Constr K)) = .ok c) :
    d < nv ∧ c.priority = .hard ∧ ∀ x, c.Sat x ↔ x d = 0 := by
  by_cases hd : d < nv
  · have := var_expr (K := K) ⟨0, nv⟩ d 1 (by show 0 + d + 1 ≤ nv; omega)
    rw [show (1 : Int) = ((1 : Nat) : Int) from rfl, this] at h
    simp only [bind, Except.bind] at h
    obtain ⟨c', hc1, hc2, hc3, hc4⟩ := eqDouble_zero (⟨1, nv, fun k j => if j = 0 + d + k then 1 else 0, fun _ => 0⟩ : Expr K) 0
    rw [hc1] at h
    cases h
    obtain ⟨hr, -, hv⟩ := hc4 (by show 0 < nv; omega)
    refine ⟨hd, hc3, fun x => ?_⟩
    rw [sat_equality _ hc2, hr]
    have h0 := var_rowVal (K := K) ⟨0, nv⟩ d 1 x 0 (by show 0 + d + 0 < nv; omega)
    simp only at h0
    constructor
    · intro H
      have := H 0 (by simp)
      rw [hv, h0] at this
      simpa using this
    · intro H i hi
      have : i = 0 := by simpa using hi
      subst this
      rw [hv, h0]; simpa using H
  · have : ((⟨0, nv⟩ : Var).expr (d : Int) 1 : Except Err (Expr K)) = .error .ub :=
      var_expr_ub ⟨0, nv⟩ d 1 (by omega) (by show nv < 0 + d + 1; omega)
    rw [this] at h; cases h

/-- Meaning of the mask constraints when they can be built. -/
theorem mask_spec (nv : Nat) (s : KState K) (l : List (Constr K)) (h : maskConstraints s ⟨0, nv⟩ = .ok l) :
    (∀ c ∈ l, c.priority = .hard) ∧ (∀ d ∈ s.maskedDof, d < nv) ∧ (s.maskedFbase = true → 6 ≤ nv) ∧
    ∀ x, HardSat l x ↔ (∀ d ∈ s.maskedDof, x d = 0) ∧ (s.maskedFbase = true → ∀ k, k < 6 → x k = 0) := by
  unfold maskConstraints at h
  cases h1 : s.maskedDof.mapM (fun (j : Nat) => (do let e ← (⟨0, nv⟩ : Var).expr (j : Int) 1; e.eqDouble 0 : Except Err (Constr K))) with
  | error e => rw [h1] at h; cases h
  | ok l1 =>
    rw [h1] at h
    have hf := mapM_cases _ _ _ h1
    have key : (∀ c ∈ l1, c.priority = .hard) ∧ (∀ d ∈ s.maskedDof, d < nv) ∧
        ∀ x, HardSat l1 x ↔ ∀ d ∈ s.maskedDof, x d = 0 := by
      clear h h1
      generalize s.maskedDof = md at hf ⊢
      induction hf with
      | nil => exact ⟨by simp, by simp, fun x => by simp [HardSat_nil]⟩
      | cons hab _ ih =>
        obtain ⟨m1, m2, m3⟩ := mask_one nv _ _ hab
        obtain ⟨i1, i2, i3⟩ := ih
        refine ⟨?_, ?_, fun x => ?_⟩
        · intro c hc
          rcases List.mem_cons.1 hc with rfl | hc
          · exact m2
          · exact i1 c hc
        · intro d hd
          rcases List.mem_cons.1 hd with rfl | hd
          · exact m1
          · exact i2 d hd
        · rw [← List.singleton_append, HardSat_append, HardSat_single, i3]
          simp [m2, m3]
    obtain ⟨k1, k2, k3⟩ := key
    by_cases hfb : s.maskedFbase = true
    · simp only [hfb, if_true, bind, Except.bind] at h
      by_cases hn : 6 ≤ nv
      · have := var_expr (K := K) ⟨0, nv⟩ 0 6 (by show 0 + 0 + 6 ≤ nv; omega)
        rw [show ((⟨0, nv⟩ : Var).expr 0 6 : Except Err (Expr K)) = (⟨0, nv⟩ : Var).expr ((0 : Nat) : Int) ((6 : Nat) : Int)
          from rfl, this] at h
        obtain ⟨c', hc1, hc2, hc3, hc4⟩ :=
          eqDouble_zero (⟨6, nv, fun k j => if j = 0 + 0 + k then 1 else 0, fun _ => 0⟩ : Expr K) 0
        simp only at h
        rw [hc1] at h
        cases h
        obtain ⟨hr, -, hv⟩ := hc4 (by show 0 < nv; omega)
        refine ⟨?_, k2, fun _ => hn, fun x => ?_⟩
        · intro c hc
          rcases List.mem_append.1 hc with hc | hc
          · exact k1 c hc
          · rw [List.mem_singleton.1 hc]; exact hc3
        · rw [HardSat_append, k3, HardSat_single, sat_equality _ hc2, hr]
          have hval : ∀ i, i < 6 → c'.expr.rowVal x i = x i := by
            intro i hi
            rw [hv, sub_zero]
            have := var_rowVal (K := K) ⟨0, nv⟩ 0 6 x i (by show 0 + 0 + i < nv; omega)
            simpa using this
          simp only [hc3, hfb, true_implies]
          refine and_congr Iff.rfl ?_
          constructor
          · intro H k hk; rw [← hval k hk]; exact H k hk
          · intro H k hk; rw [hval k hk]; exact H k hk
      · have : ((⟨0, nv⟩ : Var).expr 0 6 : Except Err (Expr K)) = .error .ub :=
          var_expr_ub ⟨0, nv⟩ 0 6 (by omega) (by show nv < 0 + 0 + 6; omega)
        rw [this] at h; cases h
    · simp only [hfb, if_false, Bool.false_eq_true, bind, Except.bind, pure, Except.pure] at h
      cases h
      refine ⟨by simpa using k1, k2, fun h => absurd h hfb, fun x => ?_⟩
      simp [k3, hfb]

/-- The three groups of constraints added after the tasks. -/
theorem other_spec (r : Robot K) (cons : List (KConstraint K)) (s : KState K) (qd : Var) (l : List (Constr K))
    (h : otherConstraints r cons s qd = .ok l) :
    ∃ m lim cl, maskConstraints s qd = .ok m ∧ limitsInequalities r s qd = .ok lim ∧
      cons.mapM (fun c => c.add s) = .ok cl ∧ l = m ++ lim ++ cl.flatten := by
  unfold otherConstraints at h
  cases h1 : maskConstraints s qd with
  | error e => rw [h1] at h; cases h
  | ok m =>
    cases h2 : limitsInequalities r s qd with
    | error e => rw [h1, h2] at h; cases h
    | ok lim =>
      cases h3 : cons.mapM (fun c => c.add s) with
      | error e => rw [h1, h2, h3] at h; cases h
      | ok cl =>
        rw [h1, h2, h3] at h
        cases h
        exact ⟨m, lim, cl, rfl, rfl, rfl, rfl⟩

theorem Accepted.limits {env : QPEnv K} {r : Robot K} {tasks : List (Task K)} {cons : List (KConstraint K)} {apply : Bool}
    {s s' : KState K} {dq x : Nat → K} (A : Accepted env r tasks cons apply s s' dq x) (hq : r.nv - 6 ≤ r.nq) :
    ¬ (s.velocityLimits = true ∧ s.dt = 0) ∧
      (s.jointLimits = true → ∀ i, i < r.nv - 6 →
        s.robot.q (r.nq - (r.nv - 6) + i) + x (6 + i) ≤ r.upper (r.nq - (r.nv - 6) + i) ∧
        r.lower (r.nq - (r.nv - 6) + i) ≤ s.robot.q (r.nq - (r.nv - 6) + i) + x (6 + i)) ∧
      (s.velocityLimits = true → ∀ i, i < r.nv - 6 →
        x (6 + i) ≤ s.dt * r.vlim (6 + i) ∧ -(s.dt * r.vlim (6 + i)) ≤ x (6 + i)) := by
  obtain ⟨taskCs, others, sc, n, ho, hrob, hcfg, -, -, -, hsat, -⟩ := A.hard
  obtain ⟨m, lim, cl, -, h2, -, rfl⟩ := other_spec r cons sc _ others ho
  rw [HardSat_append, HardSat_append] at hsat
  obtain ⟨l1, -, l2⟩ := limits_spec r sc lim h2 hq
  have := (l2 x).1 hsat.1.2
  rw [hcfg.velocityLimits, hcfg.dt] at l1
  rw [hcfg.velocityLimits, hcfg.jointLimits, hcfg.dt, hrob] at this
  exact ⟨l1, this⟩

theorem Accepted.masks {env : QPEnv K} {r : Robot K} {tasks : List (Task K)} {cons : List (KConstraint K)} {apply : Bool}
    {s s' : KState K} {dq x : Nat → K} (A : Accepted env r tasks cons apply s s' dq x) :
    (∀ d ∈ s.maskedDof, d < r.nv ∧ x d = 0) ∧ (s.maskedFbase = true → 6 ≤ r.nv ∧ ∀ k, k < 6 → x k = 0) := by
  obtain ⟨taskCs, others, sc, n, ho, hrob, hcfg, -, -, -, hsat, -⟩ := A.hard
  obtain ⟨m, lim, cl, h1, -, -, rfl⟩ := other_spec r cons sc _ others ho
  rw [HardSat_append, HardSat_append] at hsat
  obtain ⟨-, m1, m2, m3⟩ := mask_spec r.nv sc m h1
  have := (m3 x).1 hsat.1.1
  rw [hcfg.maskedDof] at m1
  rw [hcfg.maskedFbase] at m2
  rw [hcfg.maskedDof, hcfg.maskedFbase] at this
  exact ⟨fun d hd => ⟨m1 d hd, this.1 d hd⟩, fun h => ⟨m2 h, this.2 h⟩⟩

end
end Verif.Kinematics
