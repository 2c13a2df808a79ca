/-
Properties of the limits of the dynamics solver (C62-C64).
-/
import Mathlib.Tactic.FieldSimp
import Mathlib.Tactic.LinearCombination
import Mathlib.Tactic.Positivity
import Mathlib.Tactic.IntervalCases
import Mathlib.Tactic.NormNum
import Verif.Dynamics.ContactsProps
import Verif.Kinematics.ConstraintsProps

namespace Verif.Dynamics
open Finset Verif.Problem Verif.Kinematics

section
variable {K : Type} [Field K] [LinearOrder K] [IsStrictOrderedRing K]

/-! ## What the limit constraints mean -/

theorem geVec_spec (e : Expr K) (v : Vec K) (h : v.size = e.rows) :
    ∃ c, e.geVec v = .ok c ∧ c.priority = .hard ∧ ∀ x, c.Sat x ↔ ∀ i, i < e.rows → v.v i ≤ e.rowVal x i := by
  obtain ⟨⟨c, h1, h2⟩, -⟩ := C02_vector e v h
  refine ⟨c, h1, ?_, h2⟩
  unfold Expr.geVec Expr.ge at h1
  obtain ⟨d, -, h1⟩ := bind_ok h1
  cases h1
  rfl

/-- Value of a row at `x`. -/
def Row.val (row : Row K) (n : Nat) (x : Nat → K) : K := ∑ j ∈ range n, row.A j * x j + row.b

theorem unitRow_val (c n : Nat) (hc : c < n) (v b : K) (x : Nat → K) : (unitRow c v b).val n x = v * x c + b := by
  unfold Row.val unitRow
  rw [sum_eq_single_of_mem c (mem_range.2 hc) fun j _ hj => by simp [hj]]
  simp

theorem torqueLimit_spec (r : DynRobot K) (s : DState K) (tau : Expr K) (hr : tau.rows = r.nv) (l : List (Constr K))
    (h : torqueLimitConstraints r s tau = .ok l) (x : Nat → K) :
    HardSat l x ↔ (s.torqueLimits = true → ∀ i, 6 ≤ i → i < r.nv → |tau.rowVal x i| ≤ (s.overrides i).getD (r.effort i)) := by
  unfold torqueLimitConstraints at h
  obtain ⟨a1, a2⟩ := addIf_ok h
  cases ht : s.torqueLimits with
  | false => rw [a2 ht]; simp [HardSat_nil]
  | true =>
    obtain ⟨a, h1, h⟩ := bind_ok (a1 ht)
    obtain ⟨u, h2, h⟩ := bind_ok h
    obtain ⟨c1, h3, h⟩ := bind_ok h
    obtain ⟨lo, h4, h⟩ := bind_ok h
    obtain ⟨c2, h5, h⟩ := bind_ok h
    cases h
    obtain ⟨s1, s2, -, s4⟩ := slice_rest_ok (start := 6) h1
    rw [hr] at s1 s2
    have hn : ((r.nv : Int) - 6).toNat = r.nv - 6 := by omega
    unfold bottomRows at h2 h4
    rw [if_pos (by omega)] at h2 h4
    cases h2; cases h4
    obtain ⟨k1, e1, p1, q1⟩ := leVec_spec a ⟨((r.nv : Int) - 6).toNat, fun i => (s.overrides (r.nv - ((r.nv : Int) - 6).toNat + i)).getD (r.effort (r.nv - ((r.nv : Int) - 6).toNat + i))⟩
      (show ((r.nv : Int) - 6).toNat = a.rows by omega)
    rw [e1] at h3; cases h3
    obtain ⟨k2, e2, p2, q2⟩ := geVec_spec a ⟨((r.nv : Int) - 6).toNat, fun i => -(s.overrides (r.nv - ((r.nv : Int) - 6).toNat + i)).getD (r.effort (r.nv - ((r.nv : Int) - 6).toNat + i))⟩
      (show ((r.nv : Int) - 6).toNat = a.rows by omega)
    rw [e2] at h5; cases h5
    rw [HardSat_pair _ _ p1 p2, q1, q2]
    simp only [s2, s4, hn]
    constructor
    · rintro ⟨H1, H2⟩ - i h6 hi
      have := H1 (i - 6) (by omega)
      have := H2 (i - 6) (by omega)
      rw [show 6 + (i - 6) = i by omega, show r.nv - (r.nv - 6) + (i - 6) = i by omega] at *
      exact abs_le.2 ⟨by assumption, by assumption⟩
    · intro H
      refine ⟨fun i hi => ?_, fun i hi => ?_⟩ <;>
      · have := abs_le.1 (H trivial (6 + i) (by omega) (by omega))
        rw [show r.nv - (r.nv - 6) + i = 6 + i by omega]
        first | exact this.1 | exact this.2

theorem getD_eq {α : Type} (l : List α) (d : α) {i : Nat} (hi : i < l.length) : l.getD i d = l[i] := by
  simp [hi]

theorem getD_row_mem (rows : List (Row K)) (P : Row K → Prop) :
    (∀ i, i < rows.length → P (rows.getD i ⟨fun _ => 0, 0⟩)) ↔ ∀ row ∈ rows, P row := by
  constructor
  · intro H row hrow
    obtain ⟨i, hi, rfl⟩ := List.mem_iff_getElem.1 hrow
    have := H i hi
    rwa [getD_eq _ _ hi] at this
  · intro H i hi
    rw [getD_eq _ _ hi]
    exact H _ (List.getElem_mem hi)

/-- Meaning of `compute_limits_inequalities` when it returns. -/
theorem limitConstraints_spec (sqrt : K → K) (r : DynRobot K) (s : DState K) (n : Nat) (tau : Expr K)
    (hr : tau.rows = r.nv) (l : List (Constr K)) (h : limitConstraints sqrt r s n tau = .ok l) (x : Nat → K) :
    ¬ ((s.jointLimits = true ∨ s.velocityLimits = true ∨ s.velocityVsTorque = true) ∧ s.dt = 0) ∧
    (HardSat l x ↔
      (s.torqueLimits = true → ∀ i, 6 ≤ i → i < r.nv → |tau.rowVal x i| ≤ (s.overrides i).getD (r.effort i)) ∧
      ∀ k, k + 6 < r.nv → ∀ row ∈ limitRows sqrt r s tau k, row.val n x ≤ 0) := by
  unfold limitConstraints at h
  obtain ⟨u, h1, h⟩ := bind_ok h
  obtain ⟨t, h2, h⟩ := bind_ok h
  obtain ⟨j, h3, h⟩ := bind_ok h
  cases h
  constructor
  · intro hc
    unfold checkDt at h1
    rw [if_pos hc] at h1
    cases h1
  rw [HardSat_append, torqueLimit_spec r s tau hr t h2]
  refine and_congr_right fun _ => ?_
  have hmem : (∀ k, k + 6 < r.nv → ∀ row ∈ limitRows sqrt r s tau k, row.val n x ≤ 0) ↔
      ∀ row ∈ (List.range (r.nv - 6)).flatMap (limitRows sqrt r s tau), row.val n x ≤ 0 := by
    simp only [List.mem_flatMap, List.mem_range]
    constructor
    · rintro H row ⟨k, hk, hrow⟩
      exact H k (by omega) row hrow
    · intro H k hk row hrow
      exact H row ⟨k, by omega, hrow⟩
  rw [hmem]
  obtain ⟨j1, j2⟩ := addIf_ok h3
  by_cases hcnt : 0 < limitCount r.nv s
  · have hj := j1 (decide_eq_true hcnt)
    unfold jointConstraints at hj
    obtain ⟨e, e1, hj⟩ := bind_ok hj
    obtain ⟨c, e2, hj⟩ := bind_ok hj
    cases hj
    unfold rowsExpr at e1
    split at e1
    · rename_i hlen
      cases e1
      obtain ⟨c', c1, -, -, c4⟩ := leDouble_spec (⟨limitCount r.nv s, n,
        fun i j => (((List.range (r.nv - 6)).flatMap (limitRows sqrt r s tau)).getD i ⟨fun _ => 0, 0⟩).A j,
        fun i => (((List.range (r.nv - 6)).flatMap (limitRows sqrt r s tau)).getD i ⟨fun _ => 0, 0⟩).b⟩ : Expr K) 0
      rw [c1] at e2; cases e2
      have hp : c.priority = .hard := by unfold Expr.leDouble at c1; exact le_priority c1
      rw [HardSat_single, show (c.priority = .hard → c.Sat x) ↔ c.Sat x from ⟨fun H => H hp, fun H _ => H⟩, c4]
      show (∀ i, i < limitCount r.nv s → _) ↔ _
      rw [← hlen, ← getD_row_mem]
      rfl
    · cases e1
  · rw [j2 (decide_eq_false hcnt)]
    have hnil : (List.range (r.nv - 6)).flatMap (limitRows sqrt r s tau) = [] := by
      unfold limitCount at hcnt
      by_cases h6 : r.nv - 6 = 0
      · rw [h6]; rfl
      · have hJ : s.jointLimits = false := by
          by_contra hne
          rw [if_pos (by simpa using hne)] at hcnt
          omega
        have hV : ¬ (s.velocityLimits = true ∨ s.velocityVsTorque = true) := by
          intro hne
          rw [if_pos hne] at hcnt
          omega
        push_neg at hV
        have : ∀ k, limitRows sqrt r s tau k = [] := by
          intro k
          unfold limitRows
          simp [hJ, hV.1, hV.2]
        simp [this]
    rw [hnil]
    simp [HardSat_nil]

/-- The limit constraints of a successful solve are satisfied by the point it reads its result from. -/
theorem solve_limits (env : DEnv K) (hS : env.toQPEnv.Sound) (r : DynRobot K) (tasks : List (DTask K))
    (contacts : List (Contact K)) (cons : List (DConstraint K)) (integrate : Bool) (s : DState K) (p : Built K)
    (x : Nat → K) (hb : build env r tasks contacts cons s = .ok p) (hsat : env.toQPEnv.Sound → HardSat p.cs x) :
    ¬ ((s.jointLimits = true ∨ s.velocityLimits = true ∨ s.velocityVsTorque = true) ∧ s.dt = 0) ∧
    (s.torqueLimits = true → ∀ i, 6 ≤ i → i < r.nv → |p.tau.rowVal x i| ≤ (s.overrides i).getD (r.effort i)) ∧
    ∀ k, k + 6 < r.nv → ∀ row ∈ limitRows env.sqrt r s p.tau k, row.val p.n x ≤ 0 := by
  have P := build_spec env r tasks contacts cons s p hb
  obtain ⟨cm, cc, cl, mats, ct, cu, cf, c, hcs, -, -, hl, -⟩ := P.parts
  obtain ⟨h1, h2⟩ := limitConstraints_spec env.sqrt r s p.n p.tau P.tauRows cl hl x
  refine ⟨h1, h2.1 fun k hk hp => hsat hS k ?_ hp⟩
  rw [hcs]
  simp [hk]

/-! ## C64 -/

/-- **C64.** After a successful solve: with torque limits, every actuated torque is within its limit, the overridden
one if there is one; with velocity limits (and not the torque-dependent ones), the velocity after the step is within
its limit; with velocity-vs-torque limits, the next velocity and the torque satisfy
`|v / v_max + tau / tau_max| ≤ 1`, with the limits of the model (an overridden torque limit is not used there). -/
theorem C64 (env : DEnv K) (hS : env.toQPEnv.Sound) (r : DynRobot K) (tasks : List (DTask K))
    (contacts : List (Contact K)) (cons : List (DConstraint K)) (integrate : Bool) (s : DState K) (rs : RState K)
    (res : Result K) (h : solve env r tasks contacts cons integrate s = (rs, .ok res)) (hok : res.success = true) :
    (s.torqueLimits = true → ∀ i, 6 ≤ i → i < r.nv →
      |res.tau i| ≤ (match s.overrides i with | some limit => limit | none => r.effort i)) ∧
    (s.velocityLimits = true → s.velocityVsTorque = false → ∀ i, 6 ≤ i → i < r.nv →
      |s.robot.qd i + s.dt * res.qdd i| ≤ r.vlim i) ∧
    (s.velocityVsTorque = true → ∀ i, 6 ≤ i → i < r.nv → 0 < r.vlim i → 0 < r.effort i →
      |(s.robot.qd i + s.dt * res.qdd i) / r.vlim i + res.tau i / r.effort i| ≤ 1) := by
  rcases solve_cases env r tasks contacts cons integrate s rs _ h with ⟨-, hf⟩ | ⟨p, x, hb, hres, -, -, hsat, -⟩
  · rw [hf res rfl] at hok; cases hok
  cases hres
  have P := build_spec env r tasks contacts cons s p hb
  obtain ⟨-, hT, hR⟩ := solve_limits env hS r tasks contacts cons integrate s p x hb hsat
  have hn := P.chain.le
  have hq : ∀ i, i < r.nv → (readResult p.qdd p.js p.tau x).qdd i = x i := by
    intro i hi
    show p.qdd.rowVal x i = _
    rw [P.qdd, qddExpr_rowVal _ _ _ hi]
  refine ⟨fun ht i h6 hi => ?_, fun hv hvt i h6 hi => ?_, fun hvt i h6 hi hv0 he0 => ?_⟩
  · have := hT ht i h6 hi
    show |p.tau.rowVal x i| ≤ _
    cases ho : s.overrides i <;> rw [ho] at this <;> exact this
  · rw [hq i hi]
    obtain ⟨k, rfl⟩ : ∃ k, i = k + 6 := ⟨i - 6, by omega⟩
    have H := hR k hi
    unfold limitRows at H
    simp only [hvt, hv, Bool.false_eq_true, if_false, if_true] at H
    have h1 := H (unitRow (k + 6) s.dt (-(r.vlim (k + 6)) + s.robot.qd (k + 6))) (by simp)
    have h2 := H (unitRow (k + 6) (-s.dt) (-(r.vlim (k + 6)) - s.robot.qd (k + 6))) (by simp)
    rw [unitRow_val _ _ (by omega)] at h1 h2
    rw [abs_le]
    constructor <;> linarith
  · rw [hq i hi]
    obtain ⟨k, rfl⟩ : ∃ k, i = k + 6 := ⟨i - 6, by omega⟩
    have H := hR k hi
    unfold limitRows at H
    simp only [hvt, if_true] at H
    have hpick : ∀ (c : K), ∑ j ∈ range p.n, (if j = k + 6 then c else 0) * x j = c * x (k + 6) := by
      intro c
      rw [sum_eq_single_of_mem (k + 6) (mem_range.2 (by omega)) fun j _ hj => by simp [hj]]
      simp
    have hA : ∀ (ρ : K), ∑ j ∈ range p.n, ρ * p.tau.A (k + 6) j * x j + ρ * p.tau.b (k + 6) =
        ρ * p.tau.rowVal x (k + 6) := by
      intro ρ
      unfold Expr.rowVal
      rw [P.tauCols, mul_add, mul_sum]
      congr 1
      exact sum_congr rfl fun j _ => by ring
    have h1 := H (⟨_, _⟩ : Row K) (List.mem_append_left _ (List.mem_cons_self))
    have h2 := H (⟨_, _⟩ : Row K) (List.mem_append_left _ (List.mem_cons_of_mem _ List.mem_cons_self))
    unfold Row.val at h1 h2
    simp only [add_mul, sub_mul, sum_add_distrib, sum_sub_distrib, hpick] at h1 h2
    have e1 := hA (r.vlim (k + 6) / r.effort (k + 6))
    have e2 := hA (-(r.vlim (k + 6) / r.effort (k + 6)))
    show |(s.robot.qd (k + 6) + s.dt * x (k + 6)) / r.vlim (k + 6) + p.tau.rowVal x (k + 6) / r.effort (k + 6)| ≤ 1
    have hb1 : s.robot.qd (k + 6) + s.dt * x (k + 6) + r.vlim (k + 6) / r.effort (k + 6) * p.tau.rowVal x (k + 6) ≤
        r.vlim (k + 6) := by linarith
    have hb2 : -(r.vlim (k + 6)) ≤
        s.robot.qd (k + 6) + s.dt * x (k + 6) + r.vlim (k + 6) / r.effort (k + 6) * p.tau.rowVal x (k + 6) := by linarith
    have heq : (s.robot.qd (k + 6) + s.dt * x (k + 6)) / r.vlim (k + 6) + p.tau.rowVal x (k + 6) / r.effort (k + 6) =
        (s.robot.qd (k + 6) + s.dt * x (k + 6) + r.vlim (k + 6) / r.effort (k + 6) * p.tau.rowVal x (k + 6)) /
          r.vlim (k + 6) := by
      field_simp
    rw [heq, abs_div, abs_of_pos hv0, div_le_one hv0]
    exact abs_le.2 ⟨hb2, hb1⟩

/-- C64, last part: with a limit that needs it and no `dt`, a solve raises or has raised before. -/
theorem C64_dt (env : DEnv K) (r : DynRobot K) (tasks : List (DTask K)) (contacts : List (Contact K))
    (cons : List (DConstraint K)) (integrate : Bool) (s : DState K) (hdt : s.dt = 0)
    (hl : s.jointLimits = true ∨ s.velocityLimits = true ∨ s.velocityVsTorque = true) :
    ∃ e, solve env r tasks contacts cons integrate s = (s.robot, .error e) := by
  unfold solve
  cases hb : build env r tasks contacts cons s with
  | error e => exact ⟨e, rfl⟩
  | ok p =>
    exfalso
    have P := build_spec env r tasks contacts cons s p hb
    obtain ⟨cm, cc, cl, mats, ct, cu, cf, c, hcs, -, -, hlim, -⟩ := P.parts
    exact (limitConstraints_spec env.sqrt r s p.n p.tau P.tauRows cl hlim (fun _ => 0)).1 ⟨hl, hdt⟩

/-- C64: without anything else that can raise (here: no task, contact, constraint or extra force), the exception is the
documented `runtime_error`. -/
theorem C64_dt_exception (env : DEnv K) (r : DynRobot K) (integrate : Bool) (s : DState K) (hdt : s.dt = 0)
    (hm : s.maskedFbase = false) (he : s.extraForce = none)
    (hl : s.jointLimits = true ∨ s.velocityLimits = true ∨ s.velocityVsTorque = true) :
    solve env r [] [] [] integrate s = (s.robot, .error .runtimeError) := by
  have hb : build env r [] [] [] s = .error .runtimeError := by
    have hlim : ∀ n t, limitConstraints env.sqrt r s n t = .error .runtimeError := by
      intro n t
      unfold limitConstraints checkDt
      rw [if_pos ⟨hl, hdt⟩]
      rfl
    unfold build
    simp only [qddExpr_eq, hm, addIf, Bool.false_eq_true, if_false]
    have ht : ∃ t, bareTau r s ⟨r.nv, r.nv, fun k j => if j = k then 1 else 0, fun _ => 0⟩ = .ok t ∧ t.cols = r.nv := by
      unfold bareTau Expr.matMul
      rw [if_pos rfl]
      simp only [bind, Except.bind, Expr.addVec, addExtra, he]
      unfold biasVec
      simp
    obtain ⟨t, ht, hc⟩ := ht
    simp only [bind, Except.bind, ht, List.mapM_nil, pure, Except.pure, addContacts, fullTau, hc, le_refl, if_true,
      writeContacts, hlim]
  unfold solve
  rw [hb]

/-! ## C62: how far a joint limit can be exceeded -/

/-- A square root that is not too large (`std::sqrt` up to rounding downwards). -/
def SqrtOK (sqrt : K → K) : Prop := ∀ x, 0 ≤ x → 0 ≤ sqrt x ∧ sqrt x ^ 2 ≤ x

/-- One call of `solve(true)` with everything it depends on; the robot of `cfg` is replaced by the current one. -/
structure DCall (K : Type) where
  env : DEnv K
  tasks : List (DTask K)
  contacts : List (Contact K)
  cons : List (DConstraint K)
  cfg : DState K

/-- A sequence of calls. -/
def runCalls (r : DynRobot K) : RState K → List (DCall K) → RState K
  | rs, [] => rs
  | rs, c :: cs => runCalls r (solve c.env r c.tasks c.contacts c.cons true { c.cfg with robot := rs }).1 cs

/-- Once a limit is exceeded by `o > 0` with velocity `v`, braking at `a` keeps the excess at most `a h²`. -/
def BrakeInv (a h o v : K) : Prop := 0 < o → ∀ m : Nat, o + m * h * v - a * h ^ 2 * (m * (m + 1) / 2) ≤ a * h ^ 2

theorem brake_step (a h o v v' : K) (hh : 0 < h) (ha : 0 ≤ a) (hI : BrakeInv a h o v)
    (hin : 0 < o → v' ≤ v - a * h) (hout : o ≤ 0 → ∃ s, 0 ≤ s ∧ s ^ 2 ≤ 2 * (-o) * a ∧ v' ≤ s) :
    BrakeInv a h (o + h * v') v' := by
  intro hpos m
  have hm : (0 : K) ≤ m := Nat.cast_nonneg m
  rcases lt_or_ge 0 o with ho | ho
  · have h1 := hI ho (m + 1)
    have h2 := hin ho
    push_cast at h1
    have h3 : (m + 1) * h * v' ≤ (m + 1) * h * (v - a * h) := mul_le_mul_of_nonneg_left h2 (by positivity)
    nlinarith [h1, h3]
  · obtain ⟨s, s0, s1, s2⟩ := hout ho
    rcases eq_or_lt_of_le ha with ha0 | ha0
    · subst ha0
      have : s ^ 2 ≤ 0 := by nlinarith
      have hs : s = 0 := by
        have : s ^ 2 = 0 := le_antisymm this (sq_nonneg s)
        exact pow_eq_zero_iff (two_ne_zero) |>.1 this
      nlinarith
    · -- s = t a h
      have hah : 0 < a * h := mul_pos ha0 hh
      obtain ⟨t, rfl⟩ : ∃ t, s = t * (a * h) := ⟨s / (a * h), by field_simp⟩
      have t0 : 0 ≤ t := by
        by_contra hneg
        push_neg at hneg
        nlinarith
      have hoB : o ≤ -(t ^ 2 / 2) * (a * h ^ 2) := by
        have : t ^ 2 * (a * h) ^ 2 ≤ 2 * -o * a := by nlinarith
        have h2 : (t ^ 2 * (a * h ^ 2)) * a ≤ (2 * -o) * a := by nlinarith
        have := le_of_mul_le_mul_right h2 ha0
        linarith
      have hv : h * v' ≤ t * (a * h ^ 2) := by nlinarith
      have hpos2 : 0 < a * h ^ 2 := by positivity
      have ht2 : t < 2 := by
        by_contra hge
        push_neg at hge
        have : 0 < (t - t ^ 2 / 2) * (a * h ^ 2) := by nlinarith
        have := (mul_pos_iff_of_pos_right hpos2).1 this
        nlinarith
      have hf : -(t ^ 2 / 2) + (m + 1) * t - m * (m + 1) / 2 ≤ 1 := by
        rcases Nat.eq_zero_or_pos m with rfl | hm1
        · push_cast
          nlinarith [sq_nonneg (t - 1)]
        · have hm1' : (1 : K) ≤ m := by exact_mod_cast hm1
          have key : ((m : K) - 1) * (m - 2) ≥ 0 := by
            rcases Nat.lt_or_ge m 2 with h | h
            · have : m = 1 := by omega
              subst this; simp
            · have : (2 : K) ≤ m := by exact_mod_cast h
              nlinarith
          nlinarith [mul_nonneg (sub_nonneg.2 hm1') (sub_nonneg.2 ht2.le), sq_nonneg (2 - t)]
      have h5 : (m + 1) * (h * v') ≤ (m + 1) * (t * (a * h ^ 2)) := mul_le_mul_of_nonneg_left hv (by positivity)
      have h6 := mul_le_mul_of_nonneg_right hf hpos2.le
      nlinarith

/-- What the joint-limit rows accept, after a successful solve. -/
theorem accepted_ok (env : DEnv K) (hS : env.toQPEnv.Sound) (r : DynRobot K) (tasks : List (DTask K))
    (contacts : List (Contact K)) (cons : List (DConstraint K)) (s : DState K) (hj : s.jointLimits = true)
    (k : Nat) (hk : k + 6 < r.nv) (hint : ∀ q v, r.integrate q v (k + 7) = q (k + 7) + v (k + 6))
    (hok : ∃ res, (solve env r tasks contacts cons true s).2 = .ok res ∧ res.success = true) :
    ∃ v', (solve env r tasks contacts cons true s).1.qd (k + 6) = v' ∧
      (solve env r tasks contacts cons true s).1.q (k + 7) = s.robot.q (k + 7) + s.dt * v' ∧
      (0 < s.robot.q (k + 7) - r.upper (k + 7) → 0 ≤ s.dt → v' ≤ s.robot.qd (k + 6) - s.qddSafe (k + 6) * s.dt) ∧
      (s.robot.q (k + 7) - r.upper (k + 7) ≤ 0 →
        v' ≤ env.sqrt (2 * (r.upper (k + 7) - s.robot.q (k + 7)) * s.qddSafe (k + 6))) ∧
      (0 < r.lower (k + 7) - s.robot.q (k + 7) → 0 ≤ s.dt → -v' ≤ -s.robot.qd (k + 6) - s.qddSafe (k + 6) * s.dt) ∧
      (r.lower (k + 7) - s.robot.q (k + 7) ≤ 0 →
        -v' ≤ env.sqrt (2 * |r.lower (k + 7) - s.robot.q (k + 7)| * s.qddSafe (k + 6))) := by
  rcases hsol : solve env r tasks contacts cons true s with ⟨rs, res⟩
  rcases solve_cases env r tasks contacts cons true s rs res hsol with ⟨-, hf⟩ | ⟨p, x, hb, -, -, hrs, hsat, -⟩
  · obtain ⟨o, ho, hsucc⟩ := hok
    rw [hsol] at ho
    cases ho
    rw [hf o rfl] at hsucc
    cases hsucc
  have P := build_spec env r tasks contacts cons s p hb
  have hn := P.chain.le
  obtain ⟨-, -, hR⟩ := solve_limits env hS r tasks contacts cons true s p x hb hsat
  have H := hR k hk
  have hx : p.qdd.rowVal x (k + 6) = x (k + 6) := by rw [P.qdd, qddExpr_rowVal _ _ _ hk]
  simp only [if_true] at hrs
  have e1 : rs.qd (k + 6) = s.robot.qd (k + 6) + s.dt * x (k + 6) := by
    rw [hrs]
    simp only [applyQdd, integrateRobot]
    rw [if_neg (by omega), hx]
  have e2 : rs.q (k + 7) = s.robot.q (k + 7) + s.dt * rs.qd (k + 6) := by
    rw [hrs]
    simp only [applyQdd, integrateRobot]
    rw [hint]
    ring
  unfold limitRows at H
  simp only [hj, if_true] at H
  have hu := H _ (List.mem_append_right _ List.mem_cons_self)
  have hl := H _ (List.mem_append_right _ (List.mem_cons_of_mem _ List.mem_cons_self))
  refine ⟨rs.qd (k + 6), rfl, e2, fun h1 h2 => ?_, fun h1 => ?_, fun h1 h2 => ?_, fun h1 => ?_⟩
  · rw [if_pos (by linarith : r.upper (k + 7) < s.robot.q (k + 7)), unitRow_val _ _ (by omega)] at hu
    rw [e1]
    nlinarith
  · rw [if_neg (by linarith : ¬ r.upper (k + 7) < s.robot.q (k + 7)), unitRow_val _ _ (by omega)] at hu
    rw [e1]
    linarith
  · rw [if_pos (by linarith : s.robot.q (k + 7) < r.lower (k + 7)), unitRow_val _ _ (by omega)] at hl
    rw [e1]
    nlinarith
  · rw [if_neg (by linarith : ¬ s.robot.q (k + 7) < r.lower (k + 7)), unitRow_val _ _ (by omega)] at hl
    rw [e1]
    linarith

/-- The accelerations accepted by the joint-limit rows. -/
theorem accepted (env : DEnv K) (hS : env.toQPEnv.Sound) (r : DynRobot K) (tasks : List (DTask K))
    (contacts : List (Contact K)) (cons : List (DConstraint K)) (s : DState K) (hj : s.jointLimits = true)
    (k : Nat) (hk : k + 6 < r.nv) (hint : ∀ q v, r.integrate q v (k + 7) = q (k + 7) + v (k + 6)) :
    (solve env r tasks contacts cons true s).1 = s.robot ∨
    ∃ v', (solve env r tasks contacts cons true s).1.qd (k + 6) = v' ∧
      (solve env r tasks contacts cons true s).1.q (k + 7) = s.robot.q (k + 7) + s.dt * v' ∧
      (0 < s.robot.q (k + 7) - r.upper (k + 7) → 0 ≤ s.dt → v' ≤ s.robot.qd (k + 6) - s.qddSafe (k + 6) * s.dt) ∧
      (s.robot.q (k + 7) - r.upper (k + 7) ≤ 0 →
        v' ≤ env.sqrt (2 * (r.upper (k + 7) - s.robot.q (k + 7)) * s.qddSafe (k + 6))) ∧
      (0 < r.lower (k + 7) - s.robot.q (k + 7) → 0 ≤ s.dt → -v' ≤ -s.robot.qd (k + 6) - s.qddSafe (k + 6) * s.dt) ∧
      (r.lower (k + 7) - s.robot.q (k + 7) ≤ 0 →
        -v' ≤ env.sqrt (2 * |r.lower (k + 7) - s.robot.q (k + 7)| * s.qddSafe (k + 6))) := by
  rcases hsol : solve env r tasks contacts cons true s with ⟨rs, res⟩
  rcases solve_cases env r tasks contacts cons true s rs res hsol with ⟨h, -⟩ | ⟨p, x, hb, hres, -, -, -, -⟩
  · exact .inl h
  · have h := accepted_ok env hS r tasks contacts cons s hj k hk hint ⟨_, by rw [hsol, hres], rfl⟩
    rw [hsol] at h
    exact .inr h

/-- **C62.** For every sequence of integrated steps (whatever the tasks, contacts, constraints and external solver of each
step, provided the joint limits are enabled), a joint starting inside its limits is never beyond them by more than
`qdd_safe dt²`. The joint need not start at rest. `hint` is the contract of pinocchio for a one-dimensional joint. -/
theorem C62 (r : DynRobot K) (k : Nat) (hk : k + 6 < r.nv)
    (hint : ∀ q v, r.integrate q v (k + 7) = q (k + 7) + v (k + 6)) (a h : K) (ha : 0 ≤ a) (hh : 0 < h)
    (rs : RState K) (hu : rs.q (k + 7) ≤ r.upper (k + 7)) (hl : r.lower (k + 7) ≤ rs.q (k + 7)) (calls : List (DCall K))
    (hc : ∀ c ∈ calls, c.env.toQPEnv.Sound ∧ SqrtOK c.env.sqrt ∧ c.cfg.jointLimits = true ∧ c.cfg.dt = h ∧
      c.cfg.qddSafe (k + 6) = a) :
    (runCalls r rs calls).q (k + 7) ≤ r.upper (k + 7) + a * h ^ 2 ∧
    r.lower (k + 7) - a * h ^ 2 ≤ (runCalls r rs calls).q (k + 7) := by
  have main : ∀ (calls : List (DCall K)) (rs : RState K),
      (∀ c ∈ calls, c.env.toQPEnv.Sound ∧ SqrtOK c.env.sqrt ∧ c.cfg.jointLimits = true ∧ c.cfg.dt = h ∧
        c.cfg.qddSafe (k + 6) = a) →
      BrakeInv a h (rs.q (k + 7) - r.upper (k + 7)) (rs.qd (k + 6)) →
      BrakeInv a h (r.lower (k + 7) - rs.q (k + 7)) (-rs.qd (k + 6)) →
      BrakeInv a h ((runCalls r rs calls).q (k + 7) - r.upper (k + 7)) ((runCalls r rs calls).qd (k + 6)) ∧
      BrakeInv a h (r.lower (k + 7) - (runCalls r rs calls).q (k + 7)) (-(runCalls r rs calls).qd (k + 6)) := by
    intro calls
    induction calls with
    | nil => intro rs _ h1 h2; exact ⟨h1, h2⟩
    | cons c cs ih =>
      intro rs hc h1 h2
      obtain ⟨c1, c2, c3, c4, c5⟩ := hc c (by simp)
      unfold runCalls
      have hcs : ∀ c ∈ cs, _ := fun d hd => hc d (by simp [hd])
      have d1 : ({ c.cfg with robot := rs } : DState K).jointLimits = true := c3
      have d2 : ({ c.cfg with robot := rs } : DState K).dt = h := c4
      have d3 : ({ c.cfg with robot := rs } : DState K).qddSafe (k + 6) = a := c5
      have d4 : ({ c.cfg with robot := rs } : DState K).robot = rs := rfl
      generalize ({ c.cfg with robot := rs } : DState K) = st at d1 d2 d3 d4 ⊢
      subst d4
      rcases accepted c.env c1 r c.tasks c.contacts c.cons st d1 k hk hint with hsame |
        ⟨v', e1, e2, a1, a2, a3, a4⟩
      · rw [hsame]
        exact ih _ hcs h1 h2
      · rw [d2] at e2 a1 a3; rw [d3] at a1 a2 a3 a4
        refine ih _ hcs ?_ ?_
        · rw [e1, e2, show st.robot.q (k + 7) + h * v' - r.upper (k + 7) = st.robot.q (k + 7) - r.upper (k + 7) + h * v' by ring]
          refine brake_step a h _ _ _ hh ha h1 (fun ho => a1 ho hh.le) fun ho => ?_
          obtain ⟨s1, s2⟩ := c2 (2 * (r.upper (k + 7) - st.robot.q (k + 7)) * a)
            (mul_nonneg (mul_nonneg zero_le_two (by linarith)) ha)
          exact ⟨_, s1, by rw [neg_sub]; exact s2, a2 ho⟩
        · rw [e1, e2, show r.lower (k + 7) - (st.robot.q (k + 7) + h * v') = r.lower (k + 7) - st.robot.q (k + 7) + h * (-v') by ring]
          refine brake_step a h _ _ _ hh ha h2 (fun ho => a3 ho hh.le) fun ho => ?_
          obtain ⟨s1, s2⟩ := c2 (2 * |r.lower (k + 7) - st.robot.q (k + 7)| * a)
            (mul_nonneg (mul_nonneg zero_le_two (abs_nonneg _)) ha)
          refine ⟨_, s1, ?_, a4 ho⟩
          rw [← abs_of_nonpos ho]; exact s2
  obtain ⟨h1, h2⟩ := main calls rs hc (fun ho => absurd ho (by linarith)) (fun ho => absurd ho (by linarith))
  have hb : 0 ≤ a * h ^ 2 := by positivity
  constructor
  · by_contra hne
    push_neg at hne
    have := h1 (by linarith) 0
    simp only [Nat.cast_zero] at this
    linarith
  · by_contra hne
    push_neg at hne
    have := h2 (by linarith) 0
    simp only [Nat.cast_zero] at this
    linarith

/-- C63 on the part of its domain where it holds: a step starting at `2 qdd_safe dt²` or more from a limit does not
exceed it. -/
theorem C63_partial (r : DynRobot K) (k : Nat) (hk : k + 6 < r.nv)
    (hint : ∀ q v, r.integrate q v (k + 7) = q (k + 7) + v (k + 6)) (env : DEnv K) (hS : env.toQPEnv.Sound)
    (hQ : SqrtOK env.sqrt) (tasks : List (DTask K)) (contacts : List (Contact K)) (cons : List (DConstraint K))
    (s : DState K) (hj : s.jointLimits = true) (hdt : 0 < s.dt) (ha : 0 ≤ s.qddSafe (k + 6))
    (hu : s.robot.q (k + 7) ≤ r.upper (k + 7) - 2 * s.qddSafe (k + 6) * s.dt ^ 2)
    (hl : r.lower (k + 7) + 2 * s.qddSafe (k + 6) * s.dt ^ 2 ≤ s.robot.q (k + 7)) :
    (solve env r tasks contacts cons true s).1.q (k + 7) ≤ r.upper (k + 7) ∧
    r.lower (k + 7) ≤ (solve env r tasks contacts cons true s).1.q (k + 7) := by
  have hB : 0 ≤ 2 * s.qddSafe (k + 6) * s.dt ^ 2 := by positivity
  have key : ∀ d w, 2 * s.qddSafe (k + 6) * s.dt ^ 2 ≤ d → w ≤ env.sqrt (2 * d * s.qddSafe (k + 6)) → s.dt * w ≤ d := by
    intro d w hd hw
    have hd0 : 0 ≤ d := hB.trans hd
    obtain ⟨s1, s2⟩ := hQ (2 * d * s.qddSafe (k + 6)) (by positivity)
    generalize env.sqrt (2 * d * s.qddSafe (k + 6)) = z at *
    have h1 : s.dt * w ≤ s.dt * z := mul_le_mul_of_nonneg_left hw hdt.le
    refine h1.trans (abs_le_of_sq_le_sq' ?_ hd0).2
    have : (s.dt * z) ^ 2 ≤ s.dt ^ 2 * (2 * d * s.qddSafe (k + 6)) := by
      rw [mul_pow]; exact mul_le_mul_of_nonneg_left s2 (sq_nonneg _)
    nlinarith
  rcases accepted env hS r tasks contacts cons s hj k hk hint with hsame | ⟨v', -, e2, -, a2, -, a4⟩
  · rw [hsame]; constructor <;> linarith
  · rw [e2]
    have h1 := key _ _ (by linarith : _ ≤ r.upper (k + 7) - s.robot.q (k + 7)) (a2 (by linarith))
    have h4 := a4 (by linarith)
    rw [abs_of_nonpos (by linarith), neg_sub] at h4
    have h2 := key _ _ (by linarith : _ ≤ s.robot.q (k + 7) - r.lower (k + 7)) h4
    constructor <;> linarith

end
end Verif.Dynamics
