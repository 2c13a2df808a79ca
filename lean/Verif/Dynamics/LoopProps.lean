/-
Repeated integrated solves with a hard joints task: exactly when the joints reach their targets (C190).
-/
import Verif.Dynamics.BackProps
import Mathlib.Analysis.SpecificLimits.Normed
import Mathlib.Analysis.Complex.Polynomial.Basic

namespace Verif.Dynamics
open Finset Verif.Problem Verif.Kinematics Filter

section
variable {K : Type} [Field K] [LinearOrder K] [IsStrictOrderedRing K]

/-! ## C190 -/

/-- Specification: the error and the velocity of a joint after a step of `h` seconds at the acceleration
`-kp error - kd velocity`, the velocity being integrated first. -/
def pdNext (kp kd h : K) (x : K × K) : K × K :=
  (x.1 + h * (x.2 + h * (-kp * x.1 - kd * x.2)), x.2 + h * (-kp * x.1 - kd * x.2))

/-- A call with time step `h`, in which a hard joints task with gains `kp` and `kd` has a constant target for the joint `name`. The
other tasks, the contacts, the constraints and the settings are arbitrary. -/
def Tracking (sqrt : K → K) (r : DynRobot K) (kp kd h : K) (name : String) (target : K) (j : Joint) (c : DCall K) : Prop :=
  c.env.toQPEnv.Sound ∧ c.env.sqrt = sqrt ∧ c.cfg.dt = h ∧ (c.cfg.maskedFbase = true → 6 ≤ j.idxV) ∧
  ∃ task ∈ c.tasks, task.priority = .hard ∧ task.tauTask = false ∧ ∃ calls : List (JointCall K),
    task.update = (jointsAfter kp kd calls).update c.env.sqrt r.toRobot ∧
    lastCall name calls.reverse = some ⟨name, target, 0, 0⟩

/-- One successful call. -/
theorem track_step (sqrt : K → K) (r : DynRobot K) (hn : ∀ j ∈ r.joints, j.idxV < r.nv) (kp kd h : K) (name : String) (target : K) (j : Joint)
    (hj : r.joints.find? (fun j => j.name = name) = some j)
    (hint : ∀ q v, r.integrate q v j.idxQ = q j.idxQ + v j.idxV) (c : DCall K) (hc : Tracking sqrt r kp kd h name target j c)
    (rs : RState K)
    (hok : ∃ res, (solve c.env r c.tasks c.contacts c.cons true { c.cfg with robot := rs }).2 = .ok res ∧ res.success = true)
    (rs' : RState K) (hrs : rs' = (solve c.env r c.tasks c.contacts c.cons true { c.cfg with robot := rs }).1) :
    (rs'.q j.idxQ - target, rs'.qd j.idxV) = pdNext kp (getKd sqrt kp kd) h (rs.q j.idxQ - target, rs.qd j.idxV) := by
  obtain ⟨hS, hsq, hdt, hm, task, ht, hp, htau, calls, hu, hlast⟩ := hc
  rcases hsol : solve c.env r c.tasks c.contacts c.cons true { c.cfg with robot := rs } with ⟨rs1, res⟩
  rw [hsol] at hok hrs
  obtain ⟨o, ho, hsucc⟩ := hok
  dsimp only at ho hrs
  subst ho hrs
  rcases solve_cases c.env r c.tasks c.contacts c.cons true _ rs' _ hsol with ⟨-, hf⟩ | ⟨p, x, hb, hres, -, hrs, -, -⟩
  · rw [hf o rfl] at hsucc
    cases hsucc
  · have P := build_spec c.env r c.tasks c.contacts c.cons _ p hb
    obtain ⟨cm, cc, cl, mats, ct, cu, cf, c', hcs, -, -, -, hmats, hct, -⟩ := P.parts
    obtain ⟨M, hM, -⟩ := zip_mem hmats ht
    have hM0 := hM
    rw [hu] at hM
    dsimp only at hM
    have hcols : M.cols = r.nv := by
      unfold JointsTask.update at hM
      obtain ⟨rows, -, h⟩ := bind_ok hM
      cases h
      rfl
    have hmet := C102 c.env hS r c.tasks c.contacts c.cons true _ rs' o hsol hsucc task ht hp M hM0 hcols
    rw [htau, if_neg (by decide)] at hmet
    have hacc := (joints_met c.env.sqrt r.toRobot hn kp kd calls rs M hM _).1 hmet name _ j hlast hj
    have ho : o.qdd = p.qdd.rowVal x := by
      cases hres
      rfl
    rw [ho, hsq] at hacc
    dsimp only at hacc
    have hq : ({ rs with qdd := fun i => if c.cfg.maskedFbase ∧ i < 6 then 0 else p.qdd.rowVal x i } : RState K).qdd j.idxV =
        kp * (target - rs.q j.idxQ) + getKd sqrt kp kd * (0 - rs.qd j.idxV) + 0 := by
      dsimp only
      rw [if_neg (fun h => absurd (hm h.1) (by omega)), hacc]
    rw [if_pos rfl] at hrs
    have e1 : rs'.qd j.idxV = rs.qd j.idxV + h * (kp * (target - rs.q j.idxQ) + getKd sqrt kp kd * (0 - rs.qd j.idxV) + 0) := by
      rw [hrs, ← hdt, ← hq]
      rfl
    have e2 : rs'.q j.idxQ = rs.q j.idxQ + rs'.qd j.idxV * h := by
      rw [hrs, ← hdt]
      exact hint _ _
    unfold pdNext
    rw [e2, e1, Prod.mk.injEq]
    constructor <;> ring

/-- **C190 (path).** Whatever the other tasks, the contacts, the constraints and the settings of each call, along successful integrated
solves the error and the velocity of a joint with a hard target follow the specified recursion. -/
theorem C190_path (sqrt : K → K) (r : DynRobot K) (hn : ∀ j ∈ r.joints, j.idxV < r.nv) (kp kd h : K) (name : String) (target : K)
    (j : Joint) (hj : r.joints.find? (fun j => j.name = name) = some j)
    (hint : ∀ q v, r.integrate q v j.idxQ = q j.idxQ + v j.idxV) (calls : List (DCall K)) (rs : RState K)
    (hc : ∀ c ∈ calls, Tracking sqrt r kp kd h name target j c) (hok : AllSucceed r rs calls) :
    ((runCalls r rs calls).q j.idxQ - target, (runCalls r rs calls).qd j.idxV) =
      (pdNext kp (getKd sqrt kp kd) h)^[calls.length] (rs.q j.idxQ - target, rs.qd j.idxV) := by
  induction calls generalizing rs with
  | nil => rfl
  | cons c cs ih =>
    rw [List.length_cons, Function.iterate_succ_apply,
      ← track_step sqrt r hn kp kd h name target j hj hint c (hc c List.mem_cons_self) rs hok.1 _ rfl]
    exact ih _ (fun d hd => hc d (List.mem_cons_of_mem _ hd)) hok.2

end

/-! ## Convergence of the recursion -/

/-- Roots of `z² - T z + D` with real coefficients, `D < 1` and positive values at 1 and -1, are inside the unit circle. -/
theorem jury (T D : ℝ) (h1 : 0 < 1 - T + D) (h2 : 0 < 1 + T + D) (h3 : D < 1) (l m : ℂ) (hs : l + m = T) (hp : l * m = D) :
    ‖l‖ < 1 := by
  have i1 : l.im + m.im = 0 := by simpa using congrArg Complex.im hs
  have i2 : l.re + m.re = T := by simpa using congrArg Complex.re hs
  have i3 : l.re * m.im + l.im * m.re = 0 := by simpa using congrArg Complex.im hp
  have i4 : l.re * m.re - l.im * m.im = D := by simpa using congrArg Complex.re hp
  have hsq : ‖l‖ ^ 2 = l.re ^ 2 + l.im ^ 2 := by
    rw [← Complex.normSq_eq_norm_sq, Complex.normSq_apply]
    ring
  have hlt : ‖l‖ ^ 2 < 1 := by
    have hm : m.im = -l.im := by linarith
    rw [hm] at i3 i4
    by_cases him : l.im = 0
    · rw [him] at i4 hsq
      rw [hsq]
      have f1 : 0 < (1 - l.re) * (1 - m.re) := by nlinarith
      have f2 : 0 < (1 + l.re) * (1 + m.re) := by nlinarith
      have a1 : l.re < 1 := by
        by_contra hc
        push Not at hc
        have : 1 < m.re := by nlinarith
        nlinarith
      have a2 : -1 < l.re := by
        by_contra hc
        push Not at hc
        have : m.re < -1 := by nlinarith
        nlinarith
      nlinarith
    · have : m.re = l.re := by
        have : l.im * (m.re - l.re) = 0 := by linarith
        rcases mul_eq_zero.1 this with h | h
        · exact absurd h him
        · linarith
      rw [this] at i4
      rw [hsq]
      nlinarith
  nlinarith [norm_nonneg l]

/-- A sequence with `eₙ₊₂ = T eₙ₊₁ - D eₙ` whose roots are inside the unit circle converges to 0. -/
theorem recurrence_tendsto (T D : ℝ) (h1 : 0 < 1 - T + D) (h2 : 0 < 1 + T + D) (h3 : D < 1) (e : ℕ → ℝ)
    (he : ∀ n, e (n + 2) = T * e (n + 1) - D * e n) : Tendsto e atTop (nhds 0) := by
  obtain ⟨l, hl⟩ : ∃ l : ℂ, l ^ 2 - T * l + D = 0 := by
    obtain ⟨s, hs⟩ := IsAlgClosed.exists_pow_nat_eq ((T : ℂ) ^ 2 - 4 * D) (show 0 < 2 by norm_num)
    refine ⟨(T + s) / 2, ?_⟩
    linear_combination hs / 4
  obtain ⟨m, hm⟩ : ∃ m : ℂ, m = T - l := ⟨_, rfl⟩
  have hsum : l + m = T := by rw [hm]; ring
  have hprod : l * m = D := by rw [hm]; linear_combination -hl
  have nl := jury T D h1 h2 h3 l m hsum hprod
  have nm := jury T D h1 h2 h3 m l (by rw [add_comm]; exact hsum) (by rw [mul_comm]; exact hprod)
  obtain ⟨R, hR0, hR1, hlR, hmR⟩ : ∃ R : ℝ, 0 < R ∧ R < 1 ∧ ‖l‖ ≤ R ∧ ‖m‖ ≤ R := by
    refine ⟨max (max ‖l‖ ‖m‖) (1 / 2), lt_of_lt_of_le (by norm_num) (le_max_right _ _), ?_, ?_, ?_⟩
    · exact max_lt (max_lt nl nm) (by norm_num)
    · exact (le_max_left _ _).trans (le_max_left _ _)
    · exact (le_max_right _ _).trans (le_max_left _ _)
  have hw : ∀ n, ((e (n + 1) : ℂ) - l * e n) = m ^ n * ((e 1 : ℂ) - l * e 0) := by
    intro n
    induction n with
    | zero => simp
    | succ n ih =>
      rw [pow_succ, he n]
      push_cast
      have : m ^ n * m * ((e 1 : ℂ) - l * e 0) = m * (m ^ n * ((e 1 : ℂ) - l * e 0)) := by ring
      rw [this, ← ih]
      linear_combination (-(e (n + 1) : ℂ)) * hsum + (e n : ℂ) * hprod
  obtain ⟨W, hW⟩ : ∃ W : ℝ, W = ‖((e 1 : ℂ) - l * e 0)‖ := ⟨_, rfl⟩
  have hW0 : 0 ≤ W := by rw [hW]; exact norm_nonneg _
  have hb : ∀ n : ℕ, |e n| ≤ |e 0| * R ^ n + (W / R) * (n * R ^ n) := by
    intro n
    induction n with
    | zero => simp
    | succ n ih =>
      have h0 : (e (n + 1) : ℂ) = l * e n + m ^ n * ((e 1 : ℂ) - l * e 0) := by rw [← hw n]; ring
      have h1 : |e (n + 1)| ≤ ‖l‖ * |e n| + ‖m‖ ^ n * W := by
        have := congrArg norm h0
        rw [Complex.norm_real, Real.norm_eq_abs] at this
        rw [this, hW]
        refine (norm_add_le _ _).trans ?_
        rw [_root_.norm_mul, _root_.norm_mul, norm_pow, Complex.norm_real, Real.norm_eq_abs]
      have h2 : ‖l‖ * |e n| ≤ R * (|e 0| * R ^ n + (W / R) * (n * R ^ n)) :=
        mul_le_mul hlR ih (abs_nonneg _) hR0.le
      have h3 : ‖m‖ ^ n * W ≤ R ^ n * W := mul_le_mul_of_nonneg_right (pow_le_pow_left₀ (norm_nonneg _) hmR n) hW0
      refine h1.trans ((add_le_add h2 h3).trans (le_of_eq ?_))
      push_cast
      field_simp
      ring
  have t1 : Tendsto (fun n : ℕ => |e 0| * R ^ n + (W / R) * (n * R ^ n)) atTop (nhds (|e 0| * 0 + (W / R) * 0)) :=
    ((tendsto_pow_atTop_nhds_zero_of_lt_one hR0.le hR1).const_mul _).add
      ((tendsto_self_mul_const_pow_of_lt_one hR0.le hR1).const_mul _)
  rw [mul_zero, mul_zero, add_zero] at t1
  exact squeeze_zero_norm hb t1

/-- The velocity converges to 0 when the error does. -/
theorem pd_velocity (kp kd h : ℝ) (hh : 0 < h) (x : ℝ × ℝ) (hx : Tendsto (fun n => ((pdNext kp kd h)^[n] x).1) atTop (nhds 0)) :
    Tendsto (fun n => ((pdNext kp kd h)^[n] x).2) atTop (nhds 0) := by
  have h1 : ∀ n, ((pdNext kp kd h)^[n + 1] x).2 = (((pdNext kp kd h)^[n + 1] x).1 - ((pdNext kp kd h)^[n] x).1) / h := by
    intro n
    rw [Function.iterate_succ_apply']
    generalize (pdNext kp kd h)^[n] x = y
    unfold pdNext
    field_simp
    ring
  rw [← tendsto_add_atTop_iff_nat 1]
  simp only [h1]
  have := (((tendsto_add_atTop_iff_nat 1).2 hx).sub hx).div_const h
  simpa using this

/-- The recursion converges to 0, from all errors and velocities, exactly when `kp > 0`, `kd > 0` and `kp h² + 2 kd h < 4`. -/
theorem pd_exact (kp kd h : ℝ) (hh : 0 < h) :
    (∀ x, Tendsto (fun n => ((pdNext kp kd h)^[n] x).1) atTop (nhds 0)) ↔ 0 < kp ∧ 0 < kd ∧ kp * h ^ 2 + 2 * kd * h < 4 := by
  have hrec : ∀ x n, ((pdNext kp kd h)^[n + 1] x) = pdNext kp kd h ((pdNext kp kd h)^[n] x) :=
    fun x n => Function.iterate_succ_apply' _ _ _
  have hvel := pd_velocity kp kd h hh
  -- real eigenvalues
  have heig : ∀ l : ℝ, l ^ 2 - (2 - kd * h - kp * h ^ 2) * l + (1 - kd * h) = 0 → 1 ≤ |l| →
      ¬ Tendsto (fun n => ((pdNext kp kd h)^[n] (l, (l - 1) / h)).1) atTop (nhds 0) := by
    intro l hl h1 ht
    have hn : ∀ n, (pdNext kp kd h)^[n] (l, (l - 1) / h) = (l ^ n * l, l ^ n * ((l - 1) / h)) := by
      intro n
      induction n with
      | zero => simp
      | succ n ih =>
        rw [hrec, ih]
        unfold pdNext
        rw [Prod.mk.injEq]
        constructor
        · field_simp
          linear_combination (-l ^ n) * hl
        · field_simp
          linear_combination (-l ^ n) * hl
    simp only [hn] at ht
    have h2 := ht.abs
    rw [abs_zero] at h2
    have h3 : ∀ n : ℕ, 1 ≤ |l ^ n * l| := by
      intro n
      rw [← pow_succ, abs_pow]
      exact one_le_pow₀ h1
    have := ge_of_tendsto' h2 h3
    linarith
  constructor
  · intro hall
    by_contra hc
    by_cases hp : kp ≤ 0
    · -- an eigenvalue above 1
      have hd : 0 ≤ (2 - kd * h - kp * h ^ 2) ^ 2 - 4 * (1 - kd * h) := by nlinarith [sq_nonneg (kd * h + kp * h ^ 2), sq_nonneg h]
      have hs := Real.sq_sqrt hd
      have hs0 := Real.sqrt_nonneg ((2 - kd * h - kp * h ^ 2) ^ 2 - 4 * (1 - kd * h))
      generalize Real.sqrt ((2 - kd * h - kp * h ^ 2) ^ 2 - 4 * (1 - kd * h)) = s at hs hs0
      refine heig ((2 - kd * h - kp * h ^ 2 + s) / 2) (by linear_combination hs / 4) ?_ (hall _)
      have : kd * h + kp * h ^ 2 ≤ s := by
        refine abs_le_of_sq_le_sq' ?_ hs0 |>.2
        nlinarith [sq_nonneg h]
      exact le_trans (by linarith) (le_abs_self _)
    · push Not at hp
      by_cases hv : kd ≤ 0
      · -- the area of a parallelogram does not decrease
        have t1 := hall (1, 0)
        have t2 := hvel _ t1
        have t3 := hall (0, 1)
        have t4 := hvel _ t3
        have ha : ∀ n, ((pdNext kp kd h)^[n] (1, 0)).1 * ((pdNext kp kd h)^[n] (0, 1)).2 -
            ((pdNext kp kd h)^[n] (1, 0)).2 * ((pdNext kp kd h)^[n] (0, 1)).1 = (1 - kd * h) ^ n := by
          intro n
          induction n with
          | zero => simp
          | succ n ih =>
            rw [hrec, hrec, pow_succ, ← ih]
            generalize (pdNext kp kd h)^[n] (1, 0) = y
            generalize (pdNext kp kd h)^[n] (0, 1) = z
            unfold pdNext
            ring
        have t5 := (t1.mul t4).sub (t2.mul t3)
        simp only [ha] at t5
        have : ∀ n : ℕ, 1 ≤ (1 - kd * h) ^ n := fun n => one_le_pow₀ (by nlinarith)
        have := ge_of_tendsto' t5 this
        norm_num at this
      · push Not at hv
        have h4 : 4 ≤ kp * h ^ 2 + 2 * kd * h := by
          by_contra h4
          exact hc ⟨hp, hv, by linarith⟩
        have hd : 0 ≤ (2 - kd * h - kp * h ^ 2) ^ 2 - 4 * (1 - kd * h) := by
          nlinarith [sq_nonneg (4 - kd * h - kp * h ^ 2)]
        have hs := Real.sq_sqrt hd
        have hs0 := Real.sqrt_nonneg ((2 - kd * h - kp * h ^ 2) ^ 2 - 4 * (1 - kd * h))
        generalize Real.sqrt ((2 - kd * h - kp * h ^ 2) ^ 2 - 4 * (1 - kd * h)) = s at hs hs0
        refine heig ((2 - kd * h - kp * h ^ 2 - s) / 2) (by linear_combination hs / 4) ?_ (hall _)
        have : 4 - kd * h - kp * h ^ 2 ≤ s := by
          refine abs_le_of_sq_le_sq' ?_ hs0 |>.2
          nlinarith
        exact le_trans (by linarith) (neg_le_abs _)
  · rintro ⟨hp, hv, h4⟩ x
    refine recurrence_tendsto (2 - kd * h - kp * h ^ 2) (1 - kd * h) ?_ ?_ ?_ _ fun n => ?_
    · have : 0 < kp * h ^ 2 := by positivity
      linarith
    · linarith
    · have : 0 < kd * h := by positivity
      linarith
    · rw [hrec x (n + 1), hrec x n]
      generalize (pdNext kp kd h)^[n] x = y
      unfold pdNext
      ring

/-! ## Exactly when the joints reach their targets -/

/-- **C190 (exact).** Let a joint have a hard target, with gains `kp` and `kd`. If `kp > 0`, `kd > 0` and `kp dt² + 2 kd dt < 4` (`kd`
being the gain in use), then along every infinite run of successful solves the joint converges to its target and stops, whatever else
the solver is asked for. Otherwise there are an error and a velocity from which no run of successful solves converges. -/
theorem C190 (r : DynRobot ℝ) (hn : ∀ j ∈ r.joints, j.idxV < r.nv) (kp kd h : ℝ) (hh : 0 < h) (name : String) (target : ℝ)
    (j : Joint) (hj : r.joints.find? (fun j => j.name = name) = some j)
    (hint : ∀ q v, r.integrate q v j.idxQ = q j.idxQ + v j.idxV) :
    (0 < kp ∧ 0 < getKd Real.sqrt kp kd ∧ kp * h ^ 2 + 2 * getKd Real.sqrt kp kd * h < 4 →
      ∀ (calls : ℕ → DCall ℝ) (rs : RState ℝ), (∀ n, Tracking Real.sqrt r kp kd h name target j (calls n)) →
        (∀ n, AllSucceed r rs ((List.range n).map calls)) →
        Tendsto (fun n => (runCalls r rs ((List.range n).map calls)).q j.idxQ) atTop (nhds target) ∧
        Tendsto (fun n => (runCalls r rs ((List.range n).map calls)).qd j.idxV) atTop (nhds 0)) ∧
    (¬ (0 < kp ∧ 0 < getKd Real.sqrt kp kd ∧ kp * h ^ 2 + 2 * getKd Real.sqrt kp kd * h < 4) →
      ∃ e v, ∀ (calls : ℕ → DCall ℝ) (rs : RState ℝ), (∀ n, Tracking Real.sqrt r kp kd h name target j (calls n)) →
        (∀ n, AllSucceed r rs ((List.range n).map calls)) → rs.q j.idxQ = target + e → rs.qd j.idxV = v →
        ¬ Tendsto (fun n => (runCalls r rs ((List.range n).map calls)).q j.idxQ) atTop (nhds target)) := by
  have hpath : ∀ (calls : ℕ → DCall ℝ) (rs : RState ℝ), (∀ n, Tracking Real.sqrt r kp kd h name target j (calls n)) →
      (∀ n, AllSucceed r rs ((List.range n).map calls)) → ∀ n,
      ((runCalls r rs ((List.range n).map calls)).q j.idxQ - target, (runCalls r rs ((List.range n).map calls)).qd j.idxV) =
        (pdNext kp (getKd Real.sqrt kp kd) h)^[n] (rs.q j.idxQ - target, rs.qd j.idxV) := by
    intro calls rs hc hs n
    rw [C190_path Real.sqrt r hn kp kd h name target j hj hint _ rs (fun c hcm => ?_) (hs n), List.length_map, List.length_range]
    obtain ⟨i, -, rfl⟩ := List.mem_map.1 hcm
    exact hc i
  constructor
  · intro hcond calls rs hc hs
    have hp := hpath calls rs hc hs
    have t := (pd_exact kp _ h hh).2 hcond (rs.q j.idxQ - target, rs.qd j.idxV)
    have t' := pd_velocity kp _ h hh _ t
    simp only [← hp] at t t'
    refine ⟨?_, t'⟩
    simpa using t.add_const target
  · intro hcond
    obtain ⟨x, hx⟩ := not_forall.1 fun hall => hcond ((pd_exact kp _ h hh).1 hall)
    refine ⟨x.1, x.2, fun calls rs hc hs hq hv ht => hx ?_⟩
    have hp := hpath calls rs hc hs
    rw [hq, hv, add_sub_cancel_left] at hp
    have t := ht.sub_const target
    rw [sub_self] at t
    refine t.congr fun n => ?_
    rw [← hp n]

/-- **C190 (default gain).** With the default `kd`, the condition is `sqrt(kp) dt < 2 (√2 - 1)`. -/
theorem C190_default (kp kd h : ℝ) (hh : 0 < h) (hp : 0 < kp) (hd : kd < 0) :
    (0 < kp ∧ 0 < getKd Real.sqrt kp kd ∧ kp * h ^ 2 + 2 * getKd Real.sqrt kp kd * h < 4) ↔
      Real.sqrt kp * h < 2 * (Real.sqrt 2 - 1) := by
  have hs := Real.sqrt_pos.2 hp
  have hsq := Real.sq_sqrt hp.le
  have h2 := Real.sq_sqrt (show (0 : ℝ) ≤ 2 by norm_num)
  have h20 := Real.sqrt_pos.2 (show (0 : ℝ) < 2 by norm_num)
  have hx : 0 < Real.sqrt kp * h := by positivity
  unfold getKd
  rw [if_pos hd]
  have e : kp * h ^ 2 + 2 * (2 * Real.sqrt kp) * h = (Real.sqrt kp * h + 2) ^ 2 - 4 := by
    linear_combination (-h ^ 2) * hsq
  rw [e]
  constructor
  · rintro ⟨-, -, h4⟩
    by_contra hc
    push Not at hc
    nlinarith
  · intro h4
    exact ⟨hp, by positivity, by nlinarith⟩

/-! ## The hypotheses are met -/

/-- A hard joints task for the hinge, with the gains `kp` and `kd`. -/
noncomputable def hingeJoints (kp kd target : ℝ) : DTask ℝ :=
  { priority := .hard, weight := 1, update := (jointsAfter kp kd [⟨"hinge", target, 0, 0⟩]).update Real.sqrt hingeDyn.toRobot }

/-- A call for the hinge with this task alone. -/
noncomputable def hingeCall (env : QPEnv ℝ) (kp kd h target : ℝ) : DCall ℝ :=
  { env := ⟨env, Real.sqrt⟩, tasks := [hingeJoints kp kd target], contacts := [], cons := [], cfg := { hingeDState with dt := h } }

theorem hinge_update (kp kd target : ℝ) (rs : RState ℝ) :
    (jointsAfter kp kd [⟨"hinge", target, 0, 0⟩]).update Real.sqrt hingeDyn.toRobot rs =
      .ok ⟨1, 7, fun k j => if j = ([((6 : Nat), kp * (target - rs.q 7) + getKd Real.sqrt kp kd * (0 - rs.qd 6) + 0)].getD k (0, 0)).1
        then 1 else 0, fun k => ([((6 : Nat), kp * (target - rs.q 7) + getKd Real.sqrt kp kd * (0 - rs.qd 6) + 0)].getD k (0, 0)).2⟩ := rfl

/-- The solve always succeeds. -/
theorem hinge_succeeds (env : QPEnv ℝ) (hex : env.Exact) (hreg : 0 < env.regularization) (htol : 0 ≤ env.tol) (kp kd h target : ℝ)
    (hh : 0 < h) (n : ℕ) (rs : RState ℝ) : AllSucceed hingeDyn rs ((List.range n).map fun _ => hingeCall env kp kd h target) := by
  have hone : ∀ rs : RState ℝ, ∃ res, (solve ⟨env, Real.sqrt⟩ hingeDyn [hingeJoints kp kd target] [] [] true
      { hingeDState with dt := h, robot := rs }).2 = .ok res ∧ res.success = true := by
    intro rs
    obtain ⟨b, hb⟩ : ∃ b, b = kp * (target - rs.q 7) + getKd Real.sqrt kp kd * (0 - rs.qd 6) + 0 := ⟨_, rfl⟩
    have hup := hinge_update kp kd target rs
    rw [← hb] at hup
    refine (C166_partial ⟨env, Real.sqrt⟩ hingeDyn (by decide) _ [] true _ (by simp) ?_ ?_ zero_le_one (fun f h => (by cases h))
      (fun _ => hh.ne') hreg htol hex fun _ => ?_).1.2 ?_
    · intro t ht
      rw [List.mem_singleton.1 ht]
      exact ⟨by simp [hingeJoints], _, hup, rfl⟩
    · intro t ht h
      rw [List.mem_singleton.1 ht] at h
      cases h
    · intro rs' es u hrs hes
      obtain ⟨q, rfl, hq⟩ := List.map_eq_singleton_iff.1 hrs
      have hes : es = [] := List.map_eq_nil_iff.1 hes
      subst hes
      refine ⟨fun k => if k = 6 then q.2 0 else u k, fun k => if k = 6 then q.2 0 else u k, [], [], rfl, fun i hi => ?_, .nil, fun _ i hi => ?_,
        fun h => (by cases h), fun p hp _ M hM i hi => ?_⟩
      · rw [hinge_mass_mul _ _ i hi]
        simp [generalised]
      · simp only
        rw [if_neg (by omega)]
      · rw [List.mem_singleton.1 hp] at hM ⊢
        rw [hq] at hM ⊢
        have hM := hup.symm.trans hM
        cases hM
        have hi : i < 1 := hi
        obtain rfl : i = 0 := by omega
        simp [Finset.sum_range_succ]
    · refine ⟨fun k => if k = 6 then b else 0, fun k => if k = 6 then b else 0, [], ⟨⟨[], rfl, fun i hi => ?_⟩, .nil, fun _ i hi => ?_,
        fun h => (by cases h), fun t ht _ M hM i hi => ?_, ⟨fun h => (by cases h), fun h => (by cases h), fun h => (by cases h),
          fun h => (by cases h), fun h => (by cases h)⟩⟩⟩
      · rw [hinge_mass_mul _ _ i hi]
        simp [hingeDState, hingeDyn, generalised]
      · exact if_neg (by omega)
      · rw [List.mem_singleton.1 ht] at hM ⊢
        have hM := hup.symm.trans hM
        cases hM
        have hi : i < 1 := hi
        obtain rfl : i = 0 := by omega
        simp
  generalize hl : ((List.range n).map fun _ => hingeCall env kp kd h target) = l
  have hall : ∀ c ∈ l, c = hingeCall env kp kd h target := by
    intro c hc
    rw [← hl] at hc
    obtain ⟨-, -, rfl⟩ := List.mem_map.1 hc
    rfl
  clear hl
  induction l generalizing rs with
  | nil => trivial
  | cons c cs ih =>
    obtain rfl := hall c List.mem_cons_self
    exact ⟨hone rs, ih _ fun d hd => hall d (List.mem_cons_of_mem _ hd)⟩

theorem hinge_tracking (env : QPEnv ℝ) (hS : env.Sound) (kp kd h target : ℝ) :
    Tracking Real.sqrt hingeDyn kp kd h "hinge" target ⟨"hinge", 7, 1, 6, 1⟩ (hingeCall env kp kd h target) :=
  ⟨hS, rfl, rfl, fun _ => le_refl 6, _, List.mem_singleton.2 rfl, rfl, rfl, [⟨"hinge", target, 0, 0⟩], rfl, rfl⟩

/-- With the default gains (`kp = 1000`, critical damping) the hinge converges to its target with a time step of 20 ms, and with one of
30 ms there are an error and a velocity from which it does not, though all the solves succeed. -/
example : ∃ env : QPEnv ℝ, env.Sound ∧
    (∀ rs target, Tendsto (fun n => (runCalls hingeDyn rs ((List.range n).map fun _ => hingeCall env 1000 (-1) (1 / 50) target)).q 7) atTop
      (nhds target)) ∧
    ∀ target, ∃ e v, ∀ rs : RState ℝ, rs.q 7 = target + e → rs.qd 6 = v →
      (∀ n, AllSucceed hingeDyn rs ((List.range n).map fun _ => hingeCall env 1000 (-1) (3 / 100) target)) ∧
      ¬ Tendsto (fun n => (runCalls hingeDyn rs ((List.range n).map fun _ => hingeCall env 1000 (-1) (3 / 100) target)).q 7) atTop
        (nhds target) := by
  obtain ⟨env, hex, hS, -, hreg, -, -, htol⟩ := exact_env_exists 1 0 0 true
  have hreg : 0 < env.regularization := by rw [hreg]; exact one_pos
  have htol : 0 ≤ env.tol := by rw [htol]
  have hn : ∀ j ∈ hingeDyn.joints, j.idxV < hingeDyn.nv := by
    intro j hj
    rw [List.mem_singleton.1 hj]
    decide
  have hint : ∀ q v, hingeDyn.integrate q v 7 = q 7 + v 6 := fun q v => by simp [hingeDyn, hingeRobot]
  have h2 := Real.sq_sqrt (show (0 : ℝ) ≤ 2 by norm_num)
  have h20 := Real.sqrt_pos.2 (show (0 : ℝ) < 2 by norm_num)
  have hk := Real.sq_sqrt (show (0 : ℝ) ≤ 1000 by norm_num)
  have hk0 := Real.sqrt_pos.2 (show (0 : ℝ) < 1000 by norm_num)
  have k1 : Real.sqrt 1000 < 32 := by nlinarith
  have k2 : 31 < Real.sqrt 1000 := by nlinarith
  have k3 : 14 / 10 < Real.sqrt 2 := by nlinarith
  have k4 : Real.sqrt 2 < 142 / 100 := by nlinarith
  refine ⟨env, hS, fun rs target => ?_, fun target => ?_⟩
  · refine ((C190 hingeDyn hn 1000 (-1) (1 / 50) (by norm_num) "hinge" target ⟨"hinge", 7, 1, 6, 1⟩ rfl hint).1
      ((C190_default _ _ _ (by norm_num) (by norm_num) (by norm_num)).2 ?_) _ rs (fun _ => hinge_tracking env hS _ _ _ _)
      (fun n => hinge_succeeds env hex hreg htol _ _ _ _ (by norm_num) n rs)).1
    linarith
  · obtain ⟨e, v, hev⟩ := (C190 hingeDyn hn 1000 (-1) (3 / 100) (by norm_num) "hinge" target ⟨"hinge", 7, 1, 6, 1⟩ rfl hint).2
      (fun hc => absurd ((C190_default _ _ _ (by norm_num) (by norm_num) (by norm_num)).1 hc) (by linarith))
    exact ⟨e, v, fun rs hq hv => ⟨fun n => hinge_succeeds env hex hreg htol _ _ _ _ (by norm_num) n rs,
      hev _ rs (fun _ => hinge_tracking env hS _ _ _ _) (fun n => hinge_succeeds env hex hreg htol _ _ _ _ (by norm_num) n rs) hq hv⟩⟩

end Verif.Dynamics
