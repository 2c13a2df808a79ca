/-
A joint beyond its limit comes back (C189), and exactly when a step may leave the limits (C63).
-/
import Verif.Dynamics.LimitsProps
import Verif.Dynamics.Examples
import Verif.Dynamics.TotalProps

namespace Verif.Dynamics
open Finset Verif.Problem Verif.Kinematics

section
variable {K : Type} [Field K] [LinearOrder K] [IsStrictOrderedRing K]

/-! ## C189 -/

/-- All the calls succeed: each `solve` returns a result whose `success` is true. -/
def AllSucceed (r : DynRobot K) : RState K → List (DCall K) → Prop
  | _, [] => True
  | rs, c :: cs =>
    (∃ res, (solve c.env r c.tasks c.contacts c.cons true { c.cfg with robot := rs }).2 = .ok res ∧ res.success = true) ∧
    AllSucceed r (solve c.env r c.tasks c.contacts c.cons true { c.cfg with robot := rs }).1 cs

/-- The states after 1, 2, ... calls. -/
def states (r : DynRobot K) (rs : RState K) (calls : List (DCall K)) : List (RState K) :=
  (List.range calls.length).map fun i => runCalls r rs (calls.take (i + 1))

omit [IsStrictOrderedRing K] in
theorem states_cons (r : DynRobot K) (rs : RState K) (c : DCall K) (cs : List (DCall K)) :
    states r rs (c :: cs) = (solve c.env r c.tasks c.contacts c.cons true { c.cfg with robot := rs }).1 ::
      states r (solve c.env r c.tasks c.contacts c.cons true { c.cfg with robot := rs }).1 cs := by
  unfold states
  rw [List.length_cons, List.range_succ_eq_map, List.map_cons, List.map_map]
  rfl

/-- What one successful call does to a joint. -/
theorem call_step (r : DynRobot K) (k : Nat) (hk : k + 6 < r.nv)
    (hint : ∀ q v, r.integrate q v (k + 7) = q (k + 7) + v (k + 6)) (a h : K) (ha : 0 ≤ a) (hh : 0 < h) (rs : RState K)
    (c : DCall K) (hc : c.env.toQPEnv.Sound ∧ SqrtOK c.env.sqrt ∧ c.cfg.jointLimits = true ∧ c.cfg.dt = h ∧
      c.cfg.qddSafe (k + 6) = a)
    (hok : ∃ res, (solve c.env r c.tasks c.contacts c.cons true { c.cfg with robot := rs }).2 = .ok res ∧
      res.success = true) (rs' : RState K)
    (hrs : rs' = (solve c.env r c.tasks c.contacts c.cons true { c.cfg with robot := rs }).1) :
    rs'.q (k + 7) = rs.q (k + 7) + h * rs'.qd (k + 6) ∧
    (r.upper (k + 7) < rs.q (k + 7) → rs'.qd (k + 6) ≤ rs.qd (k + 6) - a * h) ∧
    (rs.q (k + 7) ≤ r.upper (k + 7) → ∃ s, 0 ≤ s ∧ s ^ 2 ≤ 2 * (r.upper (k + 7) - rs.q (k + 7)) * a ∧ rs'.qd (k + 6) ≤ s) ∧
    (rs.q (k + 7) < r.lower (k + 7) → rs.qd (k + 6) + a * h ≤ rs'.qd (k + 6)) ∧
    (r.lower (k + 7) ≤ rs.q (k + 7) → ∃ s, 0 ≤ s ∧ s ^ 2 ≤ 2 * (rs.q (k + 7) - r.lower (k + 7)) * a ∧ -rs'.qd (k + 6) ≤ s) := by
  obtain ⟨c1, c2, c3, c4, c5⟩ := hc
  have d1 : ({ c.cfg with robot := rs } : DState K).jointLimits = true := c3
  have d2 : ({ c.cfg with robot := rs } : DState K).dt = h := c4
  have d3 : ({ c.cfg with robot := rs } : DState K).qddSafe (k + 6) = a := c5
  have d4 : ({ c.cfg with robot := rs } : DState K).robot = rs := rfl
  generalize ({ c.cfg with robot := rs } : DState K) = st at d1 d2 d3 d4 hok hrs
  subst d4
  obtain ⟨v', e1, e2, a1, a2, a3, a4⟩ := accepted_ok c.env c1 r c.tasks c.contacts c.cons st d1 k hk hint hok
  rw [← hrs] at e1 e2
  rw [d2] at e2 a1 a3
  rw [d3] at a1 a2 a3 a4
  rw [e1]
  refine ⟨e2, fun h1 => a1 (by linarith) hh.le, fun h1 => ?_, fun h1 => ?_, fun h1 => ?_⟩
  · obtain ⟨s1, s2⟩ := c2 (2 * (r.upper (k + 7) - st.robot.q (k + 7)) * a)
      (mul_nonneg (mul_nonneg zero_le_two (by linarith)) ha)
    exact ⟨_, s1, s2, a2 (by linarith)⟩
  · have := a3 (by linarith) hh.le
    linarith
  · obtain ⟨s1, s2⟩ := c2 (2 * |r.lower (k + 7) - st.robot.q (k + 7)| * a)
      (mul_nonneg (mul_nonneg zero_le_two (abs_nonneg _)) ha)
    refine ⟨_, s1, ?_, a4 (by linarith)⟩
    rw [abs_of_nonpos (by linarith), neg_sub] at s2
    rwa [abs_of_nonpos (by linarith), neg_sub]

/-- **C189 (coming back).** A joint beyond its upper limit by `o`, with velocity `v`: along any sequence of `n` successful steps
with `o + n h v ≤ a h² n (n + 1) / 2` (there is always such a number, whatever `o` and `v`, when `a` is positive), it is inside
again at some point; and the same below its lower limit. -/
theorem C189_back (r : DynRobot K) (k : Nat) (hk : k + 6 < r.nv)
    (hint : ∀ q v, r.integrate q v (k + 7) = q (k + 7) + v (k + 6)) (a h : K) (ha : 0 ≤ a) (hh : 0 < h)
    (calls : List (DCall K)) : ∀ (rs : RState K),
    (∀ c ∈ calls, c.env.toQPEnv.Sound ∧ SqrtOK c.env.sqrt ∧ c.cfg.jointLimits = true ∧ c.cfg.dt = h ∧
      c.cfg.qddSafe (k + 6) = a) → AllSucceed r rs calls →
    (rs.q (k + 7) - r.upper (k + 7) + calls.length * h * rs.qd (k + 6) ≤
        a * h ^ 2 * (calls.length * (calls.length + 1) / 2) →
      ∃ rs' ∈ rs :: states r rs calls, rs'.q (k + 7) ≤ r.upper (k + 7)) ∧
    (r.lower (k + 7) - rs.q (k + 7) - calls.length * h * rs.qd (k + 6) ≤
        a * h ^ 2 * (calls.length * (calls.length + 1) / 2) →
      ∃ rs' ∈ rs :: states r rs calls, r.lower (k + 7) ≤ rs'.q (k + 7)) := by
  induction calls with
  | nil =>
    intro rs _ _
    refine ⟨fun H => ⟨rs, List.mem_cons_self, ?_⟩, fun H => ⟨rs, List.mem_cons_self, ?_⟩⟩ <;>
    · simp only [List.length_nil, Nat.cast_zero] at H
      linarith
  | cons c cs ih =>
    intro rs hc hs
    obtain ⟨hok, hs⟩ := hs
    obtain ⟨e1, e2, -, e4, -⟩ := call_step r k hk hint a h ha hh rs c (hc c List.mem_cons_self) hok _ rfl
    obtain ⟨i1, i2⟩ := ih _ (fun d hd => hc d (List.mem_cons_of_mem _ hd)) hs
    rw [states_cons]
    have hn : (0 : K) ≤ cs.length := Nat.cast_nonneg _
    refine ⟨fun H => ?_, fun H => ?_⟩
    · rcases le_or_gt (rs.q (k + 7)) (r.upper (k + 7)) with hin | hout
      · exact ⟨rs, List.mem_cons_self, hin⟩
      obtain ⟨rs', hm, hr⟩ := i1 (by
        rw [e1]
        simp only [List.length_cons, Nat.cast_add, Nat.cast_one] at H
        have := mul_le_mul_of_nonneg_left (e2 hout) (by positivity : (0 : K) ≤ (cs.length + 1) * h)
        nlinarith)
      exact ⟨rs', List.mem_cons_of_mem _ hm, hr⟩
    · rcases le_or_gt (r.lower (k + 7)) (rs.q (k + 7)) with hin | hout
      · exact ⟨rs, List.mem_cons_self, hin⟩
      obtain ⟨rs', hm, hr⟩ := i2 (by
        rw [e1]
        simp only [List.length_cons, Nat.cast_add, Nat.cast_one] at H
        have := mul_le_mul_of_nonneg_left (e4 hout) (by positivity : (0 : K) ≤ (cs.length + 1) * h)
        nlinarith)
      exact ⟨rs', List.mem_cons_of_mem _ hm, hr⟩

/-- What a joint inside a limit can do in four steps: with `d` the distance to the limit and `v` the velocity of the first step
towards it. -/
theorem brake_four (a h d v s : K) (ha : 0 ≤ a) (hh : 0 < h) (hd : 0 ≤ d) (h1 : 0 ≤ s) (h2 : s ^ 2 ≤ 2 * d * a)
    (hv : v ≤ s) (hout : 0 < h * v - d) : (h * v - d) + 3 * h * v ≤ a * h ^ 2 * (3 * (3 + 1) / 2) := by
  have hv0 : 0 < v := by
    by_contra hne
    push Not at hne
    have := mul_nonpos_of_nonneg_of_nonpos hh.le hne
    linarith
  have hvv : v ^ 2 ≤ 2 * d * a := le_trans (by nlinarith) h2
  have hdv : d < h * v := by linarith
  have ha0 : 0 < a := by
    rcases eq_or_lt_of_le ha with h0 | h0
    · rw [← h0] at hvv; nlinarith [pow_pos hv0 2]
    · exact h0
  -- v < 2 a h
  have hv2 : v < 2 * a * h := by
    have : v ^ 2 < 2 * (h * v) * a := by nlinarith
    have : v * v < (2 * a * h) * v := by nlinarith
    exact lt_of_mul_lt_mul_right this hv0.le
  have key : 0 ≤ (2 * a * h - v) * (6 * a * h - v) :=
    mul_nonneg (by linarith) (by nlinarith [mul_pos ha0 hh])
  have h3 : (4 * h * v - d) * (2 * a) ≤ (6 * a * h ^ 2) * (2 * a) := by nlinarith
  have := le_of_mul_le_mul_right h3 (by linarith)
  linarith

/-- **C189 (at most three steps).** From a position inside its limits (whatever its velocity), a joint is inside again after at most four
successful steps: it is never beyond a limit for more than three steps in a row. -/
theorem C189 (r : DynRobot K) (k : Nat) (hk : k + 6 < r.nv)
    (hint : ∀ q v, r.integrate q v (k + 7) = q (k + 7) + v (k + 6)) (a h : K) (ha : 0 ≤ a) (hh : 0 < h)
    (rs : RState K) (calls : List (DCall K)) (h4 : 4 ≤ calls.length)
    (hc : ∀ c ∈ calls, c.env.toQPEnv.Sound ∧ SqrtOK c.env.sqrt ∧ c.cfg.jointLimits = true ∧ c.cfg.dt = h ∧
      c.cfg.qddSafe (k + 6) = a) (hs : AllSucceed r rs calls) :
    (rs.q (k + 7) ≤ r.upper (k + 7) → ∃ rs' ∈ (states r rs calls).take 4, rs'.q (k + 7) ≤ r.upper (k + 7)) ∧
    (r.lower (k + 7) ≤ rs.q (k + 7) → ∃ rs' ∈ (states r rs calls).take 4, r.lower (k + 7) ≤ rs'.q (k + 7)) := by
  match calls, h4 with
  | c :: c1 :: c2 :: c3 :: cs, _ =>
    obtain ⟨hok, hs⟩ := hs
    obtain ⟨e1, -, e3, -, e5⟩ := call_step r k hk hint a h ha hh rs c (hc c (by simp)) hok _ rfl
    rw [states_cons]
    generalize (solve c.env r c.tasks c.contacts c.cons true { c.cfg with robot := rs }).1 = rs1 at *
    have hs3 : AllSucceed r rs1 [c1, c2, c3] := ⟨hs.1, hs.2.1, hs.2.2.1, trivial⟩
    have hst : (rs1 :: states r rs1 (c1 :: c2 :: c3 :: cs)).take 4 = rs1 :: states r rs1 [c1, c2, c3] := by
      simp only [states_cons, List.take_succ_cons, List.take_zero]
      rfl
    rw [hst]
    obtain ⟨i1, i2⟩ := C189_back r k hk hint a h ha hh [c1, c2, c3] rs1 (fun d hd => hc d (by
      simp only [List.mem_cons, List.not_mem_nil, or_false] at hd
      rcases hd with rfl | rfl | rfl <;> simp)) hs3
    simp only [List.length_cons, List.length_nil, Nat.cast_add, Nat.cast_one, Nat.cast_zero] at i1 i2
    refine ⟨fun hin => ?_, fun hin => ?_⟩
    · obtain ⟨s, s0, s1, s2⟩ := e3 hin
      rcases le_or_gt (rs1.q (k + 7)) (r.upper (k + 7)) with hi | ho
      · exact ⟨rs1, List.mem_cons_self, hi⟩
      have := brake_four a h _ _ s ha hh (sub_nonneg.2 hin) s0 s1 s2 (by linarith)
      exact i1 (by linarith)
    · obtain ⟨s, s0, s1, s2⟩ := e5 hin
      rcases le_or_gt (r.lower (k + 7)) (rs1.q (k + 7)) with hi | ho
      · exact ⟨rs1, List.mem_cons_self, hi⟩
      have := brake_four a h _ _ s ha hh (sub_nonneg.2 hin) s0 s1 s2 (by linarith)
      exact i2 (by linarith)

/-- **C189 (the number of steps).** Whatever the excess and the velocity, there is a number of steps after which the joint has come back. -/
theorem C189_number [Archimedean K] (a h o v : K) (ha : 0 < a) (hh : 0 < h) :
    ∃ n : Nat, o + n * h * v ≤ a * h ^ 2 * (n * (n + 1) / 2) := by
  have hp : 0 < a * h ^ 2 := by positivity
  obtain ⟨n, hn⟩ := exists_nat_ge (1 + 2 * |o| / (a * h ^ 2) + 2 * (h * |v|) / (a * h ^ 2))
  refine ⟨n, ?_⟩
  have ho : 0 ≤ 2 * |o| / (a * h ^ 2) := by positivity
  have hv : 0 ≤ 2 * (h * |v|) / (a * h ^ 2) := by positivity
  have h1 : 2 * |o| ≤ (n : K) * (a * h ^ 2) := by
    have := mul_le_mul_of_nonneg_right (by linarith : 2 * |o| / (a * h ^ 2) ≤ n) hp.le
    rwa [div_mul_cancel₀ _ hp.ne'] at this
  have h2 : 2 * (h * |v|) ≤ (n : K) * (a * h ^ 2) := by
    have := mul_le_mul_of_nonneg_right (by linarith : 2 * (h * |v|) / (a * h ^ 2) ≤ n) hp.le
    rwa [div_mul_cancel₀ _ hp.ne'] at this
  have hn0 : (0 : K) ≤ n := Nat.cast_nonneg _
  have h3 := mul_le_mul_of_nonneg_left (mul_le_mul_of_nonneg_left (le_abs_self v) hh.le) hn0
  have h4 := mul_le_mul_of_nonneg_left h2 hn0
  have := le_abs_self o
  nlinarith

/-! ## C63, exactly -/

/-- **C63, exact.** With the joint limits alone, from a state where all joints are inside their limits: every acceleration that the
limits accept keeps the joint under its upper limit if and only if the joint is exactly at the limit, or `2 qdd_safe dt²` or
more away from it. -/
theorem C63_exact (sqrt : K → K) (hsq : ∀ x, 0 ≤ x → 0 ≤ sqrt x ∧ sqrt x ^ 2 = x) (r : DynRobot K) (s : DState K) (n : Nat)
    (hn : r.nv ≤ n) (tau : Expr K) (hr : tau.rows = r.nv) (l : List (Constr K))
    (hl : limitConstraints sqrt r s n tau = .ok l) (hj : s.jointLimits = true) (hv : s.velocityLimits = false)
    (hvt : s.velocityVsTorque = false) (ht : s.torqueLimits = false) (hdt : 0 < s.dt)
    (hin : ∀ k, k + 6 < r.nv → r.lower (k + 7) ≤ s.robot.q (k + 7) ∧ s.robot.q (k + 7) ≤ r.upper (k + 7) ∧
      0 ≤ s.qddSafe (k + 6)) (k : Nat) (hk : k + 6 < r.nv) :
    (∀ x, HardSat l x →
      s.robot.q (k + 7) + s.dt * (s.robot.qd (k + 6) + s.dt * x (k + 6)) ≤ r.upper (k + 7)) ↔
    (s.robot.q (k + 7) = r.upper (k + 7) ∨ 2 * s.qddSafe (k + 6) * s.dt ^ 2 ≤ r.upper (k + 7) - s.robot.q (k + 7)) := by
  have hspec := fun x => (limitConstraints_spec sqrt r s n tau hr l hl x).2
  have hrows : ∀ x, HardSat l x ↔ ∀ k, k + 6 < r.nv →
      s.robot.qd (k + 6) + s.dt * x (k + 6) ≤ sqrt (2 * (r.upper (k + 7) - s.robot.q (k + 7)) * s.qddSafe (k + 6)) ∧
      -(s.robot.qd (k + 6) + s.dt * x (k + 6)) ≤ sqrt (2 * |r.lower (k + 7) - s.robot.q (k + 7)| * s.qddSafe (k + 6)) := by
    intro x
    rw [hspec x]
    simp only [ht, Bool.false_eq_true, false_imp_iff, true_and]
    refine forall_congr' fun j => forall_congr' fun hj' => ?_
    obtain ⟨i1, i2, -⟩ := hin j hj'
    unfold limitRows
    simp only [hj, hv, hvt, Bool.false_eq_true, if_false, if_true, List.nil_append, List.forall_mem_cons,
      List.not_mem_nil, false_imp_iff, implies_true, and_true]
    rw [if_neg (not_lt.2 i2), if_neg (not_lt.2 i1), unitRow_val _ _ (by omega), unitRow_val _ _ (by omega)]
    constructor
    · rintro ⟨h1, h2⟩
      constructor <;> linarith
    · rintro ⟨h1, h2⟩
      constructor <;> linarith
  obtain ⟨i1, i2, i3⟩ := hin k hk
  have hd0 : 0 ≤ r.upper (k + 7) - s.robot.q (k + 7) := by linarith
  obtain ⟨q1, q2⟩ := hsq (2 * (r.upper (k + 7) - s.robot.q (k + 7)) * s.qddSafe (k + 6)) (by positivity)
  constructor
  · intro H
    by_contra hne
    push Not at hne
    obtain ⟨hne1, hne2⟩ := hne
    have hd : 0 < r.upper (k + 7) - s.robot.q (k + 7) := lt_of_le_of_ne hd0 fun h => hne1 (by linarith)
    have := H (fun j => if j = k + 6 then (sqrt (2 * (r.upper (k + 7) - s.robot.q (k + 7)) * s.qddSafe (k + 6)) -
        s.robot.qd (k + 6)) / s.dt else -s.robot.qd j / s.dt) ((hrows _).2 fun j hj' => by
      obtain ⟨j1, j2, j3⟩ := hin j hj'
      have n1 := (hsq (2 * (r.upper (j + 7) - s.robot.q (j + 7)) * s.qddSafe (j + 6))
        (mul_nonneg (mul_nonneg zero_le_two (by linarith)) j3)).1
      have n2 := (hsq (2 * |r.lower (j + 7) - s.robot.q (j + 7)| * s.qddSafe (j + 6)) (by positivity)).1
      by_cases hjk : j = k
      · subst hjk
        simp only [if_true]
        rw [mul_div_cancel₀ _ hdt.ne']
        constructor <;> linarith
      · simp only [if_neg (show ¬ (j + 6 = k + 6) by omega)]
        rw [mul_div_cancel₀ _ hdt.ne', add_neg_cancel, neg_zero]
        exact ⟨n1, n2⟩)
    simp only [if_true] at this
    rw [mul_div_cancel₀ _ hdt.ne', add_sub_cancel] at this
    have h1 : s.dt * sqrt (2 * (r.upper (k + 7) - s.robot.q (k + 7)) * s.qddSafe (k + 6)) ≤ r.upper (k + 7) - s.robot.q (k + 7) := by
      linarith
    generalize sqrt (2 * (r.upper (k + 7) - s.robot.q (k + 7)) * s.qddSafe (k + 6)) = z at *
    have h2 : (s.dt * z) ^ 2 ≤ (r.upper (k + 7) - s.robot.q (k + 7)) ^ 2 := pow_le_pow_left₀ (by positivity) h1 2
    rw [mul_pow, q2] at h2
    have h3 : (2 * s.qddSafe (k + 6) * s.dt ^ 2) * (r.upper (k + 7) - s.robot.q (k + 7)) ≤
        (r.upper (k + 7) - s.robot.q (k + 7)) * (r.upper (k + 7) - s.robot.q (k + 7)) := by nlinarith
    have := le_of_mul_le_mul_right h3 hd
    linarith
  · intro H x hx
    have hx1 := ((hrows x).1 hx k hk).1
    have h1 : s.dt * (s.robot.qd (k + 6) + s.dt * x (k + 6)) ≤
        s.dt * sqrt (2 * (r.upper (k + 7) - s.robot.q (k + 7)) * s.qddSafe (k + 6)) := mul_le_mul_of_nonneg_left hx1 hdt.le
    generalize sqrt (2 * (r.upper (k + 7) - s.robot.q (k + 7)) * s.qddSafe (k + 6)) = z at *
    have h2 : s.dt * z ≤ r.upper (k + 7) - s.robot.q (k + 7) := by
      rcases H with H | H
      · rw [H, sub_self, mul_zero, zero_mul] at q2
        rw [pow_eq_zero_iff two_ne_zero] at q2
        rw [q2]
        linarith
      · refine (abs_le_of_sq_le_sq' ?_ hd0).2
        rw [mul_pow, q2]
        have := mul_le_mul_of_nonneg_right H hd0
        nlinarith
    linarith

end

/-! ## Concrete cases -/

/-- A rational square root rounded down, exact on the value met first below. -/
def sqrtDown (x : ℚ) : ℚ := if x = 9 / 4 then 3 / 2 else if 4 ≤ x then 2 else 0

theorem sqrtDown_ok : SqrtOK sqrtDown := by
  intro x hx
  unfold sqrtDown
  by_cases h1 : x = 9 / 4
  · rw [if_pos h1, h1]; norm_num
  · rw [if_neg h1]
    by_cases h4 : 4 ≤ x
    · rw [if_pos h4]; norm_num; linarith
    · rw [if_neg h4]; simpa using hx

/-- The arm of `demo`, free on the lower side. -/
def freeDemo : DynRobot ℚ := { demo with lower := fun _ => -10 }

/-- A call that accelerates the arm by `x`. -/
def push (x : ℚ) : DCall ℚ :=
  ⟨⟨fixedEnv fun k => if k = 6 then x else if k = 9 then 10 else 0, sqrtDown⟩, [], [foot], [],
    { demoState with torqueLimits := false, velocityLimits := false }⟩

/-- The arm at `-9/8`, at rest. -/
def nearLimit : RState ℚ := ⟨fun i => if i = 6 then 1 else if i = 7 then -9 / 8 else 0, fun _ => 0, fun _ => 0⟩

/-- The calls succeed, as a Boolean. -/
def succeed (r : DynRobot ℚ) : RState ℚ → List (DCall ℚ) → Bool
  | _, [] => true
  | rs, c :: cs =>
    (match (solve c.env r c.tasks c.contacts c.cons true { c.cfg with robot := rs }).2 with
      | .ok res => res.success
      | .error _ => false) &&
    succeed r (solve c.env r c.tasks c.contacts c.cons true { c.cfg with robot := rs }).1 cs

theorem of_succeed (r : DynRobot ℚ) : ∀ (calls : List (DCall ℚ)) (rs : RState ℚ), succeed r rs calls = true → AllSucceed r rs calls
  | [], _, _ => trivial
  | c :: cs, rs, h => by
    unfold succeed at h
    rw [Bool.and_eq_true] at h
    refine ⟨?_, of_succeed r cs _ h.2⟩
    revert h
    cases (solve c.env r c.tasks c.contacts c.cons true { c.cfg with robot := rs }).2 with
    | error e => rintro ⟨h, -⟩; cases h
    | ok res => rintro ⟨h, -⟩; exact ⟨res, rfl, h⟩

/-- **C189 is tight, and not vacuous**: four successful steps from a position inside the limits, at rest; the arm is beyond its limit during three
of them, and inside after the fourth. -/
example : AllSucceed freeDemo nearLimit [push (3 / 2), push (-1), push (-1), push (-1)] ∧
    (∀ c ∈ [push (3 / 2), push (-1), push (-1), push (-1)], c.env.toQPEnv.Sound ∧ SqrtOK c.env.sqrt ∧ c.cfg.jointLimits = true ∧
      c.cfg.dt = 1 ∧ c.cfg.qddSafe 6 = 1) ∧
    (∀ q v, freeDemo.integrate q v 7 = q 7 + v 6) ∧ nearLimit.q 7 ≤ freeDemo.upper 7 ∧
    (states freeDemo nearLimit [push (3 / 2), push (-1), push (-1), push (-1)]).map (fun rs => rs.q 7) = [3 / 8, 7 / 8, 3 / 8, -9 / 8] := by
  refine ⟨of_succeed _ _ _ (by decide +kernel), ?_, fun _ _ => rfl, by decide +kernel, by decide +kernel⟩
  intro c hc
  have : ∃ x, c = push x := by
    simp only [List.mem_cons, List.not_mem_nil, or_false] at hc
    rcases hc with h | h | h | h <;> exact ⟨_, h⟩
  obtain ⟨x, rfl⟩ := this
  exact ⟨fixedEnv_sound _, sqrtDown_ok, rfl, rfl, rfl⟩

/-- C63_exact: the limits of the hinge can be computed, with the square root of the reals. -/
example : ∃ l, limitConstraints Real.sqrt hingeDyn { hingeDState with jointLimits := true } 7 ⟨7, 7, fun _ _ => 0, fun _ => 0⟩ = .ok l := by
  obtain ⟨l, h, -⟩ := limitConstraints_total Real.sqrt hingeDyn { hingeDState with jointLimits := true } 7 ⟨7, 7, fun _ _ => 0, fun _ => 0⟩
    rfl rfl (by decide) le_rfl (fun _ => one_ne_zero)
  exact ⟨l, h⟩

end Verif.Dynamics
