/-
The PID of the walk tasks: bounded integral and steady state (C193).
  /repo/src/placo/humanoid/walk_tasks.cpp 133-146
-/
import Verif.Humanoid.WalkTasksProps
import Mathlib.Analysis.SpecificLimits.Basic

namespace Verif.Humanoid
open Verif.Tools Verif.Problem Filter Topology

/-- The errors given to the PID are bounded by `E` and the durations are between `a` and `b`. -/
def Calls.Bounded (l : Calls) (E a b : ℝ) : Prop := ∀ c ∈ l, |c.1.x| ≤ E ∧ |c.1.y| ≤ E ∧ a ≤ c.2 ∧ c.2 ≤ b

/-- The settings of the PID are those of `t`. -/
def WalkTasks.SameGains (t t' : WalkTasks) : Prop := t'.Kp = t.Kp ∧ t'.Ki = t.Ki ∧ t'.Kd = t.Kd ∧ t'.lambda = t.lambda

/-- One call. -/
theorem pid_call (t : WalkTasks) (i e : V2) (hi : t.integral = some i) (he : t.lastError = some e) (c : V2) (d : ℝ) :
    ∃ p, t.pid c d = .ok p ∧ t.SameGains p.1 ∧ p.1.lastError = some c ∧
      p.1.integral = some ⟨(1 - t.lambda) * i.x + c.x * d, (1 - t.lambda) * i.y + c.y * d⟩ ∧
      p.2.x = t.Kp * c.x + t.Ki * ((1 - t.lambda) * i.x + c.x * d) + t.Kd * ((c.x - e.x) / d) ∧
      p.2.y = t.Kp * c.y + t.Ki * ((1 - t.lambda) * i.y + c.y * d) + t.Kd * ((c.y - e.y) / d) := by
  unfold WalkTasks.pid
  rw [hi, he]
  exact ⟨_, rfl, ⟨rfl, rfl, rfl, rfl⟩, rfl, rfl, rfl, rfl⟩

/-- One leaky sum. -/
theorem leaky_bound (lambda B M i x : ℝ) (h1 : lambda ≤ 1) (hM : B ≤ lambda * M) (hi : |i| ≤ M) (hx : |x| ≤ B) :
    |(1 - lambda) * i + x| ≤ M := by
  have hl : 0 ≤ 1 - lambda := sub_nonneg.2 h1
  calc |(1 - lambda) * i + x| ≤ |(1 - lambda) * i| + |x| := abs_add_le _ _
    _ = (1 - lambda) * |i| + |x| := by rw [abs_mul, abs_of_nonneg hl]
    _ ≤ (1 - lambda) * M + B := by nlinarith [mul_nonneg hl (sub_nonneg.2 hi)]
    _ ≤ M := by linarith

private theorem product_bound (x d E b : ℝ) (hE : |x| ≤ E) (h0 : 0 ≤ d) (hb : d ≤ b) : |x * d| ≤ E * b := by
  rw [abs_mul, abs_of_nonneg h0]
  exact mul_le_mul hE hb h0 ((abs_nonneg x).trans hE)

/-- **C193 (bounded).** Whatever the sequence of errors bounded by `E` and durations between `a > 0` and `b`, with a leak in `(0, 1]`:
the integral stays bounded by `E b / lambda` (or by its first value), and every offset applied to the CoM, at any call, is bounded by
`|Kp| E + |Ki| M + |Kd| 2 E / a`. -/
theorem C193 (E a b M : ℝ) (ha : 0 < a) : ∀ (l : Calls) (t : WalkTasks) (i e : V2), t.integral = some i → t.lastError = some e →
    0 < t.lambda → t.lambda ≤ 1 → l.Bounded E a b → E * b / t.lambda ≤ M → |i.x| ≤ M → |i.y| ≤ M → |e.x| ≤ E → |e.y| ≤ E →
    ∃ t' i' e', t.pids l = .ok t' ∧ t.SameGains t' ∧ t'.integral = some i' ∧ t'.lastError = some e' ∧
      |i'.x| ≤ M ∧ |i'.y| ≤ M ∧ |e'.x| ≤ E ∧ |e'.y| ≤ E ∧
      ∀ (c : V2) (d : ℝ), |c.x| ≤ E → |c.y| ≤ E → a ≤ d → d ≤ b → ∃ p, t'.pid c d = .ok p ∧
        |p.2.x| ≤ |t.Kp| * E + |t.Ki| * M + |t.Kd| * (2 * E / a) ∧ |p.2.y| ≤ |t.Kp| * E + |t.Ki| * M + |t.Kd| * (2 * E / a) := by
  intro l
  induction l with
  | nil =>
    intro t i e hi he h0 h1 _ hM mx my ex ey
    refine ⟨t, i, e, rfl, ⟨rfl, rfl, rfl, rfl⟩, hi, he, mx, my, ex, ey, fun c d cx cy da db => ?_⟩
    obtain ⟨p, hp, -, -, -, px, py⟩ := pid_call t i e hi he c d
    have hB : E * b ≤ t.lambda * M := by rw [div_le_iff₀ h0] at hM; linarith
    have d0 : 0 < d := ha.trans_le da
    have one : ∀ (x y z : ℝ), |x| ≤ E → |y| ≤ E → |z| ≤ M →
        |t.Kp * x + t.Ki * ((1 - t.lambda) * z + x * d) + t.Kd * ((x - y) / d)| ≤
          |t.Kp| * E + |t.Ki| * M + |t.Kd| * (2 * E / a) := by
      intro x y z hx hy hz
      have b1 := leaky_bound t.lambda (E * b) M z (x * d) h1 hB hz (product_bound x d E b hx d0.le db)
      have b2 : |(x - y) / d| ≤ 2 * E / a := by
        rw [abs_div, abs_of_pos d0]
        have h2 : |x - y| ≤ 2 * E := (abs_sub x y).trans (by linarith)
        exact div_le_div₀ ((abs_nonneg _).trans h2) h2 ha da
      refine (abs_add_le _ _).trans (add_le_add ((abs_add_le _ _).trans (add_le_add ?_ ?_)) ?_)
      · rw [abs_mul]; exact mul_le_mul_of_nonneg_left hx (abs_nonneg _)
      · rw [abs_mul]; exact mul_le_mul_of_nonneg_left b1 (abs_nonneg _)
      · rw [abs_mul]; exact mul_le_mul_of_nonneg_left b2 (abs_nonneg _)
    exact ⟨p, hp, by rw [px]; exact one _ _ _ cx ex mx, by rw [py]; exact one _ _ _ cy ey my⟩
  | cons c l ih =>
    intro t i e hi he h0 h1 hl hM mx my ex ey
    obtain ⟨cx, cy, da, db⟩ := hl c (List.mem_cons_self ..)
    have d0 : 0 < c.2 := ha.trans_le da
    have hB : E * b ≤ t.lambda * M := by rw [div_le_iff₀ h0] at hM; linarith
    obtain ⟨p, hp, hg, he', hi', -, -⟩ := pid_call t i e hi he c.1 c.2
    obtain ⟨g1, g2, g3, g4⟩ := hg
    obtain ⟨t', i', e', r, hs, rest⟩ := ih p.1 _ _ hi' he' (by rw [g4]; exact h0) (by rw [g4]; exact h1)
      (fun c' hc' => hl c' (List.mem_cons_of_mem _ hc')) (by rw [g4]; exact hM)
      (leaky_bound t.lambda (E * b) M i.x _ h1 hB mx (product_bound _ _ E b cx d0.le db))
      (leaky_bound t.lambda (E * b) M i.y _ h1 hB my (product_bound _ _ E b cy d0.le db)) cx cy
    rw [g1, g2, g3] at rest
    obtain ⟨s1, s2, s3, s4⟩ := hs
    refine ⟨t', i', e', ?_, ⟨s1.trans g1, s2.trans g2, s3.trans g3, s4.trans g4⟩, rest⟩
    obtain ⟨c1, c2⟩ := c
    rw [WalkTasks.pids]
    simp only [hp, Bind.bind, Except.bind]
    exact r

/-- The state of the PID after `n + 1` identical calls. -/
theorem constant_calls (c : V2) (d : ℝ) : ∀ (n : Nat) (t : WalkTasks) (i e : V2), t.integral = some i → t.lastError = some e →
    t.lambda ≠ 0 → ∃ t', t.pids (List.replicate (n + 1) (c, d)) = .ok t' ∧ t.SameGains t' ∧ t'.lastError = some c ∧
      t'.integral = some ⟨c.x * d / t.lambda + (1 - t.lambda) ^ (n + 1) * (i.x - c.x * d / t.lambda),
        c.y * d / t.lambda + (1 - t.lambda) ^ (n + 1) * (i.y - c.y * d / t.lambda)⟩ := by
  intro n
  induction n with
  | zero =>
    intro t i e hi he h0
    obtain ⟨p, hp, hg, he', hi', -, -⟩ := pid_call t i e hi he c d
    refine ⟨p.1, ?_, hg, he', ?_⟩
    · rw [List.replicate_succ, List.replicate_zero, WalkTasks.pids]
      simp only [hp, Bind.bind, Except.bind, WalkTasks.pids]
    · rw [hi']
      congr 2
      · field_simp; ring
      · field_simp; ring
  | succ n ih =>
    intro t i e hi he h0
    obtain ⟨p, hp, ⟨g1, g2, g3, g4⟩, he', hi', -, -⟩ := pid_call t i e hi he c d
    obtain ⟨t', r, ⟨s1, s2, s3, s4⟩, hl, hint⟩ := ih p.1 _ _ hi' he' (by rw [g4]; exact h0)
    refine ⟨t', ?_, ⟨s1.trans g1, s2.trans g2, s3.trans g3, s4.trans g4⟩, hl, ?_⟩
    · rw [List.replicate_succ, WalkTasks.pids]
      simp only [hp, Bind.bind, Except.bind]
      exact r
    · rw [hint, g4]
      congr 2
      · rw [pow_succ (1 - t.lambda) (n + 1)]; field_simp; ring
      · rw [pow_succ (1 - t.lambda) (n + 1)]; field_simp; ring

/-- **C193 (steady state).** For a constant error and a constant duration, with a leak in `(0, 2)`: the offset applied to the CoM tends
to `(Kp + Ki d / lambda) e`, a proportional correction: the integral does not grow until the error is cancelled. -/
theorem C193_steady (c : V2) (d : ℝ) (t : WalkTasks) (i e : V2) (hi : t.integral = some i) (he : t.lastError = some e)
    (h0 : 0 < t.lambda) (h2 : t.lambda < 2) :
    ∃ u : Nat → V2, (∀ n, ∃ t' p, t.pids (List.replicate (n + 1) (c, d)) = .ok t' ∧ t'.pid c d = .ok p ∧ p.2 = u n) ∧
      Tendsto (fun n => (u n).x) atTop (𝓝 ((t.Kp + t.Ki * d / t.lambda) * c.x)) ∧
      Tendsto (fun n => (u n).y) atTop (𝓝 ((t.Kp + t.Ki * d / t.lambda) * c.y)) := by
  have hpow : Tendsto (fun n : Nat => (1 - t.lambda) ^ n) atTop (𝓝 0) :=
    tendsto_pow_atTop_nhds_zero_of_abs_lt_one (abs_lt.2 ⟨by linarith, by linarith⟩)
  have lim : ∀ x z : ℝ, Tendsto (fun n : Nat => (t.Kp + t.Ki * d / t.lambda) * x +
      t.Ki * ((1 - t.lambda) ^ (n + 1 + 1) * (z - x * d / t.lambda))) atTop (𝓝 ((t.Kp + t.Ki * d / t.lambda) * x)) := by
    intro x z
    have h := (((hpow.comp (tendsto_add_atTop_nat 2)).mul_const (z - x * d / t.lambda)).const_mul t.Ki).const_add
      ((t.Kp + t.Ki * d / t.lambda) * x)
    rw [zero_mul, mul_zero, add_zero] at h
    exact h
  refine ⟨fun n => ⟨(t.Kp + t.Ki * d / t.lambda) * c.x + t.Ki * ((1 - t.lambda) ^ (n + 1 + 1) * (i.x - c.x * d / t.lambda)),
    (t.Kp + t.Ki * d / t.lambda) * c.y + t.Ki * ((1 - t.lambda) ^ (n + 1 + 1) * (i.y - c.y * d / t.lambda))⟩, fun n => ?_,
    lim _ _, lim _ _⟩
  obtain ⟨t', r, ⟨s1, s2, s3, s4⟩, hl, hint⟩ := constant_calls c d n t i e hi he h0.ne'
  obtain ⟨p, hp, -, -, -, px, py⟩ := pid_call t' _ _ hint hl c d
  refine ⟨t', p, r, hp, ?_⟩
  have hl0 : t.lambda ≠ 0 := h0.ne'
  rw [show p.2 = ⟨p.2.x, p.2.y⟩ from rfl, px, py, s1, s2, s3, s4, sub_self, sub_self, zero_div]
  congr 1
  · rw [pow_succ (1 - t.lambda) (n + 1)]; field_simp; ring
  · rw [pow_succ (1 - t.lambda) (n + 1)]; field_simp; ring

/-- Without a leak, the integral of a constant error grows without bound. -/
theorem C193_no_leak (c : V2) (d : ℝ) : ∀ (n : Nat) (t : WalkTasks) (i e : V2), t.integral = some i → t.lastError = some e →
    t.lambda = 0 → ∃ t', t.pids (List.replicate n (c, d)) = .ok t' ∧
      t'.integral = some ⟨i.x + n * (c.x * d), i.y + n * (c.y * d)⟩ := by
  intro n
  induction n with
  | zero =>
    intro t i e hi he h0
    exact ⟨t, rfl, by rw [hi]; simp⟩
  | succ n ih =>
    intro t i e hi he h0
    obtain ⟨p, hp, ⟨g1, g2, g3, g4⟩, he', hi', -, -⟩ := pid_call t i e hi he c d
    obtain ⟨t', r, hint⟩ := ih p.1 _ _ hi' he' (by rw [g4]; exact h0)
    refine ⟨t', ?_, ?_⟩
    · rw [List.replicate_succ, WalkTasks.pids]
      simp only [hp, Bind.bind, Except.bind]
      exact r
    · rw [hint, h0]
      congr 2
      · push_cast; ring
      · push_cast; ring

/-- The default leak, gains of 1/2, errors of at most 2 cm every 5 ms: the integral stays below 0.01. -/
example : ∃ (t : WalkTasks) (l : Calls), t.integral = some ⟨0, 0⟩ ∧ t.lastError = some ⟨0, 0⟩ ∧ 0 < t.lambda ∧ t.lambda ≤ 1 ∧
    l.length = 2 ∧ l.Bounded (2 / 100) (5 / 1000) (5 / 1000) ∧ 2 / 100 * (5 / 1000) / t.lambda ≤ 1 / 100 := by
  refine ⟨{ Kp := 1 / 2, Ki := 1 / 2, integral := some ⟨0, 0⟩, lastError := some ⟨0, 0⟩ },
    [(⟨1 / 100, -1 / 100⟩, 5 / 1000), (⟨2 / 100, 0⟩, 5 / 1000)], rfl, rfl, by norm_num, by norm_num, rfl, ?_, by norm_num⟩
  intro c hc
  rcases List.mem_cons.1 hc with rfl | hc
  · norm_num [abs_of_nonneg]
  · rw [List.mem_singleton] at hc
    subst hc
    norm_num [abs_of_nonneg]

end Verif.Humanoid
