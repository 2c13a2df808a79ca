/-
Where the planned ZMP is between the planning timesteps (C191).
-/
import Verif.Humanoid.ZmpProps

namespace Verif.Humanoid
open Verif.Tools Verif.Problem Verif.Robot

/-! ## C191 -/

/-- The signed distance to a line is affine, of slope at most 1. -/
theorem signedDistance_affine (A B : P2) : ∃ c nx ny : ℝ, nx ^ 2 + ny ^ 2 ≤ 1 ∧
    ∀ P : P2, signedDistance A B P = c + nx * P.1 + ny * P.2 := by
  obtain ⟨s, hs⟩ : ∃ s, s = Real.sqrt ((B.1 - A.1) ^ 2 + (B.2 - A.2) ^ 2) := ⟨_, rfl⟩
  have h2 : s ^ 2 = (B.1 - A.1) ^ 2 + (B.2 - A.2) ^ 2 := by
    rw [hs]
    exact Real.sq_sqrt (by positivity)
  refine ⟨(-(B.2 - A.2) * A.1 + (B.1 - A.1) * A.2) / s, (B.2 - A.2) / s, -(B.1 - A.1) / s, ?_, fun P => ?_⟩
  · by_cases h0 : s = 0
    · rw [h0]
      simp
    · rw [div_pow, div_pow, ← add_div, div_le_one (by positivity), h2]
      exact le_of_eq (by ring)
  · unfold signedDistance
    rw [← hs]
    ring

theorem slope_bound (nx ny a b A : ℝ) (hn : nx ^ 2 + ny ^ 2 ≤ 1) (hA : 0 ≤ A) (h : a ^ 2 + b ^ 2 ≤ A ^ 2) :
    |nx * a + ny * b| ≤ A := by
  refine abs_le_of_sq_le_sq ?_ hA
  have h1 : (nx * a + ny * b) ^ 2 ≤ (nx ^ 2 + ny ^ 2) * (a ^ 2 + b ^ 2) := by nlinarith [sq_nonneg (nx * b - ny * a)]
  have h2 : (nx ^ 2 + ny ^ 2) * (a ^ 2 + b ^ 2) ≤ 1 * A ^ 2 := mul_le_mul hn h (by positivity) zero_le_one
  linarith

/-- A cubic is above the chord of its values less `h² / 8` times a bound on its second derivative at the ends. -/
theorem cubic_above (f0 v a j h r A m : ℝ) (hh : 0 < h) (h0 : 0 ≤ r) (h1 : r ≤ h) (ha : |a| ≤ A) (hb : |a + h * j| ≤ A)
    (m0 : m ≤ f0) (m1 : m ≤ f0 + h * v + h ^ 2 / 2 * a + h ^ 3 / 6 * j) :
    m - A * h ^ 2 / 8 ≤ f0 + r * v + r ^ 2 / 2 * a + r ^ 3 / 6 * j := by
  have hA : 0 ≤ A := (abs_nonneg _).trans ha
  have hβ : h * (a + j * (h + r) / 3) ≤ h * A := by
    have e : h * (a + j * (h + r) / 3) = a * ((2 * h - r) / 3) + (a + h * j) * ((h + r) / 3) := by ring
    rw [e]
    have k1 : a * ((2 * h - r) / 3) ≤ A * ((2 * h - r) / 3) :=
      mul_le_mul_of_nonneg_right ((le_abs_self a).trans ha) (by linarith)
    have k2 : (a + h * j) * ((h + r) / 3) ≤ A * ((h + r) / 3) :=
      mul_le_mul_of_nonneg_right ((le_abs_self _).trans hb) (by linarith)
    linarith
  have hβ : a + j * (h + r) / 3 ≤ A := le_of_mul_le_mul_left hβ hh
  have hr : r * (h - r) ≤ h ^ 2 / 4 := by nlinarith [sq_nonneg (h - 2 * r)]
  have hr0 : 0 ≤ r * (h - r) := mul_nonneg h0 (by linarith)
  have hd : r * (h - r) * (a + j * (h + r) / 3) ≤ h ^ 2 / 4 * A :=
    (mul_le_mul_of_nonneg_left hβ hr0).trans (mul_le_mul_of_nonneg_right hr hA)
  have hc : (h - r) * m + r * m ≤ (h - r) * f0 + r * (f0 + h * v + h ^ 2 / 2 * a + h ^ 3 / 6 * j) :=
    add_le_add (mul_le_mul_of_nonneg_left m0 (by linarith)) (mul_le_mul_of_nonneg_left m1 h0)
  have key : h * (f0 + r * v + r ^ 2 / 2 * a + r ^ 3 / 6 * j) =
      (h - r) * f0 + r * (f0 + h * v + h ^ 2 / 2 * a + h ^ 3 / 6 * j) - h * (r * (h - r) * (a + j * (h + r) / 3)) / 2 := by ring
  refine le_of_mul_le_mul_left ?_ hh
  rw [key]
  have := mul_le_mul_of_nonneg_left hd hh.le
  nlinarith

/-- The state at the next timestep. -/
theorem next_state {I : Integrator ℝ} {dt : ℝ} {m : Nat} {t0 : ℝ} (h : AxisOK I dt m t0) (sol : Nat → ℝ) (k d : Nat) (hd : d < 3) :
    axisState I sol (k + 1) d = motion (axisState I sol k) (inputs I sol k) d dt := by
  rw [axisState_succ h sol k d hd]

/-- Between two timesteps at which the ZMP is inside a polygon by `margin`. -/
theorem inside_between {l : Lipm} (h : LipmOK l) (hdt : 0 < l.dt) (omega2 : ℝ) (sol : Nat → ℝ) (k : Nat) (hk : k < l.timesteps)
    (polygon : List V2) (margin A : ℝ) (hA : 0 ≤ A) (z0 : InsideBy margin polygon (zmpAt l omega2 k sol))
    (z1 : InsideBy margin polygon (zmpAt l omega2 (k + 1) sol))
    (a0 : (l.stateAt sol k 2).x ^ 2 + (l.stateAt sol k 2).y ^ 2 ≤ A ^ 2)
    (a1 : (l.stateAt sol (k + 1) 2).x ^ 2 + (l.stateAt sol (k + 1) 2).y ^ 2 ≤ A ^ 2) (r : ℝ) (hr0 : 0 ≤ r) (hr1 : r ≤ l.dt) :
    ∃ z, (l.getTrajectory sol).zmp (l.tStart + k * l.dt + r) omega2 = .ok z ∧
      InsideBy (margin - A * l.dt ^ 2 / 8) polygon z := by
  obtain ⟨X, hX⟩ : ∃ X, X = axisState l.x sol k := ⟨_, rfl⟩
  obtain ⟨Y, hY⟩ : ∃ Y, Y = axisState l.y sol k := ⟨_, rfl⟩
  obtain ⟨u, hu⟩ : ∃ u, u = inputs l.x sol k := ⟨_, rfl⟩
  obtain ⟨v, hv⟩ : ∃ v, v = inputs l.y sol k := ⟨_, rfl⟩
  have sx : ∀ d < 3, axisState l.x sol (k + 1) d = motion X u d l.dt := fun d hd => by
    rw [hX, hu]; exact next_state h.x sol k d hd
  have sy : ∀ d < 3, axisState l.y sol (k + 1) d = motion Y v d l.dt := fun d hd => by
    rw [hY, hv]; exact next_state h.y sol k d hd
  have hval : ∀ d : Nat, d < 3 → (l.getTrajectory sol).component (l.tStart + k * l.dt + r) d = .ok ⟨motion X u d r, motion Y v d r⟩ := by
    intro d hd
    rcases hr1.lt_or_eq with hlt | heq
    · rw [hX, hY, hu, hv]
      exact (traj_inside h hdt sol k hk r hr0 hlt).1 d hd
    · have := traj_component h hdt (by omega) sol (k + 1) d (by omega) hd
      push_cast at this
      rw [heq, ← sx d hd, ← sy d hd, show l.tStart + k * l.dt + l.dt = l.tStart + (k + 1) * l.dt by ring, this]
      rfl
  refine ⟨⟨motion X u 0 r - 1 / omega2 * motion X u 2 r, motion Y v 0 r - 1 / omega2 * motion Y v 2 r⟩, ?_, fun i hi => ?_⟩
  · unfold LTraj.zmp
    have p0 : (l.getTrajectory sol).pos (l.tStart + k * l.dt + r) = .ok ⟨motion X u 0 r, motion Y v 0 r⟩ := hval 0 (by omega)
    have p2 : (l.getTrajectory sol).acc (l.tStart + k * l.dt + r) = .ok ⟨motion X u 2 r, motion Y v 2 r⟩ := hval 2 (by omega)
    rw [p0, p2]
    rfl
  · have e0 := z0 i hi
    have e1 := z1 i hi
    obtain ⟨c, nx, ny, hn, hP⟩ := signedDistance_affine (vertex (polygon.map fun v => (v.x, v.y)) i)
      (vertex (polygon.map fun v => (v.x, v.y)) ((i + 1) % polygon.length))
    rw [hP] at e0 e1 ⊢
    simp only [zmpAt, Lipm.stateAt, sx 0 (by omega), sx 2 (by omega), sy 0 (by omega), sy 2 (by omega), ← hX, ← hY] at e0 e1 a0 a1
    have b0 := slope_bound nx ny _ _ A hn hA a0
    have b1 := slope_bound nx ny _ _ A hn hA a1
    simp only [motion] at e0 e1 b1 ⊢
    have := cubic_above (c + nx * (X 0 - X 2 / omega2) + ny * (Y 0 - Y 2 / omega2))
      (nx * (X 1 - u / omega2) + ny * (Y 1 - v / omega2)) (nx * X 2 + ny * Y 2) (nx * u + ny * v) l.dt r A margin hdt hr0 hr1 b0
      (by rw [show nx * X 2 + ny * Y 2 + l.dt * (nx * u + ny * v) = nx * (X 2 + l.dt * u) + ny * (Y 2 + l.dt * v) by ring]; exact b1)
      e0 (e1.trans (le_of_eq (by ring)))
    exact this.trans (le_of_eq (by ring))

/-- **C191.** With hard constraints and a sound QP solver, between two planning timesteps of a part the ZMP of the planned trajectory is
inside the polygon of the support by at least `zmp_margin - A dt² / 8`, where `A` bounds the acceleration of the CoM at these two timesteps.
This holds from the first timestep after the start of the part, and from its start if the ZMP is there in the polygon by `zmp_margin`. -/
theorem C191 (g : Wpg) (hsoft : g.soft = false) (hor : SolverSound g.oracle)
    (t0 : ℝ) (ss : List Support) (hstand : ∀ s ∈ ss, Stands s) (init : ComState) (hd : ∀ s ∈ ss, 0 < g.duration s)
    (hqr : ∀ r, g.planLoop t0 init ss t0 0 none = .ok r →
      QRContract (newProblem r.2.1) g.qr (r.1.map Planned.cs).flatten)
    (parts : List Part) (te : ℝ) (h : g.planCom t0 ss init = .ok (some (parts, te)))
    (i : Nat) (hi : i < parts.length) (hi' : i < ss.length) (hrep : NoRepeat (ss[i].supportPolygon g.hull).2)
    (dt : ℝ) (hdt : dt = g.duration ss[i] / g.timesteps ss[i]) (k : Nat) (hk : k < g.timesteps ss[i])
    (hstart : k = 0 → ∃ z, parts[i].com.zmp parts[i].tStart g.omega2 = .ok z ∧
      InsideBy g.p.zmpMargin (ss[i].supportPolygon g.hull).2 z)
    (A : ℝ) (hA : 0 ≤ A) (a b : V2) (ha : parts[i].com.acc (parts[i].tStart + k * dt) = .ok a) (ha' : a.x ^ 2 + a.y ^ 2 ≤ A ^ 2)
    (hb : parts[i].com.acc (parts[i].tStart + (k + 1) * dt) = .ok b) (hb' : b.x ^ 2 + b.y ^ 2 ≤ A ^ 2)
    (r : ℝ) (hr0 : 0 ≤ r) (hr1 : r ≤ dt) :
    ∃ z, parts[i].com.zmp (parts[i].tStart + k * dt + r) g.omega2 = .ok z ∧
      InsideBy (g.p.zmpMargin - A * dt ^ 2 / 8) (ss[i].supportPolygon g.hull).2 z := by
  have hends := (C108 g hsoft hor t0 ss hstand init hd hqr parts te h i hi hi').1 hrep
  obtain ⟨ps, n, sol, hc, hloop, hq, hl, hg⟩ := planCom_loop g t0 ss init hd parts te h
  obtain ⟨hlen, -, hget⟩ := hc.get
  obtain ⟨b1, b2, b3, -⟩ := hg i (by omega) hi
  obtain ⟨a1, a2, a3, a4, a5, a6, a7, -⟩ := hget i (by omega) hi'
  have hm := timesteps_pos g ss[i]
  have hldt : ps[i].lipm.dt = dt := by rw [a4, hdt]
  have hpos : 0 < ps[i].lipm.dt := by rw [a4]; exact div_pos (hd _ (List.getElem_mem hi')) (by exact_mod_cast hm)
  have hts : ps[i].lipm.tStart = parts[i].tStart := by rw [b1, a6]
  rw [← hdt] at hends
  have at_step : ∀ q : Nat, q ≤ g.timesteps ss[i] → ∀ d : Nat, d < 3 →
      parts[i].com.component (parts[i].tStart + q * dt) d = .ok (ps[i].lipm.stateAt sol q d) := by
    intro q hq3 d hd3
    have := traj_component a3 hpos (by omega) sol q d (by omega) hd3
    rw [hldt, hts, ← b3] at this
    exact this
  have zmp_step : ∀ q : Nat, q ≤ g.timesteps ss[i] → ∀ z, parts[i].com.zmp (parts[i].tStart + q * dt) g.omega2 = .ok z →
      z = zmpAt ps[i].lipm g.omega2 q sol := by
    intro q hq3 z hz
    have p0 : parts[i].com.pos (parts[i].tStart + q * dt) = .ok (ps[i].lipm.stateAt sol q 0) := at_step q hq3 0 (by omega)
    have p2 : parts[i].com.acc (parts[i].tStart + q * dt) = .ok (ps[i].lipm.stateAt sol q 2) := at_step q hq3 2 (by omega)
    unfold LTraj.zmp at hz
    rw [p0, p2] at hz
    cases hz
    unfold zmpAt
    congr 1 <;> ring
  have hin : ∀ q : Nat, q ≤ g.timesteps ss[i] → (q = 0 → k = 0) →
      InsideBy g.p.zmpMargin (ss[i].supportPolygon g.hull).2 (zmpAt ps[i].lipm g.omega2 q sol) := by
    intro q hq3 hq0
    by_cases h0 : q = 0
    · obtain ⟨z, hz, hin⟩ := hstart (hq0 h0)
      subst h0
      rw [← zmp_step 0 hq3 z (by simpa using hz)]
      exact hin
    · obtain ⟨z, hz, hin⟩ := hends q (by omega) hq3
      rw [← zmp_step q hq3 z hz]
      exact hin
  have e0 : a = ps[i].lipm.stateAt sol k 2 := by
    have : parts[i].com.acc (parts[i].tStart + k * dt) = .ok (ps[i].lipm.stateAt sol k 2) := at_step k (by omega) 2 (by omega)
    rw [ha] at this
    cases this; rfl
  have e1 : b = ps[i].lipm.stateAt sol (k + 1) 2 := by
    have : parts[i].com.acc (parts[i].tStart + (k + 1 : Nat) * dt) = .ok (ps[i].lipm.stateAt sol (k + 1) 2) :=
      at_step (k + 1) (by omega) 2 (by omega)
    push_cast at this
    rw [hb] at this
    cases this; rfl
  subst e0 e1
  obtain ⟨z, hz, hin'⟩ := inside_between a3 hpos g.omega2 sol k (by omega) _ g.p.zmpMargin A hA (hin k (by omega) id)
    (hin (k + 1) (by omega) (by omega)) ha' hb' r hr0 (by rw [hldt]; exact hr1)
  rw [hldt] at hin'
  rw [hldt, hts, ← b3] at hz
  exact ⟨z, hz, hin'⟩

/-- **C191 (middle).** In the middle of a timestep the ZMP is the middle of the ZMPs at its ends, less `dt² / 8` times the mean of the
accelerations there: the bound of `C191` is reached when the accelerations are equal. -/
theorem C191_middle {l : Lipm} (h : LipmOK l) (hdt : 0 < l.dt) (omega2 : ℝ) (sol : Nat → ℝ) (k : Nat) (hk : k < l.timesteps)
    (z0 z1 a0 a1 : V2) (hz0 : (l.getTrajectory sol).zmp (l.tStart + k * l.dt) omega2 = .ok z0)
    (hz1 : (l.getTrajectory sol).zmp (l.tStart + (k + 1) * l.dt) omega2 = .ok z1)
    (ha0 : (l.getTrajectory sol).acc (l.tStart + k * l.dt) = .ok a0)
    (ha1 : (l.getTrajectory sol).acc (l.tStart + (k + 1) * l.dt) = .ok a1) :
    (l.getTrajectory sol).zmp (l.tStart + k * l.dt + l.dt / 2) omega2 =
      .ok ⟨(z0.x + z1.x) / 2 - l.dt ^ 2 / 8 * ((a0.x + a1.x) / 2), (z0.y + z1.y) / 2 - l.dt ^ 2 / 8 * ((a0.y + a1.y) / 2)⟩ := by
  have c0 := fun d hd => traj_component h hdt (by omega) sol k d (by omega) hd
  have c1 := fun d hd => traj_component h hdt (by omega) sol (k + 1) d (by omega) hd
  have cm := (traj_inside h hdt sol k hk (l.dt / 2) (by linarith) (by linarith)).1
  push_cast at c1
  have p0 : (l.getTrajectory sol).pos (l.tStart + k * l.dt) = _ := c0 0 (by omega)
  have q0 : (l.getTrajectory sol).acc (l.tStart + k * l.dt) = _ := c0 2 (by omega)
  have p1 : (l.getTrajectory sol).pos (l.tStart + (k + 1) * l.dt) = _ := c1 0 (by omega)
  have q1 : (l.getTrajectory sol).acc (l.tStart + (k + 1) * l.dt) = _ := c1 2 (by omega)
  have pm : (l.getTrajectory sol).pos (l.tStart + k * l.dt + l.dt / 2) = _ := cm 0 (by omega)
  have qm : (l.getTrajectory sol).acc (l.tStart + k * l.dt + l.dt / 2) = _ := cm 2 (by omega)
  unfold LTraj.zmp at hz0 hz1 ⊢
  rw [p0, q0] at hz0
  rw [p1, q1] at hz1
  rw [q0] at ha0
  rw [q1] at ha1
  rw [pm, qm]
  cases hz0
  cases hz1
  cases ha0
  cases ha1
  simp only [Lipm.stateAt, next_state h.x sol k _ (show 0 < 3 by omega), next_state h.x sol k _ (show 2 < 3 by omega),
    next_state h.y sol k _ (show 0 < 3 by omega), next_state h.y sol k _ (show 2 < 3 by omega), motion, Bind.bind, Except.bind]
  congr 2 <;> ring

/-! ## The hypotheses are met -/

theorem demo_steps : demoWpg.timesteps demoSupport = 10 := by
  simp [Wpg.timesteps, demoSupport, Params.supportTimesteps, Support.isBoth, demoWpg, truncZ]

/-- In the concrete plan, between the first and the second timesteps, with the accelerations that it has. -/
example : ∃ parts te, demoWpg.planCom 0 [demoSupport] ⟨⟨0, 0⟩, ⟨0, 0⟩, ⟨0, 0⟩⟩ = .ok (some (parts, te)) ∧
    ∃ (hi : 0 < parts.length) (a b : V2), parts[0].com.acc (parts[0].tStart + 1 / 10) = .ok a ∧
      parts[0].com.acc (parts[0].tStart + 2 / 10) = .ok b ∧
      ∀ A r, 0 ≤ A → a.x ^ 2 + a.y ^ 2 ≤ A ^ 2 → b.x ^ 2 + b.y ^ 2 ≤ A ^ 2 → 0 ≤ r → r ≤ 1 / 10 → ∃ z,
        parts[0].com.zmp (parts[0].tStart + 1 / 10 + r) demoWpg.omega2 = .ok z ∧
        InsideBy (25 / 1000 - A / 800) (demoSupport.supportPolygon demoWpg.hull).2 z := by
  obtain ⟨parts, te, h⟩ := demo_plan
  have hd : ∀ s ∈ [demoSupport], 0 < demoWpg.duration s := by
    intro s hs; rw [List.mem_singleton] at hs; subst hs; rw [demo_duration]; norm_num
  have hs : ∀ s ∈ [demoSupport], Stands s := by
    intro s hs; rw [List.mem_singleton] at hs; subst hs; exact demo_stands
  have hlen := (C86 demoWpg 0 _ _ hd parts te h).1
  have hi : 0 < parts.length := by rw [hlen]; decide
  have hqr : ∀ r, demoWpg.planLoop 0 ⟨⟨0, 0⟩, ⟨0, 0⟩, ⟨0, 0⟩⟩ [demoSupport] 0 0 none = .ok r →
      QRContract (newProblem r.2.1) demoWpg.qr (r.1.map Planned.cs).flatten := by
    intro r hr hpos
    exfalso
    obtain ⟨r', hr', -, -, heq⟩ := planLoop_total demoWpg 0 ⟨⟨0, 0⟩, ⟨0, 0⟩, ⟨0, 0⟩⟩ [demoSupport] 0 0 none
      (fun s hs' => ⟨hs s hs', hd s hs', by
        rw [List.mem_singleton] at hs'; subst hs'; rw [demo_polygon]; decide⟩) (fun _ => rfl) (fun l hl => by cases hl)
    rw [hr] at hr'
    cases hr'
    have : nEqualities (r.1.map Planned.cs).flatten = 0 := by
      apply nEqualities_zero
      intro c hc
      obtain ⟨l, hl, hcl⟩ := List.mem_flatten.1 hc
      obtain ⟨p, hp, rfl⟩ := List.mem_map.1 hl
      refine heq (.inl fun s hs => ?_) p hp c hcl
      rw [List.mem_singleton] at hs; subst hs; rfl
    rw [this] at hpos
    simp at hpos
  obtain ⟨ps, n, sol, hc, hloop, hq, hl, hg⟩ := planCom_loop demoWpg 0 _ _ hd parts te h
  obtain ⟨hlen', -, hget⟩ := hc.get
  obtain ⟨b1, b2, b3, -⟩ := hg 0 (by omega) hi
  obtain ⟨a1, a2, a3, a4, a5, a6, a7, -⟩ := hget 0 (by omega) (by simp)
  have hdt : ps[0].lipm.dt = 1 / 10 := by
    rw [a4]
    show demoWpg.duration demoSupport / demoWpg.timesteps demoSupport = _
    rw [demo_duration, demo_steps]
    norm_num
  have ht : ps[0].lipm.timesteps = 10 := a5.trans demo_steps
  have hts : ps[0].lipm.tStart = parts[0].tStart := by rw [b1, a6]
  have hacc : ∀ k : Nat, k ≤ 10 → parts[0].com.acc (parts[0].tStart + k * (1 / 10)) = .ok (ps[0].lipm.stateAt sol k 2) := by
    intro k hk
    have := traj_component a3 (by rw [hdt]; norm_num) (by omega) sol k 2 (by omega) (by omega)
    rw [hdt, hts, ← b3] at this
    exact this
  refine ⟨parts, te, h, hi, ps[0].lipm.stateAt sol 1 2, ps[0].lipm.stateAt sol 2 2, by simpa using hacc 1 (by omega), ?_, fun A r hA h1 h2 h3 h4 => ?_⟩
  · have := hacc 2 (by omega)
    rw [show ((2 : Nat) : ℝ) * (1 / 10) = 2 / 10 by norm_num] at this
    exact this
  · obtain ⟨z, hz, hin⟩ := C191 demoWpg rfl choiceOracle_sound 0 [demoSupport] hs _ hd hqr parts te h 0 hi (by simp) demo_noRepeat (1 / 10)
      (by
        show (1 : ℝ) / 10 = demoWpg.duration demoSupport / demoWpg.timesteps demoSupport
        rw [demo_duration, demo_steps]
        norm_num) 1
      (by
        show 1 < demoWpg.timesteps demoSupport
        rw [demo_steps]
        norm_num) (fun h => absurd h one_ne_zero) A hA _ _ (hacc 1 (by omega)) h1 (by
        rw [show ((1 : Nat) : ℝ) + 1 = ((2 : Nat) : ℝ) by norm_num]
        exact hacc 2 (by omega)) h2 r h3 h4
    refine ⟨z, by simpa using hz, ?_⟩
    have e : demoWpg.p.zmpMargin - A * (1 / 10) ^ 2 / 8 = 25 / 1000 - A / 800 := by
      have : demoWpg.p.zmpMargin = 25 / 1000 := rfl
      rw [this]
      ring
    rw [e] at hin
    exact hin

end Verif.Humanoid
