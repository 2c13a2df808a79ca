/-
Properties C84, C85: the quantities of the LIPM.
-/
import Mathlib.Analysis.Calculus.Deriv.Pow
import Mathlib.Tactic.LinearCombination
import Verif.Problem.PolygonProps
import Verif.Humanoid.Lipm

namespace Verif.Humanoid
open Verif.Problem Verif.Tools Finset

/-! ## Built LIPMs -/

/-- One axis of a LIPM built by a constructor. -/
structure AxisOK (I : Integrator ℝ) (dt : ℝ) (timesteps : Nat) (tStart : ℝ) : Prop where
  built : Built I jerkAB
  order : I.order = 3
  size : I.var.size = timesteps
  dt : I.dt = dt
  tStart : I.tStart = tStart

/-- A LIPM built by one of the constructors. -/
structure LipmOK (l : Lipm) : Prop where
  x : AxisOK l.x l.dt l.timesteps l.tStart
  y : AxisOK l.y l.dt l.timesteps l.tStart

theorem axisOK (n m : Nat) (X0 : Expr ℝ) (dt : ℝ) (I : Integrator ℝ)
    (h : Integrator.mkOrder ⟨n, n + m⟩ X0 3 jerkAB dt = .ok I) (t0 : ℝ) :
    AxisOK { I with tStart := t0 } dt m t0 ∧ I.X0 = X0 ∧ I.var = ⟨n, n + m⟩ := by
  have hb := built_mkOrder ⟨n, n + m⟩ (by simp) X0 3 jerkAB dt I h t0
  unfold Integrator.mkOrder at h
  split at h
  · cases h
  · cases h
    exact ⟨⟨hb, rfl, by simp [Integrator.mk', Var.size], rfl, rfl⟩, rfl, rfl⟩

theorem fromState_ok (n : Nat) (dt : ℝ) (m : Nat) (t0 : ℝ) (pos vel acc : V2) :
    ∃ l n', Lipm.fromState n dt m t0 pos vel acc = .ok (l, n') ∧ n' = n + m + m ∧ LipmOK l ∧
      l.dt = dt ∧ l.timesteps = m ∧ l.tStart = t0 ∧ l.x.var = ⟨n, n + m⟩ ∧ l.y.var = ⟨n + m, n + m + m⟩ ∧
      l.x.X0 = initialState pos.x vel.x acc.x ∧ l.y.X0 = initialState pos.y vel.y acc.y := by
  have hx : ∃ I, Integrator.mkOrder ⟨n, n + m⟩ (initialState pos.x vel.x acc.x) 3 jerkAB dt = .ok I := ⟨_, rfl⟩
  have hy : ∃ I, Integrator.mkOrder ⟨n + m, n + m + m⟩ (initialState pos.y vel.y acc.y) 3 jerkAB dt = .ok I := ⟨_, rfl⟩
  obtain ⟨I, hI⟩ := hx
  obtain ⟨J, hJ⟩ := hy
  obtain ⟨a1, a2, a3⟩ := axisOK n m _ dt I hI t0
  obtain ⟨b1, b2, b3⟩ := axisOK (n + m) m _ dt J hJ t0
  refine ⟨⟨dt, m, t0, { I with tStart := t0 }, { J with tStart := t0 }⟩, _, ?_, rfl, ⟨a1, b1⟩, rfl, rfl, rfl, a3, b3,
    a2, b2⟩
  unfold Lipm.fromState
  simp only [hI, hJ]
  rfl

theorem fromPrevious_ok (n : Nat) (dt : ℝ) (m : Nat) (t0 : ℝ) (p : Lipm) (hp : LipmOK p) :
    ∃ l n' ex ey, Lipm.fromPrevious n dt m t0 p = .ok (l, n') ∧ n' = n + m + m ∧ LipmOK l ∧
      l.dt = dt ∧ l.timesteps = m ∧ l.tStart = t0 ∧ l.x.var = ⟨n, n + m⟩ ∧ l.y.var = ⟨n + m, n + m + m⟩ ∧
      p.x.expr (p.x.var.size : Nat) (-1) = .ok ex ∧ p.y.expr (p.y.var.size : Nat) (-1) = .ok ey ∧
      l.x.X0 = ex ∧ l.y.X0 = ey := by
  obtain ⟨ex, hex, rx, -⟩ := C24_state hp.x.built p.x.var.size (le_refl _)
  obtain ⟨ey, hey, ry, -⟩ := C24_state hp.y.built p.y.var.size (le_refl _)
  rw [hp.x.order] at rx
  rw [hp.y.order] at ry
  have hx : ∃ I, Integrator.mkOrder ⟨n, n + m⟩ ex 3 jerkAB dt = .ok I :=
    ⟨_, by unfold Integrator.mkOrder; rw [if_neg (not_not.2 rx)]⟩
  have hy : ∃ I, Integrator.mkOrder ⟨n + m, n + m + m⟩ ey 3 jerkAB dt = .ok I :=
    ⟨_, by unfold Integrator.mkOrder; rw [if_neg (not_not.2 ry)]⟩
  obtain ⟨I, hI⟩ := hx
  obtain ⟨J, hJ⟩ := hy
  obtain ⟨a1, a2, a3⟩ := axisOK n m _ dt I hI t0
  obtain ⟨b1, b2, b3⟩ := axisOK (n + m) m _ dt J hJ t0
  refine ⟨⟨dt, m, t0, { I with tStart := t0 }, { J with tStart := t0 }⟩, _, ex, ey, ?_, rfl, ⟨a1, b1⟩, rfl, rfl, rfl,
    a3, b3, hex, hey, a2, b2⟩
  unfold Lipm.fromPrevious
  rw [C24_last_step, hex, C24_last_step, hey]
  show (do let x ← Integrator.mkOrder ⟨n, n + m⟩ ex 3 jerkAB dt; _) = _
  rw [hI]
  show (do let y ← Integrator.mkOrder ⟨n + m, n + m + m⟩ ey 3 jerkAB dt; _) = _
  rw [hJ]
  rfl

/-! ## The motion between two timesteps -/

/-- Specification: the motion of constant jerk `u` from the state `X` (position, velocity, acceleration), `r` seconds
later. -/
noncomputable def motion (X : Nat → ℝ) (u : ℝ) : Nat → ℝ → ℝ
  | 0, r => X 0 + r * X 1 + r ^ 2 / 2 * X 2 + r ^ 3 / 6 * u
  | 1, r => X 1 + r * X 2 + r ^ 2 / 2 * u
  | 2, r => X 2 + r * u
  | _, _ => u

/-- Each component of the motion is the derivative of the previous one, and the jerk of the last one. -/
theorem motion_deriv (X : Nat → ℝ) (u : ℝ) (d : Nat) (hd : d < 3) (r : ℝ) :
    HasDerivAt (motion X u d) (motion X u (d + 1) r) r := by
  have e : d = 0 ∨ d = 1 ∨ d = 2 := by omega
  rcases e with rfl | rfl | rfl
  · show HasDerivAt (fun r => X 0 + r * X 1 + r ^ 2 / 2 * X 2 + r ^ 3 / 6 * u) (X 1 + r * X 2 + r ^ 2 / 2 * u) r
    have h := ((((hasDerivAt_id r).mul_const (X 1)).const_add (X 0)).fun_add
      (((hasDerivAt_pow 2 r).div_const 2).mul_const (X 2))).fun_add (((hasDerivAt_pow 3 r).div_const 6).mul_const u)
    refine h.congr_deriv ?_
    push_cast; ring
  · show HasDerivAt (fun r => X 1 + r * X 2 + r ^ 2 / 2 * u) (X 2 + r * u) r
    have h := (((hasDerivAt_id r).mul_const (X 2)).const_add (X 1)).fun_add
      (((hasDerivAt_pow 2 r).div_const 2).mul_const u)
    refine h.congr_deriv ?_
    push_cast; ring
  · show HasDerivAt (fun r => X 2 + r * u) u r
    have h := ((hasDerivAt_id r).mul_const u).const_add (X 2)
    refine h.congr_deriv ?_
    simp

theorem jerkAB_motion (X : Nat → ℝ) (u r : ℝ) (d : Nat) (hd : d < 3) :
    mvec 3 (jerkAB r).1 X d + (jerkAB r).2 d * u = motion X u d r := by
  have hz : FollowsChain 3 u (motion X u) := by
    intro i t hi
    refine (motion_deriv X u i hi t).congr_deriv ?_
    have e : i = 0 ∨ i = 1 ∨ i = 2 := by omega
    rcases e with rfl | rfl | rfl <;> simp [motion]
  rw [C25_chain 3 u _ hz r d hd]
  unfold jerkAB mvec
  congr 1
  refine sum_congr rfl fun j hj => ?_
  have hj := mem_range.1 hj
  have e : j = 0 ∨ j = 1 ∨ j = 2 := by omega
  rcases e with rfl | rfl | rfl <;> simp [motion]

/-- Specification: the state of an axis after `k` timesteps, for the jerks read in `sol`. -/
noncomputable def axisState (I : Integrator ℝ) (sol : Nat → ℝ) (k : Nat) : Nat → ℝ :=
  stateAfter 3 I.A I.B (fun j => I.X0.rowVal sol j) (inputs I sol) k

variable {I : Integrator ℝ} {dt : ℝ} {m : Nat} {t0 : ℝ}

theorem axisState_succ (h : AxisOK I dt m t0) (sol : Nat → ℝ) (k d : Nat) (hd : d < 3) :
    axisState I sol (k + 1) d = motion (axisState I sol k) (inputs I sol k) d dt := by
  rw [← jerkAB_motion _ _ _ d hd, ← h.dt, ← h.built.A, ← h.built.B]
  rfl

theorem axisState_zero (sol : Nat → ℝ) (d : Nat) : axisState I sol 0 d = I.X0.rowVal sol d := rfl

theorem axis_expr (h : AxisOK I dt m t0) (k d : Nat) (hk : k ≤ m) (hd : d < 3) :
    ∃ e, I.expr k d = .ok e ∧ e.rows = 1 ∧ ∀ sol, e.rowVal sol 0 = axisState I sol k d := by
  obtain ⟨e, h1, h2, h3⟩ := C24_component h.built k d (by rw [h.size]; exact hk) (by rw [h.order]; exact hd)
  refine ⟨e, h1, h2, fun sol => ?_⟩
  rw [h3, h.order]
  rfl

theorem axis_input (h : AxisOK I dt m t0) (k : Nat) (hk : k < m) :
    ∃ e, I.expr k 3 = .ok e ∧ e.rows = 1 ∧ ∀ sol, e.rowVal sol 0 = inputs I sol k := by
  obtain ⟨e, h1, h2, h3⟩ := C24_input h.built k (by rw [h.size]; exact hk)
  rw [h.order] at h1
  exact ⟨e, h1, h2, h3⟩

/-- The trajectory of an axis. -/
noncomputable def axisTraj (I : Integrator ℝ) (sol : Nat → ℝ) : Trajectory ℝ :=
  { I.makeTrajectory sol (sliceOf I.var sol) with tStart := I.tStart }

/-- The values of the trajectory, once the index of the timestep is known. -/
theorem value_at (h : AxisOK I dt m t0) (sol : Nat → ℝ) (t r : ℝ) (k : Nat) (hk : k < m)
    (hidx : (let f : Int := ⌊(t - t0) / dt⌋
      let a : Int := if f < 0 then 0 else f
      (if (m : Int) ≤ a then (m : Int) - 1 else a)) = (k : Int))
    (hr : max 0 (min dt (t - t0 - (k : ℝ) * dt)) = r) :
    (∀ d : Nat, d < 3 → (axisTraj I sol).value t d = .ok (motion (axisState I sol k) (inputs I sol k) d r)) ∧
    (axisTraj I sol).value t 3 = .ok (inputs I sol k) := by
  have hlen : (sliceOf I.var sol).length = m := by simp [sliceOf, h.size]
  have hkf : (keyframes I.order I.A I.B (fun i => I.X0.rowVal sol i) (sliceOf I.var sol)).getD k (fun _ => 0)
      = axisState I sol k := by
    funext i
    rw [keyframes_getD I.order I.A I.B (sliceOf I.var sol) _ (inputs I sol)
      (fun k hk => sliceOf_getD I.var sol k (by rw [h.size, ← hlen]; exact hk)) k (by omega) i, h.order]
    rfl
  have hu : (sliceOf I.var sol).getD k 0 = inputs I sol k := sliceOf_getD I.var sol k (by rw [h.size]; exact hk)
  simp only at hidx
  have hb := h.built.ab
  refine ⟨fun d hd => ?_, ?_⟩
  · unfold Trajectory.value checkDiff axisTraj Integrator.makeTrajectory
    simp only [Bool.false_eq_true, if_false, hlen, h.order, h.tStart, h.dt]
    rw [if_neg (by omega)]
    show (if _ < (0 : Int) then _ else _) = _
    rw [hidx, if_neg (by omega), if_neg (by omega)]
    simp only [Int.toNat_natCast, Int.cast_natCast]
    rw [hr, ← h.order, hkf, hu, h.order, hb, jerkAB_motion _ _ _ d hd]
    rfl
  · unfold Trajectory.value checkDiff axisTraj Integrator.makeTrajectory
    simp only [Bool.false_eq_true, if_false, hlen, h.order, h.tStart, h.dt]
    rw [if_neg (by omega)]
    show (if _ < (0 : Int) then _ else _) = _
    rw [hidx, if_neg (by omega), if_pos (by rfl)]
    simp only [Int.toNat_natCast]
    rw [hu]
    rfl

/-- Between two timesteps (the second excluded), the trajectory is the motion of constant jerk. -/
theorem value_inside (h : AxisOK I dt m t0) (hdt : 0 < dt) (sol : Nat → ℝ) (k : Nat) (hk : k < m) (r : ℝ)
    (h0 : 0 ≤ r) (h1 : r < dt) :
    (∀ d : Nat, d < 3 → (axisTraj I sol).value (t0 + k * dt + r) d
      = .ok (motion (axisState I sol k) (inputs I sol k) d r)) ∧
    (axisTraj I sol).value (t0 + k * dt + r) 3 = .ok (inputs I sol k) := by
  have hq : (t0 + k * dt + r - t0) / dt = k + r / dt := by field_simp; ring
  have hf : ⌊(t0 + k * dt + r - t0) / dt⌋ = (k : Int) := by
    rw [hq, Int.floor_eq_iff]
    push_cast
    refine ⟨by linarith [div_nonneg h0 hdt.le], ?_⟩
    have : r / dt < 1 := (div_lt_one hdt).2 h1
    linarith
  refine value_at h sol _ r k hk ?_ ?_
  · simp only [hf]
    rw [if_neg (by omega), if_neg (by omega)]
  · have e : t0 + k * dt + r - t0 - (k : ℝ) * dt = r := by ring
    rw [e, min_eq_right h1.le, max_eq_right h0]

/-- At a timestep the trajectory is the state. -/
theorem value_boundary (h : AxisOK I dt m t0) (hdt : 0 < dt) (hm : 0 < m) (sol : Nat → ℝ) (k : Nat) (hk : k ≤ m)
    (d : Nat) (hd : d < 3) : (axisTraj I sol).value (t0 + k * dt) d = .ok (axisState I sol k d) := by
  rcases Nat.lt_or_ge k m with hlt | hge
  · have := (value_inside h hdt sol k hlt 0 (le_refl _) hdt).1 d hd
    rw [add_zero] at this
    rw [this]
    have e : d = 0 ∨ d = 1 ∨ d = 2 := by omega
    rcases e with rfl | rfl | rfl <;> simp [motion]
  · have hkm : k = m := by omega
    subst hkm
    obtain ⟨j, rfl⟩ : ∃ j, k = j + 1 := ⟨k - 1, by omega⟩
    rw [axisState_succ h sol j d hd]
    refine (value_at h sol _ dt j (by omega) ?_ ?_).1 d hd
    · have hq : (t0 + ((j + 1 : Nat) : ℝ) * dt - t0) / dt = ((j + 1 : Nat) : Int) := by
        push_cast; field_simp; ring
      have hneg : ¬ (((j + 1 : Nat) : Int) < 0) := by omega
      simp only [hq, Int.floor_intCast, if_neg hneg, le_refl, if_true]
      omega
    · have e : t0 + ((j + 1 : Nat) : ℝ) * dt - t0 - (j : ℝ) * dt = dt := by push_cast; ring
      rw [e, min_self, max_eq_right hdt.le]

/-! ## C84 -/

/-- Both rows of an expression. -/
noncomputable def pointAt (e : Expr ℝ) (sol : Nat → ℝ) : V2 := ⟨e.rowVal sol 0, e.rowVal sol 1⟩

theorem stack_point (a b : Expr ℝ) (ha : a.rows = 1) (hb : b.rows = 1) (sol : Nat → ℝ) :
    (a.stack b).rows = 2 ∧ pointAt (a.stack b) sol = ⟨a.rowVal sol 0, b.rowVal sol 0⟩ := by
  have := pointOf_stack a b ha hb sol
  refine ⟨this.1, ?_⟩
  have h := this.2
  unfold pointOf at h
  unfold pointAt
  rw [(Prod.mk.inj h).1, (Prod.mk.inj h).2]

/-- An expression of the code evaluates to `f sol`, on two rows. -/
def Evaluates (r : Except Err (Expr ℝ)) (f : (Nat → ℝ) → V2) : Prop :=
  ∃ e, r = .ok e ∧ e.rows = 2 ∧ ∀ sol, pointAt e sol = f sol

/-- Specification: component `d` of the state of the LIPM at timestep `k`. -/
noncomputable def Lipm.stateAt (l : Lipm) (sol : Nat → ℝ) (k d : Nat) : V2 :=
  ⟨axisState l.x sol k d, axisState l.y sol k d⟩

theorem component_evaluates {l : Lipm} (h : LipmOK l) (k d : Nat) (hk : k ≤ l.timesteps) (hd : d < 3) :
    Evaluates (l.component k d) fun sol => l.stateAt sol k d := by
  obtain ⟨a, ha, ra, va⟩ := axis_expr h.x k d hk hd
  obtain ⟨b, hb, rb, vb⟩ := axis_expr h.y k d hk hd
  refine ⟨a.stack b, ?_, (stack_point a b ra rb fun _ => 0).1, fun sol => ?_⟩
  · unfold Lipm.component; rw [ha, hb]; rfl
  · rw [(stack_point a b ra rb sol).2, va, vb]; rfl

theorem add_value (a b : Expr ℝ) (ha : a.rows = 1) (hb : b.rows = 1) (c : ℝ) :
    ∃ e, a.add (b.smul c) = .ok e ∧ e.rows = 1 ∧ ∀ sol, e.rowVal sol 0 = a.rowVal sol 0 + c * b.rowVal sol 0 := by
  obtain ⟨e, h1, h2, h3⟩ := add_rows_eq a (b.smul c) (by simp [Expr.smul, ha, hb])
  refine ⟨e, h1, by rw [h2, ha], fun sol => ?_⟩
  rw [h3 sol 0 (by omega)]
  congr 1
  unfold Expr.rowVal Expr.smul
  simp only
  rw [mul_add, mul_sum]
  congr 1
  · exact sum_congr rfl fun j _ => by ring
  · ring

theorem sub_value (a b : Expr ℝ) (ha : a.rows = 1) (hb : b.rows = 1) (c : ℝ) :
    ∃ e, a.sub (b.smul c) = .ok e ∧ e.rows = 1 ∧ ∀ sol, e.rowVal sol 0 = a.rowVal sol 0 - c * b.rowVal sol 0 := by
  obtain ⟨e, h1, h2, h3⟩ := add_value a (b.smul c) ha (by simp [Expr.smul, hb]) (-1)
  refine ⟨e, h1, h2, fun sol => ?_⟩
  rw [h3]
  have : (b.smul c).rowVal sol 0 = c * b.rowVal sol 0 := by
    unfold Expr.rowVal Expr.smul
    simp only
    rw [mul_add, mul_sum]
    congr 1
    · exact sum_congr rfl fun j _ => by ring
    · ring
  rw [this]; ring

theorem row_evaluates (l : Lipm) (r : Integrator ℝ → Except Err (Expr ℝ)) (f : Integrator ℝ → (Nat → ℝ) → ℝ)
    (hx : ∃ e, r l.x = .ok e ∧ e.rows = 1 ∧ ∀ sol, e.rowVal sol 0 = f l.x sol)
    (hy : ∃ e, r l.y = .ok e ∧ e.rows = 1 ∧ ∀ sol, e.rowVal sol 0 = f l.y sol) :
    Evaluates (do
      let a ← r l.x
      let b ← r l.y
      Except.ok (a.stack b)) fun sol => ⟨f l.x sol, f l.y sol⟩ := by
  obtain ⟨a, ha, ra, va⟩ := hx
  obtain ⟨b, hb, rb, vb⟩ := hy
  refine ⟨a.stack b, by rw [ha, hb]; rfl, (stack_point a b ra rb fun _ => 0).1, fun sol => ?_⟩
  rw [(stack_point a b ra rb sol).2, va, vb]

theorem traj_component {l : Lipm} (h : LipmOK l) (hdt : 0 < l.dt) (hm : 0 < l.timesteps) (sol : Nat → ℝ) (k d : Nat)
    (hk : k ≤ l.timesteps) (hd : d < 3) :
    (l.getTrajectory sol).component (l.tStart + k * l.dt) d = .ok (l.stateAt sol k d) := by
  have hx := value_boundary h.x hdt hm sol k hk d hd
  have hy := value_boundary h.y hdt hm sol k hk d hd
  unfold LTraj.component
  show (do
    let a ← (axisTraj l.x sol).value _ _
    let b ← (axisTraj l.y sol).value _ _
    Except.ok (⟨a, b⟩ : V2)) = _
  rw [hx, hy]
  rfl

/-- **C84.** For every LIPM built by a constructor, every timestep and every solution, there are a position `p`, a
velocity `v` and an acceleration `a` such that the expressions at the timestep and the trajectory at the corresponding
time all agree: `pos`, `vel`, `acc` are `p`, `v`, `a`, the DCM is `p + v/ω` and the ZMP is `p - a/ω²`. -/
theorem C84 (l : Lipm) (h : LipmOK l) (hdt : 0 < l.dt) (k : Nat) (hm : 0 < l.timesteps) (hk : k ≤ l.timesteps)
    (omega omega2 : ℝ) :
    ∃ p v a : (Nat → ℝ) → V2,
      (Evaluates (l.pos k) p ∧ Evaluates (l.vel k) v ∧ Evaluates (l.acc k) a ∧
        Evaluates (l.dcm k omega) (fun sol => ⟨(p sol).x + (v sol).x / omega, (p sol).y + (v sol).y / omega⟩) ∧
        Evaluates (l.zmp k omega2) (fun sol => ⟨(p sol).x - (a sol).x / omega2, (p sol).y - (a sol).y / omega2⟩)) ∧
      ∀ sol, let T := l.getTrajectory sol
        let t := l.tStart + k * l.dt
        T.pos t = .ok (p sol) ∧ T.vel t = .ok (v sol) ∧ T.acc t = .ok (a sol) ∧
        T.dcm t omega = .ok ⟨(p sol).x + (v sol).x / omega, (p sol).y + (v sol).y / omega⟩ ∧
        T.zmp t omega2 = .ok ⟨(p sol).x - (a sol).x / omega2, (p sol).y - (a sol).y / omega2⟩ := by
  refine ⟨fun sol => l.stateAt sol k 0, fun sol => l.stateAt sol k 1, fun sol => l.stateAt sol k 2,
    ⟨component_evaluates h k 0 hk (by omega), component_evaluates h k 1 hk (by omega),
      component_evaluates h k 2 hk (by omega), ?_, ?_⟩, fun sol => ?_⟩
  · have row : ∀ J, AxisOK J l.dt l.timesteps l.tStart → ∃ e, dcmRow J k omega = .ok e ∧ e.rows = 1 ∧
        ∀ sol, e.rowVal sol 0 = axisState J sol k 0 + axisState J sol k 1 / omega := by
      intro J hJ
      obtain ⟨a, ha, ra, va⟩ := axis_expr hJ k 0 hk (by omega)
      obtain ⟨b, hb, rb, vb⟩ := axis_expr hJ k 1 hk (by omega)
      obtain ⟨e, he, re, ve⟩ := add_value a b ra rb (1 / omega)
      refine ⟨e, ?_, re, fun sol => by rw [ve, va, vb]; ring⟩
      unfold dcmRow
      push_cast at ha hb
      rw [ha, hb]
      exact he
    exact row_evaluates l (fun J => dcmRow J k omega) (fun J sol => axisState J sol k 0 + axisState J sol k 1 / omega)
      (row l.x h.x) (row l.y h.y)
  · have row : ∀ J, AxisOK J l.dt l.timesteps l.tStart → ∃ e, zmpRow J k omega2 = .ok e ∧ e.rows = 1 ∧
        ∀ sol, e.rowVal sol 0 = axisState J sol k 0 - axisState J sol k 2 / omega2 := by
      intro J hJ
      obtain ⟨a, ha, ra, va⟩ := axis_expr hJ k 0 hk (by omega)
      obtain ⟨b, hb, rb, vb⟩ := axis_expr hJ k 2 hk (by omega)
      obtain ⟨e, he, re, ve⟩ := sub_value a b ra rb (1 / omega2)
      refine ⟨e, ?_, re, fun sol => by rw [ve, va, vb]; ring⟩
      unfold zmpRow
      push_cast at ha hb
      rw [ha, hb]
      exact he
    exact row_evaluates l (fun J => zmpRow J k omega2) (fun J sol => axisState J sol k 0 - axisState J sol k 2 / omega2)
      (row l.x h.x) (row l.y h.y)
  · have t0 := traj_component h hdt hm sol k 0 hk (by omega)
    have t1 := traj_component h hdt hm sol k 1 hk (by omega)
    have t2 := traj_component h hdt hm sol k 2 hk (by omega)
    refine ⟨t0, t1, t2, ?_, ?_⟩
    · unfold LTraj.dcm LTraj.pos LTraj.vel
      push_cast at t0 t1
      rw [t0, t1]
      show Except.ok _ = _
      congr 2 <;> ring
    · unfold LTraj.zmp LTraj.pos LTraj.acc
      push_cast at t0 t2
      rw [t0, t2]
      show Except.ok _ = _
      congr 2 <;> ring

/-! ## C85 -/

theorem traj_inside {l : Lipm} (h : LipmOK l) (hdt : 0 < l.dt) (sol : Nat → ℝ) (k : Nat) (hk : k < l.timesteps) (r : ℝ)
    (h0 : 0 ≤ r) (h1 : r < l.dt) :
    (∀ d : Nat, d < 3 → (l.getTrajectory sol).component (l.tStart + k * l.dt + r) d
      = .ok ⟨motion (axisState l.x sol k) (inputs l.x sol k) d r, motion (axisState l.y sol k) (inputs l.y sol k) d r⟩) ∧
    (l.getTrajectory sol).component (l.tStart + k * l.dt + r) 3 = .ok ⟨inputs l.x sol k, inputs l.y sol k⟩ := by
  obtain ⟨x1, x2⟩ := value_inside h.x hdt sol k hk r h0 h1
  obtain ⟨y1, y2⟩ := value_inside h.y hdt sol k hk r h0 h1
  constructor
  · intro d hd
    unfold LTraj.component
    show (do
      let a ← (axisTraj l.x sol).value _ _
      let b ← (axisTraj l.y sol).value _ _
      Except.ok (⟨a, b⟩ : V2)) = _
    rw [x1 d hd, y1 d hd]
    rfl
  · unfold LTraj.component
    show (do
      let a ← (axisTraj l.x sol).value _ _
      let b ← (axisTraj l.y sol).value _ _
      Except.ok (⟨a, b⟩ : V2)) = _
    rw [x2, y2]
    rfl

/-- **C84**, the jerk: its expression at a timestep is what the trajectory answers until the next one. There is none at the last timestep,
where the code writes outside of a matrix instead of raising an error (C24_refuted). -/
theorem C84_jerk (l : Lipm) (h : LipmOK l) (hdt : 0 < l.dt) :
    (∀ k : Nat, k < l.timesteps → ∃ j : (Nat → ℝ) → V2, Evaluates (l.jerk k) j ∧
      ∀ sol r, 0 ≤ r → r < l.dt → (l.getTrajectory sol).jerk (l.tStart + k * l.dt + r) = .ok (j sol)) ∧
    l.jerk l.timesteps = .error .ub ∧ l.jerk (-1) = .error .ub := by
  refine ⟨fun k hk => ?_, ?_, ?_⟩
  · refine ⟨_, row_evaluates l (fun I => I.expr k 3) (fun I sol => inputs I sol k) (axis_input h.x k hk) (axis_input h.y k hk), ?_⟩
    intro sol r h0 h1
    exact (traj_inside h hdt sol k hk r h0 h1).2
  · have e := (C24_refuted l.x h.x.built.range).1
    rw [h.x.size, h.x.order] at e
    unfold Lipm.jerk Lipm.component
    rw [show ((3 : Int)) = ((3 : Nat) : Int) from rfl, e]
    rfl
  · have e := (C24_refuted l.x h.x.built.range).2
    rw [h.x.order] at e
    unfold Lipm.jerk Lipm.component
    rw [show ((3 : Int)) = ((3 : Nat) : Int) from rfl, e]
    rfl

/-- The ZMP of one axis along the motion, and its derivative. -/
theorem zmp_deriv (X : Nat → ℝ) (u omega2 c r : ℝ) :
    HasDerivAt (fun t => motion X u 0 (t - c) - motion X u 2 (t - c) / omega2) (motion X u 1 r - u / omega2) (r + c) := by
  have hs : HasDerivAt (fun t : ℝ => t - c) 1 (r + c) := (hasDerivAt_id (r + c)).sub_const c
  have e : r + c - c = r := by ring
  have h0 := HasDerivAt.comp (h₂ := motion X u 0) (h := fun t : ℝ => t - c) (r + c)
    (by rw [e]; exact motion_deriv X u 0 (by omega) r) hs
  have h2 := HasDerivAt.comp (h₂ := motion X u 2) (h := fun t : ℝ => t - c) (r + c)
    (by rw [e]; exact motion_deriv X u 2 (by omega) r) hs
  have := h0.sub (h2.div_const omega2)
  refine this.congr_deriv ?_
  show motion X u (0 + 1) r * 1 - motion X u (2 + 1) r * 1 / omega2 = _
  simp [motion]

/-- **C85, partial.** Between two timesteps the trajectory's ZMP is differentiable; its derivative is `vel - jerk/ω²`,
which at the timestep itself is what the expression `dzmp` evaluates to. But the trajectory's `dzmp` is that derivative
plus `2 jerk/ω²`: it is the derivative exactly when the jerk is zero. Missing: `dzmp` of the trajectory being the
derivative (refuted below). -/
theorem C85_partial (l : Lipm) (h : LipmOK l) (hdt : 0 < l.dt) (k : Nat) (hk : k < l.timesteps) (omega2 : ℝ)
    (ho : omega2 ≠ 0) :
    (∃ d, Evaluates (l.dzmp k omega2) d ∧ ∀ sol, ∃ v j : V2, (l.getTrajectory sol).vel (l.tStart + k * l.dt) = .ok v ∧
      (l.getTrajectory sol).jerk (l.tStart + k * l.dt) = .ok j ∧
      d sol = ⟨v.x - j.x / omega2, v.y - j.y / omega2⟩) ∧
    ∀ sol r, 0 ≤ r → r < l.dt → ∃ (z : ℝ → V2) (v j : V2),
      (∀ s, 0 ≤ s → s < l.dt →
        (l.getTrajectory sol).zmp (l.tStart + k * l.dt + s) omega2 = .ok (z (l.tStart + k * l.dt + s))) ∧
      (l.getTrajectory sol).vel (l.tStart + k * l.dt + r) = .ok v ∧
      (l.getTrajectory sol).jerk (l.tStart + k * l.dt + r) = .ok j ∧
      HasDerivAt (fun t => (z t).x) (v.x - j.x / omega2) (l.tStart + k * l.dt + r) ∧
      HasDerivAt (fun t => (z t).y) (v.y - j.y / omega2) (l.tStart + k * l.dt + r) ∧
      ∃ d, (l.getTrajectory sol).dzmp (l.tStart + k * l.dt + r) omega2 = .ok d ∧
        (d = ⟨v.x - j.x / omega2, v.y - j.y / omega2⟩ ↔ j = ⟨0, 0⟩) := by
  constructor
  · have row : ∀ J, AxisOK J l.dt l.timesteps l.tStart → ∃ e, dzmpRow J k omega2 = .ok e ∧ e.rows = 1 ∧
        ∀ sol, e.rowVal sol 0 = axisState J sol k 1 - inputs J sol k / omega2 := by
      intro J hJ
      obtain ⟨a, ha, ra, va⟩ := axis_expr hJ k 1 hk.le (by omega)
      obtain ⟨b, hb, rb, vb⟩ := axis_input hJ k hk
      obtain ⟨e, he, re, ve⟩ := sub_value a b ra rb (1 / omega2)
      refine ⟨e, ?_, re, fun sol => by rw [ve, va, vb]; ring⟩
      unfold dzmpRow
      push_cast at ha hb
      rw [ha, hb]
      exact he
    refine ⟨_, row_evaluates l (fun J => dzmpRow J k omega2)
      (fun J sol => axisState J sol k 1 - inputs J sol k / omega2) (row l.x h.x) (row l.y h.y), fun sol => ?_⟩
    obtain ⟨t1, t2⟩ := traj_inside h hdt sol k hk 0 (le_refl _) hdt
    rw [add_zero] at t1 t2
    have t1 := t1 1 (by omega)
    refine ⟨_, _, t1, t2, ?_⟩
    simp [motion]
  · intro sol r h0 h1
    let c := l.tStart + k * l.dt
    obtain ⟨t1, t2⟩ := traj_inside h hdt sol k hk r h0 h1
    have tv := t1 1 (by omega)
    refine ⟨fun t =>
      ⟨motion (axisState l.x sol k) (inputs l.x sol k) 0 (t - c) - motion (axisState l.x sol k) (inputs l.x sol k) 2 (t - c) / omega2,
       motion (axisState l.y sol k) (inputs l.y sol k) 0 (t - c) - motion (axisState l.y sol k) (inputs l.y sol k) 2 (t - c) / omega2⟩,
      _, _, fun s hs0 hs1 => ?_, tv, t2, ?_, ?_, ?_⟩
    · obtain ⟨u1, u2⟩ := traj_inside h hdt sol k hk s hs0 hs1
      have p0 := u1 0 (by omega)
      have p2 := u1 2 (by omega)
      have e : l.tStart + k * l.dt + s - c = s := by show l.tStart + k * l.dt + s - (l.tStart + k * l.dt) = s; ring
      unfold LTraj.zmp LTraj.pos LTraj.acc
      push_cast at p0 p2
      rw [p0, p2]
      show Except.ok _ = Except.ok _
      simp only [e]
      congr 2 <;> ring
    · have := zmp_deriv (axisState l.x sol k) (inputs l.x sol k) omega2 c r
      rw [add_comm r c] at this
      exact this
    · have := zmp_deriv (axisState l.y sol k) (inputs l.y sol k) omega2 c r
      rw [add_comm r c] at this
      exact this
    · refine ⟨_, by
        unfold LTraj.dzmp LTraj.vel LTraj.jerk
        push_cast at tv
        rw [tv, t2]
        rfl, ?_⟩
      have key : ∀ v j : ℝ, (v + 1 / omega2 * j = v - j / omega2 ↔ j = 0) := by
        intro v j
        constructor
        · intro hh
          have : j / omega2 = 0 := by
            have e : 1 / omega2 * j = j / omega2 := by ring
            rw [e] at hh
            linarith
          rcases div_eq_zero_iff.1 this with h | h
          · exact h
          · exact absurd h ho
        · rintro rfl; simp
      constructor
      · intro hd
        exact V2.ext ((key _ _).1 (congrArg V2.x hd)) ((key _ _).1 (congrArg V2.y hd))
      · intro hj
        exact V2.ext ((key _ _).2 (congrArg V2.x hj)) ((key _ _).2 (congrArg V2.y hj))

/-- **C85, refuted**, for every LIPM with at least one timestep and every `ω² ≠ 0`: when the jerks are not zero, the
trajectory's `dzmp` at its first timestep differs from what the expression `dzmp` evaluates to, which is the
derivative. -/
theorem C85_refuted (l : Lipm) (h : LipmOK l) (hdt : 0 < l.dt) (hm : 0 < l.timesteps) (omega2 : ℝ) (ho : omega2 ≠ 0) :
    ∃ (sol : Nat → ℝ) (e : Expr ℝ) (d : V2), l.dzmp 0 omega2 = .ok e ∧
      (l.getTrajectory sol).dzmp l.tStart omega2 = .ok d ∧ d ≠ pointAt e sol := by
  obtain ⟨⟨f, ⟨e, he, -, hv⟩, hsol⟩, h2⟩ := C85_partial l h hdt 0 hm omega2 ho
  obtain ⟨z, v, j, -, tv, tj, -, -, d, hd, hiff⟩ := h2 (fun _ => 1) 0 (le_refl _) hdt
  obtain ⟨v', j', tv', tj', hf⟩ := hsol fun _ => 1
  have e0 : l.tStart + ((0 : Nat) : ℝ) * l.dt + 0 = l.tStart := by simp
  have e1 : l.tStart + ((0 : Nat) : ℝ) * l.dt = l.tStart := by simp
  rw [e0] at tv tj hd
  rw [e1] at tv' tj'
  have ev : v = v' := Except.ok.inj (tv.symm.trans tv')
  have ej : j = j' := Except.ok.inj (tj.symm.trans tj')
  subst ev; subst ej
  refine ⟨fun _ => 1, e, d, he, hd, fun hc => ?_⟩
  rw [hv, hf] at hc
  have hj := hiff.1 hc
  have t2 := (traj_inside h hdt (fun _ => (1 : ℝ)) 0 hm 0 (le_refl _) hdt).2
  rw [e0] at t2
  have ej : j = _ := Except.ok.inj (tj.symm.trans t2)
  rw [hj] at ej
  have := congrArg V2.x ej
  simp [inputs] at this

/-- A concrete LIPM: five timesteps of 0.1 s from rest, and another one chained on it. -/
example : ∃ l n, Lipm.fromState 0 (1 / 10) 5 0 ⟨0, 0⟩ ⟨0, 0⟩ ⟨0, 0⟩ = .ok (l, n) ∧ LipmOK l ∧ 0 < l.dt ∧
    0 < l.timesteps ∧ ∃ l' n', Lipm.fromPrevious n (1 / 10) 3 l.tEnd l = .ok (l', n') ∧ LipmOK l' ∧ n' = 16 := by
  obtain ⟨l, n, h1, rfl, h3, h4, h5, -⟩ := fromState_ok 0 (1 / 10) 5 0 ⟨0, 0⟩ ⟨0, 0⟩ ⟨0, 0⟩
  obtain ⟨l', n', -, -, g1, rfl, g3, -⟩ := fromPrevious_ok (0 + 5 + 5) (1 / 10) 3 l.tEnd l h3
  exact ⟨l, _, h1, h3, by rw [h4]; norm_num, by rw [h5]; norm_num, l', _, g1, g3, rfl⟩

end Verif.Humanoid
