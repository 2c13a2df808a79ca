/-
C214: a hard gear task of the dynamics solver, and exactly when the gears converge.
-/
import Verif.Dynamics.LoopProps
import Verif.Dynamics.SettingsProps
import Verif.Dynamics.Examples

namespace Verif.Dynamics
open Finset Verif.Problem Verif.Kinematics Filter

section
variable {K : Type} [Field K] [LinearOrder K] [IsStrictOrderedRing K]

/-! ## Specification -/

/-- How far the target `t` (an index of velocity) is from what its gears say, for positions, velocities or accelerations `f` of the
velocity indexes. The gears are those of the calls (`lastGear`). -/
def gearErr (r : Robot K) (gears : List (GearCall K)) (t : Nat) (f : Nat → K) : K :=
  f t - ∑ k ∈ range r.nv, ((lastGear r t k gears.reverse).getD 0) * f k

/-- A call with time step `h`, with a hard gear task with the gains `kp` and `kd` and these gears. The other tasks, the contacts, the
constraints and the settings are arbitrary. -/
def Gearing (sqrt : K → K) (r : DynRobot K) (kp kd h : K) (gears : List (GearCall K)) (c : DCall K) : Prop :=
  c.env.toQPEnv.Sound ∧ c.env.sqrt = sqrt ∧ c.cfg.dt = h ∧
  ∃ task ∈ c.tasks, task.priority = .hard ∧ task.tauTask = false ∧
    task.update = dynGearUpdate c.env.sqrt r.toRobot kp kd (dynGearsAfter r.toRobot gears)

/-- The position of the velocity index `k` of a robot whose joints all have one coordinate. -/
def posAt (rs : RState K) (k : Nat) : K := rs.q (k + 1)

/-! ## Proof -/

omit [Field K] [LinearOrder K] [IsStrictOrderedRing K] in
/-- The gears of the dynamics are those of a history without `set_gear`. -/
theorem dynGears_ops (r : Robot K) (gears : List (GearCall K)) : ∃ ops : List (GearOp K), dynGearsAfter r gears = ops.foldl (gearStep r) [] := by
  induction gears using List.reverseRecOn with
  | nil => exact ⟨[], rfl⟩
  | append_singleton gears c ih =>
    obtain ⟨ops, h⟩ := ih
    have hstep : dynGearsAfter r (gears ++ [c]) = if c.clear then (dynSetGear r c.target c.source c.ratio).1
        else (addGear r (dynGearsAfter r gears) c.target c.source c.ratio).1 := by
      unfold dynGearsAfter
      rw [List.foldl_append]; rfl
    rw [hstep]
    by_cases hc : c.clear
    · rw [if_pos hc]
      exact ⟨[.add c.target c.source c.ratio], rfl⟩
    · rw [if_neg hc, h]
      exact ⟨ops ++ [.add c.target c.source c.ratio], by rw [List.foldl_append]; rfl⟩

theorem lastGear_joints (r : Robot K) (t s : Nat) (l : List (GearCall K)) (ρ : K) (h : lastGear r t s l = some ρ) :
    (∃ j ∈ r.joints, j.idxV = t) ∧ ∃ j ∈ r.joints, j.idxV = s := by
  induction l with
  | nil => cases h
  | cons c l ih =>
    unfold lastGear at h
    split at h
    · rename_i hc
      obtain ⟨jt, ht, e1⟩ := vJoint_some hc.1
      obtain ⟨js, hs, e2⟩ := vJoint_some hc.2
      exact ⟨⟨jt, (vJoint_mem r _ jt ht).1, e1⟩, js, (vJoint_mem r _ js hs).1, e2⟩
    · split at h
      · cases h
      · exact ih h

omit [LinearOrder K] [IsStrictOrderedRing K] in
theorem gearB_lin (a b : K) (p v : Nat → K) (t : Nat) (m : SMap Nat K) :
    a * gearB p t m + b * gearB (fun i => v (i - 1)) t m = gearB (fun i => a * p i + b * v (i - 1)) t m := by
  unfold gearB
  rw [foldl_sub p, foldl_sub (fun i => v (i - 1)), foldl_sub (fun i => a * p i + b * v (i - 1))]
  dsimp only
  have : ∀ l : List (Nat × K), (l.map fun e => e.2 * (a * p (e.1 + 1) + b * v (e.1 + 1 - 1))).sum =
      a * (l.map fun e => e.2 * p (e.1 + 1)).sum + b * (l.map fun e => e.2 * v (e.1 + 1 - 1)).sum := by
    intro l
    induction l with
    | nil => simp
    | cons e l ih => simp only [List.map_cons, List.sum_cons, ih]; ring
  rw [this]
  ring

/-- What the gear task asks of accelerations. -/
theorem gears_met (sqrt : K → K) (r : Robot K) (hn : ∀ j ∈ r.joints, j.idxV < r.nv) (kp kd : K) (gears : List (GearCall K))
    (hk : ∀ c ∈ gears, velocityAt r c.target ≠ none ∧ velocityAt r c.source ≠ none) (s : RState K) (M : TaskMat K)
    (hM : dynGearUpdate sqrt r kp kd (dynGearsAfter r gears) s = .ok M) (x : Nat → K) (hmet : M.Met x) (t : Nat)
    (ht : ∃ k ρ, lastGear r t k gears.reverse = some ρ) (hself : lastGear r t t gears.reverse = none) :
    gearErr r gears t x = -kp * gearErr r gears t (posAt s) - getKd sqrt kp kd * gearErr r gears t s.qd := by
  have hC := fun k => C149_gears r gears hk t k
  obtain ⟨ops, hops⟩ := dynGears_ops r gears
  have hwf := (gears_history r ops).1
  have hbound := gears_bound r r.nv (fun name j h => hn j (vJoint_mem r name j h).1) ops
  rw [← hops] at hwf hbound
  unfold dynGearUpdate at hM
  generalize dynGearsAfter r gears = g at *
  cases hM
  obtain ⟨k0, ρ0, hk0⟩ := ht
  cases hf : SMap.find? g t with
  | none =>
    have := hC k0
    unfold gearRatio at this
    rw [hf, hk0] at this
    cases this
  | some m =>
    have hm : ∀ k, SMap.find? m k = lastGear r t k gears.reverse := by
      intro k
      rw [← hC k]
      unfold gearRatio
      rw [hf]
      rfl
    have hmem := (SMap.mem_iff_find? g hwf.1 t m).2 hf
    obtain ⟨i, hi, hgi⟩ := List.getElem_of_mem hmem
    have h := hmet i hi
    unfold TaskMat.app at h
    dsimp only at h
    rw [show g.getD i (0, []) = (t, m) by simp [List.getD, hi, hgi]] at h
    dsimp only at h
    rw [gearB_lin, gear_row_met t r.nv (hbound _ hmem).1 m (hwf.2 _ hmem) (hbound _ hmem).2 (by rw [hm, hself])] at h
    unfold gearErr posAt
    have hco : ∀ k, Kinematics.coef m k = (lastGear r t k gears.reverse).getD 0 := fun k => by unfold Kinematics.coef; rw [hm]
    simp only [hco, Nat.add_sub_cancel] at h
    have e : ∑ k ∈ range r.nv, (lastGear r t k gears.reverse).getD 0 * (kp * s.q (k + 1) + getKd sqrt kp kd * s.qd k + x k) =
        kp * (∑ k ∈ range r.nv, (lastGear r t k gears.reverse).getD 0 * s.q (k + 1)) +
        getKd sqrt kp kd * (∑ k ∈ range r.nv, (lastGear r t k gears.reverse).getD 0 * s.qd k) +
        ∑ k ∈ range r.nv, (lastGear r t k gears.reverse).getD 0 * x k := by
      rw [mul_sum, mul_sum, ← sum_add_distrib, ← sum_add_distrib]
      exact sum_congr rfl fun k _ => by ring
    rw [e] at h
    linear_combination h

omit [LinearOrder K] [IsStrictOrderedRing K] in
/-- The gear error is linear. -/
theorem gearErr_add (r : Robot K) (gears : List (GearCall K)) (t : Nat) (f g u : Nat → K) (h : K)
    (hu : ∀ k, (k = t ∨ ∃ ρ, lastGear r t k gears.reverse = some ρ) → u k = f k + h * g k) :
    gearErr r gears t u = gearErr r gears t f + h * gearErr r gears t g := by
  unfold gearErr
  have : ∑ k ∈ range r.nv, (lastGear r t k gears.reverse).getD 0 * u k =
      (∑ k ∈ range r.nv, (lastGear r t k gears.reverse).getD 0 * f k) + h * ∑ k ∈ range r.nv, (lastGear r t k gears.reverse).getD 0 * g k := by
    rw [mul_sum, ← sum_add_distrib]
    refine sum_congr rfl fun k _ => ?_
    cases hl : lastGear r t k gears.reverse with
    | none => simp
    | some ρ => rw [hu k (.inr ⟨ρ, hl⟩)]; ring
  rw [this, hu t (.inl rfl)]
  ring

/-- One successful call. -/
theorem gear_step (sqrt : K → K) (r : DynRobot K) (hn : ∀ j ∈ r.joints, 6 ≤ j.idxV ∧ j.idxV < r.nv) (kp kd h : K)
    (hint : ∀ q v k, 6 ≤ k → k < r.nv → r.integrate q v (k + 1) = q (k + 1) + v k) (gears : List (GearCall K))
    (hk : ∀ c ∈ gears, velocityAt r.toRobot c.target ≠ none ∧ velocityAt r.toRobot c.source ≠ none) (t : Nat)
    (ht : ∃ k ρ, lastGear r.toRobot t k gears.reverse = some ρ) (hself : lastGear r.toRobot t t gears.reverse = none)
    (c : DCall K) (hc : Gearing sqrt r kp kd h gears c) (rs : RState K)
    (hok : ∃ res, (solve c.env r c.tasks c.contacts c.cons true { c.cfg with robot := rs }).2 = .ok res ∧ res.success = true)
    (rs' : RState K) (hrs : rs' = (solve c.env r c.tasks c.contacts c.cons true { c.cfg with robot := rs }).1) :
    (gearErr r.toRobot gears t (posAt rs'), gearErr r.toRobot gears t rs'.qd) =
      pdNext kp (getKd sqrt kp kd) h (gearErr r.toRobot gears t (posAt rs), gearErr r.toRobot gears t rs.qd) := by
  obtain ⟨hS, hsq, hdt, task, htk, hp, htau, hu⟩ := hc
  have hidx : ∀ k, (k = t ∨ ∃ ρ, lastGear r.toRobot t k gears.reverse = some ρ) → 6 ≤ k ∧ k < r.nv := by
    rintro k (rfl | ⟨ρ, h⟩)
    · obtain ⟨k', ρ, h⟩ := ht
      obtain ⟨⟨j, hj, rfl⟩, -⟩ := lastGear_joints _ _ _ _ _ h
      exact hn j hj
    · obtain ⟨-, j, hj, rfl⟩ := lastGear_joints _ _ _ _ _ h
      exact hn j hj
  rcases hsol : solve c.env r c.tasks c.contacts c.cons true { c.cfg with robot := rs } with ⟨rs1, res⟩
  rw [hsol] at hok hrs
  obtain ⟨o, ho, hsucc⟩ := hok
  dsimp only at ho hrs
  subst ho hrs
  rcases solve_cases c.env r c.tasks c.contacts c.cons true _ rs' _ hsol with ⟨-, hf⟩ | ⟨p, x, hb, hres, -, hrs, -, -⟩
  · rw [hf o rfl] at hsucc
    cases hsucc
  · obtain ⟨M, hM, hcols⟩ : ∃ M, dynGearUpdate c.env.sqrt r.toRobot kp kd (dynGearsAfter r.toRobot gears) rs = .ok M ∧ M.cols = r.nv :=
      ⟨_, rfl, rfl⟩
    have hmet := C102 c.env hS r c.tasks c.contacts c.cons true _ rs' o hsol hsucc task htk hp M (by rw [hu]; exact hM) hcols
    rw [htau, if_neg (by decide)] at hmet
    have hacc := gears_met c.env.sqrt r.toRobot (fun j hj => (hn j hj).2) kp kd gears hk rs M hM _ hmet t ht hself
    have ho : o.qdd = p.qdd.rowVal x := by
      cases hres
      rfl
    rw [ho, hsq] at hacc
    rw [if_pos rfl] at hrs
    have e1 : ∀ k, (k = t ∨ ∃ ρ, lastGear r.toRobot t k gears.reverse = some ρ) → rs'.qd k = rs.qd k + h * p.qdd.rowVal x k := by
      intro k hkk
      have hq : ({ rs with qdd := fun i => if c.cfg.maskedFbase ∧ i < 6 then 0 else p.qdd.rowVal x i } : RState K).qdd k = p.qdd.rowVal x k := by
        dsimp only
        rw [if_neg (fun h => absurd h.2 (by have := (hidx k hkk).1; omega))]
      rw [hrs, ← hdt, ← hq]
      rfl
    have e2 : ∀ k, (k = t ∨ ∃ ρ, lastGear r.toRobot t k gears.reverse = some ρ) → posAt rs' k = posAt rs k + h * rs'.qd k := by
      intro k hkk
      obtain ⟨h6, hlt⟩ := hidx k hkk
      have e : rs'.q (k + 1) = rs.q (k + 1) + rs'.qd k * h := by
        rw [hrs, ← hdt]
        exact hint _ _ k h6 hlt
      unfold posAt
      rw [e]
      ring
    unfold pdNext
    rw [gearErr_add r.toRobot gears t _ _ _ h e2, gearErr_add r.toRobot gears t _ _ _ h e1, hacc]

/-! ## The property -/

/-- **C214 (path).** Whatever the other tasks, the contacts, the constraints and the settings of each call, along successful integrated
solves with a hard gear task the error of each gear and its velocity follow the recursion of a joint that has a target (C190). -/
theorem C214_path (sqrt : K → K) (r : DynRobot K) (hn : ∀ j ∈ r.joints, 6 ≤ j.idxV ∧ j.idxV < r.nv) (kp kd h : K)
    (hint : ∀ q v k, 6 ≤ k → k < r.nv → r.integrate q v (k + 1) = q (k + 1) + v k) (gears : List (GearCall K))
    (hk : ∀ c ∈ gears, velocityAt r.toRobot c.target ≠ none ∧ velocityAt r.toRobot c.source ≠ none) (t : Nat)
    (ht : ∃ k ρ, lastGear r.toRobot t k gears.reverse = some ρ) (hself : lastGear r.toRobot t t gears.reverse = none)
    (calls : List (DCall K)) (rs : RState K) (hc : ∀ c ∈ calls, Gearing sqrt r kp kd h gears c) (hok : AllSucceed r rs calls) :
    (gearErr r.toRobot gears t (posAt (runCalls r rs calls)), gearErr r.toRobot gears t (runCalls r rs calls).qd) =
      (pdNext kp (getKd sqrt kp kd) h)^[calls.length] (gearErr r.toRobot gears t (posAt rs), gearErr r.toRobot gears t rs.qd) := by
  induction calls generalizing rs with
  | nil => rfl
  | cons c cs ih =>
    rw [List.length_cons, Function.iterate_succ_apply,
      ← gear_step sqrt r hn kp kd h hint gears hk t ht hself c (hc c List.mem_cons_self) rs hok.1 _ rfl]
    exact ih _ (fun d hd => hc d (List.mem_cons_of_mem _ hd)) hok.2

/-- **C214 (kept).** Gears that are meshed, with meshed velocities, stay so, for any gains and any time step. -/
theorem C214_kept (sqrt : K → K) (r : DynRobot K) (hn : ∀ j ∈ r.joints, 6 ≤ j.idxV ∧ j.idxV < r.nv) (kp kd h : K)
    (hint : ∀ q v k, 6 ≤ k → k < r.nv → r.integrate q v (k + 1) = q (k + 1) + v k) (gears : List (GearCall K))
    (hk : ∀ c ∈ gears, velocityAt r.toRobot c.target ≠ none ∧ velocityAt r.toRobot c.source ≠ none) (t : Nat)
    (ht : ∃ k ρ, lastGear r.toRobot t k gears.reverse = some ρ) (hself : lastGear r.toRobot t t gears.reverse = none)
    (calls : List (DCall K)) (rs : RState K) (hc : ∀ c ∈ calls, Gearing sqrt r kp kd h gears c) (hok : AllSucceed r rs calls)
    (h0 : gearErr r.toRobot gears t (posAt rs) = 0) (h1 : gearErr r.toRobot gears t rs.qd = 0) :
    gearErr r.toRobot gears t (posAt (runCalls r rs calls)) = 0 ∧ gearErr r.toRobot gears t (runCalls r rs calls).qd = 0 := by
  have hp := C214_path sqrt r hn kp kd h hint gears hk t ht hself calls rs hc hok
  have hz : ∀ n, (pdNext kp (getKd sqrt kp kd) h)^[n] (0, 0) = (0, 0) := by
    intro n
    induction n with
    | zero => rfl
    | succ n ih => rw [Function.iterate_succ_apply', ih]; unfold pdNext; simp
  rw [h0, h1, hz, Prod.mk.injEq] at hp
  exact hp

end

/-- **C214 (exact).** If `kp > 0`, `kd > 0` and `kp dt² + 2 kd dt < 4` (`kd` being the gain in use), then along every infinite run of
successful solves the gears converge to meshed ones, and so do the velocities, whatever else the solver is asked for. Otherwise there
are an error and a velocity from which no run of successful solves converges. -/
theorem C214 (r : DynRobot ℝ) (hn : ∀ j ∈ r.joints, 6 ≤ j.idxV ∧ j.idxV < r.nv) (kp kd h : ℝ) (hh : 0 < h)
    (hint : ∀ q v k, 6 ≤ k → k < r.nv → r.integrate q v (k + 1) = q (k + 1) + v k) (gears : List (GearCall ℝ))
    (hk : ∀ c ∈ gears, velocityAt r.toRobot c.target ≠ none ∧ velocityAt r.toRobot c.source ≠ none) (t : Nat)
    (ht : ∃ k ρ, lastGear r.toRobot t k gears.reverse = some ρ) (hself : lastGear r.toRobot t t gears.reverse = none) :
    (0 < kp ∧ 0 < getKd Real.sqrt kp kd ∧ kp * h ^ 2 + 2 * getKd Real.sqrt kp kd * h < 4 →
      ∀ (calls : ℕ → DCall ℝ) (rs : RState ℝ), (∀ n, Gearing Real.sqrt r kp kd h gears (calls n)) →
        (∀ n, AllSucceed r rs ((List.range n).map calls)) →
        Tendsto (fun n => gearErr r.toRobot gears t (posAt (runCalls r rs ((List.range n).map calls)))) atTop (nhds 0) ∧
        Tendsto (fun n => gearErr r.toRobot gears t (runCalls r rs ((List.range n).map calls)).qd) atTop (nhds 0)) ∧
    (¬ (0 < kp ∧ 0 < getKd Real.sqrt kp kd ∧ kp * h ^ 2 + 2 * getKd Real.sqrt kp kd * h < 4) →
      ∃ e v, ∀ (calls : ℕ → DCall ℝ) (rs : RState ℝ), (∀ n, Gearing Real.sqrt r kp kd h gears (calls n)) →
        (∀ n, AllSucceed r rs ((List.range n).map calls)) → gearErr r.toRobot gears t (posAt rs) = e → gearErr r.toRobot gears t rs.qd = v →
        ¬ Tendsto (fun n => gearErr r.toRobot gears t (posAt (runCalls r rs ((List.range n).map calls)))) atTop (nhds 0)) := by
  have hpath : ∀ (calls : ℕ → DCall ℝ) (rs : RState ℝ), (∀ n, Gearing Real.sqrt r kp kd h gears (calls n)) →
      (∀ n, AllSucceed r rs ((List.range n).map calls)) → ∀ n,
      (gearErr r.toRobot gears t (posAt (runCalls r rs ((List.range n).map calls))),
        gearErr r.toRobot gears t (runCalls r rs ((List.range n).map calls)).qd) =
        (pdNext kp (getKd Real.sqrt kp kd) h)^[n] (gearErr r.toRobot gears t (posAt rs), gearErr r.toRobot gears t rs.qd) := by
    intro calls rs hc hs n
    rw [C214_path Real.sqrt r hn kp kd h hint gears hk t ht hself _ rs (fun c hcm => ?_) (hs n), List.length_map, List.length_range]
    obtain ⟨i, -, rfl⟩ := List.mem_map.1 hcm
    exact hc i
  constructor
  · intro hcond calls rs hc hs
    have hp := hpath calls rs hc hs
    have t1 := (pd_exact kp _ h hh).2 hcond (gearErr r.toRobot gears t (posAt rs), gearErr r.toRobot gears t rs.qd)
    have t2 := pd_velocity kp _ h hh _ t1
    simp only [← hp] at t1 t2
    exact ⟨t1, t2⟩
  · intro hcond
    obtain ⟨x, hx⟩ := not_forall.1 fun hall => hcond ((pd_exact kp _ h hh).1 hall)
    refine ⟨x.1, x.2, fun calls rs hc hs hq hv ht => hx ?_⟩
    have hp := hpath calls rs hc hs
    rw [hq, hv] at hp
    refine ht.congr fun n => ?_
    rw [← hp n]

/-! ## The hypotheses are met -/

/-- A base with two joints, unit masses, without gravity. -/
def gearedRobot : DynRobot ℚ where
  nq := 9
  nv := 8
  joints := [⟨"a", 7, 1, 6, 1⟩, ⟨"b", 8, 1, 7, 1⟩]
  lower := fun _ => -10
  upper := fun _ => 10
  vlim := fun _ => 10
  integrate := fun q v i => if i = 0 then q 0 else q i + v (i - 1)
  difference := fun q q' i => q' (i + 1) - q (i + 1)
  mass := fun _ i j => if i = j then 1 else 0
  gravity := fun _ _ => 0
  nle := fun _ _ => 0
  effort := fun _ => 10

/-- A call with the gear `a = 2 b`, `kp = 1` and `kd = 2`; the solver accelerates `a` at -1. -/
def gearedCall : DCall ℚ :=
  ⟨⟨fixedEnv fun k => if k = 6 then -1 else 0, sqrtQ⟩,
    [⟨.hard, 1, false, dynGearUpdate sqrtQ gearedRobot.toRobot 1 2 (dynGearsAfter gearedRobot.toRobot [⟨false, "a", "b", 2⟩])⟩], [], [],
    { demoState with torqueLimits := false, jointLimits := false, velocityLimits := false }⟩

/-- From `a = 1`, `b = 0` at rest, the call succeeds, and the gear error becomes 0. -/
example : Gearing sqrtQ gearedRobot 1 2 1 [⟨false, "a", "b", 2⟩] gearedCall ∧
    AllSucceed gearedRobot ⟨fun i => if i = 7 then 1 else 0, fun _ => 0, fun _ => 0⟩ [gearedCall] ∧
    gearErr gearedRobot.toRobot [⟨false, "a", "b", 2⟩] 6 (posAt ⟨fun i => if i = 7 then 1 else 0, fun _ => 0, fun _ => 0⟩) = (1 : ℚ) ∧
    (runCalls gearedRobot ⟨fun i => if i = 7 then 1 else 0, fun _ => 0, fun _ => 0⟩ [gearedCall]).q 7 = 0 := by
  refine ⟨⟨fixedEnv_sound _, rfl, rfl, _, List.mem_singleton_self _, rfl, rfl, rfl⟩, ⟨?_, trivial⟩, ?_, ?_⟩
  · have h : ((solve gearedCall.env gearedRobot gearedCall.tasks gearedCall.contacts gearedCall.cons true
        { gearedCall.cfg with robot := ⟨fun i => if i = 7 then 1 else 0, fun _ => 0, fun _ => 0⟩ }).2.toOption.map (·.success)) = some true := by
      decide +kernel
    cases hr : (solve gearedCall.env gearedRobot gearedCall.tasks gearedCall.contacts gearedCall.cons true
        { gearedCall.cfg with robot := ⟨fun i => if i = 7 then 1 else 0, fun _ => 0, fun _ => 0⟩ }).2 with
    | error e => rw [hr] at h; cases h
    | ok o => rw [hr] at h; exact ⟨o, rfl, Option.some.inj h⟩
  · decide +kernel
  · decide +kernel

/-- The gear has a source, the target is not one of its sources, and the joints have one coordinate. -/
example : (∃ k ρ, lastGear gearedRobot.toRobot 6 k [⟨false, "a", "b", (2 : ℚ)⟩] = some ρ) ∧
    lastGear gearedRobot.toRobot 6 6 [⟨false, "a", "b", (2 : ℚ)⟩] = none ∧
    (∀ j ∈ gearedRobot.joints, 6 ≤ j.idxV ∧ j.idxV < gearedRobot.nv) ∧
    ∀ q v k, 6 ≤ k → k < gearedRobot.nv → gearedRobot.integrate q v (k + 1) = q (k + 1) + v k :=
  ⟨⟨7, 2, by decide +kernel⟩, by decide +kernel, by decide, fun _ _ _ _ _ => rfl⟩

end Verif.Dynamics
