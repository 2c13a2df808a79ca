/-
Properties C86, C90 and C93 of `plan_com`: the parts of a planned trajectory.
-/
import Verif.Humanoid.TrimProps
import Verif.Humanoid.LipmProps
import Verif.Humanoid.SupportsProps

namespace Verif.Humanoid
open Verif.Problem Verif.Tools Verif.Robot

/-! ## What the loop builds -/

/-- Where a LIPM starts: from the initial state for the first one, from the last state of the previous one otherwise. -/
def Starts (init : ComState) : Option Lipm → Lipm → Prop
  | none, l => ∀ sol, l.stateAt sol 0 0 = init.pos ∧ l.stateAt sol 0 1 = init.vel ∧ l.stateAt sol 0 2 = init.acc
  | some p, l => ∀ sol, ∀ d : Nat, d < 3 → l.stateAt sol 0 d = p.stateAt sol p.timesteps d

/-- Specification: the parts of a list of supports, from the previous LIPM, the time and the number of variables, to the
number of variables and the time at the end. -/
inductive Chained (g : Wpg) (init : ComState) : Option Lipm → ℝ → Nat → List Support → List Planned → Nat → ℝ → Prop
  | nil (prev : Option Lipm) (t : ℝ) (n : Nat) : Chained g init prev t n [] [] n t
  | cons (prev : Option Lipm) (t : ℝ) (n : Nat) (s : Support) (ss : List Support) (l : Lipm) (cs : List (Constr ℝ))
      (ps : List Planned) (n' : Nat) (te : ℝ) (hs : Starts init prev l) (ok : LipmOK l)
      (hdt : l.dt = g.duration s / g.timesteps s) (hm : l.timesteps = g.timesteps s) (ht : l.tStart = t)
      (hx : l.x.var = ⟨n, n + g.timesteps s⟩) (hy : l.y.var = ⟨n + g.timesteps s, n + g.timesteps s + g.timesteps s⟩)
      (hc : g.constrainLipm l (stamped s t) = .ok cs)
      (rest : Chained g init (some l) (t + g.duration s) (n + g.timesteps s + g.timesteps s) ss ps n' te) :
      Chained g init prev t n (s :: ss) (⟨t, t + g.duration s, stamped s t, l, cs⟩ :: ps) n' te

theorem timesteps_pos (g : Wpg) (s : Support) : 0 < g.timesteps s := by
  unfold Wpg.timesteps
  have : (1 : Int) ≤ max 1 (truncZ ((1 - s.elapsedRatio) * g.p.supportTimesteps s)) := le_max_left _ _
  omega

theorem starts_state (init : ComState) (n : Nat) (l : Lipm)
    (hx : l.x.X0 = initialState init.pos.x init.vel.x init.acc.x)
    (hy : l.y.X0 = initialState init.pos.y init.vel.y init.acc.y) : Starts init none l := by
  intro sol
  unfold Lipm.stateAt
  simp only [axisState_zero, hx, hy]
  refine ⟨?_, ?_, ?_⟩ <;> simp [initialState, Expr.rowVal, Expr.fromVector]

theorem starts_previous (init : ComState) (p l : Lipm) (hp : LipmOK p) (ex ey : Expr ℝ)
    (hex : p.x.expr (p.x.var.size : Nat) (-1) = .ok ex) (hey : p.y.expr (p.y.var.size : Nat) (-1) = .ok ey)
    (hx : l.x.X0 = ex) (hy : l.y.X0 = ey) : Starts init (some p) l := by
  intro sol d hd
  obtain ⟨ex', hex', -, vx⟩ := C24_state hp.x.built p.x.var.size (le_refl _)
  obtain ⟨ey', hey', -, vy⟩ := C24_state hp.y.built p.y.var.size (le_refl _)
  rw [hex] at hex'
  rw [hey] at hey'
  cases hex'
  cases hey'
  unfold Lipm.stateAt
  rw [axisState_zero, axisState_zero, hx, hy, vx sol d (by rw [hp.x.order]; exact hd),
    vy sol d (by rw [hp.y.order]; exact hd), hp.x.order, hp.y.order, hp.x.size, hp.y.size]
  rfl

/-- The loop of `plan_com` builds a chain, when every support lasts. -/
theorem planLoop_chained (g : Wpg) (t0 : ℝ) (init : ComState) : ∀ (ss : List Support) (t : ℝ) (n : Nat)
    (prev : Option Lipm), (∀ s ∈ ss, 0 < g.duration s) → (prev = none → t = t0) →
    (∀ l, prev = some l → t0 < t ∧ LipmOK l) → ∀ r, g.planLoop t0 init ss t n prev = .ok r →
    Chained g init prev t n ss r.1 r.2.1 r.2.2 := by
  intro ss
  induction ss with
  | nil =>
    intro t n prev _ _ _ r h
    cases h
    exact .nil prev t n
  | cons s ss ih =>
    intro t n prev hd h0 h1 r h
    have hds := hd s List.mem_cons_self
    have hlipm : ∃ l n', makeLipm t0 init prev n (g.duration s / g.timesteps s) (g.timesteps s) t = .ok (l, n') ∧
        n' = n + g.timesteps s + g.timesteps s ∧ LipmOK l ∧ l.dt = g.duration s / g.timesteps s ∧
        l.timesteps = g.timesteps s ∧ l.tStart = t ∧ l.x.var = ⟨n, n + g.timesteps s⟩ ∧
        l.y.var = ⟨n + g.timesteps s, n + g.timesteps s + g.timesteps s⟩ ∧ Starts init prev l ∧ t0 ≤ t := by
      unfold makeLipm
      cases prev with
      | none =>
        have e := h0 rfl
        rw [if_pos e]
        obtain ⟨l, n', a1, a2, a3, a4, a5, a6, a7, a8, a9, a10⟩ :=
          fromState_ok n (g.duration s / g.timesteps s) (g.timesteps s) t init.pos init.vel init.acc
        exact ⟨l, n', a1, a2, a3, a4, a5, a6, a7, a8, starts_state init n l a9 a10, e.ge⟩
      | some p =>
        obtain ⟨ht, hp⟩ := h1 p rfl
        rw [if_neg ht.ne']
        obtain ⟨l, n', ex, ey, a1, a2, a3, a4, a5, a6, a7, a8, a9, a10, a11, a12⟩ :=
          fromPrevious_ok n (g.duration s / g.timesteps s) (g.timesteps s) t p hp
        exact ⟨l, n', a1, a2, a3, a4, a5, a6, a7, a8, starts_previous init p l hp ex ey a9 a10 a11 a12, ht.le⟩
    obtain ⟨l, n', hl, hn', ok, hdt, hm, ht, hx, hy, hs, ht0⟩ := hlipm
    unfold Wpg.planLoop at h
    simp only [hl, Bind.bind, Except.bind] at h
    cases hc : g.constrainLipm l (stamped s t) with
    | error e => rw [hc] at h; cases h
    | ok cs =>
      rw [hc] at h
      simp only at h
      cases hr : g.planLoop t0 init ss (t + g.duration s) n' (some l) with
      | error e => rw [hr] at h; cases h
      | ok rest =>
        rw [hr] at h
        cases h
        have := ih (t + g.duration s) n' (some l) (fun x hx => hd x (List.mem_cons_of_mem _ hx)) (by intro h; cases h)
          (by intro l' h'; cases h'; exact ⟨by linarith, ok⟩) rest hr
        subst hn'
        exact .cons prev t n s ss l cs rest.1 rest.2.1 rest.2.2 hs ok hdt hm ht hx hy hc this

/-! ## Reading a chain -/

/-- Element by element. -/
theorem Chained.get {g : Wpg} {init : ComState} {prev : Option Lipm} {t : ℝ} {n : Nat} {ss : List Support}
    {ps : List Planned} {n' : Nat} {te : ℝ} (h : Chained g init prev t n ss ps n' te) :
    ps.length = ss.length ∧ (ps = [] → te = t) ∧
    ∀ (i : Nat) (hi : i < ps.length) (hi' : i < ss.length),
      ps[i].tEnd = ps[i].tStart + g.duration ss[i] ∧ ps[i].support = stamped ss[i] ps[i].tStart ∧
      LipmOK ps[i].lipm ∧ ps[i].lipm.dt = g.duration ss[i] / g.timesteps ss[i] ∧
      ps[i].lipm.timesteps = g.timesteps ss[i] ∧ ps[i].lipm.tStart = ps[i].tStart ∧
      g.constrainLipm ps[i].lipm ps[i].support = .ok ps[i].cs ∧
      (i = 0 → ps[i].tStart = t ∧ Starts init prev ps[i].lipm) ∧
      (i + 1 = ps.length → ps[i].tEnd = te) ∧
      (∀ hn : i + 1 < ps.length, ps[i].tEnd = ps[i + 1].tStart ∧ Starts init (some ps[i].lipm) ps[i + 1].lipm) := by
  induction h with
  | nil prev t n => exact ⟨rfl, fun _ => rfl, fun i hi => absurd hi (by simp)⟩
  | cons prev t n s ss l cs ps n' te hs ok hdt hm ht hx hy hc rest ih =>
    obtain ⟨ih1, ih2, ih3⟩ := ih
    refine ⟨by simp [ih1], fun h => absurd h (List.cons_ne_nil _ _), fun i hi hi' => ?_⟩
    cases i with
    | zero =>
      refine ⟨rfl, rfl, ok, hdt, hm, ht, hc, fun _ => ⟨rfl, hs⟩, fun hl => ?_, fun hn => ?_⟩
      · have : ps = [] := by
          simp only [List.length_cons] at hl
          exact List.length_eq_zero_iff.1 (by omega)
        exact (ih2 this).symm
      · simp only [List.length_cons] at hn
        have := (ih3 0 (by omega) (by omega)).2.2.2.2.2.2.2.1 rfl
        exact ⟨this.1.symm, this.2⟩
    | succ i =>
      simp only [List.length_cons] at hi hi'
      obtain ⟨a1, a2, a3, a4, a5, a6, a7, -, a9, a10⟩ := ih3 i (by omega) (by omega)
      refine ⟨a1, a2, a3, a4, a5, a6, a7, fun h => absurd h (by omega), fun hl => ?_, fun hn => ?_⟩
      · simp only [List.length_cons] at hl
        exact a9 (by omega)
      · simp only [List.length_cons] at hn
        exact a10 (by omega)

/-- The variables of the LIPMs follow each other and fill the problem. -/
theorem Chained.vars {g : Wpg} {init : ComState} {prev : Option Lipm} {t : ℝ} {n : Nat} {ss : List Support}
    {ps : List Planned} {n' : Nat} {te : ℝ} (h : Chained g init prev t n ss ps n' te) :
    n ≤ n' ∧ ∀ p ∈ ps, n ≤ p.lipm.x.var.kStart ∧ p.lipm.x.var.kEnd = p.lipm.y.var.kStart ∧ p.lipm.y.var.kEnd ≤ n' := by
  induction h with
  | nil prev t n => exact ⟨le_refl _, fun p hp => absurd hp List.not_mem_nil⟩
  | cons prev t n s ss l cs ps n' te hs ok hdt hm ht hx hy hc rest ih =>
    refine ⟨by omega, fun p hp => ?_⟩
    rcases List.mem_cons.1 hp with rfl | hp
    · simp only [hx, hy]
      exact ⟨le_refl _, trivial, ih.1⟩
    · obtain ⟨a, b, c⟩ := ih.2 p hp
      exact ⟨by omega, b, c⟩

theorem mapM_get {α β : Type} (f : α → Except Err β) : ∀ (l : List α) (r : List β), l.mapM f = .ok r →
    r.length = l.length ∧ ∀ (i : Nat) (h : i < l.length) (h' : i < r.length), f l[i] = .ok r[i] := by
  intro l
  induction l with
  | nil => intro r h; cases h; exact ⟨rfl, fun i h => absurd h (by simp)⟩
  | cons a l ih =>
    intro r h
    rw [List.mapM_cons] at h
    cases ha : f a with
    | error e => rw [ha] at h; cases h
    | ok b =>
      rw [ha] at h
      simp only [Bind.bind, Except.bind] at h
      cases hl : l.mapM f with
      | error e => rw [hl] at h; cases h
      | ok bs =>
        rw [hl] at h
        cases h
        obtain ⟨h1, h2⟩ := ih bs hl
        refine ⟨by simp [h1], fun i hi hi' => ?_⟩
        cases i with
        | zero => exact ha
        | succ i => exact h2 i (by simpa using hi) (by simpa using hi')

/-- What `plan_com` returns. -/
theorem planCom_loop (g : Wpg) (t0 : ℝ) (ss : List Support) (init : ComState) (hd : ∀ s ∈ ss, 0 < g.duration s)
    (parts : List Part) (te : ℝ) (h : g.planCom t0 ss init = .ok (some (parts, te))) :
    ∃ ps n sol, Chained g init none t0 0 ss ps n te ∧
      g.planLoop t0 init ss t0 0 none = .ok (ps, n, te) ∧ g.solveQP n (ps.map Planned.cs).flatten = .ok sol ∧
      parts.length = ps.length ∧ ∀ (i : Nat) (h : i < ps.length) (h' : i < parts.length),
        parts[i].tStart = ps[i].tStart ∧ parts[i].tEnd = ps[i].tEnd ∧ parts[i].com = ps[i].lipm.getTrajectory sol ∧
        ∃ dcm, (ps[i].lipm.getTrajectory sol).dcm ps[i].tEnd g.omega = .ok dcm ∧
          parts[i].support = { ps[i].support with targetDcm := dcm } := by
  unfold Wpg.planCom at h
  cases hr : g.planLoop t0 init ss t0 0 none with
  | error e => rw [hr] at h; cases h
  | ok r =>
    rw [hr] at h
    simp only [Bind.bind, Except.bind] at h
    have hc := planLoop_chained g t0 init ss t0 0 none hd (fun _ => rfl) (fun l hl => by cases hl) r hr
    cases hq : g.solveQP r.2.1 (r.1.map Planned.cs).flatten with
    | error e => rw [hq] at h; cases e <;> cases h
    | ok sol =>
      rw [hq] at h
      simp only at h
      cases hm : r.1.mapM (g.attach sol) with
      | error e => rw [hm] at h; cases h
      | ok parts' =>
        rw [hm] at h
        cases h
        obtain ⟨hl, hg⟩ := mapM_get _ _ _ hm
        refine ⟨r.1, r.2.1, sol, hc, rfl, hq, hl, fun i hi hi' => ?_⟩
        have e := hg i hi hi'
        unfold Wpg.attach at e
        cases hdcm : (r.1[i].lipm.getTrajectory sol).dcm r.1[i].tEnd g.omega with
        | error e' => simp only [hdcm, Bind.bind, Except.bind] at e; cases e
        | ok dcm =>
          simp only [hdcm, Bind.bind, Except.bind, Except.ok.injEq] at e
          rw [← e]
          exact ⟨rfl, rfl, rfl, dcm, rfl, rfl⟩

theorem planCom_chained (g : Wpg) (t0 : ℝ) (ss : List Support) (init : ComState) (hd : ∀ s ∈ ss, 0 < g.duration s)
    (parts : List Part) (te : ℝ) (h : g.planCom t0 ss init = .ok (some (parts, te))) :
    ∃ ps n sol, Chained g init none t0 0 ss ps n te ∧ g.solveQP n (ps.map Planned.cs).flatten = .ok sol ∧
      parts.length = ps.length ∧ ∀ (i : Nat) (h : i < ps.length) (h' : i < parts.length),
        parts[i].tStart = ps[i].tStart ∧ parts[i].tEnd = ps[i].tEnd ∧ parts[i].com = ps[i].lipm.getTrajectory sol ∧
        ∃ dcm, (ps[i].lipm.getTrajectory sol).dcm ps[i].tEnd g.omega = .ok dcm ∧
          parts[i].support = { ps[i].support with targetDcm := dcm } := by
  obtain ⟨ps, n, sol, h1, -, h2, h3⟩ := planCom_loop g t0 ss init hd parts te h
  exact ⟨ps, n, sol, h1, h2, h3⟩

/-- **C86.** When every support lasts, the parts planned follow each other, cover the time from the start of the
trajectory to its end, one part for each support and as long as it; at the boundary between two parts, the CoM position
(`d = 0`), velocity (`d = 1`) and acceleration (`d = 2`) read in both parts are the same; at the start they are the
initial ones. The QP solver is any solver. -/
theorem C86 (g : Wpg) (t0 : ℝ) (ss : List Support) (init : ComState) (hd : ∀ s ∈ ss, 0 < g.duration s)
    (parts : List Part) (te : ℝ) (h : g.planCom t0 ss init = .ok (some (parts, te))) :
    parts.length = ss.length ∧ Contiguous parts ∧
    (∀ (i : Nat) (h : i < parts.length) (h' : i < ss.length), parts[i].tEnd - parts[i].tStart = g.duration ss[i]) ∧
    (∀ hne : parts ≠ [], (parts.head hne).tStart = t0 ∧ (parts.getLast hne).tEnd = te ∧
      (parts.head hne).com.pos t0 = .ok init.pos ∧ (parts.head hne).com.vel t0 = .ok init.vel ∧
      (parts.head hne).com.acc t0 = .ok init.acc) ∧
    (∀ (i : Nat) (h : i + 1 < parts.length) (d : Nat), d < 3 → ∃ v,
      parts[i].com.component parts[i].tEnd d = .ok v ∧ parts[i + 1].com.component parts[i + 1].tStart d = .ok v) := by
  obtain ⟨ps, n, sol, hc, -, hl, hg⟩ := planCom_chained g t0 ss init hd parts te h
  obtain ⟨hlen, -, hget⟩ := hc.get
  have start : ∀ (i : Nat) (hi : i < ps.length) (d : Nat), d < 3 →
      (ps[i].lipm.getTrajectory sol).component ps[i].tStart d = .ok (ps[i].lipm.stateAt sol 0 d) := by
    intro i hi d hd3
    obtain ⟨-, -, a3, a4, a5, a6, -⟩ := hget i hi (by omega)
    have hm := timesteps_pos g ss[i]
    have hdi := hd _ (List.getElem_mem (by omega : i < ss.length))
    have := traj_component a3 (by rw [a4]; exact div_pos hdi (by exact_mod_cast hm)) (by rw [a5]; exact hm) sol 0 d
      (Nat.zero_le _) hd3
    rw [a6] at this
    simpa using this
  have fin : ∀ (i : Nat) (hi : i < ps.length) (d : Nat), d < 3 →
      (ps[i].lipm.getTrajectory sol).component ps[i].tEnd d = .ok (ps[i].lipm.stateAt sol ps[i].lipm.timesteps d) := by
    intro i hi d hd3
    obtain ⟨a1, -, a3, a4, a5, a6, -⟩ := hget i hi (by omega)
    have hm := timesteps_pos g ss[i]
    have hdi := hd _ (List.getElem_mem (by omega : i < ss.length))
    have := traj_component a3 (by rw [a4]; exact div_pos hdi (by exact_mod_cast hm)) (by rw [a5]; exact hm) sol
      ps[i].lipm.timesteps d (le_refl _) hd3
    have e : ps[i].lipm.tStart + ps[i].lipm.timesteps * ps[i].lipm.dt = ps[i].tEnd := by
      rw [a1, a4, a5, a6, mul_div_cancel₀]
      exact_mod_cast hm.ne'
    rw [e] at this
    exact this
  refine ⟨by omega, ⟨?_, ?_⟩, ?_, ?_, ?_⟩
  · intro i hi
    obtain ⟨b1, b2, -⟩ := hg i (by omega) hi
    rw [b1, b2, (hget i (by omega) (by omega)).1]
    linarith [hd _ (List.getElem_mem (by omega : i < ss.length))]
  · intro i hi
    rw [(hg i (by omega) (by omega)).2.1, (hg (i + 1) (by omega) hi).1]
    exact ((hget i (by omega) (by omega)).2.2.2.2.2.2.2.2.2 (by omega)).1
  · intro i hi hi'
    obtain ⟨b1, b2, -⟩ := hg i (by omega) hi
    rw [b1, b2, (hget i (by omega) (by omega)).1]
    ring
  · intro hne
    have hp : 0 < parts.length := List.length_pos_iff.2 hne
    rw [List.head_eq_getElem, List.getLast_eq_getElem]
    obtain ⟨hs0, hs⟩ := (hget 0 (by omega) (by omega)).2.2.2.2.2.2.2.1 rfl
    obtain ⟨b1, -, b3, -⟩ := hg 0 (by omega) hp
    have hi := hs sol
    refine ⟨by rw [b1, hs0], ?_, ?_, ?_, ?_⟩
    · rw [(hg (parts.length - 1) (by omega) (by omega)).2.1]
      exact (hget (parts.length - 1) (by omega) (by omega)).2.2.2.2.2.2.2.2.1 (by omega)
    · rw [b3, ← hi.1, ← hs0]; exact start 0 (by omega) 0 (by omega)
    · rw [b3, ← hi.2.1, ← hs0]; exact start 0 (by omega) 1 (by omega)
    · rw [b3, ← hi.2.2, ← hs0]; exact start 0 (by omega) 2 (by omega)
  · intro i hi d hd3
    refine ⟨ps[i].lipm.stateAt sol ps[i].lipm.timesteps d, ?_, ?_⟩
    · rw [(hg i (by omega) (by omega)).2.2.1, (hg i (by omega) (by omega)).2.1]
      exact fin i (by omega) d hd3
    · rw [(hg (i + 1) (by omega) hi).2.2.1, (hg (i + 1) (by omega) hi).1, start (i + 1) (by omega) d hd3]
      congr 1
      exact ((hget i (by omega) (by omega)).2.2.2.2.2.2.2.2.2 (by omega)).2 sol d hd3

/-- The parts planned are joined, as `C89_com` asks. -/
theorem planned_joined (g : Wpg) (t0 : ℝ) (ss : List Support) (init : ComState) (hd : ∀ s ∈ ss, 0 < g.duration s)
    (parts : List Part) (te : ℝ) (h : g.planCom t0 ss init = .ok (some (parts, te))) : ComJoined parts := by
  obtain ⟨-, hc, -, -, hj⟩ := C86 g t0 ss init hd parts te h
  intro i hi d hd3
  obtain ⟨v, h1, h2⟩ := hj i hi d hd3
  rw [h1, hc.joined i hi, h2]

/-! ## C93 -/

/-- **C93.** Whatever the parameters and the ratios, the number of timesteps of the LIPM of a part is positive and the
part lasts this number times the LIPM's `dt`, so the LIPM ends with its part. -/
theorem C93 (g : Wpg) (t0 : ℝ) (init : ComState) (ss : List Support) (hd : ∀ s ∈ ss, 0 < g.duration s)
    (r : List Planned × Nat × ℝ) (h : g.planLoop t0 init ss t0 0 none = .ok r) :
    ∀ p ∈ r.1, 0 < p.lipm.timesteps ∧ p.tEnd - p.tStart = p.lipm.timesteps * p.lipm.dt ∧ p.lipm.tStart = p.tStart ∧
      p.lipm.tEnd = p.tEnd := by
  have hc := planLoop_chained g t0 init ss t0 0 none hd (fun _ => rfl) (fun l hl => by cases hl) r h
  obtain ⟨hlen, -, hget⟩ := hc.get
  intro p hp
  obtain ⟨i, hi, rfl⟩ := List.getElem_of_mem hp
  obtain ⟨a1, -, -, a4, a5, a6, -⟩ := hget i hi (by omega)
  have hm := timesteps_pos g ss[i]
  have hm' : (g.timesteps ss[i] : ℝ) ≠ 0 := by exact_mod_cast hm.ne'
  have e : (g.timesteps ss[i] : ℝ) * (g.duration ss[i] / g.timesteps ss[i]) = g.duration ss[i] := mul_div_cancel₀ _ hm'
  refine ⟨by rw [a5]; exact hm, by rw [a1, a4, a5, e]; ring, a6, ?_⟩
  unfold Lipm.tEnd
  rw [a1, a4, a5, a6, e]

theorem truncZ_int (k : Int) : truncZ (k : ℝ) = k := by
  unfold truncZ
  split <;> simp

/-- The default duration of every support is its default number of timesteps times `dt`. -/
theorem C93_default (p : Params) (s : Support) (h : p.singleSupportTimesteps ≠ 0) :
    p.supportDuration s = p.supportTimesteps s * p.dt := by
  unfold Params.supportDuration Params.supportTimesteps
  split
  · split <;> rfl
  · unfold Params.dt
    rw [mul_div_cancel₀]
    exact_mod_cast h

/-- A support not started yet is planned with its default number of timesteps, and the `dt` of the parameters
stretched by the time ratio. -/
theorem C93_dt (g : Wpg) (s : Support) (h : g.p.singleSupportTimesteps ≠ 0) (he : s.elapsedRatio = 0)
    (hm : 0 < g.p.supportTimesteps s) :
    (g.timesteps s : Int) = g.p.supportTimesteps s ∧ g.duration s / g.timesteps s = g.p.dt * s.timeRatio := by
  have h1 : (g.timesteps s : Int) = g.p.supportTimesteps s := by
    unfold Wpg.timesteps
    rw [he, sub_zero, one_mul, truncZ_int]
    omega
  refine ⟨h1, ?_⟩
  have h2 : (g.timesteps s : ℝ) = (g.p.supportTimesteps s : ℝ) := by exact_mod_cast congrArg (Int.cast (R := ℝ)) h1
  have h3 : (g.p.supportTimesteps s : ℝ) ≠ 0 := by exact_mod_cast hm.ne'
  unfold Wpg.duration
  rw [h2, he, C93_default g.p.toParams s h]
  field_simp
  ring

/-- Supports last when the parameters are positive and the support is not over. -/
theorem duration_pos (g : Wpg) (s : Support) (hd : 0 < g.p.singleSupportDuration) (hn : 0 < g.p.singleSupportTimesteps)
    (hs : 0 < g.p.supportTimesteps s) (he : s.elapsedRatio < 1) (hr : 0 < s.timeRatio) : 0 < g.duration s := by
  unfold Wpg.duration
  rw [C93_default g.p.toParams s hn.ne']
  have h1 : (0 : ℝ) < g.p.supportTimesteps s := by exact_mod_cast hs
  have h2 : 0 < g.p.dt := by
    unfold Params.dt
    exact div_pos hd (by exact_mod_cast hn)
  have h3 : 0 < 1 - s.elapsedRatio := by linarith
  positivity

/-! ## C90 -/

/-- A planned part starts with its support when the support has no time yet, or the time of the part. -/
theorem planned_time (g : Wpg) (t0 : ℝ) (ss : List Support) (init : ComState) (hd : ∀ s ∈ ss, 0 < g.duration s)
    (parts : List Part) (te : ℝ) (h : g.planCom t0 ss init = .ok (some (parts, te))) (i : Nat) (hi : i < parts.length)
    (hi' : i < ss.length) :
    parts[i].support.tStart = if ss[i].tStart = -1 then parts[i].tStart else ss[i].tStart := by
  obtain ⟨ps, n, sol, hc, -, hl, hg⟩ := planCom_chained g t0 ss init hd parts te h
  obtain ⟨b1, -, -, dcm, -, b5⟩ := hg i (by omega) hi
  obtain ⟨-, a2, -⟩ := hc.get.2.2 i (by omega) hi'
  rw [b5, b1]
  show ps[i].support.tStart = _
  rw [a2]
  unfold stamped
  split
  · rfl
  · rfl

/-- What holds of C90: when the supports begin with a double support, or have none in the middle, every planned support
carries the start time of its part. What is missing: the sequences that begin with a single support followed by a double
support (`C90_refuted`). -/
theorem C90_partial (g : Wpg) (fs : List Footstep) (hfs : 3 ≤ fs.length) (t0 : ℝ) (start middle isEnd : Bool)
    (hsm : start = true ∨ middle = false) (ss : List Support) (hss : makeSupports fs t0 start middle isEnd = .ok ss)
    (init : ComState) (hd : ∀ s ∈ ss, 0 < g.duration s) (parts : List Part) (te : ℝ)
    (h : g.planCom t0 ss init = .ok (some (parts, te))) : ∀ p ∈ parts, p.support.tStart = p.tStart := by
  obtain ⟨s, H, L, E, hS, fH, -, -, ⟨-, -, hst⟩, -, pL, pE, -⟩ := makeSupports_spec fs t0 start middle isEnd hfs
  rw [hss] at hS
  cases hS
  have hH : H = [] := by
    have hl := fH.length_eq
    unfold headPhases at hl
    rcases hsm with rfl | rfl
    · simp at hl; exact hl
    · cases start <;> simp at hl <;> exact hl
  subst hH
  obtain ⟨hlen, -, -, hhead, -⟩ := C86 g t0 _ init hd parts te h
  intro p hp
  obtain ⟨i, hi, rfl⟩ := List.getElem_of_mem hp
  rw [planned_time g t0 _ init hd parts te h i hi (by omega)]
  cases i with
  | zero =>
    have := (hhead (List.ne_nil_of_mem hp)).1
    rw [List.head_eq_getElem] at this
    simp only [List.getElem_cons_zero]
    rw [hst, this]
    split <;> rfl
  | succ i =>
    have hx : ∀ x ∈ [] ++ L ++ E, x.tStart = -1 := by
      intro x hx
      rcases List.mem_append.1 hx with h | h
      · exact (pL x (by simpa using h)).2.2
      · exact (pE x h).2.2
    rw [if_pos]
    exact hx _ (List.getElem_mem (by simp only [List.length_cons] at hlen; omega))

/-- C90 fails for every sequence of supports made without a start but with double supports: the first two supports carry
the same time, although the second one begins when the first one ends. -/
theorem C90_refuted (g : Wpg) (fs : List Footstep) (hfs : 3 ≤ fs.length) (t0 : ℝ) (ht0 : t0 ≠ -1) (isEnd : Bool)
    (ss : List Support) (hss : makeSupports fs t0 false true isEnd = .ok ss)
    (init : ComState) (hd : ∀ s ∈ ss, 0 < g.duration s) (parts : List Part) (te : ℝ)
    (h : g.planCom t0 ss init = .ok (some (parts, te))) :
    ∃ hi : 1 < parts.length, parts[1].support.tStart = t0 ∧ t0 < parts[1].tStart := by
  have hS : ∃ a b rest, ss = a :: b :: rest ∧ b.tStart = t0 := by
    unfold makeSupports supportsBody supportsHead at hss
    rw [if_pos (by omega), if_neg (by decide), if_pos rfl, single_ok (by omega), double_ok (by omega)] at hss
    obtain ⟨L, hL, -, -⟩ := supportsLoop_spec fs true (fs.length - 2) 1 (by omega) (by omega)
    obtain ⟨E, hE, -⟩ := supportsEnd_spec fs isEnd (by omega)
    rw [hL, hE] at hss
    cases hss
    exact ⟨_, _, _, rfl, rfl⟩
  obtain ⟨a, b, rest, rfl, hb⟩ := hS
  obtain ⟨hlen, hc, hdur, hhead, -⟩ := C86 g t0 _ init hd parts te h
  have h1 : 1 < parts.length := by rw [hlen]; simp
  refine ⟨h1, ?_, ?_⟩
  · rw [planned_time g t0 _ init hd parts te h 1 h1 (by simp)]
    simp only [List.getElem_cons_succ, List.getElem_cons_zero]
    rw [hb, if_neg ht0]
  · have e0 := (hhead (List.length_pos_iff.1 (by omega))).1
    rw [List.head_eq_getElem] at e0
    have e1 := hc.joined 0 (by omega)
    have e2 := hdur 0 (by omega) (by simp)
    have e3 := hd a List.mem_cons_self
    simp only [List.getElem_cons_zero] at e2
    simp only [Nat.zero_add] at e1
    linarith

end Verif.Humanoid
