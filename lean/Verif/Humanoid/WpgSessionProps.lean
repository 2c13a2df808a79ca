/-
C179: the ZMP of the trajectories planned by a walk pattern generator whose parameters may change after its construction.
-/
import Verif.Humanoid.WpgSession
import Verif.Humanoid.PlanExists
import Verif.Humanoid.StartProps

namespace Verif.Humanoid
open Verif.Problem Verif.Tools Verif.Robot

/-! ## Specification -/

/-- The zero moment point of a point mass at the height `h` above the floor, with horizontal position `p` and acceleration `a`, under
the gravity of the earth. -/
noncomputable def cartZmp (h : ℝ) (p a : V2) : V2 := ⟨p.x - h / 9.80665 * a.x, p.y - h / 9.80665 * a.y⟩

/-- The parameters given last. -/
def lastParams : List WpgOp → WpgParams → WpgParams
  | [], p => p
  | .parameters p :: ops, _ => lastParams ops p
  | .soft _ _ _ :: ops, p => lastParams ops p

/-- The trajectories a generator answers: `plan`, or a `replan` that succeeds. -/
def WpgObj.Answers (o : WpgObj) (ss : List Support) (t0 : ℝ) (init : ComState) (tr : Traj) : Prop :=
  (∃ com : V3, init = ⟨⟨com 0, com 1⟩, ⟨0, 0⟩, ⟨0, 0⟩⟩ ∧ o.plan ss com t0 = .ok tr) ∨
  ∃ old p v a, old.getPWorldCoM t0 = .ok p ∧ old.getDWorldCoM 1 t0 = .ok v ∧ old.getDWorldCoM 2 t0 = .ok a ∧
    init = ⟨⟨p 0, p 1⟩, ⟨v 0, v 1⟩, ⟨a 0, a 1⟩⟩ ∧ o.replan ss old t0 = .ok tr ∧ tr.replanSuccess = true

/-! ## Lemmas -/

theorem wpgObj_run : ∀ (ops : List WpgOp) (o : WpgObj), (o.run ops).built = o.built ∧ (o.run ops).g.p = lastParams ops o.g.p
  | [], _ => ⟨rfl, rfl⟩
  | .parameters p :: ops, o => wpgObj_run ops (o.step (.parameters p))
  | .soft s z e :: ops, o => wpgObj_run ops (o.step (.soft s z e))

theorem answers_planCom {o : WpgObj} {ss : List Support} {t0 : ℝ} {init : ComState} {tr : Traj} (h : o.Answers ss t0 init tr) :
    ∃ parts te, o.pendulum.planCom t0 ss init = .ok (some (parts, te)) ∧
      tr.comTargetZ = o.g.p.walkComHeight ∧ tr.parts.length = parts.length ∧
      ∀ (i : Nat) (h : i < tr.parts.length) (h' : i < parts.length), tr.parts[i].com = parts[i].com ∧ tr.parts[i].tStart = parts[i].tStart := by
  have body : ∀ r old, o.g.planFeet (o.blank t0 r) old = .ok tr → tr.comTargetZ = o.g.p.walkComHeight ∧
      tr.parts.length = r.1.length ∧ ∀ (i : Nat) (h : i < tr.parts.length) (h' : i < r.1.length),
        tr.parts[i].com = r.1[i].com ∧ tr.parts[i].tStart = r.1[i].tStart := by
    intro r old h
    have hs := sameBody_planFeet h
    refine ⟨hs.z, hs.parts.length_eq.symm, fun i hi hi' => ?_⟩
    obtain ⟨k1, w, e⟩ := hs.get i hi
    rw [e]
    exact ⟨rfl, rfl⟩
  rcases h with ⟨com, rfl, h⟩ | ⟨old, p, v, a, h1, h2, h3, rfl, h, hok⟩
  · unfold WpgObj.plan at h
    by_cases h0 : ss.length = 0
    · rw [if_pos h0] at h; cases h
    · rw [if_neg h0] at h
      cases hc : o.pendulum.planCom t0 ss ⟨⟨com 0, com 1⟩, ⟨0, 0⟩, ⟨0, 0⟩⟩ with
      | error e => rw [hc] at h; cases h
      | ok r =>
        simp only [hc, Bind.bind, Except.bind] at h
        cases r with
        | none => cases h
        | some r => exact ⟨r.1, r.2, rfl, body r none h⟩
  · unfold WpgObj.replan at h
    by_cases h0 : ss.length = 0
    · rw [if_pos h0] at h; cases h
    · rw [if_neg h0] at h
      simp only [h1, h2, h3, Bind.bind, Except.bind] at h
      cases hc : o.pendulum.planCom t0 ss ⟨⟨p 0, p 1⟩, ⟨v 0, v 1⟩, ⟨a 0, a 1⟩⟩ with
      | error e => simp only [hc] at h; cases h
      | ok r =>
        simp only [hc] at h
        cases r with
        | none =>
          rw [← Except.ok.inj h] at hok
          cases hok
        | some r => exact ⟨r.1, r.2, rfl, body r (some old) h⟩

/-! ## C179 -/

/-- **C179, exactly.** For every generator, every sequence of changes of its parameters and members, and every trajectory it then answers
with hard constraints: the trajectory is at the CoM height of the parameters given last, and at every timestep of every part the ZMP of
a CoM that would be at the height of the construction is in the support polygon by the margin. The ZMP of the trajectory, whose
CoM is at the new height, is away from that one by the difference of the heights times the acceleration over `g`. -/
theorem C179_exact (g : Wpg) (ops : List WpgOp) (o : WpgObj) (ho : o = (WpgObj.new g).run ops) (hh : 0 < g.p.walkComHeight)
    (hsoft : o.g.soft = false) (hor : SolverSound o.g.oracle) (ss : List Support) (hstand : ∀ s ∈ ss, Stands s)
    (hd : ∀ s ∈ ss, 0 < o.g.duration s) (t0 : ℝ) (init : ComState)
    (hqr : ∀ r, o.pendulum.planLoop t0 init ss t0 0 none = .ok r → QRContract (newProblem r.2.1) o.g.qr (r.1.map Planned.cs).flatten)
    (tr : Traj) (h : o.Answers ss t0 init tr) :
    tr.comTargetZ = (lastParams ops g.p).walkComHeight ∧ tr.parts.length = ss.length ∧
    ∀ (i : Nat) (hi : i < tr.parts.length) (hi' : i < ss.length), NoRepeat (ss[i].supportPolygon o.g.hull).2 →
      ∀ k : Nat, 1 ≤ k → k ≤ o.g.timesteps ss[i] →
      ∃ p a, tr.parts[i].com.pos (tr.parts[i].tStart + k * (o.g.duration ss[i] / o.g.timesteps ss[i])) = .ok p ∧
        tr.parts[i].com.acc (tr.parts[i].tStart + k * (o.g.duration ss[i] / o.g.timesteps ss[i])) = .ok a ∧
        InsideBy (lastParams ops g.p).zmpMargin (ss[i].supportPolygon o.g.hull).2 (cartZmp g.p.walkComHeight p a) ∧
        (cartZmp tr.comTargetZ p a).x = (cartZmp g.p.walkComHeight p a).x + (g.p.walkComHeight - tr.comTargetZ) * a.x / 9.80665 ∧
        (cartZmp tr.comTargetZ p a).y = (cartZmp g.p.walkComHeight p a).y + (g.p.walkComHeight - tr.comTargetZ) * a.y / 9.80665 := by
  obtain ⟨hb, hp⟩ := wpgObj_run ops (WpgObj.new g)
  rw [← ho] at hb hp
  obtain ⟨parts, te, hc, hz, hlen, hparts⟩ := answers_planCom h
  have hl := (C86 o.pendulum t0 ss init hd parts te hc).1
  refine ⟨by rw [hz, hp]; rfl, by omega, fun i hi hi' hn k h1 h2 => ?_⟩
  obtain ⟨e1, e2⟩ := hparts i hi (by omega)
  obtain ⟨z, hz', hin⟩ := (C108 o.pendulum hsoft hor t0 ss hstand init hd hqr parts te hc i (by omega) hi').1 hn k h1 h2
  have hz'' : parts[i].com.zmp (parts[i].tStart + k * (o.g.duration ss[i] / o.g.timesteps ss[i])) o.pendulum.omega2 = .ok z := hz'
  have ho2 : 1 / o.pendulum.omega2 = g.p.walkComHeight / 9.80665 := by
    have e : o.pendulum.omega2 = computeOmega g.p.walkComHeight ^ 2 := by
      show computeOmega o.built ^ 2 = _
      rw [hb]; rfl
    obtain ⟨q1, q2⟩ := C84_omega g.p.walkComHeight hh
    rw [e, div_eq_div_iff (by positivity) (by norm_num), one_mul, ← q2]
    ring
  rw [e1, e2]
  unfold LTraj.zmp at hz''
  cases hpos : parts[i].com.pos (parts[i].tStart + k * (o.g.duration ss[i] / o.g.timesteps ss[i])) with
  | error e => rw [hpos] at hz''; cases hz''
  | ok p =>
    cases hacc : parts[i].com.acc (parts[i].tStart + k * (o.g.duration ss[i] / o.g.timesteps ss[i])) with
    | error e => simp only [hpos, hacc, Bind.bind, Except.bind] at hz''; cases hz''
    | ok a =>
      simp only [hpos, hacc, Bind.bind, Except.bind] at hz''
      have ez := Except.ok.inj hz''
      rw [ho2] at ez
      refine ⟨p, a, rfl, rfl, ?_, ?_, ?_⟩
      · have em : o.pendulum.p.zmpMargin = (lastParams ops g.p).zmpMargin := by
          show o.g.p.zmpMargin = _
          rw [hp]; rfl
        rw [em, ← ez] at hin
        exact hin
      · unfold cartZmp; dsimp only; ring
      · unfold cartZmp; dsimp only; ring

/-- **C179, the part that holds.** When the CoM height was not changed since the construction (whatever happened to the other parameters and in
between), the ZMP of a CoM at the height of the trajectory is in the support polygons by the margin, at every timestep. Missing: generators
whose `walk_com_height` was changed (`C179_refuted`). -/
theorem C179_partial (g : Wpg) (ops : List WpgOp) (o : WpgObj) (ho : o = (WpgObj.new g).run ops) (hh : 0 < g.p.walkComHeight)
    (hsame : (lastParams ops g.p).walkComHeight = g.p.walkComHeight)
    (hsoft : o.g.soft = false) (hor : SolverSound o.g.oracle) (ss : List Support) (hstand : ∀ s ∈ ss, Stands s)
    (hd : ∀ s ∈ ss, 0 < o.g.duration s) (t0 : ℝ) (init : ComState)
    (hqr : ∀ r, o.pendulum.planLoop t0 init ss t0 0 none = .ok r → QRContract (newProblem r.2.1) o.g.qr (r.1.map Planned.cs).flatten)
    (tr : Traj) (h : o.Answers ss t0 init tr) (i : Nat) (hi : i < tr.parts.length) (hi' : i < ss.length)
    (hn : NoRepeat (ss[i].supportPolygon o.g.hull).2) (k : Nat) (h1 : 1 ≤ k) (h2 : k ≤ o.g.timesteps ss[i]) :
    ∃ p a, tr.parts[i].com.pos (tr.parts[i].tStart + k * (o.g.duration ss[i] / o.g.timesteps ss[i])) = .ok p ∧
      tr.parts[i].com.acc (tr.parts[i].tStart + k * (o.g.duration ss[i] / o.g.timesteps ss[i])) = .ok a ∧
      InsideBy (lastParams ops g.p).zmpMargin (ss[i].supportPolygon o.g.hull).2 (cartZmp tr.comTargetZ p a) := by
  obtain ⟨hz, -, hall⟩ := C179_exact g ops o ho hh hsoft hor ss hstand hd t0 init hqr tr h
  obtain ⟨p, a, e1, e2, hin, -⟩ := hall i hi hi' hn k h1 h2
  rw [hz, hsame]
  exact ⟨p, a, e1, e2, hin⟩

/-- When no CoM plan is found, whatever was assigned before: `plan` throws, and `replan` answers with what is left of the
previous trajectory. -/
theorem C179_infeasible (o : WpgObj) (ss : List Support) (t : ℝ) :
    (∀ com : V3, o.pendulum.planCom t ss ⟨⟨com 0, com 1⟩, ⟨0, 0⟩, ⟨0, 0⟩⟩ = .ok none → o.plan ss com t = .error .runtimeError) ∧
    (∀ (old : Traj) (p v a : V3), ss ≠ [] → old.getPWorldCoM t = .ok p → old.getDWorldCoM 1 t = .ok v → old.getDWorldCoM 2 t = .ok a →
      o.pendulum.planCom t ss ⟨⟨p 0, p 1⟩, ⟨v 0, v 1⟩, ⟨a 0, a 1⟩⟩ = .ok none → o.replan ss old t = .ok (o.g.trim old t)) := by
  constructor
  · intro com h
    unfold WpgObj.plan
    by_cases hs : ss.length = 0
    · rw [if_pos hs]
    · rw [if_neg hs]
      simp only [h, Bind.bind, Except.bind]
  · intro old p v a hs hp hv ha h
    unfold WpgObj.replan
    rw [if_neg (fun e => hs (List.length_eq_zero_iff.1 e))]
    simp only [hp, hv, ha, h, Bind.bind, Except.bind]

/-! ## A generator whose CoM height was changed -/

/-- The corners of a rectangle. -/
def boxOf (x0 x1 y0 y1 : ℝ) : List V2 := [⟨x0, y1⟩, ⟨x1, y1⟩, ⟨x1, y0⟩, ⟨x0, y0⟩]

theorem boxOf_inside {x0 x1 y0 y1 : ℝ} (hx : x0 < x1) (hy : y0 < y1) (m : ℝ) (p : V2) :
    InsideBy m (boxOf x0 x1 y0 y1) p ↔ x0 + m ≤ p.x ∧ p.x ≤ x1 - m ∧ y0 + m ≤ p.y ∧ p.y ≤ y1 - m := by
  have hx' : 0 < x1 - x0 := by linarith
  have hy' : 0 < y1 - y0 := by linarith
  have d0 : signedDistance (x0, y1) (x1, y1) (p.x, p.y) = y1 - p.y := by
    unfold signedDistance
    dsimp only
    rw [show (x1 - x0) ^ 2 + (y1 - y1) ^ 2 = (x1 - x0) ^ 2 by ring, Real.sqrt_sq hx'.le]
    field_simp; ring
  have d1 : signedDistance (x1, y1) (x1, y0) (p.x, p.y) = x1 - p.x := by
    unfold signedDistance
    dsimp only
    rw [show (x1 - x1) ^ 2 + (y0 - y1) ^ 2 = (y1 - y0) ^ 2 by ring, Real.sqrt_sq hy'.le]
    field_simp; ring
  have d2 : signedDistance (x1, y0) (x0, y0) (p.x, p.y) = p.y - y0 := by
    unfold signedDistance
    dsimp only
    rw [show (x0 - x1) ^ 2 + (y0 - y0) ^ 2 = (x1 - x0) ^ 2 by ring, Real.sqrt_sq hx'.le]
    field_simp; ring
  have d3 : signedDistance (x0, y0) (x0, y1) (p.x, p.y) = p.x - x0 := by
    unfold signedDistance
    dsimp only
    rw [show (x0 - x0) ^ 2 + (y1 - y0) ^ 2 = (y1 - y0) ^ 2 by ring, Real.sqrt_sq hy'.le]
    field_simp; ring
  constructor
  · intro h
    have h0 : m ≤ signedDistance (x0, y1) (x1, y1) (p.x, p.y) := h 0 (by simp [boxOf])
    have h1 : m ≤ signedDistance (x1, y1) (x1, y0) (p.x, p.y) := h 1 (by simp [boxOf])
    have h2 : m ≤ signedDistance (x1, y0) (x0, y0) (p.x, p.y) := h 2 (by simp [boxOf])
    have h3 : m ≤ signedDistance (x0, y0) (x0, y1) (p.x, p.y) := by simpa [boxOf, vertex] using h 3 (by simp [boxOf])
    rw [d0] at h0; rw [d1] at h1; rw [d2] at h2; rw [d3] at h3
    refine ⟨?_, ?_, ?_, ?_⟩ <;> linarith
  · rintro ⟨a, b, c, d⟩ i hi
    have hi4 : i < 4 := hi
    interval_cases i
    · show m ≤ signedDistance (x0, y1) (x1, y1) (p.x, p.y); rw [d0]; linarith
    · show m ≤ signedDistance (x1, y1) (x1, y0) (p.x, p.y); rw [d1]; linarith
    · show m ≤ signedDistance (x1, y0) (x0, y0) (p.x, p.y); rw [d2]; linarith
    · have e : m ≤ signedDistance (x0, y0) (x0, y1) (p.x, p.y) := by rw [d3]; linarith
      simpa [boxOf, vertex] using e

theorem boxOf_noRepeat {x0 x1 y0 y1 : ℝ} (hx : x0 < x1) (hy : y0 < y1) : NoRepeat (boxOf x0 x1 y0 y1) := by
  intro i hi
  have : i < 4 := hi
  interval_cases i <;> simp [vertex, boxOf] <;> intro h <;> linarith

/-- A foot 10 cm in front of the origin, 8 cm long and 4 cm wide. -/
noncomputable def tallFoot (side : Side) : Footstep :=
  { width := 4 / 100, length := 8 / 100, side := side, frame := ⟨1, ![1 / 10, if side = .left then 5 / 100 else -5 / 100, 0]⟩ }

/-- Both feet. -/
noncomputable def tallSupport : Support := { footsteps := [tallFoot .left, tallFoot .right] }

/-- The convex hull of the two feet, closed. -/
noncomputable def tallHull : List V2 := boxOf (6 / 100) (14 / 100) (-7 / 100) (7 / 100) ++ [⟨6 / 100, 7 / 100⟩]

/-- A double support of one timestep of 0.1 s, the CoM at 39 cm (`omega² = 25`). -/
noncomputable def tallParams : WpgParams :=
  { singleSupportDuration := 1 / 10, singleSupportTimesteps := 1, doubleSupportRatio := 1, walkComHeight := 392266 / 1000000
    zmpMargin := 2 / 100 }

noncomputable def tallWpg : Wpg where
  p := tallParams
  hull := fun _ => tallHull
  slerp := fun a _ _ => a
  qr := fun m eqs => someQR 2 m eqs.A
  oracle := bestOracle

/-- The user then asks for a CoM at 70 cm. -/
noncomputable def tallOps : List WpgOp := [.parameters { tallParams with walkComHeight := 70 / 100 }]

theorem tall_polygon : (tallSupport.supportPolygon tallWpg.hull).2 = boxOf (6 / 100) (14 / 100) (-7 / 100) (7 / 100) := rfl

theorem tall_steps : tallParams.doubleSupportTimesteps = 1 := by
  unfold Params.doubleSupportTimesteps stdRound
  rw [if_pos (by norm_num [tallParams])]
  norm_num [tallParams]

theorem tall_duration : tallWpg.duration tallSupport = 1 / 10 := by
  unfold Wpg.duration Params.supportDuration
  have h1 : tallSupport.isBoth = true := rfl
  have h2 : (tallSupport.start || tallSupport.isEnd) = false := rfl
  have e : tallWpg.p = tallParams := rfl
  rw [h1, h2, e, if_pos rfl, if_neg (by decide)]
  unfold Params.doubleSupportDuration
  rw [tall_steps]
  norm_num [Params.dt, tallParams, tallSupport]

theorem tall_timesteps : tallWpg.timesteps tallSupport = 1 := by
  unfold Wpg.timesteps Params.supportTimesteps
  have h1 : tallSupport.isBoth = true := rfl
  have h2 : (tallSupport.start || tallSupport.isEnd) = false := rfl
  have e : tallWpg.p = tallParams := rfl
  rw [h1, h2, e, if_pos rfl, if_neg (by decide), tall_steps]
  have : (1 - tallSupport.elapsedRatio) * ((1 : Int) : ℝ) = ((1 : Int) : ℝ) := by simp [tallSupport]
  rw [this, truncZ_int]
  rfl

theorem tall_omega2 : tallWpg.omega2 = 25 := by
  unfold Wpg.omega2 Wpg.omega computeOmega tallWpg tallParams
  rw [Real.sq_sqrt (by norm_num)]
  norm_num

theorem tall_ok : SupportsOK tallWpg [tallSupport] := by
  intro s hs
  rw [List.mem_singleton] at hs
  subst hs
  refine ⟨.inr rfl, by rw [tall_duration]; norm_num, ?_⟩
  rw [tall_polygon]; decide

theorem tall_qr : ExactQR tallWpg 0 [tallSupport] restState := by
  intro r hr
  have hc := planLoop_chained tallWpg 0 restState [tallSupport] 0 0 none (fun s h => (tall_ok s h).2.1) (fun _ => rfl)
    (fun l hl => by cases hl) r hr
  have := chained_count hc
  simp only [List.map_cons, List.map_nil, List.sum_cons, List.sum_nil, add_zero, zero_add, tall_timesteps] at this
  have hrn : r.2.1 = 2 := by omega
  rw [hrn]
  exact someQR_spec _ _ _

theorem tall_planCom : ∃ parts te, tallWpg.planCom 0 [tallSupport] restState = .ok (some (parts, te)) := by
  refine (C145_partial tallWpg rfl bestOracle_optimal ⟨by norm_num [tallWpg, tallParams], fun h => (by cases h), fun h => (by cases h)⟩ 0
    [tallSupport] restState tall_ok (fun s h => ?_) tall_qr (.inl fun s h => ?_)).2 ?_
  · rw [List.mem_singleton] at h
    subst h
    rw [tall_polygon]
    exact boxOf_noRepeat (by norm_num) (by norm_num)
  · rw [List.mem_singleton] at h
    subst h
    rfl
  · refine ⟨_, fun _ => ⟨-(600 / 23), 0⟩, ⟨fun k h1 h2 => ?_, fun h => by cases h⟩, rfl⟩
    rw [tall_timesteps] at h2
    obtain rfl : k = 1 := by omega
    rw [tall_polygon, tall_omega2, tall_duration, tall_timesteps]
    refine (boxOf_inside (by norm_num) (by norm_num) _ _).2 ?_
    simp only [pushedBy, pushed, zmpOf, restState]
    have : tallWpg.p.zmpMargin = 2 / 100 := rfl
    rw [this]
    norm_num

theorem tall_plan (o : WpgObj) (hpend : o.pendulum = tallWpg) : ∃ tr, o.plan [tallSupport] 0 0 = .ok tr := by
  obtain ⟨parts, te, h⟩ := tall_planCom
  have hd : ∀ s ∈ [tallSupport], 0 < tallWpg.duration s := fun s h => (tall_ok s h).2.1
  obtain ⟨hlen, hcon, hdur, hfirst, -⟩ := C86 tallWpg 0 [tallSupport] restState hd parts te h
  obtain ⟨-, hsup⟩ := planCom_supports tallWpg 0 [tallSupport] restState hd parts te h
  match parts, hlen, hdur, hfirst, hsup, h with
  | [part], _, hdur, hfirst, hsup, h =>
    have h1 : part.tStart = 0 := (hfirst (by simp)).1
    have h2 : part.tEnd - part.tStart = 1 / 10 := by
      have := hdur 0 (by simp) (by simp)
      rw [← tall_duration]; exact this
    have h3 : part.support.footsteps = [tallFoot .left, tallFoot .right] := (hsup 0 (by simp) (by simp)).1
    have hpos : ¬ part.tEnd ≤ 0 := by rw [h1] at h2; intro h; linarith
    have hf : part.support.footsteps.length ≠ 1 := by rw [h3]; decide
    have h' : tallWpg.planCom 0 [tallSupport] ⟨⟨(0 : V3) 0, (0 : V3) 1⟩, ⟨0, 0⟩, ⟨0, 0⟩⟩ = .ok (some ([part], te)) := h
    unfold WpgObj.plan
    rw [if_neg (by decide), hpend, h']
    simp only [Bind.bind, Except.bind]
    simp [Wpg.planFeet, WpgObj.blank, at', Traj.addSupports, Traj.addYaw, Traj.footYaw, SplineSt.addPoint, Wpg.planTrunkStart, h3,
      Support.frame, Traj.addTrunkYaw, Wpg.planPartsLoop, Wpg.planPart, Wpg.planDbl, SplineSt.init, tallFoot, hpos,
      Bind.bind, Except.bind]

/-- **C179 is false of the code.** A generator is built while `walk_com_height` is 39 cm; the user sets it to 70 cm and plans a support
of 0.1 s on both feet, from rest, the CoM 6 cm behind the feet. The trajectory is at 70 cm, and at its end the ZMP of a CoM at 70 cm is in front of
the polygon of the feet: the plan is made for a CoM at 39 cm, since `omega` is not computed again. -/
theorem C179_refuted : ∃ tr p a, ((WpgObj.new tallWpg).run tallOps).plan [tallSupport] 0 0 = .ok tr ∧ tr.comTargetZ = 70 / 100 ∧
    ∃ hi : 0 < tr.parts.length, tr.parts[0].com.pos (1 / 10) = .ok p ∧ tr.parts[0].com.acc (1 / 10) = .ok a ∧
      14 / 100 < (cartZmp tr.comTargetZ p a).x ∧
      ¬ InsideBy 0 (tallSupport.supportPolygon tallWpg.hull).2 (cartZmp tr.comTargetZ p a) := by
  obtain ⟨tr, h⟩ := tall_plan ((WpgObj.new tallWpg).run tallOps) rfl
  have ha : ((WpgObj.new tallWpg).run tallOps).Answers [tallSupport] 0 restState tr := .inl ⟨0, rfl, h⟩
  have hd : ∀ s ∈ [tallSupport], 0 < tallWpg.duration s := fun s h => (tall_ok s h).2.1
  obtain ⟨hz, hlen, hall⟩ := C179_exact tallWpg tallOps _ rfl (by norm_num [tallWpg, tallParams]) rfl bestOracle_optimal.sound [tallSupport]
    (fun s h => (tall_ok s h).1) hd 0 restState (fun r hr _ => (tall_qr r hr).qr) tr ha
  have hi : 0 < tr.parts.length := by rw [hlen]; simp
  obtain ⟨p, a, hp, hacc, hin, -⟩ := hall 0 hi (by simp) (boxOf_noRepeat (by norm_num) (by norm_num)) 1 le_rfl
    (by show 1 ≤ tallWpg.timesteps tallSupport; rw [tall_timesteps])
  obtain ⟨parts, te, hc, -, hl', hparts⟩ := answers_planCom ha
  have hc' : tallWpg.planCom 0 [tallSupport] restState = .ok (some (parts, te)) := hc
  obtain ⟨ps, n, sol, hch, -, hlps, hg⟩ := planCom_chained tallWpg 0 [tallSupport] restState hd parts te hc'
  obtain ⟨hlp, -, hget⟩ := hch.get
  have h0p : 0 < ps.length := by rw [hlp]; simp
  obtain ⟨b1, b2, b3, -⟩ := hg 0 h0p (by omega)
  obtain ⟨a1, a2, a3, a4, a5, a6, -, a8, -⟩ := hget 0 h0p (by simp)
  obtain ⟨a8, a9⟩ := a8 rfl
  have a4' : ps[0].lipm.dt = 1 / 10 := by
    rw [a4]
    show tallWpg.duration tallSupport / tallWpg.timesteps tallSupport = _
    rw [tall_duration, tall_timesteps]; norm_num
  have a5' : ps[0].lipm.timesteps = 1 := a5.trans tall_timesteps
  obtain ⟨c1, c2⟩ := hparts 0 hi (by omega)
  have hstart : tr.parts[0].tStart = 0 := by rw [c2, b1, a8]
  have ht : tr.parts[0].tStart + ((1 : Nat) : ℝ) * (tallWpg.duration tallSupport / tallWpg.timesteps tallSupport) = 1 / 10 := by
    rw [hstart, tall_duration, tall_timesteps]; norm_num
  have ht' : ps[0].lipm.tStart + ((1 : Nat) : ℝ) * ps[0].lipm.dt = 1 / 10 := by rw [a6, a8, a4']; norm_num
  have hp' : tr.parts[0].com.pos (1 / 10) = .ok p := by rw [← ht]; exact hp
  have hacc' : tr.parts[0].com.acc (1 / 10) = .ok a := by rw [← ht]; exact hacc
  have s0 := traj_component a3 (by rw [a4']; norm_num) (by omega) sol 1 0 (by omega) (by omega)
  have s2 := traj_component a3 (by rw [a4']; norm_num) (by omega) sol 1 2 (by omega) (by omega)
  rw [ht', ← b3, ← c1] at s0 s2
  have ep : p = ps[0].lipm.stateAt sol 1 0 := Except.ok.inj (hp'.symm.trans s0)
  have ea : a = ps[0].lipm.stateAt sol 1 2 := Except.ok.inj (hacc'.symm.trans s2)
  have hst := lipmState_pushed a3 sol 1
  rw [starts_startOf a9] at hst
  simp only [lipmState, startOf, pushedBy, pushed, restState, a4', ComState.mk.injEq] at hst
  rw [← ep, ← ea] at hst
  obtain ⟨u, hu⟩ : ∃ u, (lipmJerk ps[0].lipm sol 0).x = u := ⟨_, rfl⟩
  have px : p.x = u / 6000 := by rw [hst.1, ← hu]; dsimp only; ring
  have ax : a.x = u / 10 := by rw [hst.2.2, ← hu]; dsimp only; ring
  have hin' := (boxOf_inside (x0 := 6 / 100) (x1 := 14 / 100) (y0 := -7 / 100) (y1 := 7 / 100) (by norm_num) (by norm_num) (2 / 100) _).1 hin
  have hlow := hin'.1
  unfold cartZmp at hlow
  dsimp only [tallWpg, tallParams] at hlow
  have hz' : tr.comTargetZ = 70 / 100 := hz
  have hout : 14 / 100 < (cartZmp tr.comTargetZ p a).x := by
    unfold cartZmp
    rw [hz']
    dsimp only
    rw [px, ax] at hlow ⊢
    norm_num at hlow ⊢
    linarith
  refine ⟨tr, p, a, h, hz', hi, hp', hacc', hout, fun hbad => ?_⟩
  have := ((boxOf_inside (x0 := 6 / 100) (x1 := 14 / 100) (y0 := -7 / 100) (y1 := 7 / 100) (by norm_num) (by norm_num) 0 _).1 hbad).2.1
  linarith

/-- Non-vacuity of `C179_partial`: the same plan, when the height was changed and set back before planning. -/
example : ∃ tr, ((WpgObj.new tallWpg).run (tallOps ++ [.parameters tallParams])).Answers [tallSupport] 0 restState tr := by
  obtain ⟨tr, h⟩ := tall_plan ((WpgObj.new tallWpg).run (tallOps ++ [.parameters tallParams])) rfl
  exact ⟨tr, .inl ⟨0, rfl, h⟩⟩

example : (lastParams (tallOps ++ [.parameters tallParams]) tallWpg.p).walkComHeight = tallWpg.p.walkComHeight := rfl

end Verif.Humanoid
