/-
Property C217: the CoM planned for a walk does not depend on when the walk is.
-/
import Mathlib.Tactic.Ring
import Mathlib.Tactic.Linarith
import Verif.Humanoid.TranslateProps
import Verif.Humanoid.ZmpProps

namespace Verif.Humanoid
open Verif.Problem Verif.Tools Verif.Robot Finset

/-! ## Specification -/

/-- The support of a walk that is `τ` later: a start time that was set is later, one that was not set stays so. -/
noncomputable def later (τ : ℝ) (s : Support) : Support := if s.tStart = -1 then s else { s with tStart := s.tStart + τ }

/-- The part of the walk that is `τ` later: what happened at the time `t` happens at `t + τ`. -/
structure PartLater (τ : ℝ) (p p' : Part) : Prop where
  tStart : p'.tStart = p.tStart + τ
  tEnd : p'.tEnd = p.tEnd + τ
  swing : p'.swing = p.swing
  support : { p'.support with tStart := 0 } = { p.support with tStart := 0 }
  com : ∀ t k, p'.com.component (t + τ) k = p.com.component t k

/-- The start times of the supports are later too. -/
def StampsLater (τ : ℝ) (p p' : Part) : Prop := p'.support.tStart = p.support.tStart + τ

/-- The plans: both fail, or the parts are later and the end too. -/
def PlanLater (R : Part → Part → Prop) (τ : ℝ) : Option (List Part × ℝ) → Option (List Part × ℝ) → Prop
  | none, none => True
  | some (parts, te), some (parts', te') => List.Forall₂ R parts parts' ∧ te' = te + τ
  | _, _ => False

/-! ## The LIPMs -/

/-- The LIPM that starts `τ` later. -/
def LipmLater (τ : ℝ) (l l' : Lipm) : Prop :=
  l' = ⟨l.dt, l.timesteps, l.tStart + τ, { l.x with tStart := l.x.tStart + τ }, { l.y with tStart := l.y.tStart + τ }⟩

theorem makeLipm_later (t0 τ : ℝ) (init : ComState) (prev prev' : Option Lipm) (hp : Option.Rel (LipmLater τ) prev prev') (n : Nat) (dt : ℝ)
    (m : Nat) (t : ℝ) :
    ExRel (fun r r' => LipmLater τ r.1 r'.1 ∧ r'.2 = r.2) (makeLipm t0 init prev n dt m t)
      (makeLipm (t0 + τ) init prev' n dt m (t + τ)) := by
  unfold makeLipm
  by_cases ht : t = t0
  · rw [if_pos ht, if_pos (by rw [ht])]
    unfold Lipm.fromState
    dsimp only
    refine (ExRel.refl (R := fun a b => a = b) (fun _ => rfl) _).bind fun x x' hx => ?_
    refine (ExRel.refl (R := fun a b => a = b) (fun _ => rfl) _).bind fun y y' hy => ?_
    subst hx hy
    exact .ok ⟨rfl, rfl⟩
  · rw [if_neg ht, if_neg (by intro h; exact ht (add_right_cancel h))]
    cases hp with
    | none => exact .err _
    | some h =>
      rw [show LipmLater τ _ _ = (_ = _) from rfl] at h
      subst h
      dsimp only
      unfold Lipm.fromPrevious
      dsimp only
      refine (ExRel.refl (R := fun a b => a = b) (fun _ => rfl) _).bind fun a a' ha => ?_
      subst ha
      refine (ExRel.refl (R := fun a b => a = b) (fun _ => rfl) _).bind fun x x' hx => ?_
      refine (ExRel.refl (R := fun a b => a = b) (fun _ => rfl) _).bind fun b b' hb => ?_
      subst hb
      refine (ExRel.refl (R := fun a b => a = b) (fun _ => rfl) _).bind fun y y' hy => ?_
      subst hx hy
      exact .ok ⟨rfl, rfl⟩

/-! ## The constraints -/

/-- The supports differ by their start times. -/
def SameButTime (s s' : Support) : Prop := s' = { s with tStart := s'.tStart }

theorem constrainStep_later (g : Wpg) {τ : ℝ} {l l' : Lipm} (h : LipmLater τ l l') {s s' : Support} (hs : SameButTime s s') (k : Nat) :
    g.constrainStep l' s' k = g.constrainStep l s k := by
  rw [show LipmLater τ _ _ = (_ = _) from rfl] at h
  subst h
  have hpoly : (s'.supportPolygon g.hull).2 = (s.supportPolygon g.hull).2 := by
    rw [hs]
    unfold Support.supportPolygon
    by_cases hc : s.computed = true
    · simp [hc]
    · simp [hc]
  have hfr : s'.frame g.slerp = s.frame g.slerp := by rw [hs]; rfl
  have hoff : g.zmpOffset s' = g.zmpOffset s := by rw [hs]; rfl
  have hend : s'.isEnd = s.isEnd := by rw [hs]
  unfold Wpg.constrainStep Wpg.constrainZmp Wpg.constrainEnd Wpg.constrainStop
  rw [hpoly, hfr, hoff, hend]
  rfl

theorem constrainLoop_later (g : Wpg) {τ : ℝ} {l l' : Lipm} (h : LipmLater τ l l') {s s' : Support} (hs : SameButTime s s') (count : Nat) :
    ∀ k, g.constrainLoop l' s' count k = g.constrainLoop l s count k := by
  induction count with
  | zero => intro k; rfl
  | succ count ih =>
    intro k
    unfold Wpg.constrainLoop
    rw [constrainStep_later g h hs, ih]

/-! ## The plan -/

/-- What the loop computes for a support of a walk that is later. -/
structure PlannedLater (τ : ℝ) (p p' : Planned) : Prop where
  tStart : p'.tStart = p.tStart + τ
  tEnd : p'.tEnd = p.tEnd + τ
  support : SameButTime p.support p'.support
  lipm : LipmLater τ p.lipm p'.lipm
  cs : p'.cs = p.cs

theorem later_same (τ : ℝ) (s : Support) (t : ℝ) : SameButTime (stamped s t) (stamped (later τ s) (t + τ)) := by
  unfold later stamped SameButTime
  by_cases h : s.tStart = -1
  · rw [if_pos h, if_pos h, if_pos h]
  · rw [if_neg h, if_neg h]
    split <;> rfl

theorem stamp_later {τ : ℝ} {s : Support} (hs : s.tStart ≠ -1 → s.tStart + τ ≠ -1) (t : ℝ) :
    (stamped (later τ s) (t + τ)).tStart = (stamped s t).tStart + τ := by
  unfold later stamped
  by_cases h : s.tStart = -1
  · rw [if_pos h, if_pos h, if_pos h]
  · rw [if_neg h, if_neg h, if_neg (hs h)]

theorem planLoop_later (g : Wpg) (t0 τ : ℝ) (init : ComState) (ss : List Support) :
    ∀ (t : ℝ) (n : Nat) (prev prev' : Option Lipm), Option.Rel (LipmLater τ) prev prev' →
      ExRel (fun r r' => List.Forall₂ (fun p p' => PlannedLater τ p p' ∧
          ((∀ s ∈ ss, s.tStart ≠ -1 → s.tStart + τ ≠ -1) → p'.support.tStart = p.support.tStart + τ)) r.1 r'.1 ∧
          r'.2.1 = r.2.1 ∧ r'.2.2 = r.2.2 + τ) (g.planLoop t0 init ss t n prev)
        (g.planLoop (t0 + τ) init (ss.map (later τ)) (t + τ) n prev') := by
  induction ss with
  | nil => intro t n prev prev' _; exact .ok ⟨.nil, rfl, rfl⟩
  | cons s ss ih =>
    intro t n prev prev' hp
    have hd : g.duration (later τ s) = g.duration s := by
      unfold later
      split <;> rfl
    have hm : g.timesteps (later τ s) = g.timesteps s := by
      unfold later
      split <;> rfl
    rw [List.map_cons]
    unfold Wpg.planLoop
    dsimp only
    rw [hd, hm]
    refine (makeLipm_later t0 τ init prev prev' hp n _ _ t).bind fun r r' hr => ?_
    have hc : g.constrainLipm r'.1 (stamped (later τ s) (t + τ)) = g.constrainLipm r.1 (stamped s t) := by
      unfold Wpg.constrainLipm
      have ht : r'.1.timesteps = r.1.timesteps := by rw [show r'.1 = _ from hr.1]
      rw [ht]
      exact constrainLoop_later g hr.1 (later_same τ s t) _ 1
    rw [hc, hr.2, show t + τ + g.duration s = t + g.duration s + τ by ring]
    refine (ExRel.refl (R := fun a b => a = b) (fun _ => rfl) _).bind fun cs cs' hcs => ?_
    subst hcs
    refine (ih (t + g.duration s) r.2 (some r.1) (some r'.1) (.some hr.1)).bind fun q q' hq => ?_
    refine .ok ⟨.cons ⟨⟨rfl, rfl, later_same τ s t, hr.1, rfl⟩, fun h => stamp_later (h s (by simp)) t⟩ ?_, hq.2.1, hq.2.2⟩
    exact hq.1.imp fun p p' hp => ⟨hp.1, fun h => hp.2 fun s hs => h s (by simp [hs])⟩

theorem traj_later {τ : ℝ} {l l' : Lipm} (h : LipmLater τ l l') (sol : Nat → ℝ) (t : ℝ) (k : Int) :
    (l'.getTrajectory sol).component (t + τ) k = (l.getTrajectory sol).component t k := by
  rw [show LipmLater τ _ _ = (_ = _) from rfl] at h
  subst h
  have hv : ∀ (T : Trajectory ℝ) (b : ℝ), Trajectory.value { T with tStart := b + τ } (t + τ) k = Trajectory.value { T with tStart := b } t k := by
    intro T b
    unfold Trajectory.value
    dsimp only
    rw [add_sub_add_right_eq_sub]
  unfold LTraj.component Lipm.getTrajectory Integrator.makeTrajectory
  dsimp only
  have hx := hv (l.x.makeTrajectory sol (sliceOf l.x.var sol)) l.x.tStart
  have hy := hv (l.y.makeTrajectory sol (sliceOf l.y.var sol)) l.y.tStart
  unfold Integrator.makeTrajectory at hx hy
  dsimp only at hx hy
  rw [hx, hy]

theorem attach_later (g : Wpg) (sol : Nat → ℝ) (τ : ℝ) (p p' : Planned) (h : PlannedLater τ p p') :
    ExRel (fun a b => PartLater τ a b ∧ a.support.tStart = p.support.tStart ∧ b.support.tStart = p'.support.tStart)
      (g.attach sol p) (g.attach sol p') := by
  have hd : (p'.lipm.getTrajectory sol).dcm p'.tEnd g.omega = (p.lipm.getTrajectory sol).dcm p.tEnd g.omega := by
    rw [h.tEnd]
    unfold LTraj.dcm LTraj.pos LTraj.vel
    rw [traj_later h.lipm, traj_later h.lipm]
  unfold Wpg.attach
  dsimp only
  rw [hd]
  refine (ExRel.refl (R := fun a b => a = b) (fun _ => rfl) _).bind fun a a' ha => .ok ?_
  subst ha
  refine ⟨⟨h.tStart, h.tEnd, rfl, ?_, fun t k => traj_later h.lipm sol t k⟩, rfl, rfl⟩
  dsimp only
  rw [h.support]

/-! ## C217 -/

/-- A walk planned `τ` later is the same walk `τ` later: the call returns false in the same cases and otherwise, at all times, the planned
CoM and its derivatives are those of the time `τ` before. -/
theorem C217 (g : Wpg) (t0 τ : ℝ) (ss : List Support) (init : ComState) :
    ExRel (PlanLater (PartLater τ) τ) (g.planCom t0 ss init) (g.planCom (t0 + τ) (ss.map (later τ)) init) := by
  unfold Wpg.planCom
  refine (planLoop_later g t0 τ init ss t0 0 none none .none).bind fun r r' hr => ?_
  have hcs : (r'.1.map Planned.cs).flatten = (r.1.map Planned.cs).flatten := by
    congr 1
    have h := hr.1
    generalize r.1 = a at h
    generalize r'.1 = b at h
    induction h with
    | nil => rfl
    | cons h _ ih => rw [List.map_cons, List.map_cons, h.1.cs, ih]
  rw [hr.2.1, hcs]
  cases g.solveQP r.2.1 (r.1.map Planned.cs).flatten with
  | error e => cases e <;> first | exact .err _ | exact .ok trivial
  | ok sol =>
    dsimp only
    refine (ExRel.mapM (R := PlannedLater τ) (fun p p' h => (attach_later g sol τ p p' h).mono fun _ _ h => h.1)
      (hr.1.imp fun _ _ h => h.1)).bind fun a b hab => .ok ⟨hab, hr.2.2⟩

/-- And the start times of the supports are `τ` later, when none of them becomes `-1`. -/
theorem C217_partial (g : Wpg) (t0 τ : ℝ) (ss : List Support) (hs : ∀ s ∈ ss, s.tStart ≠ -1 → s.tStart + τ ≠ -1) (init : ComState) :
    ExRel (PlanLater (fun p p' => PartLater τ p p' ∧ StampsLater τ p p') τ) (g.planCom t0 ss init)
      (g.planCom (t0 + τ) (ss.map (later τ)) init) := by
  unfold Wpg.planCom
  refine (planLoop_later g t0 τ init ss t0 0 none none .none).bind fun r r' hr => ?_
  have hcs : (r'.1.map Planned.cs).flatten = (r.1.map Planned.cs).flatten := by
    congr 1
    have h := hr.1
    generalize r.1 = a at h
    generalize r'.1 = b at h
    induction h with
    | nil => rfl
    | cons h _ ih => rw [List.map_cons, List.map_cons, h.1.cs, ih]
  rw [hr.2.1, hcs]
  cases g.solveQP r.2.1 (r.1.map Planned.cs).flatten with
  | error e => cases e <;> first | exact .err _ | exact .ok trivial
  | ok sol =>
    dsimp only
    refine (ExRel.mapM (R := fun p p' => PlannedLater τ p p' ∧ p'.support.tStart = p.support.tStart + τ) (fun p p' h =>
      (attach_later g sol τ p p' h.1).mono fun a b hab => ⟨hab.1, ?_⟩) (hr.1.imp fun _ _ h => ⟨h.1, h.2 hs⟩)).bind
        fun a b hab => .ok ⟨hab, hr.2.2⟩
    show b.support.tStart = a.support.tStart + τ
    rw [hab.2.1, hab.2.2, h.2]

/-- The start time `-1` means that it was not set. So this is false for a support that started at the time `-1` of the later walk: its start
time is replaced by the time of the planning, for all walks of one support. -/
theorem C217_lost (g : Wpg) (t0 τ : ℝ) (s : Support) (hs : s.tStart ≠ -1) (h : s.tStart + τ = -1) (ht : t0 + τ ≠ -1) (init : ComState)
    (parts : List Part) (te : ℝ) (h1 : g.planCom t0 [s] init = .ok (some (parts, te))) :
    ∃ parts' te', g.planCom (t0 + τ) [later τ s] init = .ok (some (parts', te')) ∧ ¬ List.Forall₂ (StampsLater τ) parts parts' := by
  have stamp : ∀ (t : ℝ) (s : Support) (parts : List Part) (te : ℝ), g.planCom t [s] init = .ok (some (parts, te)) →
      ∃ p, parts = [p] ∧ p.support.tStart = (stamped s t).tStart := by
    intro t s parts te h
    unfold Wpg.planCom Wpg.planLoop Wpg.planLoop at h
    dsimp only at h
    cases hl : makeLipm t init none 0 (g.duration s / g.timesteps s) (g.timesteps s) t with
    | error e => rw [hl] at h; cases h
    | ok r =>
      rw [hl] at h
      cases hc : g.constrainLipm r.1 (stamped s t) with
      | error e => simp only [bind, Except.bind, hc] at h; cases h
      | ok cs =>
        simp only [bind, Except.bind, hc] at h
        split at h
        · cases h
        · cases h
        · rename_i sol _
          cases ha : g.attach sol ⟨t, t + g.duration s, stamped s t, r.1, cs⟩ with
          | error e => simp [ha, bind, Except.bind] at h
          | ok p =>
            simp [ha, bind, Except.bind, pure, Except.pure] at h
            refine ⟨p, h.1.symm, ?_⟩
            unfold Wpg.attach at ha
            dsimp only at ha
            cases hd : (r.1.getTrajectory sol).dcm (t + g.duration s) g.omega with
            | error e => simp [hd, bind, Except.bind] at ha
            | ok x =>
              simp [hd, bind, Except.bind] at ha
              rw [← ha]
  have h2 : ∃ parts' te', g.planCom (t0 + τ) [later τ s] init = .ok (some (parts', te')) := by
    have hr := C217 g t0 τ [s] init
    rw [h1, List.map_singleton] at hr
    generalize g.planCom (t0 + τ) [later τ s] init = r at hr
    cases hr with
    | ok hr =>
      rename_i b
      match b, hr with
      | some (parts', te'), _ => exact ⟨parts', te', rfl⟩
  obtain ⟨parts', te', h2⟩ := h2
  refine ⟨parts', te', h2, ?_⟩
  obtain ⟨p, rfl, hp⟩ := stamp t0 s parts te h1
  obtain ⟨p', rfl, hp'⟩ := stamp (t0 + τ) (later τ s) parts' te' h2
  intro hf
  cases hf with
  | cons hf _ =>
    rw [StampsLater, hp, hp'] at hf
    unfold later stamped at hf
    rw [if_neg hs, if_neg hs, if_pos h, h] at hf
    exact ht hf

/-- A concrete walk: planned at the time `1` with a support that started at `0`, and one second before. -/
theorem C217_refuted : ∃ parts te parts' te', demoWpg.planCom 1 [{ demoSupport with tStart := 0 }] ⟨⟨0, 0⟩, ⟨0, 0⟩, ⟨0, 0⟩⟩ =
      .ok (some (parts, te)) ∧
    demoWpg.planCom (1 + -1) [later (-1) { demoSupport with tStart := 0 }] ⟨⟨0, 0⟩, ⟨0, 0⟩, ⟨0, 0⟩⟩ = .ok (some (parts', te')) ∧
    ¬ List.Forall₂ (StampsLater (-1)) parts parts' := by
  obtain ⟨parts0, te0, h0⟩ := demo_plan
  have hl : later (-1) { demoSupport with tStart := 0 } = demoSupport := by
    unfold later
    rw [if_neg (by norm_num)]
    simp [demoSupport]
  have h1 : ∃ parts te, demoWpg.planCom 1 [{ demoSupport with tStart := 0 }] ⟨⟨0, 0⟩, ⟨0, 0⟩, ⟨0, 0⟩⟩ = .ok (some (parts, te)) := by
    have hr := C217 demoWpg 1 (-1) [{ demoSupport with tStart := 0 }] ⟨⟨0, 0⟩, ⟨0, 0⟩, ⟨0, 0⟩⟩
    rw [List.map_singleton, hl, show (1 : ℝ) + -1 = 0 by norm_num, h0] at hr
    generalize demoWpg.planCom 1 [{ demoSupport with tStart := 0 }] ⟨⟨0, 0⟩, ⟨0, 0⟩, ⟨0, 0⟩⟩ = r at hr
    cases hr with
    | ok hr =>
      rename_i b
      match b, hr with
      | some (parts', te'), _ => exact ⟨parts', te', rfl⟩
  obtain ⟨parts, te, h1⟩ := h1
  obtain ⟨parts', te', h2, h⟩ := C217_lost demoWpg 1 (-1) _ (by norm_num) (by norm_num) (by norm_num) _ parts te h1
  exact ⟨parts, te, parts', te', h1, h2, h⟩

/-- The hypotheses of `C217_partial` hold for new supports, and for those of a walk that started at a positive time and is planned later. -/
example (τ : ℝ) (h : 0 ≤ τ) : ∀ s ∈ [({ footsteps := [] } : Support), { footsteps := [], tStart := 3 }], s.tStart ≠ -1 → s.tStart + τ ≠ -1 := by
  intro s hs
  simp at hs
  rcases hs with rfl | rfl
  · intro h'; exact absurd rfl h'
  · intro _ h'
    dsimp only at h'
    linarith

end Verif.Humanoid
