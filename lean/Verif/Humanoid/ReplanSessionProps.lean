/-
The state of the robot across the replannings of a walk (C134, C135).
-/
import Verif.Humanoid.ReplanSupportsProps

namespace Verif.Humanoid
open Verif.Problem Verif.Tools Verif.Robot

/-! ## Reading a single support -/

/-- What is read at a time of a single support on `f`. -/
structure Reads (tr : Traj) (t : ℝ) (f : Footstep) (p v a x w : V3) (α β : ℝ) : Prop where
  pos : tr.getPWorldCoM t = .ok p
  vel : tr.getDWorldCoM 1 t = .ok v
  acc : tr.getDWorldCoM 2 t = .ok a
  stands : tr.getTWorldFoot f.side t = .ok ⟨rotZ (frameYaw f.frame.linear), f.frame.translation⟩
  still : tr.getVWorldFoot f.side t = .ok 0
  flies : tr.getTWorldFoot f.side.other t = .ok ⟨rotZ α, x⟩
  speed : tr.getVWorldFoot f.side.other t = .ok w
  trunk : tr.getYawWorldTrunk t = .ok β

theorem one_apply' (p : V3) : Affine.one.apply p = p := by
  show (1 : M3).mulVec p + 0 = p
  rw [Matrix.one_mulVec, add_zero]

theorem one_linear_mulVec (p : V3) : Affine.one.linear.mulVec p = p := Matrix.one_mulVec p

theorem velocity_reads {tr : Traj} {t : ℝ} {q : Part} (hq : findPart tr.parts t = .ok q) (hT : tr.T = Affine.one)
    {f : Footstep} (hf : q.support.footsteps = [f]) {w : V3} (hw : q.swing.read t .speed = .ok w) :
    tr.getVWorldFoot f.side t = .ok 0 ∧ tr.getVWorldFoot f.side.other t = .ok w := by
  have hside : q.support.side = .ok f.side := by unfold Support.side; rw [hf]; rfl
  constructor
  · unfold Traj.getVWorldFoot
    simp only [hq, hside, Bind.bind, Except.bind]
    rw [if_neg fun e => other_ne f.side e.symm]
  · unfold Traj.getVWorldFoot
    simp only [hq, hside, hw, hT, one_linear_mulVec, Bind.bind, Except.bind, other_other, if_true]

theorem com_reads {tr : Traj} {t : ℝ} {q : Part} (hq : findPart tr.parts t = .ok q) (hT : tr.T = Affine.one)
    {v0 v1 v2 : V2} (h0 : q.com.component t (0 : Nat) = .ok v0) (h1 : q.com.component t (1 : Nat) = .ok v1)
    (h2 : q.com.component t (2 : Nat) = .ok v2) :
    tr.getPWorldCoM t = .ok ![v0.x, v0.y, tr.comTargetZ] ∧ tr.getDWorldCoM 1 t = .ok ![v1.x, v1.y, 0] ∧
      tr.getDWorldCoM 2 t = .ok ![v2.x, v2.y, 0] := by
  have e0 : q.com.pos t = .ok v0 := h0
  have e1 : q.com.component t 1 = .ok v1 := h1
  have e2 : q.com.component t 2 = .ok v2 := h2
  refine ⟨?_, ?_, ?_⟩
  · unfold Traj.getPWorldCoM
    simp only [hq, e0, hT, one_apply', Bind.bind, Except.bind]
  · unfold Traj.getDWorldCoM
    simp only [hq, e1, hT, one_linear_mulVec, Bind.bind, Except.bind]
  · unfold Traj.getDWorldCoM
    simp only [hq, e2, hT, one_linear_mulVec, Bind.bind, Except.bind]

theorem trunk_reads {tr : Traj} {t : ℝ} (hT : tr.T = Affine.one) {β : ℝ} (hb : (tr.trunkYaw.interpolation t .value).2 = .ok β) :
    tr.getYawWorldTrunk t = .ok β := by
  unfold Traj.getYawWorldTrunk
  have e : frameYaw Affine.one.linear = 0 := frameYaw_one
  simp only [hb, hT, e, zero_add, Bind.bind, Except.bind]

theorem foot_reads {tr : Traj} {t : ℝ} {q : Part} (hq : findPart tr.parts t = .ok q) (hT : tr.T = Affine.one)
    {f : Footstep} (hf : q.support.footsteps = [f]) {x : V3} (hx : q.swing.read t .value = .ok x) {α γ : ℝ}
    (ha : ((tr.footYaw f.side.other).interpolation t .value).2 = .ok α)
    (hs : ((tr.footYaw f.side).interpolation t .value).2 = .ok γ) (hγ : rotZ γ = rotZ (frameYaw f.frame.linear)) :
    tr.getTWorldFoot f.side t = .ok ⟨rotZ (frameYaw f.frame.linear), f.frame.translation⟩ ∧
      tr.getTWorldFoot f.side.other t = .ok ⟨rotZ α, x⟩ := by
  have hside : q.support.side = .ok f.side := by unfold Support.side; rw [hf]; rfl
  have hb : q.support.isBoth = false := by unfold Support.isBoth; rw [hf]; rfl
  have hfr : q.support.footstepFrame f.side = .ok f.frame := frame_of_mem (by rw [hf]; simp) (Or.inl ⟨f, hf⟩)
  have e1 : q.footPosition f.side t = .ok f.frame.translation := by
    unfold Part.footPosition Part.isFlying
    have hd : decide (f.side = f.side.other) = false := decide_eq_false fun e => other_ne f.side e.symm
    simp only [hb, hside, hfr, Bind.bind, Except.bind, Bool.false_eq_true, if_false, hd]
  have e2 : q.footPosition f.side.other t = .ok x := by
    unfold Part.footPosition Part.isFlying
    simp only [hb, hside, hx, Bind.bind, Except.bind, Bool.false_eq_true, if_false, other_other, decide_true, if_true]
  constructor
  · unfold Traj.getTWorldFoot
    simp only [hq, e1, hs, hT, one_mul', buildFrame, hγ, Bind.bind, Except.bind]
  · unfold Traj.getTWorldFoot
    simp only [hq, e2, ha, hT, one_mul', buildFrame, Bind.bind, Except.bind]

/-! ## Across a replanning -/

/-- Specification: at `t`, the trajectory `tr'` goes on from `tr`. -/
structure Resumes (tr tr' : Traj) (t : ℝ) : Prop where
  starts : tr'.tStart = t
  pos : ∃ p, tr.getPWorldCoM t = .ok p ∧ tr'.getPWorldCoM t = .ok p
  vel : ∃ v, tr.getDWorldCoM 1 t = .ok v ∧ tr'.getDWorldCoM 1 t = .ok v
  acc : ∃ a, tr.getDWorldCoM 2 t = .ok a ∧ tr'.getDWorldCoM 2 t = .ok a
  foot : ∀ σ, ∃ F, tr.getTWorldFoot σ t = .ok F ∧ tr'.getTWorldFoot σ t = .ok F
  speed : ∀ σ, ∃ v, tr.getVWorldFoot σ t = .ok v ∧ tr'.getVWorldFoot σ t = .ok v
  trunk : ∃ a, tr.getYawWorldTrunk t = .ok a ∧ tr'.getYawWorldTrunk t = .ok a

theorem Reads.resumes {tr tr' : Traj} {t : ℝ} {f a : Footstep} {p v c x w : V3} {α β : ℝ} (h : Reads tr t f p v c x w α β)
    (h' : Reads tr' t a p v c x w α β) (hs : a.side = f.side) (hf : a.frame = f.frame) (ht : tr'.tStart = t) : Resumes tr tr' t := by
  have e1 := h'.stands
  have e2 := h'.still
  have e3 := h'.flies
  have e4 := h'.speed
  rw [hs] at e1 e2 e3 e4
  rw [hf] at e1
  refine ⟨ht, ⟨p, h.pos, h'.pos⟩, ⟨v, h.vel, h'.vel⟩, ⟨c, h.acc, h'.acc⟩, fun σ => ?_, fun σ => ?_, ⟨β, h.trunk, h'.trunk⟩⟩
  · rcases side_cases f.side σ with rfl | rfl
    · exact ⟨_, h.stands, e1⟩
    · exact ⟨_, h.flies, e3⟩
  · rcases side_cases f.side σ with rfl | rfl
    · exact ⟨_, h.still, e2⟩
    · exact ⟨_, h.speed, e4⟩

/-- Specification: the step in progress at `t`: the foot on the ground, the time at which the other foot lands, and where. -/
def StepAt (tr : Traj) (t : ℝ) (σ : Side) (P : Affine) (te : ℝ) (Q : Affine) : Prop :=
  (∃ s f, tr.getSupport t = .ok s ∧ s.footsteps = [f] ∧ f.side = σ ∧ f.frame = P) ∧ tr.getPartTEnd t = .ok te ∧
  ∃ n, tr.getNextSupport t 1 = .ok n ∧ n.footstepFrame σ.other = .ok Q

/-- The durations and the polygons of the supports are not empty. -/
def Fine (g : Wpg) (S : List Support) : Prop :=
  ∀ s ∈ S, 0 < g.p.supportDuration s ∧ 0 < (s.supportPolygon g.hull).2.length

theorem stepAt_of_part {tr : Traj} (hT : tr.T = Affine.one) {t : ℝ} {k : Nat} (hi : findIndex tr.parts t = .ok k)
    (hk : k + 1 < tr.parts.length) {f f' : Footstep} (hf : tr.parts[k].support.footsteps = [f])
    (hm : f' ∈ tr.parts[k + 1].support.footsteps) (hs : f'.side = f.side.other) (hF : Feet tr.parts) :
    StepAt tr t f.side f.frame tr.parts[k].tEnd f'.frame := by
  have hp := findPart_of_index hi (by omega : k < tr.parts.length)
  refine ⟨⟨tr.parts[k].support.moved tr.T, { f with computed := false }, ?_, ?_, rfl, rfl⟩, ?_, tr.parts[k + 1].support.moved tr.T, ?_, ?_⟩
  · unfold Traj.getSupport
    rw [hp]
    rfl
  · rw [hT, moved_one_footsteps, hf]; rfl
  · unfold Traj.getPartTEnd
    rw [hp]
    rfl
  · unfold Traj.getNextSupport
    simp only [hi, Bind.bind, Except.bind]
    rw [if_neg (by omega), if_neg (by omega), show ((k : Int) + 1).toNat = k + 1 by omega]
    unfold at'
    rw [List.getElem?_eq_getElem hk]
  · have e : ∃ x ∈ (tr.parts[k + 1].support.moved tr.T).footsteps, x.side = f'.side ∧ x.frame = f'.frame := by
      rw [hT, moved_one_footsteps]
      exact ⟨_, List.mem_map.2 ⟨f', hm, rfl⟩, rfl, rfl⟩
    obtain ⟨x, hx, e1, e2⟩ := e
    rw [← e2, ← hs, ← e1]
    apply frame_of_mem hx
    rw [hT, moved_one_footsteps]
    rcases hF.shape (k + 1) hk with ⟨y, hy⟩ | ⟨y, z, hy, hz⟩
    · rw [hy]; exact Or.inl ⟨_, rfl⟩
    · rw [hy]; exact Or.inr ⟨_, _, rfl, hz⟩

/-- What is read on a motion in single support. -/
theorem Motion.reads {g : Wpg} {tr : Traj} (hM : Motion g tr) {t : ℝ} {k : Nat} (hk : k < tr.parts.length)
    (hi : findIndex tr.parts t = .ok k) (ha : tr.parts[k].tStart ≤ t) (hb : t ≤ tr.parts[k].tEnd) {f : Footstep}
    (hf : tr.parts[k].support.footsteps = [f]) :
    ∃ (v0 v1 v2 : V2) (x w : V3) (α β : ℝ), Reads tr t f ![v0.x, v0.y, tr.comTargetZ] ![v1.x, v1.y, 0] ![v2.x, v2.y, 0] x w α β ∧
      tr.parts[k].com.component t (0 : Nat) = .ok v0 ∧ tr.parts[k].com.component t (1 : Nat) = .ok v1 ∧
      tr.parts[k].com.component t (2 : Nat) = .ok v2 ∧ tr.parts[k].swing.read t .value = .ok x ∧
      tr.parts[k].swing.read t .speed = .ok w ∧ ((tr.footYaw f.side.other).interpolation t .value).2 = .ok α ∧
      (tr.trunkYaw.interpolation t .value).2 = .ok β := by
  have hm := List.getElem_mem hk
  obtain ⟨v0, h0⟩ := hM.com _ hm 0 (by omega) t
  obtain ⟨v1, h1⟩ := hM.com _ hm 1 (by omega) t
  obtain ⟨v2, h2⟩ := hM.com _ hm 2 (by omega) t
  obtain ⟨⟨x, hx⟩, w, hw⟩ := hM.swing _ hm f hf t ha hb
  obtain ⟨α, hα⟩ := dirty_reads _ (hM.yaw f.side.other) t .value
  obtain ⟨β, hβ⟩ := dirty_reads _ hM.trunk t .value
  obtain ⟨γ, hγ, eγ⟩ := hM.heading _ hm f (by rw [hf]; simp) t ha hb
  have hp := findPart_of_index hi hk
  obtain ⟨c0, c1, c2⟩ := com_reads hp hM.T h0 h1 h2
  obtain ⟨s1, s2⟩ := velocity_reads hp hM.T hf hw
  obtain ⟨p1, p2⟩ := foot_reads hp hM.T hf hx hα hγ eγ
  exact ⟨v0, v1, v2, x, w, α, β, ⟨c0, c1, c2, p1, s1, p2, s2, trunk_reads hM.T hβ⟩, h0, h1, h2, hx, hw, hα, hβ⟩

/-- A trimmed motion goes on from the motion. -/
theorem trim_resumes (g : Wpg) (tr : Traj) (hM : Motion g tr) (t : ℝ) (k : Nat) (hk : k < tr.parts.length)
    (hi : findIndex tr.parts t = .ok k) (h0 : tr.parts[k].tStart ≤ t) (h1 : t < tr.parts[k].tEnd) (f f' : Footstep)
    (hf : tr.parts[k].support.footsteps = [f]) (hk' : k + 1 < tr.parts.length)
    (hm : f' ∈ tr.parts[k + 1].support.footsteps) (hs : f'.side = f.side.other) :
    Resumes tr (g.trim tr t) t ∧ StepAt (g.trim tr t) t f.side f.frame tr.parts[k].tEnd f'.frame := by
  have hM' := motion_of_trim g tr hM t k hk h0 h1
  obtain ⟨q, hq, -, hqs, hsame⟩ := trim_parts_exact g tr hM.cont t k hk h0 h1
  have hi' : findIndex (g.trim tr t).parts t = .ok 0 := hM'.first
  have hlen : (g.trim tr t).parts.length = tr.parts.length - k := by
    rw [hq, List.length_cons, List.length_drop]; omega
  have hq0 : ∀ h : 0 < (g.trim tr t).parts.length, (g.trim tr t).parts[0] = q := by
    intro h
    simp only [hq, List.getElem_cons_zero]
  have hq1 : ∀ h : 1 < (g.trim tr t).parts.length, (g.trim tr t).parts[1] = tr.parts[k + 1] := by
    intro h
    simp only [hq, List.getElem_cons_succ, List.getElem_drop, Nat.add_zero]
  have hp' : findPart (g.trim tr t).parts t = .ok q := by
    rw [findPart_of_index hi' (by omega), hq0]
  have hf' : q.support.footsteps = [f] := by rw [hsame.footsteps]; exact hf
  obtain ⟨v0, v1, v2, x, w, α, β, hR, r0, r1, r2, rx, rw', rα, rβ⟩ := hM.reads hk hi h0 h1.le hf
  obtain ⟨γ, hγ, eγ⟩ := hM.heading _ (List.getElem_mem hk) f (by rw [hf]; simp) t h0 h1.le
  have ey : ∀ σ, (g.trim tr t).footYaw σ = tr.footYaw σ := by intro σ; cases σ <;> rfl
  obtain ⟨c0, c1, c2⟩ := com_reads hp' hM'.T (by rw [hsame.com]; exact r0) (by rw [hsame.com]; exact r1) (by rw [hsame.com]; exact r2)
  obtain ⟨s1, s2⟩ := velocity_reads hp' hM'.T hf' (by rw [hsame.swing]; exact rw')
  obtain ⟨p1, p2⟩ := foot_reads hp' hM'.T hf' (by rw [hsame.swing]; exact rx) (by rw [ey]; exact rα) (by rw [ey]; exact hγ) eγ
  refine ⟨hR.resumes ⟨c0, c1, c2, p1, s1, p2, s2, trunk_reads hM'.T rβ⟩ rfl rfl rfl, ?_⟩
  have := stepAt_of_part hM'.T hi' (by omega) (f := f) (f' := f') (by rw [hq0]; exact hf') (by rw [hq1]; exact hm) hs hM'.feet
  rw [hq0, hsame.tEnd] at this
  exact this

/-- The supports of `make_supports` that start in single support: the first stands on the first footstep, the second puts
the other foot on the second footstep. -/
theorem makeSupports_takeoff (a b : Footstep) (r : List Footstep) (h3 : 3 ≤ (a :: b :: r).length) (t : ℝ) (middle : Bool)
    (s : Support) (rest : List Support) (h : makeSupports (a :: b :: r) t false middle true = .ok (s :: rest)) :
    s.footsteps = [a] ∧ ∃ h : 0 < rest.length, b ∈ rest[0].footsteps := by
  have hf := makeSupports_phases _ _ _ _ _ h3 _ h
  have hc := allPhases_chain (a :: b :: r).length false middle true h3
  have hh := (allPhases_ends (a :: b :: r).length false middle h3).2.2.2 true
  have hl := (allPhases_ends (a :: b :: r).length false middle h3).1
  generalize allPhases (a :: b :: r).length false middle true = ph at hf hc hh hl
  match ph, hf with
  | [x], _ =>
    exfalso
    simp only [List.head?_cons, List.getLast?_singleton] at hh hl
    rw [hh] at hl
    cases hl
  | x :: y :: ph, .cons hx (.cons hy _) =>
    simp only [List.head?_cons, Option.some.injEq] at hh
    subst hh
    obtain ⟨f, e1, e2⟩ := hx
    simp only [List.getElem?_cons_zero, Option.some.injEq] at e1
    subst e1
    refine ⟨e2, by simp, ?_⟩
    have hn := (List.isChain_cons_cons.1 hc).1
    cases y with
    | one j =>
      have : j = 1 := hn.2
      subst this
      obtain ⟨f, e1, e2⟩ := hy
      simp only [List.getElem?_cons_succ, List.getElem?_cons_zero, Option.some.injEq] at e1
      subst e1
      simp [e2]
    | two j =>
      have : j = 0 := hn
      subst this
      obtain ⟨f, f', e0, e1, e2⟩ := hy
      simp only [List.getElem?_cons_succ, List.getElem?_cons_zero, Option.some.injEq, Nat.zero_add] at e1
      subst e1
      simp [e2]

/-- The supports of `make_supports` that start in single support: those on one foot have no start time, except the first. -/
theorem makeSupports_stamps (l : List Footstep) (h3 : 3 ≤ l.length) (t : ℝ) (middle : Bool)
    (s : Support) (rest : List Support) (h : makeSupports l t false middle true = .ok (s :: rest)) :
    s.tStart = t ∧ s.start = false ∧ s.isEnd = false ∧ ∀ x ∈ rest, (∃ f, x.footsteps = [f]) → x.tStart = -1 := by
  obtain ⟨s0, H, L, E, hS, fH, -, -, ⟨h1, h2, h4⟩, -, hL, hE, -⟩ := makeSupports_spec l t false middle true h3
  rw [h] at hS
  simp only [Except.ok.injEq, List.cons.injEq] at hS
  obtain ⟨rfl, rfl⟩ := hS
  refine ⟨h4, h1, h2, fun x hx ⟨f, hf⟩ => ?_⟩
  rcases List.mem_append.1 hx with hx | hx
  · rcases List.mem_append.1 hx with hx | hx
    · exfalso
      unfold headPhases at fH
      cases middle
      · simp only [Bool.false_eq_true, if_false] at fH
        cases fH with
        | cons _ h => cases h; cases hx
      · simp only [Bool.false_eq_true, if_false, if_true] at fH
        match H, fH with
        | [y], .cons _ (.cons hy .nil) =>
          rw [List.mem_singleton] at hx
          subst hx
          obtain ⟨_, _, -, -, e⟩ := hy
          rw [hf] at e
          cases e
    · exact (hL x hx).2.2
  · exact (hE x hx).2.2

/-- A replanning of a motion in single support. -/
theorem replan_resumes (g : Wpg) (hr0 : 0 < g.p.walkFootRiseRatio) (hr1 : g.p.walkFootRiseRatio < 1)
    (plan : Side → Affine → Affine → Except Err (List Footstep)) (hplan : PlannerOK g.p.toParams plan)
    (tr : Traj) (hM : Motion g tr) (t te : ℝ) (ht0 : tr.tStart ≤ t) (hte : tr.getPartTEnd t = .ok te) (ht : t < te)
    (hcan : tr.canReplanSupports t = .ok true) :
    ∃ S, g.replanSupports plan tr t tr.tStart = .ok S ∧ (Fine g S → ∃ tr' σ P Q, g.replan S tr t = .ok tr' ∧ Motion g tr' ∧
      Resumes tr tr' t ∧ StepAt tr t σ P te Q ∧ StepAt tr' t σ P te Q) := by
  obtain ⟨k, hk, hi, ha, rfl⟩ := hM.current ht0 hte ht
  obtain ⟨f, f', hk', a, b, r, s, rest, hf, hm, hs, a1, a2, b1, b2, h3, halt, hmk, hS⟩ :=
    replanSupports_spec g plan hplan tr hM t k hk hi hcan tr.tStart
  generalize hs' : ({ s with
        elapsedRatio := tr.parts[k].support.elapsedRatio
          + (t - max tr.tStart tr.parts[k].support.tStart) / g.virtual tr.parts[k].support
        timeRatio := tr.parts[k].support.timeRatio } : Support) = s' at hS
  refine ⟨s' :: rest, hS, fun hfine => ?_⟩
  obtain ⟨t1, t2, t3, t4⟩ := hM.timing _ (List.getElem_mem hk) f hf
  obtain ⟨hsf, hrl, hb⟩ := makeSupports_takeoff a b r h3 _ _ s rest hmk
  obtain ⟨st1, st2, st3, st4⟩ := makeSupports_stamps _ h3 _ _ s rest hmk
  have hwhole := makeSupports_whole hmk
  have hstands := makeSupports_stands h3 hmk
  -- the first support
  have e1 : s'.footsteps = [a] := by rw [← hs']; exact hsf
  have e2 : s'.timeRatio = tr.parts[k].support.timeRatio := by rw [← hs']
  have e3 : s'.elapsedRatio = tr.parts[k].support.elapsedRatio + (t - tr.parts[k].tStart) / g.virtual tr.parts[k].support := by
    rw [← hs', t1]
  have e4 : s'.tStart = tr.parts[k].support.tStart := by rw [← hs']; exact st1
  have hdur : ∀ s : Support, g.duration s = (1 - s.elapsedRatio) * g.virtual s := by
    intro s; unfold Wpg.duration Wpg.virtual; ring
  have hv : g.virtual s' = g.virtual tr.parts[k].support := by
    unfold Wpg.virtual Params.supportDuration Support.isBoth
    rw [e1, e2, hf]
    rfl
  have hds : g.duration s' = tr.parts[k].tEnd - t := by
    rw [hdur] at t2 ⊢
    rw [hv, e3]
    field_simp
    linarith
  have hel : s'.elapsedRatio < 1 := by
    have : 0 < (1 - s'.elapsedRatio) * g.virtual s' := by rw [← hdur, hds]; linarith
    rw [hv] at this
    have := (mul_pos_iff_of_pos_right t4).1 this
    linarith
  have hd : ∀ x ∈ s' :: rest, 0 < g.duration x := by
    intro x hx
    rcases List.mem_cons.1 hx with rfl | hx'
    · rw [hds]; linarith
    · rw [whole_duration (hwhole x (List.mem_cons_of_mem _ hx'))]
      exact (hfine x hx).1
  have hst : ∀ x ∈ s' :: rest, Stands x := by
    intro x hx
    rcases List.mem_cons.1 hx with rfl | hx'
    · left; rw [e1]; rfl
    · exact hstands x (List.mem_cons_of_mem _ hx')
  -- what is read on the old trajectory
  obtain ⟨v0, v1, v2, x, w, α, β, hR, r0, r1, r2, rx, rw', rα, rβ⟩ := hM.reads hk hi ha ht.le hf
  have hstep := stepAt_of_part hM.T hi hk' hf hm hs hM.feet
  obtain ⟨hcom, -⟩ := C109 g t (s' :: rest) ⟨⟨v0.x, v0.y⟩, ⟨v1.x, v1.y⟩, ⟨v2.x, v2.y⟩⟩ fun x h => ⟨hst x h, hd x h, (hfine x h).2⟩
  have hrep : ∀ R, g.planCom t (s' :: rest) ⟨⟨v0.x, v0.y⟩, ⟨v1.x, v1.y⟩, ⟨v2.x, v2.y⟩⟩ = .ok R →
      g.replan (s' :: rest) tr t = match (R : Option (List Part × ℝ)) with
        | none => .ok (g.trim tr t)
        | some r => g.planFeet (g.blank t r.2 r.1) (some tr) := by
    intro R hR'
    unfold Wpg.replan
    rw [if_neg (by simp)]
    simp only [hR.pos, hR.vel, hR.acc, Bind.bind, Except.bind, Matrix.cons_val_zero, Matrix.cons_val_one, hR']
    cases R <;> rfl
  rcases hcom with hn | ⟨parts, tend, hp⟩
  · -- the CoM could not be planned
    obtain ⟨h1, h2⟩ := trim_resumes g tr hM t k hk hi ha ht f f' hf hk' hm hs
    exact ⟨_, _, _, _, hrep _ hn, motion_of_trim g tr hM t k hk ha ht, h1, hstep, h2⟩
  · have hF : Feet parts := feet_of_makeSupports g _ h3 halt _ _ _ (s :: rest) hmk t (s' :: rest) _
      (by rw [List.map_cons, List.map_cons, e1, hsf]) hd parts tend hp
    have he1 : ∀ x ∈ s' :: rest, x.elapsedRatio < 1 := by
      intro x hx
      rcases List.mem_cons.1 hx with rfl | hx'
      · exact hel
      · rw [(hwhole x (List.mem_cons_of_mem _ hx')).1]; exact zero_lt_one
    have he : ∀ (i : Nat) (hi : i < (s' :: rest).length), 0 < i → (s' :: rest)[i].elapsedRatio = 0 := by
      intro i hi h0
      obtain ⟨j, rfl⟩ : ∃ j, i = j + 1 := ⟨i - 1, by omega⟩
      rw [List.getElem_cons_succ]
      exact (hwhole _ (List.mem_cons_of_mem _ (List.getElem_mem _))).1
    have hP := planning_of_com g t (s' :: rest) _ hd parts tend hp (by simp) hF hr0 hr1 he1 he
    obtain ⟨hlen, hsup⟩ := planCom_supports g t (s' :: rest) _ hd parts tend hp
    have hpf : (parts[0]'hP.ne).support.footsteps = [a] := by
      rw [(hsup 0 hP.ne (by simp)).1]; exact e1
    obtain ⟨δ, hδ⟩ := dirty_reads _ (hM.yaw f.side.other) t .speed
    obtain ⟨ε, hε⟩ := dirty_reads _ hM.trunk t .speed
    have hone : frameYaw Affine.one.linear = 0 := frameYaw_one
    obtain ⟨tr', htr, hff, hI⟩ := planFeet_follows g t (s' :: rest) _ hd parts tend hp (by simp) hF hr0 hr1 he1 he (some tr)
      (fun _ => x) (fun _ => α) (fun _ => w) (fun σ => if σ = f.side.other then δ else 0)
      (by
        intro h0 c hc
        rw [hpf] at hc
        simp only [List.cons.injEq, and_true] at hc
        subst hc
        rw [a1]
        have hdx := placeOf_default (α := V3) (fun f => f.frame.translation) (fun _ => x) h0 a hpf
        have hda := placeOf_default (α := ℝ) (fun f => frameYaw f.frame.linear) (fun _ => α) h0 a hpf
        rw [a1] at hdx hda
        refine ⟨tr, _, rfl, hR.flies, hdx.symm, hR.speed, ?_, ?_⟩
        · rw [hda]
          unfold Traj.getYawWorldFoot
          simp only [rα, hM.T, hone, zero_add, Bind.bind, Except.bind]
        · show _ = Except.ok (if f.side.other = f.side.other then δ else 0)
          rw [if_pos rfl]
          exact hδ)
      (by
        intro o ho
        cases ho
        exact ⟨β, ε, hR.trunk, hε⟩)
      (by
        intro h0 c hc
        rw [hpf, List.mem_singleton] at hc
        subst hc
        rw [a1, if_neg fun e => other_ne f.side e.symm])
    have hM' := motion_of_planned g t (s' :: rest) _ hd parts tend hp hP
      (by
        intro i hi' hsing
        cases i with
        | zero =>
          right
          refine ⟨rfl, ?_⟩
          rw [List.getElem_cons_zero, e4]
          exact (le_max_right _ _).trans (t1.le.trans ha)
        | succ j =>
          left
          rw [List.getElem_cons_succ] at hsing ⊢
          exact st4 _ (List.getElem_mem _) hsing)
      _ _ _ _ _ tr' htr hff hI
    have hts : tr'.tStart = t := hff.tStart
    have hi' : findIndex tr'.parts t = .ok 0 := by rw [← hts]; exact hM'.first
    have hl' : tr'.parts.length = rest.length + 1 := by rw [hff.len]; rfl
    have hl1 : 0 + 1 < parts.length := by rw [hlen, List.length_cons]; omega
    obtain ⟨w', hw', sx, sw, -, -⟩ := swing_ends hP.walk hP.swings _ tr' hI hP.lasts hP.fresh 0 hP.ne a hpf
    obtain ⟨h0', hq⟩ := List.getElem?_eq_some_iff.1 hw'
    have hfirst := hP.first hP.ne
    rw [hfirst] at sx sw
    rw [a1] at sx
    have hdx := placeOf_default (α := V3) (fun f => f.frame.translation) (fun _ => x) hP.ne a hpf
    rw [a1] at hdx
    rw [hdx] at sx
    rw [if_pos rfl] at sw
    have hfp := findPart_of_index hi' h0'
    have hqf : tr'.parts[0].support.footsteps = [a] := by rw [hq]; exact hpf
    -- the CoM
    obtain ⟨-, -, -, hends, -⟩ := C86 g t (s' :: rest) _ hd parts tend hp
    obtain ⟨-, -, k0, k1, k2⟩ := hends (List.length_pos_iff.1 hP.ne)
    rw [List.head_eq_getElem] at k0 k1 k2
    have hcm : tr'.parts[0].com = (parts[0]'hP.ne).com := by rw [hq]
    obtain ⟨c0, c1, c2⟩ := com_reads hfp hM'.T (v0 := ⟨v0.x, v0.y⟩) (v1 := ⟨v1.x, v1.y⟩) (v2 := ⟨v2.x, v2.y⟩)
      (by rw [hcm]; exact k0) (by rw [hcm]; exact k1) (by rw [hcm]; exact k2)
    rw [hM'.z, ← hM.z] at c0
    obtain ⟨s1, s2⟩ := velocity_reads hfp hM'.T hqf (by rw [hq]; exact sw)
    -- the feet
    have hplaces := places_of_feet hF (fun _ => x) (fun _ => α)
    have hfr := fun σ => (foot_read hP.walk hP.swings _ tr' hI hP.lasts hP.fresh hplaces hP.first (by
        intro h0 c hc
        rw [hpf, List.mem_singleton] at hc
        subst hc
        rw [a1, if_neg fun e => other_ne f.side e.symm]) 0 hP.ne σ t).1 hfirst.symm
    have g1 := hfr a.side
    have g2 := hfr a.side.other
    rw [(placeOf_first hF (fun f : Footstep => f.frame.translation) (fun _ => x) hP.ne (by rw [hpf]; simp)).1,
      (placeOf_first hF (fun f : Footstep => frameYaw f.frame.linear) (fun _ => α) hP.ne (by rw [hpf]; simp)).1] at g1
    rw [placeOf_default (α := V3) _ _ hP.ne a hpf, placeOf_default (α := ℝ) _ _ hP.ne a hpf] at g2
    have hbT : (g.blank t tend parts).T = Affine.one := rfl
    rw [hbT, one_mul'] at g1 g2
    -- the trunk
    obtain ⟨pt, ep, hpt, hold⟩ := planFeet_trunk htr
    have hβ : pt.x = β := by
      have := hold tr rfl
      rw [hR.trunk] at this
      exact (Except.ok.inj this).symm
    have htrunk := trunk_first hpt
    rw [ep, hβ] at htrunk
    have hR' : Reads tr' t a ![v0.x, v0.y, tr.comTargetZ] ![v1.x, v1.y, 0] ![v2.x, v2.y, 0] x w α β :=
      ⟨c0, c1, c2, g1, s1, g2, s2, trunk_reads hM'.T htrunk⟩
    have hnext : b ∈ (tr'.parts[0 + 1]'(by omega)).support.footsteps := by
      obtain ⟨w1, hw1, -⟩ := hI.keep (0 + 1) hl1
      obtain ⟨h1', hq1⟩ := List.getElem?_eq_some_iff.1 hw1
      rw [hq1]
      show b ∈ parts[0 + 1].support.footsteps
      rw [(hsup (0 + 1) hl1 (by simp; omega)).1]
      exact hb
    have hstep' := stepAt_of_part hM'.T hi' (by omega) hqf hnext (by rw [b1, a1]) hM'.feet
    have hend : tr'.parts[0].tEnd = tr.parts[k].tEnd := by
      have h1 := hP.lasts 0 hP.ne
      rw [(hsup 0 hP.ne (by simp)).2.2.2.1, hfirst] at h1
      rw [List.getElem_cons_zero, hds] at h1
      rw [hq]
      show (parts[0]'hP.ne).tEnd = _
      linarith
    rw [hend, a1, a2, b2] at hstep'
    exact ⟨tr', _, _, _, (hrep _ hp).trans htr, hM', hR.resumes hR' a1 a2 hts, hstep, hstep'⟩

end Verif.Humanoid
