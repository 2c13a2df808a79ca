/-
Walks replanned any number of times (C134, C135).
-/
import Verif.Humanoid.ReplanSessionProps

namespace Verif.Humanoid
open Verif.Problem Verif.Tools Verif.Robot

/-- Specification: the trajectories of a walk. The first one is planned from at least three footsteps of alternate sides,
between two double supports; the next ones are obtained by replanning, at any time before the end of the part in progress. -/
inductive Session (g : Wpg) : Traj → Prop
  | start (fs : List Footstep) (t0 : ℝ) (middle : Bool) (S : List Support) (com : V3) (tr : Traj) :
    3 ≤ fs.length → Alternate fs → makeSupports fs t0 true middle true = .ok S → Fine g S → g.plan S com t0 = .ok tr →
    Session g tr
  | again (tr : Traj) (plan : Side → Affine → Affine → Except Err (List Footstep)) (t te : ℝ) (S : List Support) (tr' : Traj) :
    Session g tr → PlannerOK g.p.toParams plan → tr.tStart ≤ t → tr.getPartTEnd t = .ok te → t < te →
    g.replanSupports plan tr t tr.tStart = .ok S → Fine g S → g.replan S tr t = .ok tr' → Session g tr'

theorem can_of_replan {g : Wpg} {plan : Side → Affine → Affine → Except Err (List Footstep)} {tr : Traj} {t tLast : ℝ}
    {S : List Support} (h : g.replanSupports plan tr t tLast = .ok S) : tr.canReplanSupports t = .ok true := by
  unfold Wpg.replanSupports at h
  cases hc : tr.canReplanSupports t with
  | error e => rw [hc] at h; cases h
  | ok c =>
    cases c with
    | true => rfl
    | false => simp only [hc, Bind.bind, Except.bind, Bool.false_eq_true, if_false] at h; cases h

theorem planCom_flags (g : Wpg) (t0 : ℝ) (S : List Support) (init : ComState) (hd : ∀ s ∈ S, 0 < g.duration s)
    (parts : List Part) (te : ℝ) (h : g.planCom t0 S init = .ok (some (parts, te))) (i : Nat) (hi : i < parts.length)
    (hi' : i < S.length) : parts[i].support.start = S[i].start ∧ parts[i].support.isEnd = S[i].isEnd := by
  obtain ⟨ps, n, sol, hc, -, hl, hg⟩ := planCom_chained g t0 S init hd parts te h
  obtain ⟨hlen, -, hget⟩ := hc.get
  obtain ⟨-, -, -, dcm, -, b5⟩ := hg i (by omega) hi
  obtain ⟨-, a2, -⟩ := hget i (by omega) hi'
  rw [b5, a2]
  unfold stamped
  split <;> exact ⟨rfl, rfl⟩

theorem motion_of_plan (g : Wpg) (hr0 : 0 < g.p.walkFootRiseRatio) (hr1 : g.p.walkFootRiseRatio < 1) (fs : List Footstep)
    (h3 : 3 ≤ fs.length) (halt : Alternate fs) (t0 : ℝ) (middle : Bool) (S : List Support)
    (hS : makeSupports fs t0 true middle true = .ok S) (com : V3) (hs : Fine g S) (tr : Traj) (hplan : g.plan S com t0 = .ok tr) :
    Motion g tr ∧ tr.tStart = t0 ∧ tr.parts.length = S.length ∧
      ∀ (i : Nat) (h : i < tr.parts.length) (h' : i < S.length), tr.parts[i].support.footsteps = S[i].footsteps ∧
        tr.parts[i].support.start = S[i].start ∧ tr.parts[i].support.isEnd = S[i].isEnd := by
  have hw := makeSupports_whole hS
  have hne := makeSupports_ne h3 hS
  have hd : ∀ s ∈ S, 0 < g.duration s := fun s h => by rw [whole_duration (hw s h)]; exact (hs s h).1
  have hst := makeSupports_stands h3 hS
  unfold Wpg.plan at hplan
  rw [if_neg (by omega)] at hplan
  obtain ⟨hcom, -⟩ := C109 g t0 S ⟨⟨com 0, com 1⟩, ⟨0, 0⟩, ⟨0, 0⟩⟩ fun s h => ⟨hst s h, hd s h, (hs s h).2⟩
  rcases hcom with h | ⟨parts, te, h⟩
  · rw [h] at hplan
    cases hplan
  have hF := feet_of_makeSupports g fs h3 halt t0 true middle S hS t0 S _ rfl hd parts te h
  have hdbl : ∀ (hl : 0 < parts.length) (f : Footstep), parts[0].support.footsteps ≠ [f] := by
    intro hl f e
    obtain ⟨hlen, hsup⟩ := planCom_supports g t0 S _ hd parts te h
    have hf := makeSupports_phases fs t0 true middle true h3 S hS
    have hp : 0 < (allPhases fs.length true middle true).length := by rw [hf.length_eq]; exact hne
    have := (List.forall₂_iff_get.1 hf).2 0 hp hne
    simp only [List.get_eq_getElem] at this
    have hh := (allPhases_ends fs.length true middle h3).2.2.1 true
    rw [List.head?_eq_getElem?, List.getElem?_eq_getElem hp, Option.some.injEq] at hh
    rw [hh] at this
    obtain ⟨a, b, -, -, e'⟩ := this
    rw [(hsup 0 hl hne).1, e'] at e
    cases e
  have he1 : ∀ s ∈ S, s.elapsedRatio < 1 := fun s h => by rw [(hw s h).1]; norm_num
  have he : ∀ (i : Nat) (hi : i < S.length), 0 < i → S[i].elapsedRatio = 0 := fun i hi _ => (hw _ (List.getElem_mem hi)).1
  obtain ⟨tr', htr, hff, hI⟩ := planFeet_follows g t0 S _ hd parts te h hne hF hr0 hr1 he1 he
    none (fun _ => 0) (fun _ => 0) (fun _ => 0) (fun _ => 0)
    (fun hl f hf => absurd hf (hdbl hl f)) (fun o ho => by cases ho) (fun _ _ _ => rfl)
  have e : tr' = tr := by
    rw [h] at hplan
    exact Except.ok.inj (htr.symm.trans hplan)
  subst e
  refine ⟨motion_of_planned g t0 S _ hd parts te h (planning_of_com g t0 S _ hd parts te h hne hF hr0 hr1 he1 he) ?_
    _ _ _ _ _ tr' htr hff hI, hff.tStart, hff.len, fun i hi hi' => ?_⟩
  rotate_left
  · obtain ⟨hlen, hsup⟩ := planCom_supports g t0 S _ hd parts te h
    have hi2 : i < parts.length := by omega
    obtain ⟨w, hw, -⟩ := hI.keep i hi2
    obtain ⟨_, hq⟩ := List.getElem?_eq_some_iff.1 hw
    rw [hq]
    exact ⟨(hsup i hi2 hi').1, planCom_flags g t0 S _ hd parts te h i hi2 hi'⟩
  intro i hi hsing
  left
  obtain ⟨s0, H, L, E, hS', fH, -, -, -, -, hL, hE, -⟩ := makeSupports_spec fs t0 true middle true h3
  rw [hS] at hS'
  cases hS'
  obtain ⟨f, hf⟩ := hsing
  unfold headPhases at fH
  rw [if_pos rfl] at fH
  have hH : H = [] ∧ ∃ x y, s0.footsteps = [x, y] := by
    cases fH with
    | cons hx h =>
      cases h
      obtain ⟨x, y, -, -, e⟩ := hx
      exact ⟨rfl, x, y, e⟩
  obtain ⟨rfl, x, y, e⟩ := hH
  cases i with
  | zero =>
    exfalso
    rw [List.getElem_cons_zero, e] at hf
    cases hf
  | succ j =>
    rw [List.getElem_cons_succ]
    have hj : j < ([] ++ L ++ E : List Support).length := by simpa using hi
    have hm : ([] ++ L ++ E : List Support)[j]'hj ∈ L ++ E := List.getElem_mem hj
    rcases List.mem_append.1 hm with hm | hm
    · exact (hL _ hm).2.2
    · exact (hE _ hm).2.2

/-- Every trajectory of a walk keeps the invariant. -/
theorem Session.motion {g : Wpg} (hr0 : 0 < g.p.walkFootRiseRatio) (hr1 : g.p.walkFootRiseRatio < 1) {tr : Traj}
    (h : Session g tr) : Motion g tr := by
  induction h with
  | start fs t0 middle S com tr h3 halt hS hf hp => exact (motion_of_plan g hr0 hr1 fs h3 halt t0 middle S hS com hf tr hp).1
  | again tr plan t te S tr' _ hplan ht0 hte ht hS hf hr ih =>
    obtain ⟨S', hS', h⟩ := replan_resumes g hr0 hr1 plan hplan tr ih t te ht0 hte ht (can_of_replan hS)
    rw [hS] at hS'
    cases hS'
    obtain ⟨tr1, _, _, _, h1, h2, -⟩ := h hf
    rw [hr] at h1
    cases h1
    exact h2

/-- **C134, the correct domain.** For every trajectory of a walk, planned then replanned any number of times, every time
`t` of a single support that can be replanned (before its end), and every footsteps planner that adds at least one step to
the two footsteps it is given: `replan_supports`, given the start of the trajectory as the time of the last replanning,
returns supports; and, when their default durations are positive and their polygons have a vertex, `replan` returns a
trajectory that starts at `t`, with the same CoM position, velocity and acceleration, the same feet and feet velocities, and
the same trunk yaw at `t`. The walk goes on with it. -/
theorem C134_partial (g : Wpg) (hr0 : 0 < g.p.walkFootRiseRatio) (hr1 : g.p.walkFootRiseRatio < 1) (tr : Traj)
    (hs : Session g tr) (plan : Side → Affine → Affine → Except Err (List Footstep)) (hplan : PlannerOK g.p.toParams plan)
    (t te : ℝ) (ht0 : tr.tStart ≤ t) (hte : tr.getPartTEnd t = .ok te) (ht : t < te)
    (hcan : tr.canReplanSupports t = .ok true) :
    ∃ S, g.replanSupports plan tr t tr.tStart = .ok S ∧
      (Fine g S → ∃ tr', g.replan S tr t = .ok tr' ∧ Resumes tr tr' t ∧ Session g tr') := by
  obtain ⟨S, hS, h⟩ := replan_resumes g hr0 hr1 plan hplan tr (hs.motion hr0 hr1) t te ht0 hte ht hcan
  refine ⟨S, hS, fun hf => ?_⟩
  obtain ⟨tr', _, _, _, h1, h2, h3, -⟩ := h hf
  exact ⟨tr', h1, h3, .again tr plan t te S tr' hs hplan ht0 hte ht hS hf h1⟩

/-! ## The step in progress -/

theorem stepAt_index {tr : Traj} {t t' : ℝ} (h : findIndex tr.parts t' = findIndex tr.parts t) {σ : Side} {P Q : Affine} {te : ℝ}
    (hs : StepAt tr t σ P te Q) : StepAt tr t' σ P te Q := by
  obtain ⟨⟨s, f, h1, h2⟩, h3, n, h4, h5⟩ := hs
  have hp : findPart tr.parts t' = findPart tr.parts t := by unfold findPart; rw [h]
  refine ⟨⟨s, f, ?_, h2⟩, ?_, n, ?_, h5⟩
  · unfold Traj.getSupport at h1 ⊢
    rw [hp]; exact h1
  · unfold Traj.getPartTEnd at h3 ⊢
    rw [hp]; exact h3
  · unfold Traj.getNextSupport at h4 ⊢
    rw [h]; exact h4

/-- The same step is in progress until the foot lands. -/
theorem Motion.later {g : Wpg} {tr : Traj} (hM : Motion g tr) {t t' te : ℝ} (ht0 : tr.tStart ≤ t) (h1 : t ≤ t') (h2 : t' < te)
    {σ : Side} {P Q : Affine} (hs : StepAt tr t σ P te Q) : StepAt tr t' σ P te Q := by
  rcases h1.eq_or_lt with rfl | hlt
  · exact hs
  obtain ⟨k, hk, hi, ha, he⟩ := hM.current ht0 hs.2.1 (h1.trans_lt h2)
  refine stepAt_index ?_ hs
  rw [hi]
  exact findIndex_inside tr.parts hM.cont t' k hk (ha.trans_lt hlt) (by rw [he]; exact h2)

/-- The foot lands where the next support puts it. -/
theorem Motion.landing {g : Wpg} {tr : Traj} (hM : Motion g tr) {t te : ℝ} (ht0 : tr.tStart ≤ t) (ht : t < te)
    {σ : Side} {P Q : Affine} (hs : StepAt tr t σ P te Q) :
    tr.getTWorldFoot σ.other te = .ok ⟨rotZ (frameYaw Q.linear), Q.translation⟩ := by
  obtain ⟨k, hk, hi, ha, he⟩ := hM.current ht0 hs.2.1 ht
  obtain ⟨⟨s, f0, h1, h2, rfl, rfl⟩, -, n, h4, h5⟩ := hs
  have hp := findPart_of_index hi hk
  -- the current support
  have hf : ∃ f, tr.parts[k].support.footsteps = [f] ∧ f.side = f0.side := by
    unfold Traj.getSupport at h1
    rw [hp] at h1
    have h1 : tr.parts[k].support.moved tr.T = s := Except.ok.inj h1
    rw [← h1, hM.T, moved_one_footsteps] at h2
    rcases hM.feet.shape k hk with ⟨f, hf⟩ | ⟨a, b, hab, -⟩
    · rw [hf] at h2
      simp only [List.map_cons, List.map_nil, List.cons.injEq, and_true] at h2
      exact ⟨f, hf, by rw [← h2]⟩
    · rw [hab] at h2
      cases h2
  obtain ⟨f, hf, hside⟩ := hf
  obtain ⟨hk', f', hm, hsd⟩ := hM.feet.lands k hk f hf
  rw [← hside] at h5 ⊢
  have hQ : f'.frame = Q := by
    have := stepAt_of_part hM.T hi hk' hf hm hsd hM.feet
    obtain ⟨-, -, n', h6, h7⟩ := this
    rw [h4] at h6
    cases h6
    rw [h5] at h7
    exact (Except.ok.inj h7).symm
  subst hQ
  have hj := hM.cont.joined k hk'
  have hl' := hM.lasts _ (List.getElem_mem hk')
  obtain ⟨γ, hγ, eγ⟩ := hM.heading _ (List.getElem_mem hk') f' hm te (by rw [← hj, he]) (by rw [← he, hj]; exact hl'.le)
  rw [hsd] at hγ
  -- the part that serves the landing
  obtain ⟨i, hi', hil⟩ := findIndex_total tr.parts te hM.ne
  have hp' := findPart_of_index hi' hil
  obtain ⟨p, -, hp'', hin, -⟩ := (C81 tr.parts te).2 hM.ne hM.cont
  rw [hp'] at hp''
  cases hp''
  have hfirst := (starts_mono hM.cont 0 k (by omega) hk).1
  have hlast := (starts_mono hM.cont (k + 1) (tr.parts.length - 1) (by omega) (by omega)).2
  obtain ⟨i1, i2⟩ := hin (by rw [List.head_eq_getElem]; linarith) (by rw [List.getLast_eq_getElem]; linarith)
  have hpos : tr.parts[i].footPosition f.side.other te = .ok f'.frame.translation := by
    have hcase : i = k ∨ i = k + 1 := by
      rcases Nat.lt_trichotomy i k with h | h | h
      · exfalso
        have a := hM.cont.joined i (by omega)
        have b := (starts_mono hM.cont (i + 1) k (by omega) hk).1
        have c := hM.lasts _ (List.getElem_mem hk)
        linarith
      · exact Or.inl h
      · rcases Nat.lt_or_ge i (k + 2) with h' | h'
        · right; omega
        · exfalso
          have a := hM.cont.joined (k + 1) (by omega)
          have b := (starts_mono hM.cont (k + 1 + 1) i (by omega) hil).1
          linarith
    have hb : ∀ (q : Part) (x : Footstep), q.support.footsteps = [x] → q.support.isBoth = false ∧ q.support.side = .ok x.side := by
      intro q x h
      constructor
      · unfold Support.isBoth; rw [h]; rfl
      · unfold Support.side; rw [h]; rfl
    unfold Part.footPosition Part.isFlying
    rcases hcase with rfl | rfl
    · obtain ⟨q1, q2⟩ := hb _ _ hf
      have := hM.lands i hk' f hf f' hm hsd
      rw [he] at this
      simp only [q1, q2, this, Bind.bind, Except.bind, Bool.false_eq_true, if_false, other_other, decide_true, if_true]
    · have hfr : tr.parts[k + 1].support.footstepFrame f.side.other = .ok f'.frame := by
        rw [← hsd]; exact frame_of_mem hm (hM.feet.shape (k + 1) hk')
      rcases hM.feet.shape (k + 1) hk' with ⟨x, hx⟩ | ⟨x, y, hx, -⟩
      · obtain ⟨q1, q2⟩ := hb _ _ hx
        rw [hx, List.mem_singleton] at hm
        subst hm
        have hd : decide (f'.side = f.side) = false := decide_eq_false (by rw [hsd]; exact other_ne _)
        simp only [q1, q2, hfr, Bind.bind, Except.bind, Bool.false_eq_true, if_false, other_other, hd]
      · have q1 : tr.parts[k + 1].support.isBoth = true := by unfold Support.isBoth; rw [hx]; rfl
        simp only [q1, hfr, Bind.bind, Except.bind, Bool.false_eq_true, if_false, if_true]
  unfold Traj.getTWorldFoot
  simp only [hp', hpos, hγ, hM.T, one_mul', buildFrame, eγ, Bind.bind, Except.bind]

/-- Specification: `tr'` is obtained from `tr` by replanning any number of times from `t` on and before `te`, with any
planners. -/
inductive ReplannedUntil (g : Wpg) (t te : ℝ) (tr : Traj) : Traj → Prop
  | refl : ReplannedUntil g t te tr tr
  | step (tr1 : Traj) (plan : Side → Affine → Affine → Except Err (List Footstep)) (t1 : ℝ) (S : List Support) (tr2 : Traj) :
    ReplannedUntil g t te tr tr1 → PlannerOK g.p.toParams plan → t ≤ t1 → tr1.tStart ≤ t1 → t1 < te →
    g.replanSupports plan tr1 t1 tr1.tStart = .ok S → Fine g S → g.replan S tr1 t1 = .ok tr2 → ReplannedUntil g t te tr tr2

/-- **C135.** For every trajectory of a walk and every single support in progress at `t`: after any number of replannings
before the end of that support, with any planners, the support in progress is still on the same foot, at the same place,
until the same time `te`; the foot in the air lands at `te`, where it was to land. -/
theorem C135 (g : Wpg) (hr0 : 0 < g.p.walkFootRiseRatio) (hr1 : g.p.walkFootRiseRatio < 1) (tr : Traj) (hs : Session g tr)
    (t te : ℝ) (ht0 : tr.tStart ≤ t) (ht : t < te) (σ : Side) (P Q : Affine) (hstep : StepAt tr t σ P te Q) (tr' : Traj)
    (h : ReplannedUntil g t te tr tr') :
    Session g tr' ∧ (∀ t', t ≤ t' → tr'.tStart ≤ t' → t' < te → StepAt tr' t' σ P te Q) ∧
      tr'.getTWorldFoot σ.other te = .ok ⟨rotZ (frameYaw Q.linear), Q.translation⟩ := by
  have key : Session g tr' ∧ ∃ u, t ≤ u ∧ tr'.tStart ≤ u ∧ u < te ∧ (u = t ∨ u = tr'.tStart) ∧ StepAt tr' u σ P te Q := by
    induction h with
    | refl => exact ⟨hs, t, le_rfl, ht0, ht, Or.inl rfl, hstep⟩
    | step tr1 plan t1 S tr2 _ hplan a1 a2 a3 hS hf hr ih =>
      obtain ⟨hs1, u, u1, u2, u3, u4, u5⟩ := ih
      have hM := hs1.motion hr0 hr1
      have hlt : u ≤ t1 := by rcases u4 with rfl | rfl <;> assumption
      have hst := hM.later u2 hlt a3 u5
      obtain ⟨S', hS', hh⟩ := replan_resumes g hr0 hr1 plan hplan tr1 hM t1 te a2 hst.2.1 a3 (can_of_replan hS)
      rw [hS] at hS'
      cases hS'
      obtain ⟨tr3, σ', P', Q', h1, h2, h3, h4, h5⟩ := hh hf
      rw [hr] at h1
      cases h1
      refine ⟨.again tr1 plan t1 te S tr2 hs1 hplan a2 hst.2.1 a3 hS hf hr, t1, a1, h3.starts.le, a3, Or.inr h3.starts.symm, ?_⟩
      -- the step in progress is the same
      obtain ⟨⟨s, f, b1, b2, rfl, rfl⟩, -, n, b3, b4⟩ := hst
      obtain ⟨⟨s', f', c1, c2, rfl, rfl⟩, -, n', c3, c4⟩ := h4
      rw [b1] at c1
      cases c1
      rw [b2] at c2
      cases c2
      rw [b3] at c3
      cases c3
      rw [b4] at c4
      cases c4
      exact h5
  obtain ⟨hs', u, u1, u2, u3, u4, u5⟩ := key
  have hM := hs'.motion hr0 hr1
  refine ⟨hs', fun t' h1 h2 h3 => hM.later u2 ?_ h3 u5, hM.landing u2 u3 u5⟩
  rcases u4 with rfl | rfl <;> assumption

/-! ## A plan of two footsteps -/

theorem makeSupports_pair (a b : Footstep) (t : ℝ) (middle : Bool) :
    makeSupports [a, b] t false middle true = .ok [{ footsteps := [a, b], isEnd := true }] := by
  cases middle <;> rfl

/-- **C134 is false** of a planner that adds no step to the two footsteps it is given, as the repetitive planner does with
`nb_steps = 0` and the naive planner when the target is reached: `replan_supports` returns one double support, on the foot
of the ground and on the place where the other foot was to land. As soon as the CoM can be planned, the foot that is in the
air is, in the new trajectory, already at that place. -/
theorem C134_refuted (g : Wpg) (hr0 : 0 < g.p.walkFootRiseRatio) (hr1 : g.p.walkFootRiseRatio < 1)
    (hsingle : 0 < g.p.singleSupportDuration) (hsoft : g.soft = true)
    (horacle : ∀ qp, (g.oracle qp).infeasible = false ∧ (g.oracle qp).hasNaN = false) (tr : Traj) (hs : Session g tr)
    (plan : Side → Affine → Affine → Except Err (List Footstep))
    (hplan : ∀ flying T_left T_right, ∃ l, plan flying T_left T_right = .ok l ∧
      StartsWith g.p.toParams flying T_left T_right l ∧ l.length = 2)
    (t te : ℝ) (ht0 : tr.tStart ≤ t) (ht : t < te) (hcan : tr.canReplanSupports t = .ok true)
    (σ : Side) (P Q : Affine) (hstep : StepAt tr t σ P te Q) :
    ∃ S, g.replanSupports plan tr t tr.tStart = .ok S ∧ (Fine g S → ∃ tr', g.replan S tr t = .ok tr' ∧
      tr'.getTWorldFoot σ.other t = .ok ⟨rotZ (frameYaw Q.linear), Q.translation⟩ ∧
      (tr.getTWorldFoot σ.other t ≠ .ok ⟨rotZ (frameYaw Q.linear), Q.translation⟩ → ¬ Resumes tr tr' t)) := by
  have hM := hs.motion hr0 hr1
  obtain ⟨k, hk, hi, ha, rfl⟩ := hM.current ht0 hstep.2.1 ht
  obtain ⟨f, f', hk', Tl, Tr, hf, hm, hs', p1, p2, hrep⟩ := replanSupports_inputs g plan tr hM t k hk hi hcan tr.tStart
  obtain ⟨l, hl1, ⟨a, b, r, rfl, s1, s2, s3, s4, -⟩, hlen⟩ := hplan f.side Tl Tr
  obtain rfl : r = [] := by
    cases r with
    | nil => rfl
    | cons x y => simp at hlen
  have hS := hrep _ _ _ hl1 (makeSupports_pair a b _ _)
  -- the step in progress
  have hstep' := stepAt_of_part hM.T hi hk' hf hm hs' hM.feet
  have hσ : σ = f.side ∧ Q = f'.frame := by
    obtain ⟨⟨s, c, b1, b2, rfl, rfl⟩, -, n, b3, b4⟩ := hstep
    obtain ⟨⟨s', c', c1, c2, c3, c4⟩, -, n', c5, c6⟩ := hstep'
    rw [b1] at c1
    cases c1
    rw [b2] at c2
    cases c2
    rw [b3] at c5
    cases c5
    rw [← c3, b4] at c6
    exact ⟨c3, Except.ok.inj c6⟩
  obtain ⟨rfl, rfl⟩ := hσ
  generalize hs0 : ({ ({ footsteps := [a, b], isEnd := true } : Support) with
        elapsedRatio := tr.parts[k].support.elapsedRatio
          + (t - max tr.tStart tr.parts[k].support.tStart) / g.virtual tr.parts[k].support
        timeRatio := tr.parts[k].support.timeRatio } : Support) = s0 at hS
  refine ⟨[s0], hS, fun hfine => ?_⟩
  obtain ⟨t1, t2, t3, t4⟩ := hM.timing _ (List.getElem_mem hk) f hf
  have e1 : s0.footsteps = [a, b] := by rw [← hs0]
  have e2 : s0.timeRatio = tr.parts[k].support.timeRatio := by rw [← hs0]
  have e3 : s0.elapsedRatio = tr.parts[k].support.elapsedRatio + (t - tr.parts[k].tStart) / g.virtual tr.parts[k].support := by
    rw [← hs0, t1]
  have hel : s0.elapsedRatio < 1 := by
    have hdur : g.duration tr.parts[k].support = (1 - tr.parts[k].support.elapsedRatio) * g.virtual tr.parts[k].support := by
      unfold Wpg.duration Wpg.virtual; ring
    rw [hdur] at t2
    rw [e3]
    have : (t - tr.parts[k].tStart) / g.virtual tr.parts[k].support < 1 - tr.parts[k].support.elapsedRatio := by
      rw [div_lt_iff₀ t4]; linarith
    linarith
  have hratio : 0 < s0.timeRatio := by
    have hb : tr.parts[k].support.isBoth = false := by unfold Support.isBoth; rw [hf]; rfl
    have : g.p.supportDuration tr.parts[k].support = g.p.singleSupportDuration := by
      unfold Params.supportDuration
      rw [hb]
      rfl
    unfold Wpg.virtual at t4
    rw [this] at t4
    rw [e2]
    exact (mul_pos_iff_of_pos_left hsingle).1 t4
  have hd : ∀ x ∈ [s0], 0 < g.duration x := by
    intro x hx
    have hx' := (hfine x hx).1
    rw [List.mem_singleton] at hx
    subst hx
    unfold Wpg.duration
    have := sub_pos.2 hel
    positivity
  have hst : ∀ x ∈ [s0], Stands x := by
    intro x hx
    rw [List.mem_singleton] at hx
    subst hx
    right
    rw [e1]
    rfl
  obtain ⟨v0, v1, v2, x, w, α, β, hR, r0, r1, r2, rx, rw', rα, rβ⟩ := hM.reads hk hi ha ht.le hf
  obtain ⟨-, hcom⟩ := C109 g t [s0] ⟨⟨v0.x, v0.y⟩, ⟨v1.x, v1.y⟩, ⟨v2.x, v2.y⟩⟩ fun x h => ⟨hst x h, hd x h, (hfine x h).2⟩
  obtain ⟨parts, tend, hp⟩ := hcom horacle (.inr hsoft)
  obtain ⟨hlen', hsup⟩ := planCom_supports g t [s0] _ hd parts tend hp
  have hlen1 : parts.length = 1 := hlen'
  have hpf : ∀ h : 0 < parts.length, parts[0].support.footsteps = [a, b] := by
    intro h
    rw [(hsup 0 h (by simp)).1]
    exact e1
  have hF : Feet parts := by
    refine ⟨fun i h => ?_, fun i h c hc => ?_, fun i h => by omega, fun i h => by omega⟩
    · obtain rfl : i = 0 := by omega
      exact Or.inr ⟨a, b, hpf h, by rw [s2, s1]⟩
    · obtain rfl : i = 0 := by omega
      rw [hpf h] at hc
      cases hc
  obtain ⟨ε, hε⟩ := dirty_reads _ hM.trunk t .speed
  obtain ⟨tr', htr, hff, -⟩ := planFeet_follows g t [s0] _ hd parts tend hp (by simp) hF hr0 hr1
    (fun y hy => by rw [List.mem_singleton] at hy; subst hy; exact hel)
    (fun i hi h0 => by simp at hi; omega) (some tr) (fun _ => 0) (fun _ => 0) (fun _ => 0) (fun _ => 0)
    (fun h c hc => by rw [hpf h] at hc; cases hc)
    (fun o ho => by cases ho; exact ⟨β, ε, hR.trunk, hε⟩) (fun _ _ _ => rfl)
  have hrun : g.replan [s0] tr t = .ok tr' := by
    unfold Wpg.replan
    rw [if_neg (by simp)]
    simp only [hR.pos, hR.vel, hR.acc, Bind.bind, Except.bind, Matrix.cons_val_zero, Matrix.cons_val_one, hp]
    exact htr
  have hn : 0 < tr'.parts.length := by rw [hff.len]; simp
  have hp0 : tr'.parts[0]? = some (tr'.parts[0]) := List.getElem?_eq_getElem hn
  have hjump : tr'.getTWorldFoot f.side.other t = .ok ⟨rotZ (frameYaw f'.frame.linear), f'.frame.translation⟩ := by
    have h0 := hff.first _ hp0
    have h1 := hff.lasts _ (List.getElem_mem hn)
    have := hff.stands 0 _ s0 hp0 rfl b (by rw [e1]; simp) t h0.le (by linarith)
    rw [s2, s4.trans p2] at this
    exact this
  refine ⟨tr', hrun, hjump, fun hne hres => ?_⟩
  obtain ⟨F, h1, h2⟩ := hres.foot f.side.other
  rw [hjump] at h2
  rw [h1, ← h2] at hne
  exact hne rfl

/-! ## A walk of four footsteps -/

noncomputable def fourSteps : List Footstep :=
  demoSteps ++ [{ demoStep with side := .right, frame := ⟨1, ![15 / 100, -1 / 10, 0]⟩ }]

noncomputable def fourSupports : List Support :=
  [{ start := true
     tStart := 0
     footsteps := [demoStep, { demoStep with side := .right, frame := ⟨1, ![5 / 100, -1 / 10, 0]⟩ }] },
   { footsteps := [{ demoStep with side := .right, frame := ⟨1, ![5 / 100, -1 / 10, 0]⟩ }] },
   { footsteps := [{ demoStep with frame := ⟨1, ![1 / 10, 0, 0]⟩ }] },
   { isEnd := true
     footsteps := [{ demoStep with frame := ⟨1, ![1 / 10, 0, 0]⟩ },
       { demoStep with side := .right, frame := ⟨1, ![15 / 100, -1 / 10, 0]⟩ }] }]

theorem four_make : makeSupports fourSteps 0 true false true = .ok fourSupports := rfl

theorem four_fine : Fine softWpg fourSupports := by
  have e1 : softWpg.p = walkWpg.p := rfl
  have e2 : softWpg.hull = walkWpg.hull := rfl
  unfold Fine
  rw [e1, e2]
  intro s hs
  simp only [fourSupports, List.mem_cons, List.not_mem_nil, or_false] at hs
  rcases hs with rfl | rfl | rfl | rfl <;>
    simp [Params.supportDuration, Support.isBoth, Support.supportPolygon, walk_double, walk_single, walk_hull,
      readFootsteps, Footstep.supportPolygon, demoStep, Footstep.computePolygon]

theorem four_rise : 0 < softWpg.p.walkFootRiseRatio ∧ softWpg.p.walkFootRiseRatio < 1 := by
  constructor
  · simp [softWpg, walkWpg]
  · simp [softWpg, walkWpg]; norm_num

theorem four_alternate : Alternate fourSteps := by
  unfold Alternate
  simp [fourSteps, demoSteps, demoStep, Side.other]

/-- The walk is planned, and in its second part, on the right foot, the supports can be replanned while the left foot goes
from the origin to `(0.1, 0, 0)`. -/
theorem four_walk : ∃ tr, Session softWpg tr ∧ ∃ ts te, tr.tStart ≤ ts ∧ ts < te ∧ (∀ t, ts < t → t < te →
      tr.canReplanSupports t = .ok true ∧ StepAt tr t .right ⟨1, ![5 / 100, -1 / 10, 0]⟩ te ⟨1, ![1 / 10, 0, 0]⟩) ∧
      ∃ t, ts < t ∧ t < te ∧ ∃ F, tr.getTWorldFoot .left t = .ok F ∧ F.translation ≠ ![1 / 10, 0, 0] := by
  obtain ⟨tr, tend, hp, hff⟩ := (C132_partial softWpg four_rise.1 four_rise.2 fourSteps (by simp [fourSteps, demoSteps])
    four_alternate 0 false fourSupports four_make ![0, 0, 35 / 100] four_fine).2 (fun _ => ⟨rfl, rfl⟩) rfl
  obtain ⟨hM, h0, hl, hsup⟩ := motion_of_plan softWpg four_rise.1 four_rise.2 fourSteps (by simp [fourSteps, demoSteps])
    four_alternate 0 false fourSupports four_make ![0, 0, 35 / 100] four_fine tr hp
  have hl : tr.parts.length = 4 := hl
  have h1 := hsup 1 (by omega) (by decide)
  have h2 := hsup 2 (by omega) (by decide)
  have hpos := hM.lasts tr.parts[1] (List.getElem_mem _)
  have hst := (starts_mono hM.cont 0 1 (by omega) (by omega)).1
  rw [hM.start _ (List.getElem?_eq_getElem (by omega : 0 < tr.parts.length))] at hst
  refine ⟨tr, .start fourSteps 0 false fourSupports _ tr (by simp [fourSteps, demoSteps]) four_alternate four_make four_fine hp,
    tr.parts[1].tStart, tr.parts[1].tEnd, hst, hpos, fun t ha hb => ?_, ?_⟩
  · have hi := findIndex_inside tr.parts hM.cont t 1 (by omega) ha hb
    refine ⟨?_, ?_⟩
    · have e1 : tr.getSupport t = .ok (tr.parts[1].support.moved tr.T) := by
        unfold Traj.getSupport
        rw [findPart_of_index hi (by omega)]
        rfl
      have e2 : tr.getNextSupport t 1 = .ok (tr.parts[2].support.moved tr.T) := by
        unfold Traj.getNextSupport
        simp only [hi, Bind.bind, Except.bind]
        rw [if_neg (by omega), if_neg (by omega)]
        have : at' tr.parts 2 = .ok tr.parts[2] := by
          unfold at'
          rw [List.getElem?_eq_getElem (by omega)]
        rw [show (((1 : Nat) : Int) + 1).toNat = 2 from rfl, this]
      have b1 : (tr.parts[1].support.moved tr.T).isBoth = false := by
        unfold Support.isBoth Support.moved
        simp only [h1.1]
        rfl
      have b2 : (tr.parts[1].support.moved tr.T).isEnd = false := h1.2.2
      have b3 : (tr.parts[1].support.moved tr.T).start = false := h1.2.1
      have b4 : (tr.parts[2].support.moved tr.T).isEnd = false := h2.2.2
      unfold Traj.canReplanSupports
      simp only [e1, e2, b1, b2, b3, b4, Bind.bind, Except.bind]
      rfl
    · exact stepAt_of_part hM.T hi (by omega) h1.1 (f' := { demoStep with frame := ⟨1, ![1 / 10, 0, 0]⟩ })
        (by rw [h2.1]; exact List.mem_singleton.2 rfl) rfl hM.feet
  · -- the left foot leaves the origin continuously
    have j0 := hM.cont.joined 0 (by omega)
    have j1 := hM.cont.joined 1 (by omega)
    have l0 := hM.lasts tr.parts[0] (List.getElem_mem _)
    have l2 := hM.lasts tr.parts[2] (List.getElem_mem _)
    have a0 := hff.stands 0 _ _ (List.getElem?_eq_getElem (by omega)) rfl demoStep (by simp) tr.parts[0].tEnd l0.le le_rfl
    have a2 := hff.stands 2 _ _ (List.getElem?_eq_getElem (by omega)) rfl { demoStep with frame := ⟨1, ![1 / 10, 0, 0]⟩ }
      (by simp) tr.parts[2].tStart le_rfl l2.le
    have hend : tr.parts[1].tEnd ≤ tend := by
      have := (starts_mono hM.cont 1 3 (by omega) (by omega)).2
      have hlast := hff.last tr.parts[3] (by
        rw [List.getLast?_eq_getElem?, show tr.parts.length - 1 = 3 by omega]
        exact List.getElem?_eq_getElem _)
      linarith
    have hc := (hff.moves .left).1.mono (Set.Icc_subset_Icc (h0.symm.le.trans hst) hend)
    have hc0 : ContinuousOn (fun t => (tr.footFrame .left t).translation 0) (Set.Icc tr.parts[1].tStart tr.parts[1].tEnd) :=
      (continuous_apply 0).comp_continuousOn hc
    have v0 : (tr.footFrame .left tr.parts[1].tStart).translation 0 = 0 := by
      unfold Traj.footFrame
      rw [← j0]
      have a0 : tr.getTWorldFoot .left tr.parts[0].tEnd = _ := a0
      rw [a0]
      rfl
    have v1 : (tr.footFrame .left tr.parts[1].tEnd).translation 0 = 1 / 10 := by
      unfold Traj.footFrame
      rw [j1]
      have a2 : tr.getTWorldFoot .left tr.parts[2].tStart = _ := a2
      rw [a2]
      rfl
    obtain ⟨t, ⟨ta, tb⟩, ht⟩ := intermediate_value_Ioo hpos.le hc0 (show (1 / 20 : ℝ) ∈ Set.Ioo _ _ by
      simp only [v0, v1]; constructor <;> norm_num)
    refine ⟨t, ta, tb, _, hff.known .left t (by rw [← h0]; linarith) (by linarith), fun e => ?_⟩
    simp only [e, Matrix.cons_val_zero] at ht
    norm_num at ht

theorem soft_fine (s : Support) (f : Footstep) (r : List Footstep) (hs : s.footsteps = f :: r) (hc : s.computed = false)
    (hf : f.computed = false) : 0 < softWpg.p.supportDuration s ∧ 0 < (s.supportPolygon softWpg.hull).2.length := by
  have e1 : softWpg.p = walkWpg.p := rfl
  have e2 : softWpg.hull = walkWpg.hull := rfl
  rw [e1, e2]
  constructor
  · unfold Params.supportDuration
    split
    · split
      · exact walk_double.2
      · exact walk_double.1
    · exact walk_single
  · unfold Support.supportPolygon
    rw [hc, hs]
    simp [walk_hull, readFootsteps, Footstep.supportPolygon, hf, Footstep.computePolygon]

/-- A planner that adds one step, at the origin, and one that adds none. -/
noncomputable def oneStep (flying : Side) (T_left T_right : Affine) : Except Err (List Footstep) :=
  .ok (softWpg.p.toParams.initialFootsteps flying T_left T_right ++ [softWpg.p.toParams.createFootstep flying Affine.one])

noncomputable def noStep (c : Clipping) (flying : Side) (T_left T_right : Affine) : Except Err (List Footstep) :=
  softWpg.p.toParams.planRepetitive c 0 0 0 0 flying T_left T_right

theorem oneStep_ok : PlannerOK softWpg.p.toParams oneStep := by
  intro flying T_left T_right
  refine ⟨_, rfl, initial_starts _ _ _ _ _, ?_, ?_⟩
  · unfold Alternate Params.initialFootsteps
    simp [Params.createFootstep, other_other]
  · simp [Params.initialFootsteps]

theorem oneStep_fine {tr : Traj} (hM : Motion softWpg tr) {t te : ℝ} (ht0 : tr.tStart ≤ t) (hte : tr.getPartTEnd t = .ok te)
    (ht : t < te) {S : List Support} (h : softWpg.replanSupports oneStep tr t tr.tStart = .ok S) : Fine softWpg S := by
  obtain ⟨k, hk, hi, -⟩ := hM.current ht0 hte ht
  obtain ⟨f, -, -, Tl, Tr, -, -, -, -, -, hrep⟩ := replanSupports_inputs softWpg oneStep tr hM t k hk hi (can_of_replan h) tr.tStart
  have hmk : ∃ s rest, makeSupports (softWpg.p.toParams.initialFootsteps f.side Tl Tr ++ [softWpg.p.toParams.createFootstep f.side Affine.one])
      tr.parts[k].support.tStart false softWpg.p.hasDoubleSupport true = .ok (s :: rest) ∧
      ∀ x ∈ s :: rest, x.computed = false ∧ ∃ a r, x.footsteps = a :: r ∧ a.computed = false := by
    cases softWpg.p.hasDoubleSupport <;> refine ⟨_, _, rfl, ?_⟩ <;> intro x hx <;>
      simp only [List.append_eq, List.cons_append, List.nil_append, List.append_nil, List.mem_cons, List.not_mem_nil, or_false] at hx <;>
      rcases hx with rfl | rfl | rfl | rfl <;> exact ⟨rfl, _, _, rfl, rfl⟩
  obtain ⟨s, rest, hmk, hx⟩ := hmk
  have := hrep _ _ _ rfl hmk
  rw [h] at this
  cases this
  intro y hy
  rcases List.mem_cons.1 hy with rfl | hy
  · obtain ⟨a1, a, r, a2, a3⟩ := hx s (by simp)
    exact soft_fine _ a r a2 a1 a3
  · obtain ⟨a1, a, r, a2, a3⟩ := hx y (List.mem_cons_of_mem _ hy)
    exact soft_fine _ a r a2 a1 a3

theorem noStep_fine (c : Clipping) {tr : Traj} (hM : Motion softWpg tr) {t te : ℝ} (ht0 : tr.tStart ≤ t)
    (hte : tr.getPartTEnd t = .ok te) (ht : t < te) {S : List Support}
    (h : softWpg.replanSupports (noStep c) tr t tr.tStart = .ok S) : Fine softWpg S := by
  obtain ⟨k, hk, hi, -⟩ := hM.current ht0 hte ht
  obtain ⟨f, -, -, Tl, Tr, -, -, -, -, -, hrep⟩ :=
    replanSupports_inputs softWpg (noStep c) tr hM t k hk hi (can_of_replan h) tr.tStart
  have := hrep _ _ _ rfl (makeSupports_pair _ _ _ _)
  rw [h] at this
  cases this
  intro y hy
  rw [List.mem_singleton] at hy
  subst hy
  exact soft_fine _ _ _ rfl rfl rfl

/-- In this walk, replanning with one more step goes on from the state of the robot (C134) ... -/
example : ∃ tr t S tr', Session softWpg tr ∧ softWpg.replanSupports oneStep tr t tr.tStart = .ok S ∧ tr.tStart < t ∧
    softWpg.replan S tr t = .ok tr' ∧ Resumes tr tr' t ∧ Session softWpg tr' := by
  obtain ⟨tr, hs, ts, te, h1, h2, h3, t, ha, hb, -⟩ := four_walk
  obtain ⟨hcan, hstep⟩ := h3 t ha hb
  obtain ⟨S, hS, h⟩ := C134_partial softWpg four_rise.1 four_rise.2 tr hs oneStep oneStep_ok t te (by linarith) hstep.2.1 hb hcan
  obtain ⟨tr', h4, h5, h6⟩ := h (oneStep_fine (hs.motion four_rise.1 four_rise.2) (by linarith) hstep.2.1 hb hS)
  exact ⟨tr, t, S, tr', hs, hS, by linarith, h4, h5, h6⟩

/-- ... and the left foot still lands at `(0.1, 0, 0)` at the same time (C135). -/
example : ∃ tr t te tr', Session softWpg tr ∧ StepAt tr t .right ⟨1, ![5 / 100, -1 / 10, 0]⟩ te ⟨1, ![1 / 10, 0, 0]⟩ ∧ t < te ∧
    tr'.tStart = t ∧ tr.tStart < t ∧ ReplannedUntil softWpg t te tr tr' ∧
    tr'.getTWorldFoot .left te = .ok ⟨rotZ (frameYaw 1), ![1 / 10, 0, 0]⟩ := by
  obtain ⟨tr, hs, ts, te, h1, h2, h3, t, ha, hb, -⟩ := four_walk
  obtain ⟨hcan, hstep⟩ := h3 t ha hb
  obtain ⟨S, hS, h⟩ := C134_partial softWpg four_rise.1 four_rise.2 tr hs oneStep oneStep_ok t te (by linarith) hstep.2.1 hb hcan
  have hf := oneStep_fine (hs.motion four_rise.1 four_rise.2) (by linarith) hstep.2.1 hb hS
  obtain ⟨tr', h4, h5, h6⟩ := h hf
  have hr : ReplannedUntil softWpg t te tr tr' := .step tr oneStep t S tr' .refl oneStep_ok le_rfl (by linarith) hb hS hf h4
  exact ⟨tr, t, te, tr', hs, hstep, hb, h5.starts, by linarith, hr,
    (C135 softWpg four_rise.1 four_rise.2 tr hs t te (by linarith) hb _ _ _ hstep tr' hr).2.2⟩

/-- Stopping the walk with the repetitive planner and no step makes the left foot jump. -/
example (c : Clipping) : ∃ tr t S tr', Session softWpg tr ∧ tr.tStart < t ∧ tr.canReplanSupports t = .ok true ∧
    softWpg.replanSupports (noStep c) tr t tr.tStart = .ok S ∧ softWpg.replan S tr t = .ok tr' ∧ ¬ Resumes tr tr' t := by
  obtain ⟨tr, hs, ts, te, h1, h2, h3, t, ha, hb, F, hF, hne⟩ := four_walk
  obtain ⟨hcan, hstep⟩ := h3 t ha hb
  obtain ⟨S, hS, h⟩ := C134_refuted softWpg four_rise.1 four_rise.2 walk_single rfl (fun _ => ⟨rfl, rfl⟩) tr hs (noStep c)
    (fun flying T_left T_right => by
      obtain ⟨l, a, b, -, d⟩ := C76_repetitive softWpg.p.toParams c 0 0 0 0 flying T_left T_right
      exact ⟨l, a, b, d⟩)
    t te (by linarith) hb hcan _ _ _ hstep
  obtain ⟨tr', h4, -, h6⟩ := h (noStep_fine c (hs.motion four_rise.1 four_rise.2) (by linarith) hstep.2.1 hb hS)
  refine ⟨tr, t, S, tr', hs, by linarith, hcan, hS, h4, h6 ?_⟩
  show tr.getTWorldFoot .left t ≠ _
  rw [hF]
  intro e
  cases e
  exact hne rfl

end Verif.Humanoid
