/-
Replanning (`replan_supports`, `replan`, `trim_old_trajectory`): what a walk keeps whatever the number of replannings
(used by C134 and C135).
-/
import Verif.Humanoid.Replan
import Verif.Humanoid.FeetPlanProps
import Verif.Humanoid.PlannerProps

namespace Verif.Humanoid
open Verif.Problem Verif.Tools Verif.Robot

/-! ## What can be read -/

/-- Whether a component of an integrator's trajectory can be read does not depend on the time. -/
theorem value_all {T : Trajectory ℝ} {d : Int} {t0 v : ℝ} (h : T.value t0 d = .ok v) (t : ℝ) : ∃ v', T.value t d = .ok v' := by
  unfold Trajectory.value at h ⊢
  cases hc : checkDiff T.order d false with
  | error e => rw [hc] at h; cases h
  | ok u =>
    simp only [hc, Bind.bind, Except.bind] at h ⊢
    have hn : 0 < T.variableValue.length := by
      rcases Nat.eq_zero_or_pos T.variableValue.length with h0 | h0
      · exfalso
        rw [h0] at h
        rw [if_pos] at h
        · cases h
        · split
          · simp
          · rename_i hh; push_cast at hh; omega
      · exact h0
    have key : ∀ k : Int, ¬ (if (T.variableValue.length : Int) ≤ (if k < 0 then 0 else k) then
        (T.variableValue.length : Int) - 1 else (if k < 0 then 0 else k)) < 0 := by
      intro k
      split
      · omega
      · split <;> omega
    rw [if_neg (key _)]
    split
    · exact ⟨_, rfl⟩
    · exact ⟨_, rfl⟩

theorem component_all {c : LTraj} {d : Int} {t0 : ℝ} {v : V2} (h : c.component t0 d = .ok v) (t : ℝ) :
    ∃ v', c.component t d = .ok v' := by
  unfold LTraj.component at h ⊢
  cases hx : c.x.value t0 d with
  | error e => rw [hx] at h; cases h
  | ok a =>
    cases hy : c.y.value t0 d with
    | error e => rw [hx, hy] at h; cases h
    | ok b =>
      obtain ⟨a', ha⟩ := value_all hx t
      obtain ⟨b', hb⟩ := value_all hy t
      rw [ha, hb]
      exact ⟨_, rfl⟩

/-- The components of the CoM of a planned part can be read at all times. -/
theorem planCom_reads (g : Wpg) (t0 : ℝ) (S : List Support) (init : ComState) (hd : ∀ s ∈ S, 0 < g.duration s)
    (parts : List Part) (te : ℝ) (h : g.planCom t0 S init = .ok (some (parts, te))) (i : Nat) (hi : i < parts.length)
    (d : Nat) (hd3 : d < 3) (t : ℝ) : ∃ v, parts[i].com.component t d = .ok v := by
  obtain ⟨ps, n, sol, hc, -, hl, hg⟩ := planCom_chained g t0 S init hd parts te h
  obtain ⟨hlen, -, hget⟩ := hc.get
  obtain ⟨-, -, a3, a4, a5, a6, -⟩ := hget i (by omega) (by omega)
  have hm := timesteps_pos g (S[i]'(by omega))
  have hdi := hd _ (List.getElem_mem (by omega : i < S.length))
  have := traj_component a3 (by rw [a4]; exact div_pos hdi (by exact_mod_cast hm)) (by rw [a5]; exact hm) sol 0 d
    (Nat.zero_le _) hd3
  rw [(hg i (by omega) hi).2.2.1]
  exact component_all this t

/-- A spline whose last call is not a read can always be read. -/
theorem dirty_reads (s : SplineSt ℝ) (hd : s.dirty = true) (t : ℝ) (ty : ValueType) : ∃ v, (s.interpolation t ty).2 = .ok v := by
  unfold SplineSt.interpolation SplineSt.refresh
  simp only [hd, if_true]
  unfold lookup
  match s.points with
  | [] => exact ⟨_, rfl⟩
  | [p] => cases ty <;> exact ⟨_, rfl⟩
  | p :: q :: l =>
    obtain ⟨sp, last, h1, -, -⟩ := computeSplines_last l p q
    simp only [computeSplines_head, h1]
    split <;> exact ⟨_, rfl⟩

/-! ## The yaw of the trunk -/

/-- The yaw of the trunk starts at the point `h`. -/
structure TrunkInv (h : SPoint ℝ) (tr : Traj) : Prop where
  dirty : tr.trunkYaw.dirty = true
  head : tr.trunkYaw.points.head? = some h
  inc : Increasing tr.trunkYaw.points

theorem TrunkInv.of_eq {h : SPoint ℝ} {tr tr' : Traj} (e : tr'.trunkYaw = tr.trunkYaw) (hi : TrunkInv h tr) :
    TrunkInv h tr' := ⟨by rw [e]; exact hi.dirty, by rw [e]; exact hi.head, by rw [e]; exact hi.inc⟩

theorem increasing_snoc {l : List (SPoint ℝ)} (h : Increasing l) (p : SPoint ℝ)
    (hp : ∀ last, l.getLast? = some last → last.t < p.t) : Increasing (l ++ [p]) := by
  unfold Increasing at h ⊢
  rw [List.pairwise_append]
  refine ⟨h, List.pairwise_singleton _ _, fun a ha b hb => ?_⟩
  rw [List.mem_singleton] at hb
  subst hb
  have hne : l ≠ [] := List.ne_nil_of_mem ha
  have hl := hp (l.getLast hne) (List.getLast?_eq_some_getLast hne)
  rcases List.mem_iff_getElem.1 ha with ⟨i, hi, rfl⟩
  rcases Nat.lt_or_ge i (l.length - 1) with hlt | hge
  · have := List.pairwise_iff_getElem.1 h i (l.length - 1) hi (by omega) hlt
    rw [List.getLast_eq_getElem] at hl
    exact this.trans hl
  · rw [List.getLast_eq_getElem] at hl
    have e : i = l.length - 1 := by omega
    subst e
    exact hl

theorem addTrunkYaw_trunk {h : SPoint ℝ} {tr tr' : Traj} {t a d : ℝ} (e : tr.addTrunkYaw t a d = .ok tr')
    (hi : TrunkInv h tr) : TrunkInv h tr' := by
  unfold Traj.addTrunkYaw at e
  rcases addPoint_cases wrapAngle tr.trunkYaw t a d with ⟨h1, -⟩ | ⟨x', h1, h2, -⟩
  · rw [h1] at e; cases e
  · rw [h1] at e
    cases e
    refine ⟨rfl, ?_, ?_⟩
    · show (tr.trunkYaw.points ++ [_]).head? = _
      rw [List.head?_append, hi.head]
      rfl
    · exact increasing_snoc hi.inc ⟨t, x', d⟩ h2

theorem addYaw_trunk {tr tr' : Traj} {σ : Side} {t a d : ℝ} (h : tr.addYaw σ t a d = .ok tr') :
    tr'.trunkYaw = tr.trunkYaw := by
  unfold Traj.addYaw at h
  cases hs : (tr.footYaw σ).addPoint wrapAngle t a d with
  | error e => rw [hs] at h; cases h
  | ok s => rw [hs] at h; cases σ <;> (cases h; rfl)

theorem addSupports_trunk {t : ℝ} : ∀ {fs : List Footstep} {tr tr' : Traj}, tr.addSupports t fs = .ok tr' →
    tr'.trunkYaw = tr.trunkYaw
  | [], tr, tr', h => by cases h; rfl
  | f :: fs, tr, tr', h => by
    unfold Traj.addSupports at h
    cases hs : tr.addYaw f.side t (frameYaw f.frame.linear) 0 with
    | error e => rw [hs] at h; cases h
    | ok x =>
      rw [hs] at h
      exact (addSupports_trunk h).trans (addYaw_trunk hs)

theorem planDbl_trunk {g : Wpg} {tr tr' : Traj} {i : Nat} {p : SPoint ℝ} (h : g.planDbl tr i = .ok tr')
    (hi : TrunkInv p tr) : TrunkInv p tr' := by
  unfold Wpg.planDbl at h
  cases h1 : at' tr.parts i with
  | error e => rw [h1] at h; cases h
  | ok part =>
    simp only [h1, Bind.bind, Except.bind] at h
    cases h2 : tr.addSupports part.tEnd part.support.footsteps with
    | error e => rw [h2] at h; cases h
    | ok x =>
      simp only [h2] at h
      cases h3 : part.support.frame g.slerp with
      | error e => rw [h3] at h; cases h
      | ok F =>
        simp only [h3] at h
        exact addTrunkYaw_trunk h (hi.of_eq (addSupports_trunk h2))

theorem planSwing_trunk {g : Wpg} {tr : Traj} {i : Nat} {part : Part} {σ : Side} {x : V3} {old : Option Traj}
    {r : Traj × CubicSwing ℝ} (h : g.planSwing tr i part σ x old = .ok r) : r.1.trunkYaw = tr.trunkYaw := by
  cases i with
  | zero =>
    cases old with
    | none => cases h
    | some o =>
      simp only [Wpg.planSwing, Bind.bind, Except.bind] at h
      cases h1 : o.getTWorldFoot σ tr.tStart with
      | error e => rw [h1] at h; cases h
      | ok s =>
        simp only [h1] at h
        cases h2 : o.getVWorldFoot σ tr.tStart with
        | error e => rw [h2] at h; cases h
        | ok v =>
          simp only [h2] at h
          split at h
          · cases h
          · cases h3 : o.getYawWorldFoot σ tr.tStart with
            | error e => rw [h3] at h; cases h
            | ok a =>
              simp only [h3] at h
              split at h
              · cases h
              · split at h
                · cases h
                · rename_i h5
                  cases h
                  exact addYaw_trunk h5
  | succ i =>
    simp only [Wpg.planSwing, Bind.bind, Except.bind] at h
    cases h1 : at' tr.parts i with
    | error e => rw [h1] at h; cases h
    | ok s =>
      simp only [h1] at h
      split at h
      · cases h
      · split at h
        · cases h
        · cases h; rfl

theorem planSgl_trunk {g : Wpg} {tr tr' : Traj} {i : Nat} {old : Option Traj} {p : SPoint ℝ}
    (h : g.planSgl tr i old = .ok tr') (hi : TrunkInv p tr) : TrunkInv p tr' := by
  unfold Wpg.planSgl at h
  cases h1 : at' tr.parts i with
  | error e => rw [h1] at h; cases h
  | ok part =>
    simp only [h1, Bind.bind, Except.bind] at h
    cases h2 : at' part.support.footsteps 0 with
    | error e => rw [h2] at h; cases h
    | ok f =>
      simp only [h2] at h
      cases h3 : at' tr.parts (i + 1) with
      | error e => rw [h3] at h; cases h
      | ok next =>
        simp only [h3] at h
        split at h
        · cases h
        · split at h
          · cases h
          · rename_i r hr
            have e1 := planSwing_trunk hr
            split at h
            · cases h
            · rename_i tr1 h4
              split at h
              · cases h
              · rename_i tr2 h5
                have i1 : TrunkInv p tr1 := hi.of_eq ((addYaw_trunk h4).trans e1)
                refine TrunkInv.of_eq (addSupports_trunk h) ?_
                unfold Wpg.planTrunk at h5
                split at h5
                · cases h5; exact i1
                · exact addTrunkYaw_trunk h5 i1

theorem planPart_trunk {g : Wpg} {tr tr' : Traj} {i : Nat} {old : Option Traj} {p : SPoint ℝ}
    (h : g.planPart old tr i = .ok tr') (hi : TrunkInv p tr) : TrunkInv p tr' := by
  unfold Wpg.planPart at h
  cases h1 : at' tr.parts i with
  | error e => rw [h1] at h; cases h
  | ok part =>
    simp only [h1, Bind.bind, Except.bind] at h
    split at h
    · exact planSgl_trunk h hi
    · exact planDbl_trunk h hi

theorem planPartsLoop_trunk {g : Wpg} {old : Option Traj} {p : SPoint ℝ} : ∀ (count i : Nat) (tr tr' : Traj),
    g.planPartsLoop old count i tr = .ok tr' → TrunkInv p tr → TrunkInv p tr'
  | 0, _, _, _, h, hi => by cases h; exact hi
  | count + 1, i, tr, tr', h, hi => by
    unfold Wpg.planPartsLoop at h
    cases h1 : g.planPart old tr i with
    | error e => rw [h1] at h; cases h
    | ok x =>
      rw [h1] at h
      exact planPartsLoop_trunk count (i + 1) x tr' h (planPart_trunk h1 hi)

/-- The yaw of the trunk starts where the old trajectory is at the time of the replanning, or somewhere. -/
theorem planFeet_trunk {g : Wpg} {old : Option Traj} {t0 te : ℝ} {parts : List Part} {tr' : Traj}
    (h : g.planFeet (g.blank t0 te parts) old = .ok tr') :
    ∃ p : SPoint ℝ, p.t = t0 ∧ TrunkInv p tr' ∧ ∀ o, old = some o → o.getYawWorldTrunk t0 = .ok p.x := by
  unfold Wpg.planFeet at h
  cases h1 : at' (g.blank t0 te parts).parts 0 with
  | error e => rw [h1] at h; cases h
  | ok part =>
    simp only [h1, Bind.bind, Except.bind] at h
    cases h2 : (g.blank t0 te parts).addSupports (g.blank t0 te parts).tStart part.support.footsteps with
    | error e => rw [h2] at h; cases h
    | ok x =>
      simp only [h2] at h
      have ex : x.trunkYaw = SplineSt.init true := addSupports_trunk h2
      have et : x.tStart = t0 := by
        have : ∀ (fs : List Footstep) (a b : Traj) (t : ℝ), a.addSupports t fs = .ok b → b.tStart = a.tStart := by
          intro fs
          induction fs with
          | nil => intro a b t h; cases h; rfl
          | cons f fs ih =>
            intro a b t h
            unfold Traj.addSupports at h
            cases hs : a.addYaw f.side t (frameYaw f.frame.linear) 0 with
            | error e => rw [hs] at h; cases h
            | ok c =>
              rw [hs] at h
              rw [ih c b t h]
              unfold Traj.addYaw at hs
              cases hq : (a.footYaw f.side).addPoint wrapAngle t (frameYaw f.frame.linear) 0 with
              | error e => rw [hq] at hs; cases hs
              | ok s =>
                rw [hq] at hs
                generalize f.side = σ at hs
                cases σ <;> (cases hs; rfl)
        exact this _ _ _ _ h2
      have first : ∀ a d y, x.addTrunkYaw x.tStart a d = .ok y → TrunkInv ⟨t0, a, d⟩ y := by
        intro a d y hy
        unfold Traj.addTrunkYaw at hy
        rw [ex, et] at hy
        cases hy
        exact ⟨rfl, rfl, List.pairwise_singleton _ _⟩
      cases h3 : g.planTrunkStart x part old with
      | error e => rw [h3] at h; cases h
      | ok y =>
        simp only [h3] at h
        cases old with
        | none =>
          simp only [Wpg.planTrunkStart, Bind.bind, Except.bind] at h3
          split at h3
          · cases h3
          · exact ⟨_, rfl, planPartsLoop_trunk _ _ _ _ h (first _ _ _ h3), fun o ho => by cases ho⟩
        | some o =>
          simp only [Wpg.planTrunkStart, Bind.bind, Except.bind] at h3
          split at h3
          · cases h3
          · rename_i a ha
            split at h3
            · cases h3
            · refine ⟨⟨t0, a, _⟩, rfl, planPartsLoop_trunk _ _ _ _ h (first _ _ _ h3), fun o' ho => ?_⟩
              cases ho
              rw [et] at ha
              exact ha

/-- The yaw of the trunk at its first point. -/
theorem trunk_first {p : SPoint ℝ} {tr : Traj} (h : TrunkInv p tr) : (tr.trunkYaw.interpolation p.t .value).2 = .ok p.x := by
  have hf := fresh_of_dirty _ h.dirty h.inc
  have e := hf.2 p.t .value
  unfold SplineSt.at at e
  rw [e]
  have hi := h.inc
  have hh := h.head
  generalize tr.trunkYaw.points = l at hi hh
  match l, hh with
  | [q], hh => cases hh; rfl
  | q :: r :: l, hh =>
    cases hh
    have hlt : p.t < r.t := by
      have := List.pairwise_iff_getElem.1 hi 0 1 (by simp) (by simp) (by omega)
      exact this
    have := (lookup_inside [] p r l hi p.t le_rfl hlt.le).1
    rw [List.nil_append] at this
    rw [this, (mkSpline_ends p r hlt).1]

end Verif.Humanoid
