/-
`replan_supports` on a trajectory that was planned or replanned, and the state of the robot across a replanning (C134, C135).
-/
import Verif.Humanoid.ReplanMotionProps

namespace Verif.Humanoid
open Verif.Problem Verif.Tools Verif.Robot

/-! ## The part in progress -/

/-- The part in progress at a time that is not an end. -/
theorem Motion.current {g : Wpg} {tr : Traj} (hM : Motion g tr) {t te : ℝ} (ht0 : tr.tStart ≤ t)
    (hte : tr.getPartTEnd t = .ok te) (ht : t < te) :
    ∃ (k : Nat) (hk : k < tr.parts.length), findIndex tr.parts t = .ok k ∧ tr.parts[k].tStart ≤ t ∧ tr.parts[k].tEnd = te := by
  obtain ⟨k, hk, hkl⟩ := findIndex_total tr.parts t hM.ne
  have hp := findPart_of_index hk hkl
  have he : tr.parts[k].tEnd = te := by
    unfold Traj.getPartTEnd at hte
    rw [hp] at hte
    exact Except.ok.inj hte
  obtain ⟨p, -, hp', hin, -⟩ := (C81 tr.parts t).2 hM.ne hM.cont
  rw [hp] at hp'
  cases hp'
  have h0 := hM.start (tr.parts[0]'(by omega)) (List.getElem?_eq_getElem _)
  have hl := (starts_mono hM.cont k (tr.parts.length - 1) (by omega) (by omega)).2
  obtain ⟨a, -⟩ := hin (by rw [List.head_eq_getElem, h0]; exact ht0) (by rw [List.getLast_eq_getElem]; linarith)
  exact ⟨k, hkl, hk, a, he⟩

/-- The first part is in progress at the start. -/
theorem Motion.first {g : Wpg} {tr : Traj} (hM : Motion g tr) : findIndex tr.parts tr.tStart = .ok 0 := by
  obtain ⟨k, hk, hkl⟩ := findIndex_total tr.parts tr.tStart hM.ne
  rw [hk]
  congr 1
  by_contra hne
  have hp := findPart_of_index hk hkl
  obtain ⟨p, -, hp', hin, -⟩ := (C81 tr.parts tr.tStart).2 hM.ne hM.cont
  rw [hp] at hp'
  cases hp'
  have h0 := hM.start (tr.parts[0]'(by omega)) (List.getElem?_eq_getElem _)
  have hb := hM.lasts _ (List.getElem_mem (by omega : 0 < tr.parts.length))
  have hj := hM.cont.joined 0 (by omega)
  have hm := (starts_mono hM.cont (0 + 1) k (by omega) hkl).1
  have hl := (starts_mono hM.cont 0 (tr.parts.length - 1) (by omega) (by omega)).2
  obtain ⟨a, -⟩ := hin (by rw [List.head_eq_getElem, h0]) (by rw [List.getLast_eq_getElem]; linarith)
  linarith

theorem moved_one_footsteps (s : Support) : (s.moved Affine.one).footsteps = s.footsteps.map fun f => { f with computed := false } := by
  show s.footsteps.map _ = _
  apply List.map_congr_left
  intro f _
  unfold Footstep.moved
  rw [one_mul']

/-- The support in progress and the next one, when the supports can be replanned. -/
theorem Motion.replannable {g : Wpg} {tr : Traj} (hM : Motion g tr) {t : ℝ} {k : Nat} (hk : k < tr.parts.length)
    (hi : findIndex tr.parts t = .ok k) (hcan : tr.canReplanSupports t = .ok true) :
    ∃ (f f' : Footstep) (h : k + 1 < tr.parts.length), tr.parts[k].support.footsteps = [f] ∧
      f' ∈ tr.parts[k + 1].support.footsteps ∧ f'.side = f.side.other ∧
      tr.getSupport t = .ok (tr.parts[k].support.moved tr.T) ∧
      tr.getNextSupport t 1 = .ok (tr.parts[k + 1].support.moved tr.T) := by
  have hp := findPart_of_index hi hk
  have h1 : tr.getSupport t = .ok (tr.parts[k].support.moved tr.T) := by
    unfold Traj.getSupport
    rw [hp]
    rfl
  have hnext : ∀ h : k + 1 < tr.parts.length, tr.getNextSupport t 1 = .ok (tr.parts[k + 1].support.moved tr.T) := by
    intro h
    unfold Traj.getNextSupport
    simp only [hi, Bind.bind, Except.bind]
    rw [if_neg (by omega), if_neg (by omega), show ((k : Int) + 1).toNat = k + 1 by omega]
    unfold at'
    rw [List.getElem?_eq_getElem h]
  have hboth : (tr.parts[k].support.moved tr.T).isBoth = tr.parts[k].support.isBoth := by
    unfold Support.isBoth Support.moved
    simp
  rcases hM.feet.shape k hk with ⟨f, hf⟩ | ⟨a, b, hab, -⟩
  · obtain ⟨hl, f', hm, hs⟩ := hM.feet.lands k hk f hf
    exact ⟨f, f', hl, hf, hm, hs, h1, hnext hl⟩
  · exfalso
    have hb : (tr.parts[k].support.moved tr.T).isBoth = true := by
      rw [hboth]; unfold Support.isBoth; rw [hab]; rfl
    unfold Traj.canReplanSupports at hcan
    simp only [h1, Bind.bind, Except.bind, hb] at hcan
    split at hcan
    · cases hcan
    · cases hn : tr.getNextSupport t 1 with
      | error e => rw [hn] at hcan; cases hcan
      | ok n =>
        rw [hn] at hcan
        simp only at hcan
        split at hcan <;> cases hcan

/-! ## `replan_supports` -/

/-- Specification of a footsteps planner: it goes on from the two footsteps it is given, with steps of alternate sides, and
with at least one more step. -/
def PlannerOK (p : Params) (plan : Side → Affine → Affine → Except Err (List Footstep)) : Prop :=
  ∀ flying T_left T_right, ∃ l, plan flying T_left T_right = .ok l ∧ StartsWith p flying T_left T_right l ∧ Alternate l ∧
    3 ≤ l.length

/-- The repetitive planner with at least one step. -/
theorem planner_repetitive (p : Params) (c : Clipping) (dx dy dtheta : ℝ) (n : Int) (hn : 1 ≤ n) :
    PlannerOK p fun flying T_left T_right => p.planRepetitive c dx dy dtheta n flying T_left T_right := by
  intro flying T_left T_right
  obtain ⟨l, h1, h2, h3, h4⟩ := C76_repetitive p c dx dy dtheta n flying T_left T_right
  exact ⟨l, h1, h2, h3, by omega⟩

/-- What `replan_supports` gives to the planner, and what it does of the answer. -/
theorem replanSupports_inputs (g : Wpg) (plan : Side → Affine → Affine → Except Err (List Footstep))
    (tr : Traj) (hM : Motion g tr) (t : ℝ) (k : Nat) (hk : k < tr.parts.length) (hi : findIndex tr.parts t = .ok k)
    (hcan : tr.canReplanSupports t = .ok true) (tLast : ℝ) :
    ∃ (f f' : Footstep) (_ : k + 1 < tr.parts.length) (Tl Tr : Affine),
      tr.parts[k].support.footsteps = [f] ∧ f' ∈ tr.parts[k + 1].support.footsteps ∧ f'.side = f.side.other ∧
      (match f.side with | .left => Tl | .right => Tr) = f.frame ∧ (match f.side with | .left => Tr | .right => Tl) = f'.frame ∧
      ∀ l s rest, plan f.side Tl Tr = .ok l →
        makeSupports l tr.parts[k].support.tStart false g.p.hasDoubleSupport true = .ok (s :: rest) →
        g.replanSupports plan tr t tLast = .ok ({ s with
          elapsedRatio := tr.parts[k].support.elapsedRatio
            + (t - max tLast tr.parts[k].support.tStart) / g.virtual tr.parts[k].support
          timeRatio := tr.parts[k].support.timeRatio } :: rest) := by
  obtain ⟨f, f', hl, hf, hm, hs, hcur, hnext⟩ := hM.replannable hk hi hcan
  have hT := hM.T
  have hcurf : (tr.parts[k].support.moved tr.T).footsteps = [{ f with computed := false }] := by
    rw [hT, moved_one_footsteps, hf]; rfl
  have hb : (tr.parts[k].support.moved tr.T).isBoth = false := by unfold Support.isBoth; rw [hcurf]; rfl
  have hside : (tr.parts[k].support.moved tr.T).side = .ok f.side := by unfold Support.side; rw [hcurf]; rfl
  have hfr : (tr.parts[k].support.moved tr.T).footstepFrame f.side = .ok f.frame := by
    unfold Support.footstepFrame; rw [hcurf]; simp
  have hfr' : (tr.parts[k + 1].support.moved tr.T).footstepFrame f.side.other = .ok f'.frame := by
    have e : ∃ x ∈ (tr.parts[k + 1].support.moved tr.T).footsteps, x.side = f'.side ∧ x.frame = f'.frame := by
      rw [hT, moved_one_footsteps]
      exact ⟨_, List.mem_map.2 ⟨f', hm, rfl⟩, rfl, rfl⟩
    obtain ⟨x, hx, e1, e2⟩ := e
    rw [← e2, ← hs, ← e1]
    apply frame_of_mem hx
    rw [hT, moved_one_footsteps]
    rcases hM.feet.shape (k + 1) hl with ⟨y, hy⟩ | ⟨y, z, hy, hz⟩
    · rw [hy]; exact Or.inl ⟨_, rfl⟩
    · rw [hy]; exact Or.inr ⟨_, _, rfl, hz⟩
  have hfrm : ∃ P : Affine × Affine, replanFrames (tr.parts[k].support.moved tr.T) (tr.parts[k + 1].support.moved tr.T) f.side = .ok P ∧
      (match f.side with | .left => P.1 | .right => P.2) = f.frame ∧ (match f.side with | .left => P.2 | .right => P.1) = f'.frame := by
    cases e : f.side with
    | left =>
      rw [e] at hfr hfr'
      refine ⟨(f.frame, f'.frame), ?_, rfl, rfl⟩
      unfold replanFrames
      simp only [Side.other] at hfr'
      simp only [hfr, hfr', Bind.bind, Except.bind]
    | right =>
      rw [e] at hfr hfr'
      refine ⟨(f'.frame, f.frame), ?_, rfl, rfl⟩
      unfold replanFrames
      simp only [Side.other] at hfr'
      simp only [hfr, hfr', Bind.bind, Except.bind]
  obtain ⟨P, hP, p1, p2⟩ := hfrm
  refine ⟨f, f', hl, P.1, P.2, hf, hm, hs, p1, p2, fun l s rest hl1 hS => ?_⟩
  unfold Wpg.replanSupports
  have hsd : replanSide (tr.parts[k].support.moved tr.T) (tr.parts[k + 1].support.moved tr.T) = .ok f.side := by
    unfold replanSide
    rw [hb]
    exact hside
  have hdur : g.p.supportDuration (tr.parts[k].support.moved tr.T) = g.p.supportDuration tr.parts[k].support := by
    unfold Params.supportDuration Support.isBoth Support.moved
    simp
  have hS' : makeSupports l (tr.parts[k].support.moved tr.T).tStart false g.p.hasDoubleSupport true
      = .ok (s :: rest) := hS
  simp only [hcan, hcur, hnext, hsd, hP, hl1, hS', Bind.bind, Except.bind, if_true]
  unfold replanErase
  rw [hb]
  simp only [Bool.false_eq_true, if_false]
  unfold Wpg.replanFirst
  rw [hdur]
  rfl

theorem replanSupports_spec (g : Wpg) (plan : Side → Affine → Affine → Except Err (List Footstep)) (hplan : PlannerOK g.p.toParams plan)
    (tr : Traj) (hM : Motion g tr) (t : ℝ) (k : Nat) (hk : k < tr.parts.length) (hi : findIndex tr.parts t = .ok k)
    (hcan : tr.canReplanSupports t = .ok true) (tLast : ℝ) :
    ∃ (f f' : Footstep) (_ : k + 1 < tr.parts.length) (a b : Footstep) (r : List Footstep) (s : Support) (rest : List Support),
      tr.parts[k].support.footsteps = [f] ∧ f' ∈ tr.parts[k + 1].support.footsteps ∧ f'.side = f.side.other ∧
      a.side = f.side ∧ a.frame = f.frame ∧ b.side = f.side.other ∧ b.frame = f'.frame ∧
      3 ≤ (a :: b :: r).length ∧ Alternate (a :: b :: r) ∧
      makeSupports (a :: b :: r) tr.parts[k].support.tStart false g.p.hasDoubleSupport true = .ok (s :: rest) ∧
      g.replanSupports plan tr t tLast = .ok ({ s with
        elapsedRatio := tr.parts[k].support.elapsedRatio
          + (t - max tLast tr.parts[k].support.tStart) / g.virtual tr.parts[k].support
        timeRatio := tr.parts[k].support.timeRatio } :: rest) := by
  obtain ⟨f, f', hl, Tl, Tr, hf, hm, hs, p1, p2, hrep⟩ := replanSupports_inputs g plan tr hM t k hk hi hcan tLast
  obtain ⟨l, hl1, ⟨a, b, r, rfl, s1, s2, s3, s4, -⟩, halt, h3⟩ := hplan f.side Tl Tr
  obtain ⟨s, H, L, E, hS, -⟩ := makeSupports_spec (a :: b :: r) tr.parts[k].support.tStart false g.p.hasDoubleSupport true h3
  exact ⟨f, f', hl, a, b, r, s, H ++ L ++ E, hf, hm, hs, s1, s3.trans p1, s2, s4.trans p2, h3, halt, hS, hrep _ _ _ hl1 hS⟩

end Verif.Humanoid
