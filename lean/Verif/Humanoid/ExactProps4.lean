/-
Exact form of C89: which replanning times leave a trajectory that answers.
-/
import Verif.Humanoid.TrimFeetProps

namespace Verif.Humanoid
open Verif.Problem Verif.Tools Verif.Robot

/-- A trimmed trajectory has a part left exactly when it was trimmed before its end. -/
theorem trim_answers (g : Wpg) (old : Traj) (hc : Contiguous old.parts) (hne : old.parts ≠ []) (u : ℝ)
    (h0 : (old.parts.head hne).tStart ≤ u) (t : ℝ) :
    (∃ s, (g.trim old u).getSupport t = .ok s) ↔ u < (old.parts.getLast hne).tEnd := by
  constructor
  · rintro ⟨s, hs⟩
    by_contra h
    rw [(C89_refuted g old hc hne u t (not_lt.1 h)).1] at hs
    cases hs
  · intro h1
    obtain ⟨k, hk, hku, huk⟩ := part_at old.parts hc hne u h0 h1
    obtain ⟨q, hq, -⟩ := trim_parts g old hc u k hk hku huk
    obtain ⟨p, -, hp⟩ := findPart_total (g.trim old u).parts t (by rw [hq]; exact List.cons_ne_nil _ _)
    exact ⟨p.support.moved (g.trim old u).T, by unfold Traj.getSupport; rw [hp]; rfl⟩

/-- **C89_exact.** For trajectories whose parts are joined (feet and CoM), trimmed at a time from their start on: the trimmed trajectory answers
every query from there on, the frames of the feet and the motion of the CoM being those of the old trajectory, exactly when it is
trimmed before its end. -/
theorem C89_exact (g : Wpg) (old : Traj) (hc : Contiguous old.parts) (hj : ComJoined old.parts) (hf : FeetJoined old.parts)
    (hne : old.parts ≠ []) (u : ℝ) (h0 : (old.parts.head hne).tStart ≤ u) :
    (∀ t, u ≤ t → (∃ s, (g.trim old u).getSupport t = .ok s) ∧
      (∀ σ, (g.trim old u).getTWorldFoot σ t = old.getTWorldFoot σ t) ∧
      (g.trim old u).getPWorldCoM t = old.getPWorldCoM t ∧
      (g.trim old u).getDWorldCoM 1 t = old.getDWorldCoM 1 t ∧ (g.trim old u).getDWorldCoM 2 t = old.getDWorldCoM 2 t) ↔
    u < (old.parts.getLast hne).tEnd := by
  constructor
  · intro h
    exact (trim_answers g old hc hne u h0 u).1 (h u le_rfl).1
  · intro h1 t ht
    exact ⟨(trim_answers g old hc hne u h0 t).2 h1, C89_joined g old hc hj hf hne u t h0 h1 ht⟩

/-! ## The hypotheses are met -/

/-- A robot that stands on its two feet for two seconds, in two parts. -/
noncomputable def standTraj : Traj :=
  let l : Footstep := { width := 1, length := 1, side := .left, frame := Affine.one }
  let r : Footstep := { width := 1, length := 1, side := .right, frame := Affine.one }
  { tStart := 0, tEnd := 2, parts := [demoPart 0 1 [l, r], demoPart 1 2 [l, r]]
    comTargetZ := 1, trunkPitch := 0, trunkRoll := 0 }

example : Contiguous standTraj.parts ∧ ComJoined standTraj.parts ∧ FeetJoined standTraj.parts := by
  refine ⟨⟨?_, ?_⟩, ?_, ?_⟩
  · intro i h
    have : i < 2 := h
    interval_cases i <;> simp [standTraj, demoPart]
  · intro i h
    have : i + 1 < 2 := h
    have : i = 0 := by omega
    subst this
    simp [standTraj, demoPart]
  · intro i h
    have : i + 1 < 2 := h
    have : i = 0 := by omega
    subst this
    intros
    rfl
  · intro i h σ
    have : i + 1 < 2 := h
    have : i = 0 := by omega
    subst this
    rfl

end Verif.Humanoid
