/-
C135, when: exactly when the supports of a trajectory can be replanned.
-/
import Verif.Humanoid.ReplanWalkProps

namespace Verif.Humanoid
open Verif.Problem Verif.Tools Verif.Robot

/-- **C135 (when).** `can_replan_supports` never raises on a trajectory that has parts, and it
answers yes exactly when the support in progress is neither the first nor the last of the
walk, stands on a number of footsteps other than two, and is not followed by the last
support (the support in progress counts as its own successor in the last part). -/
theorem C135_when (tr : Traj) (t : ℝ) (k : Nat) (hi : findIndex tr.parts t = .ok k) (hk : k < tr.parts.length) :
    ∃ b, tr.canReplanSupports t = .ok b ∧
      (b = true ↔ tr.parts[k].support.isEnd = false ∧ tr.parts[k].support.start = false ∧
        tr.parts[k].support.footsteps.length ≠ 2 ∧
        (tr.parts[min (k + 1) (tr.parts.length - 1)]'(by omega)).support.isEnd = false) := by
  have h1 : tr.getSupport t = .ok (tr.parts[k].support.moved tr.T) := by
    unfold Traj.getSupport
    rw [findPart_of_index hi hk]
    rfl
  have h2 : tr.getNextSupport t 1
      = .ok ((tr.parts[min (k + 1) (tr.parts.length - 1)]'(by omega)).support.moved tr.T) := by
    unfold Traj.getNextSupport
    simp only [hi, Bind.bind, Except.bind]
    by_cases hl : k + 1 < tr.parts.length
    · rw [if_neg (by omega), if_neg (by omega), show ((k : Int) + 1).toNat = k + 1 by omega]
      unfold at'
      rw [List.getElem?_eq_getElem hl]
      simp only [show min (k + 1) (tr.parts.length - 1) = k + 1 by omega]
    · rw [if_pos (by omega), List.getLast?_eq_getElem?, List.getElem?_eq_getElem (by omega)]
      simp only [show min (k + 1) (tr.parts.length - 1) = tr.parts.length - 1 by omega]
  have hb : (tr.parts[k].support.moved tr.T).isBoth = decide (tr.parts[k].support.footsteps.length = 2) := by
    unfold Support.isBoth Support.moved
    simp only [List.length_map]
    rfl
  have he : ∀ s : Support, (s.moved tr.T).isEnd = s.isEnd := fun s => rfl
  have hs : ∀ s : Support, (s.moved tr.T).start = s.start := fun s => rfl
  unfold Traj.canReplanSupports
  simp only [h1, h2, Bind.bind, Except.bind, hb, he, hs]
  cases tr.parts[k].support.isEnd <;> cases tr.parts[k].support.start <;>
    cases (tr.parts[min (k + 1) (tr.parts.length - 1)]'(by omega)).support.isEnd <;> simp [em]

/-- Both answers occur in a planned walk of four footsteps: yes during the swing of the left foot ... -/
example : ∃ tr t k, Session softWpg tr ∧ findIndex tr.parts t = .ok k ∧ k < tr.parts.length ∧
    tr.canReplanSupports t = .ok true := by
  obtain ⟨tr, hs, ts, te, h1, h2, h3, t, ha, hb, -⟩ := four_walk
  obtain ⟨k, hi, hk⟩ := findIndex_total tr.parts t (hs.motion four_rise.1 four_rise.2).ne
  exact ⟨tr, t, k, hs, hi, hk, (h3 t ha hb).1⟩

/-- ... and no in a walk that has a single support, which is its last one. -/
example (p : Part) (hp : p.support.isEnd = true) (tr : Traj) (htr : tr.parts = [p]) (t : ℝ) :
    tr.canReplanSupports t = .ok false := by
  obtain ⟨k, hi, hk⟩ := findIndex_total tr.parts t (by rw [htr]; simp)
  obtain ⟨b, hb, hb'⟩ := C135_when tr t k hi hk
  have h0 : k = 0 := by rw [htr] at hk; simpa using hk
  subst h0
  cases b with
  | false => exact hb
  | true =>
    have := (hb'.1 rfl).1
    simp only [htr, List.getElem_cons_zero, hp] at this
    cases this

end Verif.Humanoid
