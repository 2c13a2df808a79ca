/-
Exact forms of C82 (looking at the previous support) and C87 (height of a swing).
-/
import Verif.Humanoid.LookupProps
import Verif.Humanoid.SwingProps

namespace Verif.Humanoid
open Verif.Tools Verif.Problem Verif.Robot

/-- **C82, exactly, for one step back.** Looking at the previous support leaves the trajectory unchanged if and only if the part found
before is a copy of the part at `t`: the part at `t` is overwritten with it. -/
theorem C82_exact (tr : Traj) (t : ℝ) (i j : Nat) (hi : findIndex tr.parts t = .ok i) (hlt : i < tr.parts.length)
    (hj : findIndex tr.parts (tr.parts[i].tStart - 1 / 10000) = .ok j) (hjl : j < tr.parts.length) :
    ((tr.getPrevSupport t 1).1 = tr ↔ tr.parts[j] = tr.parts[i]) ∧
    (∀ m, (hm : m < tr.parts.length) → (tr.getPrevSupport t 1).1.parts[m]? = some (if m = i then tr.parts[j] else tr.parts[m])) := by
  rw [prev_one tr t i j hi hlt hj hjl]
  refine ⟨⟨fun h => ?_, fun h => ?_⟩, fun m hm => ?_⟩
  · have h1 := congrArg (fun t : Traj => t.parts[i]?) h
    simp only [List.getElem?_set, hlt, if_true, List.getElem?_eq_getElem hlt] at h1
    exact Option.some.inj h1
  · rw [h, List.set_getElem_self]
  · simp only [List.getElem?_set, hlt, if_true]
    by_cases h : i = m
    · subst h; simp
    · rw [if_neg h, if_neg (Ne.symm h), List.getElem?_eq_getElem hm]

section
variable {K : Type} [Field K] [LinearOrder K] [IsStrictOrderedRing K]
variable (wrap : K → K) (tStart d height rise : K) (start target : Fin 3 → K) (el : K) (vel : Fin 3 → K)

/-- **C87, exactly.** What remains of the plateau is at the requested height and at rest vertically if and only if the foot is, in case
the swing is (re)started inside the plateau. -/
theorem C87_exact (hd : 0 < d) (hr0 : 0 < rise) (hr1 : rise < 1) (hel1 : el < 1) :
    ∃ s : CubicSwing K, CubicSwing.make wrap tStart d height rise start target el vel = .ok s ∧
      ((∀ t, tStart ≤ t → tStart - el * d + d * (1 - rise) / 2 ≤ t → t ≤ tStart - el * d + d * (1 + rise) / 2 →
        ∃ p v, s.read t .value = .ok p ∧ p 2 = height ∧ s.read t .speed = .ok v ∧ v 2 = 0) ↔
      (tStart - el * d + d * (1 - rise) / 2 ≤ tStart → tStart ≤ tStart - el * d + d * (1 + rise) / 2 →
        start 2 = height ∧ vel 2 = 0)) := by
  obtain ⟨s, hs, r1, r2, -⟩ := C87_ends wrap tStart d height rise start target el vel hd hr0 hr1 hel1
  refine ⟨s, hs, fun h c1 c2 => ?_, fun h t h0 h1 h2 => ?_⟩
  · obtain ⟨p, v, e1, e2, e3, e4⟩ := h tStart le_rfl c1 c2
    rw [r1] at e1; rw [r2] at e3
    cases e1; cases e3
    exact ⟨e2, e4⟩
  · obtain ⟨s', hs', hp⟩ := C87_partial wrap tStart d height rise start target el vel hd hr0 hr1 hel1
      (fun c1 => h c1 (h0.trans h2))
    rw [hs] at hs'
    cases hs'
    exact hp t h0 h1 h2

end

end Verif.Humanoid
