/-
Complements to C86 (the state at the start of a planned trajectory) and C89 (the time left after a replanning that failed).
-/
import Verif.Humanoid.QueriesProps

namespace Verif.Humanoid
open Verif.Problem Verif.Tools Verif.Robot

/-! ## C86 -/

theorem findPart_start {parts : List Part} (hne : parts ≠ []) (hc : Contiguous parts) (h0 : (parts.head hne).tStart < (parts.head hne).tEnd) :
    findPart parts (parts.head hne).tStart = .ok (parts.head hne) := by
  obtain ⟨p, hp, hf, hin, -⟩ := (C81 parts (parts.head hne).tStart).2 hne hc
  rw [hf]
  have hlast : (parts.head hne).tStart ≤ (parts.getLast hne).tEnd := by
    rw [List.head_eq_getElem, List.getLast_eq_getElem]
    have hl := List.length_pos_iff.2 hne
    exact (hc.ordered 0 hl).trans (starts_mono hc 0 (parts.length - 1) (by omega) (by omega)).2
  obtain ⟨h1, h2⟩ := hin le_rfl hlast
  obtain ⟨i, hi, rfl⟩ := List.getElem_of_mem hp
  rw [List.head_eq_getElem] at h0 h1 ⊢
  cases i with
  | zero => rfl
  | succ i =>
    have := (starts_mono hc 0 i (by omega) (by omega)).2
    have := hc.joined i hi
    linarith

/-- **C86 (the start).** A planned trajectory starts at the time asked, with the CoM at the horizontal position asked and the height of
the parameters, at rest. -/
theorem C86_start (g : Wpg) (ss : List Support) (hd : ∀ s ∈ ss, 0 < g.duration s) (com : V3) (t0 : ℝ) (tr : Traj)
    (h : g.plan ss com t0 = .ok tr) :
    tr.tStart = t0 ∧ tr.getPWorldCoM t0 = .ok ![com 0, com 1, g.p.walkComHeight] ∧ tr.getDWorldCoM 1 t0 = .ok 0 ∧
      tr.getDWorldCoM 2 t0 = .ok 0 := by
  unfold Wpg.plan at h
  by_cases h0 : ss.length = 0
  · rw [if_pos h0] at h; cases h
  · rw [if_neg h0] at h
    cases hc : g.planCom t0 ss ⟨⟨com 0, com 1⟩, ⟨0, 0⟩, ⟨0, 0⟩⟩ with
    | error e => rw [hc] at h; cases h
    | ok r =>
      simp only [hc, Bind.bind, Except.bind] at h
      cases r with
      | none => cases h
      | some r =>
        have hs := sameBody_planFeet h
        have ha := hs.arrives (arrives_planCom g t0 ss h0 _ hd r.1 r.2 hc)
        obtain ⟨hlen, hcon, hdur, hfirst, -⟩ := C86 g t0 ss _ hd r.1 r.2 hc
        have hlen' := hs.parts.length_eq
        have hlen'' : r.1.length = tr.parts.length := hlen'
        have hne : r.1 ≠ [] := by
          intro e
          rw [e] at hlen
          exact h0 hlen.symm
        obtain ⟨f1, -, f3, f4, f5⟩ := hfirst hne
        have hl : 0 < tr.parts.length := by have := List.length_pos_iff.2 hne; omega
        obtain ⟨k1, w, e⟩ := hs.get 0 hl
        have e1 : tr.parts.head ha.nonempty = { r.1.head hne with swing := w } := by
          rw [List.head_eq_getElem, List.head_eq_getElem]
          exact e
        have hstart : (tr.parts.head ha.nonempty).tStart = t0 := by rw [e1]; exact f1
        have hpos : (tr.parts.head ha.nonempty).tStart < (tr.parts.head ha.nonempty).tEnd := by
          rw [e1]
          show (r.1.head hne).tStart < (r.1.head hne).tEnd
          rw [List.head_eq_getElem]
          have := hdur 0 (by omega) (by omega)
          have := hd ss[0] (List.getElem_mem (by omega))
          linarith
        have hf := findPart_start ha.nonempty ha.contiguous hpos
        rw [hstart] at hf
        have g3 : (tr.parts.head ha.nonempty).com.component t0 (0 : Nat) = .ok ⟨com 0, com 1⟩ := by rw [e1]; exact f3
        have g4 : (tr.parts.head ha.nonempty).com.component t0 (1 : Nat) = .ok ⟨0, 0⟩ := by rw [e1]; exact f4
        have g5 : (tr.parts.head ha.nonempty).com.component t0 (2 : Nat) = .ok ⟨0, 0⟩ := by rw [e1]; exact f5
        obtain ⟨a1, a2, a3⟩ := com_reads hf hs.T g3 g4 g5
        have hz : tr.comTargetZ = g.p.walkComHeight := hs.z
        refine ⟨hs.tStart, ?_, ?_, ?_⟩
        · rw [a1, hz]
        · rw [a2]
          congr 1
          funext i
          fin_cases i <;> rfl
        · rw [a3]
          congr 1
          funext i
          fin_cases i <;> rfl

/-! ## C89 -/

/-- Each part lasts what is left of its support, whose elapsed ratio is counted at the start of the part: the support started with the
part, or before the trajectory did. -/
structure Timed (g : Wpg) (tr : Traj) : Prop where
  left : ∀ p ∈ tr.parts, p.tEnd - p.tStart = g.duration p.support
  start : ∀ p ∈ tr.parts, max tr.tStart p.support.tStart = p.tStart
  lasts : ∀ p ∈ tr.parts, 0 < g.p.supportDuration p.support * p.support.timeRatio

/-- **C89 (the time left).** After replannings that failed, at any times, each part still lasts what is left of its support: planning
again the supports of the trimmed trajectory ends the current support at the time it was to end. -/
theorem C89_timed (g : Wpg) (old : Traj) (h : Timed g old) (t : ℝ) (ht : old.tStart ≤ t) : Timed g (g.trim old t) := by
  have key : ∀ p ∈ old.parts, ∀ q ∈ g.trimPart old t p,
      q.tEnd - q.tStart = g.duration q.support ∧ max t q.support.tStart = q.tStart ∧
        0 < g.p.supportDuration q.support * q.support.timeRatio := by
    intro p hp q hq
    have h1 := h.left p hp
    have h2 := h.start p hp
    have h3 := h.lasts p hp
    unfold Wpg.trimPart at hq
    by_cases a : p.tStart ≤ t
    · rw [if_pos a] at hq
      by_cases b : t < p.tEnd
      · rw [if_pos b] at hq
        rw [List.mem_singleton] at hq
        have e : ∀ x : Support, g.p.supportDuration { p.support with elapsedRatio := x.elapsedRatio } = g.p.supportDuration p.support :=
          fun x => rfl
        rw [h2] at hq
        subst hq
        refine ⟨?_, ?_, h3⟩
        · show p.tEnd - t = (1 - (p.support.elapsedRatio + (t - p.tStart) / (g.p.supportDuration p.support * p.support.timeRatio)))
            * g.p.supportDuration p.support * p.support.timeRatio
          unfold Wpg.duration at h1
          have e1 : (1 - (p.support.elapsedRatio + (t - p.tStart) / (g.p.supportDuration p.support * p.support.timeRatio)))
              * g.p.supportDuration p.support * p.support.timeRatio =
              (1 - p.support.elapsedRatio) * g.p.supportDuration p.support * p.support.timeRatio - (t - p.tStart) := by
            rw [mul_assoc, sub_mul, add_mul, div_mul_cancel₀ _ h3.ne']
            ring
          rw [e1, ← h1]
          ring
        · show max t p.support.tStart = t
          apply max_eq_left
          have := le_max_right old.tStart p.support.tStart
          linarith
      · rw [if_neg b] at hq; cases hq
    · rw [if_neg a, List.mem_singleton] at hq
      subst hq
      refine ⟨h1, ?_, h3⟩
      rcases max_choice old.tStart q.support.tStart with e | e
      · rw [e] at h2; exact absurd (by linarith) a
      · rw [e] at h2
        rw [h2]
        exact max_eq_right (by linarith)
  have mem : ∀ q ∈ (g.trim old t).parts, ∃ p ∈ old.parts, q ∈ g.trimPart old t p := by
    intro q hq
    obtain ⟨l, hl, hql⟩ := List.mem_flatten.1 hq
    obtain ⟨p, hp, rfl⟩ := List.mem_map.1 hl
    exact ⟨p, hp, hql⟩
  refine ⟨fun q hq => ?_, fun q hq => ?_, fun q hq => ?_⟩ <;> obtain ⟨p, hp, hqp⟩ := mem q hq
  · exact (key p hp q hqp).1
  · exact (key p hp q hqp).2.1
  · exact (key p hp q hqp).2.2

/-- The trajectories made by `plan` are timed, when only their first support may already have a time. -/
theorem plan_timed (g : Wpg) (ss : List Support) (hd : ∀ s ∈ ss, 0 < g.duration s)
    (hr : ∀ s ∈ ss, 0 < g.p.supportDuration s * s.timeRatio) (com : V3) (t0 : ℝ) (tr : Traj)
    (hs : ∀ (i : Nat) (h : i < ss.length), ss[i].tStart = -1 ∨ i = 0 ∧ ss[i].tStart ≤ t0)
    (h : g.plan ss com t0 = .ok tr) : Timed g tr := by
  unfold Wpg.plan at h
  by_cases h0 : ss.length = 0
  · rw [if_pos h0] at h; cases h
  · rw [if_neg h0] at h
    cases hc : g.planCom t0 ss ⟨⟨com 0, com 1⟩, ⟨0, 0⟩, ⟨0, 0⟩⟩ with
    | error e => rw [hc] at h; cases h
    | ok r =>
      simp only [hc, Bind.bind, Except.bind] at h
      cases r with
      | none => cases h
      | some r =>
        have hb := sameBody_planFeet h
        obtain ⟨hlen, hcon, hdur, hfirst, -⟩ := C86 g t0 ss _ hd r.1 r.2 hc
        obtain ⟨ps, n, sol, hch, -, hl, hg⟩ := planCom_chained g t0 ss _ hd r.1 r.2 hc
        obtain ⟨hlps, -, hget⟩ := hch.get
        have part : ∀ p ∈ tr.parts, p.tEnd - p.tStart = g.duration p.support ∧ max t0 p.support.tStart = p.tStart ∧
            0 < g.p.supportDuration p.support * p.support.timeRatio := by
          intro p hp
          obtain ⟨i, hi, rfl⟩ := List.getElem_of_mem hp
          obtain ⟨k1, w, e⟩ := hb.get i hi
          have k1' : i < r.1.length := k1
          obtain ⟨b1, b2, -, dcm, -, b5⟩ := hg i (by omega) k1'
          obtain ⟨-, a2, -⟩ := hget i (by omega) (by omega)
          have hne : r.1 ≠ [] := List.ne_nil_of_length_pos (by omega)
          have hmono := (starts_mono hcon 0 i (by omega) k1').1
          have hf := (hfirst hne).1
          rw [List.head_eq_getElem] at hf
          have hri := hr ss[i] (List.getElem_mem (by omega))
          have esup : ∃ u, r.1[i].support = { ss[i] with tStart := u, targetDcm := dcm } ∧ max t0 u = r.1[i].tStart := by
            rcases hs i (by omega) with h1 | ⟨rfl, h1⟩
            · refine ⟨ps[i].tStart, ?_, ?_⟩
              · rw [b5, a2]
                unfold stamped
                rw [if_pos h1]
              · rw [← b1, ← hf]
                exact max_eq_right hmono
            · by_cases h2 : ss[0].tStart = -1
              · refine ⟨ps[0].tStart, ?_, ?_⟩
                · rw [b5, a2]
                  unfold stamped
                  rw [if_pos h2]
                · rw [← b1, ← hf]
                  exact max_eq_right hmono
              · refine ⟨ss[0].tStart, ?_, ?_⟩
                · rw [b5, a2]
                  unfold stamped
                  rw [if_neg h2]
                · rw [hf]
                  exact max_eq_left h1
          obtain ⟨u, esup, hu⟩ := esup
          rw [e]
          refine ⟨?_, ?_, ?_⟩
          · show r.1[i].tEnd - r.1[i].tStart = g.duration r.1[i].support
            rw [hdur i k1' (by omega), esup]
            rfl
          · show max t0 r.1[i].support.tStart = r.1[i].tStart
            rw [esup]
            exact hu
          · show 0 < g.p.supportDuration r.1[i].support * r.1[i].support.timeRatio
            rw [esup]
            exact hri
        have ht : tr.tStart = t0 := hb.tStart
        refine ⟨fun p hp => (part p hp).1, fun p hp => ?_, fun p hp => (part p hp).2.2⟩
        rw [ht]
        exact (part p hp).2.1

/-- The walk of three footsteps is timed, and stays so after two replannings that failed. -/
example : ∃ S tr, softWpg.plan S ![0, 0, 35 / 100] 0 = .ok tr ∧ Timed softWpg tr ∧
    Timed softWpg (softWpg.trim (softWpg.trim tr (1 / 10)) (2 / 10)) := by
  obtain ⟨S, hS, hs⟩ := soft_supports true true true
  obtain ⟨S', tr, te, hS', h1, h2⟩ := soft_walk true
  rw [hS] at hS'
  obtain rfl := Except.ok.inj hS'
  have hf := makeSupports_whole hS
  have hr : ∀ s ∈ S, 0 < softWpg.p.supportDuration s * s.timeRatio := by
    intro s h
    rw [(hf s h).2, mul_one]
    exact (hs s h).1
  have hd : ∀ s ∈ S, 0 < softWpg.duration s := by
    intro s h
    unfold Wpg.duration
    rw [(hf s h).1, sub_zero, one_mul]
    exact hr s h
  have ht : ∀ (i : Nat) (h : i < S.length), S[i].tStart = -1 ∨ i = 0 ∧ S[i].tStart ≤ 0 := by
    have e : makeSupports demoSteps 0 true true true = .ok S := hS
    obtain rfl := Except.ok.inj (show Except.ok _ = Except.ok S from e)
    intro i h
    simp at h
    interval_cases i <;> simp
  have h0 := plan_timed softWpg S hd hr ![0, 0, 35 / 100] 0 tr ht h1
  have hst : tr.tStart = 0 := (C86_start softWpg S hd ![0, 0, 35 / 100] 0 tr h1).1
  refine ⟨S, tr, h1, h0, C89_timed softWpg _ (C89_timed softWpg tr h0 _ (by rw [hst]; norm_num)) _ ?_⟩
  show (1 / 10 : ℝ) ≤ 2 / 10
  norm_num

end Verif.Humanoid
