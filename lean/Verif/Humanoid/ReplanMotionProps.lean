/-
The invariant of a walk that is planned, then replanned any number of times (used by C134 and C135).
-/
import Verif.Humanoid.ReplanProps

namespace Verif.Humanoid
open Verif.Problem Verif.Tools Verif.Robot

/-- What is kept by planning, replanning and trimming. -/
structure Motion (g : Wpg) (tr : Traj) : Prop where
  T : tr.T = Affine.one
  z : tr.comTargetZ = g.p.walkComHeight
  ne : tr.parts ≠ []
  cont : Contiguous tr.parts
  lasts : ∀ p ∈ tr.parts, p.tStart < p.tEnd
  start : ∀ p : Part, tr.parts[0]? = some p → p.tStart = tr.tStart
  feet : Feet tr.parts
  com : ∀ p ∈ tr.parts, ∀ (d : Nat), d < 3 → ∀ t, ∃ v, p.com.component t d = .ok v
  swing : ∀ p ∈ tr.parts, ∀ f : Footstep, p.support.footsteps = [f] → ∀ t : ℝ, p.tStart ≤ t → t ≤ p.tEnd →
    (∃ x, p.swing.read t .value = .ok x) ∧ ∃ v, p.swing.read t .speed = .ok v
  yaw : ∀ σ, (tr.footYaw σ).dirty = true
  trunk : tr.trunkYaw.dirty = true
  heading : ∀ p ∈ tr.parts, ∀ f ∈ p.support.footsteps, ∀ t : ℝ, p.tStart ≤ t → t ≤ p.tEnd →
    ∃ a, ((tr.footYaw f.side).interpolation t .value).2 = .ok a ∧ rotZ a = rotZ (frameYaw f.frame.linear)
  lands : ∀ (k : Nat) (h : k + 1 < tr.parts.length), ∀ f : Footstep, tr.parts[k].support.footsteps = [f] →
    ∀ f' ∈ tr.parts[k + 1].support.footsteps, f'.side = f.side.other →
      tr.parts[k].swing.read tr.parts[k].tEnd .value = .ok f'.frame.translation
  /-- The ends of the single supports agree with what is elapsed. -/
  timing : ∀ p ∈ tr.parts, ∀ f : Footstep, p.support.footsteps = [f] → max tr.tStart p.support.tStart = p.tStart ∧
    p.tEnd - p.tStart = g.duration p.support ∧ p.support.elapsedRatio < 1 ∧ 0 < g.virtual p.support

/-! ## Planned trajectories -/

/-- The facts about planned parts that the lemmas on the feet ask for. -/
structure Planning (g : Wpg) (t0 te : ℝ) (parts : List Part) : Prop where
  walk : Walk parts
  feet : Feet parts
  swings : Swings g parts
  ne : 0 < parts.length
  first : ∀ h : 0 < parts.length, parts[0].tStart = t0
  last : ∀ h : 0 < parts.length, (parts[parts.length - 1]'(by omega)).tEnd = te
  lasts : ∀ (i : Nat) (h : i < parts.length), parts[i].tEnd - parts[i].tStart = g.duration parts[i].support
  fresh : ∀ (i : Nat) (h : i < parts.length), 0 < i → parts[i].support.elapsedRatio = 0

theorem planning_of_com (g : Wpg) (t0 : ℝ) (S : List Support) (init : ComState) (hd : ∀ s ∈ S, 0 < g.duration s)
    (parts : List Part) (te : ℝ) (h : g.planCom t0 S init = .ok (some (parts, te))) (hne : 0 < S.length) (hF : Feet parts)
    (hr0 : 0 < g.p.walkFootRiseRatio) (hr1 : g.p.walkFootRiseRatio < 1) (he1 : ∀ s ∈ S, s.elapsedRatio < 1)
    (he : ∀ (i : Nat) (hi : i < S.length), 0 < i → S[i].elapsedRatio = 0) : Planning g t0 te parts := by
  obtain ⟨hlen, hc, hdur, hends, -⟩ := C86 g t0 S init hd parts te h
  obtain ⟨-, hsup⟩ := planCom_supports g t0 S init hd parts te h
  have hpn : parts ≠ [] := by intro e; rw [e] at hlen; simp at hlen; omega
  obtain ⟨hstart, hend, -⟩ := hends hpn
  refine ⟨walk_of_plan g t0 S init hd parts te h hF, hF, ⟨hr0, hr1, fun i hi f _ => ?_, fun hl => ?_⟩, by omega,
    fun hl => ?_, fun hl => ?_, fun i hi => ?_, fun i hi hp => ?_⟩
  · rw [(hsup i hi (by omega)).2.2.2.2]
    have h1 := hd S[i] (List.getElem_mem (by omega))
    have h2 := he1 S[i] (List.getElem_mem (by omega))
    unfold Wpg.duration at h1
    unfold Wpg.virtual
    rw [mul_assoc] at h1
    exact (mul_pos_iff_of_pos_left (by linarith)).1 h1
  · rw [(hsup 0 hl hne).2.1]
    exact he1 _ (List.getElem_mem _)
  · rw [← hstart, List.head_eq_getElem]
  · rw [← hend, List.getLast_eq_getElem]
  · rw [hdur i hi (by omega), (hsup i hi (by omega)).2.2.2.1]
  · rw [(hsup i hi (by omega)).2.1]
    exact he i (by omega) hp

theorem Feet.of_footsteps {a b : List Part} (hF : Feet a) (k : Nat) (h : footstepsOf b = (footstepsOf a).drop k) : Feet b := by
  have hl : b.length = a.length - k := by simpa [footstepsOf] using congrArg List.length h
  have hg : ∀ (i : Nat) (hi : i < b.length) (hi' : k + i < a.length), b[i].support.footsteps = a[k + i].support.footsteps := by
    intro i hi hi'
    have := congrArg (fun l => l[i]?) h
    simp only [footstepsOf, List.getElem?_drop, List.getElem?_map, List.getElem?_eq_getElem hi,
      List.getElem?_eq_getElem hi', Option.map_some, Option.some.injEq] at this
    exact this
  refine ⟨fun i hi => ?_, fun i hi f hf => ?_, fun i hi f hf => ?_, fun i hi => ?_⟩
  · rw [hg i hi (by omega)]
    exact hF.shape (k + i) (by omega)
  · rw [hg i hi (by omega)] at hf
    obtain ⟨h1, f', h2, h3⟩ := hF.lands (k + i) (by omega) f hf
    refine ⟨by omega, f', ?_, h3⟩
    rw [hg (i + 1) (by omega) (by omega)]
    exact h2
  · rw [hg (i + 1) hi (by omega)] at hf
    rw [hg i (by omega) (by omega)]
    exact hF.lifts (k + i) (by omega) f hf
  · rw [hg (i + 1) hi (by omega), hg i (by omega) (by omega)]
    exact hF.steady (k + i) (by omega)

/-- A planned trajectory is a motion. -/
theorem motion_of_planned (g : Wpg) (t0 : ℝ) (S : List Support) (init : ComState) (hd : ∀ s ∈ S, 0 < g.duration s)
    (parts : List Part) (te : ℝ) (h : g.planCom t0 S init = .ok (some (parts, te))) (hP : Planning g t0 te parts)
    (hstamp : ∀ (i : Nat) (hi : i < S.length), (∃ f, S[i].footsteps = [f]) →
      S[i].tStart = -1 ∨ (i = 0 ∧ S[i].tStart ≤ t0))
    (x : Side → V3) (a : Side → ℝ) (V0 : Side → V3) (d0 : Side → ℝ)
    (old : Option Traj) (tr : Traj) (htr : g.planFeet (g.blank t0 te parts) old = .ok tr)
    (hff : FeetFollow tr S t0 te)
    (hI : FeetInv g parts t0 (placeOf parts (fun f => f.frame.translation) x)
        (placeOf parts (fun f => frameYaw f.frame.linear) a) V0 d0 (g.blank t0 te parts) parts.length tr) :
    Motion g tr := by
  obtain ⟨-, hc, -⟩ := C86 g t0 S init hd parts te h
  obtain ⟨hlen, hsup⟩ := planCom_supports g t0 S init hd parts te h
  have hkeep : ∀ (i : Nat) (hi : i < parts.length), ∃ w, ∃ hi' : i < tr.parts.length, tr.parts[i] = { parts[i] with swing := w } := by
    intro i hi
    obtain ⟨w, hw, -⟩ := hI.keep i hi
    obtain ⟨h1, h2⟩ := List.getElem?_eq_some_iff.1 hw
    exact ⟨w, h1, h2⟩
  have hmem : ∀ p ∈ tr.parts, ∃ (i : Nat) (hi : i < parts.length) (w : CubicSwing ℝ), tr.parts[i]? = some p ∧ p = { parts[i] with swing := w } := by
    intro p hp
    obtain ⟨i, hi, rfl⟩ := List.getElem_of_mem hp
    obtain ⟨w, hi', e⟩ := hkeep i (by rw [← hI.len]; exact hi)
    exact ⟨i, by rw [← hI.len]; exact hi, w, List.getElem?_eq_getElem hi, e⟩
  have hT : tr.T = Affine.one := hI.T
  have hne : tr.parts ≠ [] := by
    intro e
    have := hI.len
    rw [e] at this
    have := hP.ne
    simp at *
    omega
  refine ⟨hT, hI.comTargetZ, hne, ⟨fun i hi => ?_, fun i hi => ?_⟩, hff.lasts, fun p hp => ?_, ?_, ?_, ?_, ?_, ?_, ?_, ?_, ?_⟩
  · obtain ⟨w, _, e⟩ := hkeep i (by rw [← hI.len]; exact hi)
    rw [e]
    exact hc.ordered i (by rw [← hI.len]; exact hi)
  · have := hI.len
    obtain ⟨w, _, e⟩ := hkeep i (by omega)
    obtain ⟨w', _, e'⟩ := hkeep (i + 1) (by omega)
    rw [e, e']
    exact hc.joined i (by omega)
  · rw [hff.first p hp, hff.tStart]
  · refine hP.feet.of_footsteps 0 ?_
    rw [List.drop_zero]
    apply List.ext_getElem
    · simp [footstepsOf, hI.len]
    · intro i h1 h2
      simp only [footstepsOf, List.getElem_map, List.length_map] at h1 h2 ⊢
      obtain ⟨w, _, e⟩ := hkeep i h2
      rw [e]
  · intro p hp d hd3 t
    obtain ⟨i, hi, w, -, rfl⟩ := hmem p hp
    exact planCom_reads g t0 S init hd parts te h i hi d hd3 t
  · intro p hp f hf t ha hb
    obtain ⟨i, hi, w, hp', rfl⟩ := hmem p hp
    obtain ⟨w', hw', hm⟩ := swing_motion hP.walk hP.swings _ tr hI hP.lasts hP.fresh i hi f hf
    rw [hp'] at hw'
    injection hw' with hw'
    injection hw' with _ _ _ _ hw'
    subst hw'
    exact ⟨⟨_, hm.value t ha hb⟩, _, hm.speed t ha hb⟩
  · intro σ
    rw [(hI.yaw σ).1 (by rintro ⟨h, -⟩; have := hP.ne; omega)]
    rfl
  · obtain ⟨p, -, h1, -⟩ := planFeet_trunk htr
    exact h1.dirty
  · intro p hp f hf t ha hb
    obtain ⟨i, hi, w, hp', e⟩ := hmem p hp
    have hs : S[i]? = some (S[i]'(by omega)) := List.getElem?_eq_getElem _
    have hf' : f ∈ (S[i]'(by omega)).footsteps := by
      rw [← (hsup i hi (by omega)).1]
      rw [e] at hf
      exact hf
    have hst := hff.stands i p _ hp' hs f hf' t ha hb
    have hdirty : (tr.footYaw f.side).dirty = true := by
      rw [(hI.yaw f.side).1 (by rintro ⟨h, -⟩; have := hP.ne; omega)]
      rfl
    obtain ⟨v, hv⟩ := dirty_reads (tr.footYaw f.side) hdirty t .value
    refine ⟨v, hv, ?_⟩
    unfold Traj.getTWorldFoot at hst
    cases h1 : findPart tr.parts t with
    | error e => rw [h1] at hst; cases hst
    | ok q =>
      simp only [h1, Bind.bind, Except.bind] at hst
      cases h2 : q.footPosition f.side t with
      | error e => rw [h2] at hst; cases hst
      | ok y =>
        simp only [h2, hv, hT, one_mul', buildFrame, Except.ok.injEq, Affine.mk.injEq] at hst
        exact hst.1
  · intro k hk f hf f' hf' hs
    have hl := hI.len
    obtain ⟨w, h1, e⟩ := hkeep k (by omega)
    obtain ⟨w', h1', e'⟩ := hkeep (k + 1) (by omega)
    rw [e] at hf ⊢
    rw [e'] at hf'
    obtain ⟨v, hv, -, -, hend, -⟩ := swing_ends hP.walk hP.swings _ tr hI hP.lasts hP.fresh k (by omega) f hf
    rw [List.getElem?_eq_getElem h1, e] at hv
    injection hv with hv
    injection hv with _ _ _ _ hv
    subst hv
    rw [← hs, (placeOf_first hP.feet (fun f : Footstep => f.frame.translation) x (by omega) hf').1] at hend
    exact hend
  · intro p hp f hf
    obtain ⟨i, hi, w, hp', e⟩ := hmem p hp
    have hf' : parts[i].support.footsteps = [f] := by rw [e] at hf; exact hf
    have hSf : (S[i]'(by omega)).footsteps = [f] := by rw [← (hsup i hi (by omega)).1]; exact hf'
    have hmono := (starts_mono hc 0 i (by omega) hi).1
    rw [hP.first hP.ne] at hmono
    have htime := planned_time g t0 S init hd parts te h i hi (by omega)
    have e1 : p.support = parts[i].support := by rw [e]
    have e2 : p.tStart = parts[i].tStart := by rw [e]
    have e3 : p.tEnd = parts[i].tEnd := by rw [e]
    rw [e1, e2, e3, hff.tStart]
    refine ⟨?_, hP.lasts i hi, ?_, hP.swings.virt i hi f hf'⟩
    · rw [htime]
      rcases hstamp i (by omega) ⟨f, hSf⟩ with h1 | ⟨rfl, h1⟩
      · rw [if_pos h1, max_eq_right hmono]
      · rw [hP.first hP.ne]
        split
        · exact max_self _
        · exact max_eq_left h1
    · rcases Nat.eq_zero_or_pos i with rfl | h0
      · exact hP.swings.elapsed hi
      · rw [hP.fresh i hi h0]; exact zero_lt_one

/-! ## Trimmed trajectories -/

theorem motion_of_trim (g : Wpg) (tr : Traj) (hM : Motion g tr) (u : ℝ) (k : Nat) (hk : k < tr.parts.length)
    (h0 : tr.parts[k].tStart ≤ u) (h1 : u < tr.parts[k].tEnd) : Motion g (g.trim tr u) := by
  obtain ⟨q, hq, hcut, hqs, hsame⟩ := trim_parts_exact g tr hM.cont u k hk h0 h1
  have hsub : ∀ p ∈ (g.trim tr u).parts, p = q ∨ (p ∈ tr.parts ∧ u < p.tStart) := by
    intro p hp
    rw [hq] at hp
    rcases List.mem_cons.1 hp with rfl | hp
    · exact Or.inl rfl
    · right
      refine ⟨List.mem_of_mem_drop hp, ?_⟩
      obtain ⟨i, hi, rfl⟩ := List.getElem_of_mem hp
      rw [List.length_drop] at hi
      rw [List.getElem_drop]
      have a := (starts_mono hM.cont (k + 1) (k + 1 + i) (by omega) (by omega)).1
      have b := hM.cont.joined k (by omega)
      linarith
  have hpk := List.getElem_mem hk
  have hel : q.support.elapsedRatio = tr.parts[k].support.elapsedRatio
      + (u - max tr.tStart tr.parts[k].support.tStart) / g.virtual tr.parts[k].support ∧
      q.support.timeRatio = tr.parts[k].support.timeRatio := by
    unfold Wpg.trimPart at hcut
    rw [if_pos h0, if_pos h1] at hcut
    simp only [List.cons.injEq, and_true] at hcut
    rw [← hcut]
    exact ⟨rfl, rfl⟩
  refine ⟨hM.T, hM.z, by rw [hq]; exact List.cons_ne_nil _ _, ?_, ?_, ?_, ?_, ?_, ?_, ?_, hM.trunk, ?_, ?_, ?_⟩
  · rw [hq]
    exact trim_contiguous tr.parts hM.cont k hk q hsame.tEnd (by rw [hqs, hsame.tEnd]; exact h1.le)
  · intro p hp
    rcases hsub p hp with rfl | ⟨h, -⟩
    · rw [hqs, hsame.tEnd]; exact h1
    · exact hM.lasts p h
  · intro p hp
    rw [hq] at hp
    cases hp
    exact hqs
  · refine hM.feet.of_footsteps k ?_
    rw [hq]
    simp only [footstepsOf, List.map_cons, hsame.footsteps]
    rw [← List.map_drop, ← List.cons_getElem_drop_succ (h := hk), List.map_cons]
  · intro p hp
    rcases hsub p hp with rfl | ⟨h, -⟩
    · rw [hsame.com]; exact hM.com _ hpk
    · exact hM.com p h
  · intro p hp
    rcases hsub p hp with rfl | ⟨h, -⟩
    · rw [hsame.swing, hsame.footsteps, hsame.tEnd, hqs]
      exact fun f hf t ha hb => hM.swing _ hpk f hf t (h0.trans ha) hb
    · exact hM.swing p h
  · intro σ
    cases σ
    · exact hM.yaw .left
    · exact hM.yaw .right
  · intro p hp f hf t ha hb
    have e : (g.trim tr u).footYaw f.side = tr.footYaw f.side := by cases f.side <;> rfl
    rw [e]
    rcases hsub p hp with rfl | ⟨h, -⟩
    · rw [hsame.footsteps] at hf
      rw [hsame.tEnd] at hb
      rw [hqs] at ha
      exact hM.heading _ hpk f hf t (h0.trans ha) hb
    · exact hM.heading p h f hf t ha hb
  · intro j hj f hf f' hf' hs
    have hg : ∀ (i : Nat) (h : i + 1 < (g.trim tr u).parts.length) (h' : k + (i + 1) < tr.parts.length),
        (g.trim tr u).parts[i + 1] = tr.parts[k + (i + 1)] := by
      intro i h h'
      simp only [hq, List.getElem_cons_succ, List.getElem_drop]
      congr 1
      omega
    have hl : (g.trim tr u).parts.length = tr.parts.length - k := by rw [hq, List.length_cons, List.length_drop]; omega
    rw [hg j hj (by omega)] at hf'
    cases j with
    | zero =>
      have h0' : (g.trim tr u).parts[0] = q := by simp only [hq, List.getElem_cons_zero]
      rw [h0'] at hf ⊢
      rw [hsame.footsteps] at hf
      rw [hsame.swing, hsame.tEnd]
      exact hM.lands k (by omega) f hf f' hf' hs
    | succ j =>
      rw [hg j (by omega) (by omega)] at hf ⊢
      exact hM.lands (k + (j + 1)) (by omega) f hf f' hf' hs
  · intro p hp f hf
    show max u p.support.tStart = p.tStart ∧ _
    rcases hsub p hp with rfl | ⟨h, hu⟩
    · have hf' := hf
      rw [hsame.footsteps] at hf'
      obtain ⟨t1, t2, t3, t4⟩ := hM.timing _ hpk f hf'
      have hb : p.support.isBoth = tr.parts[k].support.isBoth := by unfold Support.isBoth; rw [hsame.footsteps]
      have hsd : g.p.supportDuration p.support = g.p.supportDuration tr.parts[k].support := by
        unfold Params.supportDuration
        rw [hb, hsame.start, hsame.isEnd]
      have hv : g.virtual p.support = g.virtual tr.parts[k].support := by
        unfold Wpg.virtual
        rw [hsd, hel.2]
      have hdur : ∀ s : Support, g.duration s = (1 - s.elapsedRatio) * g.virtual s := by
        intro s; unfold Wpg.duration Wpg.virtual; ring
      have hle : p.support.tStart ≤ u := by
        rw [hsame.tStart]
        exact (le_max_right _ _).trans (t1.le.trans h0)
      rw [hdur] at t2
      have e : (1 - p.support.elapsedRatio) * g.virtual p.support = tr.parts[k].tEnd - u := by
        rw [hv, hel.1, t1]
        field_simp
        linarith
      refine ⟨by rw [max_eq_left hle, hqs], ?_, ?_, by rw [hv]; exact t4⟩
      · rw [hsame.tEnd, hqs, hdur, e]
      · have : 0 < (1 - p.support.elapsedRatio) * g.virtual p.support := by rw [e]; linarith
        rw [hv] at this
        have := (mul_pos_iff_of_pos_right t4).1 this
        linarith
    · obtain ⟨t1, t2⟩ := hM.timing p h f hf
      refine ⟨?_, t2⟩
      have ht : tr.tStart ≤ u := by
        have hs := hM.start (tr.parts[0]'(by omega)) (List.getElem?_eq_getElem _)
        rw [← hs]
        exact (starts_mono hM.cont 0 k (by omega) hk).1.trans h0
      rcases max_choice tr.tStart p.support.tStart with hm | hm
      · rw [hm] at t1
        linarith
      · rw [hm] at t1
        rw [t1, max_eq_right hu.le]

end Verif.Humanoid
