/-
Property C89 of `trim_old_trajectory`.
-/
import Verif.Humanoid.LookupProps

namespace Verif.Humanoid
open Verif.Problem Verif.Tools Verif.Robot

/-- What the queries read in a part, the start time of the part and the elapsed ratio of its support excepted. -/
structure SameMotion (p q : Part) : Prop where
  tEnd : p.tEnd = q.tEnd
  com : p.com = q.com
  swing : p.swing = q.swing
  footsteps : p.support.footsteps = q.support.footsteps
  start : p.support.start = q.support.start
  isEnd : p.support.isEnd = q.support.isEnd
  tStart : p.support.tStart = q.support.tStart

/-- The parts left by a trimming inside the trajectory: the part that contains the time, cut, then the next ones. -/
theorem trim_parts_exact (g : Wpg) (old : Traj) (hc : Contiguous old.parts) (u : ℝ) (k : Nat) (hk : k < old.parts.length)
    (h0 : old.parts[k].tStart ≤ u) (h1 : u < old.parts[k].tEnd) :
    ∃ q, (g.trim old u).parts = q :: old.parts.drop (k + 1) ∧ g.trimPart old u old.parts[k] = [q] ∧ q.tStart = u ∧
      SameMotion q old.parts[k] := by
  have hsplit : old.parts = old.parts.take k ++ old.parts[k] :: old.parts.drop (k + 1) := by
    rw [List.cons_getElem_drop_succ, List.take_append_drop]
  have hbefore : ((old.parts.take k).map (g.trimPart old u)).flatten = [] := by
    rw [List.flatten_eq_nil_iff]
    intro l hl
    obtain ⟨p, hp, rfl⟩ := List.mem_map.1 hl
    obtain ⟨i, hi, rfl⟩ := List.getElem_of_mem hp
    rw [List.length_take] at hi
    rw [List.getElem_take]
    have hmono := starts_mono hc (i + 1) k (by omega) hk
    have hj := hc.joined i (by omega)
    have ho := hc.ordered i (by omega)
    unfold Wpg.trimPart
    rw [if_pos (by linarith), if_neg (by linarith)]
  have hafter : ((old.parts.drop (k + 1)).map (g.trimPart old u)).flatten = old.parts.drop (k + 1) := by
    have : ∀ p ∈ old.parts.drop (k + 1), g.trimPart old u p = [p] := by
      intro p hp
      obtain ⟨i, hi, rfl⟩ := List.getElem_of_mem hp
      rw [List.length_drop] at hi
      rw [List.getElem_drop]
      have hmono := starts_mono hc (k + 1) (k + 1 + i) (by omega) (by omega)
      have hj := hc.joined k (by omega)
      unfold Wpg.trimPart
      rw [if_neg (by linarith)]
    rw [List.map_congr_left this]
    generalize old.parts.drop (k + 1) = l
    induction l with
    | nil => rfl
    | cons a l ih => rw [List.map_cons, List.flatten_cons, ih]; rfl
  have hmid : ∃ q, g.trimPart old u old.parts[k] = [q] ∧ q.tStart = u ∧ SameMotion q old.parts[k] := by
    unfold Wpg.trimPart
    rw [if_pos h0, if_pos h1]
    exact ⟨_, rfl, rfl, rfl, rfl, rfl, rfl, rfl, rfl, rfl⟩
  obtain ⟨q, hq, h2, h3⟩ := hmid
  refine ⟨q, ?_, hq, h2, h3⟩
  show (old.parts.map (g.trimPart old u)).flatten = _
  conv_lhs => rw [hsplit]
  rw [List.map_append, List.flatten_append, hbefore, List.map_cons, List.flatten_cons, hq, hafter]
  rfl

theorem trim_parts (g : Wpg) (old : Traj) (hc : Contiguous old.parts) (u : ℝ) (k : Nat) (hk : k < old.parts.length)
    (h0 : old.parts[k].tStart ≤ u) (h1 : u < old.parts[k].tEnd) :
    ∃ q, (g.trim old u).parts = q :: old.parts.drop (k + 1) ∧ q.tStart = u ∧ SameMotion q old.parts[k] := by
  obtain ⟨q, h2, -, h3⟩ := trim_parts_exact g old hc u k hk h0 h1
  exact ⟨q, h2, h3⟩

theorem trim_contiguous (parts : List Part) (hc : Contiguous parts) (k : Nat) (hk : k < parts.length) (q : Part)
    (hq : q.tEnd = parts[k].tEnd) (hs : q.tStart ≤ q.tEnd) : Contiguous (q :: parts.drop (k + 1)) := by
  constructor
  · intro i hi
    cases i with
    | zero => exact hs
    | succ i =>
      simp only [List.getElem_cons_succ, List.getElem_drop]
      exact hc.ordered _ _
  · intro i hi
    simp only [List.length_cons, List.length_drop] at hi
    cases i with
    | zero =>
      simp only [List.getElem_cons_zero, List.getElem_cons_succ, List.getElem_drop, Nat.add_zero]
      rw [hq]
      exact hc.joined k (by omega)
    | succ i =>
      simp only [List.getElem_cons_succ, List.getElem_drop]
      exact hc.joined (k + 1 + i) (by omega)

/-- The part that contains a time of the trajectory, its end excluded. -/
theorem part_at (parts : List Part) (hc : Contiguous parts) (hne : parts ≠ []) (u : ℝ)
    (h0 : (parts.head hne).tStart ≤ u) (h1 : u < (parts.getLast hne).tEnd) :
    ∃ (k : Nat) (hk : k < parts.length), parts[k].tStart ≤ u ∧ u < parts[k].tEnd := by
  have hlen : 0 < parts.length := List.length_pos_iff.2 hne
  rw [List.head_eq_getElem] at h0
  rw [List.getLast_eq_getElem] at h1
  -- the first part that ends after `u`
  have hex : ∃ k, ∃ hk : k < parts.length, u < parts[k].tEnd := ⟨parts.length - 1, by omega, h1⟩
  classical
  obtain ⟨hk, hend⟩ := Nat.find_spec hex
  refine ⟨Nat.find hex, hk, ?_, hend⟩
  rcases Nat.eq_zero_or_pos (Nat.find hex) with hz | hpos
  · simp only [hz]; exact h0
  · have hmin := Nat.find_min hex (m := Nat.find hex - 1) (by omega)
    have hj := hc.joined (Nat.find hex - 1) (by omega)
    have e : parts[Nat.find hex - 1 + 1].tStart = parts[Nat.find hex].tStart := by congr 2; omega
    rw [e] at hj
    rw [← hj]
    by_contra hlt
    exact hmin ⟨by omega, not_le.1 hlt⟩

/-- Away from the boundaries of the parts, the trimmed trajectory finds the part found by the old one. -/
theorem trim_findPart (g : Wpg) (old : Traj) (hc : Contiguous old.parts) (hne : old.parts ≠ []) (u t : ℝ)
    (h0 : (old.parts.head hne).tStart ≤ u) (h1 : u < (old.parts.getLast hne).tEnd) (ht : u ≤ t)
    (hb : ∀ p ∈ old.parts, t ≠ p.tStart ∧ t ≠ p.tEnd) :
    ∃ p q, findPart old.parts t = .ok p ∧ findPart (g.trim old u).parts t = .ok q ∧ SameMotion q p := by
  obtain ⟨k, hk, hku, huk⟩ := part_at old.parts hc hne u h0 h1
  obtain ⟨q, hq, hqs, hsame⟩ := trim_parts g old hc u k hk hku huk
  have hqc : Contiguous (q :: old.parts.drop (k + 1)) :=
    trim_contiguous old.parts hc k hk q hsame.tEnd (by rw [hqs, hsame.tEnd]; exact huk.le)
  have hlen : (q :: old.parts.drop (k + 1)).length = old.parts.length - k := by
    rw [List.length_cons, List.length_drop]; omega
  have hlast : (old.parts.getLast hne).tEnd = (old.parts[old.parts.length - 1]'(by omega)).tEnd := by
    rw [List.getLast_eq_getElem]
  have elem : ∀ (i : Nat) (hi : k + i < old.parts.length), SameMotion ((q :: old.parts.drop (k + 1))[i]'(by rw [hlen]; omega)) old.parts[k + i] ∧
      (0 < i → (q :: old.parts.drop (k + 1))[i]'(by rw [hlen]; omega) = old.parts[k + i]) := by
    intro i hi
    cases i with
    | zero => exact ⟨hsame, fun h => absurd h (by omega)⟩
    | succ i =>
      have e : (q :: old.parts.drop (k + 1))[i + 1]'(by rw [hlen]; omega) = old.parts[k + (i + 1)] := by
        simp only [List.getElem_cons_succ, List.getElem_drop]
        congr 1
        omega
      exact ⟨by rw [e]; exact ⟨rfl, rfl, rfl, rfl, rfl, rfl, rfl⟩, fun _ => e⟩
  rw [hq]
  rcases lt_or_ge (old.parts.getLast hne).tEnd t with hafter | hin
  · -- after the end
    have e1 := findIndex_after old.parts hc t (by omega) (by rw [← hlast]; exact hafter)
    obtain ⟨hs, -⟩ := elem (old.parts.length - 1 - k) (by omega)
    have hidx : k + (old.parts.length - 1 - k) = old.parts.length - 1 := by omega
    have e2 := findIndex_after (q :: old.parts.drop (k + 1)) hqc t (by rw [hlen]; omega) (by
      have : (q :: old.parts.drop (k + 1)).length - 1 = old.parts.length - 1 - k := by rw [hlen]; omega
      simp only [this]
      rw [hs.tEnd]
      simp only [hidx]
      rw [← hlast]; exact hafter)
    refine ⟨_, _, findPart_of_index e1 (by omega), findPart_of_index e2 (by rw [hlen]; omega), ?_⟩
    have : (q :: old.parts.drop (k + 1)).length - 1 = old.parts.length - 1 - k := by rw [hlen]; omega
    simp only [this]
    simp only [hidx] at hs
    exact hs
  · -- inside
    obtain ⟨m, hm, hm0, hm1⟩ := part_at old.parts hc hne t (h0.trans ht)
      (lt_of_le_of_ne hin (hb _ (List.getLast_mem hne)).2)
    have hm0' : old.parts[m].tStart < t := lt_of_le_of_ne hm0 (hb _ (List.getElem_mem hm)).1.symm
    have hkm : k ≤ m := by
      by_contra hlt
      have a := (starts_mono hc (m + 1) k (by omega) hk).1
      have b := hc.joined m (by omega)
      linarith
    have e1 := findIndex_inside old.parts hc t m hm hm0' hm1
    obtain ⟨hs, heq⟩ := elem (m - k) (by omega)
    have hidx : k + (m - k) = m := by omega
    have e2 : ∃ q', findPart (q :: old.parts.drop (k + 1)) t = .ok q' ∧
        q' = (q :: old.parts.drop (k + 1))[m - k]'(by rw [hlen]; omega) := by
      rcases Nat.eq_zero_or_pos (m - k) with hz | hpos
      · -- the cut part, possibly at its very start
        have hmk : m = k := by omega
        subst hmk
        obtain ⟨i, hi, hlt⟩ := findIndex_total (q :: old.parts.drop (m + 1)) t (List.cons_ne_nil _ _)
        obtain ⟨p, -, hp, hpin, -⟩ := (C81 (q :: old.parts.drop (m + 1)) t).2 (List.cons_ne_nil _ _) hqc
        rw [findPart_of_index hi hlt] at hp
        cases hp
        have hend : t ≤ ((q :: old.parts.drop (m + 1)).getLast (List.cons_ne_nil _ _)).tEnd := by
          rw [List.getLast_eq_getElem]
          have hx := (starts_mono hqc 0 ((q :: old.parts.drop (m + 1)).length - 1) (by omega) (by rw [hlen]; omega)).2
          simp only [List.getElem_cons_zero] at hx
          rw [hsame.tEnd] at hx
          linarith
        have hpin' := hpin (by simp only [List.head_cons]; rw [hqs]; exact ht) hend
        have hi0 : i = 0 := by
          by_contra hne0
          have a := (starts_mono hqc 1 i (by omega) hlt).1
          have b := hqc.joined 0 (by omega)
          simp only [List.getElem_cons_zero] at b
          rw [hsame.tEnd] at b
          simp only [Nat.zero_add] at b
          linarith [hpin'.1]
        subst hi0
        exact ⟨_, findPart_of_index hi hlt, by simp⟩
      · have e := heq hpos
        have hlt : m - k < (q :: old.parts.drop (k + 1)).length := by rw [hlen]; omega
        have := findIndex_inside (q :: old.parts.drop (k + 1)) hqc t (m - k) hlt
          (by rw [e]; simp only [hidx]; exact hm0') (by rw [e]; simp only [hidx]; exact hm1)
        exact ⟨_, findPart_of_index this hlt, rfl⟩
    obtain ⟨q', hq', rfl⟩ := e2
    refine ⟨_, _, findPart_of_index e1 hm, hq', ?_⟩
    simp only [hidx] at hs
    exact hs

/-- What holds of C89: for a replanning time inside the trajectory, every query about the motion at a time from the
replanning time on, which is not a boundary between two parts, is answered as before; the trimmed trajectory starts at
the replanning time. What is missing: replanning at the end of the trajectory or later (`C89_refuted`), and the
boundaries, where the lookup may pick the other of the two parts that contain the time (`C89_com` for the CoM). -/
theorem C89_partial (g : Wpg) (old : Traj) (hc : Contiguous old.parts) (hne : old.parts ≠ []) (u t : ℝ)
    (h0 : (old.parts.head hne).tStart ≤ u) (h1 : u < (old.parts.getLast hne).tEnd) (ht : u ≤ t)
    (hb : ∀ p ∈ old.parts, t ≠ p.tStart ∧ t ≠ p.tEnd) :
    (g.trim old u).tStart = u ∧
    (∃ hne' : (g.trim old u).parts ≠ [], ((g.trim old u).parts.head hne').tStart = u) ∧
    (g.trim old u).getPWorldCoM t = old.getPWorldCoM t ∧
    (∀ d, (g.trim old u).getDWorldCoM d t = old.getDWorldCoM d t) ∧
    (∀ side, (g.trim old u).getTWorldFoot side t = old.getTWorldFoot side t ∧
      (g.trim old u).getVWorldFoot side t = old.getVWorldFoot side t ∧
      (g.trim old u).isFlying side t = old.isFlying side t ∧
      (g.trim old u).getYawWorldFoot side t = old.getYawWorldFoot side t) ∧
    (g.trim old u).getYawWorldTrunk t = old.getYawWorldTrunk t ∧
    (g.trim old u).getPartTEnd t = old.getPartTEnd t ∧
    (∃ s s', old.getSupport t = .ok s ∧ (g.trim old u).getSupport t = .ok s' ∧ s'.footsteps = s.footsteps ∧
      s'.start = s.start ∧ s'.isEnd = s.isEnd ∧ s'.tStart = s.tStart) := by
  obtain ⟨p, q, hp, hq, hs⟩ := trim_findPart g old hc hne u t h0 h1 ht hb
  obtain ⟨k, hk, hku, huk⟩ := part_at old.parts hc hne u h0 h1
  obtain ⟨c, hcut, hcs, -⟩ := trim_parts g old hc u k hk hku huk
  have hfly : ∀ side, q.isFlying side = p.isFlying side := by
    intro side
    unfold Part.isFlying Support.isBoth Support.side
    rw [hs.footsteps]
  have hfoot : ∀ side, q.footPosition side t = p.footPosition side t := by
    intro side
    unfold Part.footPosition Support.footstepFrame
    rw [hfly, hs.swing, hs.footsteps]
  refine ⟨rfl, ⟨by rw [hcut]; exact List.cons_ne_nil _ _, by simp only [hcut, List.head_cons]; exact hcs⟩,
    ?_, ?_, ?_, rfl, ?_, ?_⟩
  · unfold Traj.getPWorldCoM
    rw [hp, hq]
    show (do let v ← q.com.pos t; _) = (do let v ← p.com.pos t; _)
    rw [hs.com]
    rfl
  · intro d
    unfold Traj.getDWorldCoM
    rw [hp, hq]
    show (do let v ← q.com.component t d; _) = (do let v ← p.com.component t d; _)
    rw [hs.com]
    rfl
  · intro side
    refine ⟨?_, ?_, ?_, rfl⟩
    · unfold Traj.getTWorldFoot
      rw [hp, hq]
      show (do let v ← q.footPosition side t; _) = (do let v ← p.footPosition side t; _)
      rw [hfoot]
      rfl
    · unfold Traj.getVWorldFoot
      rw [hp, hq]
      show (do let s ← q.support.side; _) = (do let s ← p.support.side; _)
      have : q.support.side = p.support.side := by unfold Support.side; rw [hs.footsteps]
      rw [this, hs.swing]
      rfl
    · unfold Traj.isFlying
      rw [hp, hq]
      exact hfly side
  · unfold Traj.getPartTEnd
    rw [hp, hq]
    show Except.ok q.tEnd = Except.ok p.tEnd
    rw [hs.tEnd]
  · refine ⟨p.support.moved old.T, q.support.moved old.T, ?_, ?_, ?_, hs.start, hs.isEnd, hs.tStart⟩
    · unfold Traj.getSupport; rw [hp]; rfl
    · unfold Traj.getSupport; rw [hq]; rfl
    · unfold Support.moved; rw [hs.footsteps]

/-- The CoM trajectories of consecutive parts agree where they meet, up to the acceleration (C86). -/
def ComJoined (parts : List Part) : Prop :=
  ∀ (i : Nat) (h : i + 1 < parts.length) (d : Nat), d < 3 →
    parts[i].com.component parts[i].tEnd d = parts[i + 1].com.component parts[i].tEnd d

/-- Two parts that contain the same time give the same CoM there. -/
theorem com_agree (parts : List Part) (hc : Contiguous parts) (hj : ComJoined parts) (t : ℝ) (d : Nat) (hd : d < 3)
    (i j : Nat) (hij : i ≤ j) (hjl : j < parts.length) (h0 : parts[j].tStart ≤ t) (h1 : t ≤ parts[i].tEnd) :
    parts[i].com.component t d = parts[j].com.component t d := by
  induction j, hij using Nat.le_induction with
  | base => rfl
  | succ j hij ih =>
    have hjj := hc.joined j hjl
    have ho := hc.ordered j (by omega)
    have hm := (starts_mono hc i j hij (by omega)).2
    have ht : parts[j].tEnd = t := by linarith
    rw [ih (by omega) (by linarith) h1, ← ht]
    exact hj j hjl d hd

/-- C89 for the CoM, boundaries included: position, velocity and acceleration of the CoM at every time from the
replanning time to the end of the trajectory, when the parts are joined. -/
theorem C89_com (g : Wpg) (old : Traj) (hc : Contiguous old.parts) (hj : ComJoined old.parts) (hne : old.parts ≠ [])
    (u t : ℝ) (h0 : (old.parts.head hne).tStart ≤ u) (h1 : u < (old.parts.getLast hne).tEnd) (ht : u ≤ t)
    (hte : t ≤ (old.parts.getLast hne).tEnd) :
    (g.trim old u).getPWorldCoM t = old.getPWorldCoM t ∧
    (g.trim old u).getDWorldCoM 1 t = old.getDWorldCoM 1 t ∧ (g.trim old u).getDWorldCoM 2 t = old.getDWorldCoM 2 t := by
  obtain ⟨k, hk, hku, huk⟩ := part_at old.parts hc hne u h0 h1
  obtain ⟨c, hcut, hcs, hsame⟩ := trim_parts g old hc u k hk hku huk
  have hqc : Contiguous (c :: old.parts.drop (k + 1)) :=
    trim_contiguous old.parts hc k hk c hsame.tEnd (by rw [hcs, hsame.tEnd]; exact huk.le)
  -- the old lookup
  obtain ⟨i, hi, hil⟩ := findIndex_total old.parts t hne
  obtain ⟨p, -, hp, hin, -⟩ := (C81 old.parts t).2 hne hc
  have hp' := findPart_of_index hi hil
  rw [hp'] at hp
  cases hp
  have hin' := hin (h0.trans ht) hte
  -- the new lookup
  have hlen : (c :: old.parts.drop (k + 1)).length = old.parts.length - k := by
    rw [List.length_cons, List.length_drop]; omega
  obtain ⟨m, hm, hml⟩ := findIndex_total (c :: old.parts.drop (k + 1)) t (List.cons_ne_nil _ _)
  obtain ⟨q, -, hq, hqin, -⟩ := (C81 (c :: old.parts.drop (k + 1)) t).2 (List.cons_ne_nil _ _) hqc
  have hq' := findPart_of_index hm hml
  rw [hq'] at hq
  cases hq
  have hkm : k + m < old.parts.length := by omega
  have helem : (c :: old.parts.drop (k + 1))[m].com = old.parts[k + m].com ∧
      (c :: old.parts.drop (k + 1))[m].tEnd = old.parts[k + m].tEnd ∧
      old.parts[k + m].tStart ≤ (c :: old.parts.drop (k + 1))[m].tStart := by
    cases m with
    | zero => exact ⟨hsame.com, hsame.tEnd, by simp only [List.getElem_cons_zero, Nat.add_zero]; rw [hcs]; exact hku⟩
    | succ m =>
      have e : (c :: old.parts.drop (k + 1))[m + 1]'hml = old.parts[k + (m + 1)] := by
        simp only [List.getElem_cons_succ, List.getElem_drop]
        congr 1
        omega
      rw [e]
      exact ⟨rfl, rfl, le_refl _⟩
  have hend : ((c :: old.parts.drop (k + 1)).getLast (List.cons_ne_nil _ _)).tEnd = (old.parts.getLast hne).tEnd := by
    rw [List.getLast_eq_getElem, List.getLast_eq_getElem]
    have hl1 : (c :: old.parts.drop (k + 1)).length - 1 = old.parts.length - k - 1 := by rw [hlen]
    simp only [hl1]
    rcases Nat.eq_zero_or_pos (old.parts.length - k - 1) with hz | hpos
    · simp only [hz, List.getElem_cons_zero]
      rw [hsame.tEnd]
      congr 2
      omega
    · obtain ⟨r, hr⟩ : ∃ r, old.parts.length - k - 1 = r + 1 := ⟨old.parts.length - k - 2, by omega⟩
      simp only [hr, List.getElem_cons_succ, List.getElem_drop]
      congr 2
      omega
  have hqin' := hqin (by simp only [List.head_cons]; rw [hcs]; exact ht) (by rw [hend]; exact hte)
  have agree : ∀ d : Nat, d < 3 →
      (c :: old.parts.drop (k + 1))[m].com.component t d = old.parts[i].com.component t d := by
    intro d hd
    rw [helem.1]
    rcases Nat.le_total i (k + m) with h | h
    · exact (com_agree old.parts hc hj t d hd i (k + m) h hkm (helem.2.2.trans hqin'.1) hin'.2).symm
    · exact com_agree old.parts hc hj t d hd (k + m) i h hil hin'.1 (by rw [← helem.2.1]; exact hqin'.2)
  refine ⟨?_, ?_, ?_⟩
  · unfold Traj.getPWorldCoM
    rw [hcut, hq', hp']
    show (do let v ← LTraj.component _ t 0; _) = (do let v ← LTraj.component _ t 0; _)
    have := agree 0 (by omega)
    simp only [Nat.cast_ofNat, Nat.cast_zero] at this
    rw [this]
    rfl
  · unfold Traj.getDWorldCoM
    rw [hcut, hq', hp']
    show (do let v ← LTraj.component _ t 1; _) = (do let v ← LTraj.component _ t 1; _)
    have := agree 1 (by omega)
    simp only [Nat.cast_one] at this
    rw [this]
    rfl
  · unfold Traj.getDWorldCoM
    rw [hcut, hq', hp']
    show (do let v ← LTraj.component _ t 2; _) = (do let v ← LTraj.component _ t 2; _)
    have := agree 2 (by omega)
    simp only [Nat.cast_ofNat] at this
    rw [this]
    rfl

/-- C89 fails when replanning at or after the end of the trajectory: the trimmed trajectory has no part left, so every
lookup raises, although the old trajectory answers at the same times. -/
theorem C89_refuted (g : Wpg) (old : Traj) (hc : Contiguous old.parts) (hne : old.parts ≠ []) (u t : ℝ)
    (h : (old.parts.getLast hne).tEnd ≤ u) :
    (g.trim old u).getSupport t = .error .runtimeError ∧ (g.trim old u).getPWorldCoM t = .error .runtimeError ∧
      ∃ s, old.getSupport t = .ok s := by
  have hlen : 0 < old.parts.length := List.length_pos_iff.2 hne
  have hnil : (g.trim old u).parts = [] := by
    show (old.parts.map (g.trimPart old u)).flatten = []
    rw [List.flatten_eq_nil_iff]
    intro l hl
    obtain ⟨p, hp, rfl⟩ := List.mem_map.1 hl
    obtain ⟨i, hi, rfl⟩ := List.getElem_of_mem hp
    rw [List.getLast_eq_getElem] at h
    have hm := (starts_mono hc i (old.parts.length - 1) (by omega) (by omega)).2
    have ho := hc.ordered i hi
    unfold Wpg.trimPart
    rw [if_pos (by linarith), if_neg (by linarith)]
  have hf : findPart (g.trim old u).parts t = .error .runtimeError := by rw [hnil]; rfl
  obtain ⟨p, -, hp⟩ := findPart_total old.parts t hne
  refine ⟨?_, ?_, p.support.moved old.T, ?_⟩
  · unfold Traj.getSupport; rw [hf]; rfl
  · unfold Traj.getPWorldCoM; rw [hf]; rfl
  · unfold Traj.getSupport; rw [hp]; rfl

/-! ## Concrete trajectories -/

/-- A trajectory made of a double support, a single support and a double support, of one second each. -/
noncomputable def demoPart (a b : ℝ) (fs : List Footstep) : Part :=
  ⟨a, b, { footsteps := fs }, ⟨⟨[], 3, 1, 0, jerkAB, []⟩, ⟨[], 3, 1, 0, jerkAB, []⟩⟩, emptySwing⟩

noncomputable def demoTraj : Traj :=
  let l : Footstep := { width := 1, length := 1, side := .left, frame := Affine.one }
  let r : Footstep := { width := 1, length := 1, side := .right, frame := Affine.one }
  { tStart := 0, tEnd := 3, parts := [demoPart 0 1 [l, r], demoPart 1 2 [l], demoPart 2 3 [l, r]]
    comTargetZ := 1, trunkPitch := 0, trunkRoll := 0 }

theorem demo_contiguous : Contiguous demoTraj.parts := by
  constructor
  · intro i h
    have : i < 3 := h
    interval_cases i <;> simp [demoTraj, demoPart] <;> norm_num
  · intro i h
    have : i + 1 < 3 := h
    have : i < 2 := by omega
    interval_cases i <;> simp [demoTraj, demoPart]

/-- The hypotheses of C81 are met, and its three cases occur. -/
example : ∃ p, findPart demoTraj.parts (3 / 2) = .ok p ∧ p.tStart ≤ 3 / 2 ∧ 3 / 2 ≤ p.tEnd := by
  obtain ⟨p, -, h, hin, -⟩ := (C81 demoTraj.parts (3 / 2)).2 (by simp [demoTraj]) demo_contiguous
  exact ⟨p, h, hin (by simp [demoTraj, demoPart]; norm_num) (by simp only [demoTraj, demoPart, List.getLast_cons_cons, List.getLast_singleton]; norm_num)⟩

example : ∃ p, findPart demoTraj.parts (-1) = .ok p ∧ p.tStart = 0 := by
  obtain ⟨p, -, h, -, hb, -⟩ := (C81 demoTraj.parts (-1)).2 (by simp [demoTraj]) demo_contiguous
  exact ⟨p, h, by rw [hb (by simp [demoTraj, demoPart])]; simp [demoTraj, demoPart]⟩

example : ∃ p, findPart demoTraj.parts 7 = .ok p ∧ p.tEnd = 3 := by
  obtain ⟨p, -, h, -, -, hb⟩ := (C81 demoTraj.parts 7).2 (by simp [demoTraj]) demo_contiguous
  exact ⟨p, h, by rw [hb (by simp [demoTraj, demoPart]; norm_num)]; simp [demoTraj, demoPart]⟩

/-- The hypotheses of `C82_refuted` are met. -/
theorem C82_witness : ∃ (tr : Traj) (t a b : ℝ), tr.getPartTStart t = .ok a ∧
    (tr.getPrevSupport t 1).1.getPartTStart t = .ok b ∧ a ≠ b := by
  refine ⟨demoTraj, 3 / 2, C82_refuted demoTraj demo_contiguous 0 (by simp [demoTraj]) (3 / 2) ?_ ?_ ?_⟩
  · intro i h
    have : i < 3 := h
    interval_cases i <;> simp [demoTraj, demoPart] <;> norm_num
  · simp [demoTraj, demoPart]; norm_num
  · simp [demoTraj, demoPart]; norm_num

example : (demoTraj.getPrevSupport (1 / 2) 3).1 = demoTraj :=
  (C82_partial demoTraj (1 / 2)).2 (by simp [demoTraj]) demo_contiguous (by simp [demoTraj, demoPart]; norm_num) 3

/-- The hypotheses of `C89_partial` and `C89_refuted` are met. -/
example (g : Wpg) : ∃ s s', demoTraj.getSupport (3 / 2) = .ok s ∧ (g.trim demoTraj (4 / 3)).getSupport (3 / 2) = .ok s' ∧
    s'.footsteps = s.footsteps := by
  obtain ⟨-, -, -, -, -, -, -, s, s', h1, h2, h3, -⟩ := C89_partial g demoTraj demo_contiguous (by simp [demoTraj])
    (4 / 3) (3 / 2) (by simp [demoTraj, demoPart]; norm_num) (by simp [demoTraj, demoPart]; norm_num) (by norm_num)
    (by intro p hp; simp [demoTraj] at hp; rcases hp with rfl | rfl | rfl <;> simp [demoPart] <;> norm_num)
  exact ⟨s, s', h1, h2, h3⟩

example (g : Wpg) : (g.trim demoTraj 3).getSupport 3 = .error .runtimeError :=
  (C89_refuted g demoTraj demo_contiguous (by simp [demoTraj]) 3 3 (by simp [demoTraj, demoPart])).1

end Verif.Humanoid
