/-
Property C89 at the boundaries of the parts: the feet and the CoM of a trimmed plan, at every time.
-/
import Verif.Humanoid.TrimProps
import Verif.Humanoid.FeetPlanProps

namespace Verif.Humanoid
open Verif.Problem Verif.Tools Verif.Robot

/-- The feet of consecutive parts are at the same place where they meet. -/
def FeetJoined (parts : List Part) : Prop :=
  ∀ (i : Nat) (h : i + 1 < parts.length) (σ : Side),
    parts[i].footPosition σ parts[i].tEnd = parts[i + 1].footPosition σ parts[i].tEnd

/-- A query of a part that gives the same answer where parts meet gives the same answer in all the parts that contain a time. -/
theorem query_agree {α : Type} (Q : Part → ℝ → α) (parts : List Part) (hc : Contiguous parts)
    (hj : ∀ (i : Nat) (h : i + 1 < parts.length), Q parts[i] parts[i].tEnd = Q parts[i + 1] parts[i].tEnd) (t : ℝ)
    (i j : Nat) (hij : i ≤ j) (hjl : j < parts.length) (h0 : parts[j].tStart ≤ t) (h1 : t ≤ parts[i].tEnd) :
    Q parts[i] t = Q parts[j] t := by
  induction j, hij using Nat.le_induction with
  | base => rfl
  | succ j hij ih =>
    have hjj := hc.joined j hjl
    have ho := hc.ordered j (by omega)
    have hm := (starts_mono hc i j hij (by omega)).2
    have ht : parts[j].tEnd = t := by linarith
    rw [ih (by omega) (by linarith) h1, ← ht]
    exact hj j hjl

/-- Such a query is answered by the trimmed trajectory as by the old one, at every time from the trimming on. -/
theorem trim_query {α : Type} (Q : Part → ℝ → α) (hQ : ∀ p q, SameMotion p q → ∀ t, Q p t = Q q t) (g : Wpg) (old : Traj)
    (hc : Contiguous old.parts)
    (hj : ∀ (i : Nat) (h : i + 1 < old.parts.length), Q old.parts[i] old.parts[i].tEnd = Q old.parts[i + 1] old.parts[i].tEnd)
    (hne : old.parts ≠ []) (u t : ℝ) (h0 : (old.parts.head hne).tStart ≤ u) (h1 : u < (old.parts.getLast hne).tEnd) (ht : u ≤ t) :
    ∃ p q, findPart old.parts t = .ok p ∧ findPart (g.trim old u).parts t = .ok q ∧ Q q t = Q p t := by
  by_cases hb : ∀ p ∈ old.parts, t ≠ p.tStart ∧ t ≠ p.tEnd
  · obtain ⟨p, q, hp, hq, hs⟩ := trim_findPart g old hc hne u t h0 h1 ht hb
    exact ⟨p, q, hp, hq, hQ q p hs t⟩
  have hte : t ≤ (old.parts.getLast hne).tEnd := by
    by_contra hlt
    refine hb fun p hp => ?_
    obtain ⟨i, hi, rfl⟩ := List.getElem_of_mem hp
    have hm := (starts_mono hc i (old.parts.length - 1) (by omega) (by omega)).2
    have ho := hc.ordered i hi
    rw [List.getLast_eq_getElem] at hlt
    constructor <;> intro e <;> subst e <;> exact hlt (by linarith)
  obtain ⟨k, hk, hku, huk⟩ := part_at old.parts hc hne u h0 h1
  obtain ⟨c, hcut, hcs, hsame⟩ := trim_parts g old hc u k hk hku huk
  have hqc : Contiguous (c :: old.parts.drop (k + 1)) :=
    trim_contiguous old.parts hc k hk c hsame.tEnd (by rw [hcs, hsame.tEnd]; exact huk.le)
  obtain ⟨i, hi, hil⟩ := findIndex_total old.parts t hne
  obtain ⟨p, -, hp, hin, -⟩ := (C81 old.parts t).2 hne hc
  have hp' := findPart_of_index hi hil
  rw [hp'] at hp
  cases hp
  have hin' := hin (h0.trans ht) hte
  have hlen : (c :: old.parts.drop (k + 1)).length = old.parts.length - k := by
    rw [List.length_cons, List.length_drop]; omega
  obtain ⟨m, hm, hml⟩ := findIndex_total (c :: old.parts.drop (k + 1)) t (List.cons_ne_nil _ _)
  obtain ⟨q, -, hq, hqin, -⟩ := (C81 (c :: old.parts.drop (k + 1)) t).2 (List.cons_ne_nil _ _) hqc
  have hq' := findPart_of_index hm hml
  rw [hq'] at hq
  cases hq
  have hkm : k + m < old.parts.length := by omega
  have helem : SameMotion (c :: old.parts.drop (k + 1))[m] old.parts[k + m] ∧
      old.parts[k + m].tStart ≤ (c :: old.parts.drop (k + 1))[m].tStart := by
    cases m with
    | zero => exact ⟨hsame, by simp only [List.getElem_cons_zero, Nat.add_zero]; rw [hcs]; exact hku⟩
    | succ m =>
      have e : (c :: old.parts.drop (k + 1))[m + 1]'hml = old.parts[k + (m + 1)] := by
        simp only [List.getElem_cons_succ, List.getElem_drop]
        congr 1
        omega
      rw [e]
      exact ⟨⟨rfl, rfl, rfl, rfl, rfl, rfl, rfl⟩, le_refl _⟩
  have hend : ((c :: old.parts.drop (k + 1)).getLast (List.cons_ne_nil _ _)).tEnd = (old.parts.getLast hne).tEnd := by
    rw [List.getLast_eq_getElem, List.getLast_eq_getElem]
    have hl1 : (c :: old.parts.drop (k + 1)).length - 1 = old.parts.length - k - 1 := by rw [hlen]
    simp only [hl1]
    rcases Nat.eq_zero_or_pos (old.parts.length - k - 1) with hz | hpos
    · simp only [hz, List.getElem_cons_zero]
      rw [hsame.tEnd]
      congr 2
      omega
    · obtain ⟨r, hr⟩ : ∃ r, old.parts.length - k - 1 = r + 1 := ⟨old.parts.length - k - 2, by omega⟩
      simp only [hr, List.getElem_cons_succ, List.getElem_drop]
      congr 2
      omega
  have hqin' := hqin (by simp only [List.head_cons]; rw [hcs]; exact ht) (by rw [hend]; exact hte)
  refine ⟨_, _, hp', by rw [hcut]; exact hq', ?_⟩
  rw [hQ _ _ helem.1]
  rcases Nat.le_total i (k + m) with h | h
  · exact (query_agree Q old.parts hc hj t i (k + m) h hkm (helem.2.trans hqin'.1) hin'.2).symm
  · exact query_agree Q old.parts hc hj t (k + m) i h hil hin'.1 (by rw [← helem.1.tEnd]; exact hqin'.2)

/-- **C89 at every time**, boundaries between parts and times after the end included: with the feet and the CoM joined where parts
meet, the frames of the feet, and the position, velocity and acceleration of the CoM, are those of the old trajectory. -/
theorem C89_joined (g : Wpg) (old : Traj) (hc : Contiguous old.parts) (hj : ComJoined old.parts) (hf : FeetJoined old.parts)
    (hne : old.parts ≠ []) (u t : ℝ) (h0 : (old.parts.head hne).tStart ≤ u) (h1 : u < (old.parts.getLast hne).tEnd) (ht : u ≤ t) :
    (∀ σ, (g.trim old u).getTWorldFoot σ t = old.getTWorldFoot σ t) ∧
    (g.trim old u).getPWorldCoM t = old.getPWorldCoM t ∧
    (g.trim old u).getDWorldCoM 1 t = old.getDWorldCoM 1 t ∧ (g.trim old u).getDWorldCoM 2 t = old.getDWorldCoM 2 t := by
  have hcom : ∀ d : Nat, d < 3 → ∃ p q, findPart old.parts t = .ok p ∧ findPart (g.trim old u).parts t = .ok q ∧
      q.com.component t d = p.com.component t d := fun d hd =>
    trim_query (fun p t => p.com.component t d) (fun p q h t => by simp only [h.com]) g old hc (fun i h => hj i h d hd) hne u t h0 h1 ht
  refine ⟨fun σ => ?_, ?_, ?_, ?_⟩
  · obtain ⟨p, q, hp, hq, e⟩ := trim_query (fun p t => p.footPosition σ t) (fun p q h t => by
      have hfly : p.isFlying σ = q.isFlying σ := by
        unfold Part.isFlying Support.isBoth Support.side
        rw [h.footsteps]
      show p.footPosition σ t = q.footPosition σ t
      unfold Part.footPosition Support.footstepFrame
      rw [hfly, h.swing, h.footsteps])
      g old hc (fun i h => hf i h σ) hne u t h0 h1 ht
    unfold Traj.getTWorldFoot
    rw [hp, hq]
    show (do let v ← q.footPosition σ t; _) = (do let v ← p.footPosition σ t; _)
    rw [show q.footPosition σ t = p.footPosition σ t from e]
    rfl
  · obtain ⟨p, q, hp, hq, e⟩ := hcom 0 (by omega)
    unfold Traj.getPWorldCoM
    rw [hp, hq]
    show (do let v ← LTraj.component _ t 0; _) = (do let v ← LTraj.component _ t 0; _)
    simp only [Nat.cast_zero] at e
    rw [e]
    rfl
  · obtain ⟨p, q, hp, hq, e⟩ := hcom 1 (by omega)
    unfold Traj.getDWorldCoM
    rw [hp, hq]
    show (do let v ← LTraj.component _ t 1; _) = (do let v ← LTraj.component _ t 1; _)
    simp only [Nat.cast_one] at e
    rw [e]
    rfl
  · obtain ⟨p, q, hp, hq, e⟩ := hcom 2 (by omega)
    unfold Traj.getDWorldCoM
    rw [hp, hq]
    show (do let v ← LTraj.component _ t 2; _) = (do let v ← LTraj.component _ t 2; _)
    simp only [Nat.cast_ofNat] at e
    rw [e]
    rfl

/-- The feet of a planned trajectory are joined. -/
theorem feetJoined_of_inv {g : Wpg} {parts : List Part} {t0 : ℝ} {X : Nat → Side → V3} {yaw : Nat → Side → ℝ} {V0 : Side → V3}
    {d0 : Side → ℝ} (hW : Walk parts) (hP : Places parts X yaw) (hS : Swings g parts) (tr0 tr : Traj)
    (hI : FeetInv g parts t0 X yaw V0 d0 tr0 parts.length tr)
    (hD : ∀ (i : Nat) (h : i < parts.length), parts[i].tEnd - parts[i].tStart = g.duration parts[i].support)
    (hF : ∀ (i : Nat) (h : i < parts.length), 0 < i → parts[i].support.elapsedRatio = 0) : FeetJoined tr.parts := by
  intro i hi σ
  have hi' : i + 1 < parts.length := by rw [← hI.len]; exact hi
  obtain ⟨p, hp, -, p2, -, -, p5, -⟩ := position_ends hW hS tr0 tr hI hD hF hP i (by omega) σ
  obtain ⟨q, hq, q1, -, -, q4, -⟩ := position_ends hW hS tr0 tr hI hD hF hP (i + 1) hi' σ
  rw [List.getElem?_eq_getElem (by omega : i < tr.parts.length), Option.some.injEq] at hp
  rw [List.getElem?_eq_getElem hi, Option.some.injEq] at hq
  rw [hp, hq, p2, p5, hW.joined i hi', q4]

/-- **C89 for the walks of C132.** For at least three footsteps of alternate sides and the supports made of them, from a double
support to a double support, of positive durations: the trajectory answered by `plan`, trimmed at any time before its end by a
replanning that fails, still gives, at every time from there on, the frames of the feet, and the position, velocity and acceleration
of the CoM that it gave before. -/
theorem C89_walk (g : Wpg) (hr0 : 0 < g.p.walkFootRiseRatio) (hr1 : g.p.walkFootRiseRatio < 1) (fs : List Footstep)
    (h3 : 3 ≤ fs.length) (halt : fs.IsChain fun a b => b.side = a.side.other) (t0 : ℝ) (middle : Bool) (S : List Support)
    (hS : makeSupports fs t0 true middle true = .ok S) (com : V3) (hs : ∀ s ∈ S, 0 < g.p.supportDuration s)
    (tr : Traj) (hplan : g.plan S com t0 = .ok tr) (u t : ℝ) (h0 : tr.tStart ≤ u) (h1 : u < tr.tEnd) (ht : u ≤ t) :
    (∀ σ, (g.trim tr u).getTWorldFoot σ t = tr.getTWorldFoot σ t) ∧
    (g.trim tr u).getPWorldCoM t = tr.getPWorldCoM t ∧
    (g.trim tr u).getDWorldCoM 1 t = tr.getDWorldCoM 1 t ∧ (g.trim tr u).getDWorldCoM 2 t = tr.getDWorldCoM 2 t := by
  have hw := makeSupports_whole hS
  have hne := makeSupports_ne h3 hS
  have hd : ∀ s ∈ S, 0 < g.duration s := fun s h => by rw [whole_duration (hw s h)]; exact hs s h
  have hplan' := hplan
  unfold Wpg.plan at hplan
  rw [if_neg (by omega)] at hplan
  cases hp : g.planCom t0 S ⟨⟨com 0, com 1⟩, ⟨0, 0⟩, ⟨0, 0⟩⟩ with
  | error e => rw [hp] at hplan; cases hplan
  | ok o =>
    rw [hp] at hplan
    cases o with
    | none => cases hplan
    | some pt =>
      obtain ⟨parts, te⟩ := pt
      have h := hp
      have hF := feet_of_makeSupports g fs h3 halt t0 true middle S hS t0 S _ rfl hd parts te h
      have hdbl : ∀ (hl : 0 < parts.length) (f : Footstep), parts[0].support.footsteps ≠ [f] := by
        intro hl f e
        obtain ⟨hlen, hsup⟩ := planCom_supports g t0 S _ hd parts te h
        have hf := makeSupports_phases fs t0 true middle true h3 S hS
        have hp : 0 < (allPhases fs.length true middle true).length := by rw [hf.length_eq]; exact hne
        have := (List.forall₂_iff_get.1 hf).2 0 hp hne
        simp only [List.get_eq_getElem] at this
        have hh := (allPhases_ends fs.length true middle h3).2.2.1 true
        rw [List.head?_eq_getElem?, List.getElem?_eq_getElem hp, Option.some.injEq] at hh
        rw [hh] at this
        obtain ⟨a, b, -, -, e'⟩ := this
        rw [(hsup 0 hl hne).1, e'] at e
        cases e
      obtain ⟨tr', htr, hff, hI⟩ := planFeet_follows g t0 S _ hd parts te h hne hF hr0 hr1 (fun s h => by rw [(hw s h).1]; norm_num)
        (fun i hi _ => (hw _ (List.getElem_mem hi)).1) none (fun _ => 0) (fun _ => 0) (fun _ => 0) (fun _ => 0)
        (fun hl f hf => absurd hf (hdbl hl f)) (fun o ho => by cases ho) (fun _ _ _ => rfl)
      have e : tr' = tr := by
        have : (Except.ok tr' : Except Err Traj) = .ok tr := htr.symm.trans hplan
        cases this; rfl
      subst e
      obtain ⟨hlen, hc, hdur, hends, -⟩ := C86 g t0 S _ hd parts te h
      obtain ⟨-, hsup⟩ := planCom_supports g t0 S _ hd parts te h
      have hW := walk_of_plan g t0 S _ hd parts te h hF
      have hP := places_of_feet hF (fun _ => 0) (fun _ => 0)
      have hSw : Swings g parts := by
        refine ⟨hr0, hr1, fun i hi f _ => ?_, fun hl => ?_⟩
        · rw [(hsup i hi (by omega)).2.2.2.2]
          have h1 := hd S[i] (List.getElem_mem (by omega))
          have h2 := (hw S[i] (List.getElem_mem (by omega))).1
          unfold Wpg.duration at h1
          unfold Wpg.virtual
          rw [mul_assoc] at h1
          exact (mul_pos_iff_of_pos_left (by rw [h2]; norm_num)).1 h1
        · rw [(hsup 0 hl hne).2.1, (hw _ (List.getElem_mem _)).1]
          norm_num
      have hD : ∀ (i : Nat) (hi : i < parts.length), parts[i].tEnd - parts[i].tStart = g.duration parts[i].support := by
        intro i hi
        rw [hdur i hi (by omega), (hsup i hi (by omega)).2.2.2.1]
      have hE : ∀ (i : Nat) (hi : i < parts.length), 0 < i → parts[i].support.elapsedRatio = 0 := by
        intro i hi _
        rw [(hsup i hi (by omega)).2.1]
        exact (hw _ (List.getElem_mem _)).1
      have hjoin := feetJoined_of_inv hW hP hSw _ tr' hI hD hE
      have hget : ∀ (i : Nat) (hi : i < tr'.parts.length), ∃ (hi' : i < parts.length) (w : CubicSwing ℝ),
          tr'.parts[i] = { parts[i] with swing := w } := by
        intro i hi
        have hi' : i < parts.length := by rw [← hI.len]; exact hi
        obtain ⟨w, hw, -⟩ := hI.keep i hi'
        rw [List.getElem?_eq_getElem hi, Option.some.injEq] at hw
        exact ⟨hi', w, hw⟩
      have hcj : ComJoined tr'.parts := by
        intro i hi d hd'
        obtain ⟨a, w, e⟩ := hget i (by omega)
        obtain ⟨b, w', e'⟩ := hget (i + 1) hi
        rw [e, e']
        exact planned_joined g t0 S _ hd parts te h i b d hd'
      have hcont : Contiguous tr'.parts := by
        refine ⟨fun i hi => ?_, fun i hi => ?_⟩
        · obtain ⟨a, w, e⟩ := hget i hi
          rw [e]; exact hc.ordered i a
        · obtain ⟨a, w, e⟩ := hget i (by omega)
          obtain ⟨b, w', e'⟩ := hget (i + 1) hi
          rw [e, e']; exact hc.joined i b
      have hne' : tr'.parts ≠ [] := by
        intro e
        have := hff.len
        rw [e] at this
        simp at this
        omega
      refine C89_joined g tr' hcont hcj hjoin hne' u t ?_ ?_ ht
      · have := hff.first (tr'.parts.head hne') (by rw [← List.head?_eq_getElem?, List.head?_eq_some_head])
        rw [this, ← hff.tStart]; exact h0
      · have := hff.last (tr'.parts.getLast hne') (List.getLast?_eq_some_getLast hne')
        rw [this, ← hff.tEnd]; exact h1

/-- A walk of three steps, trimmed in the middle of its first double support: the feet, read at the very end of that support, are where
they were planned. -/
example : ∃ (S : List Support) (tr : Traj) (p : Part), makeSupports demoSteps 0 true true true = .ok S ∧
    softWpg.plan S ![0, 0, 35 / 100] 0 = .ok tr ∧ tr.parts[0]? = some p ∧
    ∀ σ, (softWpg.trim tr ((p.tStart + p.tEnd) / 2)).getTWorldFoot σ p.tEnd = tr.getTWorldFoot σ p.tEnd := by
  obtain ⟨S, tr, te, hS, h1, h2⟩ := soft_walk true
  have hl : S.length = 3 := by cases hS; rfl
  have hn : tr.parts.length = 3 := by rw [h2.len, hl]
  have hp : tr.parts[0]? = some tr.parts[0] := List.getElem?_eq_getElem (by omega)
  refine ⟨S, tr, tr.parts[0], hS, h1, hp, fun σ => ?_⟩
  have hlast := h2.lasts _ (List.getElem_mem (by omega : 0 < tr.parts.length))
  have hfirst := h2.first _ hp
  obtain ⟨S', hS', hs⟩ := soft_supports true true true
  rw [hS] at hS'
  cases hS'
  have hte : tr.parts[0].tEnd ≤ te := by
    have e1 := h2.joined 0 _ _ hp (List.getElem?_eq_getElem (by omega : 0 + 1 < tr.parts.length))
    have e2 := h2.joined 1 _ _ (List.getElem?_eq_getElem (by omega : 1 < tr.parts.length))
      (List.getElem?_eq_getElem (by omega : 1 + 1 < tr.parts.length))
    have e3 := h2.last tr.parts[2] (by rw [List.getLast?_eq_getElem?, show tr.parts.length - 1 = 2 by omega]; exact List.getElem?_eq_getElem (by omega))
    have l1 := h2.lasts _ (List.getElem_mem (by omega : 1 < tr.parts.length))
    have l2 := h2.lasts _ (List.getElem_mem (by omega : 2 < tr.parts.length))
    simp only [Nat.zero_add, Nat.reduceAdd] at e1 e2
    linarith
  refine (C89_walk softWpg (by simp [softWpg, walkWpg]) (by simp [softWpg, walkWpg]; norm_num) demoSteps (by simp [demoSteps])
    demoSteps_alternate 0 true S hS _ (fun s h => (hs s h).1) tr h1 _ _ ?_ ?_ ?_).1 σ
  · rw [h2.tStart]; linarith
  · rw [h2.tEnd]; linarith
  · linarith

end Verif.Humanoid
