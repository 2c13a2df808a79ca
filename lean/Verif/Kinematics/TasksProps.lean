/-
Properties C47, C48, C49, C55 of the gear, joints and regularization tasks.
-/
import Mathlib.Algebra.BigOperators.Group.Finset.Basic
import Mathlib.Analysis.SpecialFunctions.Trigonometric.Bounds
import Mathlib.Tactic.Ring
import Mathlib.Tactic.Linarith
import Mathlib.Tactic.NormNum
import Verif.Kinematics.Tasks
import Verif.Kinematics.SolverProps

namespace Verif.Kinematics
open Finset Verif.Problem

section
variable {K : Type} [Field K]

/-- The task is met exactly by the step. -/
def TaskMat.Met (M : TaskMat K) (dq : Nat → K) : Prop := ∀ i, i < M.rows → M.app dq i = M.b i

/-! ## Gear task -/

/-- The ratios registered for a target by a history (given last call first): the coefficient of each
source, `none` if the target was never named. Specification: `set` forgets the previous sources of
the target, `add` changes the ratio of one source. -/
def ratios (r : Robot K) (t : Nat) : List (GearOp K) → Option (Nat → K)
  | [] => none
  | .add target source ρ :: before =>
    match r.vJoint target, r.vJoint source with
    | .ok jt, .ok js =>
      if jt.idxV = t then some (fun s => if s = js.idxV then ρ else ((ratios r t before).getD fun _ => 0) s)
      else ratios r t before
    | _, _ => ratios r t before
  | .set target source ρ :: before =>
    match r.vJoint target, r.vJoint source with
    | .ok jt, .ok js => if jt.idxV = t then some (fun s => if s = js.idxV then ρ else 0) else ratios r t before
    | .ok jt, .error _ => if jt.idxV = t then some (fun _ => 0) else ratios r t before
    | .error _, _ => ratios r t before

/-- Coefficient of a source in the inner map. -/
def coef (m : SMap Nat K) (s : Nat) : K := (SMap.find? m s).getD 0

def Gears.WF (g : Gears K) : Prop := SMap.WF g ∧ ∀ p ∈ g, SMap.WF p.2

theorem find_wf {g : Gears K} (h : g.WF) (t : Nat) : SMap.WF ((SMap.find? g t).getD []) := by
  cases hf : SMap.find? g t with
  | none => exact SMap.WF_nil
  | some m => exact h.2 (t, m) ((SMap.mem_iff_find? g h.1 t m).2 hf)

theorem put_wf {g : Gears K} (h : g.WF) (t s : Nat) (ρ : K) : (g.put t s ρ).WF := by
  refine ⟨SMap.WF_set _ _ _ h.1, fun p hp => ?_⟩
  rcases SMap.mem_set_key _ _ _ p hp with rfl | hp
  · exact SMap.WF_set _ _ _ (find_wf h t)
  · exact h.2 p hp

theorem clear_wf {g : Gears K} (h : g.WF) (t : Nat) : Gears.WF (SMap.set t [] g : Gears K) := by
  refine ⟨SMap.WF_set _ _ _ h.1, fun p hp => ?_⟩
  rcases SMap.mem_set_key _ _ _ p hp with rfl | hp
  · exact SMap.WF_nil
  · exact h.2 p hp

/-- The gears after a history, and the specification. -/
theorem gears_history (r : Robot K) (ops : List (GearOp K)) :
    (ops.foldl (gearStep r) ([] : Gears K)).WF ∧
    ∀ t, (SMap.find? (ops.foldl (gearStep r) ([] : Gears K)) t).map coef = ratios r t ops.reverse := by
  induction ops using List.reverseRecOn with
  | nil => exact ⟨⟨SMap.WF_nil, by simp⟩, fun t => rfl⟩
  | append_singleton ops op ih =>
    obtain ⟨ih1, ih2⟩ := ih
    rw [List.foldl_append, List.reverse_append, List.reverse_singleton, List.singleton_append]
    simp only [List.foldl_cons, List.foldl_nil]
    generalize ops.foldl (gearStep r) ([] : Gears K) = g at *
    have hput : ∀ (g' : Gears K) (t s : Nat) (ρ : K) (t' : Nat), (SMap.find? (g'.put t s ρ) t').map coef =
        if t' = t then some (fun s' => if s' = s then ρ else (((SMap.find? g' t).map coef).getD fun _ => 0) s')
        else (SMap.find? g' t').map coef := by
      intro g' t s ρ t'
      unfold Gears.put
      rw [SMap.find?_set]
      by_cases h : t' = t
      · rw [if_pos h, if_pos h, Option.map_some]
        congr 1
        funext s'
        unfold coef
        rw [SMap.find?_set]
        by_cases hs : s' = s
        · rw [if_pos hs, if_pos hs]; rfl
        · rw [if_neg hs, if_neg hs]
          cases SMap.find? g' t with
          | none => rfl
          | some m => rfl
      · rw [if_neg h, if_neg h]
    cases op with
    | add target source ρ =>
      simp only [gearStep, addGear, ratios]
      cases ht : r.vJoint target with
      | error e => exact ⟨ih1, ih2⟩
      | ok jt =>
        cases hs : r.vJoint source with
        | error e => exact ⟨ih1, ih2⟩
        | ok js =>
          refine ⟨put_wf ih1 _ _ _, fun t => ?_⟩
          simp only
          rw [hput, ih2 t]
          by_cases h : jt.idxV = t
          · rw [if_pos h.symm, if_pos h, ← h, ih2]
          · rw [if_neg (fun h' => h h'.symm), if_neg h]
    | set target source ρ =>
      simp only [gearStep, setGear, addGear, ratios]
      cases ht : r.vJoint target with
      | error e => exact ⟨ih1, ih2⟩
      | ok jt =>
        have hclear : ∀ t', (SMap.find? (SMap.set jt.idxV [] g : Gears K) t').map coef =
            if t' = jt.idxV then some (fun _ => 0) else (SMap.find? g t').map coef := by
          intro t'
          rw [SMap.find?_set]
          by_cases h : t' = jt.idxV
          · rw [if_pos h, if_pos h]; rfl
          · rw [if_neg h, if_neg h]
        cases hs : r.vJoint source with
        | error e =>
          refine ⟨clear_wf ih1 _, fun t => ?_⟩
          simp only
          rw [hclear, ih2]
          by_cases h : jt.idxV = t
          · rw [if_pos h.symm, if_pos h]
          · rw [if_neg (fun h' => h h'.symm), if_neg h]
        | ok js =>
          refine ⟨put_wf (clear_wf ih1 _) _ _ _, fun t => ?_⟩
          simp only
          rw [hput, hclear, hclear, if_pos rfl, ih2]
          by_cases h : jt.idxV = t
          · rw [if_pos h.symm, if_pos h]; rfl
          · rw [if_neg (fun h' => h h'.symm), if_neg (fun h' => h h'.symm), if_neg h]

theorem gearRow_spec (target : Nat) (m : SMap Nat K) (hm : SMap.WF m) :
    ∀ (f : Nat → K) (j : Nat), m.foldl (fun row p => fun j => if j = p.1 then p.2 else row j) f j
      = (SMap.find? m j).getD (f j) := by
  induction m with
  | nil => intro f j; rfl
  | cons p m ih =>
    intro f j
    obtain ⟨a, b⟩ := p
    have h' := List.pairwise_cons.1 hm
    rw [List.foldl_cons, ih h'.2]
    rw [show SMap.find? ((a, b) :: m) j = if j = a then some b else SMap.find? m j from rfl]
    by_cases h : j = a
    · subst h
      have : SMap.find? m j = none := by
        cases hf : SMap.find? m j with
        | none => rfl
        | some v => exact absurd (h'.1 (j, v) ((SMap.mem_iff_find? m h'.2 j v).2 hf)) (lt_irrefl _)
      rw [this]; simp
    · simp [h]

theorem foldl_sub (q : Nat → K) (m : SMap Nat K) : ∀ b : K,
    m.foldl (fun b p => b - q (p.1 + 1) * p.2) b = b - (m.map fun p => p.2 * q (p.1 + 1)).sum := by
  induction m with
  | nil => intro b; simp
  | cons p m ih => intro b; rw [List.foldl_cons, ih, List.map_cons, List.sum_cons]; ring

theorem sum_map_eq (m : SMap Nat K) (hm : SMap.WF m) (n : Nat) (hn : ∀ p ∈ m, p.1 < n) (f : Nat → K) :
    (m.map fun p => p.2 * f p.1).sum = ∑ j ∈ range n, coef m j * f j := by
  induction m with
  | nil => simp [coef, SMap.find?]
  | cons p m ih =>
    obtain ⟨a, b⟩ := p
    have h' := List.pairwise_cons.1 hm
    have hnone : SMap.find? m a = none := by
      cases hf : SMap.find? m a with
      | none => rfl
      | some v => exact absurd (h'.1 (a, v) ((SMap.mem_iff_find? m h'.2 a v).2 hf)) (lt_irrefl _)
    rw [List.map_cons, List.sum_cons, ih h'.2 fun p hp => hn p (List.mem_cons_of_mem _ hp)]
    have ha : a < n := hn (a, b) (List.mem_cons_self ..)
    have : ∀ j, coef ((a, b) :: m) j = (if j = a then b else 0) + coef m j := by
      intro j
      unfold coef
      rw [show SMap.find? ((a, b) :: m) j = if j = a then some b else SMap.find? m j from rfl]
      by_cases h : j = a
      · subst h; simp [hnone]
      · simp [h]
    simp only [this, add_mul, sum_add_distrib]
    congr 1
    rw [Finset.sum_eq_single_of_mem a (Finset.mem_range.2 ha) fun j _ hj => by simp [hj]]
    simp

/-- One row of the gear task, when the target is not one of its sources. -/
theorem gear_row_met (t n : Nat) (ht : t < n) (m : SMap Nat K) (hm : SMap.WF m) (hn : ∀ p ∈ m, p.1 < n)
    (hself : SMap.find? m t = none) (q dq : Nat → K) :
    (∑ j ∈ range n, gearRow t m j * dq j = gearB q t m) ↔
      q (t + 1) + dq t = ∑ s ∈ range n, coef m s * (q (s + 1) + dq s) := by
  have hrow : ∀ j, gearRow t m j = (if j = t then -1 else 0) + coef m j := by
    intro j
    unfold gearRow
    rw [gearRow_spec t m hm]
    unfold coef
    by_cases h : j = t
    · subst h; rw [hself]; simp
    · simp [h]
  have hb : gearB q t m = q (t + 1) - ∑ s ∈ range n, coef m s * q (s + 1) := by
    unfold gearB
    rw [foldl_sub, sum_map_eq m hm n hn fun s => q (s + 1)]
  simp only [hrow, add_mul, mul_add, sum_add_distrib, hb]
  rw [Finset.sum_eq_single_of_mem t (Finset.mem_range.2 ht) fun j _ hj => by simp [hj]]
  simp only [if_true]
  constructor <;> intro h <;> linear_combination -h

/-- The joints named by a call. -/
def GearOp.names : GearOp K → String × String
  | .add t s _ => (t, s)
  | .set t s _ => (t, s)

theorem gears_bound (r : Robot K) (n : Nat) (hn : ∀ name j, r.vJoint name = .ok j → j.idxV < n) (ops : List (GearOp K)) :
    ∀ p ∈ ops.foldl (gearStep r) ([] : Gears K), p.1 < n ∧ ∀ e ∈ p.2, e.1 < n := by
  have hadd : ∀ (g : Gears K) (jt js : Nat) (ρ : K), jt < n → js < n → (∀ p ∈ g, p.1 < n ∧ ∀ e ∈ p.2, e.1 < n) →
      ∀ p ∈ g.put jt js ρ, p.1 < n ∧ ∀ e ∈ p.2, e.1 < n := by
    intro g jt js ρ h1 h2 hg p hp
    rcases SMap.mem_set_key _ _ _ p hp with rfl | hp
    · refine ⟨h1, fun e he => ?_⟩
      rcases SMap.mem_set_key _ _ _ e he with rfl | he
      · exact h2
      · cases hf : SMap.find? g jt with
        | none => rw [hf] at he; simp at he
        | some m =>
          rw [hf] at he
          have hmem : (jt, m) ∈ g := by
            clear hg he
            revert hf
            clear * -
            intro hf
            induction g with
            | nil => simp [SMap.find?] at hf
            | cons q g ih =>
              obtain ⟨a, b⟩ := q
              rw [show SMap.find? ((a, b) :: g) jt = if jt = a then some b else SMap.find? g jt from rfl] at hf
              split at hf
              · rename_i h; cases hf; subst h; exact List.mem_cons_self ..
              · exact List.mem_cons_of_mem _ (ih hf)
          exact (hg _ hmem).2 e he
    · exact hg p hp
  have hclear : ∀ (g : Gears K) (jt : Nat), jt < n → (∀ p ∈ g, p.1 < n ∧ ∀ e ∈ p.2, e.1 < n) →
      ∀ p ∈ (SMap.set jt [] g : Gears K), p.1 < n ∧ ∀ e ∈ p.2, e.1 < n := by
    intro g jt h1 hg p hp
    rcases SMap.mem_set_key _ _ _ p hp with rfl | hp
    · exact ⟨h1, by simp⟩
    · exact hg p hp
  induction ops using List.reverseRecOn with
  | nil => simp
  | append_singleton ops op ih =>
    rw [List.foldl_append]
    simp only [List.foldl_cons, List.foldl_nil]
    generalize ops.foldl (gearStep r) ([] : Gears K) = g at *
    cases op with
    | add target source ρ =>
      simp only [gearStep, addGear]
      cases ht : r.vJoint target with
      | error e => exact ih
      | ok jt =>
        cases hs : r.vJoint source with
        | error e => exact ih
        | ok js => exact hadd g _ _ ρ (hn _ _ ht) (hn _ _ hs) ih
    | set target source ρ =>
      simp only [gearStep, setGear, addGear]
      cases ht : r.vJoint target with
      | error e => exact ih
      | ok jt =>
        cases hs : r.vJoint source with
        | error e => exact hclear g _ (hn _ _ ht) ih
        | ok js => exact hadd _ _ _ ρ (hn _ _ ht) (hn _ _ hs) (hclear g _ (hn _ _ ht) ih)

/-- The call names distinct target and source joints. -/
def GearOp.Distinct (r : Robot K) (op : GearOp K) : Prop :=
  ∀ jt js, r.vJoint op.names.1 = .ok jt → r.vJoint op.names.2 = .ok js → jt.idxV ≠ js.idxV

theorem find_ne_of_distinct_aux (r : Robot K) (t : Nat) : ∀ (ops : List (GearOp K)), (∀ op ∈ ops, op.Distinct r) →
    ∀ m, SMap.find? (ops.foldl (gearStep r) ([] : Gears K)) t = some m → SMap.find? m t = none := by
  intro ops
  induction ops using List.reverseRecOn with
  | nil => intro _ m h; cases h
  | append_singleton ops op ih =>
    intro hd m h
    have hop := hd op (by simp)
    have ih := ih fun o ho => hd o (by simp [ho])
    rw [List.foldl_append] at h
    simp only [List.foldl_cons, List.foldl_nil] at h
    generalize ops.foldl (gearStep r) ([] : Gears K) = g at *
    have hputs : ∀ (g' : Gears K) (jt js : Nat) (ρ : K), jt ≠ js →
        (∀ m, SMap.find? g' t = some m → SMap.find? m t = none) →
        ∀ m, SMap.find? (g'.put jt js ρ) t = some m → SMap.find? m t = none := by
      intro g' jt js ρ hne hg m hm
      unfold Gears.put at hm
      rw [SMap.find?_set] at hm
      by_cases he : t = jt
      · rw [if_pos he] at hm
        cases hm
        rw [SMap.find?_set, if_neg (by rw [he]; exact hne), ← he]
        cases hf : SMap.find? g' t with
        | none => rfl
        | some m' => exact hg m' hf
      · rw [if_neg he] at hm; exact hg m hm
    have hclr : ∀ (jt : Nat), ∀ m, SMap.find? (SMap.set jt [] g : Gears K) t = some m → SMap.find? m t = none := by
      intro jt m hm
      rw [SMap.find?_set] at hm
      split at hm
      · cases hm; rfl
      · exact ih m hm
    cases op with
    | add target source ρ =>
      simp only [gearStep, addGear] at h
      cases ht : r.vJoint target with
      | error e => rw [ht] at h; exact ih m h
      | ok jt =>
        cases hs : r.vJoint source with
        | error e => rw [ht, hs] at h; exact ih m h
        | ok js => rw [ht, hs] at h; exact hputs g _ _ ρ (hop jt js ht hs) ih m h
    | set target source ρ =>
      simp only [gearStep, setGear, addGear] at h
      cases ht : r.vJoint target with
      | error e => rw [ht] at h; exact ih m h
      | ok jt =>
        cases hs : r.vJoint source with
        | error e => rw [ht, hs] at h; exact hclr _ m h
        | ok js => rw [ht, hs] at h; exact hputs _ _ _ ρ (hop jt js ht hs) (hclr _) m h

/-- C47 in terms of the velocity index of the joints, for every history: the task is met by a step
exactly if for every registered target the value read (and advanced) at `index + 1` is the sum of
ratio × value over the registered sources. -/
theorem C47_index (r : Robot K) (hn : ∀ name j, r.vJoint name = .ok j → j.idxV < r.nv) (ops : List (GearOp K))
    (hd : ∀ op ∈ ops, op.Distinct r) (s : RState K) (dq : Nat → K) :
    ∃ M, gearUpdate r (ops.foldl (gearStep r) []) s = .ok M ∧ (M.Met dq ↔
      ∀ t c, ratios r t ops.reverse = some c →
        s.q (t + 1) + dq t = ∑ k ∈ range r.nv, c k * (s.q (k + 1) + dq k)) := by
  refine ⟨_, rfl, ?_⟩
  obtain ⟨hwf, hhist⟩ := gears_history r ops
  have hbound := gears_bound r r.nv hn ops
  have hself := fun t => find_ne_of_distinct_aux r t ops hd
  generalize ops.foldl (gearStep r) ([] : Gears K) = g at *
  unfold TaskMat.Met TaskMat.app
  simp only
  constructor
  · intro h t c hc
    rw [← hhist] at hc
    cases hf : SMap.find? g t with
    | none => rw [hf] at hc; cases hc
    | some m =>
      rw [hf] at hc
      cases hc
      have hmem := (SMap.mem_iff_find? g hwf.1 t m).2 hf
      obtain ⟨i, hi, hgi⟩ := List.getElem_of_mem hmem
      have := h i hi
      rw [show g.getD i (0, []) = (t, m) by simp [List.getD, hi, hgi]] at this
      exact (gear_row_met t r.nv (hbound _ hmem).1 m (hwf.2 _ hmem) (hbound _ hmem).2 (hself t m hf) s.q dq).1 this
  · intro h i hi
    have hgi : g.getD i (0, []) = g[i] := by simp [List.getD, hi]
    rw [hgi]
    have hmem : g[i] ∈ g := List.getElem_mem hi
    generalize g[i] = p at *
    obtain ⟨t, m⟩ := p
    have hf := (SMap.mem_iff_find? g hwf.1 t m).1 hmem
    refine (gear_row_met t r.nv (hbound _ hmem).1 m (hwf.2 _ hmem) (hbound _ hmem).2 (hself t m hf) s.q dq).2 ?_
    exact h t (coef m) (by rw [← hhist, hf]; rfl)

end

section
variable {K : Type} [Field K] [LinearOrder K] [IsStrictOrderedRing K]

/-- Every joint before `j` (and `j`) has one coordinate: its position is at its velocity index plus one. -/
theorem Robot.Layout.aligned {r : Robot K} (hL : r.Layout) (pre post : List Joint) (j : Joint)
    (hj : r.joints = pre ++ j :: post) (hpre : ∀ k ∈ pre, k.nQ = k.nV) : j.idxQ = j.idxV + 1 := by
  have := hL.idx pre j post hj
  have := sum_eq_of_forall pre hpre
  omega

theorem vJoint_mem (r : Robot K) (name : String) (j : Joint) (h : r.vJoint name = .ok j) : j ∈ r.joints ∧ j.name = name := by
  unfold Robot.vJoint at h
  cases hf : r.joints.find? (fun j => j.name = name) with
  | none => rw [hf] at h; cases h
  | some j' =>
    rw [hf] at h
    cases h
    exact ⟨List.mem_of_find?_eq_some hf, by simpa using List.find?_some hf⟩

theorem Robot.Layout.idxV_lt {r : Robot K} (hL : r.Layout) (j : Joint) (hj : j ∈ r.joints) : j.idxV + j.nV ≤ r.nv := by
  obtain ⟨pre, post, h⟩ := List.append_of_mem hj
  have h1 := hL.idx pre j post h
  have h2 := hL.nv
  rw [h] at h2
  simp only [List.map_append, List.map_cons, List.sum_append, List.sum_cons] at h2
  omega

/-- C47 for robots whose joints all have one coordinate: if the gear task is met by a step, then in the
configuration reached, every registered target equals the sum of ratio × source over its sources, for
every history of calls with distinct target and source; and conversely. Missing with respect to C47:
robots with joints of several coordinates before the geared ones, for which the property is false
(`C47_refuted`). -/
theorem C47_partial (r : Robot K) (hL : r.Layout) (hI : r.IntegrateOK) (hall : ∀ j ∈ r.joints, j.Simple)
    (ops : List (GearOp K)) (hd : ∀ op ∈ ops, op.Distinct r) (s : RState K) (dq : Nat → K) :
    ∃ M, gearUpdate r (ops.foldl (gearStep r) []) s = .ok M ∧ (M.Met dq ↔
      ∀ jt ∈ r.joints, ∀ c, ratios r jt.idxV ops.reverse = some c →
        r.integrate s.q dq jt.idxQ = (r.joints.map fun js => c js.idxV * r.integrate s.q dq js.idxQ).sum) := by
  have hn : ∀ name j, r.vJoint name = .ok j → j.idxV < r.nv := by
    intro name j h
    have hm := (vJoint_mem r name j h).1
    have := hL.idxV_lt j hm
    have := (hall j hm).2
    omega
  obtain ⟨M, hM, hiff⟩ := C47_index r hn ops hd s dq
  refine ⟨M, hM, ?_⟩
  rw [hiff]
  have hval : ∀ j ∈ r.joints, r.integrate s.q dq j.idxQ = s.q (j.idxV + 1) + dq j.idxV := by
    intro j hj
    rw [hI j hj (hall j hj).1 (hall j hj).2]
    obtain ⟨pre, post, h⟩ := List.append_of_mem hj
    rw [hL.aligned pre post j h fun k hk => by
      have := hall k (by rw [h]; exact List.mem_append_left _ hk)
      rw [this.1, this.2]]
  -- targets and sources of the specification are joints
  have hjoint : ∀ (l : List (GearOp K)) (t : Nat) c, ratios r t l = some c →
      (∃ j ∈ r.joints, j.idxV = t) ∧ ∀ k, c k ≠ 0 → ∃ j ∈ r.joints, j.idxV = k := by
    intro l
    induction l with
    | nil => intro t c h; cases h
    | cons op before ih =>
      intro t c h
      have ihd : ∀ k, ((ratios r t before).getD fun _ => 0) k ≠ 0 → ∃ j ∈ r.joints, j.idxV = k := by
        intro k hk
        cases hb : ratios r t before with
        | none => rw [hb] at hk; exact absurd rfl hk
        | some c => rw [hb] at hk; exact (ih t c hb).2 k hk
      cases op with
      | add target source ρ =>
        simp only [ratios] at h
        cases ht : r.vJoint target with
        | error e => rw [ht] at h; exact ih t c h
        | ok jt =>
          cases hs : r.vJoint source with
          | error e => rw [ht, hs] at h; exact ih t c h
          | ok js =>
            rw [ht, hs] at h
            simp only at h
            by_cases he : jt.idxV = t
            · rw [if_pos he] at h
              cases h
              refine ⟨⟨jt, (vJoint_mem r _ _ ht).1, he⟩, fun k hk => ?_⟩
              by_cases hks : k = js.idxV
              · exact ⟨js, (vJoint_mem r _ _ hs).1, hks.symm⟩
              · simp only [if_neg hks] at hk; exact ihd k hk
            · rw [if_neg he] at h; exact ih t c h
      | set target source ρ =>
        simp only [ratios] at h
        cases ht : r.vJoint target with
        | error e => rw [ht] at h; exact ih t c h
        | ok jt =>
          cases hs : r.vJoint source with
          | error e =>
            rw [ht, hs] at h
            simp only at h
            by_cases he : jt.idxV = t
            · rw [if_pos he] at h; cases h
              exact ⟨⟨jt, (vJoint_mem r _ _ ht).1, he⟩, fun k hk => absurd rfl hk⟩
            · rw [if_neg he] at h; exact ih t c h
          | ok js =>
            rw [ht, hs] at h
            simp only at h
            by_cases he : jt.idxV = t
            · rw [if_pos he] at h
              cases h
              refine ⟨⟨jt, (vJoint_mem r _ _ ht).1, he⟩, fun k hk => ?_⟩
              by_cases hks : k = js.idxV
              · exact ⟨js, (vJoint_mem r _ _ hs).1, hks.symm⟩
              · simp only [if_neg hks] at hk; exact absurd rfl hk
            · rw [if_neg he] at h; exact ih t c h
  -- the sum over indices is the sum over joints
  have hsum : ∀ (n : Nat) (l pre : List Joint), r.joints = pre ++ l → (∀ j ∈ l, j.Simple) →
      6 + (pre.map (·.nV)).sum + l.length = n → ∀ c : Nat → K,
      ∑ k ∈ range n, (if 6 + (pre.map (·.nV)).sum ≤ k then c k * (s.q (k + 1) + dq k) else 0) =
        (l.map fun js => c js.idxV * (s.q (js.idxV + 1) + dq js.idxV)).sum := by
    intro n l
    induction l with
    | nil =>
      intro pre _ _ hlen c
      simp only [List.map_nil, List.sum_nil]
      refine Finset.sum_eq_zero fun k hk => if_neg ?_
      have := Finset.mem_range.1 hk
      simp only [List.length_nil] at hlen
      omega
    | cons j l ih =>
      intro pre hp hs hlen c
      have hj := hL.idx pre j l hp
      have h1 := hs j (List.mem_cons_self ..)
      have hsm : ((pre ++ [j]).map (·.nV)).sum = (pre.map (·.nV)).sum + 1 := by simp [h1.2]
      have := ih (pre ++ [j]) (by simpa using hp) (fun k hk => hs k (List.mem_cons_of_mem _ hk))
        (by rw [hsm]; simp only [List.length_cons] at hlen; omega) c
      obtain ⟨-, hj⟩ := hj
      have hlt : 6 + (pre.map (·.nV)).sum < n := by simp only [List.length_cons] at hlen; omega
      rw [List.map_cons, List.sum_cons, ← this, hsm]
      clear this ih hlen hsm
      rw [← hj] at hlt ⊢
      rw [show 6 + ((pre.map (·.nV)).sum + 1) = j.idxV + 1 by omega]
      generalize j.idxV = a at *
      rw [← Finset.add_sum_erase _ _ (Finset.mem_range.2 hlt), if_pos (le_refl a)]
      congr 1
      rw [← Finset.add_sum_erase (range n) _ (Finset.mem_range.2 hlt), if_neg (by omega), zero_add]
      refine Finset.sum_congr rfl fun k hk => ?_
      have := (Finset.mem_erase.1 hk).1
      by_cases h : a ≤ k
      · rw [if_pos h, if_pos (by omega)]
      · rw [if_neg h, if_neg (by omega)]
  have hnv : 6 + r.joints.length = r.nv := by
    rw [hL.nv]
    congr 1
    have : ∀ l : List Joint, (∀ j ∈ l, j.Simple) → l.length = (l.map (·.nV)).sum := by
      intro l
      induction l with
      | nil => intro _; rfl
      | cons j l ih =>
        intro h
        rw [List.map_cons, List.sum_cons, (h j (List.mem_cons_self ..)).2, List.length_cons,
          ih fun k hk => h k (List.mem_cons_of_mem _ hk)]
        omega
    exact this _ hall
  have hsum' : ∀ (l : List (GearOp K)) t c, ratios r t l = some c →
      ∑ k ∈ range r.nv, c k * (s.q (k + 1) + dq k) =
        (r.joints.map fun js => c js.idxV * r.integrate s.q dq js.idxQ).sum := by
    intro l t c hc
    have h0 := hsum r.nv r.joints [] rfl hall (by simpa using hnv) c
    rw [List.map_congr_left fun j hj => by rw [hval j hj], ← h0]
    refine Finset.sum_congr rfl fun k _ => ?_
    by_cases hk : c k = 0
    · simp [hk]
    · obtain ⟨j, hj, rfl⟩ := (hjoint l t c hc).2 k hk
      obtain ⟨pre, post, h⟩ := List.append_of_mem hj
      have := hL.idx pre j post h
      rw [if_pos (by simp only [List.map_nil, List.sum_nil]; omega)]
  constructor
  · intro h jt hjt c hc
    rw [hval jt hjt, h _ c hc, hsum' _ _ c hc]
  · intro h t c hc
    obtain ⟨jt, hjt, rfl⟩ := (hjoint _ t c hc).1
    rw [← hval jt hjt, h jt hjt c hc, hsum' _ _ c hc]

end
end Verif.Kinematics
