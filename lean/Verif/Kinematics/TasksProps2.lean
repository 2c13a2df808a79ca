/-
C48 (repeated or self-referencing gears), C49 (joints task), C55 (regularization task), the
counterexamples to C47-C49, and concrete cases.
-/
import Mathlib.Tactic.IntervalCases
import Mathlib.Tactic.FieldSimp
import Verif.Kinematics.TasksProps
import Verif.Kinematics.SolverExamples

namespace Verif.Kinematics
open Finset Verif.Problem

section
variable {K : Type} [Field K]

/-! ## C48 -/

/-- The ratios as documented ("you can add multiple source for the same target, they will be summed"):
`add` increases the coefficient of the source. -/
def summed (r : Robot K) (t : Nat) : List (GearOp K) → Option (Nat → K)
  | [] => none
  | .add target source ρ :: before =>
    match r.vJoint target, r.vJoint source with
    | .ok jt, .ok js =>
      if jt.idxV = t then some (fun s => (if s = js.idxV then ρ else 0) + ((summed r t before).getD fun _ => 0) s)
      else summed r t before
    | _, _ => summed r t before
  | .set target source ρ :: before =>
    match r.vJoint target, r.vJoint source with
    | .ok jt, .ok js => if jt.idxV = t then some (fun s => if s = js.idxV then ρ else 0) else summed r t before
    | .ok jt, .error _ => if jt.idxV = t then some (fun _ => 0) else summed r t before
    | .error _, _ => summed r t before

/-- No `add` names a source already registered (with a non-zero ratio) for its target. -/
def NoRepeat (r : Robot K) : List (GearOp K) → Prop
  | [] => True
  | .add target source _ :: before => NoRepeat r before ∧
      ∀ jt js, r.vJoint target = .ok jt → r.vJoint source = .ok js →
        ((ratios r jt.idxV before).getD fun _ => 0) js.idxV = 0
  | .set _ _ _ :: before => NoRepeat r before

theorem summed_eq (r : Robot K) : ∀ (ops : List (GearOp K)), NoRepeat r ops → ∀ t, summed r t ops = ratios r t ops := by
  intro ops
  induction ops with
  | nil => intro _ t; rfl
  | cons op before ih =>
    intro h t
    cases op with
    | add target source ρ =>
      have ih := ih h.1 t
      simp only [summed, ratios]
      cases ht : r.vJoint target with
      | error e => exact ih
      | ok jt =>
        cases hs : r.vJoint source with
        | error e => exact ih
        | ok js =>
          simp only
          by_cases he : jt.idxV = t
          · rw [if_pos he, if_pos he, ih]
            congr 1
            funext s
            have := h.2 jt js ht hs
            rw [he] at this
            by_cases hss : s = js.idxV
            · subst hss; rw [if_pos rfl, if_pos rfl, this, add_zero]
            · rw [if_neg hss, if_neg hss, zero_add]
          · rw [if_neg he, if_neg he, ih]
    | set target source ρ =>
      have ih := ih h t
      simp only [summed, ratios, ih]
      cases r.vJoint target <;> cases r.vJoint source <;> rfl

/-- C48 when no source is repeated and no joint is its own source: the documented equation. Missing:
repeated sources and self-referencing gears, where it is false (`C48_refuted_repeat`,
`C48_refuted_self`). -/
theorem C48_partial (r : Robot K) (hn : ∀ name j, r.vJoint name = .ok j → j.idxV < r.nv) (ops : List (GearOp K))
    (hd : ∀ op ∈ ops, op.Distinct r) (hr : NoRepeat r ops.reverse) (s : RState K) (dq : Nat → K) :
    ∃ M, gearUpdate r (ops.foldl (gearStep r) []) s = .ok M ∧ (M.Met dq ↔
      ∀ t c, summed r t ops.reverse = some c →
        s.q (t + 1) + dq t = ∑ k ∈ range r.nv, c k * (s.q (k + 1) + dq k)) := by
  simp only [summed_eq r _ hr]
  exact C47_index r hn ops hd s dq

/-- The history (last call first) registers the target as one of its own sources. -/
def OwnSource (r : Robot K) (t : Nat) : List (GearOp K) → Prop
  | [] => False
  | .add target source _ :: before =>
    (∃ jt js, r.vJoint target = .ok jt ∧ r.vJoint source = .ok js ∧ jt.idxV = t ∧ js.idxV = t) ∨ OwnSource r t before
  | .set target source _ :: before =>
    (∃ jt js, r.vJoint target = .ok jt ∧ r.vJoint source = .ok js ∧ jt.idxV = t ∧ js.idxV = t) ∨
      (∀ jt, r.vJoint target = .ok jt → jt.idxV ≠ t) ∧ OwnSource r t before

theorem own_source (r : Robot K) (t : Nat) (ops : List (GearOp K)) :
    SMap.find? ((SMap.find? (ops.foldl (gearStep r) ([] : Gears K)) t).getD []) t ≠ none ↔ OwnSource r t ops.reverse := by
  induction ops using List.reverseRecOn with
  | nil => exact ⟨fun h => absurd rfl h, fun h => h.elim⟩
  | append_singleton ops op ih =>
    rw [List.foldl_append, List.reverse_append, List.reverse_singleton, List.singleton_append]
    simp only [List.foldl_cons, List.foldl_nil]
    generalize ops.foldl (gearStep r) ([] : Gears K) = g at *
    have hput : ∀ (g' : Gears K) (a b : Nat) (ρ : K),
        SMap.find? ((SMap.find? (g'.put a b ρ) t).getD []) t ≠ none ↔
          (a = t ∧ b = t) ∨ SMap.find? ((SMap.find? g' t).getD []) t ≠ none := by
      intro g' a b ρ
      unfold Gears.put
      rw [SMap.find?_set]
      by_cases ha : t = a
      · subst ha
        rw [if_pos rfl, Option.getD_some, SMap.find?_set]
        by_cases hb : t = b
        · subst hb; simp
        · rw [if_neg hb]
          exact ⟨Or.inr, fun h => h.resolve_left fun h => hb h.2.symm⟩
      · rw [if_neg ha]
        exact ⟨Or.inr, fun h => h.resolve_left fun h => ha h.1.symm⟩
    have hclr : ∀ a : Nat, SMap.find? ((SMap.find? (SMap.set a [] g : Gears K) t).getD []) t ≠ none ↔
        a ≠ t ∧ SMap.find? ((SMap.find? g t).getD []) t ≠ none := by
      intro a
      rw [SMap.find?_set]
      by_cases ha : t = a
      · subst ha
        rw [if_pos rfl]
        exact ⟨fun h => absurd rfl h, fun h => absurd rfl h.1⟩
      · rw [if_neg ha]
        exact ⟨fun h => ⟨fun h' => ha h'.symm, h⟩, fun h => h.2⟩
    cases op with
    | add target source ρ =>
      simp only [gearStep, addGear, OwnSource]
      cases ht : r.vJoint target with
      | error e =>
        rw [ih]
        exact ⟨Or.inr, fun h => h.resolve_left fun ⟨_, _, h, _⟩ => by cases h⟩
      | ok jt =>
        cases hs : r.vJoint source with
        | error e =>
          rw [ih]
          exact ⟨Or.inr, fun h => h.resolve_left fun ⟨_, _, _, h, _⟩ => by cases h⟩
        | ok js =>
          simp only [hput, ih]
          constructor
          · rintro (h | h)
            · exact Or.inl ⟨jt, js, rfl, rfl, h⟩
            · exact Or.inr h
          · rintro (⟨a, b, ha, hb, h⟩ | h)
            · cases ha; cases hb; exact Or.inl h
            · exact Or.inr h
    | set target source ρ =>
      simp only [gearStep, setGear, addGear, OwnSource]
      cases ht : r.vJoint target with
      | error e =>
        rw [ih]
        exact ⟨fun h => Or.inr ⟨fun _ h' => (by cases h'), h⟩, fun h => (h.resolve_left fun ⟨_, _, h, _⟩ => (by cases h)).2⟩
      | ok jt =>
        cases hs : r.vJoint source with
        | error e =>
          simp only [hclr, ih]
          constructor
          · rintro ⟨h1, h2⟩
            exact Or.inr ⟨fun a ha => by cases ha; exact h1, h2⟩
          · rintro (⟨_, _, _, h, _⟩ | ⟨h1, h2⟩)
            · cases h
            · exact ⟨h1 jt rfl, h2⟩
        | ok js =>
          simp only [hput, hclr, ih]
          constructor
          · rintro (h | ⟨h1, h2⟩)
            · exact Or.inl ⟨jt, js, rfl, rfl, h⟩
            · exact Or.inr ⟨fun a ha => by cases ha; exact h1, h2⟩
          · rintro (⟨a, b, ha, hb, h⟩ | ⟨h1, h2⟩)
            · cases ha; cases hb; exact Or.inl h
            · exact Or.inr ⟨h1 jt rfl, h2⟩

/-- One row of the gear task, when the target is one of its sources. -/
theorem gear_row_own (t n : Nat) (m : SMap Nat K) (hm : SMap.WF m) (hn : ∀ p ∈ m, p.1 < n)
    (hself : SMap.find? m t ≠ none) (q dq : Nat → K) :
    (∑ j ∈ range n, gearRow t m j * dq j = gearB q t m) ↔
      q (t + 1) = ∑ s ∈ range n, coef m s * (q (s + 1) + dq s) := by
  have hrow : ∀ j, gearRow t m j = coef m j := by
    intro j
    unfold gearRow
    rw [gearRow_spec t m hm]
    unfold coef
    by_cases h : j = t
    · subst h
      cases hf : SMap.find? m j with
      | none => exact absurd hf hself
      | some v => rfl
    · simp [h]
  have hb : gearB q t m = q (t + 1) - ∑ s ∈ range n, coef m s * q (s + 1) := by
    unfold gearB
    rw [foldl_sub, sum_map_eq m hm n hn fun s => q (s + 1)]
  simp only [hrow, mul_add, sum_add_distrib, hb]
  constructor <;> intro h <;> linear_combination -h

/-- **C48, exactly, for every history of calls**: for every registered target, with the last ratio given for each source since the
last `set_gear` of the target (`ratios`), the task asks that target plus step be the sum of ratio × (source plus step); but for a
target that is one of its own sources, the target is taken before the step. -/
theorem C48_exact (r : Robot K) (hn : ∀ name j, r.vJoint name = .ok j → j.idxV < r.nv) (ops : List (GearOp K))
    (s : RState K) (dq : Nat → K) :
    ∃ M, gearUpdate r (ops.foldl (gearStep r) []) s = .ok M ∧ (M.Met dq ↔
      ∀ t c, ratios r t ops.reverse = some c →
        (¬ OwnSource r t ops.reverse → s.q (t + 1) + dq t = ∑ k ∈ range r.nv, c k * (s.q (k + 1) + dq k)) ∧
        (OwnSource r t ops.reverse → s.q (t + 1) = ∑ k ∈ range r.nv, c k * (s.q (k + 1) + dq k))) := by
  refine ⟨_, rfl, ?_⟩
  obtain ⟨hwf, hhist⟩ := gears_history r ops
  have hbound := gears_bound r r.nv hn ops
  have hself := fun t => own_source r t ops
  generalize ops.foldl (gearStep r) ([] : Gears K) = g at *
  have hrow : ∀ t m, (t, m) ∈ g →
      ((∑ j ∈ range r.nv, gearRow t m j * dq j = gearB s.q t m) ↔
        (¬ OwnSource r t ops.reverse → s.q (t + 1) + dq t = ∑ k ∈ range r.nv, coef m k * (s.q (k + 1) + dq k)) ∧
        (OwnSource r t ops.reverse → s.q (t + 1) = ∑ k ∈ range r.nv, coef m k * (s.q (k + 1) + dq k))) := by
    intro t m hmem
    have hf := (SMap.mem_iff_find? g hwf.1 t m).1 hmem
    have hown := hself t
    rw [hf, Option.getD_some] at hown
    by_cases ho : OwnSource r t ops.reverse
    · rw [gear_row_own t r.nv m (hwf.2 _ hmem) (hbound _ hmem).2 (hown.2 ho) s.q dq]
      exact ⟨fun h => ⟨fun h' => absurd ho h', fun _ => h⟩, fun h => h.2 ho⟩
    · have hnone : SMap.find? m t = none := by
        by_contra h; exact ho (hown.1 h)
      rw [gear_row_met t r.nv (hbound _ hmem).1 m (hwf.2 _ hmem) (hbound _ hmem).2 hnone s.q dq]
      exact ⟨fun h => ⟨fun _ => h, fun h' => absurd h' ho⟩, fun h => h.1 ho⟩
  unfold TaskMat.Met TaskMat.app
  simp only
  constructor
  · intro h t c hc
    rw [← hhist] at hc
    cases hf : SMap.find? g t with
    | none => rw [hf] at hc; cases hc
    | some m =>
      rw [hf] at hc
      cases hc
      have hmem := (SMap.mem_iff_find? g hwf.1 t m).2 hf
      obtain ⟨i, hi, hgi⟩ := List.getElem_of_mem hmem
      have := h i hi
      rw [show g.getD i (0, []) = (t, m) by simp [List.getD, hi, hgi]] at this
      exact (hrow t m hmem).1 this
  · intro h i hi
    have hgi : g.getD i (0, []) = g[i] := by simp [List.getD, hi]
    rw [hgi]
    have hmem : g[i] ∈ g := List.getElem_mem hi
    generalize g[i] = p at *
    obtain ⟨t, m⟩ := p
    have hf := (SMap.mem_iff_find? g hwf.1 t m).1 hmem
    exact (hrow t m hmem).2 (h t (coef m) (by rw [← hhist, hf]; rfl))

/-! ## C49 -/

/-- Last target set for a joint (history given last call first). -/
def lastTarget (name : String) : List (String × K) → Option K
  | [] => none
  | (n, v) :: before => if name = n then some v else lastTarget name before

theorem targets_history (ops : List (String × K)) :
    SMap.WF (ops.foldl (fun m p => setJointTarget m p.1 p.2) ([] : SMap String K)) ∧
    ∀ name, SMap.find? (ops.foldl (fun m p => setJointTarget m p.1 p.2) ([] : SMap String K)) name
      = lastTarget name ops.reverse := by
  induction ops using List.reverseRecOn with
  | nil => exact ⟨SMap.WF_nil, fun _ => rfl⟩
  | append_singleton ops op ih =>
    rw [List.foldl_append, List.reverse_append, List.reverse_singleton, List.singleton_append]
    simp only [List.foldl_cons, List.foldl_nil]
    refine ⟨SMap.WF_set _ _ _ ih.1, fun name => ?_⟩
    rw [show setJointTarget (List.foldl (fun m p => setJointTarget m p.1 p.2) [] ops) op.1 op.2 =
      SMap.set op.1 op.2 (List.foldl (fun m p => setJointTarget m p.1 p.2) [] ops) from rfl, SMap.find?_set, ih.2]
    rfl

/-- The joints task is met by a step exactly if, for each joint given a target, position plus step is
the last target given; no other component of the step matters. An unknown joint is undefined
behaviour. -/
theorem C49_index (r : Robot K) (hn : ∀ name j, r.vJoint name = .ok j → j.idxV < r.nv) (ops : List (String × K))
    (s : RState K) :
    ((∃ p ∈ ops, r.vJoint p.1 = .error .ub) →
      jointsUpdate r (ops.foldl (fun m p => setJointTarget m p.1 p.2) []) s = .error .ub) ∧
    ((∀ p ∈ ops, ∃ j, r.vJoint p.1 = .ok j) →
      ∃ M, jointsUpdate r (ops.foldl (fun m p => setJointTarget m p.1 p.2) []) s = .ok M ∧ ∀ dq, (M.Met dq ↔
        ∀ name v j, lastTarget name ops.reverse = some v → r.vJoint name = .ok j →
          s.q j.idxQ + dq j.idxV = v)) := by
  obtain ⟨hwf, hhist⟩ := targets_history ops
  have hkeys : ∀ name, (∃ v, (name, v) ∈ ops) ↔
      ∃ v, SMap.find? (ops.foldl (fun m p => setJointTarget m p.1 p.2) ([] : SMap String K)) name = some v := by
    intro name
    rw [hhist]
    have : ∀ l : List (String × K), (∃ v, (name, v) ∈ l) ↔ ∃ v, lastTarget name l = some v := by
      intro l
      induction l with
      | nil => simp [lastTarget]
      | cons p l ih =>
        obtain ⟨n, v⟩ := p
        simp only [lastTarget]
        by_cases h : name = n
        · subst h; rw [if_pos rfl]; exact ⟨fun _ => ⟨v, rfl⟩, fun _ => ⟨v, List.mem_cons_self ..⟩⟩
        · rw [if_neg h, ← ih]
          constructor
          · rintro ⟨w, hw⟩
            rcases List.mem_cons.1 hw with hw | hw
            · cases hw; exact absurd rfl h
            · exact ⟨w, hw⟩
          · rintro ⟨w, hw⟩; exact ⟨w, List.mem_cons_of_mem _ hw⟩
    rw [← this]
    simp
  generalize ops.foldl (fun m p => setJointTarget m p.1 p.2) ([] : SMap String K) = m at *
  have hv : ∀ name e, r.vJoint name = .error e → e = .ub := by
    intro name e h
    unfold Robot.vJoint at h
    split at h <;> cases h
    rfl
  constructor
  · rintro ⟨⟨n, v⟩, hp, hub⟩
    obtain ⟨w, hw⟩ := (hkeys n).1 ⟨v, hp⟩
    have hmem := (SMap.mem_iff_find? m hwf n w).2 hw
    have hmap : ∀ l : SMap String K, (n, w) ∈ l → l.mapM (jointsRow r s) = .error .ub := by
      intro l
      induction l with
      | nil => intro h; simp at h
      | cons p l ih =>
        intro h
        rw [List.mapM_cons]
        cases hj : r.vJoint p.1 with
        | error e =>
          have : jointsRow r s p = .error e := by unfold jointsRow; rw [hj]; rfl
          rw [this, hv _ _ hj]; rfl
        | ok j =>
          have : jointsRow r s p = .ok (j.idxV, p.2 - s.q j.idxQ) := by unfold jointsRow; rw [hj]; rfl
          rw [this]
          rcases List.mem_cons.1 h with h | h
          · subst h
            have hj : r.vJoint n = .ok j := hj
            have hub : r.vJoint n = .error .ub := hub
            rw [hub] at hj; cases hj
          · rw [ih h]; rfl
    unfold jointsUpdate
    rw [hmap m hmem]; rfl
  · intro hok
    have hok' : ∀ p ∈ m, ∃ j, r.vJoint p.1 = .ok j := by
      rintro ⟨n, w⟩ hp
      obtain ⟨v, hv⟩ := (hkeys n).2 ⟨w, (SMap.mem_iff_find? m hwf n w).1 hp⟩
      exact hok (n, v) hv
    have hmap : ∀ l : SMap String K, (∀ p ∈ l, ∃ j, r.vJoint p.1 = .ok j) →
        ∃ rows, l.mapM (jointsRow r s) = .ok rows ∧
          List.Forall₂ (fun p row => ∃ j, r.vJoint p.1 = .ok j ∧ row = (j.idxV, p.2 - s.q j.idxQ)) l rows := by
      intro l
      induction l with
      | nil => intro _; exact ⟨[], rfl, .nil⟩
      | cons p l ih =>
        intro h
        obtain ⟨rows, h1, h2⟩ := ih fun q hq => h q (List.mem_cons_of_mem _ hq)
        obtain ⟨j, hj⟩ := h p (List.mem_cons_self ..)
        have : jointsRow r s p = .ok (j.idxV, p.2 - s.q j.idxQ) := by unfold jointsRow; rw [hj]; rfl
        refine ⟨(j.idxV, p.2 - s.q j.idxQ) :: rows, ?_, .cons ⟨j, hj, rfl⟩ h2⟩
        rw [List.mapM_cons, this, h1]; rfl
    obtain ⟨rows, h1, h2⟩ := hmap m hok'
    refine ⟨_, by unfold jointsUpdate; rw [h1]; rfl, fun dq => ?_⟩
    unfold TaskMat.Met TaskMat.app
    simp only
    have hrow : ∀ i (hi : i < rows.length), ∑ j ∈ range r.nv, (if j = (rows.getD i (0, 0)).1 then 1 else 0) * dq j
        = if (rows[i]).1 < r.nv then dq (rows[i]).1 else 0 := by
      intro i hi
      rw [show rows.getD i (0, 0) = rows[i] by simp [List.getD, hi]]
      simp only [ite_mul, one_mul, zero_mul]
      rw [Finset.sum_ite_eq' (range r.nv)]
      simp only [Finset.mem_range]
    have hlen := h2.length_eq
    constructor
    · intro h name v j hl hj
      rw [← hhist] at hl
      have hmem := (SMap.mem_iff_find? m hwf name v).2 hl
      obtain ⟨i, hi, hmi⟩ := List.getElem_of_mem hmem
      have hi' : i < rows.length := by omega
      have := h i hi'
      rw [hrow i hi'] at this
      obtain ⟨j', hj', hr⟩ := (List.forall₂_iff_get.1 h2).2 i hi hi'
      simp only [List.get_eq_getElem, hmi] at hj' hr
      rw [hj] at hj'; cases hj'
      rw [show rows.getD i (0, 0) = rows[i] by simp [List.getD, hi'], hr] at this
      simp only [hn name j hj, if_true] at this
      rw [this]; ring
    · intro h i hi
      have hi' : i < m.length := by omega
      rw [hrow i hi]
      obtain ⟨j, hj, hr⟩ := (List.forall₂_iff_get.1 h2).2 i hi' hi
      simp only [List.get_eq_getElem] at hj hr
      have hmem : m[i] ∈ m := List.getElem_mem hi'
      generalize m[i] = p at *
      obtain ⟨name, v⟩ := p
      have hl := (SMap.mem_iff_find? m hwf name v).1 hmem
      rw [hhist] at hl
      have := h name v j hl hj
      rw [show rows.getD i (0, 0) = rows[i] by simp [List.getD, hi], hr]
      simp only [hn name j hj, if_true]
      rw [← this]; ring

end

section
variable {K : Type} [Field K] [LinearOrder K] [IsStrictOrderedRing K]

theorem Robot.Layout.vlt {r : Robot K} (hL : r.Layout) (h1 : ∀ j ∈ r.joints, 0 < j.nV) :
    ∀ name j, r.vJoint name = .ok j → j.idxV < r.nv := by
  intro name j h
  have hm := (vJoint_mem r name j h).1
  have := hL.idxV_lt j hm
  have := h1 j hm
  omega

/-- C49 for joints with one coordinate: if the joints task is met by a step, every listed joint is at its
(last) target in the configuration reached, and the task constrains nothing else. Missing: joints with
several coordinates (e.g. continuous joints), for which the property is false (`C49_refuted`). -/
theorem C49_partial (r : Robot K) (hL : r.Layout) (hI : r.IntegrateOK) (hpos : ∀ j ∈ r.joints, 0 < j.nV)
    (ops : List (String × K)) (hsimple : ∀ p ∈ ops, ∃ j, r.vJoint p.1 = .ok j ∧ j.Simple) (s : RState K) :
    ∃ M, jointsUpdate r (ops.foldl (fun m p => setJointTarget m p.1 p.2) []) s = .ok M ∧ ∀ dq, (M.Met dq ↔
      ∀ name v j, lastTarget name ops.reverse = some v → r.vJoint name = .ok j →
        r.integrate s.q dq j.idxQ = v) := by
  obtain ⟨M, h1, h2⟩ := (C49_index r (hL.vlt hpos) ops s).2 fun p hp => by
    obtain ⟨j, hj, -⟩ := hsimple p hp; exact ⟨j, hj⟩
  refine ⟨M, h1, fun dq => ?_⟩
  rw [h2]
  have hmem : ∀ (l : List (String × K)) name v, lastTarget name l = some v → (name, v) ∈ l := by
    intro l
    induction l with
    | nil => intro name v h; cases h
    | cons p l ih =>
      intro name v h
      obtain ⟨n, w⟩ := p
      simp only [lastTarget] at h
      split at h
      · rename_i hh; cases h; subst hh; exact List.mem_cons_self ..
      · exact List.mem_cons_of_mem _ (ih name v h)
  refine forall_congr' fun name => forall_congr' fun v => forall_congr' fun j => forall_congr' fun hl =>
    forall_congr' fun hj => ?_
  obtain ⟨j', hj', hs⟩ := hsimple (name, v) (List.mem_reverse.1 (hmem _ _ _ hl))
  simp only at hj'
  rw [hj] at hj'; cases hj'
  rw [hI j (vJoint_mem r name j hj).1 hs.1 hs.2]

end

/-! ## C55 -/

/-- Two names never cover the same degree of freedom. -/
theorem Robot.Layout.covers_unique {r : Robot ℝ} (hL : r.Layout) (n n' : String) (k : Nat)
    (h : r.Covers n k) (h' : r.Covers n' k) : n = n' := by
  obtain ⟨j, hj, h1, h2⟩ := h
  obtain ⟨j', hj', h1', h2'⟩ := h'
  obtain ⟨hm, rfl⟩ := vJoint_mem r n j hj
  obtain ⟨hm', rfl⟩ := vJoint_mem r n' j' hj'
  obtain ⟨pre, post, hp⟩ := List.append_of_mem hm
  obtain ⟨pre', post', hp'⟩ := List.append_of_mem hm'
  have hv := hL.idx pre j post hp
  have hv' := hL.idx pre' j' post' hp'
  rw [hp] at hp'
  rcases List.append_eq_append_iff.1 hp' with ⟨l, e1, e2⟩ | ⟨l, e1, e2⟩
  · cases l with
    | nil => rw [List.nil_append] at e2; cases e2; rfl
    | cons a l =>
      rw [List.cons_append] at e2
      cases e2
      rw [e1] at hv'
      simp only [List.map_append, List.map_cons, List.sum_append, List.sum_cons] at hv'
      omega
  · cases l with
    | nil => rw [List.nil_append] at e2; cases e2; rfl
    | cons a l =>
      rw [List.cons_append] at e2
      cases e2
      rw [e1] at hv
      simp only [List.map_append, List.map_cons, List.sum_append, List.sum_cons] at hv
      omega

open Classical in
/-- Specification of the weight of a degree of freedom after a history (last call first): the last weight
set for its joint, otherwise the last default. -/
noncomputable def jointWeight (r : Robot ℝ) (k : Nat) : List RegOp → Option ℝ
  | [] => none
  | .setJointWeight n w :: before => if r.Covers n k then some w else jointWeight r k before
  | _ :: before => jointWeight r k before

def defaultWeight : List RegOp → ℝ
  | [] => 1
  | .setWeight w :: _ => w
  | _ :: before => defaultWeight before

noncomputable def weightOf (r : Robot ℝ) (k : Nat) (hist : List RegOp) : ℝ :=
  (jointWeight r k hist).getD (defaultWeight hist)

theorem regOverride_spec (j : Joint) (w : ℝ) : ∀ (n : Nat) (W : Nat → Nat → ℝ) (a b : Nat),
    (List.range n).foldl (fun W i => fun a b => if a = j.idxV + i ∧ b = j.idxV + i then Real.sqrt w else W a b) W a b =
      if a = b ∧ j.idxV ≤ a ∧ a < j.idxV + n then Real.sqrt w else W a b := by
  intro n
  induction n with
  | zero => intro W a b; rw [if_neg (by omega)]; rfl
  | succ n ih =>
    intro W a b
    rw [List.range_succ, List.foldl_append]
    simp only [List.foldl_cons, List.foldl_nil, ih]
    by_cases h1 : a = j.idxV + n ∧ b = j.idxV + n
    · rw [if_pos h1, if_pos (by omega)]
    · rw [if_neg h1]
      by_cases h2 : a = b ∧ j.idxV ≤ a ∧ a < j.idxV + n
      · rw [if_pos h2, if_pos (by omega)]
      · rw [if_neg h2, if_neg (by omega)]

open Classical in
/-- The overrides, in iteration order: the last one covering a degree of freedom wins. -/
theorem regOverrides_spec (r : Robot ℝ) : ∀ (m : SMap String ℝ) (W W' : Nat → Nat → ℝ), regOverrides r m W = .ok W' →
    ∀ a b, W' a b = m.foldl (fun x p => if a = b ∧ r.Covers p.1 a then Real.sqrt p.2 else x) (W a b) := by
  intro m
  induction m with
  | nil => intro W W' h a b; cases h; rfl
  | cons p m ih =>
    intro W W' h a b
    obtain ⟨name, w⟩ := p
    simp only [regOverrides] at h
    cases hj : r.vJoint name with
    | error e => rw [hj] at h; cases h
    | ok j =>
      rw [hj] at h
      rw [ih _ _ h a b, List.foldl_cons]
      congr 1
      unfold regOverride
      rw [regOverride_spec]
      have : (a = b ∧ j.idxV ≤ a ∧ a < j.idxV + j.nV) ↔ (a = b ∧ r.Covers name a) := by
        unfold Robot.Covers
        rw [hj]
        constructor
        · rintro ⟨h1, h2, h3⟩; exact ⟨h1, j, rfl, h2, h3⟩
        · rintro ⟨h1, j', hj', h2, h3⟩; cases hj'; exact ⟨h1, h2, h3⟩
      by_cases hc : a = b ∧ r.Covers name a
      · rw [if_pos hc, if_pos (this.2 hc)]
      · rw [if_neg hc, if_neg fun h => hc (this.1 h)]

open Classical in
theorem foldl_cover (r : Robot ℝ) (a : Nat) (v : ℝ) : ∀ (m : SMap String ℝ), (∀ p ∈ m, r.Covers p.1 a → p.2 = v) →
    ∀ x : ℝ, m.foldl (fun x p => if a = a ∧ r.Covers p.1 a then Real.sqrt p.2 else x) x =
      if ∃ p ∈ m, r.Covers p.1 a then Real.sqrt v else x := by
  intro m
  induction m with
  | nil => intro _ x; simp
  | cons p m ih =>
    intro h x
    rw [List.foldl_cons, ih fun q hq => h q (List.mem_cons_of_mem _ hq)]
    by_cases h1 : ∃ q ∈ m, r.Covers q.1 a
    · rw [if_pos h1, if_pos]
      obtain ⟨q, hq, hc⟩ := h1
      exact ⟨q, List.mem_cons_of_mem _ hq, hc⟩
    · rw [if_neg h1]
      by_cases h2 : r.Covers p.1 a
      · rw [if_pos ⟨rfl, h2⟩, if_pos ⟨p, List.mem_cons_self .., h2⟩, h p (List.mem_cons_self ..) h2]
      · rw [if_neg fun h => h2 h.2, if_neg]
        rintro ⟨q, hq, hc⟩
        rcases List.mem_cons.1 hq with rfl | hq
        · exact h2 hc
        · exact h1 ⟨q, hq, hc⟩

/-- State of the task after a history. -/
noncomputable def regRun (r : Robot ℝ) (hist : List RegOp) : RegTask := hist.foldl (regStep r) {}

/-- What the stored matrix `W` is when it is up to date. -/
def RegInv (r : Robot ℝ) (t : RegTask) (hist : List RegOp) : Prop :=
  SMap.WF t.jointWeights ∧ t.defaultWeight = defaultWeight hist ∧
  (∀ n v k, SMap.find? t.jointWeights n = some v → r.Covers n k → jointWeight r k hist = some v) ∧
  (∀ k v, jointWeight r k hist = some v → ∃ n, SMap.find? t.jointWeights n = some v ∧ r.Covers n k) ∧
  (t.dirty = false → ∀ a b, t.W a b = if a = b then Real.sqrt (weightOf r a hist) else 0)

open Classical in
theorem regBuild (r : Robot ℝ) (t : RegTask) (hist : List RegOp) (h : RegInv r t hist) (W : Nat → Nat → ℝ)
    (hW : regOverrides r t.jointWeights (fun a b => if a = b then Real.sqrt t.defaultWeight else 0) = .ok W) :
    ∀ a b, W a b = if a = b then Real.sqrt (weightOf r a hist) else 0 := by
  obtain ⟨i1, i2, i3, i4, -⟩ := h
  intro a b
  rw [regOverrides_spec r _ _ _ hW]
  by_cases hab : a = b
  · subst hab
    rw [if_pos rfl]
    cases hw : jointWeight r a hist with
    | none =>
      have hno : ∀ p ∈ t.jointWeights, ¬ r.Covers p.1 a := by
        rintro ⟨n, v⟩ hp hc
        have := i3 n v a ((SMap.mem_iff_find? _ i1 n v).1 hp) hc
        rw [hw] at this; cases this
      rw [foldl_cover r a 0 _ fun p hp hc => absurd hc (hno p hp), if_neg]
      · unfold weightOf; rw [hw, i2]; simp
      · rintro ⟨p, hp, hc⟩; exact hno p hp hc
    | some v =>
      rw [foldl_cover r a v _ (by
        rintro ⟨n, v'⟩ hp hc
        have := i3 n v' a ((SMap.mem_iff_find? _ i1 n v').1 hp) hc
        rw [hw] at this; cases this; rfl), if_pos]
      · unfold weightOf; rw [hw, if_pos rfl]; rfl
      · obtain ⟨n, hn, hc⟩ := i4 a v hw
        exact ⟨(n, v), (SMap.mem_iff_find? _ i1 n v).2 hn, hc⟩
  · rw [if_neg hab]
    have : ∀ (m : SMap String ℝ) (x : ℝ),
        m.foldl (fun x p => if a = b ∧ r.Covers p.1 a then Real.sqrt p.2 else x) x = x := by
      intro m
      induction m with
      | nil => intro x; rfl
      | cons p m ih => intro x; rw [List.foldl_cons, ih, if_neg fun h => hab h.1]
    rw [this, if_neg hab]

theorem regUpdate_inv (r : Robot ℝ) (t : RegTask) (hist : List RegOp) (h : RegInv r t hist) :
    RegInv r (t.update r).1 hist ∧ ((t.update r).2 = .error .ub ∨ ((t.update r).1.dirty = false ∧ 6 ≤ r.nv ∧
      (t.update r).2 = .ok ⟨r.nv - 6, r.nv, fun i j => (t.update r).1.W (6 + i) j, fun _ => 0⟩)) := by
  have hub : ∀ (m : SMap String ℝ) (W : Nat → Nat → ℝ) e, regOverrides r m W = .error e → e = .ub := by
    intro m
    induction m with
    | nil => intro W e h; cases h
    | cons p m ih =>
      intro W e h
      obtain ⟨name, w⟩ := p
      simp only [regOverrides] at h
      cases hj : r.vJoint name with
      | error e' =>
        rw [hj] at h; cases h
        unfold Robot.vJoint at hj
        split at hj <;> cases hj
        rfl
      | ok j => rw [hj] at h; exact ih _ _ h
  unfold RegTask.update
  simp only
  by_cases hd : t.dirty = true
  · rw [if_pos hd]
    cases hW : regOverrides r t.jointWeights (fun a b => if a = b then Real.sqrt t.defaultWeight else 0) with
    | error e => exact ⟨h, .inl (by rw [hub _ _ _ hW])⟩
    | ok W =>
      have hb := regBuild r t hist h W hW
      have hinv : RegInv r { t with W := W, dirty := false } hist := ⟨h.1, h.2.1, h.2.2.1, h.2.2.2.1, fun _ => hb⟩
      simp only
      by_cases hn : 6 ≤ r.nv
      · rw [if_pos hn]; exact ⟨hinv, .inr ⟨rfl, hn, rfl⟩⟩
      · rw [if_neg hn]; exact ⟨hinv, .inl rfl⟩
  · rw [if_neg hd]
    by_cases hn : 6 ≤ r.nv
    · rw [if_pos hn]; exact ⟨h, .inr ⟨by simpa using hd, hn, rfl⟩⟩
    · rw [if_neg hn]; exact ⟨h, .inl rfl⟩

theorem regRun_inv (r : Robot ℝ) (hL : r.Layout) (hist : List RegOp) : RegInv r (regRun r hist) hist.reverse := by
  unfold regRun
  induction hist using List.reverseRecOn with
  | nil =>
    refine ⟨SMap.WF_nil, rfl, ?_, ?_, ?_⟩
    · intro n v k h; cases h
    · intro k v h; cases h
    · intro h; cases h
  | append_singleton hist op ih =>
    rw [List.foldl_append, List.reverse_append, List.reverse_singleton, List.singleton_append]
    simp only [List.foldl_cons, List.foldl_nil]
    generalize hist.foldl (regStep r) {} = t at *
    obtain ⟨i1, i2, i3, i4, i5⟩ := ih
    cases op with
    | setWeight w => exact ⟨i1, rfl, i3, i4, fun h => by cases h⟩
    | setJointWeight n w =>
      refine ⟨SMap.WF_set _ _ _ i1, i2, ?_, ?_, fun h => by cases h⟩
      · intro n' v k hf hc
        simp only [regStep, RegTask.setJointWeight, SMap.find?_set] at hf
        simp only [jointWeight]
        by_cases hn : n' = n
        · subst hn; rw [if_pos rfl] at hf; cases hf; rw [if_pos hc]
        · rw [if_neg hn] at hf
          rw [if_neg fun hc' => hn (hL.covers_unique _ _ k hc hc')]
          exact i3 n' v k hf hc
      · intro k v hv
        simp only [jointWeight] at hv
        simp only [regStep, RegTask.setJointWeight, SMap.find?_set]
        by_cases hc : r.Covers n k
        · rw [if_pos hc] at hv; cases hv
          exact ⟨n, by rw [if_pos rfl], hc⟩
        · rw [if_neg hc] at hv
          obtain ⟨n', h1, h2⟩ := i4 k v hv
          refine ⟨n', ?_, h2⟩
          rw [if_neg]
          · exact h1
          · rintro rfl; exact hc h2
    | update =>
      have := (regUpdate_inv r t hist.reverse ⟨i1, i2, i3, i4, i5⟩).1
      exact ⟨this.1, this.2.1, this.2.2.1, this.2.2.2.1, this.2.2.2.2⟩

/-- The weights given by a call are not negative. -/
def RegOp.NonNeg : RegOp → Prop
  | .setWeight w => 0 ≤ w
  | .setJointWeight _ w => 0 ≤ w
  | .update => True

theorem weightOf_nonneg (r : Robot ℝ) (k : Nat) : ∀ (l : List RegOp), (∀ o ∈ l, o.NonNeg) → 0 ≤ weightOf r k l := by
  intro l hl
  have h1 : ∀ l : List RegOp, (∀ o ∈ l, o.NonNeg) → 0 ≤ defaultWeight l := by
    intro l
    induction l with
    | nil => intro _; exact zero_le_one
    | cons o l ih =>
      intro h
      have ih := ih fun o ho => h o (List.mem_cons_of_mem _ ho)
      have := h o (List.mem_cons_self ..)
      cases o with
      | setWeight w => exact this
      | setJointWeight n w => exact ih
      | update => exact ih
  have h2 : ∀ l : List RegOp, (∀ o ∈ l, o.NonNeg) → ∀ v, jointWeight r k l = some v → 0 ≤ v := by
    intro l
    induction l with
    | nil => intro _ v h; cases h
    | cons o l ih =>
      intro h v hv
      have ih := ih fun o ho => h o (List.mem_cons_of_mem _ ho)
      have := h o (List.mem_cons_self ..)
      cases o with
      | setWeight w => exact ih v hv
      | setJointWeight n w =>
        simp only [jointWeight] at hv
        split at hv
        · cases hv; exact this
        · exact ih v hv
      | update => exact ih v hv
  unfold weightOf
  cases h : jointWeight r k l with
  | none => exact h1 l hl
  | some v => exact h2 l hl v h

/-- C55: after any history of weight changes and solves (updates), the squared error of the regularization
task is the sum over the actuated degrees of freedom of weight × step², the weight being the last one set
for the joint, or the last default. The floating base is never penalised. The update fails only on a
joint name unknown to the model. -/
theorem C55 (r : Robot ℝ) (hL : r.Layout) (hist : List RegOp) (hw : ∀ o ∈ hist, o.NonNeg) :
    ((regRun r hist).update r).2 = .error .ub ∨
    ∃ M, ((regRun r hist).update r).2 = .ok M ∧ ∀ dq : Nat → ℝ,
      ∑ i ∈ range M.rows, (M.app dq i - M.b i) ^ 2 =
        ∑ i ∈ range (r.nv - 6), weightOf r (6 + i) hist.reverse * dq (6 + i) ^ 2 := by
  obtain ⟨hinv, h⟩ := regUpdate_inv r _ _ (regRun_inv r hL hist)
  rcases h with h | ⟨hd, hn, h⟩
  · exact .inl h
  · refine .inr ⟨_, h, fun dq => ?_⟩
    refine Finset.sum_congr rfl fun i hi => ?_
    have hi := Finset.mem_range.1 hi
    have hi : i < r.nv - 6 := hi
    unfold TaskMat.app
    simp only [hinv.2.2.2.2 hd]
    rw [Finset.sum_eq_single_of_mem (6 + i) (Finset.mem_range.2 (by omega)) fun j _ hj => by
      rw [if_neg (fun h => hj h.symm), zero_mul]]
    rw [if_pos rfl, sub_zero, mul_pow, Real.sq_sqrt (weightOf_nonneg r _ _ fun o ho => hw o (List.mem_reverse.1 ho))]

theorem C55_total (r : Robot ℝ) (hL : r.Layout) (hist : List RegOp)
    (hk : ∀ n w, RegOp.setJointWeight n w ∈ hist → ∃ j, r.vJoint n = .ok j) :
    ∃ M, ((regRun r hist).update r).2 = .ok M := by
  have hkeys : ∀ n v, SMap.find? (regRun r hist).jointWeights n = some v → ∃ j, r.vJoint n = .ok j := by
    unfold regRun
    induction hist using List.reverseRecOn with
    | nil => intro n v h; cases h
    | append_singleton hist op ih =>
      rw [List.foldl_append]
      simp only [List.foldl_cons, List.foldl_nil]
      have ih := ih fun n w h => hk n w (List.mem_append_left _ h)
      generalize hist.foldl (regStep r) {} = t at *
      cases op with
      | setWeight w => exact ih
      | setJointWeight n w =>
        intro n' v h
        simp only [regStep, RegTask.setJointWeight, SMap.find?_set] at h
        by_cases hn : n' = n
        · subst hn; exact hk n' w (by simp)
        · rw [if_neg hn] at h; exact ih n' v h
      | update =>
        intro n v h
        refine ih n v ?_
        rw [← h]
        simp only [regStep, RegTask.update]
        split
        · split <;> [rfl; (split <;> rfl)]
        · split <;> rfl
  have hwf := (regRun_inv r hL hist).1
  have htot : ∀ (m : SMap String ℝ) (W : Nat → Nat → ℝ), (∀ p ∈ m, ∃ j, r.vJoint p.1 = .ok j) →
      ∃ W', regOverrides r m W = .ok W' := by
    intro m
    induction m with
    | nil => intro W _; exact ⟨W, rfl⟩
    | cons p m ih =>
      intro W h
      obtain ⟨n, w⟩ := p
      obtain ⟨j, hj⟩ := h (n, w) (List.mem_cons_self ..)
      simp only at hj
      simp only [regOverrides, hj]
      exact ih _ fun q hq => h q (List.mem_cons_of_mem _ hq)
  have hn : 6 ≤ r.nv := by have := hL.nv; omega
  unfold RegTask.update
  simp only [if_pos hn]
  split
  · obtain ⟨W', hW'⟩ := htot (regRun r hist).jointWeights
      (fun a b => if a = b then Real.sqrt (regRun r hist).defaultWeight else 0) (by
        rintro ⟨n, v⟩ hp
        exact hkeys n v ((SMap.mem_iff_find? _ hwf n v).1 hp))
    rw [hW']
    exact ⟨_, rfl⟩
  · exact ⟨_, rfl⟩

/-! ## Counterexamples -/

/-- A robot with a continuous joint before two joints with one coordinate. -/
def wheelRobot : Robot ℚ where
  nq := 11
  nv := 9
  joints := [⟨"wheel", 7, 2, 6, 1⟩, ⟨"a", 9, 1, 7, 1⟩, ⟨"b", 10, 1, 8, 1⟩]
  lower := fun _ => -10
  upper := fun _ => 10
  vlim := fun _ => 10
  integrate := fun q v i => if 9 ≤ i then q i + v (i - 2) else q i
  difference := fun q q' i => q' i - q i

theorem wheelRobot_ok : wheelRobot.Layout ∧ wheelRobot.IntegrateOK := by
  refine ⟨⟨?_, rfl, rfl⟩, ?_⟩
  · intro pre j post h
    match pre, h with
    | [], h => simp only [wheelRobot, List.nil_append, List.cons.injEq] at h; obtain ⟨rfl, -⟩ := h; simp
    | [a], h =>
      simp only [wheelRobot, List.cons_append, List.nil_append, List.cons.injEq] at h
      obtain ⟨rfl, rfl, -⟩ := h; simp
    | [a, b], h =>
      simp only [wheelRobot, List.cons_append, List.nil_append, List.cons.injEq] at h
      obtain ⟨rfl, rfl, rfl, -⟩ := h; simp
    | a :: b :: c :: l, h =>
      have := congrArg List.length h
      simp [wheelRobot] at this
  · intro j hj h1 h2 q v
    simp only [wheelRobot, List.mem_cons, List.not_mem_nil, or_false] at hj
    rcases hj with rfl | rfl | rfl <;> simp [wheelRobot] at h1 ⊢

/-- C47 is false with a continuous joint before the geared ones: `a = b` is registered, the task is met by
the zero step, and `a` and `b` differ. -/
theorem C47_refuted : ∃ (r : Robot ℚ) (ops : List (GearOp ℚ)) (s : RState ℚ) (dq : Nat → ℚ) (M : TaskMat ℚ) (a b : Joint),
    r.Layout ∧ r.IntegrateOK ∧ (∀ op ∈ ops, op.Distinct r) ∧ a ∈ r.joints ∧ b ∈ r.joints ∧ a.Simple ∧ b.Simple ∧
    ops = [.add a.name b.name 1] ∧
    gearUpdate r (ops.foldl (gearStep r) []) s = .ok M ∧ M.Met dq ∧
    r.integrate s.q dq a.idxQ ≠ 1 * r.integrate s.q dq b.idxQ := by
  have ha : wheelRobot.vJoint "a" = .ok ⟨"a", 9, 1, 7, 1⟩ := by decide
  have hb : wheelRobot.vJoint "b" = .ok ⟨"b", 10, 1, 8, 1⟩ := by decide
  refine ⟨wheelRobot, [.add "a" "b" 1], ⟨fun i => if i = 7 ∨ i = 10 then 1 else 0, fun _ => 0, fun _ => 0⟩, fun _ => 0, _,
    ⟨"a", 9, 1, 7, 1⟩, ⟨"b", 10, 1, 8, 1⟩, wheelRobot_ok.1, wheelRobot_ok.2, ?_, by simp [wheelRobot], by simp [wheelRobot],
    ⟨rfl, rfl⟩, ⟨rfl, rfl⟩, rfl, rfl, ?_, ?_⟩
  · intro op hop
    simp only [List.mem_singleton] at hop
    subst hop
    intro jt js h1 h2
    simp only [GearOp.names] at h1 h2
    rw [ha] at h1; rw [hb] at h2
    cases h1; cases h2
    decide
  · intro i hi
    have hg : [GearOp.add "a" "b" (1 : ℚ)].foldl (gearStep wheelRobot) [] = [(7, [(8, 1)])] := by
      simp only [List.foldl_cons, List.foldl_nil, gearStep, addGear, ha, hb]
      rfl
    have hi : i < ([GearOp.add "a" "b" (1 : ℚ)].foldl (gearStep wheelRobot) []).length := hi
    rw [hg] at hi
    have : i = 0 := by simpa using hi
    subst this
    simp only [TaskMat.app, hg, mul_zero, Finset.sum_const_zero]
    simp [gearB]
  · simp [wheelRobot]

theorem demo_a : demoRobot.vJoint "a" = .ok ⟨"a", 7, 1, 6, 1⟩ := by decide
theorem demo_b : demoRobot.vJoint "b" = .ok ⟨"b", 8, 1, 7, 1⟩ := by decide

/-- C48 is false for a repeated source: the second ratio replaces the first. `a = 1·b + 2·b` is documented;
the task is met with `a = 2`, `b = 1`. -/
theorem C48_refuted_repeat : ∃ (ops : List (GearOp ℚ)) (s : RState ℚ) (dq : Nat → ℚ) (M : TaskMat ℚ) (c : Nat → ℚ),
    (∀ op ∈ ops, op.Distinct demoRobot) ∧
    gearUpdate demoRobot (ops.foldl (gearStep demoRobot) []) s = .ok M ∧ M.Met dq ∧
    summed demoRobot 6 ops.reverse = some c ∧
    s.q 7 + dq 6 ≠ ∑ k ∈ range demoRobot.nv, c k * (s.q (k + 1) + dq k) := by
  refine ⟨[.add "a" "b" 1, .add "a" "b" 2], ⟨fun i => if i = 7 then 2 else if i = 8 then 1 else 0, fun _ => 0, fun _ => 0⟩,
    fun _ => 0, _, fun s => (if s = 7 then 2 else 0) + ((if s = 7 then 1 else 0) + 0), ?_, rfl, ?_, ?_, ?_⟩
  · intro op hop
    simp only [List.mem_cons, List.not_mem_nil, or_false] at hop
    rcases hop with rfl | rfl <;> intro jt js h1 h2 <;> simp only [GearOp.names] at h1 h2 <;>
      (rw [demo_a] at h1; rw [demo_b] at h2; cases h1; cases h2; decide)
  · intro i hi
    have hg : [GearOp.add "a" "b" (1 : ℚ), .add "a" "b" 2].foldl (gearStep demoRobot) [] = [(6, [(7, 2)])] := by
      simp only [List.foldl_cons, List.foldl_nil, gearStep, addGear, demo_a, demo_b]
      rfl
    have hi : i < ([GearOp.add "a" "b" (1 : ℚ), .add "a" "b" 2].foldl (gearStep demoRobot) []).length := hi
    rw [hg] at hi
    have : i = 0 := by simpa using hi
    subst this
    simp only [TaskMat.app, hg, mul_zero, Finset.sum_const_zero]
    norm_num [gearB]
  · simp [summed, demo_a, demo_b]
  · simp [demoRobot, Finset.sum_range_succ]

/-- C48 is false for a joint that is its own source: the ratio replaces the `-1`. `a = a/2` is documented
(so `a = 0`); the task is met by the step that takes `a` from 1 to 2. -/
theorem C48_refuted_self : ∃ (ops : List (GearOp ℚ)) (s : RState ℚ) (dq : Nat → ℚ) (M : TaskMat ℚ) (c : Nat → ℚ),
    gearUpdate demoRobot (ops.foldl (gearStep demoRobot) []) s = .ok M ∧ M.Met dq ∧
    summed demoRobot 6 ops.reverse = some c ∧ NoRepeat demoRobot ops.reverse ∧
    s.q 7 + dq 6 ≠ ∑ k ∈ range demoRobot.nv, c k * (s.q (k + 1) + dq k) := by
  refine ⟨[.add "a" "a" (1 / 2)], ⟨fun i => if i = 7 then 1 else 0, fun _ => 0, fun _ => 0⟩,
    fun i => if i = 6 then 1 else 0, _, fun s => (if s = 6 then 1 / 2 else 0) + 0, rfl, ?_, ?_, ?_, ?_⟩
  · intro i hi
    have hg : [GearOp.add "a" "a" (1 / 2 : ℚ)].foldl (gearStep demoRobot) [] = [(6, [(6, 1 / 2)])] := by
      simp only [List.foldl_cons, List.foldl_nil, gearStep, addGear, demo_a]
      rfl
    have hi : i < ([GearOp.add "a" "a" (1 / 2 : ℚ)].foldl (gearStep demoRobot) []).length := hi
    rw [hg] at hi
    have : i = 0 := by simpa using hi
    subst this
    simp only [TaskMat.app, hg]
    norm_num [gearB, gearRow, demoRobot, Finset.sum_range_succ]
  · simp [summed, demo_a]
  · exact ⟨trivial, fun jt js _ _ => rfl⟩
  · norm_num [demoRobot, Finset.sum_range_succ]

/-- A robot with one continuous joint, with pinocchio's `integrate` for it. -/
noncomputable def contRobot : Robot ℝ where
  nq := 9
  nv := 7
  joints := [⟨"wheel", 7, 2, 6, 1⟩]
  lower := fun _ => -10
  upper := fun _ => 10
  vlim := fun _ => 10
  integrate := fun q v i => if i = 7 then q 7 * Real.cos (v 6) - q 8 * Real.sin (v 6)
    else if i = 8 then q 7 * Real.sin (v 6) + q 8 * Real.cos (v 6) else q i
  difference := fun q q' i => q' i - q i

/-- C49 is false for continuous joints: target 0, the task is met, and the joint value (`get_joint`) after
the step is not 0. -/
theorem C49_refuted : ∃ (r : Robot ℝ) (s : RState ℝ) (dq : Nat → ℝ) (M : TaskMat ℝ) (j : Joint),
    r.Layout ∧ j ∈ r.joints ∧ r.vJoint j.name = .ok j ∧
    jointsUpdate r (setJointTarget [] j.name 0) s = .ok M ∧ M.Met dq ∧ r.integrate s.q dq j.idxQ ≠ 0 := by
  refine ⟨contRobot, ⟨fun i => if i = 6 ∨ i = 7 then 1 else 0, fun _ => 0, fun _ => 0⟩, fun i => if i = 6 then -1 else 0,
    _, ⟨"wheel", 7, 2, 6, 1⟩, ⟨?_, rfl, rfl⟩, by simp [contRobot], by simp [contRobot, Robot.vJoint], rfl, ?_, ?_⟩
  · intro pre j post h
    match pre, h with
    | [], h => simp only [contRobot, List.nil_append, List.cons.injEq] at h; obtain ⟨rfl, -⟩ := h; simp
    | a :: l, h =>
      have := congrArg List.length h
      simp [contRobot] at this
  · intro i hi
    have : i = 0 := by
      have hi : i < 1 := hi
      omega
    subst this
    simp [TaskMat.app, contRobot, Finset.sum_range_succ]
  · simp only [contRobot, if_true]
    have := Real.cos_one_pos
    simp
    linarith [this]

/-! ## Non-vacuity -/

/-- C47: a gear `a = 2 b` met by a step (with `a = 0`, `b = 1`, moving `a` by 2). -/
example : (∀ op ∈ [GearOp.add "a" "b" (2 : ℚ)], op.Distinct demoRobot) ∧ (∀ j ∈ demoRobot.joints, j.Simple) ∧
    (∃ M, gearUpdate demoRobot ([GearOp.add "a" "b" (2 : ℚ)].foldl (gearStep demoRobot) [])
      ⟨fun i => if i = 8 then 1 else 0, fun _ => 0, fun _ => 0⟩ = .ok M ∧ M.rows = 1 ∧
      M.Met (fun i => if i = 6 then 2 else 0)) := by
  refine ⟨?_, ?_, _, rfl, by decide +kernel, ?_⟩
  · intro op hop
    simp only [List.mem_singleton] at hop
    subst hop
    intro jt js h1 h2
    simp only [GearOp.names] at h1 h2
    rw [demo_a] at h1; rw [demo_b] at h2; cases h1; cases h2; decide
  · intro j hj
    simp only [demoRobot, List.mem_cons, List.not_mem_nil, or_false] at hj
    rcases hj with rfl | rfl <;> exact ⟨rfl, rfl⟩
  · intro i hi
    have hg : [GearOp.add "a" "b" (2 : ℚ)].foldl (gearStep demoRobot) [] = [(6, [(7, 2)])] := by
      simp only [List.foldl_cons, List.foldl_nil, gearStep, addGear, demo_a, demo_b]
      rfl
    have hi : i < ([GearOp.add "a" "b" (2 : ℚ)].foldl (gearStep demoRobot) []).length := hi
    rw [hg] at hi
    have : i = 0 := by simpa using hi
    subst this
    simp only [TaskMat.app, hg]
    norm_num [gearB, gearRow, demoRobot, Finset.sum_range_succ]

/-- C49: targets for two joints; the second call for `a` wins. -/
example : lastTarget "a" ([("a", (1 : ℚ)), ("b", 2), ("a", 3)].reverse) = some 3 ∧
    (∀ p ∈ [("a", (1 : ℚ)), ("b", 2), ("a", 3)], ∃ j, demoRobot.vJoint p.1 = .ok j ∧ j.Simple) := by
  refine ⟨by decide +kernel, ?_⟩
  intro p hp
  simp only [List.mem_cons, List.not_mem_nil, or_false] at hp
  rcases hp with rfl | rfl | rfl
  · exact ⟨_, demo_a, rfl, rfl⟩
  · exact ⟨_, demo_b, rfl, rfl⟩
  · exact ⟨_, demo_a, rfl, rfl⟩

/-- C55: the demo robot over the reals; the weight of `a` is its own, `b` has the default. -/
noncomputable def demoRobotR : Robot ℝ where
  nq := 9
  nv := 8
  joints := [⟨"a", 7, 1, 6, 1⟩, ⟨"b", 8, 1, 7, 1⟩]
  lower := fun _ => -1
  upper := fun _ => 1
  vlim := fun _ => 3
  integrate := fun q v i => if 7 ≤ i then q i + v (i - 1) else q i
  difference := fun q q' i => q' (i + 1) - q (i + 1)

theorem demoRobotR_layout : demoRobotR.Layout := by
  refine ⟨?_, rfl, rfl⟩
  intro pre j post h
  match pre, h with
  | [], h => simp only [demoRobotR, List.nil_append, List.cons.injEq] at h; obtain ⟨rfl, -⟩ := h; simp
  | [a], h =>
    simp only [demoRobotR, List.cons_append, List.nil_append, List.cons.injEq] at h
    obtain ⟨rfl, rfl, -⟩ := h; simp
  | a :: b :: l, h =>
    have := congrArg List.length h
    simp [demoRobotR] at this

example : let hist : List RegOp := [.setJointWeight "a" 4, .update, .setWeight 9, .setJointWeight "a" 5]
    (∀ o ∈ hist, o.NonNeg) ∧ weightOf demoRobotR 6 hist.reverse = 5 ∧ weightOf demoRobotR 7 hist.reverse = 9 ∧
    ∃ M, ((regRun demoRobotR hist).update demoRobotR).2 = .ok M := by
  have ha : demoRobotR.vJoint "a" = .ok ⟨"a", 7, 1, 6, 1⟩ := by simp [demoRobotR, Robot.vJoint]
  refine ⟨?_, ?_, ?_, ?_⟩
  · intro o ho
    simp only [List.mem_cons, List.not_mem_nil, or_false] at ho
    rcases ho with rfl | rfl | rfl | rfl <;> simp [RegOp.NonNeg]
  · simp [weightOf, jointWeight, Robot.Covers, ha]
  · simp [weightOf, jointWeight, defaultWeight, Robot.Covers, ha]
  · refine C55_total _ demoRobotR_layout _ ?_
    intro n w h
    simp only [List.mem_cons, List.not_mem_nil, or_false, reduceCtorEq, false_or, RegOp.setJointWeight.injEq] at h
    rcases h with ⟨rfl, -⟩ | ⟨rfl, -⟩ <;> exact ⟨_, ha⟩

end Verif.Kinematics
