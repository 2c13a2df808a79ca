/-
Property C171: contacts and the tasks they were made from.
-/
import Verif.Dynamics.ContactSession

namespace Verif.Dynamics.ContactSession

/-! ## Specification -/

/-- The task exists and was not deleted. -/
def LiveTask (s : St) (a : Nat) : Prop := ∃ o, s.theap a = some o ∧ o.alive = true

/-- The contact exists and was not deleted. -/
def LiveContact (s : St) (c : Nat) : Prop := ∃ o, s.cheap c = some o ∧ o.alive = true

/-- The contact was made from the task. -/
def MadeFrom (s : St) (c a : Nat) : Prop := ∃ o, s.cheap c = some o ∧ a ∈ o.kind.reads

/-- Careful use: live objects only, each contact is given once, `remove_task` is used on the tasks of the solver only, and a
task is removed or deleted only when no contact of the solver was made from it. -/
def Careful (s : St) : Op → Prop
  | .newTask _ => True
  | .newContact k _ => ∀ a ∈ k.reads, LiveTask s a
  | .addTask a => LiveTask s a
  | .addContact c => LiveContact s c ∧ c ∉ s.contacts ∧ ∀ a, MadeFrom s c a → LiveTask s a
  | .removeTask a => (∃ o, s.theap a = some o ∧ o.alive = true ∧ o.owned = true) ∧ ∀ c ∈ s.contacts, ¬ MadeFrom s c a
  | .removeContact c => LiveContact s c
  | .dropTask a => (∃ o, s.theap a = some o ∧ o.alive = true ∧ o.owned = false) ∧ a ∉ s.tasks ∧ ∀ c ∈ s.contacts, ¬ MadeFrom s c a
  | .dropContact c => (∃ o, s.cheap c = some o ∧ o.alive = true ∧ o.owned = false) ∧ c ∉ s.contacts
  | .activate c _ => LiveContact s c
  | .clear => True
  | .solve => True

/-- Every call of the session is careful. -/
def AllCareful (s : St) : List Op → Prop
  | [] => True
  | op :: ops => Careful s op ∧ ∀ s', s.step op = .ok s' → AllCareful s' ops

/-- Nothing the solver holds is dead. -/
structure Sound (s : St) : Prop where
  tborn : ∀ a o, s.theap a = some o → a < s.tnext
  cborn : ∀ c o, s.cheap c = some o → c < s.cnext
  tasks : ∀ a ∈ s.tasks, LiveTask s a
  tnodup : s.tasks.Nodup
  contacts : ∀ c ∈ s.contacts, LiveContact s c
  cnodup : s.contacts.Nodup
  made : ∀ c ∈ s.contacts, ∀ a, MadeFrom s c a → LiveTask s a

/-! ## Accesses -/

theorem task_ok {s : St} {a : Nat} {o : TObj} : s.task a = .ok o ↔ s.theap a = some o ∧ o.alive = true := by
  unfold St.task
  cases h : s.theap a with
  | none => simp
  | some o' =>
    simp only [Option.some.injEq]
    by_cases ho : o'.alive = true
    · rw [if_pos ho]
      constructor
      · intro g; cases g; exact ⟨rfl, ho⟩
      · rintro ⟨rfl, -⟩; rfl
    · rw [if_neg ho]
      constructor
      · intro g; cases g
      · rintro ⟨rfl, g⟩; exact absurd g ho

theorem task_live {s : St} {a : Nat} : (∃ o, s.task a = .ok o) ↔ LiveTask s a := by
  constructor
  · rintro ⟨o, h⟩; exact ⟨o, task_ok.1 h⟩
  · rintro ⟨o, h⟩; exact ⟨o, task_ok.2 h⟩

theorem task_dead {s : St} {a : Nat} (h : ¬ LiveTask s a) : s.task a = .error .ub := by
  unfold St.task
  cases h' : s.theap a with
  | none => rfl
  | some o =>
    by_cases ho : o.alive = true
    · exact absurd ⟨o, h', ho⟩ h
    · exact if_neg ho

theorem contact_ok {s : St} {c : Nat} {o : CObj} : s.contact c = .ok o ↔ s.cheap c = some o ∧ o.alive = true := by
  unfold St.contact
  cases h : s.cheap c with
  | none => simp
  | some o' =>
    simp only [Option.some.injEq]
    by_cases ho : o'.alive = true
    · rw [if_pos ho]
      constructor
      · intro g; cases g; exact ⟨rfl, ho⟩
      · rintro ⟨rfl, -⟩; rfl
    · rw [if_neg ho]
      constructor
      · intro g; cases g
      · rintro ⟨rfl, g⟩; exact absurd g ho

theorem contact_dead {s : St} {c : Nat} (h : ¬ LiveContact s c) : s.contact c = .error .ub := by
  unfold St.contact
  cases h' : s.cheap c with
  | none => rfl
  | some o =>
    by_cases ho : o.alive = true
    · exact absurd ⟨o, h', ho⟩ h
    · exact if_neg ho

theorem put_same {α : Type} (h : Nat → Option α) (a : Nat) (o : α) : put h a o a = some o := if_pos rfl

theorem put_ne {α : Type} (h : Nat → Option α) {a b : Nat} (o : α) (hb : b ≠ a) : put h a o b = h b := if_neg hb

/-! ## The update of the tasks -/

theorem updateTasks_spec (n : Nat) : ∀ (l : List Nat) (s : St),
    ((∀ a ∈ l, LiveTask s a) → ∃ s', s.updateTasks n l = .ok s') ∧
    (∀ s', s.updateTasks n l = .ok s' → (∀ a ∈ l, LiveTask s a) ∧ s'.cheap = s.cheap ∧ s'.tasks = s.tasks ∧
      s'.contacts = s.contacts ∧ s'.tnext = s.tnext ∧ s'.cnext = s.cnext ∧ s'.solves = s.solves ∧
      (∀ a ∉ l, s'.theap a = s.theap a) ∧
      (∀ a ∈ l, ∃ o, s.theap a = some o ∧ o.alive = true ∧ s'.theap a = some { o with stamp := n })) := by
  intro l
  induction l with
  | nil =>
    intro s
    refine ⟨fun _ => ⟨s, rfl⟩, fun s' h => ?_⟩
    cases h
    exact ⟨fun a ha => (by cases ha), rfl, rfl, rfl, rfl, rfl, rfl, fun _ _ => rfl, fun a ha => (by cases ha)⟩
  | cons a l ih =>
    intro s
    have live : ∀ (o : TObj), s.theap a = some o → o.alive = true → ∀ b,
        LiveTask { s with theap := put s.theap a { o with stamp := n } } b ↔ LiveTask s b := by
      intro o h1 h2 b
      unfold LiveTask
      dsimp only
      by_cases hb : b = a
      · subst hb
        rw [show (put s.theap b { o with stamp := n }) b = some { o with stamp := n } from put_same _ _ _]
        exact ⟨fun _ => ⟨o, h1, h2⟩, fun _ => ⟨_, rfl, h2⟩⟩
      · rw [show (put s.theap a { o with stamp := n }) b = s.theap b from put_ne _ _ hb]
    constructor
    · intro h
      obtain ⟨o, h1, h2⟩ := h a List.mem_cons_self
      have ht : s.task a = .ok o := task_ok.2 ⟨h1, h2⟩
      rw [St.updateTasks, ht]
      exact (ih _).1 fun b hb => (live o h1 h2 b).2 (h b (List.mem_cons_of_mem _ hb))
    · intro s' h
      rw [St.updateTasks] at h
      cases ht : s.task a with
      | error e => rw [ht] at h; cases h
      | ok o =>
        rw [ht] at h
        obtain ⟨h1, h2⟩ := task_ok.1 ht
        obtain ⟨g1, g2, g3, g4, g5, g6, g7, g8, g9⟩ := (ih _).2 s' h
        refine ⟨?_, g2, g3, g4, g5, g6, g7, ?_, ?_⟩
        · intro b hb
          rcases List.mem_cons.1 hb with rfl | hb
          · exact ⟨o, h1, h2⟩
          · exact (live o h1 h2 b).1 (g1 b hb)
        · intro b hb
          rw [List.mem_cons, not_or] at hb
          rw [g8 b hb.2]
          exact put_ne _ _ hb.1
        · intro b hb
          by_cases hba : b = a
          · subst hba
            by_cases hbl : b ∈ l
            · obtain ⟨o', k1, k2, k3⟩ := g9 b hbl
              have k1' : some { o with stamp := n } = some o' := (put_same s.theap b { o with stamp := n }).symm.trans k1
              cases k1'
              exact ⟨o, h1, h2, k3⟩
            · exact ⟨o, h1, h2, (g8 b hbl).trans (put_same _ _ _)⟩
          · have hbl : b ∈ l := (List.mem_cons.1 hb).resolve_left hba
            obtain ⟨o', k1, k2, k3⟩ := g9 b hbl
            exact ⟨o', (put_ne s.theap { o with stamp := n } hba).symm.trans k1, k2, k3⟩

/-! ## Reading the tasks of a contact -/

/-- The moment of the member `A` of a task. -/
def stampOf (s : St) (a : Nat) : Nat := ((s.theap a).map TObj.stamp).getD 0

theorem readTasks_spec (s : St) : ∀ l : List Nat,
    ((∀ a ∈ l, LiveTask s a) → s.readTasks l = .ok (l.map (stampOf s))) ∧
    (∀ r, s.readTasks l = .ok r → (∀ a ∈ l, LiveTask s a) ∧ r = l.map (stampOf s)) := by
  intro l
  induction l with
  | nil =>
    refine ⟨fun _ => rfl, fun r h => ?_⟩
    cases h
    exact ⟨fun a ha => (by cases ha), rfl⟩
  | cons a l ih =>
    constructor
    · intro h
      obtain ⟨o, h1, h2⟩ := h a List.mem_cons_self
      have ht : s.task a = .ok o := task_ok.2 ⟨h1, h2⟩
      rw [St.readTasks, ht]
      simp only [ih.1 fun b hb => h b (List.mem_cons_of_mem _ hb), List.map_cons]
      rw [show stampOf s a = o.stamp by unfold stampOf; rw [h1]; rfl]
    · intro r h
      rw [St.readTasks] at h
      cases ht : s.task a with
      | error e => rw [ht] at h; cases h
      | ok o =>
        rw [ht] at h
        obtain ⟨h1, h2⟩ := task_ok.1 ht
        cases hr : s.readTasks l with
        | error e => rw [hr] at h; cases h
        | ok r' =>
          rw [hr] at h
          cases h
          obtain ⟨g1, g2⟩ := ih.2 r' hr
          refine ⟨?_, ?_⟩
          · intro b hb
            rcases List.mem_cons.1 hb with rfl | hb
            · exact ⟨o, h1, h2⟩
            · exact g1 b hb
          · rw [List.map_cons, ← g2, show stampOf s a = o.stamp by unfold stampOf; rw [h1]; rfl]

theorem copies_reads (k : Kind) : ∀ a ∈ k.copies, a ∈ k.reads := by
  cases k <;> simp [Kind.copies, Kind.reads]

/-- A contact can be updated: it is live and, when it is active, so are its tasks. -/
def Ready (s : St) (c : Nat) : Prop :=
  ∃ o, s.cheap c = some o ∧ o.alive = true ∧ (o.active = true → ∀ a ∈ o.kind.reads, LiveTask s a)

/-- The active contacts of a list, with the moments of what they copy. -/
def activeOf (s : St) (l : List Nat) : List (Nat × List Nat) :=
  l.filterMap fun c => (s.cheap c).bind fun o => if o.active then some (c, o.kind.copies.map (stampOf s)) else none

theorem updateContacts_spec (s : St) : ∀ l : List Nat,
    ((∀ c ∈ l, Ready s c) → s.updateContacts l = .ok (activeOf s l)) ∧
    (∀ r, s.updateContacts l = .ok r → (∀ c ∈ l, Ready s c) ∧ r = activeOf s l) := by
  intro l
  induction l with
  | nil =>
    refine ⟨fun _ => rfl, fun r h => ?_⟩
    cases h
    exact ⟨fun a ha => (by cases ha), rfl⟩
  | cons c l ih =>
    constructor
    · intro h
      obtain ⟨o, h1, h2, h3⟩ := h c List.mem_cons_self
      have ht : s.contact c = .ok o := contact_ok.2 ⟨h1, h2⟩
      have hl := ih.1 fun b hb => h b (List.mem_cons_of_mem _ hb)
      rw [St.updateContacts, ht]
      dsimp only
      by_cases ha : o.active = true
      · rw [if_pos ha, (readTasks_spec s _).1 (h3 ha), (readTasks_spec s _).1 fun a hk => h3 ha a (copies_reads _ a hk)]
        dsimp only
        rw [hl]
        unfold activeOf
        simp only [List.filterMap_cons, h1, Option.bind_some, ha, if_true]
      · rw [if_neg ha, hl]
        unfold activeOf
        simp only [List.filterMap_cons, h1, Option.bind_some, ha, Bool.false_eq_true, if_false]
    · intro r h
      rw [St.updateContacts] at h
      cases ht : s.contact c with
      | error e => rw [ht] at h; cases h
      | ok o =>
        rw [ht] at h
        dsimp only at h
        obtain ⟨h1, h2⟩ := contact_ok.1 ht
        by_cases ha : o.active = true
        · rw [if_pos ha] at h
          cases hr : s.readTasks o.kind.reads with
          | error e => rw [hr] at h; cases h
          | ok r1 =>
            obtain ⟨g1, -⟩ := (readTasks_spec s _).2 r1 hr
            rw [hr, (readTasks_spec s _).1 fun a hk => g1 a (copies_reads _ a hk)] at h
            dsimp only at h
            cases hu : s.updateContacts l with
            | error e => rw [hu] at h; cases h
            | ok r' =>
              rw [hu] at h
              cases h
              obtain ⟨k1, k2⟩ := ih.2 r' hu
              refine ⟨?_, ?_⟩
              · intro b hb
                rcases List.mem_cons.1 hb with rfl | hb
                · exact ⟨o, h1, h2, fun _ => g1⟩
                · exact k1 b hb
              · rw [k2]
                unfold activeOf
                simp only [List.filterMap_cons, h1, Option.bind_some, ha, if_true]
        · rw [if_neg ha] at h
          obtain ⟨k1, k2⟩ := ih.2 r h
          refine ⟨?_, ?_⟩
          · intro b hb
            rcases List.mem_cons.1 hb with rfl | hb
            · exact ⟨o, h1, h2, fun g => absurd g ha⟩
            · exact k1 b hb
          · rw [k2]
            unfold activeOf
            simp only [List.filterMap_cons, h1, Option.bind_some, ha, Bool.false_eq_true, if_false]

/-! ## C171 -/

/-- The update of the tasks changes which tasks are live for nobody. -/
theorem updateTasks_live {n : Nat} {s s' : St} (h : s.updateTasks n s.tasks = .ok s') (a : Nat) :
    LiveTask s' a ↔ LiveTask s a := by
  obtain ⟨-, -, -, -, -, -, -, h8, h9⟩ := (updateTasks_spec n s.tasks s).2 s' h
  by_cases ha : a ∈ s.tasks
  · obtain ⟨o, k1, k2, k3⟩ := h9 a ha
    exact ⟨fun _ => ⟨o, k1, k2⟩, fun _ => ⟨_, k3, k2⟩⟩
  · unfold LiveTask
    rw [h8 a ha]

theorem updateTasks_ready {n : Nat} {s s' : St} (h : s.updateTasks n s.tasks = .ok s') (c : Nat) :
    Ready s' c ↔ Ready s c := by
  have hc : s'.cheap = s.cheap := ((updateTasks_spec n s.tasks s).2 s' h).2.1
  unfold Ready
  rw [hc]
  constructor
  · rintro ⟨o, a, b, d⟩; exact ⟨o, a, b, fun g x hx => (updateTasks_live h x).1 (d g x hx)⟩
  · rintro ⟨o, a, b, d⟩; exact ⟨o, a, b, fun g x hx => (updateTasks_live h x).2 (d g x hx)⟩

/-- **C171, exactly when a solve is defined**: the tasks and the contacts of the solver are live, and so are the tasks from which
the active contacts were made, whether or not these tasks are still in the solver. -/
theorem C171_exact (s : St) :
    (∃ r, s.solve = .ok r) ↔ (∀ a ∈ s.tasks, LiveTask s a) ∧ ∀ c ∈ s.contacts, ∃ o, s.cheap c = some o ∧ o.alive = true ∧
      (o.active = true → ∀ a ∈ o.kind.reads, LiveTask s a) := by
  constructor
  · rintro ⟨r, h⟩
    unfold St.solve at h
    cases hu : s.updateTasks (s.solves + 1) s.tasks with
    | error e => rw [hu] at h; cases h
    | ok s1 =>
      rw [hu] at h
      dsimp only at h
      cases hc : s1.updateContacts s1.contacts with
      | error e => rw [hc] at h; cases h
      | ok r' =>
        have hs := (updateTasks_spec _ s.tasks s).2 s1 hu
        refine ⟨hs.1, fun c hcm => ?_⟩
        rw [hs.2.2.2.1] at hc
        exact (updateTasks_ready hu c).1 (((updateContacts_spec s1 _).2 r' hc).1 c hcm)
  · rintro ⟨h1, h2⟩
    obtain ⟨s1, hu⟩ := (updateTasks_spec (s.solves + 1) s.tasks s).1 h1
    have hs := (updateTasks_spec _ s.tasks s).2 s1 hu
    have hc := (updateContacts_spec s1 s1.contacts).1 fun c hcm =>
      (updateTasks_ready hu c).2 (h2 c (by rw [← hs.2.2.2.1]; exact hcm))
    unfold St.solve
    rw [hu]
    dsimp only
    rw [hc]
    exact ⟨_, rfl⟩

/-- A solve which is not defined is undefined behaviour, not an exception. -/
theorem solve_ub (s : St) (h : ¬ ∃ r, s.solve = .ok r) : s.solve = .error .ub := by
  have errT : ∀ n l (s : St) e, s.updateTasks n l = .error e → e = .ub := by
    intro n l
    induction l with
    | nil => intro s e h; cases h
    | cons a l ih =>
      intro s e h
      rw [St.updateTasks] at h
      by_cases hl : LiveTask s a
      · obtain ⟨o, ho⟩ := task_live.2 hl
        rw [ho] at h
        exact ih _ _ h
      · rw [task_dead hl] at h; cases h; rfl
  have errR : ∀ (s : St) l e, s.readTasks l = .error e → e = .ub := by
    intro s l
    induction l with
    | nil => intro e h; cases h
    | cons a l ih =>
      intro e h
      rw [St.readTasks] at h
      by_cases hl : LiveTask s a
      · obtain ⟨o, ho⟩ := task_live.2 hl
        rw [ho] at h
        dsimp only at h
        cases hr : s.readTasks l with
        | error e' => rw [hr] at h; cases h; exact ih _ hr
        | ok r => rw [hr] at h; cases h
      · rw [task_dead hl] at h; cases h; rfl
  have errC : ∀ (s : St) l e, s.updateContacts l = .error e → e = .ub := by
    intro s l
    induction l with
    | nil => intro e h; cases h
    | cons c l ih =>
      intro e h
      rw [St.updateContacts] at h
      by_cases hl : LiveContact s c
      · obtain ⟨o, ho⟩ := hl
        rw [contact_ok.2 ho] at h
        dsimp only at h
        split at h
        · split at h
          · cases hr : s.updateContacts l with
            | error e' => rw [hr] at h; cases h; exact ih _ hr
            | ok r => rw [hr] at h; cases h
          · rename_i h1; cases h; exact errR _ _ _ h1
          · rename_i h1 h2; cases h; exact errR _ _ _ h1
        · exact ih _ h
      · rw [contact_dead hl] at h; cases h; rfl
  unfold St.solve at h ⊢
  cases hu : s.updateTasks (s.solves + 1) s.tasks with
  | error e => rw [errT _ _ _ _ hu]
  | ok s1 =>
    rw [hu] at h
    dsimp only at h ⊢
    cases hc : s1.updateContacts s1.contacts with
    | error e => rw [errC _ _ _ hc]
    | ok r => rw [hc] at h; exact absurd ⟨_, rfl⟩ h

/-- **C171, what the contacts are given**: each active contact, once and in order, and no other; a Jacobian copied from a task is
the one of this solve exactly when the task is in the solver, and else the one of the last update of the task. -/
theorem C171_fresh (s s' : St) (r : List (Nat × List Nat)) (h : s.solve = .ok (s', r)) :
    r = s.contacts.filterMap (fun c => (s.cheap c).bind fun o => if o.active then
      some (c, o.kind.copies.map fun a => if a ∈ s.tasks then s.solves + 1 else ((s.theap a).map TObj.stamp).getD 0) else none) := by
  unfold St.solve at h
  cases hu : s.updateTasks (s.solves + 1) s.tasks with
  | error e => rw [hu] at h; cases h
  | ok s1 =>
    rw [hu] at h
    dsimp only at h
    obtain ⟨h1, h2, h3, h4, -, -, -, h8, h9⟩ := (updateTasks_spec _ s.tasks s).2 s1 hu
    cases hc : s1.updateContacts s1.contacts with
    | error e => rw [hc] at h; cases h
    | ok r' =>
      rw [hc] at h
      cases h
      rw [((updateContacts_spec s1 _).2 r hc).2]
      unfold activeOf
      rw [h2, h4]
      have : ∀ a, stampOf s1 a = if a ∈ s.tasks then s.solves + 1 else ((s.theap a).map TObj.stamp).getD 0 := by
        intro a
        unfold stampOf
        by_cases ha : a ∈ s.tasks
        · obtain ⟨o, -, -, k3⟩ := h9 a ha
          rw [if_pos ha, k3]; rfl
        · rw [if_neg ha, h8 a ha]
      simp only [funext this]

/-! ## Careful sessions -/

theorem freeTasks_spec : ∀ (l : List Nat) (s : St), l.Nodup → (∀ a ∈ l, LiveTask s a) →
    ∃ s', s.freeTasks l = .ok s' ∧ s'.cheap = s.cheap ∧ s'.contacts = s.contacts ∧ s'.tnext = s.tnext ∧ s'.cnext = s.cnext ∧
      ∀ a, (s'.theap a).isSome = (s.theap a).isSome := by
  intro l
  induction l with
  | nil => intro s _ _; exact ⟨s, rfl, rfl, rfl, rfl, rfl, fun _ => rfl⟩
  | cons a l ih =>
    intro s hn hl
    obtain ⟨o, h1, h2⟩ := hl a List.mem_cons_self
    rw [St.freeTasks, task_ok.2 ⟨h1, h2⟩]
    dsimp only
    rw [List.nodup_cons] at hn
    by_cases ho : o.owned = true
    · rw [if_pos ho]
      obtain ⟨s', g1, g2, g3, g4, g5, g6⟩ := ih { s with theap := put s.theap a { o with alive := false } } hn.2 (by
        intro b hb
        obtain ⟨o', k1, k2⟩ := hl b (List.mem_cons_of_mem _ hb)
        have hba : b ≠ a := fun e => hn.1 (e ▸ hb)
        exact ⟨o', (put_ne _ _ hba).trans k1, k2⟩)
      refine ⟨s', g1, g2, g3, g4, g5, fun b => (g6 b).trans ?_⟩
      by_cases hba : b = a
      · subst hba
        show (put s.theap b { o with alive := false } b).isSome = _
        rw [put_same, h1]; rfl
      · exact congrArg Option.isSome (put_ne s.theap { o with alive := false } hba)
    · rw [if_neg ho]
      exact ih s hn.2 fun b hb => hl b (List.mem_cons_of_mem _ hb)

theorem freeContacts_spec : ∀ (l : List Nat) (s : St), l.Nodup → (∀ c ∈ l, LiveContact s c) →
    ∃ s', s.freeContacts l = .ok s' ∧ s'.theap = s.theap ∧ s'.tasks = s.tasks ∧ s'.tnext = s.tnext ∧ s'.cnext = s.cnext ∧
      ∀ a, (s'.cheap a).isSome = (s.cheap a).isSome := by
  intro l
  induction l with
  | nil => intro s _ _; exact ⟨s, rfl, rfl, rfl, rfl, rfl, fun _ => rfl⟩
  | cons a l ih =>
    intro s hn hl
    obtain ⟨o, h1, h2⟩ := hl a List.mem_cons_self
    rw [St.freeContacts, contact_ok.2 ⟨h1, h2⟩]
    dsimp only
    rw [List.nodup_cons] at hn
    by_cases ho : o.owned = true
    · rw [if_pos ho]
      obtain ⟨s', g1, g2, g3, g4, g5, g6⟩ := ih { s with cheap := put s.cheap a { o with alive := false } } hn.2 (by
        intro b hb
        obtain ⟨o', k1, k2⟩ := hl b (List.mem_cons_of_mem _ hb)
        have hba : b ≠ a := fun e => hn.1 (e ▸ hb)
        exact ⟨o', (put_ne _ _ hba).trans k1, k2⟩)
      refine ⟨s', g1, g2, g3, g4, g5, fun b => (g6 b).trans ?_⟩
      by_cases hba : b = a
      · subst hba
        show (put s.cheap b { o with alive := false } b).isSome = _
        rw [put_same, h1]; rfl
      · exact congrArg Option.isSome (put_ne s.cheap { o with alive := false } hba)
    · rw [if_neg ho]
      exact ih s hn.2 fun b hb => hl b (List.mem_cons_of_mem _ hb)

/-- Killing a task the solver does not hold and which no contact of the solver was made from. -/
theorem Sound.kill {s : St} (h : Sound s) {a : Nat} {o o' : TObj} (ha : s.theap a = some o) (l : List Nat)
    (hl : ∀ b ∈ l, b ∈ s.tasks ∧ b ≠ a) (hn : l.Nodup) (hc : ∀ c ∈ s.contacts, ¬ MadeFrom s c a) :
    Sound { s with tasks := l, theap := put s.theap a o' } := by
  have live : ∀ b, b ≠ a → LiveTask s b → LiveTask { s with tasks := l, theap := put s.theap a o' } b := by
    rintro b hb ⟨x, h1, h2⟩
    exact ⟨x, (put_ne _ _ hb).trans h1, h2⟩
  refine ⟨?_, h.cborn, ?_, hn, h.contacts, h.cnodup, ?_⟩
  · intro b x hx
    by_cases hb : b = a
    · subst hb; exact h.tborn b o ha
    · exact h.tborn b x ((put_ne s.theap o' hb).symm.trans hx)
  · intro b hb
    exact live b (hl b hb).2 (h.tasks b (hl b hb).1)
  · intro c hcm b hm
    have hba : b ≠ a := by rintro rfl; exact hc c hcm hm
    exact live b hba (h.made c hcm b hm)

theorem Sound.step {s : St} (h : Sound s) (op : Op) (hc : Careful s op) : ∃ s', s.step op = .ok s' ∧ Sound s' := by
  cases op with
  | newTask o =>
    have fresh : s.theap s.tnext = none := by
      cases hx : s.theap s.tnext with
      | none => rfl
      | some x => exact absurd (h.tborn _ _ hx) (by omega)
    have live : ∀ b, LiveTask s b → LiveTask (s.newTask o) b := by
      rintro b ⟨x, h1, h2⟩
      have hb : b ≠ s.tnext := by rintro rfl; rw [fresh] at h1; cases h1
      exact ⟨x, (put_ne _ _ hb).trans h1, h2⟩
    refine ⟨_, rfl, ?_, h.cborn, ?_, ?_, h.contacts, h.cnodup, ?_⟩
    · intro b x hx
      show b < s.tnext + 1
      by_cases hb : b = s.tnext
      · omega
      · have := h.tborn b x ((put_ne s.theap _ hb).symm.trans hx)
        omega
    · intro b hb
      have hb' : b ∈ (if o then s.tasks ++ [s.tnext] else s.tasks) := hb
      split at hb'
      · rcases List.mem_append.1 hb' with hb' | hb'
        · exact live b (h.tasks b hb')
        · rw [List.mem_singleton.1 hb']
          exact ⟨_, put_same _ _ _, rfl⟩
      · exact live b (h.tasks b hb')
    · show (if o then s.tasks ++ [s.tnext] else s.tasks).Nodup
      split
      · rw [List.nodup_append]
        refine ⟨h.tnodup, List.nodup_singleton _, ?_⟩
        intro x hx y hy
        rw [List.mem_singleton.1 hy]
        rintro rfl
        obtain ⟨z, hz, -⟩ := h.tasks _ hx
        rw [fresh] at hz; cases hz
      · exact h.tnodup
    · intro c hcm b hm
      exact live b (h.made c hcm b hm)
  | newContact k o =>
    have fresh : s.cheap s.cnext = none := by
      cases hx : s.cheap s.cnext with
      | none => rfl
      | some x => exact absurd (h.cborn _ _ hx) (by omega)
    have ne : ∀ c ∈ s.contacts, c ≠ s.cnext := by
      rintro c hcm rfl
      obtain ⟨z, hz, -⟩ := h.contacts _ hcm
      rw [fresh] at hz; cases hz
    refine ⟨_, rfl, h.tborn, ?_, h.tasks, h.tnodup, ?_, ?_, ?_⟩
    · intro b x hx
      show b < s.cnext + 1
      by_cases hb : b = s.cnext
      · omega
      · have := h.cborn b x ((put_ne s.cheap _ hb).symm.trans hx)
        omega
    · intro b hb
      have hb' : b ∈ (if o then s.contacts ++ [s.cnext] else s.contacts) := hb
      have old : ∀ b ∈ s.contacts, LiveContact (s.newContact k o) b := by
        intro b hb
        obtain ⟨x, h1, h2⟩ := h.contacts b hb
        exact ⟨x, (put_ne _ _ (ne b hb)).trans h1, h2⟩
      split at hb'
      · rcases List.mem_append.1 hb' with hb' | hb'
        · exact old b hb'
        · rw [List.mem_singleton.1 hb']
          exact ⟨_, put_same _ _ _, rfl⟩
      · exact old b hb'
    · show (if o then s.contacts ++ [s.cnext] else s.contacts).Nodup
      split
      · rw [List.nodup_append]
        refine ⟨h.cnodup, List.nodup_singleton _, ?_⟩
        intro x hx y hy
        rw [List.mem_singleton.1 hy]
        exact ne x hx
      · exact h.cnodup
    · intro c hcm b hm
      by_cases hcn : c = s.cnext
      · subst hcn
        obtain ⟨x, h1, h2⟩ := hm
        have h1' : some _ = some x := (put_same s.cheap s.cnext _).symm.trans h1
        cases h1'
        exact hc b h2
      · have hcm' : c ∈ (if o then s.contacts ++ [s.cnext] else s.contacts) := hcm
        have hcs : c ∈ s.contacts := by
          split at hcm'
          · rcases List.mem_append.1 hcm' with g | g
            · exact g
            · exact absurd (List.mem_singleton.1 g) hcn
          · exact hcm'
        obtain ⟨x, h1, h2⟩ := hm
        exact h.made c hcs b ⟨x, (put_ne s.cheap _ hcn).symm.trans h1, h2⟩
  | addTask a =>
    obtain ⟨o, ho⟩ := task_live.2 hc
    refine ⟨{ s with tasks := if a ∈ s.tasks then s.tasks else s.tasks ++ [a] }, ?_, h.tborn, h.cborn, ?_, ?_, h.contacts, h.cnodup, h.made⟩
    · show s.addTask a = _
      unfold St.addTask
      rw [ho]
    · intro b hb
      have hb' : b ∈ (if a ∈ s.tasks then s.tasks else s.tasks ++ [a]) := hb
      split at hb'
      · exact h.tasks b hb'
      · rcases List.mem_append.1 hb' with g | g
        · exact h.tasks b g
        · rw [List.mem_singleton.1 g]; exact hc
    · show (if a ∈ s.tasks then s.tasks else s.tasks ++ [a]).Nodup
      split
      · exact h.tnodup
      · rename_i hna
        rw [List.nodup_append]
        refine ⟨h.tnodup, List.nodup_singleton _, ?_⟩
        intro x hx y hy
        rw [List.mem_singleton.1 hy]
        rintro rfl
        exact hna hx
  | addContact c =>
    obtain ⟨⟨o, ho⟩, hn, hm⟩ := hc
    refine ⟨{ s with contacts := s.contacts ++ [c] }, ?_, h.tborn, h.cborn, h.tasks, h.tnodup, ?_, ?_, ?_⟩
    · show s.addContact c = _
      unfold St.addContact
      rw [contact_ok.2 ho]
    · intro b hb
      rcases List.mem_append.1 hb with g | g
      · exact h.contacts b g
      · rw [List.mem_singleton.1 g]; exact ⟨o, ho⟩
    · show (s.contacts ++ [c]).Nodup
      rw [List.nodup_append]
      refine ⟨h.cnodup, List.nodup_singleton _, ?_⟩
      intro x hx y hy
      rw [List.mem_singleton.1 hy]
      rintro rfl
      exact hn hx
    · intro b hb a ha
      rcases List.mem_append.1 hb with g | g
      · exact h.made b g a ha
      · rw [List.mem_singleton.1 g] at ha; exact hm a ha
  | removeTask a =>
    obtain ⟨⟨o, h1, h2, -⟩, hm⟩ := hc
    refine ⟨{ s with tasks := s.tasks.filter (· ≠ a), theap := put s.theap a { o with alive := false } }, ?_,
      h.kill h1 _ ?_ (h.tnodup.filter _) hm⟩
    · show s.removeTask a = _
      unfold St.removeTask
      rw [task_ok.2 ⟨h1, h2⟩]
    · intro b hb
      rw [List.mem_filter] at hb
      exact ⟨hb.1, by simpa using hb.2⟩
  | dropTask a =>
    obtain ⟨⟨o, h1, h2, -⟩, hna, hm⟩ := hc
    refine ⟨{ s with theap := put s.theap a { o with alive := false } }, ?_, h.kill h1 s.tasks ?_ h.tnodup hm⟩
    · simp only [St.step, task_ok.2 ⟨h1, h2⟩]
    · intro b hb
      exact ⟨hb, by rintro rfl; exact hna hb⟩
  | removeContact c =>
    obtain ⟨o, h1, h2⟩ := hc
    refine ⟨{ s with contacts := s.contacts.filter (· ≠ c)
                     cheap := if o.owned then put s.cheap c { o with alive := false } else s.cheap }, ?_, h.tborn, ?_, h.tasks,
      h.tnodup, ?_, h.cnodup.filter _, ?_⟩
    · show s.removeContact c = _
      unfold St.removeContact
      rw [contact_ok.2 ⟨h1, h2⟩]
    · intro b x hx
      have hx' : (if o.owned then put s.cheap c { o with alive := false } else s.cheap) b = some x := hx
      split at hx'
      · by_cases hb : b = c
        · subst hb; exact h.cborn b o h1
        · exact h.cborn b x ((put_ne s.cheap _ hb).symm.trans hx')
      · exact h.cborn b x hx'
    · intro b hb
      have hb' := List.mem_filter.1 hb
      have hbc : b ≠ c := by simpa using hb'.2
      obtain ⟨x, k1, k2⟩ := h.contacts b hb'.1
      refine ⟨x, ?_, k2⟩
      show (if o.owned then put s.cheap c { o with alive := false } else s.cheap) b = some x
      split
      · exact (put_ne _ _ hbc).trans k1
      · exact k1
    · intro b hb a ha
      have hb' := List.mem_filter.1 hb
      have hbc : b ≠ c := by simpa using hb'.2
      obtain ⟨x, k1, k2⟩ := ha
      refine h.made b hb'.1 a ⟨x, ?_, k2⟩
      have k1' : (if o.owned then put s.cheap c { o with alive := false } else s.cheap) b = some x := k1
      split at k1'
      · exact (put_ne s.cheap _ hbc).symm.trans k1'
      · exact k1'
  | dropContact c =>
    obtain ⟨⟨o, h1, h2, -⟩, hn⟩ := hc
    refine ⟨{ s with cheap := put s.cheap c { o with alive := false } }, ?_, h.tborn, ?_, h.tasks, h.tnodup, ?_, h.cnodup, ?_⟩
    · simp only [St.step, contact_ok.2 ⟨h1, h2⟩]
    · intro b x hx
      by_cases hb : b = c
      · subst hb; exact h.cborn b o h1
      · exact h.cborn b x ((put_ne s.cheap _ hb).symm.trans hx)
    · intro b hb
      have hbc : b ≠ c := by rintro rfl; exact hn hb
      obtain ⟨x, k1, k2⟩ := h.contacts b hb
      exact ⟨x, (put_ne _ _ hbc).trans k1, k2⟩
    · intro b hb a ha
      have hbc : b ≠ c := by rintro rfl; exact hn hb
      obtain ⟨x, k1, k2⟩ := ha
      exact h.made b hb a ⟨x, (put_ne s.cheap _ hbc).symm.trans k1, k2⟩
  | activate c v =>
    obtain ⟨o, h1, h2⟩ := hc
    refine ⟨{ s with cheap := put s.cheap c { o with active := v } }, ?_, h.tborn, ?_, h.tasks, h.tnodup, ?_, h.cnodup, ?_⟩
    · simp only [St.step, contact_ok.2 ⟨h1, h2⟩]
    · intro b x hx
      by_cases hb : b = c
      · subst hb; exact h.cborn b o h1
      · exact h.cborn b x ((put_ne s.cheap _ hb).symm.trans hx)
    · intro b hb
      by_cases hbc : b = c
      · subst hbc; exact ⟨_, put_same _ _ _, h2⟩
      · obtain ⟨x, k1, k2⟩ := h.contacts b hb
        exact ⟨x, (put_ne _ _ hbc).trans k1, k2⟩
    · intro b hb a ha
      by_cases hbc : b = c
      · subst hbc
        obtain ⟨x, k1, k2⟩ := ha
        have k1' : some _ = some x := (put_same s.cheap b _).symm.trans k1
        cases k1'
        exact h.made b hb a ⟨o, h1, k2⟩
      · obtain ⟨x, k1, k2⟩ := ha
        exact h.made b hb a ⟨x, (put_ne s.cheap _ hbc).symm.trans k1, k2⟩
  | clear =>
    obtain ⟨s1, g1, g2, g3, g4, g5, g6⟩ := freeTasks_spec s.tasks s h.tnodup h.tasks
    obtain ⟨s2, k1, k2, k3, k4, k5, k6⟩ := freeContacts_spec s.contacts { s1 with tasks := [] } h.cnodup (by
      intro c hcm
      obtain ⟨x, x1, x2⟩ := h.contacts c hcm
      exact ⟨x, by rw [g2]; exact x1, x2⟩)
    refine ⟨{ s2 with contacts := [] }, ?_, ?_, ?_, ?_, ?_, fun c hcm => (by cases hcm), List.nodup_nil, fun c hcm => (by cases hcm)⟩
    · show s.clear = _
      unfold St.clear
      rw [g1]
      dsimp only
      rw [k1]
    · intro a x hx
      have hx' : s2.theap a = some x := hx
      rw [k2] at hx'
      have : (s.theap a).isSome = true := by rw [← g6 a]; show (s1.theap a).isSome = true; rw [hx']; rfl
      obtain ⟨y, hy⟩ := Option.isSome_iff_exists.1 this
      show a < s2.tnext
      rw [k4]
      show a < s1.tnext
      rw [g4]
      exact h.tborn a y hy
    · intro c x hx
      have hx' : s2.cheap c = some x := hx
      have : (s.cheap c).isSome = true := by rw [← g2, ← show (s2.cheap c).isSome = (s1.cheap c).isSome from k6 c, hx']; rfl
      obtain ⟨y, hy⟩ := Option.isSome_iff_exists.1 this
      show c < s2.cnext
      rw [k5]
      show c < s1.cnext
      rw [g5]
      exact h.cborn c y hy
    · intro a ha
      have ha' : a ∈ s2.tasks := ha
      rw [k3] at ha'
      cases ha'
    · show s2.tasks.Nodup
      rw [k3]
      exact List.nodup_nil
  | solve =>
    obtain ⟨⟨s', r⟩, hr⟩ := (C171_exact s).2 ⟨h.tasks, fun c hcm => by
      obtain ⟨o, k1, k2⟩ := h.contacts c hcm
      exact ⟨o, k1, k2, fun _ a ha => h.made c hcm a ⟨o, k1, ha⟩⟩⟩
    refine ⟨s', ?_, ?_⟩
    · simp only [St.step, hr]
    · unfold St.solve at hr
      cases hu : s.updateTasks (s.solves + 1) s.tasks with
      | error e => rw [hu] at hr; cases hr
      | ok s1 =>
        rw [hu] at hr
        dsimp only at hr
        obtain ⟨-, h2, h3, h4, h5, h6, -, h8, h9⟩ := (updateTasks_spec _ s.tasks s).2 s1 hu
        cases hcc : s1.updateContacts s1.contacts with
        | error e => rw [hcc] at hr; cases hr
        | ok r' =>
          rw [hcc] at hr
          cases hr
          refine ⟨?_, ?_, ?_, ?_, ?_, ?_, ?_⟩
          · intro a x hx
            show a < s1.tnext
            rw [h5]
            have hx' : s1.theap a = some x := hx
            by_cases ha : a ∈ s.tasks
            · obtain ⟨o, k1, -⟩ := h9 a ha
              exact h.tborn a o k1
            · rw [h8 a ha] at hx'
              exact h.tborn a x hx'
          · intro c x hx
            have hx' : s1.cheap c = some x := hx
            show c < s1.cnext
            rw [h6]
            rw [h2] at hx'
            exact h.cborn c x hx'
          · intro a ha
            have ha' : a ∈ s1.tasks := ha
            rw [h3] at ha'
            exact (updateTasks_live hu a).2 (h.tasks a ha')
          · show s1.tasks.Nodup
            rw [h3]; exact h.tnodup
          · intro c hcm
            have hcm' : c ∈ s1.contacts := hcm
            rw [h4] at hcm'
            obtain ⟨o, k1, k2⟩ := h.contacts c hcm'
            exact ⟨o, by show s1.cheap c = _; rw [h2]; exact k1, k2⟩
          · show s1.contacts.Nodup
            rw [h4]; exact h.cnodup
          · intro c hcm a ha
            have hcm' : c ∈ s1.contacts := hcm
            rw [h4] at hcm'
            obtain ⟨o, k1, k2⟩ := ha
            have k1' : s1.cheap c = some o := k1
            rw [h2] at k1'
            exact (updateTasks_live hu a).2 (h.made c hcm' a ⟨o, k1', k2⟩)

theorem sound_run : ∀ (ops : List Op) (s : St), Sound s → AllCareful s ops → ∃ s', s.run ops = .ok s' ∧ Sound s' := by
  intro ops
  induction ops with
  | nil => intro s h _; exact ⟨s, rfl, h⟩
  | cons op ops ih =>
    intro s h hc
    obtain ⟨s', h1, h2⟩ := h.step op hc.1
    rw [St.run, h1]
    exact ih s' h2 (hc.2 s' h1)

/-- **C171, what is true**: in a careful session, of any length, no call touches freed memory, and at every moment everything
the solver holds (its tasks, its contacts, and the tasks its contacts were made from) is live. Missing for the full C171: a task
removed while a contact made from it is in the solver (`C171_refuted`). -/
theorem C171_partial (ops : List Op) (h : AllCareful {} ops) : ∃ s, St.run {} ops = .ok s ∧
    (∀ a ∈ s.tasks, LiveTask s a) ∧ (∀ c ∈ s.contacts, LiveContact s c) ∧
    (∀ c ∈ s.contacts, ∀ a, MadeFrom s c a → LiveTask s a) ∧ ∃ r, s.solve = .ok r := by
  have h0 : Sound ({} : St) := ⟨fun a o h => (by cases h), fun a o h => (by cases h), fun a h => (by cases h), List.nodup_nil,
    fun a h => (by cases h), List.nodup_nil, fun a h => (by cases h)⟩
  obtain ⟨s, h1, h2⟩ := sound_run ops {} h0 h
  refine ⟨s, h1, h2.tasks, h2.contacts, h2.made, (C171_exact s).2 ⟨h2.tasks, fun c hcm => ?_⟩⟩
  obtain ⟨o, k1, k2⟩ := h2.contacts c hcm
  exact ⟨o, k1, k2, fun _ a ha => h2.made c hcm a ⟨o, k1, ha⟩⟩

/-! ## The refutation -/

/-- The call neither removes nor deletes nor switches the contact. -/
def Leaves (c : Nat) : Op → Prop
  | .removeContact c' => c' ≠ c
  | .dropContact c' => c' ≠ c
  | .activate c' _ => c' ≠ c
  | .clear => False
  | _ => True

/-- A contact in the solver is active, and made from a task which is dead. -/
def Doomed (s : St) (c a : Nat) : Prop :=
  c ∈ s.contacts ∧ c < s.cnext ∧ a < s.tnext ∧ ¬ LiveTask s a ∧
    ∃ o, s.cheap c = some o ∧ o.active = true ∧ a ∈ o.kind.reads

theorem Doomed.solve {s : St} {c a : Nat} (h : Doomed s c a) : s.solve = .error .ub := by
  apply solve_ub
  intro hr
  obtain ⟨h1, -, -, h2, o, h3, h4, h5⟩ := h
  obtain ⟨o', k1, k2, k3⟩ := ((C171_exact s).1 hr).2 c h1
  rw [h3] at k1; cases k1
  exact h2 (k3 h4 a h5)

theorem Doomed.step {s s' : St} {c a : Nat} (h : Doomed s c a) (op : Op) (hl : Leaves c op) (hs : s.step op = .ok s') :
    Doomed s' c a := by
  obtain ⟨h1, hcn, htn, h2, o, h3, h4, h5⟩ := id h
  have dead : ∀ (b : Nat) (x : TObj), (b = a → x.alive = false) →
      ¬ ∃ y, put s.theap b x a = some y ∧ y.alive = true := by
    rintro b x hx ⟨y, g1, g2⟩
    by_cases hb : a = b
    · subst hb
      have g1' : some x = some y := (put_same s.theap a x).symm.trans g1
      cases g1'
      rw [hx rfl] at g2; cases g2
    · exact h2 ⟨y, (put_ne s.theap x hb).symm.trans g1, g2⟩
  have other : ∀ (b : Nat) (x : CObj), b ≠ c → put s.cheap b x c = some o := fun b x hb => (put_ne _ _ (Ne.symm hb)).trans h3
  cases op with
  | newTask ow =>
    cases hs
    refine ⟨h1, hcn, by show a < s.tnext + 1; omega, ?_, o, h3, h4, h5⟩
    exact dead s.tnext _ (fun e => absurd e (by omega))
  | newContact k ow =>
    cases hs
    refine ⟨?_, by show c < s.cnext + 1; omega, htn, h2, o, other _ _ (by omega), h4, h5⟩
    show c ∈ (if ow then s.contacts ++ [s.cnext] else s.contacts)
    split
    · exact List.mem_append_left _ h1
    · exact h1
  | addTask b =>
    have hs' : s.addTask b = .ok s' := hs
    unfold St.addTask at hs'
    split at hs'
    · cases hs'
    · cases hs'; exact h
  | addContact b =>
    have hs' : s.addContact b = .ok s' := hs
    unfold St.addContact at hs'
    split at hs'
    · cases hs'
    · cases hs'; exact ⟨List.mem_append_left _ h1, hcn, htn, h2, o, h3, h4, h5⟩
  | removeTask b =>
    have hs' : s.removeTask b = .ok s' := hs
    unfold St.removeTask at hs'
    split at hs'
    · cases hs'
    · cases hs'
      exact ⟨h1, hcn, htn, dead b _ (fun _ => rfl), o, h3, h4, h5⟩
  | removeContact b =>
    have hs' : s.removeContact b = .ok s' := hs
    have hb : b ≠ c := hl
    unfold St.removeContact at hs'
    split at hs'
    · cases hs'
    · rename_i ob hob
      cases hs'
      refine ⟨List.mem_filter.2 ⟨h1, by simpa using Ne.symm hb⟩, hcn, htn, h2, o, ?_, h4, h5⟩
      show (if ob.owned then put s.cheap b { ob with alive := false } else s.cheap) c = some o
      split
      · exact other _ _ hb
      · exact h3
  | dropTask b =>
    have hs' : (match s.task b with | .error e => .error e | .ok o => .ok { s with theap := put s.theap b { o with alive := false } } :
        Except Err St) = .ok s' := hs
    split at hs'
    · cases hs'
    · cases hs'
      exact ⟨h1, hcn, htn, dead b _ (fun _ => rfl), o, h3, h4, h5⟩
  | dropContact b =>
    have hs' : (match s.contact b with | .error e => .error e | .ok o => .ok { s with cheap := put s.cheap b { o with alive := false } } :
        Except Err St) = .ok s' := hs
    split at hs'
    · cases hs'
    · cases hs'
      exact ⟨h1, hcn, htn, h2, o, other _ _ hl, h4, h5⟩
  | activate b v =>
    have hs' : (match s.contact b with | .error e => .error e | .ok o => .ok { s with cheap := put s.cheap b { o with active := v } } :
        Except Err St) = .ok s' := hs
    split at hs'
    · cases hs'
    · cases hs'
      exact ⟨h1, hcn, htn, h2, o, other _ _ hl, h4, h5⟩
  | clear => exact absurd hl (fun g => g)
  | solve =>
    have hs' : (match s.solve with | .error e => .error e | .ok r => .ok r.1 : Except Err St) = .ok s' := hs
    rw [h.solve] at hs'
    cases hs'

/-- **C171 is false**: take any moment of a careful session, a contact of the solver which is active, and a task it was made from;
`remove_task` accepts this task, and from then on, whatever is done except removing, deleting or switching this contact,
`solve` reads freed memory. -/
theorem C171_refuted (ops : List Op) (s : St) (hc : AllCareful {} ops) (hs : St.run {} ops = .ok s) (c a : Nat) (o : CObj)
    (h1 : c ∈ s.contacts) (h2 : s.cheap c = some o) (h3 : o.active = true) (h4 : a ∈ o.kind.reads) :
    ∃ s', s.removeTask a = .ok s' ∧
      ∀ (more : List Op) (s'' : St), (∀ op ∈ more, Leaves c op) → s'.run more = .ok s'' → s''.solve = .error .ub := by
  have h0 : Sound ({} : St) := ⟨fun a o h => (by cases h), fun a o h => (by cases h), fun a h => (by cases h), List.nodup_nil,
    fun a h => (by cases h), List.nodup_nil, fun a h => (by cases h)⟩
  obtain ⟨s0, g1, g2⟩ := sound_run ops {} h0 hc
  rw [hs] at g1; cases g1
  obtain ⟨x, k1, k2⟩ := g2.made c h1 a ⟨o, h2, h4⟩
  refine ⟨{ s with tasks := s.tasks.filter (· ≠ a), theap := put s.theap a { x with alive := false } }, ?_, ?_⟩
  · unfold St.removeTask
    rw [task_ok.2 ⟨k1, k2⟩]
  · have hd : Doomed { s with tasks := s.tasks.filter (· ≠ a), theap := put s.theap a { x with alive := false } } c a := by
      refine ⟨h1, g2.cborn c o h2, g2.tborn a x k1, ?_, o, h2, h3, h4⟩
      rintro ⟨y, l1, l2⟩
      have l1' : some { x with alive := false } = some y := (put_same s.theap a _).symm.trans l1
      cases l1'
      cases l2
    intro more
    generalize { s with tasks := s.tasks.filter (· ≠ a), theap := put s.theap a { x with alive := false } } = t at hd
    induction more generalizing t with
    | nil => intro s'' _ hr; cases hr; exact hd.solve
    | cons op more ih =>
      intro s'' hl hr
      rw [St.run] at hr
      cases ht : t.step op with
      | error e => rw [ht] at hr; cases hr
      | ok t' =>
        rw [ht] at hr
        exact ih t' (hd.step op (hl op List.mem_cons_self) ht) s'' (fun op' h' => hl op' (List.mem_cons_of_mem _ h')) hr

/-- A contact made from a task which is not in the solver is given an old Jacobian: here the one of the solve before. -/
theorem C171_stale_refuted : ∃ s s', St.run {} [.newTask false, .addTask 0, .solve, .newContact (.point 0) true, .newTask false,
      .newContact (.task 1) true] = .ok s ∧ s.solve = .ok (s', [(0, [2]), (1, [0])]) :=
  ⟨_, _, rfl, rfl⟩

/-- A careful session with two contacts, one switched off, and the removal of a contact then of its task. -/
example : ∃ s, St.run {} [.newTask true, .newTask true, .newContact (.planar 0 1) true, .newContact .puppet true, .solve,
    .activate 1 false, .removeContact 0, .removeTask 0, .solve] = .ok s ∧ s.tasks = [1] ∧ s.contacts = [1] :=
  ⟨_, rfl, rfl, rfl⟩

example : AllCareful {} [.newTask true, .newContact (.point 0) true, .solve, .removeContact 0, .removeTask 0, .solve] := by
  refine ⟨trivial, ?_⟩
  intro s hs
  cases hs
  refine ⟨?_, ?_⟩
  · intro a ha
    rw [List.mem_singleton.1 ha]
    exact ⟨{ owned := true }, rfl, rfl⟩
  intro s hs
  cases hs
  refine ⟨trivial, ?_⟩
  intro s hs
  cases hs
  refine ⟨⟨{ kind := .point 0, owned := true }, rfl, rfl⟩, ?_⟩
  intro s hs
  cases hs
  refine ⟨⟨⟨{ owned := true, stamp := 1 }, rfl, rfl, rfl⟩, fun c hc => (by cases hc)⟩, ?_⟩
  intro s hs
  cases hs
  exact ⟨trivial, fun _ _ => trivial⟩

end Verif.Dynamics.ContactSession
