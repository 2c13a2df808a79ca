/-
C212: a problem frees what it allocated, once.
-/
import Mathlib.Data.List.Nodup
import Mathlib.Data.List.Induction
import Verif.Problem.Ownership

namespace Verif.Problem

/-! ## Specification -/

/-- The problem `k` has the address `a` in one of its lists. -/
def MemSt.Owns (s : MemSt) (k a : Nat) : Prop := ∃ C V, s.probs k = some (C, V) ∧ (a ∈ C ∨ a ∈ V)

/-- The call is not a copy, and is on a problem that exists. -/
def MemCall.Fair (s : MemSt) : MemCall → Prop
  | .new => True
  | .copy _ => False
  | .addVariable k | .addConstraint k | .clearConstraints k | .clearVariables k | .destroy k => s.probs k ≠ none

/-- All the calls of a program are fair when they are made. -/
def FairProgram (calls : List MemCall) : Prop := ∀ pre c post, calls = pre ++ c :: post → c.Fair (memRun .init pre)

/-! ## Proof -/

theorem freeAll_some (l : List Nat) (f : Nat → Bool) (hl : l.Nodup) (hf : ∀ a ∈ l, f a = false) :
    ∃ g, freeAll l f = some g ∧ ∀ a, g a = true ↔ f a = true ∨ a ∈ l := by
  induction l generalizing f with
  | nil => exact ⟨f, rfl, fun a => by simp⟩
  | cons b l ih =>
    obtain ⟨hb, hl⟩ := List.nodup_cons.1 hl
    rw [freeAll, if_neg (by rw [hf b List.mem_cons_self]; exact fun h => by cases h)]
    obtain ⟨g, h1, h2⟩ := ih (fun c => if c = b then true else f c) hl (fun a ha => by
      have hne : a ≠ b := fun e => hb (e ▸ ha)
      show (if a = b then true else f a) = false
      rw [if_neg hne]
      exact hf a (List.mem_cons_of_mem _ ha))
    refine ⟨g, h1, fun a => ?_⟩
    rw [h2, List.mem_cons]
    by_cases e : a = b
    · simp [e]
    · simp [e]

theorem freeAll_none (l : List Nat) (f : Nat → Bool) (a : Nat) (ha : a ∈ l) (hf : f a = true) : freeAll l f = none := by
  induction l generalizing f with
  | nil => cases ha
  | cons b l ih =>
    rw [freeAll]
    by_cases hb : f b = true
    · rw [if_pos hb]
    · rw [if_neg hb]
      rcases List.mem_cons.1 ha with rfl | ha
      · exact absurd hf hb
      · exact ih (fun c => if c = b then true else f c) ha (by show (if a = b then true else f a) = true; split; rfl; exact hf)

/-- What is true at any time of a fair program. -/
structure MemOK (s : MemSt) : Prop where
  fresh : ∀ k, s.count ≤ k → s.probs k = none
  lists : ∀ k C V, s.probs k = some (C, V) → (C ++ V).Nodup
  alive : ∀ k a, s.Owns k a → a < s.next ∧ s.freed a = false
  alone : ∀ k k' a, s.Owns k a → s.Owns k' a → k = k'
  unborn : ∀ a, s.next ≤ a → s.freed a = false
  all : ∀ a, a < s.next → s.freed a = true ∨ ∃ k, s.Owns k a

theorem owns_set (s : MemSt) (k : Nat) (p : Option (List Nat × List Nat)) (c n : Nat) (f : Nat → Bool) (j a : Nat) :
    MemSt.Owns { s.set k p with count := c, next := n, freed := f } j a ↔
      (j = k ∧ ∃ C V, p = some (C, V) ∧ (a ∈ C ∨ a ∈ V)) ∨ (j ≠ k ∧ s.Owns j a) := by
  unfold MemSt.Owns MemSt.set
  dsimp only
  by_cases h : j = k
  · simp [h]
  · simp [h]

/-- The problem `k` is replaced by one with some of its addresses and those from `next`; the addresses that it loses are freed. -/
theorem memOK_set {s : MemSt} (ok : MemOK s) (k : Nat) (hk : k < s.count) (C V : List Nat) (hp : s.probs k = some (C, V))
    (p : Option (List Nat × List Nat)) (n : Nat) (f : Nat → Bool) (hn : s.next ≤ n)
    (hnd : ∀ C' V', p = some (C', V') → (C' ++ V').Nodup)
    (hmem : ∀ C' V', p = some (C', V') → ∀ a, a ∈ C' ∨ a ∈ V' → ((a ∈ C ∨ a ∈ V) ∨ s.next ≤ a) ∧ a < n ∧ f a = false)
    (hf : ∀ a, f a = true → s.freed a = true ∨ a ∈ C ∨ a ∈ V) (hf' : ∀ a, s.freed a = true → f a = true)
    (hall : ∀ a, (a ∈ C ∨ a ∈ V) ∨ (s.next ≤ a ∧ a < n) → f a = true ∨ ∃ C' V', p = some (C', V') ∧ (a ∈ C' ∨ a ∈ V')) :
    MemOK { s.set k p with count := s.count, next := n, freed := f } := by
  have hown : ∀ a, a ∈ C ∨ a ∈ V → s.Owns k a := fun a h => ⟨C, V, hp, h⟩
  refine ⟨fun j hj => ?_, fun j C' V' h => ?_, fun j a h => ?_, fun j j' a h h' => ?_, fun a ha => ?_, fun a ha => ?_⟩
  · show (if j = k then p else s.probs j) = none
    have hj' : s.count ≤ j := hj
    rw [if_neg (by omega)]
    exact ok.fresh j hj'
  · have h : (if j = k then p else s.probs j) = some (C', V') := h
    split at h
    · exact hnd C' V' h
    · exact ok.lists j C' V' h
  · rw [owns_set] at h
    rcases h with ⟨-, C', V', e, h⟩ | ⟨hj, h⟩
    · exact (hmem C' V' e a h).2
    · obtain ⟨h1, h2⟩ := ok.alive j a h
      refine ⟨Nat.lt_of_lt_of_le h1 hn, ?_⟩
      show f a = false
      cases hfa : f a with
      | false => rfl
      | true =>
        rcases hf a hfa with h3 | h3
        · rw [h2] at h3; cases h3
        · exact absurd (ok.alone j k a h (hown a h3)) hj
  · rw [owns_set] at h h'
    rcases h with ⟨e1, C', V', e, h⟩ | ⟨hj, h⟩ <;> rcases h' with ⟨e2, C'', V'', e', h'⟩ | ⟨hj', h'⟩
    · rw [e1, e2]
    · rcases (hmem C' V' e a h).1 with h3 | h3
      · exact absurd (ok.alone j' k a h' (hown a h3)) hj'
      · have := (ok.alive j' a h').1; omega
    · rcases (hmem C'' V'' e' a h').1 with h3 | h3
      · exact absurd (ok.alone j k a h (hown a h3)) hj
      · have := (ok.alive j a h).1; omega
    · exact ok.alone j j' a h h'
  · have ha : n ≤ a := ha
    show f a = false
    cases hfa : f a with
    | false => rfl
    | true =>
      rcases hf a hfa with h3 | h3
      · rw [ok.unborn a (by omega)] at h3; cases h3
      · have := (ok.alive k a (hown a h3)).1; omega
  · have ha : a < n := ha
    by_cases hlt : a < s.next
    · rcases ok.all a hlt with h | ⟨j, h⟩
      · exact .inl (hf' a h)
      · by_cases hj : j = k
        · subst hj
          obtain ⟨C2, V2, e, h2⟩ := h
          rw [hp] at e
          cases e
          rcases hall a (.inl h2) with h3 | h3
          · exact .inl h3
          · exact .inr ⟨j, (owns_set ..).2 (.inl ⟨rfl, h3⟩)⟩
        · exact .inr ⟨j, (owns_set ..).2 (.inr ⟨hj, h⟩)⟩
    · rcases hall a (.inr ⟨by omega, ha⟩) with h3 | h3
      · exact .inl h3
      · exact .inr ⟨k, (owns_set ..).2 (.inl ⟨rfl, h3⟩)⟩

theorem memOK_lt {s : MemSt} (ok : MemOK s) {k : Nat} (h : s.probs k ≠ none) : k < s.count := by
  rcases Nat.lt_or_ge k s.count with h' | h'
  · exact h'
  · exact absurd (ok.fresh k h') h

theorem memOK_init : MemOK .init :=
  ⟨fun _ _ => rfl, fun k C V h => (by cases h), fun k a h => (by obtain ⟨C, V, h, -⟩ := h; cases h),
    fun k k' a h => (by obtain ⟨C, V, h, -⟩ := h; cases h), fun _ _ => rfl, fun a h => absurd h (Nat.not_lt_zero a)⟩

theorem memOK_step {s : MemSt} (ok : MemOK s) (c : MemCall) (hc : c.Fair s) : MemOK (memStep s c).1 ∧ (memStep s c).2 = none := by
  have hpos : s.freed s.next = false := ok.unborn _ (Nat.le_refl _)
  cases c with
  | new =>
    refine ⟨⟨fun j hj => ?_, fun j C' V' h => ?_, fun j a h => ?_, fun j j' a h h' => ?_, ok.unborn, fun a ha => ?_⟩, rfl⟩
    · show (if j = s.count then some ([], []) else s.probs j) = none
      have hj : s.count + 1 ≤ j := hj
      rw [if_neg (by omega)]
      exact ok.fresh j (by omega)
    · have h : (if j = s.count then some ([], []) else s.probs j) = some (C', V') := h
      split at h
      · cases h; exact List.nodup_nil
      · exact ok.lists j C' V' h
    · have h := (owns_set s s.count (some ([], [])) (s.count + 1) s.next s.freed j a).1 h
      rcases h with ⟨-, C', V', e, h⟩ | ⟨-, h⟩
      · cases e; rcases h with h | h <;> cases h
      · exact ok.alive j a h
    · have h := (owns_set s s.count (some ([], [])) (s.count + 1) s.next s.freed j a).1 h
      have h' := (owns_set s s.count (some ([], [])) (s.count + 1) s.next s.freed j' a).1 h'
      rcases h with ⟨-, C', V', e, h⟩ | ⟨-, h⟩
      · cases e; rcases h with h | h <;> cases h
      · rcases h' with ⟨-, C', V', e, h'⟩ | ⟨-, h'⟩
        · cases e; rcases h' with h' | h' <;> cases h'
        · exact ok.alone j j' a h h'
    · rcases ok.all a ha with h | ⟨j, h⟩
      · exact .inl h
      · refine .inr ⟨j, (owns_set s s.count (some ([], [])) (s.count + 1) s.next s.freed j a).2 (.inr ⟨?_, h⟩)⟩
        rintro rfl
        obtain ⟨C, V, e, -⟩ := h
        rw [ok.fresh _ (Nat.le_refl _)] at e
        cases e
  | copy k => cases hc
  | addVariable k =>
    have hk := memOK_lt ok hc
    rw [memStep]
    cases hp : s.probs k with
    | none => exact absurd hp hc
    | some p =>
      obtain ⟨C, V⟩ := p
      have hlt : ∀ a, a ∈ C ∨ a ∈ V → a < s.next ∧ s.freed a = false := fun a h => ok.alive k a ⟨C, V, hp, h⟩
      refine ⟨memOK_set ok k hk C V hp (some (C, V ++ [s.next])) (s.next + 1) s.freed (Nat.le_succ _) ?_ ?_ (fun a h => .inl h) (fun a h => h) ?_, rfl⟩
      · intro C' V' e
        cases e
        rw [← List.append_assoc]
        refine List.Nodup.append (ok.lists k C V hp) (List.nodup_singleton _) ?_
        intro a h1 h2
        have := (hlt a (List.mem_append.1 h1)).1
        rw [List.mem_singleton.1 h2] at this
        omega
      · intro C' V' e a h
        cases e
        have h : (a ∈ C ∨ a ∈ V) ∨ a = s.next := by
          rcases h with h | h
          · exact .inl (.inl h)
          · rcases List.mem_append.1 h with h | h
            · exact .inl (.inr h)
            · exact .inr (List.mem_singleton.1 h)
        rcases h with h | rfl
        · exact ⟨.inl h, by have := (hlt a h).1; omega, (hlt a h).2⟩
        · exact ⟨.inr (Nat.le_refl _), Nat.lt_succ_self _, hpos⟩
      · intro a h
        refine .inr ⟨C, _, rfl, ?_⟩
        rcases h with (h | h) | h
        · exact .inl h
        · exact .inr (List.mem_append_left _ h)
        · exact .inr (List.mem_append_right _ (by rw [List.mem_singleton]; omega))
  | addConstraint k =>
    have hk := memOK_lt ok hc
    rw [memStep]
    cases hp : s.probs k with
    | none => exact absurd hp hc
    | some p =>
      obtain ⟨C, V⟩ := p
      have hlt : ∀ a, a ∈ C ∨ a ∈ V → a < s.next ∧ s.freed a = false := fun a h => ok.alive k a ⟨C, V, hp, h⟩
      refine ⟨memOK_set ok k hk C V hp (some (C ++ [s.next], V)) (s.next + 1) s.freed (Nat.le_succ _) ?_ ?_ (fun a h => .inl h) (fun a h => h) ?_, rfl⟩
      · intro C' V' e
        cases e
        have h0 := ok.lists k C V hp
        refine List.nodup_append.2 ⟨?_, (List.nodup_append.1 h0).2.1, ?_⟩
        · refine List.Nodup.append (List.nodup_append.1 h0).1 (List.nodup_singleton _) ?_
          intro a h1 h2
          have := (hlt a (.inl h1)).1
          rw [List.mem_singleton.1 h2] at this
          omega
        · intro a ha b hb
          rcases List.mem_append.1 ha with h | h
          · exact (List.nodup_append.1 h0).2.2 a h b hb
          · have := (hlt b (.inr hb)).1
            rw [List.mem_singleton.1 h]
            omega
      · intro C' V' e a h
        cases e
        have h : (a ∈ C ∨ a ∈ V) ∨ a = s.next := by
          rcases h with h | h
          · rcases List.mem_append.1 h with h | h
            · exact .inl (.inl h)
            · exact .inr (List.mem_singleton.1 h)
          · exact .inl (.inr h)
        rcases h with h | rfl
        · exact ⟨.inl h, by have := (hlt a h).1; omega, (hlt a h).2⟩
        · exact ⟨.inr (Nat.le_refl _), Nat.lt_succ_self _, hpos⟩
      · intro a h
        refine .inr ⟨_, V, rfl, ?_⟩
        rcases h with (h | h) | h
        · exact .inl (List.mem_append_left _ h)
        · exact .inr h
        · exact .inl (List.mem_append_right _ (by rw [List.mem_singleton]; omega))
  | clearConstraints k =>
    have hk := memOK_lt ok hc
    rw [memStep]
    cases hp : s.probs k with
    | none => exact absurd hp hc
    | some p =>
      obtain ⟨C, V⟩ := p
      have hlt : ∀ a, a ∈ C ∨ a ∈ V → a < s.next ∧ s.freed a = false := fun a h => ok.alive k a ⟨C, V, hp, h⟩
      have h0 := List.nodup_append.1 (ok.lists k C V hp)
      obtain ⟨g, hg, hg'⟩ := freeAll_some C s.freed h0.1 fun a h => (hlt a (.inl h)).2
      dsimp only
      rw [hg]
      refine ⟨memOK_set ok k hk C V hp (some ([], V)) s.next g (Nat.le_refl _) ?_ ?_ ?_ (fun a h => (hg' a).2 (.inl h)) ?_, rfl⟩
      · intro C' V' e; cases e; exact h0.2.1
      · intro C' V' e a h
        cases e
        rcases h with h | h
        · cases h
        · refine ⟨.inl (.inr h), (hlt a (.inr h)).1, ?_⟩
          cases hga : g a with
          | false => rfl
          | true =>
            rcases (hg' a).1 hga with h3 | h3
            · rw [(hlt a (.inr h)).2] at h3; cases h3
            · exact absurd rfl (h0.2.2 a h3 a h)
      · intro a h; rcases (hg' a).1 h with h | h; exact .inl h; exact .inr (.inl h)
      · rintro a ((h | h) | h)
        · exact .inl ((hg' a).2 (.inr h))
        · exact .inr ⟨[], V, rfl, .inr h⟩
        · omega
  | clearVariables k =>
    have hk := memOK_lt ok hc
    rw [memStep]
    cases hp : s.probs k with
    | none => exact absurd hp hc
    | some p =>
      obtain ⟨C, V⟩ := p
      have hlt : ∀ a, a ∈ C ∨ a ∈ V → a < s.next ∧ s.freed a = false := fun a h => ok.alive k a ⟨C, V, hp, h⟩
      have h0 := List.nodup_append.1 (ok.lists k C V hp)
      obtain ⟨g, hg, hg'⟩ := freeAll_some V s.freed h0.2.1 fun a h => (hlt a (.inr h)).2
      dsimp only
      rw [hg]
      refine ⟨memOK_set ok k hk C V hp (some (C, [])) s.next g (Nat.le_refl _) ?_ ?_ ?_ (fun a h => (hg' a).2 (.inl h)) ?_, rfl⟩
      · intro C' V' e; cases e; rw [List.append_nil]; exact h0.1
      · intro C' V' e a h
        cases e
        rcases h with h | h
        · refine ⟨.inl (.inl h), (hlt a (.inl h)).1, ?_⟩
          cases hga : g a with
          | false => rfl
          | true =>
            rcases (hg' a).1 hga with h3 | h3
            · rw [(hlt a (.inl h)).2] at h3; cases h3
            · exact absurd rfl (h0.2.2 a h a h3)
        · cases h
      · intro a h; rcases (hg' a).1 h with h | h; exact .inl h; exact .inr (.inr h)
      · rintro a ((h | h) | h)
        · exact .inr ⟨C, [], rfl, .inl h⟩
        · exact .inl ((hg' a).2 (.inr h))
        · omega
  | destroy k =>
    have hk := memOK_lt ok hc
    rw [memStep]
    cases hp : s.probs k with
    | none => exact absurd hp hc
    | some p =>
      obtain ⟨C, V⟩ := p
      have hlt : ∀ a, a ∈ C ∨ a ∈ V → a < s.next ∧ s.freed a = false := fun a h => ok.alive k a ⟨C, V, hp, h⟩
      obtain ⟨g, hg, hg'⟩ := freeAll_some (C ++ V) s.freed (ok.lists k C V hp) fun a h => (hlt a (List.mem_append.1 h)).2
      dsimp only
      rw [hg]
      refine ⟨memOK_set ok k hk C V hp none s.next g (Nat.le_refl _) ?_ ?_ ?_ (fun a h => (hg' a).2 (.inl h)) ?_, rfl⟩
      · intro C' V' e; cases e
      · intro C' V' e; cases e
      · intro a h; rcases (hg' a).1 h with h | h; exact .inl h; exact .inr (List.mem_append.1 h)
      · rintro a (h | h)
        · exact .inl ((hg' a).2 (.inr (List.mem_append.2 h)))
        · omega

theorem memRun_snoc (calls : List MemCall) (c : MemCall) (s : MemSt) : memRun s (calls ++ [c]) = (memStep (memRun s calls) c).1 := by
  unfold memRun; rw [List.foldl_append]; rfl

theorem memOK_run (calls : List MemCall) (h : FairProgram calls) : MemOK (memRun .init calls) := by
  induction calls using List.reverseRecOn with
  | nil => exact memOK_init
  | append_singleton calls c ih =>
    rw [memRun_snoc]
    exact (memOK_step (ih fun pre c' post e => h pre c' (post ++ [c]) (by rw [e]; simp)) c (h calls c [] rfl)).1

/-! ## The property -/

/-- **C212_partial.** In a program that copies no problem and uses only problems that exist: nothing is deleted twice, each variable or
constraint that was not deleted is in exactly one problem, and no problem refers to a deleted one. Missing: programs that copy problems,
for which it is false (`C212_refuted`). -/
theorem C212_partial (calls : List MemCall) (h : FairProgram calls) :
    (∀ pre c post, calls = pre ++ c :: post → (memStep (memRun .init pre) c).2 = none) ∧
    ∀ a, a < (memRun .init calls).next →
      ((memRun .init calls).freed a = false ↔ ∃ k, (memRun .init calls).Owns k a) ∧
      ∀ k k', (memRun .init calls).Owns k a → (memRun .init calls).Owns k' a → k = k' := by
  refine ⟨fun pre c post e => ?_, fun a ha => ?_⟩
  · exact (memOK_step (memOK_run pre fun pre' c' post' e' => h pre' c' (post' ++ c :: post) (by rw [e, e']; simp)) c (h pre c post e)).2
  · have ok := memOK_run calls h
    refine ⟨⟨fun hf => ?_, fun ⟨k, hk⟩ => (ok.alive k a hk).2⟩, fun k k' => ok.alone k k' a⟩
    rcases ok.all a ha with h' | h'
    · rw [hf] at h'; cases h'
    · exact h'

/-- **C212, no leak.** When such a program has destroyed its problems, everything that was allocated has been deleted. -/
theorem C212_no_leak (calls : List MemCall) (h : FairProgram calls) (hd : ∀ k, (memRun .init calls).probs k = none) (a : Nat)
    (ha : a < (memRun .init calls).next) : (memRun .init calls).freed a = true := by
  rcases (memOK_run calls h).all a ha with h' | ⟨k, C, V, e, -⟩
  · exact h'
  · rw [hd k] at e; cases e

/-- **C212 is false with copies.** After any fair program, a problem that has a variable or a constraint is copied: destroying both is
undefined behaviour (deleted twice). -/
theorem C212_refuted (calls : List MemCall) (h : FairProgram calls) (k a : Nat) (ha : (memRun .init calls).Owns k a) :
    (memStep (memRun .init (calls ++ [.copy k, .destroy k])) (.destroy (memRun .init calls).count)).2 = some .ub := by
  have ok := memOK_run calls h
  obtain ⟨C, V, hp, hm⟩ := ha
  have hk := memOK_lt ok (k := k) (by rw [hp]; exact fun e => by cases e)
  have hlt : ∀ a, a ∈ C ∨ a ∈ V → a < (memRun .init calls).next ∧ (memRun .init calls).freed a = false := fun a h => ok.alive k a ⟨C, V, hp, h⟩
  obtain ⟨g, hg, hg'⟩ := freeAll_some (C ++ V) (memRun .init calls).freed (ok.lists k C V hp) fun a h => (hlt a (List.mem_append.1 h)).2
  have e1 : memRun .init (calls ++ [.copy k, .destroy k]) = (memStep (memStep (memRun .init calls) (.copy k)).1 (.destroy k)).1 := by
    unfold memRun; rw [List.foldl_append]; rfl
  rw [e1]
  generalize memRun .init calls = s at *
  have hne : k ≠ s.count := by omega
  have e2 : memStep s (.copy k) = ({ s.set s.count (some (C, V)) with count := s.count + 1 }, none) := by
    rw [memStep, hp]
  rw [e2]
  have e3 : ({ s.set s.count (some (C, V)) with count := s.count + 1 } : MemSt).probs k = some (C, V) := by
    show (if k = s.count then _ else s.probs k) = _
    rw [if_neg hne, hp]
  have e4 : (memStep { s.set s.count (some (C, V)) with count := s.count + 1 } (.destroy k)).1.probs s.count = some (C, V) ∧
      (memStep { s.set s.count (some (C, V)) with count := s.count + 1 } (.destroy k)).1.freed = g := by
    rw [memStep, e3]
    dsimp only
    rw [show ({ s.set s.count (some (C, V)) with count := s.count + 1 } : MemSt).freed = s.freed from rfl, hg]
    refine ⟨?_, rfl⟩
    show (if s.count = k then none else if s.count = s.count then some (C, V) else s.probs s.count) = _
    rw [if_neg (Ne.symm hne), if_pos rfl]
  generalize (memStep { s.set s.count (some (C, V)) with count := s.count + 1 } (.destroy k)).1 = s2 at *
  rw [memStep, e4.1]
  dsimp only
  rw [e4.2, freeAll_none (C ++ V) g a (List.mem_append.2 hm) ((hg' a).2 (.inr (List.mem_append.2 hm)))]

/-- A program with two problems, that is fair, and a copy of the first one. -/
example : (memRun .init [.new, .addVariable 0, .new, .addConstraint 1, .clearConstraints 1, .addConstraint 0, .destroy 1]).freed 1 = true ∧
    (memRun .init [.new, .addVariable 0, .new, .addConstraint 1, .clearConstraints 1, .addConstraint 0, .destroy 1]).freed 0 = false ∧
    (memStep (memRun .init [.new, .addVariable 0, .copy 0, .destroy 0]) (.destroy 1)).2 = some .ub := by decide +kernel

/-- A fair program. -/
example : FairProgram [.new, .addVariable 0, .destroy 0] := by
  intro pre c post h
  rcases pre with _ | ⟨a, _ | ⟨b, _ | ⟨d, pre⟩⟩⟩ <;> simp at h
  · obtain ⟨rfl, -⟩ := h; trivial
  · obtain ⟨rfl, rfl, -⟩ := h
    show (memRun .init [.new]).probs 0 ≠ none
    decide +kernel
  · obtain ⟨rfl, rfl, rfl, -⟩ := h
    show (memRun .init [.new, .addVariable 0]).probs 0 ≠ none
    decide +kernel

end Verif.Problem
