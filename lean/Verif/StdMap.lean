/-
A model of `std::map`: an association list sorted by key.
-/
import Mathlib.Order.Basic
import Mathlib.Order.Defs.LinearOrder
import Mathlib.Data.List.Pairwise
import Mathlib.Data.String.Basic

namespace Verif

/-- `std::map<κ, α>` as the list of its entries in iteration order.
libstdc++, used e.g. in integrator.h 44, dynamics_solver.h 409-414, gear_task.h 20. -/
abbrev SMap (κ α : Type) := List (κ × α)

namespace SMap
variable {κ α : Type} [LinearOrder κ]

/-- `m[k] = v`. libstdc++. -/
def set (k : κ) (v : α) : SMap κ α → SMap κ α
  | [] => [(k, v)]
  | (k', v') :: m => if k = k' then (k, v) :: m else if k < k' then (k, v) :: (k', v') :: m else (k', v') :: set k v m

/-- `m.find(k)`. libstdc++. -/
def find? (m : SMap κ α) (k : κ) : Option α :=
  match m with
  | [] => none
  | (k', v') :: m => if k = k' then some v' else find? m k

/-- `m.erase(k)`. libstdc++. -/
def erase (m : SMap κ α) (k : κ) : SMap κ α := m.filter (fun p => p.1 ≠ k)

/-- Keys are strictly increasing. Invariant, not code of the library. -/
def WF (m : SMap κ α) : Prop := m.Pairwise (fun a b => a.1 < b.1)

theorem WF_nil : WF ([] : SMap κ α) := List.Pairwise.nil

theorem find?_set (k : κ) (v : α) (m : SMap κ α) (k' : κ) :
    find? (set k v m) k' = if k' = k then some v else find? m k' := by
  induction m with
  | nil => simp [set, find?]
  | cons p m ih =>
    obtain ⟨a, b⟩ := p
    unfold set
    by_cases h1 : k = a
    · subst h1
      simp only [if_true, find?]
      split <;> rfl
    · rw [if_neg h1]
      by_cases h2 : k < a
      · rw [if_pos h2]; simp [find?]
      · rw [if_neg h2]
        simp only [find?, ih]
        by_cases h3 : k' = a
        · have : ¬ k' = k := by rw [h3]; exact fun h => h1 h.symm
          simp [h3, this, Ne.symm h1]
        · simp [h3]

theorem mem_set_key (k : κ) (v : α) (m : SMap κ α) (p : κ × α) (h : p ∈ set k v m) : p = (k, v) ∨ p ∈ m := by
  induction m with
  | nil => simpa [set] using h
  | cons q m ih =>
    obtain ⟨a, b⟩ := q
    unfold set at h
    split at h
    · rcases List.mem_cons.1 h with h | h
      · exact .inl h
      · exact .inr (List.mem_cons_of_mem _ h)
    · split at h
      · rcases List.mem_cons.1 h with h | h
        · exact .inl h
        · exact .inr h
      · rcases List.mem_cons.1 h with h | h
        · exact .inr (by rw [h]; exact List.mem_cons_self ..)
        · rcases ih h with h | h
          · exact .inl h
          · exact .inr (List.mem_cons_of_mem _ h)

theorem WF_set (k : κ) (v : α) (m : SMap κ α) (h : WF m) : WF (set k v m) := by
  induction m with
  | nil => simp [set, WF]
  | cons q m ih =>
    obtain ⟨a, b⟩ := q
    have h' := List.pairwise_cons.1 h
    unfold set
    split
    · rename_i he
      subst he
      exact List.pairwise_cons.2 ⟨h'.1, h'.2⟩
    · rename_i hne
      split
      · rename_i hlt
        refine List.pairwise_cons.2 ⟨?_, h⟩
        intro p hp
        rcases List.mem_cons.1 hp with rfl | hp
        · exact hlt
        · exact lt_trans hlt (h'.1 p hp)
      · rename_i hlt
        refine List.pairwise_cons.2 ⟨?_, ih h'.2⟩
        intro p hp
        rcases mem_set_key k v m p hp with rfl | hp
        · exact lt_of_le_of_ne (not_lt.1 hlt) (Ne.symm hne)
        · exact h'.1 p hp

theorem mem_iff_find? (m : SMap κ α) (h : WF m) (k : κ) (v : α) : (k, v) ∈ m ↔ find? m k = some v := by
  induction m with
  | nil => simp [find?]
  | cons q m ih =>
    obtain ⟨a, b⟩ := q
    have h' := List.pairwise_cons.1 h
    rw [List.mem_cons, ih h'.2]
    rw [show find? ((a, b) :: m) k = if k = a then some b else find? m k from rfl]
    by_cases hk : k = a
    · subst hk
      rw [if_pos rfl]
      constructor
      · rintro (h | h)
        · cases h; rfl
        · have := h'.1 (k, v) ((ih h'.2).2 h)
          exact absurd this (lt_irrefl _)
      · intro h; cases h; exact .inl rfl
    · rw [if_neg hk]
      constructor
      · rintro (h | h)
        · cases h; exact absurd rfl hk
        · exact h
      · exact .inr

theorem nodup_keys (m : SMap κ α) (h : WF m) : (m.map Prod.fst).Nodup := by
  unfold List.Nodup
  rw [List.pairwise_map]
  exact h.imp fun h => ne_of_lt h

end SMap
end Verif
