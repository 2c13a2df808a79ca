/-
Property C159: the dictionaries of the Python bindings.
-/
import Verif.Bindings.Dicts
import Verif.Robot.AccessorsProps

namespace Verif.Bindings
open Verif.Problem Verif.Robot

variable {K : Type}

theorem fillDict_spec {joints : List Kinematics.Joint} (hj : JointsOK joints) (torques : Vec K) (shift : Nat)
    (hidx : ∀ j ∈ joints, j.name ≠ "universe" → j.name ≠ "root_joint" → shift ≤ j.idxV ∧ j.idxV - shift < torques.size)
    (l : List String) (hl : ∀ n ∈ l, (∃ j ∈ joints, j.name = n) ∧ n ≠ "universe" ∧ n ≠ "root_joint") : ∀ d : Dict K,
    ∃ d', fillDict joints torques shift l d = .ok d' ∧ (∀ j ∈ joints, j.name ∈ l → d' j.name = some (torques.v (j.idxV - shift))) ∧
      ∀ n, n ∉ l → d' n = d n := by
  induction l with
  | nil => intro d; exact ⟨d, rfl, fun _ _ h => absurd h List.not_mem_nil, fun _ _ => rfl⟩
  | cons n l ih =>
    intro d
    obtain ⟨⟨k, hk, rfl⟩, hu, hr⟩ := hl n List.mem_cons_self
    have hfind := find_known hj hk
    have hb := hidx k hk hu hr
    obtain ⟨d', e, h1, h2⟩ := ih (fun n hn => hl n (List.mem_cons_of_mem _ hn)) (d.put k.name (torques.v (k.idxV - shift)))
    refine ⟨d', ?_, fun j hjm hjl => ?_, fun n hn => ?_⟩
    · unfold fillDict
      simp only [jointUnchecked, hfind, Bind.bind, Except.bind]
      rw [if_neg (by omega)]
      exact e
    · by_cases hjl' : j.name ∈ l
      · exact h1 j hjm hjl'
      · have hjk : j.name = k.name := by
          rcases List.mem_cons.1 hjl with h | h
          · exact h
          · exact absurd h hjl'
        rw [h2 _ hjl', hj.names j hjm k hk hjk]
        simp [Dict.put]
    · rw [h2 n fun h => hn (List.mem_cons_of_mem _ h)]
      have : n ≠ k.name := fun h => hn (h ▸ List.mem_cons_self)
      simp [Dict.put, this]

/-- **C159, what is true.** For a robot laid out by pinocchio, the dictionary has exactly the joints other than the universe and the
floating base, each with its torque (the first one of the joint). Missing for the full C159: the other torques of joints with several
velocities, `C159_refuted`. -/
theorem C159_partial (joints : List Kinematics.Joint) (hj : JointsOK joints) (torques : Vec K) (shift : Nat)
    (hidx : ∀ j ∈ joints, j.name ≠ "universe" → j.name ≠ "root_joint" → shift ≤ j.idxV ∧ j.idxV - shift < torques.size) :
    ∃ d, torqueDict joints torques shift = .ok d ∧
      (∀ j ∈ joints, j.name ≠ "universe" → j.name ≠ "root_joint" → d j.name = some (torques.v (j.idxV - shift))) ∧
      (∀ n, (d n).isSome ↔ (∃ j ∈ joints, j.name = n) ∧ n ≠ "universe" ∧ n ≠ "root_joint") := by
  obtain ⟨d, e, h1, h2⟩ := fillDict_spec hj torques shift hidx (namesOf joints) (fun n hn => (namesOf_mem joints n).1 hn) fun _ => none
  refine ⟨d, e, fun j hjm hu hr => h1 j hjm ((namesOf_mem joints _).2 ⟨⟨j, hjm, rfl⟩, hu, hr⟩), fun n => ⟨fun h => ?_, fun h => ?_⟩⟩
  · by_contra hn
    rw [h2 n fun h => hn ((namesOf_mem joints n).1 h)] at h
    cases h
  · obtain ⟨⟨j, hjm, rfl⟩, h3⟩ := h
    rw [h1 j hjm ((namesOf_mem joints _).2 ⟨⟨j, hjm, rfl⟩, h3⟩)]
    rfl

/-- C159, exactly when the dictionary is made: the vector given has an entry for every joint. Otherwise its memory is read out of
bounds. -/
theorem C159_exact (joints : List Kinematics.Joint) (hj : JointsOK joints) (torques : Vec K) (shift : Nat) :
    ((∃ d, torqueDict joints torques shift = .ok d) ↔
      ∀ j ∈ joints, j.name ≠ "universe" → j.name ≠ "root_joint" → shift ≤ j.idxV ∧ j.idxV - shift < torques.size) ∧
    ∀ e, torqueDict joints torques shift = .error e → e = .ub := by
  have key : ∀ (l : List String), (∀ n ∈ l, ∃ j ∈ joints, j.name = n) → ∀ d : Dict K,
      (∀ d', fillDict joints torques shift l d = .ok d' →
        ∀ j ∈ joints, j.name ∈ l → shift ≤ j.idxV ∧ j.idxV - shift < torques.size) ∧
      (∀ e, fillDict joints torques shift l d = .error e → e = .ub) := by
    intro l
    induction l with
    | nil => intro _ d; exact ⟨fun _ _ _ _ h => absurd h List.not_mem_nil, fun e h => (by cases h)⟩
    | cons n l ih =>
      intro hl d
      obtain ⟨k, hk, rfl⟩ := hl n List.mem_cons_self
      have hfind := find_known hj hk
      have hih := ih (fun n hn => hl n (List.mem_cons_of_mem _ hn))
      unfold fillDict
      simp only [jointUnchecked, hfind, Bind.bind, Except.bind]
      by_cases hb : k.idxV < shift ∨ torques.size ≤ k.idxV - shift
      · rw [if_pos hb]
        exact ⟨fun _ h => (by cases h), fun e h => (by cases h; rfl)⟩
      · rw [if_neg hb]
        refine ⟨fun d' h j hjm hjl => ?_, fun e h => (hih _).2 e h⟩
        by_cases hjl' : j.name ∈ l
        · exact (hih _).1 d' h j hjm hjl'
        · have hjk : j.name = k.name := by
            rcases List.mem_cons.1 hjl with h | h
            · exact h
            · exact absurd h hjl'
          rw [hj.names j hjm k hk hjk]
          omega
  have hk := key (namesOf joints) (fun n hn => ((namesOf_mem joints n).1 hn).1) fun _ => none
  refine ⟨⟨fun ⟨d, h⟩ j hjm hu hr => hk.1 d h j hjm ((namesOf_mem joints _).2 ⟨⟨j, hjm, rfl⟩, hu, hr⟩), fun h => ?_⟩, hk.2⟩
  obtain ⟨d, e, -⟩ := C159_partial joints hj torques shift h
  exact ⟨d, e⟩

/-- C159: the dictionary made from the torques of the joints only (`shift = 6`) is the one made from the torques of all the
velocities. -/
theorem C159_shift (joints : List Kinematics.Joint) (hj : JointsOK joints) (torques : Vec K)
    (hidx : ∀ j ∈ joints, j.name ≠ "universe" → j.name ≠ "root_joint" → 6 ≤ j.idxV ∧ j.idxV < torques.size) :
    torqueDict joints ⟨torques.size - 6, fun i => torques.v (i + 6)⟩ 6 = torqueDict joints torques 0 := by
  obtain ⟨d, e, h1, h2⟩ := C159_partial joints hj (⟨torques.size - 6, fun i => torques.v (i + 6)⟩ : Vec K) 6 fun j hjm hu hr => by
    obtain ⟨a, b⟩ := hidx j hjm hu hr
    exact ⟨a, by dsimp only; omega⟩
  obtain ⟨d', e', h1', h2'⟩ := C159_partial joints hj torques 0 fun j hjm hu hr => by
    obtain ⟨a, b⟩ := hidx j hjm hu hr
    exact ⟨Nat.zero_le _, by omega⟩
  rw [e, e']
  congr 1
  funext n
  by_cases hn : (∃ j ∈ joints, j.name = n) ∧ n ≠ "universe" ∧ n ≠ "root_joint"
  · obtain ⟨⟨j, hjm, rfl⟩, hu, hr⟩ := hn
    obtain ⟨a, b⟩ := hidx j hjm hu hr
    rw [h1 j hjm hu hr, h1' j hjm hu hr]
    dsimp only
    congr 2
    omega
  · have a : ¬ (d n).isSome := fun h => hn ((h2 n).1 h)
    have b : ¬ (d' n).isSome := fun h => hn ((h2' n).1 h)
    rw [Option.not_isSome_iff_eq_none] at a b
    rw [a, b]

/-- **C159 is false** for joints with several velocities: the dictionary does not depend on their other torques. -/
theorem C159_refuted (joints : List Kinematics.Joint) (hj : JointsOK joints) (torques : Vec K) (i : Nat) (x : K)
    (hidx : ∀ j ∈ joints, j.name ≠ "universe" → j.name ≠ "root_joint" → j.idxV < torques.size ∧ j.idxV ≠ i) :
    torqueDict joints ⟨torques.size, fun k => if k = i then x else torques.v k⟩ 0 = torqueDict joints torques 0 := by
  obtain ⟨d, e, h1, h2⟩ := C159_partial joints hj (⟨torques.size, fun k => if k = i then x else torques.v k⟩ : Vec K) 0
    fun j hjm hu hr => ⟨Nat.zero_le _, (hidx j hjm hu hr).1⟩
  obtain ⟨d', e', h1', h2'⟩ := C159_partial joints hj torques 0 fun j hjm hu hr => ⟨Nat.zero_le _, (hidx j hjm hu hr).1⟩
  rw [e, e']
  congr 1
  funext n
  by_cases hn : (∃ j ∈ joints, j.name = n) ∧ n ≠ "universe" ∧ n ≠ "root_joint"
  · obtain ⟨⟨j, hjm, rfl⟩, hu, hr⟩ := hn
    rw [h1 j hjm hu hr, h1' j hjm hu hr]
    dsimp only
    rw [Nat.sub_zero, if_neg (hidx j hjm hu hr).2]
  · have a : ¬ (d n).isSome := fun h => hn ((h2 n).1 h)
    have b : ¬ (d' n).isSome := fun h => hn ((h2' n).1 h)
    rw [Option.not_isSome_iff_eq_none] at a b
    rw [a, b]

/-- Specification: the last valid value given for a name. -/
def lastGiven {V : Type} (n : String) (l : List (PyEntry V)) : Option V :=
  ((l.filter fun e => e.key = some n ∧ e.value.isSome).getLast?).bind (·.value)

/-- C159: `set_joints` and `set_joints_velocities` set the names given with a number to that number (the last one if several keys
of the dictionary are converted to that name), and change nothing else. -/
theorem C159_update {V : Type} (l : List (PyEntry V)) (n : String) : ∀ d : Dict V, updateMap l d n = (lastGiven n l).or (d n) := by
  have key : ∀ (l : List (PyEntry V)) (e : PyEntry V), lastGiven n (e :: l) =
      (lastGiven n l).or (if e.key = some n then e.value else none) := by
    intro l e
    have some_of : ∀ (l : List (PyEntry V)), (l.filter fun e => decide (e.key = some n ∧ e.value.isSome)) ≠ [] → (lastGiven n l).isSome := by
      intro l h
      unfold lastGiven
      have hx := List.getLast?_eq_some_getLast h
      have hm := List.mem_of_getLast? hx
      rw [List.mem_filter] at hm
      rw [hx]
      exact (of_decide_eq_true hm.2).2
    by_cases h : e.key = some n ∧ e.value.isSome
    · have hf : ((e :: l).filter fun e => decide (e.key = some n ∧ e.value.isSome)) =
          e :: (l.filter fun e => decide (e.key = some n ∧ e.value.isSome)) := List.filter_cons_of_pos (by simpa using h)
      by_cases hl : (l.filter fun e => decide (e.key = some n ∧ e.value.isSome)) = []
      · have : lastGiven n l = none := by unfold lastGiven; rw [hl]; rfl
        rw [this, if_pos h.1]
        unfold lastGiven
        rw [hf, hl]
        simp
      · have h1 : lastGiven n (e :: l) = lastGiven n l := by
          unfold lastGiven
          rw [hf]
          cases hfl : (l.filter fun e => decide (e.key = some n ∧ e.value.isSome)) with
          | nil => exact absurd hfl hl
          | cons a r => rw [List.getLast?_cons_cons]
        rw [h1]
        obtain ⟨x, hx⟩ := Option.isSome_iff_exists.1 (some_of l hl)
        rw [hx]
        rfl
    · have hf : ((e :: l).filter fun e => decide (e.key = some n ∧ e.value.isSome)) =
          (l.filter fun e => decide (e.key = some n ∧ e.value.isSome)) := List.filter_cons_of_neg (by simpa using h)
      have h1 : lastGiven n (e :: l) = lastGiven n l := by
        unfold lastGiven
        rw [hf]
      have h2 : (if e.key = some n then e.value else none) = none := by
        by_cases hk : e.key = some n
        · rw [if_pos hk]
          exact Option.not_isSome_iff_eq_none.1 fun hv => h ⟨hk, hv⟩
        · rw [if_neg hk]
      rw [h1, h2, Option.or_none]
  induction l with
  | nil => intro d; rfl
  | cons e l ih =>
    intro d
    rw [key]
    obtain ⟨k, v⟩ := e
    cases k with
    | none =>
      show updateMap l d n = _
      rw [ih]
      simp
    | some k =>
      cases v with
      | none =>
        show updateMap l d n = _
        rw [ih]
        simp
      | some v =>
        show updateMap l (d.put k v) n = _
        rw [ih]
        by_cases hk : k = n
        · subst hk
          cases lastGiven k l <;> simp [Dict.put]
        · have : n ≠ k := fun h => hk h.symm
          simp [Dict.put, hk, this]

/-! ## Concrete cases -/

example : ∃ d, torqueDict hingeBall ⟨10, fun i => (i : ℚ)⟩ 0 = .ok d ∧ d "hinge" = some 6 ∧ d "ball" = some 7 ∧ d "root_joint" = none :=
  ⟨_, rfl, rfl, rfl, rfl⟩

/-- The third torque of the ball joint is in no dictionary. -/
example : ∀ x : ℚ, torqueDict hingeBall ⟨10, fun k => if k = 9 then x else (k : ℚ)⟩ 0 = torqueDict hingeBall ⟨10, fun i => (i : ℚ)⟩ 0 :=
  fun x => C159_refuted hingeBall hingeBall_ok ⟨10, fun i => (i : ℚ)⟩ 9 x (by decide)

/-- On a robot without floating base, the dictionary of the torques of the joints is undefined. -/
example : torqueDict [⟨"universe", 0, 0, 0, 0⟩, ⟨"hinge", 0, 1, 0, 1⟩] (⟨0, fun _ => 0⟩ : Vec ℚ) 6 = .error .ub := rfl

end Verif.Bindings
