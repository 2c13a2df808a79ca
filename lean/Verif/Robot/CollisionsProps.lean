/-
Properties C153 and C154: collision pairs, self collisions and distances.
-/
import Mathlib.Data.List.Basic
import Mathlib.Data.List.OfFn
import Verif.Robot.Collisions

namespace Verif.Robot
open Verif.Problem

/-! ## C153 -/

/-- The two objects are a pair of the list, in some order. -/
def HasPair (pairs : List (Nat × Nat)) (x y : Nat) : Prop := (x, y) ∈ pairs ∨ (y, x) ∈ pairs

/-- Entries that can be loaded: two different known objects, two different names of frames that have objects, or nothing to load. -/
def JsonEntry.Good (geoms : List (Option String)) : JsonEntry → Prop
  | .two (.int a) (.int b) => 0 ≤ a ∧ 0 ≤ b ∧ a ≠ b ∧ a < geoms.length ∧ b < geoms.length
  | .two (.str a) (.str b) => a ≠ b ∧ some a ∈ geoms ∧ some b ∈ geoms
  | .two _ _ => False
  | .object n => n ≠ 2
  | _ => True

/-- The entry asks for the pair of objects `x`, `y`. -/
def JsonEntry.Lists (geoms : List (Option String)) (x y : Nat) : JsonEntry → Prop
  | .two (.int a) (.int b) => a = x ∧ b = y
  | .two (.str a) (.str b) => geoms[x]? = some (some a) ∧ geoms[y]? = some (some b)
  | _ => False

/-- The pairs are different, of different and known objects. -/
def PairsOK (n : Nat) (pairs : List (Nat × Nat)) : Prop :=
  pairs.Pairwise (fun p q => p ≠ q ∧ p ≠ (q.2, q.1)) ∧ ∀ p ∈ pairs, p.1 ≠ p.2 ∧ p.1 < n ∧ p.2 < n

theorem any_samePair (pairs : List (Nat × Nat)) (p : Nat × Nat) : pairs.any (samePair p) = true ↔ HasPair pairs p.1 p.2 := by
  rw [List.any_eq_true]
  unfold samePair HasPair
  constructor
  · rintro ⟨q, hq, h⟩
    simp only [Bool.or_eq_true, Bool.and_eq_true, decide_eq_true_eq] at h
    rcases h with ⟨h1, h2⟩ | ⟨h1, h2⟩
    · left; rw [h1, h2]; exact hq
    · right; rw [h1, h2]; exact hq
  · rintro (h | h)
    · exact ⟨_, h, by simp⟩
    · exact ⟨_, h, by simp⟩

theorem addPair_spec (n : Nat) (pairs : List (Nat × Nat)) (p : Nat × Nat) :
    ((addPair n pairs p).2 = none ↔ p.1 ≠ p.2 ∧ p.1 < n ∧ p.2 < n) ∧
    ((addPair n pairs p).2 = none → (∀ x y, HasPair (addPair n pairs p).1 x y ↔ HasPair pairs x y ∨ HasPair [p] x y) ∧
      (PairsOK n pairs → PairsOK n (addPair n pairs p).1)) := by
  unfold addPair
  by_cases h1 : p.1 = p.2
  · rw [if_pos h1]; simp [h1]
  rw [if_neg h1]
  by_cases h2 : n ≤ p.1 ∨ n ≤ p.2
  · rw [if_pos h2]
    refine ⟨⟨fun h => by simp at h, fun h => by omega⟩, fun h => by simp at h⟩
  rw [if_neg h2]
  have h3 : p.1 ≠ p.2 ∧ p.1 < n ∧ p.2 < n := ⟨h1, by omega, by omega⟩
  by_cases h4 : pairs.any (samePair p) = true
  · rw [if_pos h4]
    refine ⟨⟨fun _ => h3, fun _ => rfl⟩, fun _ => ⟨fun x y => ⟨Or.inl, ?_⟩, id⟩⟩
    rintro (h | h)
    · exact h
    · have h5 := (any_samePair pairs p).1 h4
      rcases h with h | h
      · rw [← List.mem_singleton.1 h] at h5; exact h5
      · rw [← List.mem_singleton.1 h] at h5; exact h5.symm
  · rw [if_neg h4]
    refine ⟨⟨fun _ => h3, fun _ => rfl⟩, fun _ => ⟨fun x y => ?_, fun hok => ?_⟩⟩
    · unfold HasPair
      simp only [List.mem_append]
      constructor
      · rintro ((h | h) | (h | h))
        · exact Or.inl (Or.inl h)
        · exact Or.inr (Or.inl h)
        · exact Or.inl (Or.inr h)
        · exact Or.inr (Or.inr h)
      · rintro ((h | h) | (h | h))
        · exact Or.inl (Or.inl h)
        · exact Or.inr (Or.inl h)
        · exact Or.inl (Or.inr h)
        · exact Or.inr (Or.inr h)
    · have h5 : ¬ HasPair pairs p.1 p.2 := fun h => h4 ((any_samePair pairs p).2 h)
      refine ⟨?_, ?_⟩
      · rw [List.pairwise_append]
        refine ⟨hok.1, List.pairwise_singleton _ _, ?_⟩
        intro a ha b hb
        rw [List.mem_singleton.1 hb]
        refine ⟨fun h => h5 ?_, fun h => h5 ?_⟩
        · left; rw [← h]; exact ha
        · right; rw [← h]; exact ha
      · intro q hq
        rcases List.mem_append.1 hq with hq | hq
        · exact hok.2 q hq
        · rw [List.mem_singleton.1 hq]; exact h3

theorem hasPair_cons (p : Nat × Nat) (l : List (Nat × Nat)) (x y : Nat) : HasPair (p :: l) x y ↔ HasPair [p] x y ∨ HasPair l x y := by
  unfold HasPair
  simp only [List.mem_cons, List.not_mem_nil, or_false]
  constructor
  · rintro ((h | h) | (h | h))
    · exact Or.inl (Or.inl h)
    · exact Or.inr (Or.inl h)
    · exact Or.inl (Or.inr h)
    · exact Or.inr (Or.inr h)
  · rintro ((h | h) | (h | h))
    · exact Or.inl (Or.inl h)
    · exact Or.inr (Or.inl h)
    · exact Or.inl (Or.inr h)
    · exact Or.inr (Or.inr h)

theorem addPairs_spec (n : Nat) (l : List (Nat × Nat)) : ∀ pairs : List (Nat × Nat),
    ((addPairs n pairs l).2 = none ↔ ∀ p ∈ l, p.1 ≠ p.2 ∧ p.1 < n ∧ p.2 < n) ∧
    ((addPairs n pairs l).2 = none → (∀ x y, HasPair (addPairs n pairs l).1 x y ↔ HasPair pairs x y ∨ HasPair l x y) ∧
      (PairsOK n pairs → PairsOK n (addPairs n pairs l).1)) := by
  induction l with
  | nil =>
    intro pairs
    exact ⟨⟨fun _ _ h => absurd h (by simp), fun _ => rfl⟩, fun _ => ⟨fun x y => by simp [addPairs, HasPair], id⟩⟩
  | cons p l ih =>
    intro pairs
    obtain ⟨s1, s2⟩ := addPair_spec n pairs p
    unfold addPairs
    cases hp : addPair n pairs p with
    | mk pairs' e =>
      rw [hp] at s1 s2
      cases e with
      | some e =>
        dsimp only
        refine ⟨⟨fun h => by simp at h, fun h => absurd (s1.2 (h p List.mem_cons_self)) (by simp)⟩, fun h => by simp at h⟩
      | none =>
        dsimp only at s1 s2 ⊢
        obtain ⟨i1, i2⟩ := ih pairs'
        have hp' := s1.1 rfl
        obtain ⟨a1, a2⟩ := s2 rfl
        refine ⟨⟨fun h q hq => ?_, fun h => i1.2 fun q hq => h q (List.mem_cons_of_mem _ hq)⟩, fun h => ⟨fun x y => ?_, fun hok => ?_⟩⟩
        · rcases List.mem_cons.1 hq with rfl | hq
          · exact hp'
          · exact i1.1 h q hq
        · rw [(i2 h).1 x y, a1 x y, hasPair_cons p l, or_assoc]
        · exact (i2 h).2 (a2 hok)

theorem objectsOf_mem (geoms : List (Option String)) (name : String) (k : Nat) : k ∈ objectsOf geoms name ↔ geoms[k]? = some (some name) := by
  unfold objectsOf
  simp only [List.mem_filter, List.mem_range, decide_eq_true_eq]
  constructor
  · exact fun h => h.2
  · intro h
    exact ⟨(List.getElem?_eq_some_iff.1 h).1, h⟩

theorem objectsOf_ne_nil (geoms : List (Option String)) (name : String) : objectsOf geoms name ≠ [] ↔ some name ∈ geoms := by
  constructor
  · intro h
    obtain ⟨k, hk⟩ := List.exists_mem_of_ne_nil _ h
    exact List.mem_of_getElem? ((objectsOf_mem geoms name k).1 hk)
  · intro h
    obtain ⟨k, hk⟩ := List.getElem?_of_mem h
    exact List.ne_nil_of_mem ((objectsOf_mem geoms name k).2 hk)

theorem addEntry_spec (geoms : List (Option String)) (pairs : List (Nat × Nat)) (e : JsonEntry) :
    ((addEntry geoms pairs e).2 = none ↔ e.Good geoms) ∧
    ((addEntry geoms pairs e).2 = none →
      (∀ x y, HasPair (addEntry geoms pairs e).1 x y ↔ HasPair pairs x y ∨ (e.Lists geoms x y ∨ e.Lists geoms y x)) ∧
      (PairsOK geoms.length pairs → PairsOK geoms.length (addEntry geoms pairs e).1)) := by
  have hkeep : ∀ e : JsonEntry, (∀ x y, ¬ e.Lists geoms x y) → ∀ x y : Nat,
      (HasPair pairs x y ↔ HasPair pairs x y ∨ (e.Lists geoms x y ∨ e.Lists geoms y x)) := by
    intro e he x y
    simp [he]
  cases e with
  | array n h => exact ⟨⟨fun _ => trivial, fun _ => rfl⟩, fun _ => ⟨hkeep _ fun _ _ h => h, id⟩⟩
  | value => exact ⟨⟨fun _ => trivial, fun _ => rfl⟩, fun _ => ⟨hkeep _ fun _ _ h => h, id⟩⟩
  | object n =>
    by_cases hn : n = 2
    · simp [addEntry, hn, JsonEntry.Good]
    · simp only [addEntry, if_neg hn]
      exact ⟨⟨fun _ => hn, fun _ => trivial⟩, fun _ => ⟨hkeep _ fun _ _ h => h, id⟩⟩
  | two a b =>
    cases a with
    | other => cases b <;> exact ⟨⟨fun h => by simp [addEntry] at h, fun h => h.elim⟩, fun h => by simp [addEntry] at h⟩
    | int a =>
      cases b with
      | other => exact ⟨⟨fun h => by simp [addEntry] at h, fun h => h.elim⟩, fun h => by simp [addEntry] at h⟩
      | str b => exact ⟨⟨fun h => by simp [addEntry] at h, fun h => h.elim⟩, fun h => by simp [addEntry] at h⟩
      | int b =>
        by_cases hneg : a < 0 ∨ b < 0
        · have e : addEntry geoms pairs (.two (.int a) (.int b)) = (pairs, some .logicError) := if_pos hneg
          rw [e]
          refine ⟨⟨fun h => by simp at h, fun h => ?_⟩, fun h => by simp at h⟩
          obtain ⟨h1, h2, -⟩ := h
          omega
        · have e : addEntry geoms pairs (.two (.int a) (.int b)) = addPair geoms.length pairs (a.toNat, b.toNat) := if_neg hneg
          rw [e]
          obtain ⟨s1, s2⟩ := addPair_spec geoms.length pairs (a.toNat, b.toNat)
          refine ⟨?_, fun h => ⟨fun x y => ?_, (s2 h).2⟩⟩
          · rw [s1]
            show a.toNat ≠ b.toNat ∧ a.toNat < _ ∧ b.toNat < _ ↔ 0 ≤ a ∧ 0 ≤ b ∧ a ≠ b ∧ a < geoms.length ∧ b < geoms.length
            omega
          · rw [(s2 h).1 x y]
            have : HasPair [(a.toNat, b.toNat)] x y ↔ (a = x ∧ b = y) ∨ (a = y ∧ b = x) := by
              simp only [HasPair, List.mem_singleton, Prod.mk.injEq]
              omega
            rw [this]
            rfl
    | str a =>
      cases b with
      | other => exact ⟨⟨fun h => by simp [addEntry] at h, fun h => h.elim⟩, fun h => by simp [addEntry] at h⟩
      | int b => exact ⟨⟨fun h => by simp [addEntry] at h, fun h => h.elim⟩, fun h => by simp [addEntry] at h⟩
      | str b =>
        by_cases hnil : objectsOf geoms a = [] ∨ objectsOf geoms b = []
        · have e : addEntry geoms pairs (.two (.str a) (.str b)) = (pairs, some .runtimeError) := if_pos hnil
          rw [e]
          refine ⟨⟨fun h => by simp at h, fun h => ?_⟩, fun h => by simp at h⟩
          obtain ⟨-, h2, h3⟩ := h
          rcases hnil with h | h
          · exact absurd h ((objectsOf_ne_nil geoms a).2 h2)
          · exact absurd h ((objectsOf_ne_nil geoms b).2 h3)
        · have e : addEntry geoms pairs (.two (.str a) (.str b)) = addPairs geoms.length pairs
            ((objectsOf geoms a).flatMap fun k1 => (objectsOf geoms b).map fun k2 => (k1, k2)) := if_neg hnil
          rw [e]
          have hmem : ∀ x y, (x, y) ∈ ((objectsOf geoms a).flatMap fun k1 => (objectsOf geoms b).map fun k2 => (k1, k2)) ↔
              geoms[x]? = some (some a) ∧ geoms[y]? = some (some b) := by
            intro x y
            simp only [List.mem_flatMap, List.mem_map, objectsOf_mem, Prod.mk.injEq]
            constructor
            · rintro ⟨k1, h1, k2, h2, rfl, rfl⟩; exact ⟨h1, h2⟩
            · rintro ⟨h1, h2⟩; exact ⟨x, h1, y, h2, rfl, rfl⟩
          obtain ⟨s1, s2⟩ := addPairs_spec geoms.length
            ((objectsOf geoms a).flatMap fun k1 => (objectsOf geoms b).map fun k2 => (k1, k2)) pairs
          have ha : some a ∈ geoms := (objectsOf_ne_nil geoms a).1 fun h => hnil (Or.inl h)
          have hb : some b ∈ geoms := (objectsOf_ne_nil geoms b).1 fun h => hnil (Or.inr h)
          refine ⟨?_, fun h => ⟨fun x y => ?_, (s2 h).2⟩⟩
          · rw [s1]
            constructor
            · intro h
              refine ⟨fun hab => ?_, ha, hb⟩
              subst hab
              obtain ⟨k, hk⟩ := List.getElem?_of_mem ha
              exact (h (k, k) ((hmem k k).2 ⟨hk, hk⟩)).1 rfl
            · rintro ⟨hab, -, -⟩ ⟨x, y⟩ hp
              obtain ⟨h1, h2⟩ := (hmem x y).1 hp
              refine ⟨fun hxy => hab ?_, (List.getElem?_eq_some_iff.1 h1).1, (List.getElem?_eq_some_iff.1 h2).1⟩
              have hxy : x = y := hxy
              rw [hxy, h2] at h1
              injection h1 with h1
              injection h1 with h1
              exact h1.symm
          · rw [(s2 h).1 x y]
            unfold HasPair
            rw [hmem, hmem]
            rfl

theorem addEntries_spec (geoms : List (Option String)) (l : List JsonEntry) : ∀ pairs : List (Nat × Nat),
    ((addEntries geoms pairs l).2 = none ↔ ∀ e ∈ l, e.Good geoms) ∧
    ((addEntries geoms pairs l).2 = none →
      (∀ x y, HasPair (addEntries geoms pairs l).1 x y ↔ HasPair pairs x y ∨ ∃ e ∈ l, e.Lists geoms x y ∨ e.Lists geoms y x) ∧
      (PairsOK geoms.length pairs → PairsOK geoms.length (addEntries geoms pairs l).1)) := by
  induction l with
  | nil =>
    intro pairs
    exact ⟨⟨fun _ _ h => absurd h (by simp), fun _ => rfl⟩, fun _ => ⟨fun x y => by simp [addEntries], id⟩⟩
  | cons e l ih =>
    intro pairs
    obtain ⟨s1, s2⟩ := addEntry_spec geoms pairs e
    unfold addEntries
    cases hp : addEntry geoms pairs e with
    | mk pairs' err =>
      rw [hp] at s1 s2
      cases err with
      | some err =>
        dsimp only
        exact ⟨⟨fun h => by simp at h, fun h => absurd (s1.2 (h e List.mem_cons_self)) (by simp)⟩, fun h => by simp at h⟩
      | none =>
        dsimp only at s1 s2 ⊢
        obtain ⟨i1, i2⟩ := ih pairs'
        obtain ⟨a1, a2⟩ := s2 rfl
        refine ⟨⟨fun h q hq => ?_, fun h => i1.2 fun q hq => h q (List.mem_cons_of_mem _ hq)⟩, fun h => ⟨fun x y => ?_, fun hok => ?_⟩⟩
        · rcases List.mem_cons.1 hq with rfl | hq
          · exact s1.1 rfl
          · exact i1.1 h q hq
        · rw [(i2 h).1 x y, a1 x y, or_assoc]
          simp only [List.mem_cons, exists_eq_or_imp]
        · exact (i2 h).2 (a2 hok)

/-- **C153, what is true.** A file of collision pairs is loaded exactly when all its entries of two values are two different known objects or the
names of two different frames that have objects (entries of other sizes being ignored). Then the pairs are exactly those listed by
indices or between the objects of the frames named, each one once; pairs loaded before are forgotten. Missing: a load that
fails should keep the pairs, which is false (`C153_refuted`). -/
theorem C153_partial (m : CollisionModel) (l : List JsonEntry) :
    ((m.load (.entries l)).2 = none ↔ ∀ e ∈ l, e.Good m.geoms) ∧ (m.load (.entries l)).1.geoms = m.geoms ∧
    ((m.load (.entries l)).2 = none →
      (∀ x y, HasPair (m.load (.entries l)).1.pairs x y ↔ ∃ e ∈ l, e.Lists m.geoms x y ∨ e.Lists m.geoms y x) ∧
      PairsOK m.geoms.length (m.load (.entries l)).1.pairs) := by
  obtain ⟨s1, s2⟩ := addEntries_spec m.geoms l []
  refine ⟨s1, rfl, fun h => ⟨fun x y => ?_, (s2 h).2 ⟨List.Pairwise.nil, fun _ h => absurd h (by simp)⟩⟩⟩
  have := (s2 h).1 x y
  simp only [HasPair, List.not_mem_nil, or_self, false_or] at this
  exact this

/-- C153: the order of the entries does not matter. -/
theorem C153_order (m m' : CollisionModel) (hg : m'.geoms = m.geoms) (l l' : List JsonEntry) (hl : ∀ e, e ∈ l ↔ e ∈ l')
    (h : (m.load (.entries l)).2 = none) :
    (m'.load (.entries l')).2 = none ∧
    ∀ x y, HasPair (m'.load (.entries l')).1.pairs x y ↔ HasPair (m.load (.entries l)).1.pairs x y := by
  have h' : (m'.load (.entries l')).2 = none := by
    rw [(C153_partial m' l').1, hg]
    exact fun e he => (C153_partial m l).1.1 h e ((hl e).2 he)
  refine ⟨h', fun x y => ?_⟩
  rw [((C153_partial m' l').2.2 h').1, ((C153_partial m l).2.2 h).1, hg]
  simp only [hl]

/-- **C153 is false of failed loads**: a file that cannot be opened removes the pairs of the robot. -/
theorem C153_refuted (m : CollisionModel) (h : m.pairs ≠ []) :
    (m.load .missing).2 = some .runtimeError ∧ (m.load .missing).1.pairs ≠ m.pairs := ⟨rfl, fun e => h e.symm⟩

/-! ## C154 -/

/-- The collision of pair `k`, objects `cp`, with these contacts. -/
def collisionOf {P : Type} (geom : Nat → GeomObject) (cp : Nat × Nat) (contacts : List P) : Collision P :=
  { objA := cp.1, objB := cp.2, contacts := contacts
    bodyA := (geom cp.1).name, parentA := (geom cp.1).parentJoint
    bodyB := (geom cp.2).name, parentB := (geom cp.2).parentJoint }

/-- All the pairs in collision, in the order of the pairs. -/
def allCollisions {P : Type} (geom : Nat → GeomObject) (pairs : List (Nat × Nat)) (result : Nat → Option (List P)) : List (Collision P) :=
  (pairs.zipIdx).filterMap fun p => (result p.2).map (collisionOf geom p.1)

theorem selfCollisionsFrom_all {P : Type} (geom : Nat → GeomObject) (result : Nat → Option (List P)) (l : List (Nat × Nat)) :
    ∀ (k : Nat) (acc : List (Collision P)), selfCollisionsFrom geom result false k l acc =
      acc ++ (l.zipIdx k).filterMap fun p => (result p.2).map (collisionOf geom p.1) := by
  induction l with
  | nil => intro k acc; simp [selfCollisionsFrom]
  | cons cp l ih =>
    intro k acc
    unfold selfCollisionsFrom
    rw [List.zipIdx_cons]
    cases hr : result k with
    | none =>
      dsimp only
      rw [ih, List.filterMap_cons_none (by simp [hr])]
    | some c =>
      dsimp only
      rw [if_neg (by simp), ih, List.filterMap_cons_some (b := collisionOf geom cp c) (by simp [hr]), List.append_assoc]
      rfl

theorem selfCollisionsFrom_first {P : Type} (geom : Nat → GeomObject) (result : Nat → Option (List P)) (l : List (Nat × Nat)) :
    ∀ (k : Nat) (acc : List (Collision P)), selfCollisionsFrom geom result true k l acc =
      acc ++ ((l.zipIdx k).filterMap fun p => (result p.2).map (collisionOf geom p.1)).take 1 := by
  induction l with
  | nil => intro k acc; simp [selfCollisionsFrom]
  | cons cp l ih =>
    intro k acc
    unfold selfCollisionsFrom
    rw [List.zipIdx_cons]
    cases hr : result k with
    | none =>
      dsimp only
      rw [ih, List.filterMap_cons_none (by simp [hr])]
    | some c =>
      dsimp only
      rw [if_pos rfl, List.filterMap_cons_some (b := collisionOf geom cp c) (by simp [hr])]
      rfl

/-- **C154, collisions.** `self_collisions` returns exactly the pairs in collision, in order, with their names, joints and contacts;
with `stop_at_first` only the first of them. In particular it is empty exactly when no pair is in collision, in both modes. -/
theorem C154_collisions {P : Type} (geom : Nat → GeomObject) (pairs : List (Nat × Nat)) (result : Nat → Option (List P)) :
    selfCollisions geom pairs result false = allCollisions geom pairs result ∧
    selfCollisions geom pairs result true = (allCollisions geom pairs result).take 1 ∧
    ∀ stop, selfCollisions geom pairs result stop = [] ↔ ∀ k, k < pairs.length → result k = none := by
  have h1 : selfCollisions geom pairs result false = allCollisions geom pairs result := by
    unfold selfCollisions
    rw [selfCollisionsFrom_all]
    rfl
  have h2 : selfCollisions geom pairs result true = (allCollisions geom pairs result).take 1 := by
    unfold selfCollisions
    rw [selfCollisionsFrom_first]
    rfl
  have h3 : allCollisions geom pairs result = [] ↔ ∀ k, k < pairs.length → result k = none := by
    unfold allCollisions
    rw [List.filterMap_eq_nil_iff]
    constructor
    · intro h k hk
      have := h (pairs[k], k) (by rw [List.mem_zipIdx_iff_getElem?]; exact List.getElem?_eq_getElem hk)
      simpa using this
    · rintro h ⟨p, k⟩ hp
      rw [List.mem_zipIdx_iff_getElem?] at hp
      have hk : k < pairs.length := (List.getElem?_eq_some_iff.1 hp).1
      simp [h k hk]
  refine ⟨h1, h2, fun stop => ?_⟩
  cases stop
  · rw [h1, h3]
  · rw [h2, List.take_eq_nil_iff]
    simp [h3]

theorem distancesFrom_spec {P K : Type} (geom : Nat → GeomObject) (result : Nat → P × P × K) (l : List (Nat × Nat)) :
    ∀ (k : Nat) (acc : List (Distance P K)), distancesFrom geom result k l acc = acc ++ (l.zipIdx k).map fun p =>
      { objA := p.1.1, objB := p.1.2, parentA := (geom p.1.1).parentJoint, parentB := (geom p.1.2).parentJoint,
        pointA := (result p.2).1, pointB := (result p.2).2.1, minDistance := (result p.2).2.2 } := by
  induction l with
  | nil => intro k acc; simp [distancesFrom]
  | cons cp l ih =>
    intro k acc
    unfold distancesFrom
    rw [ih, List.zipIdx_cons, List.map_cons, List.append_assoc]
    rfl

/-- **C154, distances.** `distances` returns one distance per pair, in order: the distance `k` is between the objects of the pair `k`,
with the nearest points and the distance computed for it. -/
theorem C154_distances {P K : Type} (geom : Nat → GeomObject) (pairs : List (Nat × Nat)) (result : Nat → P × P × K) :
    (distances geom pairs result).length = pairs.length ∧
    ∀ k cp, pairs[k]? = some cp → ∃ d, (distances geom pairs result)[k]? = some d ∧ d.objA = cp.1 ∧ d.objB = cp.2 ∧
      d.parentA = (geom cp.1).parentJoint ∧ d.parentB = (geom cp.2).parentJoint ∧ d.pointA = (result k).1 ∧ d.pointB = (result k).2.1 ∧
      d.minDistance = (result k).2.2 := by
  unfold distances
  rw [distancesFrom_spec]
  refine ⟨by simp, fun k cp hk => ⟨⟨cp.1, cp.2, (geom cp.1).parentJoint, (geom cp.2).parentJoint, (result k).1, (result k).2.1,
    (result k).2.2⟩, ?_, rfl, rfl, rfl, rfl, rfl, rfl, rfl⟩⟩
  simp [hk]

/-! ## Concrete cases -/

/-- Two objects on the trunk, one on the arm, one without frame. -/
def fourObjects : CollisionModel := ⟨[some "trunk", some "arm", none, some "trunk"], [(0, 1)]⟩

example : (fourObjects.load (.entries [.two (.str "arm") (.str "trunk"), .array 3 (by decide), .two (.int 3) (.int 1), .two (.int 2) (.int 3)])).1.pairs =
    [(1, 0), (1, 3), (2, 3)] := by decide

/-- A frame paired with itself is refused. -/
example : (fourObjects.load (.entries [.two (.str "arm") (.str "arm")])).2 = some .logicError := by decide

example : selfCollisions (P := Nat) (fun k => ⟨"o", k⟩) [(0, 1), (1, 2), (0, 2)] (fun k => if k = 0 then none else some [k]) true =
    [⟨1, 2, "o", 1, "o", 2, [1]⟩] := by rfl

end Verif.Robot
