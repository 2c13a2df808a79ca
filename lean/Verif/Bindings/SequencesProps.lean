/-
C204: conversion of Python sequences to vectors.
-/
import Verif.Bindings.Sequences
import Mathlib.Tactic.Common
import Mathlib.Algebra.BigOperators.Group.List.Basic

namespace Verif.Bindings

/-! ## Specification -/

/-- The argument is a sequence of these objects (a list, a tuple, …). -/
structure PyArg.IsList (a : PyArg) (l : List Obj) : Prop where
  isSequence : a.isSequence = true
  hasLen : a.hasLen = true
  size : a.size = some l.length
  item : ∀ i, i < l.length → a.item i = l[i]?

/-- What the caller of a function of the bindings does. -/
inductive SeqOp where
  | hold (o : Obj)       -- keep one more reference to the object
  | drop (o : Obj)       -- give back a reference that was kept
  | call (l : List Obj)  -- give the sequence to a function that expects a vector

/-- The references that the caller keeps. -/
def kept : List SeqOp → (Obj → Nat) → Obj → Nat
  | [], c => c
  | .hold o :: ops, c => kept ops fun x => if x = o then c x + 1 else c x
  | .drop o :: ops, c => kept ops fun x => if x = o then c x - 1 else c x
  | .call _ :: ops, c => kept ops c

/-- The caller only gives back references that they keep. -/
def Fair : List SeqOp → (Obj → Nat) → Prop
  | [], _ => True
  | .hold o :: ops, c => Fair ops fun x => if x = o then c x + 1 else c x
  | .drop o :: ops, c => 0 < c o ∧ Fair ops fun x => if x = o then c x - 1 else c x
  | .call _ :: ops, c => Fair ops c

/-- The sequences given to functions. -/
def givenSeqs : List SeqOp → List (List Obj)
  | [] => []
  | .call l :: ops => l :: givenSeqs ops
  | .hold _ :: ops => givenSeqs ops
  | .drop _ :: ops => givenSeqs ops

/-- The sequence of these objects. -/
def PyArg.ofList (l : List Obj) : PyArg := ⟨true, true, some l.length, fun i => l[i]?⟩

theorem PyArg.ofList_isList (l : List Obj) : (PyArg.ofList l).IsList l := ⟨rfl, rfl, rfl, fun _ _ => rfl⟩

/-- The memory along the operations of the caller; the references that the function and its caller hold during the call are
given back when it ends, so that only those of the conversion are counted. -/
def heapRun {V : Type} (extract : Obj → Option V) : List SeqOp → Heap → Heap
  | [], h => h
  | .hold o :: ops, h => heapRun extract ops (h.incref o)
  | .drop o :: ops, h => heapRun extract ops { h with refs := fun x => if x = o then h.refs x - 1 else h.refs x }
  | .call l :: ops, h => heapRun extract ops (vectorFromSeq extract (PyArg.ofList l) h).1

/-! ## Proof -/

theorem seqLoop_spec {V : Type} (extract : Obj → Option V) (item : Nat → Option Obj) : ∀ (l : List Obj) (i : Nat) (v : List V) (h : Heap),
    (∀ k, k < l.length → item (i + k) = l[k]?) →
    ∀ vs, l.map extract = vs.map some →
    (seqLoop extract item l.length i v h).2 = .made (v ++ vs) ∧
    (seqLoop extract item l.length i v h).1.lost = h.lost ∧
    ∀ o, (seqLoop extract item l.length i v h).1.refs o = h.refs o + l.count o
  | [], i, v, h, _, vs, hv => by
    have : vs = [] := by cases vs <;> simp_all
    subst this
    simp [seqLoop]
  | x :: l, i, v, h, hi, vs, hv => by
    match vs, hv with
    | [], hv => simp at hv
    | y :: vs, hv =>
      simp only [List.map_cons, List.cons.injEq] at hv
      have h0 : item i = some x := by simpa using hi 0 (by simp)
      have ih := seqLoop_spec extract item l (i + 1) (v ++ [y]) (h.incref x)
        (fun k hk => by
          have := hi (k + 1) (by simpa using hk)
          rw [show i + 1 + k = i + (k + 1) by omega, this]
          simp) vs hv.2
      have hs : seqLoop extract item (x :: l).length i v h = seqLoop extract item l.length (i + 1) (v ++ [y]) (h.incref x) := by
        rw [List.length_cons, seqLoop, h0]
        dsimp only
        rw [hv.1]
      rw [hs]
      refine ⟨by rw [ih.1]; simp, ih.2.1, fun o => ?_⟩
      rw [ih.2.2 o, List.count_cons]
      simp only [Heap.incref, beq_iff_eq]
      by_cases ho : o = x
      · subst ho; simp; omega
      · rw [if_neg ho, if_neg (fun h => ho h.symm)]; rfl

/-- The loop stops at the first object that cannot be converted. -/
theorem seqLoop_raised {V : Type} (extract : Obj → Option V) (item : Nat → Option Obj) (n : Nat) : ∀ (l : List Obj) (i : Nat) (v : List V) (h : Heap)
    (bad : Obj) (rest : List Obj), (∀ k, k < l.length + 1 → item (i + k) = (l ++ bad :: rest)[k]?) →
    (∀ o ∈ l, (extract o).isSome) → extract bad = none →
    (seqLoop extract item (l.length + 1 + n) i v h).2 = .raised ∧
    (seqLoop extract item (l.length + 1 + n) i v h).1.lost = h.lost + 1 ∧
    ∀ o, (seqLoop extract item (l.length + 1 + n) i v h).1.refs o = h.refs o + (l ++ [bad]).count o
  | [], i, v, h, bad, rest, hi, _, hb => by
    have h0 : item i = some bad := by simpa using hi 0 (by simp)
    have hs : seqLoop extract item (0 + 1 + n) i v h = ({ h.incref bad with lost := h.lost + 1 }, .raised) := by
      rw [show 0 + 1 + n = n + 1 by omega, seqLoop, h0]
      dsimp only
      rw [hb]
      rfl
    simp only [List.length_nil, List.nil_append]
    rw [hs]
    refine ⟨rfl, rfl, fun o => ?_⟩
    simp only [Heap.incref, List.count_cons, List.count_nil, beq_iff_eq]
    by_cases ho : o = bad
    · subst ho; simp
    · rw [if_neg ho, if_neg (fun h => ho h.symm)]; rfl
  | x :: l, i, v, h, bad, rest, hi, hl, hb => by
    have h0 : item i = some x := by simpa using hi 0 (by simp)
    obtain ⟨y, hy⟩ := Option.isSome_iff_exists.1 (hl x (by simp))
    have ih := seqLoop_raised extract item n l (i + 1) (v ++ [y]) (h.incref x) bad rest
      (fun k hk => by
        have := hi (k + 1) (by simpa using hk)
        rw [show i + 1 + k = i + (k + 1) by omega, this]
        simp) (fun o ho => hl o (by simp [ho])) hb
    have hs : seqLoop extract item ((x :: l).length + 1 + n) i v h = seqLoop extract item (l.length + 1 + n) (i + 1) (v ++ [y]) (h.incref x) := by
      rw [show (x :: l).length + 1 + n = (l.length + 1 + n) + 1 by simp only [List.length_cons]; omega, seqLoop, h0]
      dsimp only
      rw [hy]
    rw [hs]
    refine ⟨ih.1, ih.2.1, fun o => ?_⟩
    rw [ih.2.2 o, List.cons_append, List.count_cons]
    simp only [Heap.incref, beq_iff_eq]
    by_cases ho : o = x
    · subst ho; simp; omega
    · rw [if_neg ho, if_neg (fun h => ho h.symm)]; rfl

theorem vectorFromSeq_list {V : Type} (extract : Obj → Option V) (a : PyArg) (l : List Obj) (ha : a.IsList l) (h : Heap) :
    vectorFromSeq extract a h = seqLoop extract a.item l.length 0 [] h := by
  unfold vectorFromSeq
  rw [ha.isSequence, ha.hasLen, ha.size]
  rfl

/-! ## The property -/

/-- **C204_partial.** Missing: the references are not given back (`C204_exact`, `C204_refuted`). A sequence whose objects can all
be converted makes the vector of the converted objects, in the same order and with the same repetitions. -/
theorem C204_partial {V : Type} (extract : Obj → Option V) (a : PyArg) (l : List Obj) (ha : a.IsList l) (vs : List V)
    (hv : l.map extract = vs.map some) (h : Heap) : (vectorFromSeq extract a h).2 = .made vs := by
  rw [vectorFromSeq_list extract a l ha]
  simpa using (seqLoop_spec extract a.item l 0 [] h (fun k hk => by simpa using ha.item k hk) vs hv).1

/-- **C204, objects that cannot be converted.** The conversion raises an error exactly when one of the objects cannot be
converted. -/
theorem C204_raises {V : Type} (extract : Obj → Option V) (a : PyArg) (l : List Obj) (ha : a.IsList l) (h : Heap) :
    (vectorFromSeq extract a h).2 = .raised ↔ ∃ o ∈ l, extract o = none := by
  rw [vectorFromSeq_list extract a l ha]
  by_cases hb : ∃ o ∈ l, extract o = none
  · refine iff_of_true ?_ hb
    obtain ⟨b, hbm, hbn⟩ := hb
    have : ∃ (l₁ : List Obj) (bad : Obj) (l₂ : List Obj), l = l₁ ++ bad :: l₂ ∧ (∀ o ∈ l₁, (extract o).isSome) ∧ extract bad = none := by
      clear ha
      induction l with
      | nil => cases hbm
      | cons x l ih =>
        cases hx : extract x with
        | none => exact ⟨[], x, l, rfl, by simp, hx⟩
        | some y =>
          have hbl : b ∈ l := by
            rcases List.mem_cons.1 hbm with hb | hb
            · subst hb; rw [hbn] at hx; cases hx
            · exact hb
          obtain ⟨l₁, bad, l₂, h1, h2, h3⟩ := ih hbl
          refine ⟨x :: l₁, bad, l₂, by rw [h1]; rfl, fun o ho => ?_, h3⟩
          rcases List.mem_cons.1 ho with ho | ho
          · rw [ho, hx]; rfl
          · exact h2 o ho
    obtain ⟨l₁, bad, l₂, h1, h2, h3⟩ := this
    subst h1
    have hlen : (l₁ ++ bad :: l₂).length = l₁.length + 1 + l₂.length := by simp; omega
    rw [hlen]
    exact (seqLoop_raised extract a.item l₂.length l₁ 0 [] h bad l₂
      (fun k hk => by simpa using ha.item k (by rw [hlen]; omega)) h2 h3).1
  · refine iff_of_false (fun hr => ?_) hb
    have hall : ∃ vs : List V, l.map extract = vs.map some := by
      clear hr ha
      induction l with
      | nil => exact ⟨[], rfl⟩
      | cons x l ih =>
        obtain ⟨vs, hvs⟩ := ih (fun ⟨o, ho, hn⟩ => hb ⟨o, by simp [ho], hn⟩)
        cases hx : extract x with
        | none => exact absurd ⟨x, by simp, hx⟩ hb
        | some y => exact ⟨y :: vs, by simp [hx, hvs]⟩
    obtain ⟨vs, hvs⟩ := hall
    rw [(seqLoop_spec extract a.item l 0 [] h (fun k hk => by simpa using ha.item k hk) vs hvs).1] at hr
    cases hr

/-- **C204_exact.** The exact account of the references: along every history of the caller whose sequences can be converted,
an object has the references that it had, with those that the caller keeps, and one more for each time that it was in a
sequence given to a function. -/
theorem C204_exact {V : Type} (extract : Obj → Option V) : ∀ (ops : List SeqOp) (h : Heap) (c : Obj → Nat) (base : Obj → Nat),
    (∀ o, h.refs o = base o + c o) → Fair ops c → (∀ l ∈ givenSeqs ops, ∀ o ∈ l, (extract o).isSome) →
    ∀ o, (heapRun extract ops h).refs o = base o + kept ops c o + ((givenSeqs ops).flatten).count o
  | [], h, c, base, hh, _, _, o => by simp [heapRun, kept, givenSeqs, hh o]
  | .hold p :: ops, h, c, base, hh, hf, hg, o => by
    rw [heapRun, kept, givenSeqs]
    refine C204_exact extract ops _ _ base (fun x => ?_) hf hg o
    simp only [Heap.incref]
    split <;> rw [hh x] <;> rfl
  | .drop p :: ops, h, c, base, hh, hf, hg, o => by
    rw [heapRun, kept, givenSeqs]
    refine C204_exact extract ops _ _ base (fun x => ?_) hf.2 hg o
    dsimp only
    by_cases hx : x = p
    · subst hx
      have := hf.1
      rw [if_pos rfl, if_pos rfl, hh x]
      omega
    · rw [if_neg hx, if_neg hx, hh x]
  | .call l :: ops, h, c, base, hh, hf, hg, o => by
    rw [heapRun, kept, givenSeqs]
    have hl : ∃ vs : List V, l.map extract = vs.map some := by
      have hl := hg l (by simp [givenSeqs])
      clear hg hf
      induction l with
      | nil => exact ⟨[], rfl⟩
      | cons x l ih =>
        obtain ⟨vs, hvs⟩ := ih (fun o ho => hl o (by simp [ho]))
        obtain ⟨y, hy⟩ := Option.isSome_iff_exists.1 (hl x (by simp))
        exact ⟨y :: vs, by simp [hy, hvs]⟩
    obtain ⟨vs, hvs⟩ := hl
    have hs := (seqLoop_spec extract (PyArg.ofList l).item l 0 [] h
      (fun k hk => by simpa using (PyArg.ofList_isList l).item k hk) vs hvs).2.2
    rw [C204_exact extract ops _ c (fun x => base x + l.count x) (fun x => by
      rw [vectorFromSeq_list extract _ l (PyArg.ofList_isList l), hs x, hh x]; omega) hf
      (fun l' hl' => hg l' (by simp [givenSeqs, hl'])) o]
    rw [List.flatten_cons, List.count_append]
    omega

/-- **C204, memory.** An object that was once in a sequence given to a function is never freed, whatever the caller does
before and after. -/
theorem C204_never_freed {V : Type} (extract : Obj → Option V) (ops : List SeqOp) (h : Heap) (hf : Fair ops h.refs)
    (hg : ∀ l ∈ givenSeqs ops, ∀ o ∈ l, (extract o).isSome) (l : List Obj) (hl : l ∈ givenSeqs ops) (o : Obj) (ho : o ∈ l) :
    0 < (heapRun extract ops h).refs o := by
  rw [C204_exact extract ops h h.refs (fun _ => 0) (by simp) hf hg o]
  have : 0 < ((givenSeqs ops).flatten).count o := List.count_pos_iff.2 (List.mem_flatten.2 ⟨l, hl, ho⟩)
  omega

/-- **C204 is false of the code.** For every sequence that is not empty, whether it can be converted or not, the references are
not those before the call. -/
theorem C204_refuted {V : Type} (extract : Obj → Option V) (a : PyArg) (l : List Obj) (ha : a.IsList l) (hl : l ≠ []) (h : Heap) :
    ∃ o ∈ l, h.refs o < (vectorFromSeq extract a h).1.refs o := by
  rw [vectorFromSeq_list extract a l ha]
  have mono : ∀ (n i : Nat) (v : List V) (h : Heap) (o : Obj), h.refs o ≤ (seqLoop extract a.item n i v h).1.refs o := by
    intro n
    induction n with
    | zero => intro i v h o; simp [seqLoop]
    | succ n ih =>
      intro i v h o
      rw [seqLoop]
      have hi : ∀ p, h.refs o ≤ (h.incref p).refs o := fun p => by simp only [Heap.incref]; split <;> omega
      cases a.item i with
      | none => exact Nat.le_refl _
      | some p =>
        dsimp only
        cases extract p with
        | none => exact hi p
        | some y => exact Nat.le_trans (hi p) (ih _ _ _ _)
  cases l with
  | nil => exact absurd rfl hl
  | cons x l =>
    refine ⟨x, by simp, ?_⟩
    have h0 : a.item 0 = some x := by simpa using ha.item 0 (by simp)
    rw [List.length_cons, seqLoop, h0]
    have hx : h.refs x < (h.incref x).refs x := by simp [Heap.incref]
    dsimp only
    cases extract x with
    | none => exact hx
    | some y => exact Nat.lt_of_lt_of_le hx (mono _ _ _ _ _)

/-- **C204, failed conversions.** When an object of the sequence cannot be converted, the vector is lost too, and the objects
up to that one keep a reference. -/
theorem C204_lost {V : Type} (extract : Obj → Option V) (a : PyArg) (l : List Obj) (bad : Obj) (rest : List Obj)
    (ha : a.IsList (l ++ bad :: rest)) (hl : ∀ o ∈ l, (extract o).isSome) (hb : extract bad = none) (h : Heap) :
    (vectorFromSeq extract a h).1.lost = h.lost + 1 ∧
    ∀ o, (vectorFromSeq extract a h).1.refs o = h.refs o + (l ++ [bad]).count o := by
  rw [vectorFromSeq_list extract a _ ha]
  have hlen : (l ++ bad :: rest).length = l.length + 1 + rest.length := by simp; omega
  rw [hlen]
  exact (seqLoop_raised extract a.item rest.length l 0 [] h bad rest
    (fun k hk => by simpa using ha.item k (by rw [hlen]; omega)) hl hb).2

/-- **C204, sequences without a length.** An object with items and a `__len__` that raises (an array of numpy of no dimension)
stops the process instead of raising an error; the others that are not sequences are refused, and nothing changes. -/
theorem C204_aborts {V : Type} (extract : Obj → Option V) (a : PyArg) (h : Heap) :
    ((vectorFromSeq extract a h).2 = .refused ↔ ¬ (a.isSequence = true ∧ a.hasLen = true)) ∧
    ((vectorFromSeq extract a h).2 = .aborted ↔ a.isSequence = true ∧ a.hasLen = true ∧ a.size = none) ∧
    ((vectorFromSeq extract a h).2 = .refused → (vectorFromSeq extract a h).1 = h) := by
  have hloop : ∀ (n i : Nat) (v : List V) (h : Heap), (seqLoop extract a.item n i v h).2 ≠ .refused ∧
      (seqLoop extract a.item n i v h).2 ≠ .aborted := by
    intro n
    induction n with
    | zero => intro i v h; simp [seqLoop]
    | succ n ih =>
      intro i v h
      rw [seqLoop]
      cases a.item i with
      | none => simp
      | some p =>
        dsimp only
        cases extract p with
        | none => simp
        | some y => exact ih _ _ _
  unfold vectorFromSeq
  cases h1 : a.isSequence <;> cases h2 : a.hasLen <;> simp
  cases h3 : a.size with
  | none => simp
  | some n => simp [(hloop n 0 [] h).1, (hloop n 0 [] h).2]

/-! ## The hypotheses are met -/

/-- A list `[a, b, a]` of two numbers (objects 4 and 6), each kept once by the caller: both are converted, and both keep
references when the caller has dropped them. -/
example : (vectorFromSeq (fun o => some (o * 10)) (PyArg.ofList [4, 6, 4]) ⟨fun _ => 0, 0⟩).2 = .made [40, 60, 40] ∧
    (heapRun (fun o => some (o * 10)) [.hold 4, .hold 6, .call [4, 6, 4], .drop 4, .drop 6] ⟨fun _ => 0, 0⟩).refs 4 = 2 := by
  decide
example : Fair [.hold 4, .hold 6, .call [4, 6, 4], .drop 4, .drop 6] fun _ => 0 := by simp [Fair]
/-- A list whose second object cannot be converted. -/
example : (vectorFromSeq (fun o => if o = 6 then none else some o) (PyArg.ofList [4, 6, 5]) ⟨fun _ => 1, 0⟩).2 = .raised ∧
    (vectorFromSeq (fun o => if o = 6 then none else some o) (PyArg.ofList [4, 6, 5]) ⟨fun _ => 1, 0⟩).1.lost = 1 := by decide
/-- An array of no dimension. -/
example : (vectorFromSeq (fun o => some o) ⟨true, true, none, fun _ => none⟩ ⟨fun _ => 1, 0⟩).2 = .aborted := by decide

end Verif.Bindings
