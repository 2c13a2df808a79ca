/-
Properties C11, C12: interval sets and column sparsity.
-/
import Mathlib.Algebra.Order.Ring.Rat
import Mathlib.Algebra.Field.Rat
import Verif.Problem.Sparsity

namespace Verif.Problem

/-! ## Specification -/

/-- The set of indices described by an interval list. -/
def covers (l : List Interval) (i : Int) : Prop := ∃ o ∈ l, o.start ≤ i ∧ i ≤ o.stop

/-- Sorted, pairwise disjoint, non-empty intervals. -/
def WellFormed (l : List Interval) : Prop :=
  (∀ o ∈ l, o.start ≤ o.stop) ∧ l.Pairwise (fun a b => a.stop < b.start)

namespace C11

theorem contains_iff (o : Interval) (i : Int) : o.contains i = true ↔ o.start ≤ i ∧ i ≤ o.stop := by
  simp [Interval.contains]

@[simp] theorem covers_nil (i : Int) : covers [] i ↔ False := by simp [covers]

@[simp] theorem covers_cons (o : Interval) (l : List Interval) (i : Int) :
    covers (o :: l) i ↔ (o.start ≤ i ∧ i ≤ o.stop) ∨ covers l i := by
  simp [covers]

theorem wf_cons {o : Interval} {l : List Interval} :
    WellFormed (o :: l) ↔ o.start ≤ o.stop ∧ (∀ b ∈ l, o.stop < b.start) ∧ WellFormed l := by
  simp only [WellFormed, List.mem_cons, forall_eq_or_imp, List.pairwise_cons]
  tauto

/-- Every interval of the result starts after any lower bound of the inputs. -/
theorem lower_bound (B start stop : Int) (l : List Interval) (hs : B < start)
    (hl : ∀ o ∈ l, B < o.start) : ∀ o ∈ Sparsity.addInterval start stop l, B < o.start := by
  induction l generalizing start with
  | nil => simpa [Sparsity.addInterval] using hs
  | cons o rest ih =>
    have ho := hl o (by simp)
    have hr : ∀ p ∈ rest, B < p.start := fun p hp => hl p (by simp [hp])
    unfold Sparsity.addInterval
    split_ifs
    · intro p hp
      simp only [List.mem_cons] at hp
      rcases hp with rfl | rfl | hp
      · exact hs
      · exact ho
      · exact hr p hp
    · intro p hp
      simp only [List.mem_cons] at hp
      rcases hp with rfl | hp
      · exact ho
      · exact hr p hp
    · exact ih o.start ho hr
    · intro p hp
      simp only [List.mem_cons] at hp
      rcases hp with rfl | hp
      · exact hs
      · exact hr p hp
    · intro p hp
      simp only [List.mem_cons] at hp
      rcases hp with rfl | hp
      · exact ho
      · exact ih start hs hr p hp
    · exact ih start hs hr

theorem addInterval_spec (start stop : Int) (l : List Interval) (h : start ≤ stop) (wf : WellFormed l) :
    WellFormed (Sparsity.addInterval start stop l) ∧
    ∀ i, covers (Sparsity.addInterval start stop l) i ↔ (start ≤ i ∧ i ≤ stop) ∨ covers l i := by
  induction l generalizing start with
  | nil => simp [Sparsity.addInterval, WellFormed, h]
  | cons o rest ih =>
    rw [wf_cons] at wf
    obtain ⟨h1, h2, h3⟩ := wf
    unfold Sparsity.addInterval
    split_ifs with c1 c2 c3 c4 c5
    · refine ⟨wf_cons.2 ⟨h, ?_, wf_cons.2 ⟨h1, h2, h3⟩⟩, fun i => by simp⟩
      intro b hb
      simp only [List.mem_cons] at hb
      rcases hb with rfl | hb
      · exact c1
      · have := h2 b hb; show stop < b.start; omega
    · rw [Bool.and_eq_true, contains_iff, contains_iff] at c2
      refine ⟨wf_cons.2 ⟨h1, h2, h3⟩, fun i => ?_⟩
      rw [covers_cons]
      constructor
      · tauto
      · rintro (hi | hi | hi)
        · left; omega
        · left; exact hi
        · right; exact hi
    · rw [Bool.and_eq_true, contains_iff, contains_iff] at c2
      rw [contains_iff] at c3
      obtain ⟨ih1, ih2⟩ := ih o.start (by omega) h3
      refine ⟨ih1, fun i => ?_⟩
      rw [ih2, covers_cons]
      constructor
      · rintro (hi | hi)
        · by_cases hc : i ≤ o.stop
          · right; left; omega
          · left; omega
        · right; right; exact hi
      · rintro (hi | hi | hi)
        · left; omega
        · left; omega
        · right; exact hi
    · rw [contains_iff] at c3 c4
      refine ⟨wf_cons.2 ⟨by show start ≤ o.stop; omega, h2, h3⟩, fun i => ?_⟩
      rw [covers_cons, covers_cons]
      show (start ≤ i ∧ i ≤ o.stop) ∨ _ ↔ _
      constructor
      · rintro (hi | hi)
        · by_cases hc : i ≤ stop
          · left; omega
          · right; left; omega
        · right; right; exact hi
      · rintro (hi | hi | hi)
        · left; omega
        · left; omega
        · right; exact hi
    · rw [contains_iff] at c3 c4
      obtain ⟨ih1, ih2⟩ := ih start h h3
      refine ⟨wf_cons.2 ⟨h1, ?_, ih1⟩, fun i => ?_⟩
      · exact lower_bound o.stop start stop rest (by omega) h2
      · rw [covers_cons, ih2, covers_cons]; tauto
    · rw [contains_iff] at c3 c4
      obtain ⟨ih1, ih2⟩ := ih start h h3
      refine ⟨ih1, fun i => ?_⟩
      rw [ih2, covers_cons]
      constructor
      · tauto
      · rintro (hi | hi | hi)
        · left; exact hi
        · left; omega
        · right; exact hi

theorem foldl_spec (l acc : List Interval) (hl : ∀ o ∈ l, o.start ≤ o.stop) (wf : WellFormed acc) :
    WellFormed (l.foldl (fun s i => Sparsity.addInterval i.start i.stop s) acc) ∧
    ∀ i, covers (l.foldl (fun s i => Sparsity.addInterval i.start i.stop s) acc) i ↔
      covers acc i ∨ covers l i := by
  induction l generalizing acc with
  | nil => simp [wf]
  | cons o rest ih =>
    obtain ⟨h1, h2⟩ := addInterval_spec o.start o.stop acc (hl o (by simp)) wf
    obtain ⟨h3, h4⟩ := ih _ (fun p hp => hl p (by simp [hp])) h1
    refine ⟨h3, fun i => ?_⟩
    rw [List.foldl_cons, h4, h2, covers_cons]; tauto

end C11

/-- **C11.** After any sequence `calls` of `add_interval(start, end)` with
`start <= end`, starting from an empty `Sparsity`, the intervals are sorted,
disjoint, non-empty, and cover exactly the union of the requested intervals. -/
theorem C11_add_interval_history (calls : List (Int × Int)) (h : ∀ c ∈ calls, c.1 ≤ c.2) :
    let s := calls.foldl (fun s c => Sparsity.addInterval c.1 c.2 s) []
    WellFormed s ∧ ∀ i, covers s i ↔ ∃ c ∈ calls, c.1 ≤ i ∧ i ≤ c.2 := by
  have := C11.foldl_spec (calls.map fun c => ⟨c.1, c.2⟩) []
    (by intro o ho; obtain ⟨c, hc, rfl⟩ := List.mem_map.1 ho; exact h c hc) ⟨by simp, by simp⟩
  rw [List.foldl_map] at this
  refine ⟨this.1, fun i => ?_⟩
  rw [this.2]
  simp [covers]

/-- **C11 (sum).** The sum of two well-formed sparsities is well formed and is
their union. -/
theorem C11_add_union (a b : List Interval) (ha : WellFormed a) (hb : WellFormed b) :
    WellFormed (Sparsity.add a b) ∧ ∀ i, covers (Sparsity.add a b) i ↔ covers a i ∨ covers b i := by
  obtain ⟨h1, h2⟩ := C11.foldl_spec a [] ha.1 ⟨by simp, by simp⟩
  obtain ⟨h3, h4⟩ := C11.foldl_spec b _ hb.1 h1
  refine ⟨h3, fun i => ?_⟩
  unfold Sparsity.add
  rw [h4, h2]; simp

/-- Non-vacuity: overlapping, included and bridging intervals. -/
example : [(5, 7), (0, 1), (10, 12), (6, 11), (0, 0)].foldl
    (fun s (c : Int × Int) => Sparsity.addInterval c.1 c.2 s) [] = [⟨0, 1⟩, ⟨5, 12⟩] := by decide

/-- The hypothesis `start <= end` is needed: an inverted interval is stored as is. -/
example : Sparsity.addInterval 3 1 [] = [⟨3, 1⟩] ∧ ¬ WellFormed [⟨3, 1⟩] := by
  refine ⟨rfl, fun h => ?_⟩
  have := h.1 ⟨3, 1⟩ (by simp)
  simp at this

/-! ## C12 -/

section
variable {K : Type} [Field K] [LinearOrder K]

/-- Specification: a column is numerically zero. -/
def ColZero (eps : K) (M : Mat K) (j : Nat) : Prop :=
  ∀ i, i < M.rows → -eps ≤ M.m i j ∧ M.m i j ≤ eps

namespace C12

theorem colIsZero_iff (eps : K) (M : Mat K) (j : Nat) :
    Sparsity.colIsZero eps M j = true ↔ ColZero eps M j := by
  simp [Sparsity.colIsZero, ColZero]

/-- Loop invariant of the detection after `n` columns. -/
theorem detect_inv (eps : K) (M : Mat K) (n : Nat) :
    let st := (List.range n).foldl (Sparsity.detectStep eps M) ([], none)
    WellFormed st.1 ∧
    (match st.2 with
      | none => ∀ i : Int, covers st.1 i ↔ ∃ j : Nat, (j : Int) = i ∧ j < n ∧ ¬ ColZero eps M j
      | some last => last < n ∧ (∀ j, last ≤ j → j < n → ¬ ColZero eps M j) ∧
          ∀ i : Int, covers st.1 i ↔ ∃ j : Nat, (j : Int) = i ∧ j < last ∧ ¬ ColZero eps M j) := by
  induction n with
  | zero => simp [WellFormed]
  | succ n ih =>
    simp only [List.range_succ, List.foldl_append, List.foldl_cons, List.foldl_nil]
    simp only at ih
    generalize (List.range n).foldl (Sparsity.detectStep eps M) ([], none) = st at ih ⊢
    obtain ⟨l, last⟩ := st
    simp only at ih
    unfold Sparsity.detectStep
    by_cases hz : ColZero eps M n
    · rw [if_pos ((colIsZero_iff eps M n).2 hz)]
      cases last with
      | none =>
        refine ⟨ih.1, fun i => ?_⟩
        rw [ih.2 i]
        constructor
        · rintro ⟨j, rfl, h1, h2⟩; exact ⟨j, rfl, by omega, h2⟩
        · rintro ⟨j, rfl, h1, h2⟩
          refine ⟨j, rfl, ?_, h2⟩
          by_contra hc
          have : j = n := by omega
          subst this; exact h2 hz
      | some last =>
        obtain ⟨wf, hlt, hall, hcov⟩ := ih
        obtain ⟨h1, h2⟩ := C11.addInterval_spec (last : Int) ((n : Int) - 1) l (by omega) wf
        refine ⟨h1, fun i => ?_⟩
        simp only
        rw [h2, hcov]
        constructor
        · rintro (hi | ⟨j, rfl, hj, hjz⟩)
          · exact ⟨i.toNat, by omega, by omega, hall _ (by omega) (by omega)⟩
          · exact ⟨j, rfl, by omega, hjz⟩
        · rintro ⟨j, rfl, hj, hjz⟩
          by_cases hjl : j < last
          · right; exact ⟨j, rfl, hjl, hjz⟩
          · left
            have : j ≠ n := fun hjn => hjz (hjn ▸ hz)
            omega
    · have hz' : Sparsity.colIsZero eps M n ≠ true := fun h => hz ((colIsZero_iff eps M n).1 h)
      rw [if_neg hz']
      cases last with
      | none =>
        refine ⟨ih.1, by simp, ?_, ?_⟩
        · intro j h1 h2
          have : j = n := by omega
          subst this; exact hz
        · exact ih.2
      | some last =>
        obtain ⟨wf, hlt, hall, hcov⟩ := ih
        refine ⟨wf, by show last < n + 1; omega, ?_, hcov⟩
        intro j h1 h2
        by_cases hj : j < n
        · exact hall j h1 hj
        · have : j = n := by omega
          subst this; exact hz

end C12

/-- **C12.** The detected intervals are well formed and contain exactly the
indices of the columns that are not numerically zero. -/
theorem C12_detect_columns (eps : K) (M : Mat K) :
    WellFormed (Sparsity.detectColumns eps M) ∧
    ∀ i : Int, covers (Sparsity.detectColumns eps M) i ↔
      ∃ j : Nat, (j : Int) = i ∧ j < M.cols ∧ ¬ ColZero eps M j := by
  have inv := C12.detect_inv eps M M.cols
  unfold Sparsity.detectColumns
  simp only at inv ⊢
  generalize (List.range M.cols).foldl (Sparsity.detectStep eps M) ([], none) = st at inv
  obtain ⟨l, last⟩ := st
  cases last with
  | none => exact inv
  | some last =>
    obtain ⟨wf, hlt, hall, hcov⟩ := inv
    obtain ⟨h1, h2⟩ := C11.addInterval_spec (last : Int) ((M.cols : Int) - 1) l (by omega) wf
    refine ⟨h1, fun i => ?_⟩
    simp only
    rw [h2, hcov]
    constructor
    · rintro (hi | ⟨j, rfl, hj, hjz⟩)
      · exact ⟨i.toNat, by omega, by omega, hall _ (by omega) (by omega)⟩
      · exact ⟨j, rfl, by omega, hjz⟩
    · rintro ⟨j, rfl, hj, hjz⟩
      by_cases hjl : j < last
      · right; exact ⟨j, rfl, hjl, hjz⟩
      · left; omega

/-- Non-vacuity: columns 1, 2 and 4 of a 1×5 matrix. -/
example : Sparsity.detectColumns (K := ℚ) 0
    ⟨1, 5, fun _ j => if j = 1 ∨ j = 2 ∨ j = 4 then 1 else 0⟩ = [⟨1, 2⟩, ⟨4, 4⟩] := by decide +kernel

end
end Verif.Problem
