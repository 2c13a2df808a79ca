/-
Properties C81, C82 and C89 of planned trajectories: lookup of a part, previous supports, trimming.
-/
import Mathlib.Tactic.Linarith
import Mathlib.Tactic.NormNum
import Mathlib.Tactic.FinCases
import Verif.Humanoid.Wpg

namespace Verif.Humanoid
open Verif.Problem Verif.Tools Verif.Robot

/-! ## C81 -/

/-- The search ends, for every list of parts, inside the list. -/
theorem search_total (parts : List Part) (t : ℝ) : ∀ fuel low high, low ≤ high → high < parts.length →
    high - low < fuel → ∃ i, searchLoop parts t fuel low high = .ok i ∧ low ≤ i ∧ i ≤ high := by
  intro fuel
  induction fuel with
  | zero => intro low high _ _ h; omega
  | succ fuel ih =>
    intro low high hl hh hf
    unfold searchLoop
    by_cases e : low = high
    · rw [if_pos e]; exact ⟨low, rfl, le_refl _, hl⟩
    · rw [if_neg e]
      have hm : (low + high) / 2 < parts.length := by omega
      simp only [List.getElem?_eq_getElem hm]
      split
      · obtain ⟨i, h1, h2, h3⟩ := ih low ((low + high) / 2) (by omega) hm (by omega)
        exact ⟨i, h1, h2, by omega⟩
      · split
        · obtain ⟨i, h1, h2, h3⟩ := ih ((low + high) / 2 + 1) high (by omega) hh (by omega)
          exact ⟨i, h1, by omega, h3⟩
        · exact ⟨_, rfl, by omega, by omega⟩

/-- The lookup answers for every list with at least a part. -/
theorem findIndex_total (parts : List Part) (t : ℝ) (h : parts ≠ []) :
    ∃ i, findIndex parts t = .ok i ∧ i < parts.length := by
  have hl : 0 < parts.length := List.length_pos_iff.2 h
  unfold findIndex
  rw [if_neg (by omega)]
  obtain ⟨i, h1, -, h3⟩ := search_total parts t parts.length 0 (parts.length - 1) (by omega) (by omega) (by omega)
  exact ⟨i, h1, by omega⟩

theorem findPart_of_index {parts : List Part} {t : ℝ} {i : Nat} (h : findIndex parts t = .ok i) (hi : i < parts.length) :
    findPart parts t = .ok parts[i] := by
  unfold findPart
  rw [h]
  show at' parts i = _
  unfold at'
  rw [List.getElem?_eq_getElem hi]

theorem findPart_total (parts : List Part) (t : ℝ) (h : parts ≠ []) :
    ∃ p ∈ parts, findPart parts t = .ok p := by
  obtain ⟨i, h1, h2⟩ := findIndex_total parts t h
  exact ⟨parts[i], List.getElem_mem h2, findPart_of_index h1 h2⟩

/-- Specification: the parts follow each other in time. -/
structure Contiguous (parts : List Part) : Prop where
  ordered : ∀ (i : Nat) (h : i < parts.length), parts[i].tStart ≤ parts[i].tEnd
  joined : ∀ (i : Nat) (h : i + 1 < parts.length), parts[i].tEnd = parts[i + 1].tStart

/-- What the loop knows: everything before `low` ends before `t`, and `high` starts after `t` unless it is last. -/
private theorem search_spec (parts : List Part) (t : ℝ) : ∀ fuel low high i, (_ : low ≤ high) → (hh : high < parts.length) →
    (∀ h : 0 < low, (parts[low - 1]'(by omega)).tEnd < t) →
    (high + 1 < parts.length → t < parts[high].tStart) →
    searchLoop parts t fuel low high = .ok i →
    ∃ hi : i < parts.length, (parts[i].tStart ≤ t ∧ t ≤ parts[i].tEnd) ∨
      ((∀ h : 0 < i, (parts[i - 1]'(by omega)).tEnd < t) ∧ (i + 1 < parts.length → t < parts[i].tStart)) := by
  intro fuel
  induction fuel with
  | zero => intro low high i _ _ _ _ h; cases h
  | succ fuel ih =>
    intro low high i hl hh hlow hhigh h
    unfold searchLoop at h
    by_cases e : low = high
    · rw [if_pos e] at h
      cases h
      subst e
      exact ⟨hh, Or.inr ⟨hlow, hhigh⟩⟩
    · rw [if_neg e] at h
      have hm : (low + high) / 2 < parts.length := by omega
      simp only [List.getElem?_eq_getElem hm] at h
      split at h
      · rename_i h1
        exact ih low _ i (by omega) hm hlow (fun _ => h1) h
      · split at h
        · rename_i h1 h2
          exact ih _ high i (by omega) hh (fun _ => by simpa using h2) hhigh h
        · rename_i h1 h2
          cases h
          exact ⟨hm, Or.inl ⟨not_lt.1 h1, not_lt.1 h2⟩⟩

theorem starts_mono {parts : List Part} (h : Contiguous parts) :
    ∀ (i j : Nat) (hij : i ≤ j) (hj : j < parts.length), parts[i].tStart ≤ parts[j].tStart ∧ parts[i].tEnd ≤ parts[j].tEnd := by
  intro i j hij
  induction j, hij using Nat.le_induction with
  | base => intro hj; exact ⟨le_refl _, le_refl _⟩
  | succ j hij ih =>
    intro hj
    obtain ⟨a, b⟩ := ih (by omega)
    have c := h.joined j hj
    have d := h.ordered j (by omega)
    have e := h.ordered (j + 1) hj
    constructor <;> linarith

private theorem findIndex_spec {parts : List Part} {t : ℝ} {i : Nat} (hi : findIndex parts t = .ok i) :
    ∃ hi : i < parts.length, (parts[i].tStart ≤ t ∧ t ≤ parts[i].tEnd) ∨
      ((∀ h : 0 < i, (parts[i - 1]'(by omega)).tEnd < t) ∧ (i + 1 < parts.length → t < parts[i].tStart)) := by
  unfold findIndex at hi
  by_cases h : parts.length = 0
  · rw [if_pos h] at hi; cases hi
  · rw [if_neg h] at hi
    exact search_spec parts t parts.length 0 (parts.length - 1) i (by omega) (by omega)
      (fun h => absurd h (by omega)) (fun h => absurd h (by omega)) hi

/-- Before the first part, the first index. -/
theorem findIndex_before (parts : List Part) (hc : Contiguous parts) (t : ℝ) (h : 0 < parts.length)
    (ht : t < parts[0].tStart) : findIndex parts t = .ok 0 := by
  obtain ⟨i, hi, hlt⟩ := findIndex_total parts t (List.length_pos_iff.1 h)
  rw [hi]
  congr 1
  obtain ⟨_, hs⟩ := findIndex_spec hi
  by_contra hne
  rcases hs with ⟨h1, -⟩ | ⟨h1, -⟩
  · have := (starts_mono hc 0 i (by omega) hlt).1
    linarith
  · have a := h1 (by omega)
    have b := (starts_mono hc 0 (i - 1) (by omega) (by omega)).2
    have c := hc.ordered 0 h
    linarith

/-- After the last part, the last index. -/
theorem findIndex_after (parts : List Part) (hc : Contiguous parts) (t : ℝ) (h : 0 < parts.length)
    (ht : parts[parts.length - 1].tEnd < t) : findIndex parts t = .ok (parts.length - 1) := by
  obtain ⟨i, hi, hlt⟩ := findIndex_total parts t (List.length_pos_iff.1 h)
  rw [hi]
  congr 1
  obtain ⟨_, hs⟩ := findIndex_spec hi
  have b := (starts_mono hc i (parts.length - 1) (by omega) (by omega)).2
  by_contra hne
  rcases hs with ⟨-, h1⟩ | ⟨-, h1⟩
  · linarith
  · have a := h1 (by omega)
    have c := hc.ordered i hlt
    linarith

/-- **C81.** The lookup on contiguous parts: a time inside the trajectory is served from a part that contains it, an
earlier time from the first part, a later time from the last part; the loop ends. Without parts it raises. -/
theorem C81 (parts : List Part) (t : ℝ) :
    (parts = [] → findPart parts t = .error .runtimeError) ∧
    (∀ hne : parts ≠ [], Contiguous parts → ∃ p ∈ parts, findPart parts t = .ok p ∧
      ((parts.head hne).tStart ≤ t → t ≤ (parts.getLast hne).tEnd → p.tStart ≤ t ∧ t ≤ p.tEnd) ∧
      (t < (parts.head hne).tStart → p = parts.head hne) ∧
      ((parts.getLast hne).tEnd < t → p = parts.getLast hne)) := by
  constructor
  · rintro rfl; rfl
  · intro hne hc
    have hlen : 0 < parts.length := List.length_pos_iff.2 hne
    obtain ⟨i, hi, hlt⟩ := findIndex_total parts t hne
    refine ⟨parts[i], List.getElem_mem hlt, findPart_of_index hi hlt, ?_⟩
    obtain ⟨_, hspec⟩ := findIndex_spec hi
    rw [List.head_eq_getElem, List.getLast_eq_getElem]
    have hfirst := starts_mono hc 0 i (by omega) hlt
    have hlast := starts_mono hc i (parts.length - 1) (by omega) (by omega)
    rcases hspec with ⟨h1, h2⟩ | ⟨h1, h2⟩
    · refine ⟨fun _ _ => ⟨h1, h2⟩, fun h => ?_, fun h => ?_⟩
      · exact absurd h (not_lt.2 (hfirst.1.trans h1))
      · exact absurd h (not_lt.2 (h2.trans hlast.2))
    · -- the search stopped on a single candidate
      have hcase : i = 0 ∨ (0 < i ∧ parts[i].tStart < t) := by
        rcases Nat.eq_zero_or_pos i with h | h
        · exact Or.inl h
        · right
          refine ⟨h, ?_⟩
          have hj := hc.joined (i - 1) (by omega)
          have : parts[i - 1 + 1].tStart = parts[i].tStart := by congr 2; omega
          rw [this] at hj
          rw [← hj]; exact h1 h
      refine ⟨fun ha hb => ?_, fun h => ?_, fun h => ?_⟩
      · have hstart : parts[i].tStart ≤ t := by
          rcases hcase with rfl | ⟨-, h⟩
          · exact ha
          · exact h.le
        refine ⟨hstart, ?_⟩
        have : i = parts.length - 1 := by
          by_contra hn
          exact absurd (h2 (by omega)) (not_lt.2 hstart)
        subst this
        exact hb
      · rcases hcase with rfl | ⟨-, h'⟩
        · rfl
        · exact absurd (hfirst.1.trans_lt h') (not_lt.2 h.le)
      · have : i = parts.length - 1 := by
          by_contra hn
          have ht := h2 (by omega)
          have := hc.ordered i hlt
          linarith [hlast.2]
        subst this
        rfl

/-- A time strictly inside a part is served from this very part. -/
theorem findIndex_inside (parts : List Part) (hc : Contiguous parts) (t : ℝ) (k : Nat) (hk : k < parts.length)
    (h0 : parts[k].tStart < t) (h1 : t < parts[k].tEnd) : findIndex parts t = .ok k := by
  have hne : parts ≠ [] := by rintro rfl; exact absurd hk (by simp)
  have hlen : 0 < parts.length := by omega
  obtain ⟨i, hi, hlt⟩ := findIndex_total parts t hne
  obtain ⟨p, -, hp, hin, -⟩ := (C81 parts t).2 hne hc
  rw [findPart_of_index hi hlt] at hp
  cases hp
  have hfirst := starts_mono hc 0 k (by omega) hk
  have hlast := starts_mono hc k (parts.length - 1) (by omega) (by omega)
  obtain ⟨a, b⟩ := hin (by rw [List.head_eq_getElem]; linarith [hfirst.1])
    (by rw [List.getLast_eq_getElem]; linarith [hlast.2])
  rw [hi]
  congr 1
  rcases Nat.lt_trichotomy i k with h | h | h
  · exfalso
    have := (starts_mono hc (i + 1) k (by omega) hk).1
    have hj := hc.joined i (by omega)
    linarith
  · exact h
  · exfalso
    have := (starts_mono hc (k + 1) i (by omega) hlt).1
    have hj := hc.joined k (by omega)
    linarith

/-! ## C82 -/

/-- The state after one step back. -/
theorem prev_one (tr : Traj) (t : ℝ) (i j : Nat) (hi : findIndex tr.parts t = .ok i) (hlt : i < tr.parts.length)
    (hj : findIndex tr.parts (tr.parts[i].tStart - 1 / 10000) = .ok j) (hjl : j < tr.parts.length) :
    tr.getPrevSupport t 1 = ({ tr with parts := tr.parts.set i tr.parts[j] }, .ok (tr.parts[j].support.moved tr.T)) := by
  have h1 : at' tr.parts i = .ok tr.parts[i] := by unfold at'; rw [List.getElem?_eq_getElem hlt]
  unfold Traj.getPrevSupport
  rw [hi]
  have hl : prevLoop i (Int.toNat 1) tr.parts = (tr.parts.set i tr.parts[j], none) := by
    show prevLoop i (0 + 1) tr.parts = _
    unfold prevLoop
    rw [h1]
    simp only [findPart_of_index hj hjl]
    rfl
  simp only [hl]
  have h2 : at' (tr.parts.set i tr.parts[j]) i = .ok tr.parts[j] := by
    unfold at'
    rw [List.getElem?_eq_getElem (by rw [List.length_set]; exact hlt)]
    simp
  rw [h2]
  rfl

/-- What holds of C82: going back zero steps, or going back from the first part, leaves the trajectory unchanged. What is
missing is any step back from a later part: `C82_refuted`. -/
theorem C82_partial (tr : Traj) (t : ℝ) :
    (∀ n : Int, n ≤ 0 → (tr.getPrevSupport t n).1 = tr) ∧
    (∀ hne : tr.parts ≠ [], Contiguous tr.parts → t < (tr.parts.head hne).tEnd → ∀ n : Int,
      (tr.getPrevSupport t n).1 = tr) := by
  constructor
  · intro n hn
    have : n.toNat = 0 := by omega
    unfold Traj.getPrevSupport
    cases findIndex tr.parts t with
    | error e => rfl
    | ok i => rw [this]; rfl
  · intro hne hc ht n
    have hlen : 0 < tr.parts.length := List.length_pos_iff.2 hne
    -- before the end of the first part, the lookup gives the first part
    have key : ∀ u, u < (tr.parts.head hne).tEnd → findIndex tr.parts u = .ok 0 := by
      intro u hu
      rw [List.head_eq_getElem] at hu
      rcases lt_or_ge u tr.parts[0].tStart with hb | hb
      · exact findIndex_before tr.parts hc u hlen hb
      · obtain ⟨i, hi, hlt⟩ := findIndex_total tr.parts u hne
        obtain ⟨p, -, hp, hin, -⟩ := (C81 tr.parts u).2 hne hc
        rw [findPart_of_index hi hlt] at hp
        cases hp
        rw [hi]
        congr 1
        by_contra h
        rw [List.head_eq_getElem, List.getLast_eq_getElem] at hin
        have hlast := starts_mono hc 0 (tr.parts.length - 1) (by omega) (by omega)
        have hs := (starts_mono hc 1 i (by omega) hlt).1
        have hj := hc.joined 0 (by omega)
        have := (hin hb (by linarith [hlast.2])).1
        simp only [Nat.zero_add] at hj
        linarith
    have hloop : ∀ k, prevLoop 0 k tr.parts = (tr.parts, none) := by
      intro k
      induction k with
      | zero => rfl
      | succ k ih =>
        have h1 : at' tr.parts 0 = .ok tr.parts[0] := by unfold at'; rw [List.getElem?_eq_getElem hlen]
        unfold prevLoop
        rw [h1]
        have ho := hc.ordered 0 hlen
        have hf : findPart tr.parts (tr.parts[0].tStart - 1 / 10000) = .ok tr.parts[0] :=
          findPart_of_index (key _ (by rw [List.head_eq_getElem]; linarith)) hlen
        simp only [hf, List.set_getElem_self]
        exact ih
    unfold Traj.getPrevSupport
    rw [key t ht]
    simp only [hloop]

/-- C82 fails for every trajectory and every time inside a part that has a predecessor: after `get_prev_support(t)`, the
start time of the part at `t` is not what it was. -/
theorem C82_refuted (tr : Traj) (hc : Contiguous tr.parts) (k : Nat) (hk : k + 1 < tr.parts.length) (t : ℝ)
    (hdur : ∀ (i : Nat) (h : i < tr.parts.length), tr.parts[i].tStart + 1 / 10000 < tr.parts[i].tEnd)
    (h0 : tr.parts[k + 1].tStart < t) (h1 : t < tr.parts[k + 1].tEnd) :
    ∃ a b, tr.getPartTStart t = .ok a ∧ (tr.getPrevSupport t 1).1.getPartTStart t = .ok b ∧ a ≠ b := by
  have hi := findIndex_inside tr.parts hc t (k + 1) hk h0 h1
  have hj : findIndex tr.parts (tr.parts[k + 1].tStart - 1 / 10000) = .ok k := by
    have e := hc.joined k hk
    have d := hdur k (by omega)
    exact findIndex_inside tr.parts hc _ k (by omega) (by linarith) (by linarith)
  have hprev := prev_one tr t (k + 1) k hi hk hj (by omega)
  have hne : tr.parts.set (k + 1) tr.parts[k] ≠ [] := by
    intro h
    have := congrArg List.length h
    rw [List.length_set] at this
    simp at this
    rw [this] at hk
    simp at hk
  obtain ⟨p, hp, hf⟩ := findPart_total _ t hne
  refine ⟨tr.parts[k + 1].tStart, p.tStart, ?_, ?_, ?_⟩
  · unfold Traj.getPartTStart
    rw [findPart_of_index hi hk]
    rfl
  · rw [hprev]
    unfold Traj.getPartTStart
    simp only [hf]
    rfl
  · -- no part of the new trajectory starts at that time
    obtain ⟨m, hm, rfl⟩ := List.getElem_of_mem hp
    rw [List.length_set] at hm
    have strict : ∀ a b : Nat, (hab : a < b) → (hb : b < tr.parts.length) → tr.parts[a].tStart < tr.parts[b].tStart := by
      intro a b hab hb
      have s := (starts_mono hc (a + 1) b (by omega) hb).1
      have e := hc.joined a (by omega)
      have d := hdur a (by omega)
      linarith
    rw [List.getElem_set]
    split
    · exact (strict k (k + 1) (by omega) hk).ne'
    · rename_i hne'
      rcases Nat.lt_or_ge m (k + 1) with h | h
      · exact (strict m (k + 1) h hk).ne'
      · exact (strict (k + 1) m (by omega) hm).ne

end Verif.Humanoid
