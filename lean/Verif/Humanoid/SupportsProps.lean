/-
C75: the sequence of supports made from the footsteps can be walked.
-/
import Verif.Humanoid.Footsteps

namespace Verif.Humanoid
open Verif.Tools Verif.Robot

/-! ## Specification -/

/-- What the robot stands on: one footstep of the plan, or two consecutive ones. -/
inductive Phase where
  | one (i : Nat)
  | two (i : Nat)
  deriving DecidableEq

/-- The support stands on the footsteps of the phase. -/
def Phase.Holds (l : List Footstep) : Phase → Support → Prop
  | .one i, s => ∃ f, l[i]? = some f ∧ s.footsteps = [f]
  | .two i, s => ∃ f g, l[i]? = some f ∧ l[i + 1]? = some g ∧ s.footsteps = [f, g]

/-- The moves of a walk: put the other foot down, lift the rear foot, or hand over directly to the next foot when there is
no double support (`middle` is false). -/
def Next (middle : Bool) : Phase → Phase → Prop
  | .one i, .two j => j = i
  | .two i, .one j => j = i + 1
  | .one i, .one j => middle = false ∧ j = i + 1
  | .two _, .two _ => False

/-- The footsteps on which the robot stands on one foot, in order. -/
def singles : List Phase → List Nat
  | [] => []
  | .one i :: r => i :: singles r
  | .two _ :: r => singles r

/-- The footsteps from which there is a double support, in order. -/
def doubles : List Phase → List Nat
  | [] => []
  | .one _ :: r => doubles r
  | .two i :: r => i :: doubles r

/-! ## Proof -/

theorem at_ok {α : Type} {l : List α} {i : Nat} (h : i < l.length) : at' l i = .ok l[i] := by
  unfold at'; rw [List.getElem?_eq_getElem h]

theorem single_ok {l : List Footstep} {i : Nat} (h : i < l.length) : single l i = .ok { footsteps := [l[i]] } := by
  unfold single; rw [at_ok h]; rfl

theorem double_ok {l : List Footstep} {i : Nat} (h : i + 1 < l.length) :
    double l i = .ok { footsteps := [l[i], l[i + 1]] } := by
  unfold double; rw [at_ok h, at_ok (Nat.lt_of_succ_lt h)]; rfl

theorem holds_one {l : List Footstep} {i : Nat} (h : i < l.length) {s : Support} (hs : s.footsteps = [l[i]]) :
    Phase.Holds l (.one i) s := ⟨l[i], List.getElem?_eq_getElem h, hs⟩

theorem holds_two {l : List Footstep} {i : Nat} (h : i + 1 < l.length) {s : Support}
    (hs : s.footsteps = [l[i]'(Nat.lt_of_succ_lt h), l[i + 1]]) : Phase.Holds l (.two i) s :=
  ⟨l[i], l[i + 1], List.getElem?_eq_getElem (Nat.lt_of_succ_lt h), List.getElem?_eq_getElem h, hs⟩

/-- Phases of the loop. -/
def loopPhases (n : Nat) (middle : Bool) : Nat → Nat → List Phase
  | 0, _ => []
  | k + 1, i => (if i ≠ n - 2 ∧ middle then [Phase.one i, Phase.two i] else [Phase.one i]) ++ loopPhases n middle k (i + 1)

theorem singles_append (a b : List Phase) : singles (a ++ b) = singles a ++ singles b := by
  induction a with
  | nil => rfl
  | cons p a ih => cases p <;> simp [singles, ih]

theorem doubles_append (a b : List Phase) : doubles (a ++ b) = doubles a ++ doubles b := by
  induction a with
  | nil => rfl
  | cons p a ih => cases p <;> simp [doubles, ih]

theorem loopPhases_singles (n : Nat) (middle : Bool) : ∀ k i, singles (loopPhases n middle k i) = List.range' i k
  | 0, _ => rfl
  | k + 1, i => by
    rw [loopPhases, singles_append, loopPhases_singles, List.range'_succ]
    split <;> rfl

theorem loopPhases_doubles (n : Nat) (middle : Bool) : ∀ k i, i + k = n - 1 → 0 < k →
    doubles (loopPhases n middle k i) = if middle then List.range' i (k - 1) else []
  | 0, _, _, h => absurd h (by omega)
  | k + 1, i, h, _ => by
    rw [loopPhases, doubles_append]
    by_cases hk : k = 0
    · subst hk
      have hi : i = n - 2 := by omega
      have hc : ¬ (i ≠ n - 2 ∧ middle = true) := fun h => h.1 hi
      rw [if_neg hc]
      cases middle <;> rfl
    · rw [loopPhases_doubles n middle k (i + 1) (by omega) (by omega)]
      cases middle with
      | false =>
        have hc : ¬ (i ≠ n - 2 ∧ false = true) := fun h => Bool.noConfusion h.2
        rw [if_neg hc]; rfl
      | true =>
        have hc : i ≠ n - 2 ∧ true = true := ⟨by omega, rfl⟩
        rw [if_pos hc]
        obtain ⟨m, rfl⟩ : ∃ m, k = m + 1 := ⟨k - 1, by omega⟩
        simp only [Nat.add_sub_cancel, if_true, List.range'_succ]
        rfl

theorem loopPhases_head (n : Nat) (middle : Bool) (k i : Nat) : (loopPhases n middle (k + 1) i).head? = some (.one i) := by
  rw [loopPhases]; split <;> rfl

theorem loopPhases_last (n : Nat) (middle : Bool) : ∀ k i, i + k = n - 1 → 0 < k →
    (loopPhases n middle k i).getLast? = some (.one (n - 2))
  | 0, _, _, h => absurd h (by omega)
  | k + 1, i, h, _ => by
    rw [loopPhases]
    by_cases hk : k = 0
    · subst hk
      have hi : i = n - 2 := by omega
      have hc : ¬ (i ≠ n - 2 ∧ middle = true) := fun h => h.1 hi
      rw [if_neg hc, hi]; rfl
    · rw [List.getLast?_append, loopPhases_last n middle k (i + 1) (by omega) (by omega)]
      rfl

theorem loopPhases_chain (n : Nat) (middle : Bool) : ∀ k i, i + k = n - 1 → (loopPhases n middle k i).IsChain (Next middle)
  | 0, _, _ => List.isChain_nil
  | k + 1, i, h => by
    have ih := loopPhases_chain n middle k (i + 1) (by omega)
    rw [loopPhases]
    cases k with
    | zero => split <;> simp [loopPhases, Next]
    | succ k =>
      have hh := loopPhases_head n middle k (i + 1)
      split
      · rename_i hc
        rw [List.isChain_append]
        refine ⟨by simp [Next], ih, fun x hx y hy => ?_⟩
        rw [hh] at hy
        cases hy; cases hx; rfl
      · rename_i hc
        rw [List.isChain_append]
        refine ⟨by simp, ih, fun x hx y hy => ?_⟩
        rw [hh] at hy
        cases hy; cases hx
        refine ⟨?_, rfl⟩
        cases middle
        · rfl
        · exact absurd ⟨by omega, rfl⟩ hc

/-- No flag and no time. -/
def Plain (s : Support) : Prop := s.start = false ∧ s.isEnd = false ∧ s.tStart = -1

theorem supportsAt_spec (l : List Footstep) (middle : Bool) (i : Nat) (h : i + 1 < l.length) :
    ∃ S, supportsAt l middle i = .ok S ∧
      List.Forall₂ (Phase.Holds l) (if i ≠ l.length - 2 ∧ middle then [Phase.one i, Phase.two i] else [Phase.one i]) S ∧
      ∀ s ∈ S, Plain s := by
  unfold supportsAt
  split
  · rw [single_ok (Nat.lt_of_succ_lt h), double_ok h]
    refine ⟨_, rfl, .cons (holds_one (Nat.lt_of_succ_lt h) rfl) (.cons (holds_two h rfl) .nil), ?_⟩
    intro s hs
    simp only [List.mem_cons, List.not_mem_nil, or_false] at hs
    rcases hs with rfl | rfl <;> exact ⟨rfl, rfl, rfl⟩
  · rw [single_ok (Nat.lt_of_succ_lt h)]
    refine ⟨_, rfl, .cons (holds_one (Nat.lt_of_succ_lt h) rfl) .nil, ?_⟩
    intro s hs
    simp only [List.mem_cons, List.not_mem_nil, or_false] at hs
    subst hs; exact ⟨rfl, rfl, rfl⟩

theorem supportsLoop_spec (l : List Footstep) (middle : Bool) : ∀ k i, i + k = l.length - 1 → 2 ≤ l.length →
    ∃ S, supportsLoop l middle k i = .ok S ∧ List.Forall₂ (Phase.Holds l) (loopPhases l.length middle k i) S ∧
      ∀ s ∈ S, Plain s
  | 0, _, _, _ => ⟨[], rfl, .nil, fun _ h => absurd h List.not_mem_nil⟩
  | k + 1, i, h, hl => by
    obtain ⟨A, hA, fA, pA⟩ := supportsAt_spec l middle i (by omega)
    obtain ⟨B, hB, fB, pB⟩ := supportsLoop_spec l middle k (i + 1) (by omega) hl
    refine ⟨A ++ B, ?_, ?_, ?_⟩
    · rw [supportsLoop, hA, hB]; rfl
    · exact List.rel_append fA fB
    · intro s hs
      rcases List.mem_append.1 hs with h | h
      · exact pA s h
      · exact pB s h

/-- Phases before the loop. -/
def headPhases (start middle : Bool) : List Phase :=
  if start then [.two 0] else if middle then [.one 0, .two 0] else [.one 0]

theorem supportsHead_spec (l : List Footstep) (t : ℝ) (start middle : Bool) (h : 1 < l.length) :
    ∃ s S, supportsHead l t start middle = .ok (s :: S) ∧
      List.Forall₂ (Phase.Holds l) (headPhases start middle) (s :: S) ∧
      s.start = start ∧ s.isEnd = false ∧ s.tStart = t ∧
      ∀ x ∈ S, x.start = false ∧ x.isEnd = false := by
  unfold supportsHead headPhases
  cases start
  · cases middle
    · rw [if_neg (by decide), if_neg (by decide), if_neg (by decide), if_neg (by decide), single_ok (Nat.lt_of_succ_lt h)]
      exact ⟨_, [], rfl, .cons (holds_one (Nat.lt_of_succ_lt h) rfl) .nil, rfl, rfl, rfl,
        fun _ h => absurd h List.not_mem_nil⟩
    · rw [if_neg (by decide), if_pos rfl, if_neg (by decide), if_pos rfl, single_ok (Nat.lt_of_succ_lt h), double_ok h]
      refine ⟨_, [_], rfl, .cons (holds_one (Nat.lt_of_succ_lt h) rfl) (.cons (holds_two h rfl) .nil), rfl, rfl, rfl,
        fun x hx => ?_⟩
      rw [List.mem_singleton] at hx; subst hx; exact ⟨rfl, rfl⟩
  · rw [if_pos rfl, if_pos rfl, double_ok h]
    exact ⟨_, [], rfl, .cons (holds_two h rfl) .nil, rfl, rfl, rfl, fun _ h => absurd h List.not_mem_nil⟩

theorem supportsEnd_spec (l : List Footstep) (isEnd : Bool) (h : 1 < l.length) :
    ∃ S, supportsEnd l isEnd = .ok S ∧
      List.Forall₂ (Phase.Holds l) (if isEnd then [.two (l.length - 2)] else []) S ∧
      (∀ s ∈ S, s.start = false ∧ s.isEnd = true ∧ s.tStart = -1) ∧ S.length = if isEnd then 1 else 0 := by
  unfold supportsEnd
  cases isEnd
  · rw [if_neg (by decide), if_neg (by decide)]
    exact ⟨[], rfl, .nil, fun _ h => absurd h List.not_mem_nil, rfl⟩
  · have h2 : l.length - 2 + 1 < l.length := by omega
    rw [if_pos rfl, if_pos rfl, if_neg (by omega), double_ok h2]
    refine ⟨_, rfl, .cons (holds_two h2 rfl) .nil, fun s hs => ?_, rfl⟩
    rw [List.mem_singleton] at hs; subst hs; exact ⟨rfl, rfl, rfl⟩

/-- All the phases. -/
def allPhases (n : Nat) (start middle isEnd : Bool) : List Phase :=
  headPhases start middle ++ loopPhases n middle (n - 2) 1 ++ if isEnd then [.two (n - 2)] else []

theorem makeSupports_spec (l : List Footstep) (t : ℝ) (start middle isEnd : Bool) (h : 3 ≤ l.length) :
    ∃ s H L E, makeSupports l t start middle isEnd = .ok (s :: (H ++ L ++ E)) ∧
      List.Forall₂ (Phase.Holds l) (headPhases start middle) (s :: H) ∧
      List.Forall₂ (Phase.Holds l) (loopPhases l.length middle (l.length - 2) 1) L ∧
      List.Forall₂ (Phase.Holds l) (if isEnd then [.two (l.length - 2)] else []) E ∧
      (s.start = start ∧ s.isEnd = false ∧ s.tStart = t) ∧
      (∀ x ∈ H, x.start = false ∧ x.isEnd = false) ∧ (∀ x ∈ L, Plain x) ∧
      (∀ x ∈ E, x.start = false ∧ x.isEnd = true ∧ x.tStart = -1) ∧ E.length = if isEnd then 1 else 0 := by
  obtain ⟨s, H, hH, fH, h1, h2, h3, pH⟩ := supportsHead_spec l t start middle (by omega)
  obtain ⟨L, hL, fL, pL⟩ := supportsLoop_spec l middle (l.length - 2) 1 (by omega) (by omega)
  obtain ⟨E, hE, fE, pE, nE⟩ := supportsEnd_spec l isEnd (by omega)
  refine ⟨s, H, L, E, ?_, fH, fL, fE, ⟨h1, h2, h3⟩, pH, pL, pE, nE⟩
  unfold makeSupports supportsBody
  rw [if_pos (by omega), hH, hL, hE]
  simp only [Bind.bind, Except.bind, List.cons_append, List.append_assoc]

theorem allPhases_chain (n : Nat) (start middle isEnd : Bool) (h : 3 ≤ n) :
    (allPhases n start middle isEnd).IsChain (Next middle) := by
  obtain ⟨m, rfl⟩ : ∃ m, n = m + 3 := ⟨n - 3, by omega⟩
  have hc := loopPhases_chain (m + 3) middle (m + 1) 1 (by omega)
  have hf := loopPhases_head (m + 3) middle m 1
  have hl := loopPhases_last (m + 3) middle (m + 1) 1 (by omega) (by omega)
  unfold allPhases
  rw [show m + 3 - 2 = m + 1 by omega] at *
  rw [List.append_assoc, List.isChain_append]
  refine ⟨?_, ?_, ?_⟩
  · unfold headPhases
    split
    · simp
    · split <;> simp [Next]
  · rw [List.isChain_append]
    refine ⟨hc, by split <;> simp, fun x hx y hy => ?_⟩
    rw [hl] at hx; cases hx
    cases isEnd
    · cases hy
    · cases hy; rfl
  · intro x hx y hy
    rw [List.head?_append, hf] at hy
    cases hy
    unfold headPhases at hx
    cases start
    · cases middle
      · cases hx; exact ⟨rfl, rfl⟩
      · cases hx; rfl
    · cases hx; rfl

/-- **C75.** With at least three footsteps, `make_supports` succeeds, and the supports follow a sequence of phases in which
any two consecutive ones are joined by a move of a walk (`Next`); the robot stands on one foot on every footstep from the
second one (the first one when there is no start) to the last but one, each once and in order; the double supports are the start one, one
per handover when `middle` is asked, and the end one; exactly the first support is flagged `start` when asked, and exactly
the last one `end` when asked. -/
theorem C75 (l : List Footstep) (t : ℝ) (start middle isEnd : Bool) (h : 3 ≤ l.length) :
    ∃ S ph, makeSupports l t start middle isEnd = .ok S ∧ List.Forall₂ (Phase.Holds l) ph S ∧
      ph.IsChain (Next middle) ∧
      singles ph = (if start then [] else [0]) ++ List.range' 1 (l.length - 2) ∧
      doubles ph = (if start || middle then [0] else []) ++ (if middle then List.range' 1 (l.length - 3) else [])
        ++ (if isEnd then [l.length - 2] else []) ∧
      S.length = ph.length ∧ 0 < S.length ∧
      (∀ k s, S[k]? = some s → (s.start = true ↔ start = true ∧ k = 0)) ∧
      (∀ k s, S[k]? = some s → (s.isEnd = true ↔ isEnd = true ∧ k + 1 = S.length)) := by
  obtain ⟨s, H, L, E, hS, fH, fL, fE, hs, pH, pL, pE, nE⟩ := makeSupports_spec l t start middle isEnd h
  have hf : List.Forall₂ (Phase.Holds l) (allPhases l.length start middle isEnd) (s :: (H ++ L ++ E)) := by
    have := List.rel_append (List.rel_append fH fL) fE
    simpa [allPhases] using this
  refine ⟨_, allPhases l.length start middle isEnd, hS, hf, allPhases_chain _ _ _ _ h, ?_, ?_, hf.length_eq.symm,
    by simp, ?_, ?_⟩
  · unfold allPhases
    rw [singles_append, singles_append, loopPhases_singles]
    unfold headPhases
    cases start <;> cases middle <;> cases isEnd <;> simp [singles]
  · unfold allPhases
    rw [doubles_append, doubles_append, loopPhases_doubles _ _ _ _ (by omega) (by omega)]
    unfold headPhases
    rw [show l.length - 2 - 1 = l.length - 3 by omega]
    cases start <;> cases middle <;> cases isEnd <;> simp [doubles]
  · intro k x hk
    cases k with
    | zero =>
      simp only [List.getElem?_cons_zero, Option.some.injEq] at hk
      subst hk; rw [hs.1]; simp
    | succ k =>
      rw [List.getElem?_cons_succ] at hk
      have hm := List.mem_of_getElem? hk
      have : x.start = false := by
        rcases List.mem_append.1 hm with hm | hm
        · rcases List.mem_append.1 hm with hm | hm
          · exact (pH x hm).1
          · exact (pL x hm).1
        · exact (pE x hm).1
      rw [this]; simp
  · intro k x hk
    by_cases hlt : k < (s :: (H ++ L)).length
    · have hk' : (s :: (H ++ L))[k]? = some x := by
        rw [← List.cons_append, List.getElem?_append_left hlt] at hk
        exact hk
      have hm := List.mem_of_getElem? hk'
      have : x.isEnd = false := by
        rcases List.mem_cons.1 hm with rfl | hm
        · exact hs.2.1
        · rcases List.mem_append.1 hm with hm | hm
          · exact (pH x hm).2
          · exact (pL x hm).2.1
      rw [this]
      cases isEnd
      · simp
      · simp only [if_true] at nE
        simp only [List.length_cons, List.length_append] at hlt ⊢
        simp; omega
    · rw [← List.cons_append, List.getElem?_append_right (by omega)] at hk
      have hm := List.mem_of_getElem? hk
      have hb := (List.getElem?_eq_some_iff.1 hk).1
      rw [(pE x hm).2.1]
      cases isEnd
      · simp at nE; subst nE; cases hm
      · simp only [if_true] at nE
        simp only [List.length_cons, List.length_append] at hlt hb ⊢
        simp; omega

/-- The feet alternate: when the footsteps do, so do the feet on which the robot successively stands alone, and a double
support stands on both feet. -/
theorem C75_sides (l : List Footstep) (hl : l.IsChain fun a b => b.side = a.side.other) (p : Phase) (s : Support)
    (h : p.Holds l s) :
    match p with
    | .one i => ∀ g, l[i + 1]? = some g → ∃ f, s.footsteps = [f] ∧ g.side = f.side.other
    | .two _ => ∃ f g, s.footsteps = [f, g] ∧ g.side = f.side.other := by
  have key : ∀ i f g, l[i]? = some f → l[i + 1]? = some g → g.side = f.side.other := by
    intro i f g hf hg
    obtain ⟨hi, rfl⟩ := List.getElem?_eq_some_iff.1 hf
    obtain ⟨hj, rfl⟩ := List.getElem?_eq_some_iff.1 hg
    exact List.isChain_iff_getElem.1 hl i (by omega)
  cases p with
  | one i =>
    obtain ⟨f, hf, hs⟩ := h
    exact fun g hg => ⟨f, hs, key i f g hf hg⟩
  | two i =>
    obtain ⟨f, g, hf, hg, hs⟩ := h
    exact ⟨f, g, hs, key i f g hf hg⟩

/-- With fewer than two footsteps the end support reads outside of the list; with two, it is the only support. -/
theorem C75_short (l : List Footstep) (t : ℝ) (start middle isEnd : Bool) (h : l.length < 3) :
    makeSupports l t start middle isEnd =
      if isEnd then
        if h2 : l.length = 2 then .ok [{ footsteps := [l[0], l[1]], isEnd := true }] else .error .ub
      else .ok [] := by
  unfold makeSupports supportsBody supportsEnd
  rw [if_neg (by omega)]
  cases isEnd
  · rfl
  · by_cases h2 : l.length = 2
    · have h3 : l.length - 2 = 0 := by omega
      rw [if_pos rfl, if_pos rfl, if_neg (by omega), dif_pos h2, h3, double_ok (by omega)]
      rfl
    · rw [if_pos rfl, if_pos rfl, if_pos (by omega), dif_neg h2]; rfl

/-- A plan of five footsteps. -/
noncomputable def fiveSteps : List Footstep :=
  [.left, .right, .left, .right, .left].map fun s => (({} : Params).createFootstep s .one)

example : 3 ≤ fiveSteps.length ∧ fiveSteps.IsChain (fun a b => b.side = a.side.other) :=
  ⟨by decide, by simp [fiveSteps, Params.createFootstep, Side.other]⟩

/-- With a start, double supports and an end: `{0,1} {1} {1,2} {2} {2,3} {3} {3,4}`. -/
example : allPhases 5 true true true = [.two 0, .one 1, .two 1, .one 2, .two 2, .one 3, .two 3] := by decide

end Verif.Humanoid
