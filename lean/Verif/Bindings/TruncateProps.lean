/-
Property C158: truncated plans.
-/
import Verif.Bindings.Truncate
import Verif.Humanoid.FeetPlanProps

namespace Verif.Humanoid
open Verif.Problem Verif.Tools Verif.Robot

/-! ## Specification: supports that can be walked -/

/-- One foot, or one foot of each side. -/
def Standing (s : Support) : Prop :=
  (∃ f, s.footsteps = [f]) ∨ ∃ f f', s.footsteps = [f, f'] ∧ f'.side = f.side.other

/-- From one support to the next: the foot that is lifted is not the only one, the feet that stay do not move; on a double support
the second foot is the one that stays. -/
structure SupportMove (s t : Support) : Prop where
  lands : ∀ f, s.footsteps = [f] → ∃ f' ∈ t.footsteps, f'.side = f.side.other
  lifts : ∀ f g h, s.footsteps = [f, g] → t.footsteps = [h] → h.side = g.side
  steady : ∀ f ∈ s.footsteps, ∀ f' ∈ t.footsteps, f'.side = f.side → f' = f

/-- A walk. -/
structure SupportWalk (S : List Support) : Prop where
  standing : ∀ s ∈ S, Standing s
  moves : S.IsChain SupportMove

/-- The support added at the end of a walk: both feet, where they are. -/
theorem endSupport_spec (s t : Support) (hs : Standing s) (ht : Standing t) (hw : SupportMove s t) :
    ∃ f f', endSupport s (some t) = .ok { footsteps := [f, f'], isEnd := true } ∧ s.footsteps.head? = some f ∧
      f'.side = f.side.other ∧ f' ∈ t.footsteps ∧ ∀ g ∈ s.footsteps, g = f ∨ g = f' := by
  have key : ∀ f rest, s.footsteps = f :: rest → ∀ f' ∈ t.footsteps, f'.side = f.side.other → ∀ g ∈ s.footsteps, g = f ∨ g = f' := by
    intro f rest hf f' hf' hsd g hg
    rcases hs with ⟨a, ha⟩ | ⟨a, b, hab, hb⟩
    · rw [ha] at hf hg
      cases hf
      exact .inl (List.mem_singleton.1 hg)
    · rw [hab] at hf
      cases hf
      rw [hab] at hg
      rcases List.mem_cons.1 hg with h | h
      · exact .inl h
      · rw [List.mem_singleton.1 h]
        refine .inr (hw.steady b (by rw [hab]; simp) f' hf' ?_).symm
        rw [hsd, hb]
  obtain ⟨f, rest, hf⟩ : ∃ f rest, s.footsteps = f :: rest := by
    rcases hs with ⟨a, ha⟩ | ⟨a, b, hab, -⟩
    · exact ⟨a, [], ha⟩
    · exact ⟨a, [b], hab⟩
  unfold endSupport
  rw [hf]
  dsimp only
  rcases ht with ⟨g, hg⟩ | ⟨g, g', hgg, hsd⟩
  · have hside : g.side = f.side.other := by
      rcases hs with ⟨a, ha⟩ | ⟨a, b, hab, hb⟩
      · rw [ha] at hf
        cases hf
        obtain ⟨f', hf', h⟩ := hw.lands f ha
        rw [hg] at hf'
        rw [← List.mem_singleton.1 hf', h]
      · rw [hab] at hf
        cases hf
        rw [hw.lifts f b g hab hg, hb]
    refine ⟨f, g, ?_, rfl, hside, by rw [hg]; simp, ?_⟩
    · rw [hg]
      dsimp only
      rw [if_pos (show g.side.other = f.side by rw [hside, other_other])]
    · rw [← hf]
      exact key f rest hf g (by rw [hg]; simp) hside
  · rcases side_cases f.side g.side with h | h
    · have h' : g'.side = f.side.other := by rw [hsd, h]
      refine ⟨f, g', ?_, rfl, h', by rw [hgg]; simp, ?_⟩
      · rw [hgg]
        dsimp only
        rw [if_neg (show ¬ g.side.other = f.side by rw [h]; exact other_ne _)]
      · rw [← hf]
        exact key f rest hf g' (by rw [hgg]; simp) h'
    · refine ⟨f, g, ?_, rfl, h, by rw [hgg]; simp, ?_⟩
      · rw [hgg]
        dsimp only
        rw [if_pos (show g.side.other = f.side by rw [h, other_other])]
      · rw [← hf]
        exact key f rest hf g (by rw [hgg]; simp) h

theorem getLast_take {α : Type} (l : List α) (k : Nat) (h0 : 0 < k) (hk : k ≤ l.length) :
    (l.take k).getLast? = some (l[k - 1]'(by omega)) := by
  rw [List.getLast?_eq_getElem?, List.length_take, Nat.min_eq_left hk, List.getElem?_take]
  simp [show k - 1 < k by omega, show k - 1 < l.length by omega]

/-- **C158, what is true.** For every walk and every `index` from 0 to its length (from 1 to its length minus 1 with an end, or its
length if the walk has an end): the result begins with the first supports; with `add_end` it is a walk that ends with a double
support flagged as an end (the last support if it is one already), whose feet are those of the last support kept and the foot of the
other side of the next one. A greater index raises `out_of_range`. -/
theorem C158_partial (S : List Support) (hS : SupportWalk S) (k : Nat) :
    (S.length < k → ∀ addEnd, truncateSupports S k addEnd = .error .outOfRange) ∧
    (k ≤ S.length → truncateSupports S k false = .ok (S.take k)) ∧
    (∀ (h0 : 0 < k) (hk : k ≤ S.length), (S[k - 1]'(by omega)).isEnd = true → truncateSupports S k true = .ok (S.take k)) ∧
    (∀ (h0 : 0 < k) (hk : k < S.length), (S[k - 1]'(by omega)).isEnd = false → ∃ e, truncateSupports S k true = .ok (S.take k ++ [e]) ∧
      e.isEnd = true ∧ e.start = false ∧ e.computed = false ∧ SupportWalk (S.take k ++ [e]) ∧
      ∃ f f', e.footsteps = [f, f'] ∧ f'.side = f.side.other ∧ (S[k - 1]'(by omega)).footsteps.head? = some f ∧ f' ∈ S[k].footsteps) := by
  refine ⟨fun h addEnd => ?_, fun h => ?_, fun h0 hk he => ?_, fun h0 hk he => ?_⟩
  · unfold truncateSupports
    rw [if_pos (by omega)]
  · unfold truncateSupports
    rw [if_neg (by omega)]
    simp
  · unfold truncateSupports
    rw [if_neg (by omega)]
    simp only [if_true, Int.toNat_natCast, getLast_take S k h0 hk, he]
  · have hw : SupportMove (S[k - 1]'(by omega)) S[k] := by
      have := List.isChain_iff_getElem.1 hS.moves (k - 1) (by omega)
      simp only [show k - 1 + 1 = k by omega] at this
      exact this
    obtain ⟨f, f', e1, e2, e3, e4, e5⟩ := endSupport_spec (S[k - 1]'(by omega)) S[k] (hS.standing _ (List.getElem_mem _))
      (hS.standing _ (List.getElem_mem _)) hw
    refine ⟨{ footsteps := [f, f'], isEnd := true }, ?_, rfl, rfl, rfl, ⟨?_, ?_⟩, f, f', rfl, e3, e2, e4⟩
    · unfold truncateSupports
      rw [if_neg (by omega)]
      simp only [if_true, Int.toNat_natCast, getLast_take S k h0 (Nat.le_of_lt hk), he, Bool.false_eq_true, if_false,
        List.getElem?_eq_getElem hk, e1, Bind.bind, Except.bind]
    · intro s hs
      rcases List.mem_append.1 hs with h | h
      · exact hS.standing s (List.mem_of_mem_take h)
      · rw [List.mem_singleton.1 h]
        exact .inr ⟨f, f', rfl, e3⟩
    · rw [List.isChain_append]
      refine ⟨hS.moves.take k, List.isChain_singleton _, fun x hx y hy => ?_⟩
      rw [getLast_take S k h0 (Nat.le_of_lt hk)] at hx
      cases hx
      cases hy
      refine ⟨fun g hg => ⟨f', by simp, ?_⟩, fun a b c _ h => ?_, fun g hg g' hg' hsd => ?_⟩
      · rw [hg] at e2
        cases e2
        exact e3
      · cases h
      · rcases e5 g hg with rfl | rfl
        · rcases List.mem_cons.1 hg' with h | h
          · exact h
          · rw [List.mem_singleton.1 h] at hsd
            rw [e3] at hsd
            exact absurd hsd (other_ne _)
        · rcases List.mem_cons.1 hg' with h | h
          · rw [h, e3] at hsd
            exact absurd hsd.symm (other_ne _)
          · exact List.mem_singleton.1 h

/-- The supports made by `make_supports` from footsteps of alternate sides are a walk. -/
theorem walk_of_makeSupports (fs : List Footstep) (h3 : 3 ≤ fs.length) (halt : fs.IsChain fun a b => b.side = a.side.other)
    (t : ℝ) (start middle isEnd : Bool) (S : List Support) (hS : makeSupports fs t start middle isEnd = .ok S) : SupportWalk S := by
  have hf := makeSupports_phases fs t start middle isEnd h3 S hS
  have hlen := hf.length_eq
  have hc := allPhases_chain fs.length start middle isEnd h3
  have alt : ∀ i a b, fs[i]? = some a → fs[i + 1]? = some b → b.side = a.side.other := by
    intro i a b ha hb
    obtain ⟨hi, rfl⟩ := List.getElem?_eq_some_iff.1 ha
    obtain ⟨hj, rfl⟩ := List.getElem?_eq_some_iff.1 hb
    exact List.isChain_iff_getElem.1 halt i (by omega)
  have hold : ∀ (i : Nat) (h : i < S.length) (h' : i < (allPhases fs.length start middle isEnd).length),
      Phase.Holds fs ((allPhases fs.length start middle isEnd)[i]) S[i] := by
    intro i h h'
    have := (List.forall₂_iff_get.1 hf).2 i h' h
    simpa only [List.get_eq_getElem] using this
  refine ⟨fun s hs => ?_, List.isChain_iff_getElem.2 fun i hi => ?_⟩
  · obtain ⟨i, hi, rfl⟩ := List.getElem_of_mem hs
    have := hold i hi (by omega)
    generalize (allPhases fs.length start middle isEnd)[i]'_ = x at this
    cases x with
    | one k => obtain ⟨f, -, e⟩ := this; exact .inl ⟨f, e⟩
    | two k => obtain ⟨f, f', a, b, e⟩ := this; exact .inr ⟨f, f', e, alt k f f' a b⟩
  · have h1 := hold i (by omega) (by omega)
    have h2 := hold (i + 1) hi (by omega)
    have hn := List.isChain_iff_getElem.1 hc i (by omega)
    generalize (allPhases fs.length start middle isEnd)[i]'_ = x at h1 hn
    generalize (allPhases fs.length start middle isEnd)[i + 1]'_ = y at h2 hn
    generalize S[i]'_ = s at h1
    generalize S[i + 1]'_ = u at h2
    cases x with
    | one a =>
      obtain ⟨f, hf1, hs1⟩ := h1
      cases y with
      | one b =>
        obtain ⟨-, rfl⟩ := hn
        obtain ⟨g, hg1, hs2⟩ := h2
        have hsd := alt a f g hf1 hg1
        refine ⟨fun f0 h0 => ?_, fun _ _ _ h => ?_, fun p hp q hq hpq => ?_⟩
        · rw [hs1] at h0
          cases h0
          exact ⟨g, by rw [hs2]; simp, hsd⟩
        · rw [hs1] at h; cases h
        · rw [hs1] at hp
          rw [hs2] at hq
          rw [List.mem_singleton.1 hp, List.mem_singleton.1 hq, hsd] at hpq
          exact absurd hpq (other_ne _)
      | two b =>
        obtain rfl : b = a := hn
        obtain ⟨g, g', hg1, hg2, hs2⟩ := h2
        rw [hf1] at hg1
        cases hg1
        have hsd := alt b f g' hf1 hg2
        refine ⟨fun f0 h0 => ?_, fun _ _ _ h => ?_, fun p hp q hq hpq => ?_⟩
        · rw [hs1] at h0
          cases h0
          exact ⟨g', by rw [hs2]; simp, hsd⟩
        · rw [hs1] at h; cases h
        · rw [hs1] at hp
          rw [hs2] at hq
          rw [List.mem_singleton.1 hp] at hpq ⊢
          rcases List.mem_cons.1 hq with h | h
          · exact h
          · rw [List.mem_singleton.1 h, hsd] at hpq
            exact absurd hpq (other_ne _)
    | two a =>
      obtain ⟨f, f', hf1, hf2, hs1⟩ := h1
      cases y with
      | one b =>
        obtain rfl : b = a + 1 := hn
        obtain ⟨g, hg1, hs2⟩ := h2
        rw [hf2] at hg1
        cases hg1
        have hsd := alt a f f' hf1 hf2
        refine ⟨fun f0 h0 => ?_, fun p q r h h' => ?_, fun p hp q hq hpq => ?_⟩
        · rw [hs1] at h0; cases h0
        · rw [hs1] at h
          rw [hs2] at h'
          cases h
          cases h'
          rfl
        · rw [hs1] at hp
          rw [hs2] at hq
          rw [List.mem_singleton.1 hq] at hpq ⊢
          rcases List.mem_cons.1 hp with h | h
          · rw [h, hsd] at hpq
            exact absurd hpq (other_ne _)
          · exact (List.mem_singleton.1 h).symm
      | two b => exact absurd hn id

/-- C158 for the plans made by `make_supports`: every proper truncation is a walk that ends on both feet. -/
theorem C158_planned (fs : List Footstep) (h3 : 3 ≤ fs.length) (halt : fs.IsChain fun a b => b.side = a.side.other)
    (t : ℝ) (start middle isEnd : Bool) (S : List Support) (hS : makeSupports fs t start middle isEnd = .ok S) (k : Nat)
    (h0 : 0 < k) (hk : k < S.length) : ∃ e, truncateSupports S k true = .ok (S.take k ++ [e]) ∧ SupportWalk (S.take k ++ [e]) ∧
      e.isEnd = true ∧ e.footsteps.length = 2 := by
  have hw := walk_of_makeSupports fs h3 halt t start middle isEnd S hS
  obtain ⟨-, -, -, h2⟩ := C158_partial S hw k
  have he : (S[k - 1]'(by omega)).isEnd = false := by
    obtain ⟨s, H, L, E, hS', -, -, -, ⟨-, hs, -⟩, hH, hL, -, hE⟩ := makeSupports_spec fs t start middle isEnd h3
    rw [hS] at hS'
    cases hS'
    have hE' : E.length ≤ 1 := by rw [hE]; split <;> omega
    have hl : k - 1 < (s :: (H ++ L)).length := by
      simp only [List.length_cons, List.length_append] at hk ⊢
      omega
    have e : (s :: (H ++ L ++ E))[k - 1]'(by omega) = (s :: (H ++ L))[k - 1] := by
      simp only [← List.cons_append]
      exact List.getElem_append_left hl
    rw [e]
    have hm := List.getElem_mem hl
    generalize (s :: (H ++ L))[k - 1]'_ = x at hm
    rcases List.mem_cons.1 hm with rfl | hm
    · exact hs
    · rcases List.mem_append.1 hm with h | h
      · exact (hH x h).2
      · exact (hL x h).2.1
  obtain ⟨e, a, b, -, -, c, f, f', d, -⟩ := h2 h0 hk he
  exact ⟨e, a, c, b, by rw [d]; rfl⟩

/-- **C158 is false** on the rest of its domain: with `add_end`, an `index` of 0 (or less) reads the last element of an empty
vector; the whole of a walk without end reads one support too far; and a walk that lifts the second foot of a double support reads a
footstep that does not exist. -/
theorem C158_refuted :
    (∀ (S : List Support) (k : Int), k ≤ 0 → truncateSupports S k true = .error .ub) ∧
    (∀ (S : List Support) (last : Support), S.getLast? = some last → last.isEnd = false → truncateSupports S S.length true = .error .ub) ∧
    (∀ f f' : Footstep, f'.side = f.side.other →
      truncateSupports [{ footsteps := [f, f'] }, { footsteps := [f] }, { footsteps := [f, f'], isEnd := true }] 1 true = .error .ub) := by
  refine ⟨fun S k hk => ?_, fun S last hl he => ?_, fun f f' h => ?_⟩
  · unfold truncateSupports
    rw [if_neg (by omega)]
    have : k.toNat = 0 := by omega
    simp [this]
  · unfold truncateSupports
    rw [if_neg (by omega)]
    simp only [if_true, Int.toNat_natCast, List.take_length, hl, he, Bool.false_eq_true, if_false, endSupport]
    cases last.footsteps <;> simp [Bind.bind, Except.bind]
  · unfold truncateSupports endSupport
    simp [Bind.bind, Except.bind, other_ne]

/-! ## Concrete cases -/

/-- Three footsteps of alternate sides: the hypotheses hold, and the truncated walk has a double support at its end. -/
example (p : Params) (T : Affine) : ∃ S, makeSupports [p.createFootstep .left T, p.createFootstep .right T, p.createFootstep .left T]
    0 true true true = .ok S ∧ S.length = 3 ∧ ∃ R, truncateSupports S 2 true = .ok R ∧ R.map (·.footsteps.map (·.side)) =
      [[.left, .right], [.right], [.right, .left]] :=
  ⟨_, rfl, rfl, _, rfl, rfl⟩

end Verif.Humanoid
