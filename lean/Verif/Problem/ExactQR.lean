/-
A QR factorisation which is exact on every system, whatever the number of variables: used by C163, C164 and C165.
-/
import Verif.Problem.QRExists

namespace Verif.Problem
open Finset

/-- Contract of an exact rank-revealing QR, for every number `n` of variables and every system with at most `n` of them. -/
def ExactQR (qr : Nat → EqSt ℝ → QR ℝ) : Prop :=
  ∀ (n m : Nat) (eqs : EqSt ℝ), (∀ i k, n ≤ k → eqs.A i k = 0) → IsExactQR n m eqs.A (qr m eqs)

theorem equalities_support (n : Nat) (cs : List (Constr ℝ)) (h : equalitiesUB n cs = false) : ∀ i k, n ≤ k → (equalities cs).A i k = 0 := by
  unfold equalities
  have : ∀ (l : List (Constr ℝ)) (st : EqSt ℝ), equalitiesUB n l = false → (∀ i k, n ≤ k → st.A i k = 0) →
      ∀ i k, n ≤ k → (l.foldl eqStep st).A i k = 0 := by
    intro l
    induction l with
    | nil => intro st _ h; exact h
    | cons c l ih =>
      intro st hu h0
      unfold equalitiesUB at hu
      rw [List.any_cons, Bool.or_eq_false_iff] at hu
      refine ih _ hu.2 fun i k hk => ?_
      unfold eqStep
      split
      · rename_i hc
        have h1 := hu.1
        simp only [hc, Bool.true_and, Bool.or_eq_false_iff, decide_eq_false_iff_not] at h1
        show writeBlock _ _ _ _ _ i k = 0
        unfold writeBlock
        rw [if_neg (by omega)]
        exact h0 i k hk
      · exact h0 i k hk
  exact this cs _ h fun _ _ _ => rfl

/-- The factorisation computed for a problem whose block assignments are defined. -/
theorem ExactQR.equalities {qr : Nat → EqSt ℝ → QR ℝ} (h : ExactQR qr) {n : Nat} {cs : List (Constr ℝ)} (hu : equalitiesUB n cs = false) :
    IsExactQR n (nEqualities cs) (equalities cs).A (qr (nEqualities cs) (Problem.equalities cs)) :=
  h n _ _ (equalities_support n cs hu)

theorem ExactQR.contract {qr : Nat → EqSt ℝ → QR ℝ} (h : ExactQR qr) {s : Settings ℝ} {cs : List (Constr ℝ)} {qp : QP ℝ}
    (ha : assemble s qr cs = .ok qp) : QRContract s qr cs := by
  intro _
  refine (h.equalities ?_).qr
  unfold assemble at ha
  split at ha
  · cases ha
  · rename_i hu
    simpa using hu

/-! ## It exists -/

/-- A factorisation of a matrix of `c` columns, extended to any number of columns by the identity. -/
noncomputable def padQR (c : Nat) (f : QR ℝ) : QR ℝ :=
  { rank := f.rank
    Q := fun k j => if k < c ∧ j < c then f.Q k j else if k = j then 1 else 0
    R := fun j i => if j < c then f.R j i else 0
    perm := f.perm }

theorem padQR_spec (c n m : Nat) (hc : c ≤ n) (A : Nat → Nat → ℝ) (hA : ∀ i k, c ≤ k → A i k = 0) (f : QR ℝ) (hf : IsExactQR c m A f) :
    IsExactQR n m A (padQR c f) := by
  have hsplit : ∀ g : Nat → ℝ, ∑ k ∈ range n, g k = ∑ k ∈ range c, g k + ∑ k ∈ Ico c n, g k := fun g => (sum_range_add_sum_Ico g hc).symm
  have hin : ∀ k j, k < c → j < c → (padQR c f).Q k j = f.Q k j := fun k j h1 h2 => if_pos ⟨h1, h2⟩
  have hout : ∀ k j, ¬ (k < c ∧ j < c) → (padQR c f).Q k j = if k = j then 1 else 0 := fun k j h => if_neg h
  have hR : ∀ j i, j < c → (padQR c f).R j i = f.R j i := fun j i h => if_pos h
  have hR0 : ∀ j i, c ≤ j → (padQR c f).R j i = 0 := fun j i h => if_neg (by omega)
  have hrank : (padQR c f).rank = f.rank := rfl
  have hperm : (padQR c f).perm = f.perm := rfl
  generalize padQR c f = g at *
  refine ⟨⟨by rw [hrank]; exact hf.qr.rank_le.trans hc, ?_, ?_, ?_, ?_, ?_, by rw [hperm]; exact hf.qr.permLt,
    by rw [hperm]; exact hf.qr.permSurj⟩, ?_⟩
  · intro i j hi hj
    by_cases h : i < c ∧ j < c
    · rw [hsplit, ← hf.qr.orthCols i j h.1 h.2]
      have h1 : ∑ k ∈ Ico c n, g.Q k i * g.Q k j = 0 := sum_eq_zero fun k hk => by
        have := mem_Ico.1 hk
        rw [hout k i (by omega), if_neg (by omega), zero_mul]
      rw [h1, add_zero]
      exact sum_congr rfl fun k hk => by rw [hin k i (mem_range.1 hk) h.1, hin k j (mem_range.1 hk) h.2]
    · by_cases hic : i < c
      · have hjc : c ≤ j := by omega
        rw [if_neg (by omega)]
        refine sum_eq_zero fun k _ => ?_
        rw [hout k j (by omega)]
        by_cases hkj : k = j
        · subst hkj; rw [hout k i (by omega), if_neg (by omega), zero_mul]
        · rw [if_neg hkj, mul_zero]
      · rw [sum_eq_single i]
        · rw [hout i i (by omega), if_pos rfl, one_mul]
          by_cases hij : i = j
          · subst hij; rw [if_pos rfl, hout i i (by omega), if_pos rfl]
          · rw [hout i j (by omega)]
        · intro k _ hk; rw [hout k i (by omega), if_neg hk, zero_mul]
        · intro h; exact absurd (mem_range.2 hi) h
  · intro i j hi hj
    by_cases h : i < c ∧ j < c
    · rw [hsplit, ← hf.qr.orthRows i j h.1 h.2]
      have h1 : ∑ k ∈ Ico c n, g.Q i k * g.Q j k = 0 := sum_eq_zero fun k hk => by
        have := mem_Ico.1 hk
        rw [hout i k (by omega), if_neg (by omega), zero_mul]
      rw [h1, add_zero]
      exact sum_congr rfl fun k hk => by rw [hin i k h.1 (mem_range.1 hk), hin j k h.2 (mem_range.1 hk)]
    · by_cases hic : i < c
      · have hjc : c ≤ j := by omega
        rw [if_neg (by omega)]
        refine sum_eq_zero fun k _ => ?_
        rw [hout j k (by omega)]
        by_cases hkj : j = k
        · subst hkj; rw [hout i j (by omega), if_neg (by omega), zero_mul]
        · rw [if_neg hkj, mul_zero]
      · rw [sum_eq_single i]
        · rw [hout i i (by omega), if_pos rfl, one_mul]
          by_cases hij : i = j
          · subst hij; rw [if_pos rfl, hout i i (by omega), if_pos rfl]
          · rw [hout j i (by omega), if_neg (fun h => hij h.symm), if_neg hij]
        · intro k _ hk; rw [hout i k (by omega), if_neg (fun h => hk h.symm), zero_mul]
        · intro h; exact absurd (mem_range.2 hi) h
  · intro i k hi hk
    rw [hperm, hsplit]
    have h1 : ∑ j ∈ Ico c n, g.Q k j * g.R j i = 0 := sum_eq_zero fun j hj => by rw [hR0 j i (mem_Ico.1 hj).1, mul_zero]
    rw [h1, add_zero]
    by_cases hkc : k < c
    · rw [hf.qr.fact i k hi hkc]
      exact sum_congr rfl fun j hj => by rw [hin k j hkc (mem_range.1 hj), hR j i (mem_range.1 hj)]
    · rw [hA _ k (by omega)]
      symm
      refine sum_eq_zero fun j hj => ?_
      have := mem_range.1 hj
      rw [hout k j (by omega), if_neg (by omega), zero_mul]
  · intro i j hi hij
    by_cases hj : j < c
    · rw [hR j i hj]; exact hf.qr.upper i j hi hij
    · exact hR0 j i (by omega)
  · intro h i hi
    rw [hrank] at h
    have := hf.qr.rank_le
    rw [hR i i (by omega)]
    exact hf.qr.diag h i hi
  · intro h
    rw [hrank]
    refine hf.full fun w hw => h w fun k hk => ?_
    by_cases hkc : k < c
    · exact hw k hkc
    · exact sum_eq_zero fun i _ => by rw [hA i k (by omega), mul_zero]

open Classical in
/-- A QR factorisation exact on every system. -/
theorem exactQR_exists : ∃ qr, ExactQR qr := by
  refine ⟨fun m eqs => if h : ∃ c, ∀ i k, c ≤ k → eqs.A i k = 0 then padQR (Nat.find h) (someQR (Nat.find h) m eqs.A) else ⟨0, fun _ _ => 0,
    fun _ _ => 0, id⟩, fun n m eqs hA => ?_⟩
  have h : ∃ c, ∀ i k, c ≤ k → eqs.A i k = 0 := ⟨n, hA⟩
  simp only [dif_pos h]
  exact padQR_spec _ n m (Nat.find_le hA) _ (Nat.find_spec h) _ (someQR_spec _ _ _)

end Verif.Problem
