import Verif.Problem.ProblemAssembled
import Mathlib.Analysis.InnerProductSpace.GramSchmidtOrtho
import Mathlib.Analysis.InnerProductSpace.PiL2

/-! The contract assumed of `colPivHouseholderQr` (C10, C15) can be met for every matrix over the reals, with a rank that is full
exactly when the equations are independent. -/

namespace Verif.Problem

open Finset InnerProductSpace

/-- The `m` rows of `A`, of `n` coefficients, are linearly independent. -/
def RowsIndep (n m : Nat) (A : Nat → Nat → ℝ) : Prop :=
  ∀ w : Nat → ℝ, (∀ k, k < n → ∑ i ∈ range m, w i * A i k = 0) → ∀ i, i < m → w i = 0

/-- Contract of an exact rank-revealing QR: besides `IsQR`, the rank is full when the rows are independent. -/
structure IsExactQR (n m : Nat) (A : Nat → Nat → ℝ) (f : QR ℝ) : Prop where
  qr : IsQR n m A f
  full : RowsIndep n m A → f.rank = m

/-- Row `i` of `A` as a vector. -/
noncomputable def rowVec (n : Nat) (A : Nat → Nat → ℝ) (i : Nat) : EuclideanSpace ℝ (Fin n) := WithLp.toLp 2 fun k => A i k

/-- The first `n` rows of `A`, as many as there are coordinates. -/
noncomputable def firstRows (n : Nat) (A : Nat → Nat → ℝ) (i : Fin n) : EuclideanSpace ℝ (Fin n) := rowVec n A i

noncomputable def rowBasis (n : Nat) (A : Nat → Nat → ℝ) : OrthonormalBasis (Fin n) ℝ (EuclideanSpace ℝ (Fin n)) :=
  gramSchmidtOrthonormalBasis (by simp) (firstRows n A)

open Classical in
/-- A QR factorisation, without pivoting. -/
noncomputable def someQR (n m : Nat) (A : Nat → Nat → ℝ) : QR ℝ :=
  let R : Nat → Nat → ℝ := fun j i => if h : j < n then ⟪rowBasis n A ⟨j, h⟩, rowVec n A i⟫_ℝ else 0
  { rank := if m ≤ n ∧ ∀ i, i < m → R i i ≠ 0 then m else 0
    Q := fun k j => if h : k < n then if h' : j < n then (rowBasis n A ⟨j, h'⟩) ⟨k, h⟩ else 0 else 0
    R := R
    perm := id }

theorem rowsIndep_linear {n m : Nat} {A : Nat → Nat → ℝ} (h : RowsIndep n m A) :
    LinearIndependent ℝ fun i : Fin m => rowVec n A i := by
  rw [Fintype.linearIndependent_iff]
  intro g hg i
  have := h (fun i => if h : i < m then g ⟨i, h⟩ else 0) (fun k hk => by
    have e := congrArg (fun v : EuclideanSpace ℝ (Fin n) => v ⟨k, hk⟩) hg
    simp only [rowVec, WithLp.ofLp_sum, WithLp.ofLp_smul, Finset.sum_apply, Pi.smul_apply, smul_eq_mul, WithLp.ofLp_zero, Pi.zero_apply] at e
    rw [Finset.sum_range]
    rw [← e]
    refine Finset.sum_congr rfl fun i _ => ?_
    simp) i i.2
  simpa using this

theorem someQR_spec (n m : Nat) (A : Nat → Nat → ℝ) : IsExactQR n m A (someQR n m A) := by
  have hQ : ∀ k j (h : k < n) (h' : j < n), (someQR n m A).Q k j = (rowBasis n A ⟨j, h'⟩) ⟨k, h⟩ := by
    intro k j h h'
    simp [someQR, h, h']
  have hR : ∀ j i (h : j < n), (someQR n m A).R j i = ⟪rowBasis n A ⟨j, h⟩, rowVec n A i⟫_ℝ := by
    intro j i h
    simp [someQR, h]
  have horth : ∀ i j : Fin n, ∑ k : Fin n, (rowBasis n A i) k * (rowBasis n A j) k = if i = j then 1 else 0 := by
    intro i j
    have := orthonormal_iff_ite.1 (rowBasis n A).orthonormal i j
    rw [← this, PiLp.inner_apply]
    refine Finset.sum_congr rfl fun k _ => ?_
    simp [mul_comm]
  refine ⟨⟨?_, ?_, ?_, ?_, ?_, ?_, ?_, ?_⟩, ?_⟩
  · unfold someQR
    simp only
    split
    · rename_i h; exact h.1
    · exact Nat.zero_le _
  · intro i j hi hj
    rw [Finset.sum_range]
    have := horth ⟨i, hi⟩ ⟨j, hj⟩
    simp only [Fin.mk.injEq] at this
    rw [← this]
    exact Finset.sum_congr rfl fun k _ => by rw [hQ k i k.2 hi, hQ k j k.2 hj]
  · intro i j hi hj
    rw [Finset.sum_range]
    -- an orthogonal matrix has orthonormal rows
    let M : Matrix (Fin n) (Fin n) ℝ := fun k j => (rowBasis n A j) k
    have h1 : M.transpose * M = 1 := by
      ext a b
      rw [Matrix.mul_apply, Matrix.one_apply, ← horth a b]
      rfl
    have h2 : M * M.transpose = 1 := mul_eq_one_comm.1 h1
    have e := congrFun (congrFun h2 ⟨i, hi⟩) ⟨j, hj⟩
    rw [Matrix.mul_apply, Matrix.one_apply] at e
    simp only [Fin.mk.injEq] at e
    rw [← e]
    exact Finset.sum_congr rfl fun k _ => by rw [hQ i k hi k.2, hQ j k hj k.2]; rfl
  · intro i k hi hk
    rw [Finset.sum_range]
    have e := congrArg (fun v : EuclideanSpace ℝ (Fin n) => v ⟨k, hk⟩) ((rowBasis n A).sum_repr' (rowVec n A i))
    simp only [WithLp.ofLp_sum, WithLp.ofLp_smul, Finset.sum_apply, Pi.smul_apply, smul_eq_mul] at e
    have e' : (rowVec n A i) ⟨k, hk⟩ = A i k := rfl
    rw [e'] at e
    show A i k = _
    rw [← e]
    refine Finset.sum_congr rfl fun j _ => ?_
    rw [hQ k j hk j.2, hR j i j.2, mul_comm]
  · intro i j hi hij
    by_cases hj : j < n
    · rw [hR j i hj]
      have := gramSchmidtOrthonormalBasis_inv_triangular (𝕜 := ℝ) (by simp) (firstRows n A) (i := ⟨i, by omega⟩) (j := ⟨j, hj⟩) hij
      exact this
    · simp [someQR, hj]
  · intro hr i hi
    unfold someQR at hr
    simp only at hr
    split at hr
    · rename_i h; exact h.2 i hi
    · omega
  · intro i hi; exact hi
  · intro r hr; exact ⟨r, hr, rfl⟩
  · intro hind
    have hlin := rowsIndep_linear hind
    have hmn : m ≤ n := by simpa using hlin.fintype_card_le_finrank
    have hd : ∀ i, i < m → (someQR n m A).R i i ≠ 0 := by
      intro i hi h0
      have hin : i < n := by omega
      rw [hR i i hin] at h0
      have hne : gramSchmidt ℝ (firstRows n A) ⟨i, hin⟩ ≠ 0 := by
        apply gramSchmidt_ne_zero_coe
        have := hlin.comp (fun x : Set.Iic (⟨i, hin⟩ : Fin n) => (⟨x.1.1, lt_of_le_of_lt x.2 hi⟩ : Fin m)) (by
          intro a b hab
          apply Subtype.ext
          apply Fin.ext
          simpa using hab)
        exact this
      have hnn : gramSchmidtNormed ℝ (firstRows n A) ⟨i, hin⟩ ≠ 0 := by
        unfold gramSchmidtNormed
        intro h
        rcases smul_eq_zero.1 h with h | h
        · simp [hne] at h
        · exact hne h
      unfold rowBasis at h0
      rw [gramSchmidtOrthonormalBasis_apply _ hnn] at h0
      unfold gramSchmidtNormed at h0
      rw [inner_smul_left, mul_eq_zero] at h0
      rcases h0 with h | h
      · simp [hne] at h
      · have e := gramSchmidt_def'' ℝ (firstRows n A) ⟨i, hin⟩
        have e2 : rowVec n A i = firstRows n A ⟨i, hin⟩ := rfl
        rw [e2, e, inner_add_right, inner_sum] at h
        rw [Finset.sum_eq_zero, add_zero] at h
        · exact hne (inner_self_eq_zero.1 h)
        · intro j hj
          rw [inner_smul_right, gramSchmidt_orthogonal ℝ _ (Finset.mem_Iio.1 hj).ne', mul_zero]
    have : (someQR n m A).rank = if m ≤ n ∧ ∀ i, i < m → (someQR n m A).R i i ≠ 0 then m else 0 := rfl
    rw [this, if_pos ⟨hmn, hd⟩]

/-- Every system of equations over the reals has such a factorisation: the contract assumed in C10, C15 and what follows from them
can be met by all the calls at once. -/
theorem exact_qr_exists : ∃ qr : Nat → Nat → EqSt ℝ → QR ℝ, ∀ n m (eqs : EqSt ℝ), IsExactQR n m eqs.A (qr n m eqs) :=
  ⟨fun n m eqs => someQR n m eqs.A, fun n m eqs => someQR_spec n m eqs.A⟩

theorem qrContract_met (s : Settings ℝ) (cs : List (Constr ℝ)) : QRContract s (fun m eqs => someQR s.n m eqs.A) cs :=
  fun _ => (someQR_spec _ _ _).qr

/-- Conversely a full rank means independent rows. -/
theorem IsQR.indep {n m : Nat} {A : Nat → Nat → ℝ} {f : QR ℝ} (h : IsQR n m A f) (hr : f.rank = m) : RowsIndep n m A := by
  intro w hw i hi
  have hmn : m ≤ n := hr ▸ h.rank_le
  -- `∑ w r A r k = ∑ i, w (perm i) A (perm i) k`: the permutation is a bijection of `range m`
  have hinj : Set.InjOn f.perm (range m) := by
    have : (range m).image f.perm = range m := by
      ext r
      simp only [mem_image, mem_range]
      exact ⟨fun ⟨i, hi, e⟩ => e ▸ h.permLt i hi, fun hr => h.permSurj r hr⟩
    exact Finset.card_image_iff.1 (by rw [this])
  have hperm : ∀ F : Nat → ℝ, ∑ r ∈ range m, F r = ∑ i ∈ range m, F (f.perm i) := by
    intro F
    symm
    refine Finset.sum_bij (fun i _ => f.perm i) (fun i hi => mem_range.2 (h.permLt i (mem_range.1 hi)))
      (fun a ha b hb e => hinj (by simpa using ha) (by simpa using hb) e) (fun r hr => ?_) (fun i hi => rfl)
    obtain ⟨i, hi, e⟩ := h.permSurj r (mem_range.1 hr)
    exact ⟨i, mem_range.2 hi, e⟩
  -- the combination vanishes coordinate by coordinate in the basis `Q`
  have hcol : ∀ j, j < n → ∑ i ∈ range m, w (f.perm i) * f.R j i = 0 := by
    intro j hj
    have e : ∀ k, k < n → ∑ j' ∈ range n, f.Q k j' * ∑ i ∈ range m, w (f.perm i) * f.R j' i = 0 := by
      intro k hk
      rw [← hw k hk, hperm fun r => w r * A r k]
      calc _ = ∑ j' ∈ range n, ∑ i ∈ range m, w (f.perm i) * (f.Q k j' * f.R j' i) := by
            refine Finset.sum_congr rfl fun j' _ => ?_
            rw [Finset.mul_sum]
            exact Finset.sum_congr rfl fun i _ => by ring
        _ = ∑ i ∈ range m, ∑ j' ∈ range n, w (f.perm i) * (f.Q k j' * f.R j' i) := Finset.sum_comm
        _ = _ := by
            refine Finset.sum_congr rfl fun i hi => ?_
            rw [h.fact i k (mem_range.1 hi) hk, Finset.mul_sum]
    have e2 : ∑ k ∈ range n, f.Q k j * ∑ j' ∈ range n, f.Q k j' * ∑ i ∈ range m, w (f.perm i) * f.R j' i = 0 :=
      Finset.sum_eq_zero fun k hk => by rw [e k (mem_range.1 hk), mul_zero]
    rw [← e2]
    symm
    calc _ = ∑ k ∈ range n, ∑ j' ∈ range n, (f.Q k j * f.Q k j') * ∑ i ∈ range m, w (f.perm i) * f.R j' i := by
          refine Finset.sum_congr rfl fun k _ => ?_
          rw [Finset.mul_sum]
          exact Finset.sum_congr rfl fun j' _ => by ring
      _ = ∑ j' ∈ range n, ∑ k ∈ range n, (f.Q k j * f.Q k j') * ∑ i ∈ range m, w (f.perm i) * f.R j' i := Finset.sum_comm
      _ = ∑ j' ∈ range n, (if j = j' then 1 else 0) * ∑ i ∈ range m, w (f.perm i) * f.R j' i := by
          refine Finset.sum_congr rfl fun j' hj' => ?_
          rw [← Finset.sum_mul, h.orthCols j j' hj (mem_range.1 hj')]
      _ = _ := by simp [hj]
  -- back substitution
  have hback : ∀ d i, i < m → m - i ≤ d → w (f.perm i) = 0 := by
    intro d
    induction d with
    | zero => intro i hi hd; omega
    | succ d ih =>
      intro i hi hd
      have e := hcol i (by omega)
      rw [Finset.sum_eq_single i] at e
      · exact (mul_eq_zero.1 e).resolve_right (h.diag hr i hi)
      · intro b hb hne
        rcases Nat.lt_or_gt_of_ne hne with hlt | hgt
        · rw [h.upper b i (mem_range.1 hb) hlt, mul_zero]
        · rw [ih b (mem_range.1 hb) (by have := mem_range.1 hb; omega), zero_mul]
      · intro hn
        exact absurd (mem_range.2 hi) hn
  obtain ⟨i', hi', e⟩ := h.permSurj i hi
  rw [← e]
  exact hback m i' hi' (by omega)

end Verif.Problem
