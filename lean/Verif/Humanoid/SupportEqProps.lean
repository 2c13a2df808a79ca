/-
Property C177: when footsteps and supports are equal.
-/
import Mathlib.Data.List.Forall2
import Mathlib.Tactic.FinCases
import Mathlib.Tactic.Linarith
import Mathlib.Tactic.Positivity
import Verif.Humanoid.SupportEq
import Verif.Robot.BaseProps

namespace Verif.Humanoid
open Verif.Tools Verif.Robot

/-! ## Specification -/

/-- Two poses that are equal to a part in `10 ^ 12`: `R` is a rotation exactly when the squares of its coefficients sum to three, the
distance between two rotations is that of their coefficients, and the precision is relative to the distance to the origin. -/
def SamePlace (a b : Affine) : Prop :=
  (∑ i, ∑ j, (a.linear i j - b.linear i j) ^ 2) + ∑ i, (a.translation i - b.translation i) ^ 2 ≤
    (1 / 10 ^ 12) ^ 2 * (4 + min (∑ i, a.translation i ^ 2) (∑ i, b.translation i ^ 2))

theorem rotation_squares {R : M3} (h : R.transpose * R = 1) : ∑ i, ∑ j, R i j ^ 2 = 3 := by
  have e : ∀ j : Fin 3, ∑ i, R i j ^ 2 = 1 := by
    intro j
    have := congrFun (congrFun h j) j
    rw [Matrix.mul_apply, Matrix.one_apply_eq] at this
    rw [← this]
    exact Finset.sum_congr rfl fun i _ => by rw [Matrix.transpose_apply, sq]
  rw [Finset.sum_comm]
  simp [e]

theorem isApprox_rigid {a b : Affine} (ha : Rigid a) (hb : Rigid b) : isApprox a b ↔ SamePlace a b := by
  unfold isApprox SamePlace squares eigenPrecision
  rw [rotation_squares ha.1, rotation_squares hb.1]
  have : min (3 + ∑ i, a.translation i ^ 2 + 1) (3 + ∑ i, b.translation i ^ 2 + 1) =
      4 + min (∑ i, a.translation i ^ 2) (∑ i, b.translation i ^ 2) := by
    rw [← min_add_add_left]
    congr 1 <;> ring
  rw [this]
  show (∑ i, ∑ j, (a.linear i j - b.linear i j) ^ 2) + (∑ i, (a.translation i - b.translation i) ^ 2) + 0 ≤ _ ↔ _
  rw [add_zero]

theorem squares_nonneg (T : Affine) {b : ℝ} (hb : 0 ≤ b) : 0 ≤ squares T b := by
  unfold squares
  positivity

theorem isApprox_refl (a : Affine) : isApprox a a := by
  unfold isApprox
  have h : squares ⟨a.linear - a.linear, a.translation - a.translation⟩ 0 = 0 := by simp [squares]
  rw [h]
  exact mul_nonneg (sq_nonneg _) (le_min (squares_nonneg a zero_le_one) (squares_nonneg a zero_le_one))

theorem isApprox_symm {a b : Affine} (h : isApprox a b) : isApprox b a := by
  unfold isApprox at *
  rw [min_comm]
  refine le_trans (le_of_eq ?_) h
  unfold squares
  congr 2
  · exact Finset.sum_congr rfl fun i _ => Finset.sum_congr rfl fun j _ => by
      show (b.linear i j - a.linear i j) ^ 2 = (a.linear i j - b.linear i j) ^ 2
      ring
  · exact Finset.sum_congr rfl fun i _ => by
      show (b.translation i - a.translation i) ^ 2 = (a.translation i - b.translation i) ^ 2
      ring

theorem footstepsEq_iff : ∀ (l m : List Footstep), l.length = m.length → (footstepsEq l m ↔ List.Forall₂ Footstep.eq l m)
  | [], [], _ => by simp [footstepsEq]
  | f :: fs, g :: gs, h => by
    rw [footstepsEq, List.forall₂_cons, footstepsEq_iff fs gs (Nat.succ.inj h)]

/-! ## C177 -/

/-- **C177, exact.** Two footsteps whose frames are poses are equal exactly when they have the same side and the same place to a part in
`10 ^ 12`; two supports are equal exactly when they have as many footsteps and the first ones are equal, the second ones are equal, and so
on. -/
theorem C177_exact :
    (∀ f g : Footstep, Rigid f.frame → Rigid g.frame → (f.eq g ↔ f.side = g.side ∧ SamePlace f.frame g.frame)) ∧
    ∀ a b : Support, a.eq b ↔ List.Forall₂ Footstep.eq a.footsteps b.footsteps := by
  refine ⟨fun f g hf hg => and_congr_right fun _ => isApprox_rigid hf hg, fun a b => ⟨fun h => ?_, fun h => ?_⟩⟩
  · exact (footstepsEq_iff _ _ h.1).1 h.2
  · exact ⟨h.length_eq, (footstepsEq_iff _ _ h.length_eq).2 h⟩

/-- **C177, partial.** Whatever the frames: a footstep is equal to itself and to any footstep with the same side and frame, and equality
goes both ways; so it does for supports. Missing for the full C177: equality is not transitive, depends on the distance to the origin and
on the order of the footsteps, and ignores the times of the supports (below). -/
theorem C177_partial :
    (∀ f g : Footstep, f.side = g.side → f.frame = g.frame → f.eq g) ∧ (∀ f g : Footstep, f.eq g → g.eq f) ∧
    (∀ a b : Support, a.footsteps = b.footsteps → a.eq b) ∧ ∀ a b : Support, a.eq b → b.eq a := by
  have h1 : ∀ f g : Footstep, f.side = g.side → f.frame = g.frame → f.eq g := fun f g hs hf =>
    ⟨hs, by rw [hf]; exact isApprox_refl _⟩
  have h2 : ∀ f g : Footstep, f.eq g → g.eq f := fun f g h => ⟨h.1.symm, isApprox_symm h.2⟩
  refine ⟨h1, h2, fun a b h => (C177_exact.2 a b).2 ?_, fun a b h => (C177_exact.2 b a).2 ?_⟩
  · rw [h]
    exact List.forall₂_same.2 fun f _ => h1 f f rfl rfl
  · have := (C177_exact.2 a b).1 h
    exact this.flip.imp fun g f h => h2 f g h

/-- A left footstep in `(x, 0)`, that points forward: the poses of a walk straight ahead. -/
noncomputable def stepAt (x : ℝ) : Footstep := { width := 0, length := 0, side := .left, frame := ⟨1, ![x, 0, 0]⟩ }

theorem stepAt_rigid (x : ℝ) : Rigid (stepAt x).frame := ⟨by simp [stepAt], by simp [stepAt]⟩

theorem stepAt_eq (x y : ℝ) : (stepAt x).eq (stepAt y) ↔ (x - y) ^ 2 ≤ (1 / 10 ^ 12) ^ 2 * (4 + min (x ^ 2) (y ^ 2)) := by
  rw [C177_exact.1 _ _ (stepAt_rigid x) (stepAt_rigid y)]
  unfold SamePlace
  simp [stepAt, Fin.sum_univ_three]

/-- **C177 is false**: equality is not transitive. -/
theorem C177_transitive_refuted : ∃ f g h : Footstep, Rigid f.frame ∧ Rigid g.frame ∧ Rigid h.frame ∧ f.eq g ∧ g.eq h ∧ ¬ f.eq h := by
  refine ⟨stepAt 0, stepAt (2 / 10 ^ 12), stepAt (4 / 10 ^ 12), stepAt_rigid _, stepAt_rigid _, stepAt_rigid _, ?_, ?_, ?_⟩ <;>
    rw [stepAt_eq]
  · norm_num
  · have : min ((2 / 10 ^ 12 : ℝ) ^ 2) ((4 / 10 ^ 12) ^ 2) ≥ 0 := le_min (by positivity) (by positivity)
    nlinarith
  · have : min ((0 : ℝ) ^ 2) ((4 / 10 ^ 12) ^ 2) ≤ 0 := (min_le_left _ _).trans (by norm_num)
    norm_num at this ⊢

/-- **C177 is false**: two footsteps that differ are equal once both are moved away from the origin by the same distance. -/
theorem C177_moved_refuted (d : ℝ) (hd : 3 / 10 ^ 12 ≤ d) : ∃ y : ℝ, ¬ (stepAt 0).eq (stepAt d) ∧ (stepAt y).eq (stepAt (y + d)) := by
  have h0 : (0 : ℝ) < d := lt_of_lt_of_le (by norm_num) hd
  refine ⟨d * 10 ^ 12, ?_, ?_⟩ <;> rw [stepAt_eq]
  · have : min ((0 : ℝ) ^ 2) (d ^ 2) ≤ 0 := (min_le_left _ _).trans (by norm_num)
    intro h
    have h1 : (3 / 10 ^ 12 : ℝ) ^ 2 ≤ d ^ 2 := by
      apply pow_le_pow_left₀ _ hd
      norm_num
    have h2 : (1 / 10 ^ 12 : ℝ) ^ 2 * (4 + min ((0 : ℝ) ^ 2) (d ^ 2)) ≤ (1 / 10 ^ 12) ^ 2 * (4 + 0) :=
      mul_le_mul_of_nonneg_left (by linarith) (by positivity)
    norm_num at h1 h2 h
    linarith
  · have : min ((d * 10 ^ 12) ^ 2) ((d * 10 ^ 12 + d) ^ 2) = (d * 10 ^ 12) ^ 2 :=
      min_eq_left (pow_le_pow_left₀ (by positivity) (by linarith) 2)
    rw [this]
    have e : (d * 10 ^ 12 - (d * 10 ^ 12 + d)) ^ 2 = d ^ 2 := by ring
    have e' : (1 / 10 ^ 12 : ℝ) ^ 2 * (4 + (d * 10 ^ 12) ^ 2) = d ^ 2 + (1 / 10 ^ 12) ^ 2 * 4 := by
      field_simp
      ring
    rw [e, e']
    have : (0 : ℝ) ≤ (1 / 10 ^ 12) ^ 2 * 4 := by positivity
    linarith

/-- **C177 is false** of supports: the same two footsteps in the other order are another support, and supports at different times, or with
different targets, are equal. -/
theorem C177_support_refuted :
    (∃ (a b : Support), (∀ f, f ∈ a.footsteps ↔ f ∈ b.footsteps) ∧ a.footsteps.length = b.footsteps.length ∧ ¬ a.eq b) ∧
    ∀ (a : Support) (t ratio : ℝ) (dcm : V2), a.eq { a with tStart := t, timeRatio := ratio, targetDcm := dcm } := by
  refine ⟨⟨{ footsteps := [stepAt 0, stepAt 1] }, { footsteps := [stepAt 1, stepAt 0] }, fun f => ?_, rfl, fun h => ?_⟩,
    fun a t ratio dcm => C177_partial.2.2.1 _ _ rfl⟩
  · simp [or_comm]
  · have := (C177_exact.2 _ _).1 h
    rw [List.forall₂_cons] at this
    have h1 := (stepAt_eq 0 1).1 this.1
    norm_num at h1

end Verif.Humanoid
