/-
Properties C35, C36 of segments.
-/
import Mathlib.Tactic.Ring
import Mathlib.Tactic.Linarith
import Mathlib.Tactic.FieldSimp
import Mathlib.Tactic.LinearCombination
import Mathlib.Tactic.NormNum
import Verif.Tools.Segment

namespace Verif.Tools

/-- Specification: `p` is on the supporting line of the segment, at parameter `l`. -/
def Segment.At (a : Segment) (l : ℝ) (p : V2) : Prop :=
  p.x = (1 - l) * a.start.x + l * a.fin.x ∧ p.y = (1 - l) * a.start.y + l * a.fin.y

/-- Points of the supporting line, of the half-line from start through end, and of the
closed segment. -/
def Segment.OnLine (a : Segment) (p : V2) : Prop := ∃ l, a.At l p
def Segment.OnHalfLine (a : Segment) (p : V2) : Prop := ∃ l, 0 ≤ l ∧ a.At l p
def Segment.OnSegment (a : Segment) (p : V2) : Prop := ∃ l, 0 ≤ l ∧ l ≤ 1 ∧ a.At l p

/-- Specification: non-degenerate segments whose directions make an angle whose sine is
at least the documented tolerance, i.e. pairs accepted as non-parallel. -/
def NonParallel (a s : Segment) : Prop :=
  a.start ≠ a.fin ∧ s.start ≠ s.fin ∧
  segEps * (Real.sqrt ((a.fin.x - a.start.x) ^ 2 + (a.fin.y - a.start.y) ^ 2)
      * Real.sqrt ((s.fin.x - s.start.x) ^ 2 + (s.fin.y - s.start.y) ^ 2))
    ≤ |(a.fin.x - a.start.x) * (s.fin.y - s.start.y) - (a.fin.y - a.start.y) * (s.fin.x - s.start.x)|

theorem norm_pos_of_ne (a : Segment) (h : a.start ≠ a.fin) : 0 < (a.fin.sub a.start).norm := by
  unfold V2.norm V2.sub
  apply Real.sqrt_pos.2
  by_contra hc
  apply h
  have h1 := mul_self_nonneg (a.fin.x - a.start.x)
  have h2 := mul_self_nonneg (a.fin.y - a.start.y)
  have e1 : a.fin.x - a.start.x = 0 := mul_self_eq_zero.1 (by linarith)
  have e2 : a.fin.y - a.start.y = 0 := mul_self_eq_zero.1 (by linarith)
  apply V2.ext <;> linarith

theorem nonParallel_symm {a s : Segment} (h : NonParallel a s) : NonParallel s a := by
  obtain ⟨h1, h2, h3⟩ := h
  refine ⟨h2, h1, ?_⟩
  rw [mul_comm (Real.sqrt _) (Real.sqrt _)]
  refine h3.trans (le_of_eq ?_)
  rw [← abs_neg]
  congr 1
  ring

theorem nonParallel_not {a s : Segment} (h : NonParallel a s) : a.isParallel s segEps = false := by
  obtain ⟨h1, h2, h3⟩ := h
  have p1 := norm_pos_of_ne a h1
  have p2 := norm_pos_of_ne s h2
  have hp := mul_pos p1 p2
  unfold Segment.isParallel
  simp only
  rw [if_neg hp.ne']
  apply decide_eq_false
  rw [not_lt, le_div_iff₀ hp]
  simp only [V2.norm, V2.sub, ← pow_two] at h3 ⊢
  exact h3

/-- The code accepts (does not raise on) a pair of non-degenerate segments exactly when
they are `NonParallel`. -/
theorem isParallel_iff (a s : Segment) (ha : a.start ≠ a.fin) (hs : s.start ≠ s.fin) :
    a.isParallel s segEps = false ↔ NonParallel a s := by
  refine ⟨fun h => ⟨ha, hs, ?_⟩, nonParallel_not⟩
  have hp := mul_pos (norm_pos_of_ne a ha) (norm_pos_of_ne s hs)
  unfold Segment.isParallel at h
  simp only at h
  rw [if_neg hp.ne'] at h
  have h := of_decide_eq_false h
  rw [not_lt, le_div_iff₀ hp] at h
  simp only [V2.norm, V2.sub, ← pow_two] at h ⊢
  exact h

/-- Cross product of the directions. -/
def detOf (a s : Segment) : ℝ :=
  (a.fin.x - a.start.x) * (s.fin.y - s.start.y) - (a.fin.y - a.start.y) * (s.fin.x - s.start.x)

theorem det_ne {a s : Segment} (h : NonParallel a s) : detOf a s ≠ 0 := by
  obtain ⟨h1, h2, h3⟩ := h
  have p1 := norm_pos_of_ne a h1
  have p2 := norm_pos_of_ne s h2
  have hp := mul_pos p1 p2
  simp only [V2.norm, V2.sub, ← pow_two] at hp
  intro h0
  unfold detOf at h0
  rw [h0, abs_zero] at h3
  have : 0 < segEps := by unfold segEps; norm_num
  exact absurd (mul_pos this hp) (not_lt.2 h3)

/-- The lambdas are the parameters, on both lines, of their unique common point. -/
theorem lambdas_spec {a s : Segment} (h : NonParallel a s) : ∃ l m, a.getLambdas s = .ok (some (l, m)) ∧
    (∃ p, a.At l p ∧ s.At m p) ∧ ∀ l' m' p, a.At l' p → s.At m' p → l' = l ∧ m' = m := by
  have hd := det_ne h
  refine ⟨((s.fin.y - s.start.y) * (s.start.x - a.start.x) + (s.fin.x - s.start.x) * (a.start.y - s.start.y)) / detOf a s,
    ((a.fin.y - a.start.y) * (s.start.x - a.start.x) + (a.fin.x - a.start.x) * (a.start.y - s.start.y)) / detOf a s, ?_, ?_, ?_⟩
  · unfold Segment.getLambdas
    rw [nonParallel_not h]
    simp only [V2.sub, Bool.false_eq_true, if_false]
    have hd' : ¬ ((a.fin.x - a.start.x) * (s.fin.y - s.start.y) - (a.fin.y - a.start.y) * (s.fin.x - s.start.x) = 0) := hd
    exact (if_neg hd').trans rfl
  · refine ⟨⟨_, _⟩, ⟨rfl, rfl⟩, ?_, ?_⟩
    · simp only
      field_simp
      unfold detOf
      ring
    · simp only
      field_simp
      unfold detOf
      ring
  · intro l m p ⟨h1, h2⟩ ⟨h3, h4⟩
    have hx : (1 - l) * a.start.x + l * a.fin.x = (1 - m) * s.start.x + m * s.fin.x := h1.symm.trans h3
    have hy : (1 - l) * a.start.y + l * a.fin.y = (1 - m) * s.start.y + m * s.fin.y := h2.symm.trans h4
    constructor
    · rw [eq_div_iff hd]
      unfold detOf
      linear_combination (s.fin.y - s.start.y) * hx - (s.fin.x - s.start.x) * hy
    · rw [eq_div_iff hd]
      unfold detOf
      linear_combination (a.fin.y - a.start.y) * hx - (a.fin.x - a.start.x) * hy

/-- **C35 (intersection point).** The point returned is the unique common point of the
two supporting lines. -/
theorem C35_lines_intersection {a s : Segment} (h : NonParallel a s) :
    ∃ p, a.linesIntersection s = .ok (some p) ∧ ∀ q, (a.OnLine q ∧ s.OnLine q) ↔ q = p := by
  obtain ⟨l, m, hl, ⟨p, hp1, hp2⟩, hu⟩ := lambdas_spec h
  refine ⟨p, ?_, fun q => ⟨?_, ?_⟩⟩
  · unfold Segment.linesIntersection
    rw [hl]
    show Except.ok (some _) = _
    congr 2
    apply V2.ext
    · simp only [V2.sub]; rw [hp1.1]; ring
    · simp only [V2.sub]; rw [hp1.2]; ring
  · rintro ⟨⟨l', h1⟩, m', h2⟩
    obtain ⟨e1, -⟩ := hu l' m' q h1 h2
    subst e1
    exact V2.ext (h1.1.trans hp1.1.symm) (h1.2.trans hp1.2.symm)
  · rintro rfl
    exact ⟨⟨l, hp1⟩, m, hp2⟩

/-- **C35 (line_pass_through).** -/
theorem C35_line_pass_through {a s : Segment} (h : NonParallel a s) :
    ∃ b, a.linePassThrough s = .ok b ∧ (b = true ↔ ∃ p, a.OnSegment p ∧ s.OnLine p) := by
  obtain ⟨l, m, hl, ⟨p, hp1, hp2⟩, hu⟩ := lambdas_spec h
  refine ⟨_, by unfold Segment.linePassThrough; rw [hl]; rfl, ?_⟩
  simp only [Bool.and_eq_true, decide_eq_true_eq]
  constructor
  · rintro ⟨h0, h1⟩
    exact ⟨p, ⟨l, h0, h1, hp1⟩, m, hp2⟩
  · rintro ⟨q, ⟨l', h0, h1, h2⟩, m', h3⟩
    obtain ⟨rfl, -⟩ := hu l' m' q h2 h3
    exact ⟨h0, h1⟩

/-- **C35 (intersects).** True exactly when the two closed segments share a point. -/
theorem C35_intersects {a s : Segment} (h : NonParallel a s) :
    ∃ b, a.intersects s = .ok b ∧ (b = true ↔ ∃ p, a.OnSegment p ∧ s.OnSegment p) := by
  obtain ⟨b1, hb1, i1⟩ := C35_line_pass_through h
  obtain ⟨b2, hb2, i2⟩ := C35_line_pass_through (nonParallel_symm h)
  obtain ⟨l, m, -, -, hu⟩ := lambdas_spec h
  have hcode : a.intersects s = .ok (b1 && b2) := by
    unfold Segment.intersects
    rw [nonParallel_not h]
    simp only [Bool.false_eq_true, if_false]
    rw [hb1]
    cases b1
    · rfl
    · show (do if (true : Bool) then s.linePassThrough a else pure false) = _
      rw [if_pos rfl, hb2]; rfl
  refine ⟨b1 && b2, hcode, ?_⟩
  rw [Bool.and_eq_true, i1, i2]
  constructor
  · rintro ⟨⟨p, ⟨l1, h1, h2, h3⟩, m1, h4⟩, q, ⟨m2, h5, h6, h7⟩, l2, h8⟩
    obtain ⟨e1, e2⟩ := hu _ _ _ h3 h4
    obtain ⟨e3, e4⟩ := hu _ _ _ h8 h7
    refine ⟨p, ⟨l1, h1, h2, h3⟩, m2, h5, h6, ?_⟩
    rw [e4, ← e2]; exact h4
  · rintro ⟨p, ⟨l1, h1, h2, h3⟩, m1, h4, h5, h6⟩
    exact ⟨⟨p, ⟨l1, h1, h2, h3⟩, m1, h6⟩, p, ⟨m1, h4, h5, h6⟩, l1, h3⟩

/-- **C36, partial.** What `s1.half_line_pass_through(s2)` decides: whether the half-line
of *s2* meets the segment *s1*. The documented claim is the one with the roles
exchanged; it is false (`C36_refuted`). -/
theorem C36_half_line_partial {a s : Segment} (h : NonParallel a s) :
    ∃ b, a.halfLinePassThrough s = .ok b ∧ (b = true ↔ ∃ p, a.OnSegment p ∧ s.OnHalfLine p) := by
  obtain ⟨l, m, hl, ⟨p, hp1, hp2⟩, hu⟩ := lambdas_spec h
  refine ⟨_, by unfold Segment.halfLinePassThrough; rw [hl]; rfl, ?_⟩
  simp only [Bool.and_eq_true, decide_eq_true_eq]
  constructor
  · rintro ⟨⟨h0, h1⟩, h2⟩
    exact ⟨p, ⟨l, h0, h1, hp1⟩, m, h2, hp2⟩
  · rintro ⟨q, ⟨l', h0, h1, h2⟩, m', h4, h3⟩
    obtain ⟨rfl, rfl⟩ := hu l' m' q h2 h3
    exact ⟨⟨h0, h1⟩, h4⟩

/-- Horizontal unit segment from the origin, and a vertical segment at abscissa 5. -/
def segA : Segment := ⟨⟨0, 0⟩, ⟨1, 0⟩⟩
def segB : Segment := ⟨⟨5, -1⟩, ⟨5, 1⟩⟩

theorem segAB : NonParallel segA segB := by
  refine ⟨by simp [segA], by norm_num [segB], ?_⟩
  have h1 : Real.sqrt ((segA.fin.x - segA.start.x) ^ 2 + (segA.fin.y - segA.start.y) ^ 2) = 1 := by norm_num [segA]
  have h2 : Real.sqrt ((segB.fin.x - segB.start.x) ^ 2 + (segB.fin.y - segB.start.y) ^ 2) = 2 := by
    have : (segB.fin.x - segB.start.x) ^ 2 + (segB.fin.y - segB.start.y) ^ 2 = 2 ^ 2 := by norm_num [segB]
    rw [this]; exact Real.sqrt_sq (by norm_num)
  rw [h1, h2]
  norm_num [segA, segB, segEps]

/-- **C36, refuted.** The half-line of `segA` meets `segB`, yet the code answers false. -/
theorem C36_refuted : segA.halfLinePassThrough segB = .ok false ∧
    ∃ p, segA.OnHalfLine p ∧ segB.OnSegment p := by
  constructor
  · obtain ⟨b, hb, hi⟩ := C36_half_line_partial segAB
    rw [hb]
    congr 1
    cases b with
    | false => rfl
    | true =>
      obtain ⟨p, ⟨l, h0, h1, h2, -⟩, m, -, h4, -⟩ := hi.1 rfl
      norm_num [segA, segB] at h2 h4
      linarith
  · exact ⟨⟨5, 0⟩, ⟨5, by norm_num, by norm_num [segA], by norm_num [segA]⟩,
      1 / 2, by norm_num, by norm_num, by norm_num [segB], by norm_num [segB]⟩

/-- Non-vacuity of C35. -/
example : ∃ b, segA.intersects segB = .ok b ∧ (b = true ↔ ∃ p, segA.OnSegment p ∧ segB.OnSegment p) :=
  C35_intersects segAB

/-- Parallel (within the tolerance) segments raise, for every query. -/
theorem C35_parallel_raises (a s : Segment) (h : a.isParallel s segEps = true) :
    a.getLambdas s = .error .runtimeError ∧ a.linePassThrough s = .error .runtimeError ∧
    a.halfLinePassThrough s = .error .runtimeError ∧ a.linesIntersection s = .error .runtimeError ∧
    a.intersects s = .error .runtimeError := by
  have hl : a.getLambdas s = .error .runtimeError := by unfold Segment.getLambdas; rw [if_pos h]
  refine ⟨hl, ?_, ?_, ?_, ?_⟩
  · unfold Segment.linePassThrough; rw [hl]; rfl
  · unfold Segment.halfLinePassThrough; rw [hl]; rfl
  · unfold Segment.linesIntersection; rw [hl]; rfl
  · unfold Segment.intersects; rw [if_pos h]

end Verif.Tools
