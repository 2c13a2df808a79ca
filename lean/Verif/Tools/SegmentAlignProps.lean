/-
The alignment tests of segments (C136).
-/
import Verif.Tools.SegmentProps

namespace Verif.Tools

/-- Specification: the distance between two points. -/
noncomputable def distance (p q : V2) : ℝ := Real.sqrt ((q.x - p.x) ^ 2 + (q.y - p.y) ^ 2)

/-- Specification: twice the signed area of the triangle `o`, `p`, `q`. -/
def area (o p q : V2) : ℝ := (p.x - o.x) * (q.y - o.y) - (p.y - o.y) * (q.x - o.x)

theorem norm_sub (p q : V2) : (q.sub p).norm = distance p q := by
  unfold V2.norm V2.sub distance
  simp only [pow_two]

theorem distance_nonneg (p q : V2) : 0 ≤ distance p q := Real.sqrt_nonneg _

theorem distance_comm (p q : V2) : distance p q = distance q p := by
  unfold distance
  congr 1
  ring

theorem distance_sq (p q : V2) : distance p q ^ 2 = (q.x - p.x) ^ 2 + (q.y - p.y) ^ 2 :=
  Real.sq_sqrt (by positivity)

theorem distance_pos {p q : V2} (h : p ≠ q) : 0 < distance p q := by
  rw [← norm_sub]
  exact norm_pos_of_ne ⟨p, q⟩ h

theorem distance_self (p : V2) : distance p p = 0 := by
  unfold distance
  simp

/-- What `is_parallel` decides: two segments of non-zero lengths, whose angle has a sine below `epsilon`. -/
theorem parallel_exact (a s : Segment) (epsilon : ℝ) : a.isParallel s epsilon = true ↔ a.start ≠ a.fin ∧ s.start ≠ s.fin ∧
    |(a.fin.x - a.start.x) * (s.fin.y - s.start.y) - (a.fin.y - a.start.y) * (s.fin.x - s.start.x)|
      < epsilon * (distance a.start a.fin * distance s.start s.fin) := by
  unfold Segment.isParallel
  simp only [norm_sub]
  by_cases h1 : a.start = a.fin
  · rw [h1, distance_self, zero_mul, if_pos rfl]
    simp
  by_cases h2 : s.start = s.fin
  · rw [h2, distance_self, mul_zero, if_pos rfl]
    simp
  have hp := mul_pos (distance_pos h1) (distance_pos h2)
  rw [if_neg hp.ne', decide_eq_true_eq, div_lt_iff₀ hp]
  simp only [h1, h2, ne_eq, not_false_eq_true, true_and, V2.sub]

/-- **C136 (points).** For every tolerance, `is_point_aligned` is true exactly for the points at less than `epsilon` of the
start, and for those seen from the start at an angle with the segment whose sine is below `epsilon`. -/
theorem C136_point (a : Segment) (p : V2) (epsilon : ℝ) (he : 0 < epsilon) : a.isPointAligned p epsilon = true ↔
    distance a.start p < epsilon ∨
      (a.start ≠ a.fin ∧ |area a.start a.fin p| < epsilon * (distance a.start a.fin * distance a.start p)) := by
  unfold Segment.isPointAligned
  rw [norm_sub, abs_of_nonneg (distance_nonneg _ _), distance_comm]
  by_cases h : distance a.start p < epsilon
  · rw [if_pos h]; simp [h]
  · rw [if_neg h, parallel_exact]
    have hne : a.start ≠ p := by
      rintro e
      rw [← e, distance_self] at h
      exact h he
    simp only [h, hne, ne_eq, not_false_eq_true, true_and, false_or, area]

theorem at_area {a : Segment} {l : ℝ} {p : V2} (h : a.At l p) : area a.start a.fin p = 0 := by
  unfold area
  rw [h.1, h.2]
  ring

/-- **C136 (lines).** Every point of the supporting line is aligned, and a segment of the supporting line as well. -/
theorem C136_line (a : Segment) (hne : a.start ≠ a.fin) (epsilon : ℝ) (he : 0 < epsilon) :
    (∀ p, a.OnLine p → a.isPointAligned p epsilon = true) ∧
    (∀ s : Segment, a.OnLine s.start → a.OnLine s.fin → a.isSegmentAligned s epsilon = true) := by
  have key : ∀ p, a.OnLine p → a.isPointAligned p epsilon = true := by
    rintro p ⟨l, hl⟩
    rw [C136_point a p epsilon he]
    by_cases h : a.start = p
    · left; rw [h, distance_self]; exact he
    · right
      rw [at_area hl, abs_zero]
      exact ⟨hne, mul_pos he (mul_pos (distance_pos hne) (distance_pos h))⟩
  refine ⟨key, fun s h1 h2 => ?_⟩
  unfold Segment.isSegmentAligned
  rw [key _ h1, key _ h2]
  rfl

/-- **C136 (segments), partial.** What `is_segment_aligned` decides: both ends are aligned. Missing: that the segments are then
collinear up to the tolerance, whichever of the two is asked, which is false (`C136_refuted`). -/
theorem C136_segment_partial (a s : Segment) (epsilon : ℝ) : a.isSegmentAligned s epsilon = true ↔
    a.isPointAligned s.start epsilon = true ∧ a.isPointAligned s.fin epsilon = true := by
  unfold Segment.isSegmentAligned
  rw [Bool.and_eq_true]

theorem in_segment_iff (a : Segment) (p : V2) (epsilon : ℝ) (he : 0 < epsilon) : a.isPointInSegment p epsilon = true ↔
    a.isPointAligned p epsilon = true ∧
      0 ≤ (a.fin.x - a.start.x) * (p.x - a.start.x) + (a.fin.y - a.start.y) * (p.y - a.start.y) ∧
      (a.fin.x - a.start.x) * (p.x - a.start.x) + (a.fin.y - a.start.y) * (p.y - a.start.y) ≤ distance a.start a.fin ^ 2 := by
  have h0 : a.isPointAligned a.start epsilon = true := by
    rw [C136_point a _ epsilon he, distance_self]
    exact Or.inl he
  unfold Segment.isPointInSegment
  rw [distance_sq]
  simp only [Bool.and_eq_true, C136_segment_partial, h0, true_and, V2.dot, V2.sub, pow_two]
  exact ⟨fun ⟨x, y, z⟩ => ⟨x, of_decide_eq_true y, of_decide_eq_true z⟩,
    fun ⟨x, y, z⟩ => ⟨x, decide_eq_true y, decide_eq_true z⟩⟩

/-- The distance of a point to its projection on the line. -/
theorem projection_distance (a : Segment) (hne : a.start ≠ a.fin) (p : V2) (l : ℝ)
    (hl : l * distance a.start a.fin ^ 2
      = (a.fin.x - a.start.x) * (p.x - a.start.x) + (a.fin.y - a.start.y) * (p.y - a.start.y)) :
    distance ⟨(1 - l) * a.start.x + l * a.fin.x, (1 - l) * a.start.y + l * a.fin.y⟩ p * distance a.start a.fin
      = |area a.start a.fin p| := by
  have hd := distance_pos hne
  rw [← abs_of_nonneg (mul_nonneg (distance_nonneg _ _) hd.le), ← sq_eq_sq_iff_abs_eq_abs, mul_pow, distance_sq]
  rw [distance_sq] at hl ⊢
  unfold area
  simp only
  generalize hx : a.fin.x - a.start.x = vx at hl ⊢
  generalize hy : a.fin.y - a.start.y = vy at hl ⊢
  have ex : p.x - ((1 - l) * a.start.x + l * a.fin.x) = (p.x - a.start.x) - l * vx := by rw [← hx]; ring
  have ey : p.y - ((1 - l) * a.start.y + l * a.fin.y) = (p.y - a.start.y) - l * vy := by rw [← hy]; ring
  rw [ex, ey]
  generalize p.x - a.start.x = X at hl ⊢
  generalize p.y - a.start.y = Y at hl ⊢
  linear_combination (l * (vx ^ 2 + vy ^ 2) - (vx * X + vy * Y)) * hl

/-- **C136 (points of the segment).** Every point of the segment is found; and a point that is found is near a point of the
segment, at less than `epsilon` times its distance to the start (or times 1). -/
theorem C136_in_segment (a : Segment) (hne : a.start ≠ a.fin) (p : V2) (epsilon : ℝ) (he : 0 < epsilon) :
    (a.OnSegment p → a.isPointInSegment p epsilon = true) ∧
    (a.isPointInSegment p epsilon = true → ∃ q, a.OnSegment q ∧ distance q p < epsilon * max 1 (distance a.start p)) := by
  have hd := distance_pos hne
  have hsq := distance_sq a.start a.fin
  constructor
  · rintro ⟨l, l0, l1, hl⟩
    rw [in_segment_iff a p epsilon he]
    have e : (a.fin.x - a.start.x) * (p.x - a.start.x) + (a.fin.y - a.start.y) * (p.y - a.start.y)
        = l * distance a.start a.fin ^ 2 := by
      rw [hsq, hl.1, hl.2]; ring
    refine ⟨(C136_line a hne epsilon he).1 p ⟨l, hl⟩, ?_, ?_⟩
    · rw [e]; positivity
    · rw [e]; nlinarith [pow_pos hd 2]
  · intro h
    rw [in_segment_iff a p epsilon he, C136_point a p epsilon he] at h
    obtain ⟨h | ⟨-, h⟩, h0, h1⟩ := h
    · refine ⟨a.start, ⟨0, le_rfl, zero_le_one, by ring, by ring⟩, h.trans_le ?_⟩
      have := le_max_left 1 (distance a.start p)
      nlinarith
    · generalize hc : (a.fin.x - a.start.x) * (p.x - a.start.x) + (a.fin.y - a.start.y) * (p.y - a.start.y) = c at h0 h1
      have hd2 := pow_pos hd 2
      refine ⟨⟨(1 - c / distance a.start a.fin ^ 2) * a.start.x + c / distance a.start a.fin ^ 2 * a.fin.x,
        (1 - c / distance a.start a.fin ^ 2) * a.start.y + c / distance a.start a.fin ^ 2 * a.fin.y⟩,
        ⟨c / distance a.start a.fin ^ 2, by positivity, (div_le_one hd2).2 h1, rfl, rfl⟩, ?_⟩
      have hl : c / distance a.start a.fin ^ 2 * distance a.start a.fin ^ 2
          = (a.fin.x - a.start.x) * (p.x - a.start.x) + (a.fin.y - a.start.y) * (p.y - a.start.y) := by
        rw [hc]; field_simp
      rw [← projection_distance a hne p _ hl] at h
      refine (lt_of_mul_lt_mul_right (h.trans_eq ?_) hd.le : _ < epsilon * distance a.start p).trans_le ?_
      · ring
      exact mul_le_mul_of_nonneg_left (le_max_right _ _) he.le

/-- The segment from the origin to `(1, 0)`, and a segment at a right angle with it, a million times farther. -/
def farSegment : Segment := ⟨⟨1000000, -5⟩, ⟨1000000, 5⟩⟩

/-- **C136 is false** of `is_segment_aligned`, documented as true when the segments are collinear: the tolerance is on the
angles under which the ends are seen from the start, so two perpendicular segments are aligned when they are far from each
other; and the answer depends on the order of the segments. -/
theorem C136_refuted : segA.isSegmentAligned farSegment segEps = true ∧ farSegment.isSegmentAligned segA segEps = false ∧
    (segA.fin.x - segA.start.x) * (farSegment.fin.x - farSegment.start.x)
      + (segA.fin.y - segA.start.y) * (farSegment.fin.y - farSegment.start.y) = 0 := by
  have he : 0 < segEps := by unfold segEps; norm_num
  have d1 : distance segA.start segA.fin = 1 := by
    unfold distance segA
    norm_num
  have d2 : ∀ y : ℝ, 1000000 ≤ distance segA.start ⟨1000000, y⟩ := by
    intro y
    unfold distance
    apply Real.le_sqrt_of_sq_le
    have : segA.start = ⟨0, 0⟩ := rfl
    rw [this]
    simp only
    nlinarith [sq_nonneg y]
  have key : ∀ y : ℝ, |y| ≤ 5 → segA.isPointAligned ⟨1000000, y⟩ segEps = true := by
    intro y hy
    rw [C136_point _ _ _ he]
    right
    refine ⟨by simp [segA], ?_⟩
    rw [d1]
    have : area segA.start segA.fin ⟨1000000, y⟩ = y := by unfold area segA; simp
    rw [this]
    have := d2 y
    unfold segEps
    linarith
  refine ⟨?_, ?_, by norm_num [segA, farSegment]⟩
  · rw [C136_segment_partial]
    exact ⟨key (-5) (by norm_num), key 5 (by norm_num)⟩
  · rw [Bool.eq_false_iff]
    intro h
    rw [C136_segment_partial, C136_point _ _ _ he] at h
    obtain ⟨h | ⟨-, h⟩, -⟩ := h
    · have := d2 (-5)
      rw [distance_comm] at this
      have h : distance ⟨1000000, -5⟩ segA.start < segEps := h
      unfold segEps at h
      linarith
    · have e1 : area farSegment.start farSegment.fin segA.start = 10000000 := by unfold area segA farSegment; norm_num
      have e2 : distance farSegment.start farSegment.fin = 10 := by
        unfold distance farSegment
        rw [show ((1000000 : ℝ) - 1000000) ^ 2 + (5 - -5) ^ 2 = 10 ^ 2 by norm_num]
        exact Real.sqrt_sq (by norm_num)
      have e3 : distance farSegment.start segA.start < 2000000 := by
        unfold distance farSegment segA
        rw [Real.sqrt_lt' (by norm_num)]
        norm_num
      rw [e1, e2] at h
      unfold segEps at h
      rw [abs_of_pos (by norm_num)] at h
      linarith

/-- The middle of a segment is found. -/
example : segA.isPointInSegment ⟨1 / 2, 0⟩ segEps = true :=
  (C136_in_segment segA (by simp [segA]) _ segEps (by unfold segEps; norm_num)).1
    ⟨1 / 2, by norm_num, by norm_num, by norm_num [segA], by norm_num [segA]⟩

/-- A point after the end is not. -/
example : segA.isPointInSegment ⟨2, 0⟩ segEps = false := by
  rw [Bool.eq_false_iff]
  intro h
  rw [in_segment_iff _ _ _ (by unfold segEps; norm_num)] at h
  have d1 : distance segA.start segA.fin = 1 := by
    unfold distance segA
    norm_num
  obtain ⟨-, -, h⟩ := h
  rw [d1] at h
  norm_num [segA] at h

end Verif.Tools
