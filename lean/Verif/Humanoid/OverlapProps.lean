/-
C79: overlap of footsteps.
-/
import Verif.Humanoid.ClipProps

namespace Verif.Humanoid
open Verif.Tools Verif.Robot

/-! ## Specification -/

/-- The foot is flat on a horizontal ground, with the given yaw. -/
def Flat (f : Footstep) (yaw : ℝ) : Prop := f.frame.linear = rotZ yaw

/-- The point is in the rectangle of the foot, grown by the margin. -/
def InRect (f : Footstep) (m : ℝ) (pt : V2) : Prop :=
  ∃ u v, |u| ≤ m + f.length / 2 ∧ |v| ≤ m + f.width / 2 ∧
    pt.x = f.frame.linear 0 0 * u + f.frame.linear 0 1 * v + f.frame.translation 0 ∧
    pt.y = f.frame.linear 1 0 * u + f.frame.linear 1 1 * v + f.frame.translation 1

/-- The rectangle has a non-empty interior. -/
def Solid (f : Footstep) (m : ℝ) : Prop := 0 < m + f.length / 2 ∧ 0 < m + f.width / 2

/-! ## `polygon_contains` on a foot -/

theorem planar_eq (T : Affine) (x y : ℝ) :
    planar T x y = ⟨T.linear 0 0 * x + T.linear 0 1 * y + T.translation 0, T.linear 1 0 * x + T.linear 1 1 * y + T.translation 1⟩ := by
  simp [planar, Matrix.mulVec, dotProduct, Fin.sum_univ_three]

theorem neg_iff {k x : ℝ} (hk : 0 < k) : 2 * k * x < 0 ↔ x < 0 := by
  constructor
  · intro h; by_contra hx; rw [not_lt] at hx; exact absurd h (not_lt.2 (by positivity))
  · intro h; nlinarith

/-- `polygon_contains` on the polygon of a flat foot says whether the point is in the rectangle. -/
theorem contains_iff (f : Footstep) (yaw m : ℝ) (hf : Flat f yaw) (hs : Solid f m) (pt : V2) :
    polygonContains (f.computePolygon m) pt = .ok true ↔ InRect f m pt := by
  obtain ⟨hA, hB⟩ := hs
  have h00 : f.frame.linear 0 0 = Real.cos yaw := by rw [hf]; rfl
  have h01 : f.frame.linear 0 1 = -Real.sin yaw := by rw [hf]; rfl
  have h10 : f.frame.linear 1 0 = Real.sin yaw := by rw [hf]; rfl
  have h11 : f.frame.linear 1 1 = Real.cos yaw := by rw [hf]; rfl
  have hcs := Real.sin_sq_add_cos_sq yaw
  generalize hA' : m + f.length / 2 = A at hA
  generalize hB' : m + f.width / 2 = B at hB
  generalize Real.cos yaw = c at *
  generalize Real.sin yaw = s at *
  obtain ⟨x, y⟩ := pt
  generalize htx : f.frame.translation 0 = tx
  generalize hty : f.frame.translation 1 = ty
  -- the local coordinates of the point
  obtain ⟨u, hu⟩ : ∃ u, u = c * (x - tx) + s * (y - ty) := ⟨_, rfl⟩
  obtain ⟨v, hv⟩ : ∃ v, v = -s * (x - tx) + c * (y - ty) := ⟨_, rfl⟩
  have hx : x = c * u - s * v + tx := by rw [hu, hv]; linear_combination (tx - x) * hcs
  have hy : y = s * u + c * v + ty := by rw [hu, hv]; linear_combination (ty - y) * hcs
  have hrect : InRect f m ⟨x, y⟩ ↔ |u| ≤ A ∧ |v| ≤ B := by
    unfold InRect
    rw [hA', hB', h00, h01, h10, h11, htx, hty]
    constructor
    · rintro ⟨u', v', h1, h2, h3, h4⟩
      simp only at h3 h4
      have e1 : u = u' := by rw [hu]; linear_combination c * h3 + s * h4 + u' * hcs
      have e2 : v = v' := by rw [hv]; linear_combination -s * h3 + c * h4 + v' * hcs
      rw [e1, e2]; exact ⟨h1, h2⟩
    · rintro ⟨h1, h2⟩
      exact ⟨u, v, h1, h2, by simp only; linarith, by simp only; linarith⟩
  rw [hrect, abs_le, abs_le]
  unfold polygonContains Footstep.computePolygon
  simp only [List.map, List.getLast?_cons, List.getLast?_nil, Option.getD, Except.ok.injEq, planar_eq, hA', hB', h00, h01, h10, h11,
    htx, hty, containsLoop, V2.sub, V2.dot]
  have e1 : (s * (-1 * A) + c * (1 * B) + ty - (s * (-1 * A) + c * (-1 * B) + ty)) * (x - (c * (-1 * A) + -s * (-1 * B) + tx))
      + -(c * (-1 * A) + -s * (1 * B) + tx - (c * (-1 * A) + -s * (-1 * B) + tx)) * (y - (s * (-1 * A) + c * (-1 * B) + ty))
      = 2 * B * (u + A) := by
    rw [hx, hy]; linear_combination (2 * B * (u + A)) * hcs
  have e2 : (s * (1 * A) + c * (1 * B) + ty - (s * (-1 * A) + c * (1 * B) + ty)) * (x - (c * (-1 * A) + -s * (1 * B) + tx))
      + -(c * (1 * A) + -s * (1 * B) + tx - (c * (-1 * A) + -s * (1 * B) + tx)) * (y - (s * (-1 * A) + c * (1 * B) + ty))
      = 2 * A * (B - v) := by
    rw [hx, hy]; linear_combination (2 * A * (B - v)) * hcs
  have e3 : (s * (1 * A) + c * (-1 * B) + ty - (s * (1 * A) + c * (1 * B) + ty)) * (x - (c * (1 * A) + -s * (1 * B) + tx))
      + -(c * (1 * A) + -s * (-1 * B) + tx - (c * (1 * A) + -s * (1 * B) + tx)) * (y - (s * (1 * A) + c * (1 * B) + ty))
      = 2 * B * (A - u) := by
    rw [hx, hy]; linear_combination (2 * B * (A - u)) * hcs
  have e4 : (s * (-1 * A) + c * (-1 * B) + ty - (s * (1 * A) + c * (-1 * B) + ty)) * (x - (c * (1 * A) + -s * (-1 * B) + tx))
      + -(c * (-1 * A) + -s * (-1 * B) + tx - (c * (1 * A) + -s * (-1 * B) + tx)) * (y - (s * (1 * A) + c * (-1 * B) + ty))
      = 2 * A * (v + B) := by
    rw [hx, hy]; linear_combination (2 * A * (v + B)) * hcs
  simp only [e1, e2, e3, e4]
  have p1 : 2 * B * (u + A) < 0 ↔ ¬ -A ≤ u := (neg_iff hB).trans ⟨fun h => by linarith, fun h => by linarith⟩
  have p2 : 2 * A * (B - v) < 0 ↔ ¬ v ≤ B := (neg_iff hA).trans ⟨fun h => by linarith, fun h => by linarith⟩
  have p3 : 2 * B * (A - u) < 0 ↔ ¬ u ≤ A := (neg_iff hB).trans ⟨fun h => by linarith, fun h => by linarith⟩
  have p4 : 2 * A * (v + B) < 0 ↔ ¬ -B ≤ v := (neg_iff hA).trans ⟨fun h => by linarith, fun h => by linarith⟩
  simp only [p1, p2, p3, p4]
  by_cases q1 : -A ≤ u <;> by_cases q2 : v ≤ B <;> by_cases q3 : u ≤ A <;> by_cases q4 : -B ≤ v <;> simp [q1, q2, q3, q4]

theorem anyIn_iff (poly : List V2) (hp : poly ≠ []) : ∀ pts, (anyIn poly pts = .ok true ↔ ∃ pt ∈ pts, polygonContains poly pt = .ok true) ∧
    (anyIn poly pts = .ok false ↔ ∀ pt ∈ pts, polygonContains poly pt = .ok false)
  | [] => by simp [anyIn]
  | pt :: pts => by
    have ih := anyIn_iff poly hp pts
    obtain ⟨b, hb⟩ : ∃ b, polygonContains poly pt = .ok b := by
      unfold polygonContains
      cases h : poly.getLast? with
      | none => exact absurd (List.getLast?_eq_none_iff.1 h) hp
      | some l => exact ⟨_, rfl⟩
    rw [anyIn, hb]
    cases b
    · simp only [Bind.bind, Except.bind, Bool.false_eq_true, if_false, ih.1, ih.2, List.mem_cons, exists_eq_or_imp, hb,
        forall_eq_or_imp, true_and, Except.ok.injEq, false_or, and_self]
    · simp [Bind.bind, Except.bind, hb]

/-- The corners of the rectangle. -/
def IsCorner (f : Footstep) (m : ℝ) (pt : V2) : Prop := pt ∈ f.computePolygon m

/-- `overlap` looks at the corners only. -/
theorem overlap_iff (f g : Footstep) (m : ℝ) : f.overlap g m = .ok true ↔
    (∃ pt, IsCorner f m pt ∧ polygonContains (g.computePolygon m) pt = .ok true) ∨
    (∃ pt, IsCorner g m pt ∧ polygonContains (f.computePolygon m) pt = .ok true) := by
  have hf : f.computePolygon m ≠ [] := by simp [Footstep.computePolygon]
  have hg : g.computePolygon m ≠ [] := by simp [Footstep.computePolygon]
  obtain ⟨b, hb⟩ := anyIn_ok g m (f.computePolygon m)
  have h1 := (anyIn_iff _ hg (f.computePolygon m)).1
  have h2 := (anyIn_iff _ hf (g.computePolygon m)).1
  unfold Footstep.overlap IsCorner
  rw [← h1, ← h2]
  simp only [hb]
  cases b
  · simp [Bind.bind, Except.bind]
  · simp [Bind.bind, Except.bind]

theorem corner_inRect (f : Footstep) (m : ℝ) (hs : Solid f m) (pt : V2) (h : IsCorner f m pt) : InRect f m pt := by
  obtain ⟨hA, hB⟩ := hs
  unfold IsCorner Footstep.computePolygon at h
  simp only [List.map, planar_eq, List.mem_cons, List.not_mem_nil, or_false] at h
  have a1 : |m + f.length / 2| ≤ m + f.length / 2 := (abs_of_pos hA).le
  have b1 : |m + f.width / 2| ≤ m + f.width / 2 := (abs_of_pos hB).le
  rcases h with rfl | rfl | rfl | rfl
  · exact ⟨-1 * (m + f.length / 2), 1 * (m + f.width / 2), by rw [abs_mul]; simpa using a1, by rw [abs_mul]; simpa using b1, rfl, rfl⟩
  · exact ⟨1 * (m + f.length / 2), 1 * (m + f.width / 2), by rw [abs_mul]; simpa using a1, by rw [abs_mul]; simpa using b1, rfl, rfl⟩
  · exact ⟨1 * (m + f.length / 2), -1 * (m + f.width / 2), by rw [abs_mul]; simpa using a1, by rw [abs_mul]; simpa using b1, rfl, rfl⟩
  · exact ⟨-1 * (m + f.length / 2), -1 * (m + f.width / 2), by rw [abs_mul]; simpa using a1, by rw [abs_mul]; simpa using b1, rfl, rfl⟩

/-! ## C79 -/

/-- **C79** (symmetry, for all pairs). -/
theorem C79_symmetric (f g : Footstep) (m : ℝ) : f.overlap g m = g.overlap f m := by
  obtain ⟨b, hb⟩ := overlap_ok f g m
  obtain ⟨b', hb'⟩ := overlap_ok g f m
  have h1 := overlap_iff f g m
  have h2 := overlap_iff g f m
  have h3 : f.overlap g m = .ok true ↔ g.overlap f m = .ok true := by rw [h1, h2]; exact Or.comm
  rw [hb, hb'] at h3 ⊢
  cases b <;> cases b' <;> simp_all

/-- **C79, exactly what is detected** (flat feet, any yaws): a corner of one foot in the rectangle of the other. -/
theorem C79_exact (f g : Footstep) (a b m : ℝ) (hf : Flat f a) (hg : Flat g b) (hsf : Solid f m) (hsg : Solid g m) :
    f.overlap g m = .ok true ↔
      (∃ pt, IsCorner f m pt ∧ InRect g m pt) ∨ (∃ pt, IsCorner g m pt ∧ InRect f m pt) := by
  rw [overlap_iff]
  simp only [contains_iff f a m hf hsf, contains_iff g b m hg hsg]

/-- **C79, soundness** (flat feet, any yaws): a reported overlap is one. -/
theorem C79_sound (f g : Footstep) (a b m : ℝ) (hf : Flat f a) (hg : Flat g b) (hsf : Solid f m) (hsg : Solid g m)
    (h : f.overlap g m = .ok true) : ∃ pt, InRect f m pt ∧ InRect g m pt := by
  rcases (C79_exact f g a b m hf hg hsf hsg).1 h with ⟨pt, h1, h2⟩ | ⟨pt, h1, h2⟩
  · exact ⟨pt, corner_inRect f m hsf pt h1, h2⟩
  · exact ⟨pt, h2, corner_inRect g m hsg pt h1⟩

theorem sign_choice {d A : ℝ} (h1 : d ≤ 2 * A) (h2 : -(2 * A) ≤ d) : ∃ e : ℝ, (e = 1 ∨ e = -1) ∧ |d + e * A| ≤ A := by
  rcases le_total 0 d with h | h
  · exact ⟨-1, Or.inr rfl, abs_le.2 ⟨by linarith, by linarith⟩⟩
  · exact ⟨1, Or.inl rfl, abs_le.2 ⟨by linarith, by linarith⟩⟩

theorem corner_of (f : Footstep) (m e1 e2 : ℝ) (h1 : e1 = 1 ∨ e1 = -1) (h2 : e2 = 1 ∨ e2 = -1) :
    IsCorner f m ⟨f.frame.linear 0 0 * (e1 * (m + f.length / 2)) + f.frame.linear 0 1 * (e2 * (m + f.width / 2)) + f.frame.translation 0,
      f.frame.linear 1 0 * (e1 * (m + f.length / 2)) + f.frame.linear 1 1 * (e2 * (m + f.width / 2)) + f.frame.translation 1⟩ := by
  unfold IsCorner Footstep.computePolygon
  simp only [List.map, planar_eq, List.mem_cons, List.not_mem_nil, or_false]
  rcases h1 with rfl | rfl <;> rcases h2 with rfl | rfl <;> simp

/-- **C79_partial.** Missing: feet with different yaws or sizes, for which an overlap can be missed (`C79_refuted`). For two
flat feet with the same yaw and size, an overlap is reported exactly when the two rectangles intersect. -/
theorem C79_partial (f g : Footstep) (a m : ℝ) (hf : Flat f a) (hg : Flat g a) (hs : Solid f m)
    (hl : g.length = f.length) (hw : g.width = f.width) :
    f.overlap g m = .ok true ↔ ∃ pt, InRect f m pt ∧ InRect g m pt := by
  have hsg : Solid g m := by unfold Solid; rw [hl, hw]; exact hs
  refine ⟨C79_sound f g a a m hf hg hs hsg, ?_⟩
  rintro ⟨pt, ⟨u, v, hu, hv, hx, hy⟩, ⟨u', v', hu', hv', hx', hy'⟩⟩
  rw [C79_exact f g a a m hf hg hs hsg]
  left
  rw [hl] at hu'
  rw [hw] at hv'
  have f00 : f.frame.linear 0 0 = Real.cos a := by rw [hf]; rfl
  have f01 : f.frame.linear 0 1 = -Real.sin a := by rw [hf]; rfl
  have f10 : f.frame.linear 1 0 = Real.sin a := by rw [hf]; rfl
  have f11 : f.frame.linear 1 1 = Real.cos a := by rw [hf]; rfl
  have g00 : g.frame.linear 0 0 = Real.cos a := by rw [hg]; rfl
  have g01 : g.frame.linear 0 1 = -Real.sin a := by rw [hg]; rfl
  have g10 : g.frame.linear 1 0 = Real.sin a := by rw [hg]; rfl
  have g11 : g.frame.linear 1 1 = Real.cos a := by rw [hg]; rfl
  rw [abs_le] at hu hv hu' hv'
  obtain ⟨e1, he1, hd1⟩ := sign_choice (d := u' - u) (A := m + f.length / 2) (by linarith) (by linarith)
  obtain ⟨e2, he2, hd2⟩ := sign_choice (d := v' - v) (A := m + f.width / 2) (by linarith) (by linarith)
  refine ⟨_, corner_of f m e1 e2 he1 he2, u' - u + e1 * (m + f.length / 2), v' - v + e2 * (m + f.width / 2), ?_, ?_, ?_, ?_⟩
  · rw [hl]; exact hd1
  · rw [hw]; exact hd2
  · simp only
    rw [f00, f01] at hx ⊢
    rw [g00, g01] at hx' ⊢
    linear_combination hx' - hx
  · simp only
    rw [f10, f11] at hy ⊢
    rw [g10, g11] at hy' ⊢
    linear_combination hy' - hy

theorem rotZ_zero : rotZ 0 = 1 := by
  ext i j; fin_cases i <;> fin_cases j <;> simp [rotZ]

/-- A foot of the default size at the origin. -/
noncomputable def foot0 : Footstep := ({} : Params).createFootstep .left ⟨rotZ 0, 0⟩

/-- The same, turned by a quarter turn. -/
noncomputable def foot90 : Footstep := ({} : Params).createFootstep .right ⟨rotZ (Real.pi / 2), 0⟩

/-- **C79 is false of the code.** Two crossed feet of the default size, with the same centre: each of the rectangles cuts
through the other, and no overlap is reported. -/
theorem C79_refuted : ∃ (f g : Footstep) (a b m : ℝ), Flat f a ∧ Flat g b ∧ Solid f m ∧ Solid g m ∧
    (∃ pt, InRect f m pt ∧ InRect g m pt) ∧ f.overlap g m = .ok false := by
  have hs : Solid foot0 0 := by unfold Solid foot0 Params.createFootstep; norm_num
  have hs' : Solid foot90 0 := by unfold Solid foot90 Params.createFootstep; norm_num
  refine ⟨foot0, foot90, 0, Real.pi / 2, 0, rfl, rfl, hs, hs', ⟨⟨0, 0⟩, ?_, ?_⟩, ?_⟩
  · exact ⟨0, 0, by rw [abs_zero]; exact hs.1.le, by rw [abs_zero]; exact hs.2.le, by simp [foot0, Params.createFootstep],
      by simp [foot0, Params.createFootstep]⟩
  · exact ⟨0, 0, by rw [abs_zero]; exact hs'.1.le, by rw [abs_zero]; exact hs'.2.le, by simp [foot90, Params.createFootstep],
      by simp [foot90, Params.createFootstep]⟩
  · obtain ⟨b, hb⟩ := overlap_ok foot0 foot90 0
    cases b
    · exact hb
    exfalso
    rcases (C79_exact foot0 foot90 0 (Real.pi / 2) 0 rfl rfl hs hs').1 hb with ⟨pt, hc, u, v, hu, hv, hx, hy⟩ | ⟨pt, hc, u, v, hu, hv, hx, hy⟩
    all_goals
      simp only [IsCorner, foot0, foot90, Params.createFootstep, Footstep.computePolygon, List.map, planar_eq, rotZ,
        Real.cos_pi_div_two, Real.sin_pi_div_two, Real.cos_zero, Real.sin_zero, List.mem_cons, List.not_mem_nil, or_false,
        Matrix.of_apply, Matrix.cons_val', Matrix.cons_val_zero, Matrix.cons_val_one, Matrix.cons_val_fin_one,
        Pi.zero_apply] at hc hu hv hx hy
      rw [abs_le] at hu hv
      rcases hc with rfl | rfl | rfl | rfl <;> simp only at hx hy <;> norm_num at hx hy hu hv <;> linarith

/-- Two feet side by side meet the hypotheses of C79_partial. -/
example : ∃ f g : Footstep, Flat f 0 ∧ Flat g 0 ∧ Solid f 0 ∧ g.length = f.length ∧ g.width = f.width ∧ g.frame ≠ f.frame :=
  ⟨foot0, ({} : Params).createFootstep .right ⟨rotZ 0, ![0, -15 / 100, 0]⟩, rfl, rfl,
    by unfold Solid foot0 Params.createFootstep; norm_num, rfl, rfl, by
      intro h
      have := congrFun (congrArg Affine.translation h) 1
      norm_num [foot0, Params.createFootstep] at this⟩

end Verif.Humanoid
