/-
Property C128: interpolation of frames.
-/
import Verif.Robot.Slerp
import Verif.Robot.BaseProps
import Mathlib.Analysis.SpecialFunctions.Trigonometric.Bounds

namespace Verif.Robot
open Verif.Tools

/-- The rotation of angle `a` about the unit vector `u` (Rodrigues' formula). -/
noncomputable def turn (u : V3) (a : ℝ) : M3 :=
  let c := Real.cos a
  let s := Real.sin a
  !![c + (1 - c) * u 0 * u 0, (1 - c) * u 0 * u 1 - s * u 2, (1 - c) * u 0 * u 2 + s * u 1;
     (1 - c) * u 1 * u 0 + s * u 2, c + (1 - c) * u 1 * u 1, (1 - c) * u 1 * u 2 - s * u 0;
     (1 - c) * u 2 * u 0 - s * u 1, (1 - c) * u 2 * u 1 + s * u 0, c + (1 - c) * u 2 * u 2]

/-- The product of quaternions. -/
def Quat.mul (p q : Quat) : Quat :=
  ⟨p.w * q.x + p.x * q.w + p.y * q.z - p.z * q.y, p.w * q.y - p.x * q.z + p.y * q.w + p.z * q.x,
    p.w * q.z + p.x * q.y - p.y * q.x + p.z * q.w, p.w * q.w - p.x * q.x - p.y * q.y - p.z * q.z⟩

theorem toMatrix_mul (p q : Quat) (hp : p.Unit) (hq : q.Unit) : (p.mul q).toMatrix = p.toMatrix * q.toMatrix := by
  unfold Quat.Unit at hp hq
  obtain ⟨a, b, c, d⟩ := p
  obtain ⟨x, y, z, w⟩ := q
  simp only at hp hq
  apply matrix_eq <;>
    simp only [Quat.toMatrix, Quat.mul, Matrix.mul_apply, Fin.sum_univ_three, Matrix.of_apply, Matrix.cons_val', Matrix.cons_val_zero,
      Matrix.cons_val_one, Matrix.cons_val] <;> grind

theorem toMatrix_turn (u : V3) (hu : u 0 * u 0 + u 1 * u 1 + u 2 * u 2 = 1) (h : ℝ) :
    (⟨Real.sin h * u 0, Real.sin h * u 1, Real.sin h * u 2, Real.cos h⟩ : Quat).toMatrix = turn u (2 * h) := by
  have hs := Real.sin_sq_add_cos_sq h
  have h2 : Real.cos (2 * h) = 1 - 2 * Real.sin h ^ 2 := by rw [Real.cos_two_mul]; linarith
  have h3 := Real.sin_two_mul h
  unfold turn
  simp only [h2, h3]
  generalize Real.sin h = s at *
  generalize Real.cos h = c at *
  generalize u 0 = x at *
  generalize u 1 = y at *
  generalize u 2 = z at *
  apply matrix_eq <;>
    simp only [Quat.toMatrix, Matrix.of_apply, Matrix.cons_val', Matrix.cons_val_zero, Matrix.cons_val_one, Matrix.cons_val] <;>
    grind

theorem toMatrix_neg (p : Quat) : (⟨-p.x, -p.y, -p.z, -p.w⟩ : Quat).toMatrix = p.toMatrix := by
  apply matrix_eq <;>
    simp only [Quat.toMatrix, Matrix.of_apply, Matrix.cons_val', Matrix.cons_val_zero, Matrix.cons_val_one, Matrix.cons_val] <;> ring

/-- The quaternion `(a + b u) q`. -/
def along (u : V3) (q : Quat) (a b : ℝ) : Quat := (⟨b * u 0, b * u 1, b * u 2, a⟩ : Quat).mul q

theorem along_comb (u : V3) (q : Quat) (a b c d s r : ℝ) :
    Quat.comb s (along u q a b) r (along u q c d) = along u q (s * a + r * c) (s * b + r * d) := by
  unfold Quat.comb along Quat.mul
  ext <;> simp only <;> ring

theorem along_one (u : V3) (q : Quat) : along u q 1 0 = q := by
  unfold along Quat.mul
  ext <;> simp

theorem along_norm (u : V3) (hu : u 0 * u 0 + u 1 * u 1 + u 2 * u 2 = 1) (q : Quat) (hq : q.Unit) (a b : ℝ) :
    (along u q a b).x ^ 2 + (along u q a b).y ^ 2 + (along u q a b).z ^ 2 + (along u q a b).w ^ 2 = a ^ 2 + b ^ 2 := by
  unfold Quat.Unit at hq
  unfold along Quat.mul
  simp only
  linear_combination (a ^ 2 + b ^ 2) * hq + b ^ 2 * (q.x ^ 2 + q.y ^ 2 + q.z ^ 2 + q.w ^ 2) * hu

theorem along_turn (u : V3) (hu : u 0 * u 0 + u 1 * u 1 + u 2 * u 2 = 1) (q : Quat) (hq : q.Unit) (h : ℝ) :
    (along u q (Real.cos h) (Real.sin h)).toMatrix = turn u (2 * h) * q.toMatrix := by
  have hr : (⟨Real.sin h * u 0, Real.sin h * u 1, Real.sin h * u 2, Real.cos h⟩ : Quat).Unit := by
    unfold Quat.Unit
    simp only
    linear_combination Real.sin h ^ 2 * hu + Real.sin_sq_add_cos_sq h
  rw [along, toMatrix_mul _ _ hr hq, toMatrix_turn u hu]

/-- The second quaternion, up to its sign, is the first one turned about some axis. -/
theorem exists_axis (p q : Quat) (hp : p.Unit) (hq : q.Unit) :
    ∃ u : V3, u 0 * u 0 + u 1 * u 1 + u 2 * u 2 = 1 ∧ |p.dot q| ≤ 1 ∧
      (if p.dot q < 0 then (⟨-q.x, -q.y, -q.z, -q.w⟩ : Quat) else q) =
        along u p (Real.cos (Real.arccos |p.dot q|)) (Real.sin (Real.arccos |p.dot q|)) := by
  unfold Quat.Unit at hp hq
  obtain ⟨q', hq', hd, he⟩ : ∃ q' : Quat, q'.x ^ 2 + q'.y ^ 2 + q'.z ^ 2 + q'.w ^ 2 = 1 ∧ p.dot q' = |p.dot q| ∧
      (if p.dot q < 0 then (⟨-q.x, -q.y, -q.z, -q.w⟩ : Quat) else q) = q' := by
    by_cases h : p.dot q < 0
    · refine ⟨⟨-q.x, -q.y, -q.z, -q.w⟩, by simp only; linear_combination hq, ?_, if_pos h⟩
      rw [abs_of_neg h]; unfold Quat.dot; ring
    · exact ⟨q, hq, (abs_of_nonneg (not_lt.1 h)).symm, if_neg h⟩
  rw [he, ← hd]
  set d := p.dot q' with hdd
  -- the relative quaternion
  let v : V3 := ![-(q'.w * p.x) + q'.x * p.w - q'.y * p.z + q'.z * p.y, -(q'.w * p.y) + q'.x * p.z + q'.y * p.w - q'.z * p.x,
    -(q'.w * p.z) - q'.x * p.y + q'.y * p.x + q'.z * p.w]
  have hv : v 0 * v 0 + v 1 * v 1 + v 2 * v 2 = 1 - d ^ 2 := by
    rw [hdd]
    simp only [v, Quat.dot, Matrix.cons_val_zero, Matrix.cons_val_one, Matrix.cons_val]
    linear_combination (q'.x ^ 2 + q'.y ^ 2 + q'.z ^ 2 + q'.w ^ 2) * hp + hq'
  have hd2 : d ^ 2 ≤ 1 := by nlinarith [mul_self_nonneg (v 0), mul_self_nonneg (v 1), mul_self_nonneg (v 2)]
  have hd1 : |d| ≤ 1 := (sq_le_one_iff_abs_le_one _).1 hd2
  obtain ⟨h1, h2⟩ := abs_le.1 hd1
  rw [Real.cos_arccos h1 h2, Real.sin_arccos]
  have hs : Real.sqrt (1 - d ^ 2) * Real.sqrt (1 - d ^ 2) = 1 - d ^ 2 := Real.mul_self_sqrt (by linarith)
  obtain ⟨u, hu, huv⟩ : ∃ u : V3, u 0 * u 0 + u 1 * u 1 + u 2 * u 2 = 1 ∧ ∀ i, Real.sqrt (1 - d ^ 2) * u i = v i := by
    by_cases h0 : Real.sqrt (1 - d ^ 2) = 0
    · refine ⟨![1, 0, 0], by simp, fun i => ?_⟩
      rw [h0, zero_mul] at hs
      rw [← hs] at hv
      obtain ⟨a, b, c⟩ := three_squares (hv.trans (mul_zero 0).symm)
      rw [h0, zero_mul]
      fin_cases i
      · exact a.symm
      · exact b.symm
      · exact c.symm
    · refine ⟨fun i => v i / Real.sqrt (1 - d ^ 2), ?_, fun i => by field_simp⟩
      field_simp
      nlinarith
  refine ⟨u, hu, h2, ?_⟩
  have v0 := huv 0
  have v1 := huv 1
  have v2 := huv 2
  simp only [v, Matrix.cons_val_zero, Matrix.cons_val_one, Matrix.cons_val] at v0 v1 v2
  unfold along Quat.mul
  rw [v0, v1, v2, hdd]
  unfold Quat.dot
  ext <;> simp only
  · linear_combination (-q'.x) * hp
  · linear_combination (-q'.y) * hp
  · linear_combination (-q'.z) * hp
  · linear_combination (-q'.w) * hp

theorem slerp_along (eps : ℝ) (p q : Quat) (u : V3)
    (h : (if p.dot q < 0 then (⟨-q.x, -q.y, -q.z, -q.w⟩ : Quat) else q) =
        along u p (Real.cos (Real.arccos |p.dot q|)) (Real.sin (Real.arccos |p.dot q|))) (t : ℝ) :
    (|p.dot q| < 1 - eps → Real.sin (Real.arccos |p.dot q|) ≠ 0 →
      p.slerp eps t q = along u p (Real.cos (t * Real.arccos |p.dot q|)) (Real.sin (t * Real.arccos |p.dot q|))) ∧
    (1 - eps ≤ |p.dot q| → p.slerp eps t q =
      along u p (1 - t + t * Real.cos (Real.arccos |p.dot q|)) (t * Real.sin (Real.arccos |p.dot q|))) := by
  have key : ∀ s r : ℝ, Quat.comb s p (if p.dot q < 0 then -r else r) q =
      along u p (s + r * Real.cos (Real.arccos |p.dot q|)) (r * Real.sin (Real.arccos |p.dot q|)) := by
    intro s r
    have e : Quat.comb s p (if p.dot q < 0 then -r else r) q =
        Quat.comb s p r (if p.dot q < 0 then (⟨-q.x, -q.y, -q.z, -q.w⟩ : Quat) else q) := by
      by_cases hd : p.dot q < 0
      · rw [if_pos hd, if_pos hd]
        unfold Quat.comb
        ext <;> simp only <;> ring
      · rw [if_neg hd, if_neg hd]
    rw [e, h]
    have := along_comb u p 1 0 (Real.cos (Real.arccos |p.dot q|)) (Real.sin (Real.arccos |p.dot q|)) s r
    rw [along_one] at this
    rw [this]
    congr 1 <;> ring
  unfold Quat.slerp
  constructor
  · intro hn hs
    simp only [if_neg (not_le.2 hn)]
    rw [key]
    generalize Real.arccos |p.dot q| = θ at *
    have h1 : Real.sin ((1 - t) * θ) = Real.sin θ * Real.cos (t * θ) - Real.cos θ * Real.sin (t * θ) := by
      rw [show (1 - t) * θ = θ - t * θ by ring, Real.sin_sub]
    rw [h1]
    congr 1 <;> field_simp <;> ring
  · intro hn
    simp only [if_pos hn]
    rw [key]

/-- The trace of the relative rotation, and the product of the quaternions. -/
theorem trace_dot (p q : Quat) (hp : p.Unit) (hq : q.Unit) :
    (q.toMatrix * p.toMatrix.transpose).trace = 4 * (p.dot q) ^ 2 - 1 := by
  unfold Quat.Unit at hp hq
  unfold Quat.toMatrix Quat.dot Matrix.trace
  simp only [Matrix.mul_apply, Fin.sum_univ_three, Matrix.transpose_apply, Matrix.of_apply, Matrix.cons_val', Matrix.cons_val_zero,
    Matrix.cons_val_one, Matrix.cons_val, Matrix.diag_apply]
  grind

/-- The entries of the matrices of two quaternions of norm at most 1 differ by at most eight times the distance of the quaternions. -/
theorem toMatrix_close (p q : Quat) (δ : ℝ) (hp : p.x ^ 2 + p.y ^ 2 + p.z ^ 2 + p.w ^ 2 ≤ 1) (hq : q.x ^ 2 + q.y ^ 2 + q.z ^ 2 + q.w ^ 2 ≤ 1)
    (hx : |p.x - q.x| ≤ δ) (hy : |p.y - q.y| ≤ δ) (hz : |p.z - q.z| ≤ δ) (hw : |p.w - q.w| ≤ δ) (i j : Fin 3) :
    |p.toMatrix i j - q.toMatrix i j| ≤ 8 * δ := by
  have hδ : 0 ≤ δ := (abs_nonneg _).trans hx
  have one : ∀ a b c d : ℝ, a ^ 2 + b ^ 2 + c ^ 2 + d ^ 2 ≤ 1 → |a| ≤ 1 := fun a b c d h =>
    (sq_le_one_iff_abs_le_one _).1 (by nlinarith [sq_nonneg b, sq_nonneg c, sq_nonneg d])
  have px := one p.x p.y p.z p.w hp
  have py := one p.y p.x p.z p.w (by linarith)
  have pz := one p.z p.x p.y p.w (by linarith)
  have pw := one p.w p.x p.y p.z (by linarith)
  have qx := one q.x q.y q.z q.w hq
  have qy := one q.y q.x q.z q.w (by linarith)
  have qz := one q.z q.x q.y q.w (by linarith)
  have qw := one q.w q.x q.y q.z (by linarith)
  have prod : ∀ a b c d : ℝ, |a| ≤ 1 → |d| ≤ 1 → |a - c| ≤ δ → |b - d| ≤ δ → |a * b - c * d| ≤ 2 * δ := by
    intro a b c d ha hd h1 h2
    have e : a * b - c * d = a * (b - d) + (a - c) * d := by ring
    rw [e]
    refine (abs_add_le _ _).trans ?_
    rw [abs_mul, abs_mul]
    nlinarith [abs_nonneg a, abs_nonneg (b - d), abs_nonneg (a - c), abs_nonneg d]
  have xx := abs_le.1 (prod _ _ _ _ px qx hx hx)
  have yy := abs_le.1 (prod _ _ _ _ py qy hy hy)
  have zz := abs_le.1 (prod _ _ _ _ pz qz hz hz)
  have xy := abs_le.1 (prod _ _ _ _ px qy hx hy)
  have xz := abs_le.1 (prod _ _ _ _ px qz hx hz)
  have yz := abs_le.1 (prod _ _ _ _ py qz hy hz)
  have wx := abs_le.1 (prod _ _ _ _ pw qx hw hx)
  have wy := abs_le.1 (prod _ _ _ _ pw qy hw hy)
  have wz := abs_le.1 (prod _ _ _ _ pw qz hw hz)
  rw [abs_le]
  fin_cases i <;> fin_cases j <;>
    simp [Quat.toMatrix] <;> constructor <;> linarith [xx.1, xx.2, yy.1, yy.2, zz.1, zz.2, xy.1, xy.2, xz.1, xz.2, yz.1, yz.2, wx.1, wx.2, wy.1, wy.2, wz.1, wz.2]

theorem along_close (u : V3) (hu : u 0 * u 0 + u 1 * u 1 + u 2 * u 2 = 1) (p : Quat) (hp : p.Unit) (a b c s e : ℝ)
    (hab : a ^ 2 + b ^ 2 ≤ 1) (hcs : c ^ 2 + s ^ 2 ≤ 1) (h : (a - c) ^ 2 + (b - s) ^ 2 ≤ e) (i j : Fin 3) :
    |(along u p a b).toMatrix i j - (along u p c s).toMatrix i j| ≤ 8 * Real.sqrt e := by
  have hn := along_norm u hu p hp (a - c) (b - s)
  have hdiff : along u p (a - c) (b - s) = ⟨(along u p a b).x - (along u p c s).x, (along u p a b).y - (along u p c s).y,
      (along u p a b).z - (along u p c s).z, (along u p a b).w - (along u p c s).w⟩ := by
    unfold along Quat.mul
    ext <;> simp only <;> ring
  have n1 := along_norm u hu p hp a b
  have n2 := along_norm u hu p hp c s
  rw [hdiff] at hn
  simp only at hn
  generalize along u p a b = P at *
  generalize along u p c s = Q at *
  have le : ∀ x : ℝ, x ^ 2 ≤ e → |x| ≤ Real.sqrt e := fun x h => Real.abs_le_sqrt h
  have hx := sq_nonneg (P.x - Q.x)
  have hy := sq_nonneg (P.y - Q.y)
  have hz := sq_nonneg (P.z - Q.z)
  have hw := sq_nonneg (P.w - Q.w)
  exact toMatrix_close _ _ _ (by linarith) (by linarith) (le _ (by linarith)) (le _ (by linarith)) (le _ (by linarith))
    (le _ (by linarith)) i j

/-- **C128.** For two rotations `A` and `B`, there are a unit axis and an angle of at most a half turn such that `B` is `A` turned by this
angle about this axis (the shortest rotation), and the interpolated orientation is `A` turned about this axis by the fraction `t` of
this angle; it is `A` for 0 and `B` for 1. When `A` and `B` are so close that the trace of the relative rotation is at least
`4 (1 - eps)² - 1`, the quaternions are interpolated linearly: it is still `A` for 0 and `B` for 1, and in between the
coefficients are within `8 √(2 eps)` of the coefficients of that rotation. -/
theorem C128 (eps : ℝ) (he : 0 < eps) (he1 : eps ≤ 1) (A B : M3) (hA : IsRotation A) (hB : IsRotation B) :
    slerp eps A B 0 = A ∧ slerp eps A B 1 = B ∧
    ∃ (u : V3) (a : ℝ), u 0 * u 0 + u 1 * u 1 + u 2 * u 2 = 1 ∧ 0 ≤ a ∧ a ≤ Real.pi ∧ B = turn u a * A ∧
      ((B * A.transpose).trace < 4 * (1 - eps) ^ 2 - 1 → ∀ t, slerp eps A B t = turn u (t * a) * A) ∧
      (4 * (1 - eps) ^ 2 - 1 ≤ (B * A.transpose).trace → ∀ t, 0 ≤ t → t ≤ 1 → ∀ i j,
        |slerp eps A B t i j - (turn u (t * a) * A) i j| ≤ 8 * Real.sqrt (2 * eps)) := by
  obtain ⟨hp, ep⟩ := ofMatrix_spec A hA
  obtain ⟨hq, eq⟩ := ofMatrix_spec B hB
  set p := Quat.ofMatrix A
  set q := Quat.ofMatrix B
  obtain ⟨u, hu, hd1, hax⟩ := exists_axis p q hp hq
  have hsl := slerp_along eps p q u hax
  set d := |p.dot q| with hd
  have hd0 : 0 ≤ d := abs_nonneg _
  set θ := Real.arccos d with hθ
  have hcos : Real.cos θ = d := Real.cos_arccos (by linarith) hd1
  have hθ0 : 0 ≤ θ := Real.arccos_nonneg d
  have hθ1 : θ ≤ Real.pi / 2 := Real.arccos_le_pi_div_two.2 hd0
  have hBt : B = turn u (2 * θ) * A := by
    rw [← ep, ← along_turn u hu p hp, ← hax, ← eq]
    by_cases h : p.dot q < 0
    · rw [if_pos h, toMatrix_neg]
    · rw [if_neg h]
  have htr : (B * A.transpose).trace = 4 * d ^ 2 - 1 := by
    rw [← eq, ← ep, trace_dot p q hp hq, hd, sq_abs]
  have hnear : ∀ x, x ≤ d → 0 ≤ x → x ^ 2 ≤ d ^ 2 := fun x h1 h2 => by nlinarith
  have hfar : (B * A.transpose).trace < 4 * (1 - eps) ^ 2 - 1 → d < 1 - eps := by
    intro h
    rw [htr] at h
    by_contra hn
    have := hnear (1 - eps) (not_lt.1 hn) (by linarith)
    linarith
  have hclose : 4 * (1 - eps) ^ 2 - 1 ≤ (B * A.transpose).trace → 1 - eps ≤ d := by
    intro h
    rw [htr] at h
    by_contra hn
    have h1 : d ^ 2 < (1 - eps) ^ 2 := by nlinarith [not_le.1 hn]
    linarith
  have hsin : d < 1 - eps → Real.sin θ ≠ 0 := by
    intro h
    rw [hθ, Real.sin_arccos]
    have : 0 < 1 - d ^ 2 := by nlinarith
    exact (Real.sqrt_pos.2 this).ne'
  have hval : ∀ t, (d < 1 - eps → slerp eps A B t = turn u (t * (2 * θ)) * A) ∧
      (1 - eps ≤ d → slerp eps A B t = (along u p (1 - t + t * Real.cos θ) (t * Real.sin θ)).toMatrix) := by
    intro t
    refine ⟨fun h => ?_, fun h => ?_⟩
    · show (p.slerp eps t q).toMatrix = _
      rw [(hsl t).1 h (hsin h), along_turn u hu p hp, ep]
      congr 2; ring
    · show (p.slerp eps t q).toMatrix = _
      rw [(hsl t).2 h]
  have turn0 : turn u 0 = 1 := by
    unfold turn
    apply matrix_eq <;> simp
  refine ⟨?_, ?_, u, 2 * θ, hu, by linarith, by linarith, hBt, fun h t => (hval t).1 (hfar h), fun h t h0 h1 i j => ?_⟩
  · rcases lt_or_ge d (1 - eps) with h | h
    · rw [(hval 0).1 h, zero_mul, turn0, one_mul]
    · rw [(hval 0).2 h]
      simp only [zero_mul, sub_zero, add_zero]
      rw [along_one, ep]
  · rcases lt_or_ge d (1 - eps) with h | h
    · rw [(hval 1).1 h, one_mul, ← hBt]
    · rw [(hval 1).2 h]
      simp only [one_mul, sub_self, zero_add]
      rw [along_turn u hu p hp, ep, ← hBt]
  · rw [(hval t).2 (hclose h)]
    have e2 : turn u (t * (2 * θ)) * A = (along u p (Real.cos (t * θ)) (Real.sin (t * θ))).toMatrix := by
      rw [along_turn u hu p hp, ep]; congr 2; ring
    rw [e2]
    have hc1 : d ≤ Real.cos (t * θ) := by
      rw [← hcos]
      exact Real.cos_le_cos_of_nonneg_of_le_pi (by positivity) (by linarith [Real.pi_pos]) (by nlinarith)
    have hc2 : d ≤ Real.cos ((1 - t) * θ) := by
      rw [← hcos]
      exact Real.cos_le_cos_of_nonneg_of_le_pi (mul_nonneg (by linarith) hθ0) (by linarith [Real.pi_pos]) (by nlinarith)
    have hc3 : Real.cos ((1 - t) * θ) = Real.cos θ * Real.cos (t * θ) + Real.sin θ * Real.sin (t * θ) := by
      rw [show (1 - t) * θ = θ - t * θ by ring, Real.cos_sub]
    have s1 := Real.sin_sq_add_cos_sq θ
    have s2 := Real.sin_sq_add_cos_sq (t * θ)
    have hdc := hclose h
    set a := 1 - t + t * Real.cos θ with ha
    set b := t * Real.sin θ with hb
    set c := Real.cos (t * θ)
    set s := Real.sin (t * θ)
    have hab : a ^ 2 + b ^ 2 ≤ 1 := by
      have : a ^ 2 + b ^ 2 = 1 - 2 * t * (1 - t) * (1 - d) := by
        rw [ha, hb, hcos]
        rw [hcos] at s1
        linear_combination t ^ 2 * s1
      rw [this]
      have : 0 ≤ t * (1 - t) * (1 - d) := mul_nonneg (mul_nonneg h0 (by linarith)) (by linarith)
      linarith
    have hdot : d ≤ a * c + b * s := by
      have : a * c + b * s = (1 - t) * c + t * Real.cos ((1 - t) * θ) := by rw [hc3, ha, hb]; ring
      rw [this]
      nlinarith
    have hdist : (a - c) ^ 2 + (b - s) ^ 2 ≤ 2 * eps := by nlinarith
    exact along_close u hu p hp a b c s _ hab (by linarith) hdist i j

/-- The hypotheses: the epsilon of doubles, and a quarter of a turn. -/
example : (0 : ℝ) < 1 / 2 ^ 52 ∧ (1 : ℝ) / 2 ^ 52 ≤ 1 ∧ IsRotation (1 : M3) ∧ IsRotation (rotZ (Real.pi / 2)) ∧
    (rotZ (Real.pi / 2) * (1 : M3).transpose).trace < 4 * (1 - 1 / 2 ^ 52) ^ 2 - 1 := by
  refine ⟨by norm_num, by norm_num, isRotation_one, rotZ_isRotation _, ?_⟩
  simp [rotZ, Matrix.trace, Fin.sum_univ_three]
  norm_num

end Verif.Robot
