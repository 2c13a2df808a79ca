/-
The quintic swing of a foot does not depend on when or where it is, though its matrix is
made of absolute times.
  /repo/src/placo/humanoid/swing_foot_quintic.cpp 33-108
-/
import Mathlib.Tactic.LinearCombination
import Mathlib.Tactic.Ring
import Mathlib.Tactic.NormNum
import Verif.Humanoid.QuinticProps
import Verif.Humanoid.SwingMoveProps

namespace Verif.Humanoid
open Verif.Tools

/-- What the rows of the matrix say of the coefficients. -/
private theorem quintic_facts {ts te h : ℝ} {start target : Fin 3 → ℝ} {q : Quintic ℝ}
    (hq : Quintic.make ts te h start target = some q) :
    ts ≠ te ∧
    (∀ i, q.a i * ts ^ 5 + q.b i * ts ^ 4 + q.c i * ts ^ 3 + q.d i * ts ^ 2 + q.e i * ts + q.f i = start i) ∧
    (∀ i, q.a i * te ^ 5 + q.b i * te ^ 4 + q.c i * te ^ 3 + q.d i * te ^ 2 + q.e i * te + q.f i = target i) ∧
    (∀ i, 5 * q.a i * ts ^ 4 + 4 * q.b i * ts ^ 3 + 3 * q.c i * ts ^ 2 + 2 * q.d i * ts + q.e i = 0) ∧
    (∀ i, 5 * q.a i * te ^ 4 + 4 * q.b i * te ^ 3 + 3 * q.c i * te ^ 2 + 2 * q.d i * te + q.e i = 0) ∧
    (∀ i, i ≠ 2 → 20 * q.a i * ts ^ 3 + 12 * q.b i * ts ^ 2 + 6 * q.c i * ts + 2 * q.d i = 0) ∧
    (∀ i, i ≠ 2 → 20 * q.a i * te ^ 3 + 12 * q.b i * te ^ 2 + 6 * q.c i * te + 2 * q.d i = 0) ∧
    (∀ r, r = ts + (te - ts) / 4 ∨ r = ts + 3 * (te - ts) / 4 →
      q.a 2 * r ^ 5 + q.b 2 * r ^ 4 + q.c 2 * r ^ 3 + q.d 2 * r ^ 2 + q.e 2 * r + q.f 2 = h) := by
  have hne : ts ≠ te := by
    intro e
    rw [(C124 ts te h start target).2 e] at hq
    cases hq
  have hdet := quinticA_det ts te hne
  unfold Quintic.make at hq
  simp only [if_neg hdet] at hq
  set v := (quinticA ts te)⁻¹.mulVec (quinticB h start target) with hv
  have hA : (quinticA ts te).mulVec v = quinticB h start target := by
    rw [hv, Matrix.mulVec_mulVec, Matrix.mul_nonsing_inv _ (isUnit_iff_ne_zero.2 hdet), Matrix.one_mulVec]
  have row : ∀ i : Fin 18, ∑ j, quinticA ts te i j * v j = quinticB h start target i := fun i => congrFun hA i
  have x := quintic_rows ts te v 0 (by norm_num)
  have y := quintic_rows ts te v 1 (by norm_num)
  have z := quintic_rows ts te v 2 (by norm_num)
  cases hq
  refine ⟨hne, fun i => ?_, fun i => ?_, fun i => ?_, fun i => ?_, fun i hi => ?_, fun i hi => ?_, fun r hr => ?_⟩
  · fin_cases i
    · exact (x.1 ts).symm.trans (row 0)
    · exact (y.1 ts).symm.trans (row 1)
    · exact (z.1 ts).symm.trans (row 2)
  · fin_cases i
    · exact (x.1 te).symm.trans (row 3)
    · exact (y.1 te).symm.trans (row 4)
    · exact (z.1 te).symm.trans (row 5)
  · fin_cases i
    · exact (x.2.1 ts).symm.trans (row 6)
    · exact (y.2.1 ts).symm.trans (row 7)
    · exact (z.2.1 ts).symm.trans (row 8)
  · fin_cases i
    · exact (x.2.1 te).symm.trans (row 9)
    · exact (y.2.1 te).symm.trans (row 10)
    · exact (z.2.1 te).symm.trans (row 11)
  · have : i = 0 ∨ i = 1 := by fin_cases i <;> simp at hi ⊢
    rcases this with rfl | rfl
    · exact (x.2.2 ts).symm.trans (row 12)
    · exact (y.2.2 ts).symm.trans (row 13)
  · have : i = 0 ∨ i = 1 := by fin_cases i <;> simp at hi ⊢
    rcases this with rfl | rfl
    · exact (x.2.2 te).symm.trans (row 14)
    · exact (y.2.2 te).symm.trans (row 15)
  · rcases hr with rfl | rfl
    · exact (z.1 _).symm.trans (row 16)
    · exact (z.1 _).symm.trans (row 17)

/-- Six equalities of coefficients, given as vanishing differences, make the positions and
velocities agree: `P'(t + τ) = P(t)`. -/
private theorem shifted_eq {a b c d e f a' b' c' d' e' f' τ : ℝ}
    (h : a' - a = 0 ∧ b' + 5 * a' * τ - b = 0 ∧ c' + 4 * b' * τ + 10 * a' * τ ^ 2 - c = 0 ∧
      d' + 3 * c' * τ + 6 * b' * τ ^ 2 + 10 * a' * τ ^ 3 - d = 0 ∧
      e' + 2 * d' * τ + 3 * c' * τ ^ 2 + 4 * b' * τ ^ 3 + 5 * a' * τ ^ 4 - e = 0 ∧
      f' + e' * τ + d' * τ ^ 2 + c' * τ ^ 3 + b' * τ ^ 4 + a' * τ ^ 5 - f = 0) (t : ℝ) :
    a' * (t + τ) ^ 5 + b' * (t + τ) ^ 4 + c' * (t + τ) ^ 3 + d' * (t + τ) ^ 2 + e' * (t + τ) + f' =
      a * t ^ 5 + b * t ^ 4 + c * t ^ 3 + d * t ^ 2 + e * t + f ∧
    5 * a' * (t + τ) ^ 4 + 4 * b' * (t + τ) ^ 3 + 3 * c' * (t + τ) ^ 2 + 2 * d' * (t + τ) + e' =
      5 * a * t ^ 4 + 4 * b * t ^ 3 + 3 * c * t ^ 2 + 2 * d * t + e := by
  obtain ⟨h1, h2, h3, h4, h5, h6⟩ := h
  constructor
  · linear_combination h1 * t ^ 5 + h2 * t ^ 4 + h3 * t ^ 3 + h4 * t ^ 2 + h5 * t + h6
  · linear_combination 5 * h1 * t ^ 4 + 4 * h2 * t ^ 3 + 3 * h3 * t ^ 2 + 2 * h4 * t + h5

/-- Two horizontal coordinates with the same ends, the second one later by `τ`, agree. -/
private theorem shifted_flat {a b c d e f a' b' c' d' e' f' τ s u : ℝ} (hsu : s ≠ u)
    (h1 : a' * (s + τ) ^ 5 + b' * (s + τ) ^ 4 + c' * (s + τ) ^ 3 + d' * (s + τ) ^ 2 + e' * (s + τ) + f' =
      a * s ^ 5 + b * s ^ 4 + c * s ^ 3 + d * s ^ 2 + e * s + f)
    (h2 : 5 * a' * (s + τ) ^ 4 + 4 * b' * (s + τ) ^ 3 + 3 * c' * (s + τ) ^ 2 + 2 * d' * (s + τ) + e' =
      5 * a * s ^ 4 + 4 * b * s ^ 3 + 3 * c * s ^ 2 + 2 * d * s + e)
    (h3 : 20 * a' * (s + τ) ^ 3 + 12 * b' * (s + τ) ^ 2 + 6 * c' * (s + τ) + 2 * d' =
      20 * a * s ^ 3 + 12 * b * s ^ 2 + 6 * c * s + 2 * d)
    (h4 : a' * (u + τ) ^ 5 + b' * (u + τ) ^ 4 + c' * (u + τ) ^ 3 + d' * (u + τ) ^ 2 + e' * (u + τ) + f' =
      a * u ^ 5 + b * u ^ 4 + c * u ^ 3 + d * u ^ 2 + e * u + f)
    (h5 : 5 * a' * (u + τ) ^ 4 + 4 * b' * (u + τ) ^ 3 + 3 * c' * (u + τ) ^ 2 + 2 * d' * (u + τ) + e' =
      5 * a * u ^ 4 + 4 * b * u ^ 3 + 3 * c * u ^ 2 + 2 * d * u + e)
    (h6 : 20 * a' * (u + τ) ^ 3 + 12 * b' * (u + τ) ^ 2 + 6 * c' * (u + τ) + 2 * d' =
      20 * a * u ^ 3 + 12 * b * u ^ 2 + 6 * c * u + 2 * d) (t : ℝ) :
    a' * (t + τ) ^ 5 + b' * (t + τ) ^ 4 + c' * (t + τ) ^ 3 + d' * (t + τ) ^ 2 + e' * (t + τ) + f' =
      a * t ^ 5 + b * t ^ 4 + c * t ^ 3 + d * t ^ 2 + e * t + f ∧
    5 * a' * (t + τ) ^ 4 + 4 * b' * (t + τ) ^ 3 + 3 * c' * (t + τ) ^ 2 + 2 * d' * (t + τ) + e' =
      5 * a * t ^ 4 + 4 * b * t ^ 3 + 3 * c * t ^ 2 + 2 * d * t + e :=
  shifted_eq (quintic_hermite hsu (by linear_combination h1) (by linear_combination h2)
    (by linear_combination h3) (by linear_combination h4) (by linear_combination h5) (by linear_combination h6)) t

/-- Two heights with the same ends and plateau, the second one later by `τ`, agree. -/
private theorem shifted_high {a b c d e f a' b' c' d' e' f' τ s u : ℝ} (hsu : s ≠ u)
    (h1 : a' * (s + τ) ^ 5 + b' * (s + τ) ^ 4 + c' * (s + τ) ^ 3 + d' * (s + τ) ^ 2 + e' * (s + τ) + f' =
      a * s ^ 5 + b * s ^ 4 + c * s ^ 3 + d * s ^ 2 + e * s + f)
    (h2 : 5 * a' * (s + τ) ^ 4 + 4 * b' * (s + τ) ^ 3 + 3 * c' * (s + τ) ^ 2 + 2 * d' * (s + τ) + e' =
      5 * a * s ^ 4 + 4 * b * s ^ 3 + 3 * c * s ^ 2 + 2 * d * s + e)
    (h4 : a' * (u + τ) ^ 5 + b' * (u + τ) ^ 4 + c' * (u + τ) ^ 3 + d' * (u + τ) ^ 2 + e' * (u + τ) + f' =
      a * u ^ 5 + b * u ^ 4 + c * u ^ 3 + d * u ^ 2 + e * u + f)
    (h5 : 5 * a' * (u + τ) ^ 4 + 4 * b' * (u + τ) ^ 3 + 3 * c' * (u + τ) ^ 2 + 2 * d' * (u + τ) + e' =
      5 * a * u ^ 4 + 4 * b * u ^ 3 + 3 * c * u ^ 2 + 2 * d * u + e)
    (hr : ∀ r, r = s + (u - s) / 4 ∨ r = s + 3 * (u - s) / 4 →
      a' * (r + τ) ^ 5 + b' * (r + τ) ^ 4 + c' * (r + τ) ^ 3 + d' * (r + τ) ^ 2 + e' * (r + τ) + f' =
        a * r ^ 5 + b * r ^ 4 + c * r ^ 3 + d * r ^ 2 + e * r + f) (t : ℝ) :
    a' * (t + τ) ^ 5 + b' * (t + τ) ^ 4 + c' * (t + τ) ^ 3 + d' * (t + τ) ^ 2 + e' * (t + τ) + f' =
      a * t ^ 5 + b * t ^ 4 + c * t ^ 3 + d * t ^ 2 + e * t + f ∧
    5 * a' * (t + τ) ^ 4 + 4 * b' * (t + τ) ^ 3 + 3 * c' * (t + τ) ^ 2 + 2 * d' * (t + τ) + e' =
      5 * a * t ^ 4 + 4 * b * t ^ 3 + 3 * c * t ^ 2 + 2 * d * t + e :=
  shifted_eq (quintic_height hsu (by linear_combination h1) (by linear_combination h2)
    (by linear_combination h4) (by linear_combination h5)
    (by linear_combination hr _ (Or.inl rfl)) (by linear_combination hr _ (Or.inr rfl))) t

private theorem quintic_pos (q : Quintic ℝ) (t : ℝ) (i : Fin 3) : q.pos t i =
    q.a i * t ^ 5 + q.b i * t ^ 4 + q.c i * t ^ 3 + q.d i * t ^ 2 + q.e i * t + q.f i := by
  simp only [Quintic.pos]; ring

private theorem quintic_vel (q : Quintic ℝ) (t : ℝ) (i : Fin 3) : q.vel t i =
    5 * q.a i * t ^ 4 + 4 * q.b i * t ^ 3 + 3 * q.c i * t ^ 2 + 2 * q.d i * t + q.e i := by
  simp only [Quintic.vel]; ring

/-- C219: a quintic swing made later, between points turned about the vertical and moved
(its height moving with them), has finite coefficients in the same cases, and is then the
same one turned, moved and later. -/
theorem C219 (τ k l : ℝ) (m : Fin 3 → ℝ) (tStart tEnd height : ℝ) (start target : Fin 3 → ℝ) :
    (Quintic.make (tStart + τ) (tEnd + τ) (height + m 2) (swingPlaced k l m start) (swingPlaced k l m target) = none ↔
      Quintic.make tStart tEnd height start target = none) ∧
    ∀ q q', Quintic.make tStart tEnd height start target = some q →
      Quintic.make (tStart + τ) (tEnd + τ) (height + m 2) (swingPlaced k l m start) (swingPlaced k l m target) = some q' →
      ∀ t, q'.pos (t + τ) = swingPlaced k l m (q.pos t) ∧ q'.vel (t + τ) = swingTurned k l (q.vel t) := by
  have none_iff : ∀ (s u h : ℝ) (p p' : Fin 3 → ℝ), Quintic.make s u h p p' = none ↔ s = u := by
    intro s u h p p'
    constructor
    · intro hn
      by_contra hne
      obtain ⟨q, hq, -⟩ := (C124 s u h p p').1 hne
      rw [hn] at hq
      cases hq
    · exact (C124 s u h p p').2
  refine ⟨by rw [none_iff, none_iff]; exact add_left_inj τ, fun q q' hq hq' t => ?_⟩
  obtain ⟨hne, a1, a2, a3, a4, a5, a6, a7⟩ := quintic_facts hq
  obtain ⟨-, b1, b2, b3, b4, b5, b6, b7⟩ := quintic_facts hq'
  have p0 : ∀ p : Fin 3 → ℝ, swingPlaced k l m p 0 = k * p 0 - l * p 1 + m 0 := fun _ => rfl
  have p1 : ∀ p : Fin 3 → ℝ, swingPlaced k l m p 1 = l * p 0 + k * p 1 + m 1 := fun _ => rfl
  have p2 : ∀ p : Fin 3 → ℝ, swingPlaced k l m p 2 = p 2 + m 2 := fun _ => rfl
  have n0 : (0 : Fin 3) ≠ 2 := by decide
  have n1 : (1 : Fin 3) ≠ 2 := by decide
  have X := shifted_flat (τ := τ) (a' := q'.a 0) (b' := q'.b 0) (c' := q'.c 0) (d' := q'.d 0) (e' := q'.e 0) (f' := q'.f 0)
    (a := k * q.a 0 - l * q.a 1) (b := k * q.b 0 - l * q.b 1) (c := k * q.c 0 - l * q.c 1)
    (d := k * q.d 0 - l * q.d 1) (e := k * q.e 0 - l * q.e 1) (f := k * q.f 0 - l * q.f 1 + m 0) hne
    (by rw [b1, p0]; linear_combination -k * a1 0 + l * a1 1)
    (by rw [b3]; linear_combination -k * a3 0 + l * a3 1)
    (by rw [b5 0 n0]; linear_combination -k * a5 0 n0 + l * a5 1 n1)
    (by rw [b2, p0]; linear_combination -k * a2 0 + l * a2 1)
    (by rw [b4]; linear_combination -k * a4 0 + l * a4 1)
    (by rw [b6 0 n0]; linear_combination -k * a6 0 n0 + l * a6 1 n1) t
  have Y := shifted_flat (τ := τ) (a' := q'.a 1) (b' := q'.b 1) (c' := q'.c 1) (d' := q'.d 1) (e' := q'.e 1) (f' := q'.f 1)
    (a := l * q.a 0 + k * q.a 1) (b := l * q.b 0 + k * q.b 1) (c := l * q.c 0 + k * q.c 1)
    (d := l * q.d 0 + k * q.d 1) (e := l * q.e 0 + k * q.e 1) (f := l * q.f 0 + k * q.f 1 + m 1) hne
    (by rw [b1, p1]; linear_combination -l * a1 0 - k * a1 1)
    (by rw [b3]; linear_combination -l * a3 0 - k * a3 1)
    (by rw [b5 1 n1]; linear_combination -l * a5 0 n0 - k * a5 1 n1)
    (by rw [b2, p1]; linear_combination -l * a2 0 - k * a2 1)
    (by rw [b4]; linear_combination -l * a4 0 - k * a4 1)
    (by rw [b6 1 n1]; linear_combination -l * a6 0 n0 - k * a6 1 n1) t
  have Z := shifted_high (τ := τ) (a' := q'.a 2) (b' := q'.b 2) (c' := q'.c 2) (d' := q'.d 2) (e' := q'.e 2) (f' := q'.f 2)
    (a := q.a 2) (b := q.b 2) (c := q.c 2) (d := q.d 2) (e := q.e 2) (f := q.f 2 + m 2) hne
    (by rw [b1, p2]; linear_combination -a1 2)
    (by rw [b3]; linear_combination -a3 2)
    (by rw [b2, p2]; linear_combination -a2 2)
    (by rw [b4]; linear_combination -a4 2)
    (fun r hr => by
      have := b7 (r + τ) (by
        rcases hr with rfl | rfl
        · left; ring
        · right; ring)
      rw [this]; linear_combination -a7 r hr) t
  constructor
  · funext i
    fin_cases i
    · change q'.pos (t + τ) 0 = k * q.pos t 0 - l * q.pos t 1 + m 0
      rw [quintic_pos, X.1, quintic_pos, quintic_pos]; ring
    · change q'.pos (t + τ) 1 = l * q.pos t 0 + k * q.pos t 1 + m 1
      rw [quintic_pos, Y.1, quintic_pos, quintic_pos]; ring
    · change q'.pos (t + τ) 2 = q.pos t 2 + m 2
      rw [quintic_pos, Z.1, quintic_pos]; ring
  · funext i
    fin_cases i
    · change q'.vel (t + τ) 0 = k * q.vel t 0 - l * q.vel t 1
      rw [quintic_vel, X.2, quintic_vel, quintic_vel]; ring
    · change q'.vel (t + τ) 1 = l * q.vel t 0 + k * q.vel t 1
      rw [quintic_vel, Y.2, quintic_vel, quintic_vel]; ring
    · change q'.vel (t + τ) 2 = q.vel t 2
      rw [quintic_vel, Z.2, quintic_vel]

/-- Both swings of C219 exist for a swing of one second, made ten seconds later, turned by a
quarter of a turn and moved. -/
example : ∃ q q' : Quintic ℝ, Quintic.make 0 1 (1 / 10) ![0, 0, 0] ![1, 0, 0] = some q ∧
    Quintic.make (0 + 10) (1 + 10) (1 / 10 + 1) (swingPlaced 0 1 ![5, 7, 1] ![0, 0, 0])
      (swingPlaced 0 1 ![5, 7, 1] ![1, 0, 0]) = some q' := by
  obtain ⟨q, hq, -⟩ := (C124 0 1 (1 / 10) ![0, 0, 0] ![1, 0, 0]).1 (by norm_num)
  obtain ⟨q', hq', -⟩ := (C124 (0 + 10) (1 + 10) (1 / 10 + 1) (swingPlaced 0 1 ![5, 7, 1] ![0, 0, 0])
    (swingPlaced 0 1 ![5, 7, 1] ![1, 0, 0])).1 (by norm_num)
  exact ⟨q, q', hq, hq'⟩

end Verif.Humanoid
