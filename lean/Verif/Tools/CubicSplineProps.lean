/-
Properties C29, C30, C31, C33, C34 of cubic splines (C32 is in `AnglesProps.lean`).
-/
import Mathlib.Analysis.Calculus.Deriv.Basic
import Mathlib.Analysis.Calculus.Deriv.Add
import Mathlib.Analysis.Calculus.Deriv.Mul
import Mathlib.Analysis.Calculus.Deriv.Polynomial
import Mathlib.Tactic.Ring
import Mathlib.Tactic.Linarith
import Mathlib.Tactic.FieldSimp
import Mathlib.Tactic.LinearCombination
import Mathlib.Tactic.NormNum
import Mathlib.LinearAlgebra.Matrix.Determinant.Basic
import Mathlib.Data.Real.Basic
import Verif.Tools.CubicSpline

namespace Verif.Tools

section fitting
variable {K : Type} [Field K]

/-- The fitted coefficients, in closed form. -/
theorem fit_eq (h x1 d1 x2 d2 : K) (hh : h ≠ 0) :
    fit 0 x1 d1 h x2 d2 =
      ⟨(2 * (x1 - x2) + h * (d1 + d2)) / h ^ 3, (3 * (x2 - x1) - h * (2 * d1 + d2)) / h ^ 2, d1, x1⟩ := by
  have hinv : (fitMatrix 0 h)⁻¹ = !![2 / h ^ 3, 1 / h ^ 2, -2 / h ^ 3, 1 / h ^ 2;
      -3 / h ^ 2, -2 / h, 3 / h ^ 2, -1 / h; 0, 1, 0, 0; 1, 0, 0, 0] := by
    apply Matrix.inv_eq_left_inv
    unfold fitMatrix
    ext i j
    fin_cases i <;> fin_cases j <;>
      simp [Matrix.mul_apply, Fin.sum_univ_four] <;> field_simp <;> ring
  unfold fit
  rw [hinv]
  simp only [Matrix.mulVec, dotProduct, Fin.sum_univ_four]
  simp
  refine ⟨?_, ?_⟩ <;> field_simp <;> ring

/-- The fitted polynomial has the requested end values and slopes. -/
theorem fit_spec (h x1 d1 x2 d2 : K) (hh : h ≠ 0) :
    polyValue 0 (fit 0 x1 d1 h x2 d2) = x1 ∧ polyDiff 0 (fit 0 x1 d1 h x2 d2) = d1 ∧
    polyValue h (fit 0 x1 d1 h x2 d2) = x2 ∧ polyDiff h (fit 0 x1 d1 h x2 d2) = d2 := by
  rw [fit_eq h x1 d1 x2 d2 hh]
  refine ⟨?_, ?_, ?_, ?_⟩ <;> simp only [polyValue, polyDiff] <;> field_simp <;> ring

end fitting

section
variable {K : Type} [Field K] [LinearOrder K] [IsStrictOrderedRing K]

/-- Strictly increasing time stamps. -/
def Increasing (l : List (SPoint K)) : Prop := l.Pairwise fun p q => p.t < q.t

theorem mkSpline_ends (p q : SPoint K) (h : p.t < q.t) :
    evalSpline (mkSpline p q) p.t .value = p.x ∧ evalSpline (mkSpline p q) p.t .speed = p.dx ∧
    evalSpline (mkSpline p q) q.t .value = q.x ∧ evalSpline (mkSpline p q) q.t .speed = q.dx := by
  have := fit_spec (q.t - p.t) p.x p.dx q.x q.dx (sub_ne_zero.2 h.ne')
  simp only [evalSpline, mkSpline, sub_self]
  exact this

/-- Search of the segment. -/
def findSpline (sps : List (Spline K)) (t : K) : Option (Spline K) :=
  sps.find? (fun sp => decide (sp.tStart ≤ t ∧ t ≤ sp.tEnd))

theorem splines_start (l : List (SPoint K)) (p : SPoint K) (h : Increasing (p :: l)) :
    ∀ sp ∈ computeSplines (p :: l), p.t ≤ sp.tStart := by
  induction l generalizing p with
  | nil => intro sp hsp; simp [computeSplines] at hsp
  | cons q l ih =>
    intro sp hsp
    simp only [computeSplines, List.mem_cons] at hsp
    rcases hsp with rfl | hsp
    · exact le_refl _
    · have hpq : p.t < q.t := (List.pairwise_cons.1 h).1 q (by simp)
      exact hpq.le.trans (ih q (List.pairwise_cons.1 h).2 sp hsp)

/-- In the closed segment between consecutive points `p`, `q`, position and speed are
those of the segment's polynomial, whichever segment the search finds. -/
theorem find_eval (pre : List (SPoint K)) (p q : SPoint K) (post : List (SPoint K))
    (h : Increasing (pre ++ p :: q :: post)) (t : K) (h0 : p.t ≤ t) (h1 : t ≤ q.t) :
    ∃ sp, findSpline (computeSplines (pre ++ p :: q :: post)) t = some sp ∧
      evalSpline sp t .value = evalSpline (mkSpline p q) t .value ∧
      evalSpline sp t .speed = evalSpline (mkSpline p q) t .speed := by
  induction pre with
  | nil =>
    refine ⟨mkSpline p q, ?_, rfl, rfl⟩
    simp only [List.nil_append, computeSplines, findSpline, List.find?_cons]
    have : decide ((mkSpline p q).tStart ≤ t ∧ t ≤ (mkSpline p q).tEnd) = true := by
      exact decide_eq_true ⟨h0, h1⟩
    rw [this]
  | cons a pre ih =>
    have hi := ih (List.pairwise_cons.1 h).2
    -- the element after `a`
    obtain ⟨b, rest, hb⟩ : ∃ b rest, pre ++ p :: q :: post = b :: rest := by
      cases pre with
      | nil => exact ⟨p, q :: post, rfl⟩
      | cons c pre => exact ⟨c, pre ++ p :: q :: post, rfl⟩
    have hbt : b.t ≤ p.t := by
      cases pre with
      | nil => simp at hb; rw [hb.1]
      | cons c pre =>
        simp only [List.cons_append, List.cons.injEq] at hb
        rw [← hb.1]
        have := (List.pairwise_cons.1 (List.pairwise_cons.1 h).2).1 p (by simp)
        exact this.le
    have hab : a.t < b.t := (List.pairwise_cons.1 h).1 b (by show b ∈ pre ++ p :: q :: post; rw [hb]; simp)
    rw [List.cons_append, hb]
    simp only [computeSplines, findSpline, List.find?_cons]
    rw [hb] at hi
    by_cases hc : t ≤ b.t
    · -- `t = b.t = p.t`: the previous segment is found
      have htb : t = b.t := le_antisymm hc (hbt.trans h0)
      have htp : t = p.t := le_antisymm (hc.trans hbt) h0
      have : decide ((mkSpline a b).tStart ≤ t ∧ t ≤ (mkSpline a b).tEnd) = true := by
        exact decide_eq_true ⟨by rw [htb]; exact hab.le, hc⟩
      rw [this]
      -- and `b = p`
      have hbp : b = p := by
        cases pre with
        | nil => simp at hb; exact hb.1.symm
        | cons c pre =>
          simp only [List.cons_append, List.cons.injEq] at hb
          have := (List.pairwise_cons.1 (List.pairwise_cons.1 h).2).1 p (by simp)
          rw [hb.1] at this
          exact absurd (htb.symm.trans htp) this.ne
      subst hbp
      have hpq : b.t < q.t := by
        have h2 := (List.pairwise_append.1 (List.pairwise_cons.1 h).2).2.1
        exact (List.pairwise_cons.1 h2).1 q (by simp)
      obtain ⟨-, -, e3, e4⟩ := mkSpline_ends a b hab
      obtain ⟨e1, e2, -, -⟩ := mkSpline_ends b q hpq
      exact ⟨mkSpline a b, rfl, by rw [htb, e3, e1], by rw [htb, e4, e2]⟩
    · have : decide ((mkSpline a b).tStart ≤ t ∧ t ≤ (mkSpline a b).tEnd) = false := by
        exact decide_eq_false fun h => hc h.2
      rw [this]
      exact hi

theorem computeSplines_head (p q : SPoint K) (l : List (SPoint K)) :
    (computeSplines (p :: q :: l)).head? = some (mkSpline p q) := rfl

theorem computeSplines_last (l : List (SPoint K)) : ∀ p q : SPoint K, ∃ sp last,
    (computeSplines (p :: q :: l)).getLast? = some sp ∧ (p :: q :: l).getLast? = some last ∧ sp.tEnd = last.t := by
  induction l with
  | nil => intro p q; exact ⟨mkSpline p q, q, rfl, rfl, rfl⟩
  | cons r l ih =>
    intro p q
    obtain ⟨sp, last, h1, h2, h3⟩ := ih q r
    refine ⟨sp, last, ?_, ?_, h3⟩
    · rw [show computeSplines (p :: q :: r :: l) = mkSpline p q :: computeSplines (q :: r :: l) from rfl,
        List.getLast?_cons, h1]; rfl
    · rw [List.getLast?_cons, h2]; rfl

/-- Reading at a time inside the range of the points. -/
theorem lookup_inside (pre : List (SPoint K)) (p q : SPoint K) (post : List (SPoint K))
    (h : Increasing (pre ++ p :: q :: post)) (t : K) (h0 : p.t ≤ t) (h1 : t ≤ q.t) :
    lookup (pre ++ p :: q :: post) (computeSplines (pre ++ p :: q :: post)) t .value
      = .ok (evalSpline (mkSpline p q) t .value) ∧
    lookup (pre ++ p :: q :: post) (computeSplines (pre ++ p :: q :: post)) t .speed
      = .ok (evalSpline (mkSpline p q) t .speed) := by
  obtain ⟨sp, hf, e1, e2⟩ := find_eval pre p q post h t h0 h1
  obtain ⟨a, b, rest, hab⟩ : ∃ a b rest, pre ++ p :: q :: post = a :: b :: rest := by
    cases pre with
    | nil => exact ⟨p, q, post, rfl⟩
    | cons c pre =>
      cases pre with
      | nil => exact ⟨c, p, q :: post, rfl⟩
      | cons d pre => exact ⟨c, d, pre ++ p :: q :: post, rfl⟩
  have hmem : p ∈ a :: b :: rest := by rw [← hab]; simp
  have hmemq : q ∈ a :: b :: rest := by rw [← hab]; simp
  rw [hab] at h hf ⊢
  obtain ⟨sl, last, hl1, hl2, hl3⟩ := computeSplines_last rest a b
  have hat : a.t ≤ t := by
    rcases List.mem_cons.1 hmem with rfl | hm
    · exact h0
    · exact ((List.pairwise_cons.1 h).1 p hm).le.trans h0
  have hlt : t ≤ last.t := by
    obtain ⟨ini, hini⟩ := List.getLast?_eq_some_iff.1 hl2
    rw [hini] at h hmemq
    rcases List.mem_append.1 hmemq with hm | hm
    · exact h1.trans ((List.pairwise_append.1 h).2.2 q hm last (by simp)).le
    · rw [List.mem_singleton] at hm; rw [← hm]; exact h1
  have hfront : ¬ (t < (mkSpline a b).tStart) := not_lt.2 hat
  have hback : ¬ (sl.tEnd < t) := by rw [hl3]; exact not_lt.2 hlt
  unfold lookup
  rw [computeSplines_head, hl1]
  simp only [if_neg hfront, if_neg hback]
  unfold findSpline at hf
  rw [hf]
  exact ⟨congrArg _ e1, congrArg _ e2⟩

/-- The cached splines are those of the points whenever `dirty` is not set. -/
def SplineInv (s : SplineSt K) : Prop := s.dirty = false → s.splines = computeSplines s.points

theorem inv_init (angular : Bool) : SplineInv (SplineSt.init (K := K) angular) := by intro h; cases h

/-- Elementary effect of an accepted or rejected `add_point`. -/
theorem addPoint_cases (wrap : K → K) (s : SplineSt K) (t x dx : K) :
    (s.addPoint wrap t x dx = .error .runtimeError ∧ ∃ last, s.points.getLast? = some last ∧ t ≤ last.t) ∨
    (∃ x', s.addPoint wrap t x dx = .ok ⟨s.angular, true, s.points ++ [⟨t, x', dx⟩], s.splines⟩ ∧
      (∀ last, s.points.getLast? = some last → last.t < t) ∧
      x' = match s.points.getLast? with
        | none => x
        | some last => if s.angular then last.x + wrap (x - last.x) else x) := by
  unfold SplineSt.addPoint
  cases hl : s.points.getLast? with
  | none => exact .inr ⟨x, rfl, by simp, rfl⟩
  | some last =>
    simp only
    by_cases hc : t ≤ last.t
    · rw [if_pos hc]; exact .inl ⟨rfl, last, rfl, hc⟩
    · rw [if_neg hc]
      exact .inr ⟨_, rfl, by intro l hl'; cases hl'; exact not_le.1 hc, rfl⟩

theorem inv_step (wrap : K → K) (s : SplineSt K) (op : SplOp K) (h : SplineInv s) : SplineInv (splStep wrap s op) := by
  cases op with
  | addPoint t x dx =>
    rcases addPoint_cases wrap s t x dx with ⟨h1, -⟩ | ⟨x', h1, -⟩
    · simp only [splStep, h1]; exact h
    · simp only [splStep, h1]; intro hd; cases hd
  | clear => intro _; rfl
  | read t ty =>
    simp only [splStep, SplineSt.interpolation, SplineSt.refresh]
    by_cases hd : s.dirty = true
    · rw [if_pos hd]; intro _; rfl
    · rw [if_neg hd]; exact h
  | duration => exact h

theorem increasing_append (l : List (SPoint K)) (p : SPoint K) (h : Increasing l)
    (hl : ∀ last, l.getLast? = some last → last.t < p.t) : Increasing (l ++ [p]) := by
  unfold Increasing
  rw [List.pairwise_append]
  refine ⟨h, List.pairwise_singleton _ _, fun a ha b hb => ?_⟩
  rw [List.mem_singleton] at hb
  subst hb
  obtain ⟨last, hlast⟩ : ∃ last, l.getLast? = some last := by
    cases hq : l.getLast? with
    | none => rw [List.getLast?_eq_none_iff] at hq; subst hq; simp at ha
    | some last => exact ⟨last, rfl⟩
  obtain ⟨ini, hini⟩ := List.getLast?_eq_some_iff.1 hlast
  rw [hini] at h ha
  rcases List.mem_append.1 ha with hm | hm
  · exact ((List.pairwise_append.1 h).2.2 a hm last (by simp)).trans (hl last hlast)
  · rw [List.mem_singleton] at hm; rw [hm]; exact hl last hlast

theorem increasing_step (wrap : K → K) (s : SplineSt K) (op : SplOp K) (h : Increasing s.points) :
    Increasing (splStep wrap s op).points := by
  cases op with
  | addPoint t x dx =>
    rcases addPoint_cases wrap s t x dx with ⟨h1, -⟩ | ⟨x', h1, h2, -⟩
    · simp only [splStep, h1]; exact h
    · simp only [splStep, h1]; exact increasing_append _ _ h h2
  | clear => exact List.Pairwise.nil
  | read t ty =>
    have : (splStep wrap s (.read t ty)).points = s.points := by
      simp only [splStep, SplineSt.interpolation, SplineSt.refresh]; split <;> rfl
    rw [this]; exact h
  | duration => exact h

theorem foldl_inv (wrap : K → K) (ops : List (SplOp K)) : ∀ s : SplineSt K, SplineInv s → Increasing s.points →
    SplineInv (ops.foldl (splStep wrap) s) ∧ Increasing (ops.foldl (splStep wrap) s).points := by
  induction ops with
  | nil => intro s h1 h2; exact ⟨h1, h2⟩
  | cons op ops ih => intro s h1 h2; exact ih _ (inv_step wrap s op h1) (increasing_step wrap s op h2)

/-- Specification of the points kept by a non-angular spline after a history. -/
def keptPoints (l : List (SPoint K)) : List (SplOp K) → List (SPoint K)
  | [] => l
  | .addPoint t x dx :: ops => keptPoints (if ∀ p ∈ l, p.t < t then l ++ [⟨t, x, dx⟩] else l) ops
  | .clear :: ops => keptPoints [] ops
  | .read _ _ :: ops => keptPoints l ops
  | .duration :: ops => keptPoints l ops

/-- **C31.** For every history, stored times are strictly increasing, and a rejected
`add_point` changes nothing (it is rejected exactly when `t` is not after the last
point). -/
theorem C31_increasing (wrap : K → K) (angular : Bool) (ops : List (SplOp K)) :
    Increasing (splRun wrap angular ops).points ∧
    ∀ t x dx, (∃ e, (splRun wrap angular ops).addPoint wrap t x dx = .error e) →
      (∃ p ∈ (splRun wrap angular ops).points, t ≤ p.t) ∧
      splRun wrap angular (ops ++ [.addPoint t x dx]) = splRun wrap angular ops := by
  refine ⟨(foldl_inv wrap ops _ (inv_init angular) List.Pairwise.nil).2, fun t x dx ⟨e, he⟩ => ?_⟩
  have hrun : splRun wrap angular (ops ++ [.addPoint t x dx])
      = splStep wrap (splRun wrap angular ops) (.addPoint t x dx) := by
    unfold splRun; rw [List.foldl_append]; rfl
  rw [hrun]
  simp only [splStep, he, and_true]
  rcases addPoint_cases wrap (splRun wrap angular ops) t x dx with ⟨-, last, hl, hle⟩ | ⟨x', h1, -⟩
  · exact ⟨last, List.mem_of_getLast? hl, hle⟩
  · rw [h1] at he; cases he

theorem kept_run (wrap : K → K) (ops : List (SplOp K)) : ∀ s : SplineSt K, s.angular = false → Increasing s.points →
    (ops.foldl (splStep wrap) s).points = keptPoints s.points ops := by
  induction ops with
  | nil => intro s _ _; rfl
  | cons op ops ih =>
    intro s ha hi
    have hi' := increasing_step wrap s op hi
    rw [List.foldl_cons]
    cases op with
    | addPoint t x dx =>
      rcases addPoint_cases wrap s t x dx with ⟨h1, last, hl, hle⟩ | ⟨x', h1, h2, h3⟩
      · have hs : splStep wrap s (.addPoint t x dx) = s := by simp only [splStep, h1]
        rw [hs, ih s ha hi]
        simp only [keptPoints]
        rw [if_neg]
        intro hall
        exact absurd (hall last (List.mem_of_getLast? hl)) (not_lt.2 hle)
      · have hs : splStep wrap s (.addPoint t x dx) = ⟨s.angular, true, s.points ++ [⟨t, x', dx⟩], s.splines⟩ := by
          simp only [splStep, h1]
        rw [hs] at hi' ⊢
        rw [ih (SplineSt.mk s.angular true (s.points ++ [SPoint.mk t x' dx]) s.splines) ha hi']
        simp only [keptPoints]
        have hx : x' = x := by
          rw [h3, ha]; cases s.points.getLast? <;> simp
        rw [if_pos, hx]
        intro p hp
        exact (List.pairwise_append.1 hi').2.2 p hp ⟨t, x', dx⟩ (by simp)
    | clear => rw [ih (splStep wrap s .clear) ha hi']; rfl
    | read t ty =>
      have hp : (splStep wrap s (.read t ty)).points = s.points := by
        simp only [splStep, SplineSt.interpolation, SplineSt.refresh]; split <;> rfl
      have hg : (splStep wrap s (.read t ty)).angular = s.angular := by
        simp only [splStep, SplineSt.interpolation, SplineSt.refresh]; split <;> rfl
      rw [ih _ (hg.trans ha) hi', hp]; rfl
    | duration => rw [ih (splStep wrap s .duration) ha hi']; rfl

/-- **C31 (kept points).** A non-angular spline keeps exactly the added points whose
time is after all the kept ones, unchanged and in order. -/
theorem C31_kept (wrap : K → K) (ops : List (SplOp K)) :
    (splRun wrap false ops).points = keptPoints [] ops :=
  kept_run wrap ops (SplineSt.init false) rfl List.Pairwise.nil

/-- Observable reads: `pos`, `vel`, `acc` of the state reached. -/
noncomputable def SplineSt.at (s : SplineSt K) (t : K) (ty : ValueType) : Except Err K := (s.interpolation t ty).2

theorem at_lookup (wrap : K → K) (angular : Bool) (ops : List (SplOp K)) (t : K) (ty : ValueType) :
    (splRun wrap angular ops).at t ty =
      lookup (splRun wrap angular ops).points (computeSplines (splRun wrap angular ops).points) t ty := by
  have hinv := (foldl_inv wrap ops _ (inv_init angular) List.Pairwise.nil).1
  change SplineInv (splRun wrap angular ops) at hinv
  generalize splRun wrap angular ops = s at hinv
  unfold SplineSt.at SplineSt.interpolation SplineSt.refresh
  by_cases hd : s.dirty = true
  · simp only [if_pos hd]
  · simp only [if_neg hd]
    rw [hinv (by simpa using hd)]

/-- **C29 (interpolation).** After any history leaving at least two points, `pos` and
`vel` at each point's time are the point's value and slope. -/
theorem C29_interpolates (wrap : K → K) (angular : Bool) (ops : List (SplOp K))
    (h2 : 2 ≤ (splRun wrap angular ops).points.length) (p : SPoint K) (hp : p ∈ (splRun wrap angular ops).points) :
    (splRun wrap angular ops).at p.t .value = .ok p.x ∧ (splRun wrap angular ops).at p.t .speed = .ok p.dx := by
  have hi := (C31_increasing wrap angular ops).1
  rw [at_lookup, at_lookup]
  generalize (splRun wrap angular ops).points = l at h2 hp hi
  obtain ⟨pre, post, rfl⟩ := List.append_of_mem hp
  cases post with
  | cons q post =>
    have hpq : p.t < q.t := (List.pairwise_cons.1 (List.pairwise_append.1 hi).2.1).1 q (by simp)
    obtain ⟨e1, e2⟩ := lookup_inside pre p q post hi p.t (le_refl _) hpq.le
    obtain ⟨m1, m2, -, -⟩ := mkSpline_ends p q hpq
    exact ⟨by rw [e1, m1], by rw [e2, m2]⟩
  | nil =>
    -- the last point
    obtain ⟨a, pre', rfl⟩ : ∃ a pre', pre = pre' ++ [a] := by
      rcases List.eq_nil_or_concat pre with rfl | ⟨pre', a, rfl⟩
      · simp at h2
      · exact ⟨a, pre', by simp⟩
    have hap : a.t < p.t := (List.pairwise_append.1 hi).2.2 a (by simp) p (by simp)
    have hl : pre' ++ [a] ++ [p] = pre' ++ a :: p :: [] := by simp
    rw [hl] at hi ⊢
    obtain ⟨e1, e2⟩ := lookup_inside pre' a p [] hi p.t hap.le (le_refl _)
    obtain ⟨-, -, m1, m2⟩ := mkSpline_ends a p hap
    exact ⟨by rw [e1, m1], by rw [e2, m2]⟩

/-- **C30.** Reading before the first or after the last point is reading at that point;
without points everything is 0, with a single point position and speed are
constant. -/
theorem C30_clamp (wrap : K → K) (angular : Bool) (ops : List (SplOp K)) (t : K) (ty : ValueType) :
    ((splRun wrap angular ops).points = [] → (splRun wrap angular ops).at t ty = .ok 0) ∧
    (∀ p, (splRun wrap angular ops).points = [p] → (splRun wrap angular ops).at t .value = .ok p.x ∧
      (splRun wrap angular ops).at t .speed = .ok p.dx) ∧
    (∀ f, 2 ≤ (splRun wrap angular ops).points.length → (splRun wrap angular ops).points.head? = some f →
      t ≤ f.t → (splRun wrap angular ops).at t ty = (splRun wrap angular ops).at f.t ty) ∧
    (∀ l, 2 ≤ (splRun wrap angular ops).points.length → (splRun wrap angular ops).points.getLast? = some l →
      l.t ≤ t → (splRun wrap angular ops).at t ty = (splRun wrap angular ops).at l.t ty) := by
  have hi := (C31_increasing wrap angular ops).1
  simp only [at_lookup]
  generalize (splRun wrap angular ops).points = pts at hi
  refine ⟨?_, ?_, ?_, ?_⟩
  · rintro rfl; rfl
  · rintro p rfl; exact ⟨rfl, rfl⟩
  · intro f h2 hf hle
    match pts, h2, hf with
    | a :: b :: rest, _, hf =>
      have hf : a = f := by simpa using hf
      subst hf
      obtain ⟨sl, last, hl1, hl2, hl3⟩ := computeSplines_last rest a b
      have hal : a.t ≤ last.t := by
        rcases List.mem_cons.1 (List.mem_of_getLast? hl2) with rfl | hm
        · exact le_refl _
        · exact ((List.pairwise_cons.1 hi).1 last hm).le
      unfold lookup
      rw [computeSplines_head, hl1]
      have e1 : (if t < (mkSpline a b).tStart then (mkSpline a b).tStart else t) = a.t := by
        have : (mkSpline a b).tStart = a.t := rfl
        rw [this]; split
        · rfl
        · exact le_antisymm hle (not_lt.1 ‹_›)
      have e2 : (if a.t < (mkSpline a b).tStart then (mkSpline a b).tStart else a.t) = a.t := by
        have : (mkSpline a b).tStart = a.t := rfl
        rw [this]; split <;> rfl
      simp only [e1, e2]
  · intro l h2 hl hle
    match pts, h2, hl with
    | a :: b :: rest, _, hl =>
      obtain ⟨sl, last, hl1, hl2, hl3⟩ := computeSplines_last rest a b
      have : last = l := by rw [hl] at hl2; exact (Option.some.inj hl2).symm
      subst this
      have hal : a.t ≤ last.t := by
        rcases List.mem_cons.1 (List.mem_of_getLast? hl2) with rfl | hm
        · exact le_refl _
        · exact ((List.pairwise_cons.1 hi).1 last hm).le
      have hst : (mkSpline a b).tStart = a.t := rfl
      unfold lookup
      rw [computeSplines_head, hl1]
      have e1 : ¬ (t < (mkSpline a b).tStart) := by rw [hst]; exact not_lt.2 (hal.trans hle)
      have e2 : ¬ (last.t < (mkSpline a b).tStart) := by rw [hst]; exact not_lt.2 hal
      have e3 : (if sl.tEnd < t then sl.tEnd else t) = last.t := by
        rw [hl3]; split
        · rfl
        · exact le_antisymm (not_lt.1 ‹_›) hle
      have e4 : (if sl.tEnd < last.t then sl.tEnd else last.t) = last.t := by rw [hl3]; split <;> rfl
      simp only [if_neg e1, if_neg e2, e3, e4]

/-- **C33, partial.** After a read (which refreshes the segments) `duration()` is the
time between the first and the last point. Missing: histories whose last
`add_point` is not followed by a read; the statement is false there
(`C33_refuted`). -/
theorem C33_duration_partial (wrap : K → K) (angular : Bool) (ops : List (SplOp K)) (t : K) (ty : ValueType)
    (f l : SPoint K) (h2 : 2 ≤ (splRun wrap angular ops).points.length)
    (hf : (splRun wrap angular ops).points.head? = some f)
    (hl : (splRun wrap angular ops).points.getLast? = some l) :
    (splRun wrap angular (ops ++ [.read t ty])).duration = .ok (l.t - f.t) := by
  have hinv := (foldl_inv wrap ops _ (inv_init angular) List.Pairwise.nil).1
  change SplineInv (splRun wrap angular ops) at hinv
  have hrun : splRun wrap angular (ops ++ [.read t ty]) = (splRun wrap angular ops).refresh := by
    unfold splRun; rw [List.foldl_append]; rfl
  rw [hrun]
  generalize splRun wrap angular ops = s at *
  have hs : s.refresh.splines = computeSplines s.points := by
    unfold SplineSt.refresh
    by_cases hd : s.dirty = true
    · rw [if_pos hd]
    · rw [if_neg hd]; exact hinv (by simpa using hd)
  unfold SplineSt.duration
  rw [hs]
  match hp : s.points, h2 with
  | a :: b :: rest, _ =>
    rw [hp] at hf hl
    obtain ⟨sl, last, hl1, hl2, hl3⟩ := computeSplines_last rest a b
    rw [hl1, computeSplines_head]
    have hf : a = f := by simpa using hf
    rw [hl] at hl2
    cases hl2
    subst hf
    simp only [hl3]
    rfl

/-- **C33, refuted.** Two points and no read: `duration()` is undefined; a read, then a
third point: `duration()` is the old one. -/
theorem C33_refuted :
    (splRun (K := ℚ) id false [.addPoint 0 0 0, .addPoint 1 1 0]).duration = .error .ub ∧
    (splRun (K := ℚ) id false [.addPoint 0 0 0, .addPoint 1 1 0, .read 0 .value, .addPoint 5 0 0]).duration = .ok 1 := by
  refine ⟨rfl, ?_⟩
  have h := C33_duration_partial (K := ℚ) id false [.addPoint 0 0 0, .addPoint 1 1 0] 0 .value ⟨0, 0, 0⟩ ⟨1, 1, 0⟩
    (by decide) rfl rfl
  have e : (splRun (K := ℚ) id false [.addPoint 0 0 0, .addPoint 1 1 0, .read 0 .value, .addPoint 5 0 0]).duration
      = (splRun (K := ℚ) id false ([.addPoint 0 0 0, .addPoint 1 1 0] ++ [.read 0 .value])).duration := rfl
  rw [e, h]
  norm_num

/-! ### C34 -/

/-- Specification: the three axes have the same times. -/
def SameTimes (s : Spline3 K) : Prop :=
  s.x.points.map SPoint.t = s.y.points.map SPoint.t ∧ s.x.points.map SPoint.t = s.z.points.map SPoint.t

theorem last_times {l m : List (SPoint K)} (h : l.map SPoint.t = m.map SPoint.t) :
    l.getLast?.map SPoint.t = m.getLast?.map SPoint.t := by
  rw [← List.getLast?_map, ← List.getLast?_map, h]

theorem accept_iff (wrap : K → K) (s : SplineSt K) (t x dx : K) :
    (∃ s', s.addPoint wrap t x dx = .ok s') ↔ ∀ τ, s.points.getLast?.map SPoint.t = some τ → τ < t := by
  rcases addPoint_cases wrap s t x dx with ⟨h1, last, h2, h3⟩ | ⟨x', h1, h2, -⟩
  · rw [h1, h2]
    constructor
    · rintro ⟨s', h⟩; cases h
    · intro h; exact absurd (h last.t rfl) (not_lt.2 h3)
  · rw [h1]
    refine ⟨fun _ τ hτ => ?_, fun _ => ⟨_, rfl⟩⟩
    cases hl : s.points.getLast? with
    | none => rw [hl] at hτ; cases hτ
    | some last => rw [hl] at hτ; cases hτ; exact h2 last hl

/-- **C34 (one call).** When the axes have the same times, `add_point` adds the point to
all three axes, or raises and changes none of them. -/
theorem C34_all_or_none (wrap : K → K) (s : Spline3 K) (hs : SameTimes s) (t : K) (v d : Fin 3 → K) :
    ((s.addPoint wrap t v d).2 = some .runtimeError ∧ (s.addPoint wrap t v d).1 = s) ∨
    ((s.addPoint wrap t v d).2 = none ∧
      (s.addPoint wrap t v d).1.x.points.map SPoint.t = s.x.points.map SPoint.t ++ [t] ∧
      (s.addPoint wrap t v d).1.y.points.map SPoint.t = s.y.points.map SPoint.t ++ [t] ∧
      (s.addPoint wrap t v d).1.z.points.map SPoint.t = s.z.points.map SPoint.t ++ [t]) := by
  have ey := last_times hs.1
  have ez := last_times hs.2
  rcases addPoint_cases wrap s.x t (v 0) (d 0) with ⟨hx, -⟩ | ⟨x', hx, -⟩
  · left; simp only [Spline3.addPoint, hx, and_self]
  · right
    have hok := (accept_iff wrap s.x t (v 0) (d 0)).1 ⟨_, hx⟩
    rcases addPoint_cases wrap s.y t (v 1) (d 1) with ⟨hy, -⟩ | ⟨y', hy, -⟩
    · obtain ⟨s', h⟩ := (accept_iff wrap s.y t (v 1) (d 1)).2 (by rw [← ey]; exact hok)
      rw [hy] at h; cases h
    · rcases addPoint_cases wrap s.z t (v 2) (d 2) with ⟨hz, -⟩ | ⟨z', hz, -⟩
      · obtain ⟨s', h⟩ := (accept_iff wrap s.z t (v 2) (d 2)).2 (by rw [← ez]; exact hok)
        rw [hz] at h; cases h
      · simp only [Spline3.addPoint, hx, hy, hz]
        simp

/-- **C34.** For every history the three axes have the same time stamps (so every
`add_point` is all or none). -/
theorem C34_same_times (wrap : K → K) (ops : List (Spl3Op K)) :
    SameTimes (ops.foldl (spl3Step wrap) Spline3.init) := by
  have key : ∀ (ops : List (Spl3Op K)) (s : Spline3 K), SameTimes s → SameTimes (ops.foldl (spl3Step wrap) s) := by
    intro ops
    induction ops with
    | nil => intro s h; exact h
    | cons op ops ih =>
      intro s h
      refine ih _ ?_
      cases op with
      | addPoint t v d =>
        rcases C34_all_or_none wrap s h t v d with ⟨-, h1⟩ | ⟨-, h1, h2, h3⟩
        · simp only [spl3Step, h1]; exact h
        · simp only [spl3Step, SameTimes, h1, h2, h3]; rw [← h.1, ← h.2]; exact ⟨rfl, rfl⟩
      | clear => exact ⟨rfl, rfl⟩
      | read t ty =>
        have hp : ∀ c : SplineSt K, (c.interpolation t ty).1.points = c.points := by
          intro c; simp only [SplineSt.interpolation, SplineSt.refresh]; split <;> rfl
        simp only [spl3Step, Spline3.interpolation, SameTimes, hp]
        exact h
  exact key ops _ ⟨rfl, rfl⟩

end

/-! ### C29: C1 -/

section
/-- Position as a function of time, for a state reached by a history with no
undefined behaviour (0 otherwise). -/
noncomputable def readAt (s : SplineSt ℝ) (ty : ValueType) (t : ℝ) : ℝ :=
  match s.at t ty with
  | .ok v => v
  | .error _ => 0

theorem polyValue_deriv (p : SPoly ℝ) (c t : ℝ) :
    HasDerivAt (fun s => polyValue (s - c) p) (polyDiff (t - c) p) t := by
  have h1 : HasDerivAt (fun s => s - c) 1 t := (hasDerivAt_id t).sub_const c
  have h := ((h1.mul ((h1.mul ((h1.const_mul p.a).add_const p.b)).add_const p.c)).const_add p.d)
  refine (h.congr_deriv ?_)
  unfold polyDiff
  simp only [Pi.mul_apply]
  ring

theorem polyDiff_deriv (p : SPoly ℝ) (c t : ℝ) :
    HasDerivAt (fun s => polyDiff (s - c) p) (polyDiff2 (t - c) p) t := by
  have h1 : HasDerivAt (fun s => s - c) 1 t := (hasDerivAt_id t).sub_const c
  have h := (h1.mul ((h1.const_mul (3 * p.a)).add_const (2 * p.b))).add_const p.c
  refine (h.congr_deriv ?_)
  unfold polyDiff2
  ring

/-- Consecutive points around a time. -/
theorem bracket (l : List (SPoint ℝ)) (hi : Increasing l) : ∀ f la : SPoint ℝ, l.head? = some f →
    l.getLast? = some la → ∀ t, f.t ≤ t → t < la.t →
    ∃ pre p q post, l = pre ++ p :: q :: post ∧ p.t ≤ t ∧ t < q.t := by
  induction l with
  | nil => intro f la h; cases h
  | cons a l ih =>
    intro f la hf hl t h0 h1
    cases hf
    cases l with
    | nil => simp at hl; subst hl; exact absurd (h0.trans_lt h1) (lt_irrefl _)
    | cons b l =>
      by_cases hb : t < b.t
      · exact ⟨[], a, b, l, rfl, h0, hb⟩
      · obtain ⟨pre, p, q, post, e, e1, e2⟩ := ih (List.pairwise_cons.1 hi).2 b la rfl
          (by rw [List.getLast?_cons_cons] at hl; exact hl) t (not_lt.1 hb) h1
        exact ⟨a :: pre, p, q, post, by rw [e]; rfl, e1, e2⟩

/-- Consecutive points around a time, other side. -/
theorem bracket' (l : List (SPoint ℝ)) (hi : Increasing l) : ∀ f la : SPoint ℝ, l.head? = some f →
    l.getLast? = some la → ∀ t, f.t < t → t ≤ la.t →
    ∃ pre p q post, l = pre ++ p :: q :: post ∧ p.t < t ∧ t ≤ q.t := by
  induction l with
  | nil => intro f la h; cases h
  | cons a l ih =>
    intro f la hf hl t h0 h1
    cases hf
    cases l with
    | nil => simp at hl; subst hl; exact absurd (h0.trans_le h1) (lt_irrefl _)
    | cons b l =>
      by_cases hb : t ≤ b.t
      · exact ⟨[], a, b, l, rfl, h0, hb⟩
      · obtain ⟨pre, p, q, post, e, e1, e2⟩ := ih (List.pairwise_cons.1 hi).2 b la rfl
          (by rw [List.getLast?_cons_cons] at hl; exact hl) t (not_le.1 hb) h1
        exact ⟨a :: pre, p, q, post, by rw [e]; rfl, e1, e2⟩

/-- The splines read are those of the points. -/
def SplineFresh (s : SplineSt ℝ) : Prop :=
  Increasing s.points ∧ ∀ t ty, s.at t ty = lookup s.points (computeSplines s.points) t ty

theorem fresh_of_dirty (s : SplineSt ℝ) (hd : s.dirty = true) (hi : Increasing s.points) : SplineFresh s := by
  refine ⟨hi, fun t ty => ?_⟩
  unfold SplineSt.at SplineSt.interpolation SplineSt.refresh
  simp only [hd, if_true]

theorem readAt_inside (s : SplineSt ℝ) (hs : SplineFresh s) (pre : List (SPoint ℝ)) (p q : SPoint ℝ)
    (post : List (SPoint ℝ)) (hp : s.points = pre ++ p :: q :: post) (t : ℝ) (h0 : p.t ≤ t) (h1 : t ≤ q.t) :
    readAt s .value t = polyValue (t - p.t) (mkSpline p q).poly ∧
    readAt s .speed t = polyDiff (t - p.t) (mkSpline p q).poly := by
  obtain ⟨hi, hl⟩ := hs
  unfold readAt
  rw [hl, hl]
  rw [hp] at hi ⊢
  obtain ⟨e1, e2⟩ := lookup_inside pre p q post hi t h0 h1
  rw [e1, e2]
  exact ⟨rfl, rfl⟩

/-- A spline whose points are up to date is continuously differentiable. -/
theorem spline_c1 (s : SplineSt ℝ) (hs : SplineFresh s) (f la : SPoint ℝ)
    (hf : s.points.head? = some f) (hl : s.points.getLast? = some la) :
    (∀ t, f.t < t → t < la.t → HasDerivAt (readAt s .value) (readAt s .speed t) t) ∧
    ContinuousOn (readAt s .value) (Set.Icc f.t la.t) ∧
    ContinuousOn (readAt s .speed) (Set.Icc f.t la.t) := by
  have hi := hs.1
  -- right and left derivatives
  have hright : ∀ t, f.t ≤ t → t < la.t →
      HasDerivWithinAt (readAt s .value) (readAt s .speed t) (Set.Ici t) t ∧
      ContinuousWithinAt (readAt s .speed) (Set.Ici t) t := by
    intro t h0 h1
    obtain ⟨pre, p, q, post, e, e0, e1⟩ := bracket _ hi f la hf hl t h0 h1
    have hin := readAt_inside s hs pre p q post e
    have hnhds : Set.Icc t q.t ∈ nhdsWithin t (Set.Ici t) := Icc_mem_nhdsGE e1
    constructor
    · rw [(hin t e0 e1.le).2]
      refine (polyValue_deriv (mkSpline p q).poly p.t t).hasDerivWithinAt.congr_of_eventuallyEq ?_ (hin t e0 e1.le).1
      filter_upwards [hnhds] with s hs
      exact (hin s (e0.trans hs.1) hs.2).1
    · refine (polyDiff_deriv (mkSpline p q).poly p.t t).continuousAt.continuousWithinAt.congr_of_eventuallyEq ?_
        (hin t e0 e1.le).2
      filter_upwards [hnhds] with s hs
      exact (hin s (e0.trans hs.1) hs.2).2
  have hleft : ∀ t, f.t < t → t ≤ la.t →
      HasDerivWithinAt (readAt s .value) (readAt s .speed t) (Set.Iic t) t ∧
      ContinuousWithinAt (readAt s .speed) (Set.Iic t) t := by
    intro t h0 h1
    obtain ⟨pre, p, q, post, e, e0, e1⟩ := bracket' _ hi f la hf hl t h0 h1
    have hin := readAt_inside s hs pre p q post e
    have hnhds : Set.Icc p.t t ∈ nhdsWithin t (Set.Iic t) := Icc_mem_nhdsLE e0
    constructor
    · rw [(hin t e0.le e1).2]
      refine (polyValue_deriv (mkSpline p q).poly p.t t).hasDerivWithinAt.congr_of_eventuallyEq ?_ (hin t e0.le e1).1
      filter_upwards [hnhds] with s hs
      exact (hin s hs.1 (hs.2.trans e1)).1
    · refine (polyDiff_deriv (mkSpline p q).poly p.t t).continuousAt.continuousWithinAt.congr_of_eventuallyEq ?_
        (hin t e0.le e1).2
      filter_upwards [hnhds] with s hs
      exact (hin s hs.1 (hs.2.trans e1)).2
  have hd : ∀ t, f.t < t → t < la.t → HasDerivAt (readAt s .value)
      (readAt s .speed t) t := by
    intro t h0 h1
    have h := (hleft t h0 h1.le).1.union (hright t h0.le h1).1
    rw [Set.Iic_union_Ici] at h
    exact h.hasDerivAt Filter.univ_mem
  have hc : ∀ (g : ℝ → ℝ), (∀ t, f.t ≤ t → t < la.t → ContinuousWithinAt g (Set.Ici t) t) →
      (∀ t, f.t < t → t ≤ la.t → ContinuousWithinAt g (Set.Iic t) t) → ContinuousOn g (Set.Icc f.t la.t) := by
    intro g hr hl t ht
    by_cases h0 : f.t < t
    · by_cases h1 : t < la.t
      · have h := (hl t h0 h1.le).union (hr t h0.le h1)
        rw [Set.Iic_union_Ici] at h
        exact h.mono (Set.subset_univ _)
      · exact (hl t h0 ht.2).mono fun s hs => hs.2.trans (not_lt.1 h1)
    · have e0 : t = f.t := le_antisymm (not_lt.1 h0) ht.1
      by_cases h1 : t < la.t
      · exact (hr t ht.1 h1).mono fun s hs => e0 ▸ hs.1
      · have e1 : t = la.t := le_antisymm ht.2 (not_lt.1 h1)
        have : Set.Icc f.t la.t = {t} := by rw [← e0, ← e1, Set.Icc_self]
        rw [this]
        exact continuousWithinAt_singleton
  exact ⟨hd, hc _ (fun t h0 h1 => (hright t h0 h1).1.continuousWithinAt) (fun t h0 h1 => (hleft t h0 h1).1.continuousWithinAt),
    hc _ (fun t h0 h1 => (hright t h0 h1).2) (fun t h0 h1 => (hleft t h0 h1).2)⟩

/-- **C29 (C1).** Strictly between the first and the last point, `vel` is the derivative
of `pos`, and both are continuous on the closed range. -/
theorem C29_c1 (wrap : ℝ → ℝ) (angular : Bool) (ops : List (SplOp ℝ)) (f la : SPoint ℝ)
    (hf : (splRun wrap angular ops).points.head? = some f) (hl : (splRun wrap angular ops).points.getLast? = some la) :
    (∀ t, f.t < t → t < la.t → HasDerivAt (readAt (splRun wrap angular ops) .value)
      (readAt (splRun wrap angular ops) .speed t) t) ∧
    ContinuousOn (readAt (splRun wrap angular ops) .value) (Set.Icc f.t la.t) ∧
    ContinuousOn (readAt (splRun wrap angular ops) .speed) (Set.Icc f.t la.t) :=
  spline_c1 _ ⟨(C31_increasing wrap angular ops).1, at_lookup wrap angular ops⟩ f la hf hl

end

/-- Non-vacuity: three points, a rejected one, a read. -/
example : (splRun (K := ℚ) id false [.addPoint 0 1 0, .addPoint 2 3 1, .addPoint 1 7 0, .read 1 .value, .addPoint 3 0 0]).points
    = [⟨0, 1, 0⟩, ⟨2, 3, 1⟩, ⟨3, 0, 0⟩] := by
  rw [C31_kept]
  norm_num [keptPoints]

example : (splRun (K := ℚ) id false [.addPoint 0 1 0, .addPoint 2 3 1, .addPoint 3 0 0]).at 2 .value = .ok 3 := by
  have h := C29_interpolates (K := ℚ) id false [.addPoint 0 1 0, .addPoint 2 3 1, .addPoint 3 0 0] (by decide) ⟨2, 3, 1⟩
    (by rw [C31_kept]; norm_num [keptPoints])
  exact h.1

end Verif.Tools
