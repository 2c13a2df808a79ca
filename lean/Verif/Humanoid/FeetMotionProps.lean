/-
The motion of the planned feet: continuity, and the velocity read (used by C132 and C133).
-/
import Verif.Humanoid.FeetProps
import Mathlib.Analysis.Calculus.Deriv.Prod
import Mathlib.Analysis.Calculus.Deriv.Pi

namespace Verif.Humanoid
open Verif.Tools Verif.Robot

/-! ## The swing of a foot -/

theorem Filled.fresh {s : SplineSt ℝ} {pts : List (SPoint ℝ)} (h : Filled s pts) : SplineFresh s :=
  fresh_of_dirty s h.2.1 (by rw [h.1]; exact h.2.2.2)

/-- Between its first and last points, a spline can be read. -/
theorem read_between (s : SplineSt ℝ) (hs : SplineFresh s) (f la : SPoint ℝ) (hf : s.points.head? = some f)
    (hl : s.points.getLast? = some la) (hlt : f.t < la.t) (t : ℝ) (h0 : f.t ≤ t) (h1 : t ≤ la.t) :
    (s.interpolation t .value).2 = .ok (readAt s .value t) ∧ (s.interpolation t .speed).2 = .ok (readAt s .speed t) := by
  have key : ∃ pre p q post, s.points = pre ++ p :: q :: post ∧ p.t ≤ t ∧ t ≤ q.t := by
    rcases h1.lt_or_eq with h1 | rfl
    · obtain ⟨pre, p, q, post, e, a, b⟩ := bracket _ hs.1 f la hf hl t h0 h1
      exact ⟨pre, p, q, post, e, a, b.le⟩
    · obtain ⟨pre, p, q, post, e, a, b⟩ := bracket' _ hs.1 f la hf hl la.t hlt le_rfl
      exact ⟨pre, p, q, post, e, a.le, b⟩
  obtain ⟨pre, p, q, post, e, a, b⟩ := key
  have hi := hs.1
  have hv := hs.2 t .value
  have hw := hs.2 t .speed
  rw [e] at hi hv hw
  obtain ⟨e1, e2⟩ := lookup_inside pre p q post hi t a b
  rw [e1] at hv
  rw [e2] at hw
  unfold readAt
  rw [hv, hw]
  exact ⟨hv, hw⟩

/-- The coordinates of a swing. -/
noncomputable def CubicSwing.coord (w : CubicSwing ℝ) (ty : ValueType) (t : ℝ) : V3 :=
  ![readAt w.x ty t, readAt w.y ty t, readAt w.z ty t]

/-- A planned swing, from `t1` to `t2`: it can be read, it is continuous, and its velocity is the derivative of its
position. -/
structure SwingC1 (w : CubicSwing ℝ) (t1 t2 : ℝ) : Prop where
  value : ∀ t, t1 ≤ t → t ≤ t2 → w.read t .value = .ok (w.coord .value t)
  speed : ∀ t, t1 ≤ t → t ≤ t2 → w.read t .speed = .ok (w.coord .speed t)
  deriv : ∀ t, t1 < t → t < t2 → HasDerivAt (w.coord .value) (w.coord .speed t) t
  cont : ContinuousOn (w.coord .value) (Set.Icc t1 t2)
  cont' : ContinuousOn (w.coord .speed) (Set.Icc t1 t2)

theorem swing_c1 (tStart d height rise : ℝ) (start target : V3) (el : ℝ) (vel : V3) (hd : 0 < d) (hr0 : 0 < rise)
    (hr1 : rise < 1) (hel1 : el < 1) (w : CubicSwing ℝ)
    (hw : CubicSwing.make wrapAngle tStart d height rise start target el vel = .ok w) :
    SwingC1 w tStart (tStart + (1 - el) * d) := by
  obtain ⟨s, hs, fx, fy, fz⟩ := make_filled wrapAngle tStart d height rise start target el vel hd hr0 hr1 hel1
  rw [hw] at hs
  cases hs
  have hlt : tStart < tStart + (1 - el) * d := lt_add_of_pos_right _ (mul_pos (sub_pos.2 hel1) hd)
  have ends : ∀ s : SplineSt ℝ, SplineFresh s → (∃ f la, s.points.head? = some f ∧ s.points.getLast? = some la ∧
      f.t = tStart ∧ la.t = tStart + (1 - el) * d) →
      (∀ t, tStart ≤ t → t ≤ tStart + (1 - el) * d → (s.interpolation t .value).2 = .ok (readAt s .value t) ∧
        (s.interpolation t .speed).2 = .ok (readAt s .speed t)) ∧
      (∀ t, tStart < t → t < tStart + (1 - el) * d → HasDerivAt (readAt s .value) (readAt s .speed t) t) ∧
      ContinuousOn (readAt s .value) (Set.Icc tStart (tStart + (1 - el) * d)) ∧
      ContinuousOn (readAt s .speed) (Set.Icc tStart (tStart + (1 - el) * d)) := by
    rintro s hs ⟨f, la, h1, h2, h3, h4⟩
    have := spline_c1 s hs f la h1 h2
    have hr := read_between s hs f la h1 h2 (by rw [h3, h4]; exact hlt)
    rw [h3, h4] at this hr
    exact ⟨fun t a b => hr t a b, this⟩
  obtain ⟨x1, x2, x3, x4⟩ := ends w.x fx.fresh ⟨_, _, by rw [fx.1]; rfl, by rw [fx.1]; rfl, rfl, rfl⟩
  obtain ⟨y1, y2, y3, y4⟩ := ends w.y fy.fresh ⟨_, _, by rw [fy.1]; rfl, by rw [fy.1]; rfl, rfl, rfl⟩
  obtain ⟨z1, z2, z3, z4⟩ := ends w.z
    (by rcases fz with ⟨-, f⟩ | ⟨-, -, f⟩ | ⟨-, f⟩ <;> exact f.fresh)
    (by rcases fz with ⟨-, f⟩ | ⟨-, -, f⟩ | ⟨-, f⟩ <;> exact ⟨_, _, by rw [f.1]; rfl, by rw [f.1]; rfl, rfl, rfl⟩)
  refine ⟨fun t a b => ?_, fun t a b => ?_, fun t a b => ?_, ?_, ?_⟩
  · exact read_of w t _ _ _ _ (x1 t a b).1 (y1 t a b).1 (z1 t a b).1
  · exact read_of w t _ _ _ _ (x1 t a b).2 (y1 t a b).2 (z1 t a b).2
  · rw [hasDerivAt_pi]
    intro i
    fin_cases i
    · exact x2 t a b
    · exact y2 t a b
    · exact z2 t a b
  · rw [continuousOn_pi]
    intro i
    fin_cases i
    · exact x3
    · exact y3
    · exact z3
  · rw [continuousOn_pi]
    intro i
    fin_cases i
    · exact x4
    · exact y4
    · exact z4

/-! ## The feet of a plan -/

/-- The frame of a foot, when it can be read. -/
noncomputable def Traj.footFrame (tr : Traj) (σ : Side) (t : ℝ) : Affine :=
  match tr.getTWorldFoot σ t with
  | .ok F => F
  | .error _ => Affine.one

theorem continuousOn_glue {E : Type} [TopologicalSpace E] (b : Nat → ℝ) (f : ℝ → E) (n : Nat)
    (hb : ∀ i < n, b i < b (i + 1)) (h : ∀ i < n, ContinuousOn f (Set.Icc (b i) (b (i + 1)))) :
    ContinuousOn f (Set.Icc (b 0) (b n)) := by
  induction n with
  | zero => rw [Set.Icc_self]; exact continuousOn_singleton _ _
  | succ n ih =>
    have h1 := ih (fun i hi => hb i (by omega)) (fun i hi => h i (by omega))
    have hle : b 0 ≤ b n := by
      clear ih h h1
      induction n with
      | zero => exact le_rfl
      | succ n ih => exact (ih fun i hi => hb i (by omega)).trans (hb n (by omega)).le
    rw [← Set.Icc_union_Icc_eq_Icc hle (hb n (by omega)).le]
    exact h1.union_of_isClosed (h n (by omega)) isClosed_Icc isClosed_Icc

section
variable {g : Wpg} {parts : List Part} {t0 : ℝ} {X : Nat → Side → V3} {yaw : Nat → Side → ℝ} {V0 : Side → V3}
  {d0 : Side → ℝ}

theorem knots_fresh (time yaw : Nat → ℝ) (d0 : ℝ) (i : Nat) (h : ∀ j < i, time j < time (j + 1)) :
    SplineFresh (knots time yaw d0 i) := fresh_of_dirty _ rfl (knots_increasing time yaw d0 i h)

variable (hW : Walk parts) (hS : Swings g parts) (tr0 tr : Traj)
  (hI : FeetInv g parts t0 X yaw V0 d0 tr0 parts.length tr)
  (hD : ∀ (i : Nat) (h : i < parts.length), parts[i].tEnd - parts[i].tStart = g.duration parts[i].support)
  (hF : ∀ (i : Nat) (h : i < parts.length), 0 < i → parts[i].support.elapsedRatio = 0)
include hW hS hI hD hF

theorem swing_motion (i : Nat) (hi : i < parts.length) (f : Footstep) (hf : parts[i].support.footsteps = [f]) :
    ∃ w, tr.parts[i]? = some { parts[i] with swing := w } ∧ SwingC1 w parts[i].tStart parts[i].tEnd := by
  obtain ⟨w, hw, hs⟩ := hI.keep i hi
  have hsw := hs hi f hf
  have hel : (if i = 0 then parts[i].support.elapsedRatio else 0) = parts[i].support.elapsedRatio := by
    split
    · rfl
    · exact (hF i hi (by omega)).symm
  have hel1 : parts[i].support.elapsedRatio < 1 := by
    by_cases h : i = 0
    · subst h; exact hS.elapsed hi
    · rw [hF i hi (by omega)]; exact zero_lt_one
  unfold SwingOf at hsw
  rw [hel] at hsw
  have := swing_c1 _ _ _ _ _ _ _ _ (hS.virt i hi f hf) hS.rise0 hS.rise1 hel1 w hsw
  have hend : parts[i].tStart + (1 - parts[i].support.elapsedRatio) * g.virtual parts[i].support = parts[i].tEnd := by
    have := hD i hi
    unfold Wpg.duration at this
    unfold Wpg.virtual
    linarith
  rw [hend] at this
  exact ⟨w, hw, this⟩

/-- The yaws are continuously differentiable over the whole plan. -/
theorem yaw_motion (hne : 0 < parts.length) (h0 : ∀ h : 0 < parts.length, parts[0].tStart = t0) (σ : Side) :
    (∀ t, t0 ≤ t → t ≤ boundary t0 parts parts.length →
      ((tr.footYaw σ).interpolation t .value).2 = .ok (readAt (tr.footYaw σ) .value t)) ∧
    ContinuousOn (readAt (tr.footYaw σ) .value) (Set.Icc t0 (boundary t0 parts parts.length)) ∧
    ∀ t, t0 < t → t < boundary t0 parts parts.length →
      HasDerivAt (readAt (tr.footYaw σ) .value) (readAt (tr.footYaw σ) .speed t) t := by
  have hlt : ∀ j < parts.length, boundary t0 parts j < boundary t0 parts (j + 1) := fun j hj => boundary_lt hW h0 j hj
  have hyaw : tr.footYaw σ = knots (boundary t0 parts) (fun j => yaw j σ) (d0 σ) parts.length :=
    (hI.yaw σ).1 (by rintro ⟨h, -⟩; omega)
  have hfr := knots_fresh (boundary t0 parts) (fun j => yaw j σ) (d0 σ) parts.length hlt
  have hh : (knots (boundary t0 parts) (fun j => yaw j σ) (d0 σ) parts.length).points.head?
      = some (knot (boundary t0 parts) (fun j => yaw j σ) (d0 σ) 0) := by
    simp [knots, List.range_succ_eq_map]
  have hl : (knots (boundary t0 parts) (fun j => yaw j σ) (d0 σ) parts.length).points.getLast?
      = some (knot (boundary t0 parts) (fun j => yaw j σ) (d0 σ) parts.length) := by
    simp [knots, List.range_succ]
  rw [hyaw]
  have hm := boundary_mono hW hS tr0 tr hI hD hF h0 0 parts.length hne le_rfl
  obtain ⟨a, b, c⟩ := spline_c1 _ hfr _ _ hh hl
  exact ⟨fun t h1 h2 => (read_between _ hfr _ _ hh hl hm t h1 h2).1, b, a⟩

/-- In each part, the frame of a foot: its yaw, and a continuous position, which is the one of the swing for the foot
that flies, and does not move for a foot of the support. -/
theorem foot_part (hP : Places parts X yaw) (h0 : ∀ h : 0 < parts.length, parts[0].tStart = t0)
    (hd : ∀ (h : 0 < parts.length), ∀ f ∈ parts[0].support.footsteps, d0 f.side = 0) (i : Nat) (hi : i < parts.length)
    (σ : Side) :
    ∃ q : ℝ → V3, ContinuousOn q (Set.Icc parts[i].tStart parts[i].tEnd) ∧
      (∀ t, parts[i].tStart ≤ t → t ≤ parts[i].tEnd →
        tr.getTWorldFoot σ t = .ok (tr0.T.mul ⟨rotZ (readAt (tr.footYaw σ) .value t), q t⟩)) ∧
      ((∃ f ∈ parts[i].support.footsteps, f.side = σ) → ∀ t, q t = X i σ) ∧
      (∀ f, parts[i].support.footsteps = [f] → σ = f.side.other → ∃ w,
        tr.parts[i]? = some { parts[i] with swing := w } ∧ SwingC1 w parts[i].tStart parts[i].tEnd ∧ q = w.coord .value) := by
  have hne : 0 < parts.length := by omega
  have hread : ∀ t, parts[i].tStart ≤ t → t ≤ parts[i].tEnd →
      ((tr.footYaw σ).interpolation t .value).2 = .ok (readAt (tr.footYaw σ) .value t) := by
    intro t a b
    refine (yaw_motion hW hS tr0 tr hI hD hF hne h0 σ).1 t ?_ ?_
    · rw [← boundary_start (t0 := t0) hW h0 i hi] at a
      rcases Nat.eq_zero_or_pos i with rfl | h
      · exact a
      · exact (boundary_mono hW hS tr0 tr hI hD hF h0 0 i h (by omega)).le.trans a
    · rw [← boundary_end (t0 := t0) i hi] at b
      rcases Nat.lt_or_ge (i + 1) parts.length with h | h
      · exact b.trans (boundary_mono hW hS tr0 tr hI hD hF h0 _ _ h le_rfl).le
      · have : i + 1 = parts.length := by omega
        rw [← this]; exact b
  have build : ∀ (p : Part) (t : ℝ) (x : V3), parts[i].tStart ≤ t → t ≤ parts[i].tEnd → findPart tr.parts t = .ok p →
      p.footPosition σ t = .ok x →
      tr.getTWorldFoot σ t = .ok (tr0.T.mul ⟨rotZ (readAt (tr.footYaw σ) .value t), x⟩) := by
    intro p t x a b h1 h2
    simp only [Traj.getTWorldFoot, h1, h2, hread t a b, Bind.bind, Except.bind, hI.T, buildFrame]
  have hserved := served_at hW hS tr0 tr hI hD hF hP h0 i hi σ
  by_cases hc : ∃ f ∈ parts[i].support.footsteps, f.side = σ
  · refine ⟨fun _ => X i σ, continuousOn_const, fun t a b => ?_, fun _ _ => rfl, ?_⟩
    · obtain ⟨p, h1, -, -, h2, -⟩ := hserved t a b
      exact build p t _ a b h1 (h2 hc)
    · intro f hf hσ
      obtain ⟨f', hm, hs⟩ := hc
      rw [hf, List.mem_singleton] at hm
      subst hm
      rw [hσ] at hs
      exact absurd hs.symm (other_ne _)
  · rcases hW.shape i hi with ⟨f, hf⟩ | ⟨f, f', hf, hff⟩
    swap
    · exfalso
      apply hc
      rcases side_cases f.side σ with rfl | rfl
      · exact ⟨f, by rw [hf]; simp, rfl⟩
      · exact ⟨f', by rw [hf]; simp, hff⟩
    have hσ : σ = f.side.other := by
      rcases side_cases f.side σ with rfl | rfl
      · exact absurd ⟨f, by rw [hf]; simp, rfl⟩ hc
      · rfl
    obtain ⟨w, hw, hm⟩ := swing_motion hW hS tr0 tr hI hD hF i hi f hf
    obtain ⟨w', hw', r1, -, r3, -⟩ := swing_ends hW hS tr0 tr hI hD hF i hi f hf
    have e : w' = w := by rw [hw] at hw'; injection hw' with hw'; injection hw' with _ _ _ _ hw'; exact hw'.symm
    subst e
    refine ⟨w'.coord .value, hm.cont, fun t a b => ?_, fun h => absurd h hc, ?_⟩
    · obtain ⟨p, h1, h2, h3, -, h4⟩ := hserved t a b
      refine build p t _ a b h1 ?_
      rcases a.lt_or_eq with a' | a'
      · rcases b.lt_or_eq with b' | b'
        · have hp := h4 a' b'
          rw [hw] at hp
          cases hp
          have hb : parts[i].support.isBoth = false := by unfold Support.isBoth; rw [hf]; rfl
          have hside : parts[i].support.side = .ok f.side := by
            unfold Support.side
            rw [if_neg (by rw [hf]; simp)]
            rw [hf]
          rw [hσ]
          simp only [Part.footPosition, Part.isFlying, hb, hside, Bind.bind, Except.bind, Bool.false_eq_true, if_false,
            other_other, decide_true, if_true]
          exact hm.value t a b
        · rw [h3 b', ← hm.value t a b, b', r3, hσ]
      · rw [h2 a'.symm, ← hm.value t a b, ← a', r1, hσ]
    · intro f'' hf'' _
      rw [hf] at hf''
      cases hf''
      exact ⟨w', hw, hm, rfl⟩

/-- Both feet move continuously over the whole plan. -/
theorem foot_continuous (hP : Places parts X yaw) (h0 : ∀ h : 0 < parts.length, parts[0].tStart = t0)
    (hd : ∀ (h : 0 < parts.length), ∀ f ∈ parts[0].support.footsteps, d0 f.side = 0) (hne : 0 < parts.length) (σ : Side) :
    ContinuousOn (fun t => (tr.footFrame σ t).translation) (Set.Icc t0 (boundary t0 parts parts.length)) ∧
    ∀ a b, ContinuousOn (fun t => (tr.footFrame σ t).linear a b) (Set.Icc t0 (boundary t0 parts parts.length)) := by
  have hlt : ∀ j < parts.length, boundary t0 parts j < boundary t0 parts (j + 1) := fun j hj => boundary_lt hW h0 j hj
  have hy := (yaw_motion hW hS tr0 tr hI hD hF hne h0 σ).2.1
  have hpart : ∀ i (hi : i < parts.length), ∃ q : ℝ → V3,
      ContinuousOn q (Set.Icc (boundary t0 parts i) (boundary t0 parts (i + 1))) ∧
      ∀ t ∈ Set.Icc (boundary t0 parts i) (boundary t0 parts (i + 1)),
        tr.footFrame σ t = tr0.T.mul ⟨rotZ (readAt (tr.footYaw σ) .value t), q t⟩ := by
    intro i hi
    obtain ⟨q, h1, h2, -⟩ := foot_part hW hS tr0 tr hI hD hF hP h0 hd i hi σ
    rw [boundary_start hW h0 i hi, boundary_end i hi]
    refine ⟨q, h1, fun t ht => ?_⟩
    unfold Traj.footFrame
    rw [h2 t ht.1 ht.2]
  constructor
  · refine continuousOn_glue (boundary t0 parts) _ parts.length hlt fun i hi => ?_
    obtain ⟨q, h1, h2⟩ := hpart i hi
    have : ContinuousOn (fun t => tr0.T.linear.mulVec (q t) + tr0.T.translation)
        (Set.Icc (boundary t0 parts i) (boundary t0 parts (i + 1))) := by
      refine ContinuousOn.add ?_ continuousOn_const
      rw [continuousOn_pi] at h1 ⊢
      intro k
      simp only [Matrix.mulVec, dotProduct]
      exact continuousOn_finset_sum _ fun j _ => continuousOn_const.mul (h1 j)
    exact this.congr fun t ht => by rw [h2 t ht]; rfl
  · intro a b
    refine continuousOn_glue (boundary t0 parts) _ parts.length hlt fun i hi => ?_
    obtain ⟨q, -, h2⟩ := hpart i hi
    have hsub : Set.Icc (boundary t0 parts i) (boundary t0 parts (i + 1)) ⊆ Set.Icc t0 (boundary t0 parts parts.length) := by
      intro t ht
      refine ⟨le_trans ?_ ht.1, ht.2.trans ?_⟩
      · rcases Nat.eq_zero_or_pos i with rfl | h
        · exact le_rfl
        · exact (boundary_mono hW hS tr0 tr hI hD hF h0 0 i h (by omega)).le
      · rcases Nat.lt_or_ge (i + 1) parts.length with h | h
        · exact (boundary_mono hW hS tr0 tr hI hD hF h0 _ _ h le_rfl).le
        · have : i + 1 = parts.length := by omega
          rw [this]
    have hy' := hy.mono hsub
    have hrot : ∀ c d, ContinuousOn (fun t => rotZ (readAt (tr.footYaw σ) .value t) c d)
        (Set.Icc (boundary t0 parts i) (boundary t0 parts (i + 1))) := by
      have hcos := Real.continuous_cos.comp_continuousOn hy'
      have hsin := Real.continuous_sin.comp_continuousOn hy'
      intro c d
      fin_cases c <;> fin_cases d
      · exact hcos
      · exact hsin.neg
      · exact continuousOn_const
      · exact hsin
      · exact hcos
      · exact continuousOn_const
      · exact continuousOn_const
      · exact continuousOn_const
      · exact continuousOn_const
    have : ContinuousOn (fun t => (tr0.T.linear * rotZ (readAt (tr.footYaw σ) .value t)) a b)
        (Set.Icc (boundary t0 parts i) (boundary t0 parts (i + 1))) := by
      simp only [Matrix.mul_apply]
      exact continuousOn_finset_sum _ fun j _ => continuousOn_const.mul (hrot j b)
    exact this.congr fun t ht => by rw [h2 t ht]; rfl

/-- The velocities read inside a part. -/
theorem foot_velocity (hP : Places parts X yaw) (h0 : ∀ h : 0 < parts.length, parts[0].tStart = t0)
    (hd : ∀ (h : 0 < parts.length), ∀ f ∈ parts[0].support.footsteps, d0 f.side = 0) (i : Nat) (hi : i < parts.length)
    (σ : Side) (t : ℝ) (ha : parts[i].tStart < t) (hb : t < parts[i].tEnd) :
    (∀ f, parts[i].support.footsteps = [f] → ∃ v, tr.getVWorldFoot σ t = .ok v ∧
      HasDerivAt (fun s => (tr.footFrame σ s).translation) v t ∧ (σ = f.side → v = 0)) ∧
    (∀ f f', parts[i].support.footsteps = [f, f'] → tr.getVWorldFoot σ t = .error .runtimeError ∧
      HasDerivAt (fun s => (tr.footFrame σ s).translation) 0 t) := by
  have hne : 0 < parts.length := by omega
  obtain ⟨q, -, h2, h3, h4⟩ := foot_part hW hS tr0 tr hI hD hF hP h0 hd i hi σ
  have hev : (fun s => (tr.footFrame σ s).translation) =ᶠ[nhds t] fun s => tr0.T.linear.mulVec (q s) + tr0.T.translation := by
    filter_upwards [Icc_mem_nhds ha hb] with s hs
    unfold Traj.footFrame
    rw [h2 s hs.1 hs.2]
    rfl
  obtain ⟨p, hp, -, -, -, hp'⟩ := served_at hW hS tr0 tr hI hD hF hP h0 i hi σ t ha.le hb.le
  obtain ⟨w, hw, -⟩ := hI.keep i hi
  have e := hp' ha hb
  rw [hw] at e
  cases e
  have still : (∃ f ∈ parts[i].support.footsteps, f.side = σ) →
      HasDerivAt (fun s => (tr.footFrame σ s).translation) 0 t := by
    intro hc
    refine HasDerivAt.congr_of_eventuallyEq ?_ hev
    have : (fun s => tr0.T.linear.mulVec (q s) + tr0.T.translation)
        = fun _ => tr0.T.linear.mulVec (X i σ) + tr0.T.translation := by
      funext s; rw [h3 hc s]
    rw [this]
    exact hasDerivAt_const _ _
  constructor
  · intro f hf
    have hside : parts[i].support.side = .ok f.side := by
      unfold Support.side
      rw [if_neg (by rw [hf]; simp)]
      rw [hf]
    rcases side_cases f.side σ with rfl | rfl
    · refine ⟨0, ?_, still ⟨f, by rw [hf]; simp, rfl⟩, fun _ => rfl⟩
      have hn : ¬ f.side = f.side.other := fun e => other_ne _ e.symm
      simp only [Traj.getVWorldFoot, hp, hside, Bind.bind, Except.bind, if_neg hn]
    · obtain ⟨w', hw', hc, rfl⟩ := h4 f hf rfl
      have e : w' = w := by rw [hw] at hw'; injection hw' with hw'; injection hw' with _ _ _ _ hw'; exact hw'.symm
      subst e
      refine ⟨tr0.T.linear.mulVec (w'.coord .speed t), ?_, ?_, fun e => absurd e (other_ne _)⟩
      · simp only [Traj.getVWorldFoot, hp, hside, Bind.bind, Except.bind, other_other, if_true,
          hc.speed t ha.le hb.le, hI.T]
      · refine HasDerivAt.congr_of_eventuallyEq ?_ hev
        have hder := hc.deriv t ha hb
        refine HasDerivAt.add_const _ ?_
        rw [hasDerivAt_pi] at hder ⊢
        intro k
        simp only [Matrix.mulVec, dotProduct]
        exact HasDerivAt.fun_sum fun j _ => (hder j).const_mul _
  · intro f f' hf
    have hside : parts[i].support.side = .error .runtimeError := by
      unfold Support.side
      rw [if_pos (by rw [hf]; simp)]
    refine ⟨?_, ?_⟩
    · simp only [Traj.getVWorldFoot, hp, hside, Bind.bind, Except.bind]
    · apply still
      rcases hW.shape i hi with ⟨a, h⟩ | ⟨a, b, h, hab⟩
      · rw [hf] at h; cases h
      · rw [h]
        rcases side_cases a.side σ with rfl | rfl
        · exact ⟨a, by simp, rfl⟩
        · exact ⟨b, by simp, hab⟩

end

end Verif.Humanoid
