/-
Where the DCM and the CoM of a planned walk may be, given where its ZMP is (C196).
  /repo/src/placo/humanoid/lipm.cpp 8-41, 104-124; /repo/src/placo/humanoid/walk_pattern_generator.cpp (`plan_com`)
-/
import Verif.Humanoid.BetweenProps
import Verif.Humanoid.PlanExists
import Verif.Humanoid.ReferenceProps
import Mathlib.Analysis.Calculus.Deriv.MeanValue
import Mathlib.Analysis.SpecialFunctions.ExpDeriv
import Mathlib.Order.Monotone.Union

namespace Verif.Humanoid
open Verif.Tools Verif.Problem Verif.Robot Set

/-! ## One timestep -/

/-- `y' = s (y - w)`: the distance from `y` to a point beyond `w` grows like `exp (s t)` at least. -/
private theorem drift (s c h : ℝ) (y w : ℝ → ℝ) (hd : ∀ r, HasDerivAt y (s * (y r - w r)) r)
    (hw : ∀ r, 0 ≤ r → r ≤ h → 0 ≤ s * (c - w r)) : MonotoneOn (fun r => Real.exp (-(s * r)) * (y r - c)) (Icc 0 h) := by
  have hder : ∀ r, HasDerivAt (fun r => Real.exp (-(s * r)) * (y r - c)) (Real.exp (-(s * r)) * (s * (c - w r))) r := by
    intro r
    have h1 : HasDerivAt (fun r : ℝ => -(s * r)) (-(s * 1)) r := ((hasDerivAt_id r).const_mul s).neg
    have h2 := h1.exp.mul ((hd r).sub_const c)
    refine h2.congr_deriv ?_
    ring
  refine monotoneOn_of_deriv_nonneg (convex_Icc 0 h) (fun r _ => (hder r).continuousAt.continuousWithinAt)
    (fun r _ => (hder r).differentiableAt.differentiableWithinAt) fun r hr => ?_
  rw [(hder r).deriv]
  rw [interior_Icc] at hr
  exact mul_nonneg (Real.exp_pos _).le (hw r hr.1.le hr.2.le)

/-! ## One part -/

/-- Piecewise motions with a constant jerk, on `m` timesteps. -/
private def Jerky (ts dt : ℝ) (m : Nat) (f : Nat → ℝ → ℝ) : Prop :=
  ∀ k : Nat, k < m → ∃ (X : Nat → ℝ) (u : ℝ), ∀ r, 0 ≤ r → r ≤ dt → ∀ d, d < 3 → f d (ts + k * dt + r) = motion X u d r

private theorem pieces (G : ℝ → ℝ) (ts dt : ℝ) (hdt : 0 ≤ dt) (m : Nat)
    (h : ∀ k : Nat, k < m → MonotoneOn G (Icc (ts + k * dt) (ts + k * dt + dt))) : MonotoneOn G (Icc ts (ts + m * dt)) := by
  induction m with
  | zero =>
    intro a ha b hb hab
    simp only [Nat.cast_zero, zero_mul, add_zero, Icc_self, mem_singleton_iff] at ha hb
    rw [ha, hb]
  | succ m ih =>
    have h1 := ih fun k hk => h k (by omega)
    have h2 := h m (by omega)
    have hm : ts ≤ ts + m * dt := le_add_of_nonneg_right (by positivity)
    have h3 := h1.union_right h2 (isGreatest_Icc hm) (isLeast_Icc (le_add_of_nonneg_right hdt))
    rw [Icc_union_Icc_eq_Icc hm (le_add_of_nonneg_right hdt)] at h3
    rw [show ts + ((m + 1 : Nat) : ℝ) * dt = ts + m * dt + dt by push_cast; ring]
    exact h3

private theorem shifted (s c b h : ℝ) (F y : ℝ → ℝ) (he : ∀ r, 0 ≤ r → r ≤ h → F (b + r) = y r)
    (hm : MonotoneOn (fun r => Real.exp (-(s * r)) * (y r - c)) (Icc 0 h)) :
    MonotoneOn (fun t => Real.exp (-(s * t)) * (F t - c)) (Icc b (b + h)) := by
  intro t ht t' ht' hle
  have a1 : F t = y (t - b) := by rw [← he (t - b) (by linarith [ht.1]) (by linarith [ht.2])]; congr 1; ring
  have a2 : F t' = y (t' - b) := by rw [← he (t' - b) (by linarith [ht'.1]) (by linarith [ht'.2])]; congr 1; ring
  have key := hm (a := t - b) ⟨by linarith [ht.1], by linarith [ht.2]⟩ (b := t' - b) ⟨by linarith [ht'.1], by linarith [ht'.2]⟩
    (by linarith)
  have e : ∀ x, Real.exp (-(s * x)) = Real.exp (-(s * b)) * Real.exp (-(s * (x - b))) := by
    intro x; rw [← Real.exp_add]; congr 1; ring
  simp only [a1, a2]
  rw [e t, e t', mul_assoc, mul_assoc]
  exact mul_le_mul_of_nonneg_left key (Real.exp_pos _).le

private theorem jerky_dcm {ts dt : ℝ} {m : Nat} {f : Nat → ℝ → ℝ} (hdt : 0 < dt) (hf : Jerky ts dt m f) {ω c : ℝ} (hω : 0 < ω)
    (hz : ∀ t, ts ≤ t → t ≤ ts + m * dt → f 0 t - 1 / ω ^ 2 * f 2 t ≤ c) :
    MonotoneOn (fun t => Real.exp (-(ω * t)) * (f 0 t + 1 / ω * f 1 t - c)) (Icc ts (ts + m * dt)) := by
  refine pieces _ ts dt hdt.le m fun k hk => ?_
  obtain ⟨X, u, hX⟩ := hf k hk
  refine shifted ω c _ dt (fun t => f 0 t + 1 / ω * f 1 t) (fun r => motion X u 0 r + 1 / ω * motion X u 1 r)
    (fun r h0 h1 => by simp only [hX r h0 h1 0 (by omega), hX r h0 h1 1 (by omega)]) ?_
  refine drift ω c dt _ (fun r => motion X u 0 r - 1 / ω ^ 2 * motion X u 2 r) (fun r => ?_) fun r h0 h1 => ?_
  · refine ((motion_deriv X u 0 (by omega) r).add ((motion_deriv X u 1 (by omega) r).const_mul (1 / ω))).congr_deriv ?_
    field_simp
    ring
  · have hk' : (k : ℝ) + 1 ≤ m := by exact_mod_cast hk
    have := hz (ts + k * dt + r) (by have : 0 ≤ (k : ℝ) * dt := by positivity
                                     linarith) (by nlinarith)
    rw [hX r h0 h1 0 (by omega), hX r h0 h1 2 (by omega)] at this
    exact mul_nonneg hω.le (by linarith)

private theorem jerky_com {ts dt : ℝ} {m : Nat} {f : Nat → ℝ → ℝ} (hdt : 0 < dt) (hf : Jerky ts dt m f) {ω c : ℝ} (hω : 0 < ω)
    (hξ : ∀ t, ts ≤ t → t ≤ ts + m * dt → f 0 t + 1 / ω * f 1 t ≤ c) :
    MonotoneOn (fun t => Real.exp (-(-ω * t)) * (-f 0 t - -c)) (Icc ts (ts + m * dt)) := by
  refine pieces _ ts dt hdt.le m fun k hk => ?_
  obtain ⟨X, u, hX⟩ := hf k hk
  refine shifted (-ω) (-c) _ dt (fun t => -f 0 t) (fun r => -motion X u 0 r)
    (fun r h0 h1 => by simp only [hX r h0 h1 0 (by omega)]) ?_
  refine drift (-ω) (-c) dt _ (fun r => -(motion X u 0 r + 1 / ω * motion X u 1 r)) (fun r => ?_) fun r h0 h1 => ?_
  · refine (motion_deriv X u 0 (by omega) r).neg.congr_deriv ?_
    field_simp
    ring
  · have hk' : (k : ℝ) + 1 ≤ m := by exact_mod_cast hk
    have := hξ (ts + k * dt + r) (by have : 0 ≤ (k : ℝ) * dt := by positivity
                                     linarith) (by nlinarith)
    rw [hX r h0 h1 0 (by omega), hX r h0 h1 1 (by omega)] at this
    nlinarith

/-! ## The trajectory of a LIPM -/

private noncomputable def point : Except Err V2 → V2
  | .ok v => v
  | .error _ => ⟨0, 0⟩

/-- What is read along a direction. -/
private noncomputable def along (T : LTraj) (nx ny : ℝ) (d : Nat) (t : ℝ) : ℝ :=
  nx * (point (T.component t d)).x + ny * (point (T.component t d)).y

private theorem closed_step {l : Lipm} (h : LipmOK l) (hdt : 0 < l.dt) (sol : Nat → ℝ) (k : Nat) (hk : k < l.timesteps) (r : ℝ)
    (hr0 : 0 ≤ r) (hr1 : r ≤ l.dt) (d : Nat) (hd : d < 3) :
    (l.getTrajectory sol).component (l.tStart + k * l.dt + r) d =
      .ok ⟨motion (axisState l.x sol k) (inputs l.x sol k) d r, motion (axisState l.y sol k) (inputs l.y sol k) d r⟩ := by
  rcases hr1.lt_or_eq with hlt | heq
  · exact (traj_inside h hdt sol k hk r hr0 hlt).1 d hd
  · have := traj_component h hdt (by omega) sol (k + 1) d (by omega) hd
    push_cast at this
    rw [heq, ← next_state h.x sol k d hd, ← next_state h.y sol k d hd,
      show l.tStart + k * l.dt + l.dt = l.tStart + (k + 1) * l.dt by ring, this]
    rfl

private theorem lipm_jerky {l : Lipm} (h : LipmOK l) (hdt : 0 < l.dt) (sol : Nat → ℝ) (nx ny : ℝ) :
    Jerky l.tStart l.dt l.timesteps (along (l.getTrajectory sol) nx ny) := by
  intro k hk
  refine ⟨fun d => nx * axisState l.x sol k d + ny * axisState l.y sol k d, nx * inputs l.x sol k + ny * inputs l.y sol k, ?_⟩
  intro r h0 h1 d hd
  unfold along
  rw [closed_step h hdt sol k hk r h0 h1 d hd]
  have e : d = 0 ∨ d = 1 ∨ d = 2 := by omega
  rcases e with rfl | rfl | rfl <;> simp only [point, motion] <;> ring

private theorem locate_step (ts dt t : ℝ) (m : Nat) (hm : 0 < m) (h0 : ts ≤ t) (h1 : t ≤ ts + m * dt) :
    ∃ k : Nat, k < m ∧ ∃ r, 0 ≤ r ∧ r ≤ dt ∧ t = ts + k * dt + r := by
  induction m with
  | zero => omega
  | succ m ih =>
    by_cases hc : 0 < m ∧ t ≤ ts + m * dt
    · obtain ⟨k, hk, r, hr⟩ := ih hc.1 hc.2
      exact ⟨k, by omega, r, hr⟩
    · refine ⟨m, by omega, t - ts - m * dt, ?_, ?_, by ring⟩
      · by_cases h : 0 < m
        · have : ¬ t ≤ ts + m * dt := fun h' => hc ⟨h, h'⟩
          linarith [not_le.1 this]
        · have : m = 0 := by omega
          subst this
          simp only [Nat.cast_zero, zero_mul, sub_zero]
          linarith
      · push_cast at h1
        linarith

/-! ## The walk -/

/-- What is known of each part. -/
private theorem part_reads (g : Wpg) (t0 : ℝ) (ss : List Support) (init : ComState) (hd : ∀ s ∈ ss, 0 < g.duration s)
    (parts : List Part) (te : ℝ) (h : g.planCom t0 ss init = .ok (some (parts, te))) (nx ny : ℝ) (i : Nat) (hi : i < parts.length) :
    ∃ (dt : ℝ) (m : Nat), 0 < dt ∧ parts[i].tEnd = parts[i].tStart + m * dt ∧
      Jerky parts[i].tStart dt m (along parts[i].com nx ny) ∧
      ∀ t, parts[i].tStart ≤ t → t ≤ parts[i].tEnd → ∀ d : Nat, d < 3 → ∃ v, parts[i].com.component t d = .ok v := by
  obtain ⟨ps, n, sol, hc, -, hl, hg⟩ := planCom_chained g t0 ss init hd parts te h
  obtain ⟨hlen, -, hget⟩ := hc.get
  obtain ⟨b1, b2, b3, -⟩ := hg i (by omega) hi
  obtain ⟨a1, a2, a3, a4, a5, a6, -⟩ := hget i (by omega) (by omega)
  have hm := timesteps_pos g ss[i]
  have hpos : 0 < ps[i].lipm.dt := by
    rw [a4]; exact div_pos (hd _ (List.getElem_mem (by omega))) (by exact_mod_cast hm)
  have hend : parts[i].tEnd = parts[i].tStart + ps[i].lipm.timesteps * ps[i].lipm.dt := by
    rw [b1, b2, a1, a4, a5, mul_div_cancel₀]
    exact_mod_cast hm.ne'
  have hj := lipm_jerky a3 hpos sol nx ny
  rw [a6, ← b1, ← b3] at hj
  refine ⟨ps[i].lipm.dt, ps[i].lipm.timesteps, hpos, hend, hj, fun t h0 h1 d hd3 => ?_⟩
  rw [hend] at h1
  obtain ⟨k, hk, r, r0, r1, rfl⟩ := locate_step _ _ t _ (by omega) h0 h1
  have := closed_step a3 hpos sol k hk r r0 r1 d hd3
  rw [a6, ← b1, ← b3] at this
  exact ⟨_, this⟩

private theorem dcm_read {T : LTraj} {t ω : ℝ} {p v : V2} (hp : T.component t 0 = .ok p) (hv : T.component t 1 = .ok v) :
    T.dcm t ω = .ok ⟨p.x + 1 / ω * v.x, p.y + 1 / ω * v.y⟩ := by
  have hp' : T.pos t = .ok p := hp
  have hv' : T.vel t = .ok v := hv
  unfold LTraj.dcm
  rw [hp', hv']
  rfl

private theorem zmp_read {T : LTraj} {t ω2 : ℝ} {p a : V2} (hp : T.component t 0 = .ok p) (ha : T.component t 2 = .ok a) :
    T.zmp t ω2 = .ok ⟨p.x - 1 / ω2 * a.x, p.y - 1 / ω2 * a.y⟩ := by
  have hp' : T.pos t = .ok p := hp
  have ha' : T.acc t = .ok a := ha
  unfold LTraj.zmp
  rw [hp', ha']
  rfl

/-- Specification: the ZMP of the walk is never beyond the line `nx x + ny y = c`. -/
def ZmpBefore (g : Wpg) (parts : List Part) (nx ny c : ℝ) : Prop :=
  ∀ (i : Nat) (_ : i < parts.length) (t : ℝ), parts[i].tStart ≤ t → t ≤ parts[i].tEnd →
    ∀ z, parts[i].com.zmp t g.omega2 = .ok z → nx * z.x + ny * z.y ≤ c

private theorem chain_parts (parts : List Part) (hc : Contiguous parts) (G : Nat → ℝ → ℝ)
    (hmono : ∀ (i : Nat) (_ : i < parts.length), MonotoneOn (G i) (Icc parts[i].tStart parts[i].tEnd))
    (hjoin : ∀ (i : Nat) (_ : i + 1 < parts.length), G i parts[i].tEnd = G (i + 1) parts[i + 1].tStart) :
    ∀ (n i j : Nat) (_ : j = i + n) (_ : i < parts.length) (_ : j < parts.length) (t t' : ℝ), parts[i].tStart ≤ t → t ≤ parts[i].tEnd →
      parts[j].tStart ≤ t' → t' ≤ parts[j].tEnd → t ≤ t' → G i t ≤ G j t' := by
  intro n
  induction n with
  | zero =>
    intro i j hj hi hj' t t' h1 h2 h3 h4 h5
    rw [Nat.add_zero] at hj
    subst hj
    exact hmono j hi ⟨h1, h2⟩ ⟨h3, h4⟩ h5
  | succ n ih =>
    intro i j hj hi hj' t t' h1 h2 h3 h4 h5
    have hi1 : i + 1 < parts.length := by omega
    have e1 := hmono i hi ⟨h1, h2⟩ ⟨hc.ordered i hi, le_rfl⟩ h2
    rw [hjoin i hi1] at e1
    have hle : ∀ (k : Nat) (hk : i + 1 + k < parts.length), parts[i + 1].tStart ≤ parts[i + 1 + k].tStart := by
      intro k
      induction k with
      | zero => intro _; exact le_rfl
      | succ k ihk =>
        intro hk
        have a := ihk (by omega)
        have b := hc.ordered (i + 1 + k) (by omega)
        have c := hc.joined (i + 1 + k) (by omega)
        exact a.trans (b.trans (le_of_eq c))
    refine e1.trans (ih (i + 1) j (by omega) hi1 hj' _ t' le_rfl (hc.ordered _ hi1) h3 h4 (le_trans ?_ h3))
    have := hle (j - (i + 1)) (by omega)
    simpa only [Nat.add_sub_cancel' (by omega : i + 1 ≤ j)] using this

/-- **C196.** In every plan, for every line that the ZMP never crosses: between two times of the walk, in the same part or not, the distance
of the DCM beyond the line is multiplied by `exp (ω (t' - t))` at least. Once the DCM is beyond, it goes away exponentially. -/
theorem C196 (g : Wpg) (hh : 0 < g.p.walkComHeight) (t0 : ℝ) (ss : List Support) (init : ComState) (hd : ∀ s ∈ ss, 0 < g.duration s)
    (parts : List Part) (te : ℝ) (h : g.planCom t0 ss init = .ok (some (parts, te))) (nx ny c : ℝ) (hz : ZmpBefore g parts nx ny c)
    (i j : Nat) (hij : i ≤ j) (hj : j < parts.length) (t t' : ℝ) (ht0 : parts[i].tStart ≤ t) (ht1 : t ≤ parts[i].tEnd)
    (ht0' : parts[j].tStart ≤ t') (ht1' : t' ≤ parts[j].tEnd) (hle : t ≤ t') :
    ∃ ξ ξ', parts[i].com.dcm t g.omega = .ok ξ ∧ parts[j].com.dcm t' g.omega = .ok ξ' ∧
      Real.exp (g.omega * (t' - t)) * (nx * ξ.x + ny * ξ.y - c) ≤ nx * ξ'.x + ny * ξ'.y - c := by
  have hω : 0 < g.omega := (C84_omega _ hh).1
  obtain ⟨-, hcont, -, -, hbound⟩ := C86 g t0 ss init hd parts te h
  have hmono : ∀ (i : Nat) (hi : i < parts.length), MonotoneOn (fun t => Real.exp (-(g.omega * t)) *
      (along parts[i].com nx ny 0 t + 1 / g.omega * along parts[i].com nx ny 1 t - c))
      (Icc parts[i].tStart parts[i].tEnd) := by
    intro i hi
    obtain ⟨dt, m, hdt, hend, hjerk, hr⟩ := part_reads g t0 ss init hd parts te h nx ny i hi
    rw [hend]
    refine jerky_dcm hdt hjerk hω fun t h0 h1 => ?_
    rw [← hend] at h1
    obtain ⟨p, hp⟩ := hr t h0 h1 0 (by omega)
    obtain ⟨a, ha⟩ := hr t h0 h1 2 (by omega)
    have := hz i hi t h0 h1 _ (zmp_read hp ha)
    simp only [along, Nat.cast_zero, Nat.cast_ofNat] at hp ha ⊢
    rw [hp, ha]
    simp only [point]
    have e : g.omega2 = g.omega ^ 2 := rfl
    rw [e] at this
    linarith
  have read : ∀ (i : Nat) (hi : i < parts.length) (t : ℝ), parts[i].tStart ≤ t → t ≤ parts[i].tEnd → ∃ ξ,
      parts[i].com.dcm t g.omega = .ok ξ ∧
      along parts[i].com nx ny 0 t + 1 / g.omega * along parts[i].com nx ny 1 t = nx * ξ.x + ny * ξ.y := by
    intro i hi t h0 h1
    obtain ⟨dt, m, hdt, hend, hjerk, hr⟩ := part_reads g t0 ss init hd parts te h nx ny i hi
    obtain ⟨p, hp⟩ := hr t h0 h1 0 (by omega)
    obtain ⟨v, hv⟩ := hr t h0 h1 1 (by omega)
    refine ⟨_, dcm_read hp hv, ?_⟩
    simp only [along, Nat.cast_zero, Nat.cast_one] at hp hv ⊢
    rw [hp, hv]
    simp only [point]
    ring
  have hi : i < parts.length := by omega
  obtain ⟨ξ, r1, r2⟩ := read i hi t ht0 ht1
  obtain ⟨ξ', r1', r2'⟩ := read j hj t' ht0' ht1'
  refine ⟨ξ, ξ', r1, r1', ?_⟩
  have key := chain_parts parts hcont (fun i t => Real.exp (-(g.omega * t)) *
      (along (parts[i]?.getD parts[j]).com nx ny 0 t + 1 / g.omega * along (parts[i]?.getD parts[j]).com nx ny 1 t - c))
    (fun i hi => by simpa [List.getElem?_eq_getElem hi] using hmono i hi)
    (fun i hi => by
      obtain ⟨v0, e0, e0'⟩ := hbound i hi 0 (by omega)
      obtain ⟨v1, e1, e1'⟩ := hbound i hi 1 (by omega)
      have hi' : i < parts.length := by omega
      rw [hcont.joined i hi] at e0 e1
      simp only [Nat.cast_zero, Nat.cast_one] at e0 e0' e1 e1'
      simp only [List.getElem?_eq_getElem hi, List.getElem?_eq_getElem hi', Option.getD_some, along, Nat.cast_zero, Nat.cast_one, e0, e0', e1, e1',
        hcont.joined i hi])
    (j - i) i j (by omega) hi hj t t' ht0 ht1 ht0' ht1' hle
  simp only [List.getElem?_eq_getElem hi, List.getElem?_eq_getElem hj, Option.getD_some, r2, r2'] at key
  have e := mul_le_mul_of_nonneg_left key (Real.exp_pos (g.omega * t')).le
  rw [← mul_assoc, ← mul_assoc, ← Real.exp_add, ← Real.exp_add, show g.omega * t' + -(g.omega * t') = 0 by ring, Real.exp_zero,
    one_mul, show g.omega * t' + -(g.omega * t) = g.omega * (t' - t) by ring] at e
  exact e

/-- **C196**, staying: when the last DCM of the plan is not beyond the line either, no DCM of the plan is, and the distance of the CoM beyond
the line is divided by `exp (ω (t - t0))` at least. A CoM that starts before the line never crosses it. -/
theorem C196_stays (g : Wpg) (hh : 0 < g.p.walkComHeight) (t0 : ℝ) (ss : List Support) (init : ComState) (hd : ∀ s ∈ ss, 0 < g.duration s)
    (parts : List Part) (te : ℝ) (h : g.planCom t0 ss init = .ok (some (parts, te))) (hne : parts ≠ []) (nx ny c : ℝ)
    (hz : ZmpBefore g parts nx ny c)
    (hlast : ∀ ξ, (parts.getLast hne).com.dcm te g.omega = .ok ξ → nx * ξ.x + ny * ξ.y ≤ c)
    (i : Nat) (hi : i < parts.length) (t : ℝ) (ht0 : parts[i].tStart ≤ t) (ht1 : t ≤ parts[i].tEnd) :
    ∃ ξ p, parts[i].com.dcm t g.omega = .ok ξ ∧ parts[i].com.pos t = .ok p ∧ nx * ξ.x + ny * ξ.y ≤ c ∧
      nx * p.x + ny * p.y - c ≤ Real.exp (-(g.omega * (t - t0))) * (nx * init.pos.x + ny * init.pos.y - c) := by
  have hω : 0 < g.omega := (C84_omega _ hh).1
  obtain ⟨-, hcont, -, hends, hbound⟩ := C86 g t0 ss init hd parts te h
  obtain ⟨s1, s2, s3, -, -⟩ := hends hne
  have hp : 0 < parts.length := List.length_pos_iff.2 hne
  rw [List.head_eq_getElem] at s1 s3
  rw [List.getLast_eq_getElem] at s2 hlast
  have order : ∀ (k i : Nat) (_ : i + k < parts.length), parts[i].tEnd ≤ parts[i + k].tEnd := by
    intro k
    induction k with
    | zero => intro i _; exact le_rfl
    | succ k ih =>
      intro i hk
      refine (ih i (by omega)).trans ?_
      rw [hcont.joined (i + k) (by omega)]
      exact hcont.ordered (i + k + 1) (by omega)
  have hdcm : ∀ (i : Nat) (hi : i < parts.length) (t : ℝ), parts[i].tStart ≤ t → t ≤ parts[i].tEnd → ∃ ξ,
      parts[i].com.dcm t g.omega = .ok ξ ∧ nx * ξ.x + ny * ξ.y ≤ c := by
    intro i hi t h0 h1
    have hlt : parts.length - 1 < parts.length := by omega
    have hte : t ≤ te := by
      rw [← s2]
      refine h1.trans ?_
      have := order (parts.length - 1 - i) i (by omega)
      simpa only [Nat.add_sub_cancel' (by omega : i ≤ parts.length - 1)] using this
    obtain ⟨ξ, ξ', e1, e2, e3⟩ := C196 g hh t0 ss init hd parts te h nx ny c hz i (parts.length - 1) (by omega) hlt t te h0 h1
      (by rw [← s2]; exact hcont.ordered _ hlt) (le_of_eq s2.symm) hte
    refine ⟨ξ, e1, ?_⟩
    have hl := hlast ξ' e2
    by_contra hn
    have : 0 < Real.exp (g.omega * (te - t)) * (nx * ξ.x + ny * ξ.y - c) :=
      mul_pos (Real.exp_pos _) (by linarith [not_le.1 hn])
    linarith
  obtain ⟨ξ, e1, e2⟩ := hdcm i hi t ht0 ht1
  obtain ⟨-, -, -, -, -, hri⟩ := part_reads g t0 ss init hd parts te h nx ny i hi
  obtain ⟨p, hpr⟩ := hri t ht0 ht1 0 (by omega)
  refine ⟨ξ, p, e1, hpr, e2, ?_⟩
  have hmono : ∀ (i : Nat) (hi : i < parts.length), MonotoneOn (fun t => Real.exp (-(-g.omega * t)) *
      (-along parts[i].com nx ny 0 t - -c)) (Icc parts[i].tStart parts[i].tEnd) := by
    intro i hi
    obtain ⟨dt, m, hdt, hend, hjerk, hr⟩ := part_reads g t0 ss init hd parts te h nx ny i hi
    rw [hend]
    refine jerky_com hdt hjerk hω fun t h0 h1 => ?_
    rw [← hend] at h1
    obtain ⟨p, hp⟩ := hr t h0 h1 0 (by omega)
    obtain ⟨v, hv⟩ := hr t h0 h1 1 (by omega)
    obtain ⟨ξ, q1, q2⟩ := hdcm i hi t h0 h1
    rw [dcm_read hp hv] at q1
    cases q1
    simp only [along, Nat.cast_zero, Nat.cast_one] at hp hv ⊢
    rw [hp, hv]
    simp only [point]
    linarith
  have hstart : t0 ≤ t := by
    rw [← s1]
    have hle : ∀ (k : Nat) (hk : k < parts.length), parts[0].tStart ≤ parts[k].tStart := by
      intro k
      induction k with
      | zero => intro _; exact le_rfl
      | succ k ihk =>
        intro hk
        exact (ihk (by omega)).trans ((hcont.ordered k (by omega)).trans (le_of_eq (hcont.joined k hk)))
    exact (hle i hi).trans ht0
  have key := chain_parts parts hcont (fun k t => Real.exp (-(-g.omega * t)) * (-along (parts[k]?.getD parts[i]).com nx ny 0 t - -c))
    (fun k hk => by simpa [List.getElem?_eq_getElem hk] using hmono k hk)
    (fun k hk => by
      obtain ⟨v0, e0, e0'⟩ := hbound k hk 0 (by omega)
      have hk' : k < parts.length := by omega
      rw [hcont.joined k hk] at e0
      simp only [Nat.cast_zero] at e0 e0'
      simp only [List.getElem?_eq_getElem hk, List.getElem?_eq_getElem hk', Option.getD_some, along, Nat.cast_zero, e0, e0', hcont.joined k hk])
    i 0 i (by omega) hp hi t0 t (le_of_eq s1) (by rw [← s1]; exact hcont.ordered 0 hp) ht0 ht1 hstart
  have s3' : parts[0].com.component t0 0 = .ok init.pos := s3
  simp only [Nat.cast_zero] at hpr
  simp only [List.getElem?_eq_getElem hi, List.getElem?_eq_getElem hp, Option.getD_some, along, Nat.cast_zero, hpr, s3', point] at key
  have e := mul_le_mul_of_nonneg_left key (Real.exp_pos (-(g.omega * t))).le
  rw [← mul_assoc, ← mul_assoc, ← Real.exp_add, ← Real.exp_add, show -(g.omega * t) + -(-g.omega * t) = 0 by ring, Real.exp_zero,
    one_mul, show -(g.omega * t) + -(-g.omega * t0) = -(g.omega * (t - t0)) by ring] at e
  nlinarith

/-- **C196**, when the plan stops: if the last support is an end (with hard constraints and a sound QP solver), the DCM ends on the ZMP, so
that no DCM of the walk is beyond a line that the ZMP never crosses, and a CoM that starts before the line never crosses it. -/
theorem C196_rest (g : Wpg) (hh : 0 < g.p.walkComHeight) (hsoft : g.soft = false) (hor : SolverSound g.oracle)
    (t0 : ℝ) (ss : List Support) (hstand : ∀ s ∈ ss, Stands s) (init : ComState) (hd : ∀ s ∈ ss, 0 < g.duration s)
    (hqr : ∀ r, g.planLoop t0 init ss t0 0 none = .ok r →
      QRContract (newProblem r.2.1) g.qr (r.1.map Planned.cs).flatten)
    (parts : List Part) (te : ℝ) (h : g.planCom t0 ss init = .ok (some (parts, te))) (hne : ss ≠ [])
    (hend : (ss.getLast hne).isEnd = true) (nx ny c : ℝ) (hz : ZmpBefore g parts nx ny c)
    (hinit : nx * init.pos.x + ny * init.pos.y ≤ c)
    (i : Nat) (hi : i < parts.length) (t : ℝ) (ht0 : parts[i].tStart ≤ t) (ht1 : t ≤ parts[i].tEnd) :
    ∃ ξ p, parts[i].com.dcm t g.omega = .ok ξ ∧ parts[i].com.pos t = .ok p ∧ nx * ξ.x + ny * ξ.y ≤ c ∧ nx * p.x + ny * p.y ≤ c := by
  obtain ⟨hlen, hcont, -, hends, -⟩ := C86 g t0 ss init hd parts te h
  have hne' : parts ≠ [] := fun e => by rw [e] at hi; exact absurd hi (by simp)
  have hl : parts.length - 1 < parts.length := by omega
  have hl' : parts.length - 1 < ss.length := by omega
  obtain ⟨-, s2, -⟩ := hends hne'
  have hlast : ∀ ξ, (parts.getLast hne').com.dcm te g.omega = .ok ξ → nx * ξ.x + ny * ξ.y ≤ c := by
    intro ξ hξ
    rw [List.getLast_eq_getElem] at s2 hξ hend
    simp only [← hlen] at hend
    obtain ⟨f, -, p1, p2, p3⟩ := (C108 g hsoft hor t0 ss hstand init hd hqr parts te h _ hl hl').2 hend
    rw [s2] at p1 p2 p3
    have hd' := dcm_read (ω := g.omega) p1 p2
    have hz' := hz _ hl te (by rw [← s2]; exact hcont.ordered _ hl) (le_of_eq s2.symm) _ (zmp_read p1 p3)
    rw [hξ] at hd'
    cases hd'
    simp only [mul_zero, add_zero, sub_zero] at hz' ⊢
    exact hz'
  obtain ⟨ξ, p, e1, e2, e3, e4⟩ := C196_stays g hh t0 ss init hd parts te h hne' nx ny c hz hlast i hi t ht0 ht1
  refine ⟨ξ, p, e1, e2, e3, ?_⟩
  have : Real.exp (-(g.omega * (t - t0))) * (nx * init.pos.x + ny * init.pos.y - c) ≤ 0 :=
    mul_nonpos_of_nonneg_of_nonpos (Real.exp_pos _).le (by linarith)
  linarith

/-! ## The hypotheses are met -/

/-- In each direction, each plan has a line that its ZMP never crosses. -/
theorem zmpBefore_exists (g : Wpg) (t0 : ℝ) (ss : List Support) (init : ComState) (hd : ∀ s ∈ ss, 0 < g.duration s)
    (parts : List Part) (te : ℝ) (h : g.planCom t0 ss init = .ok (some (parts, te))) (nx ny : ℝ) :
    ∃ c, ZmpBefore g parts nx ny c := by
  have one : ∀ (i : Nat) (hi : i < parts.length), ∃ c, ∀ t, parts[i].tStart ≤ t → t ≤ parts[i].tEnd →
      along parts[i].com nx ny 0 t - 1 / g.omega2 * along parts[i].com nx ny 2 t ≤ c := by
    intro i hi
    obtain ⟨dt, m, hdt, hend, hjerk, -⟩ := part_reads g t0 ss init hd parts te h nx ny i hi
    have step : ∀ k : Nat, k < m → ∃ c, ∀ r, 0 ≤ r → r ≤ dt →
        along parts[i].com nx ny 0 (parts[i].tStart + k * dt + r) -
          1 / g.omega2 * along parts[i].com nx ny 2 (parts[i].tStart + k * dt + r) ≤ c := by
      intro k hk
      obtain ⟨X, u, hX⟩ := hjerk k hk
      obtain ⟨C, hC⟩ := (isCompact_Icc (a := (0 : ℝ)) (b := dt)).exists_bound_of_continuousOn
        (f := fun r => motion X u 0 r - 1 / g.omega2 * motion X u 2 r)
        (by simp only [motion]; fun_prop)
      refine ⟨C, fun r h0 h1 => ?_⟩
      rw [hX r h0 h1 0 (by omega), hX r h0 h1 2 (by omega)]
      exact (le_abs_self _).trans (hC r ⟨h0, h1⟩)
    have all : ∀ n : Nat, n ≤ m → ∃ c, ∀ k : Nat, k < n → ∀ r, 0 ≤ r → r ≤ dt →
        along parts[i].com nx ny 0 (parts[i].tStart + k * dt + r) -
          1 / g.omega2 * along parts[i].com nx ny 2 (parts[i].tStart + k * dt + r) ≤ c := by
      intro n
      induction n with
      | zero => exact fun _ => ⟨0, fun k hk => absurd hk (by omega)⟩
      | succ n ih =>
        intro hn
        obtain ⟨c, hc⟩ := ih (by omega)
        obtain ⟨c', hc'⟩ := step n (by omega)
        refine ⟨max c c', fun k hk r h0 h1 => ?_⟩
        by_cases e : k = n
        · subst e; exact (hc' r h0 h1).trans (le_max_right _ _)
        · exact (hc k (by omega) r h0 h1).trans (le_max_left _ _)
    obtain ⟨c, hc⟩ := all m le_rfl
    by_cases hm : 0 < m
    · refine ⟨c, fun t h0 h1 => ?_⟩
      rw [hend] at h1
      obtain ⟨k, hk, r, r0, r1, rfl⟩ := locate_step _ _ t _ hm h0 h1
      exact hc k hk r r0 r1
    · have e : m = 0 := by omega
      subst e
      simp only [Nat.cast_zero, zero_mul, add_zero] at hend
      refine ⟨along parts[i].com nx ny 0 parts[i].tStart - 1 / g.omega2 * along parts[i].com nx ny 2 parts[i].tStart, fun t h0 h1 => ?_⟩
      rw [le_antisymm (h1.trans (le_of_eq hend)) h0]
  have all : ∀ n : Nat, n ≤ parts.length → ∃ c, ∀ (i : Nat) (_ : i < n) (hi : i < parts.length) (t : ℝ), parts[i].tStart ≤ t →
      t ≤ parts[i].tEnd → along parts[i].com nx ny 0 t - 1 / g.omega2 * along parts[i].com nx ny 2 t ≤ c := by
    intro n
    induction n with
    | zero => exact fun _ => ⟨0, fun k hk => absurd hk (by omega)⟩
    | succ n ih =>
      intro hn
      obtain ⟨c, hc⟩ := ih (by omega)
      obtain ⟨c', hc'⟩ := one n (by omega)
      refine ⟨max c c', fun k hk hi t h0 h1 => ?_⟩
      by_cases e : k = n
      · subst e; exact (hc' t h0 h1).trans (le_max_right _ _)
      · exact (hc k (by omega) hi t h0 h1).trans (le_max_left _ _)
  obtain ⟨c, hc⟩ := all _ le_rfl
  refine ⟨c, fun i hi t h0 h1 z hz => ?_⟩
  obtain ⟨-, -, -, -, -, hr⟩ := part_reads g t0 ss init hd parts te h nx ny i hi
  obtain ⟨p, hp⟩ := hr t h0 h1 0 (by omega)
  obtain ⟨a, ha⟩ := hr t h0 h1 2 (by omega)
  have := hc i hi hi t h0 h1
  simp only [along, Nat.cast_zero, Nat.cast_ofNat] at hp ha this
  rw [zmp_read hp ha] at hz
  cases hz
  rw [hp, ha] at this
  simp only [point] at this
  linarith

/-- A plan that stops: for each direction, a line that the DCM and the CoM never cross. -/
example (nx ny : ℝ) : ∃ parts te c, (restWpg 20).planCom 0 [restSupport 0] restState = .ok (some (parts, te)) ∧
    ∀ (i : Nat) (hi : i < parts.length) (t : ℝ), parts[i].tStart ≤ t → t ≤ parts[i].tEnd → ∃ ξ p,
      parts[i].com.dcm t (restWpg 20).omega = .ok ξ ∧ parts[i].com.pos t = .ok p ∧ nx * ξ.x + ny * ξ.y ≤ c ∧ nx * p.x + ny * p.y ≤ c := by
  obtain ⟨parts, te, h⟩ := rest_plan
  have ht : (restWpg 20).timesteps (restSupport 0) = 10 := rest_timesteps 20 0 10 (by norm_num) (by norm_num)
  have hok := rest_ok 20 0 (by norm_num)
  have hqr := rest_qr 20 0 (by norm_num) (by rw [ht])
  obtain ⟨c, hc⟩ := zmpBefore_exists (restWpg 20) 0 _ _ (fun s h => (hok s h).2.1) parts te h nx ny
  exact ⟨parts, te, max c 0, h, fun i hi t h0 h1 => C196_rest (restWpg 20) (by norm_num [restWpg]) rfl bestOracle_optimal.sound 0
    [restSupport 0] (fun s h => (hok s h).1) restState (fun s h => (hok s h).2.1) (fun r hr _ => (hqr r hr).qr) parts te h (by simp) rfl
    nx ny _ (fun i hi t h0 h1 z hz => (hc i hi t h0 h1 z hz).trans (le_max_left _ _)) (by simp [restState]) i hi t h0 h1⟩

/-- A concrete plan, with a line that its ZMP never crosses; its DCM diverges from this line. -/
example : ∃ parts te c, demoWpg.planCom 0 [demoSupport] ⟨⟨0, 0⟩, ⟨0, 0⟩, ⟨0, 0⟩⟩ = .ok (some (parts, te)) ∧
    ZmpBefore demoWpg parts 1 0 c ∧ ∃ hi : 0 < parts.length, ∃ ξ ξ', parts[0].com.dcm parts[0].tStart demoWpg.omega = .ok ξ ∧
      parts[0].com.dcm parts[0].tEnd demoWpg.omega = .ok ξ' ∧
      Real.exp (demoWpg.omega * (parts[0].tEnd - parts[0].tStart)) * (1 * ξ.x + 0 * ξ.y - c) ≤ 1 * ξ'.x + 0 * ξ'.y - c := by
  obtain ⟨parts, te, h⟩ := demo_plan
  have hd : ∀ s ∈ [demoSupport], 0 < demoWpg.duration s := by
    intro s hs; rw [List.mem_singleton] at hs; subst hs; rw [demo_duration]; norm_num
  obtain ⟨hlen, hcont, -⟩ := C86 demoWpg 0 _ _ hd parts te h
  have hi : 0 < parts.length := by rw [hlen]; decide
  obtain ⟨c, hc⟩ := zmpBefore_exists demoWpg 0 _ _ hd parts te h 1 0
  exact ⟨parts, te, c, h, hc, hi, C196 demoWpg (by norm_num [demoWpg]) 0 _ _ hd parts te h 1 0 c hc 0 0 le_rfl hi _ _ le_rfl
    (hcont.ordered 0 hi) (hcont.ordered 0 hi) le_rfl (hcont.ordered 0 hi)⟩

end Verif.Humanoid
