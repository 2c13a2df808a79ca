/-
C142: the ZMP reference of the planned walks. Complements to C84 (omega) and C93 (rounding of the durations).
-/
import Verif.Humanoid.ZmpProps
import Verif.Humanoid.SupportFrameProps

namespace Verif.Humanoid
open Verif.Problem Verif.Tools Verif.Robot

/-! ## Specification -/

/-- Where the ZMP should be for a support: for one foot, the point of the foot given by the parameters, `y` being mirrored for the
right foot; for two feet, the middle of their origins. -/
inductive Target (p : WpgParams) : Support → V2 → Prop
  | left (s : Support) (f : Footstep) (hs : s.footsteps = [f]) (hf : f.side = .left) :
      Target p s ⟨worldPoint f.frame ![p.footZmpTargetX, p.footZmpTargetY, 0] 0,
        worldPoint f.frame ![p.footZmpTargetX, p.footZmpTargetY, 0] 1⟩
  | right (s : Support) (f : Footstep) (hs : s.footsteps = [f]) (hf : f.side = .right) :
      Target p s ⟨worldPoint f.frame ![p.footZmpTargetX, -p.footZmpTargetY, 0] 0,
        worldPoint f.frame ![p.footZmpTargetX, -p.footZmpTargetY, 0] 1⟩
  | both (s : Support) (f f' : Footstep) (hs : s.footsteps = [f, f']) :
      Target p s ⟨(f.frame.translation 0 + f'.frame.translation 0) / 2, (f.frame.translation 1 + f'.frame.translation 1) / 2⟩

/-! ## C142 -/

theorem planar_world (T : Affine) (x y : ℝ) : planar T x y = ⟨worldPoint T ![x, y, 0] 0, worldPoint T ![x, y, 0] 1⟩ := by
  simp [planar, worldPoint, Matrix.mulVec, dotProduct, Fin.sum_univ_three]

theorem barycentre_two (f f' : Footstep) (i : Fin 3) :
    barycentre [f, f'] i = (f.frame.translation i + f'.frame.translation i) / 2 := by
  simp [barycentre]

theorem planar_zero (T : Affine) : planar T 0 0 = ⟨T.translation 0, T.translation 1⟩ := by
  simp [planar, Matrix.mulVec, dotProduct, Fin.sum_univ_three]

/-- The reference of a support of one or two feet. -/
theorem target_of (g : Wpg) (s : Support) (hs : Stands s) : ∃ f o, s.frame g.slerp = .ok f ∧ g.zmpOffset s = .ok o ∧
    Target g.p s (planar f o.1 o.2) := by
  rcases hs with h | h
  · obtain ⟨f, hf⟩ := List.length_eq_one_iff.1 h
    obtain ⟨F, hF, -, h1, -⟩ := C137 g.slerp s (by rw [hf]; exact List.cons_ne_nil _ _)
    have ho : g.zmpOffset s = .ok (g.p.footZmpTargetX, if f.side = .left then g.p.footZmpTargetY else -g.p.footZmpTargetY) := by
      unfold Wpg.zmpOffset Support.isBoth Support.side
      rw [h, if_neg (by decide), if_neg (by decide), hf]
      rfl
    refine ⟨F, _, hF, ho, ?_⟩
    rw [h1 f hf, planar_world]
    cases hside : f.side with
    | left => rw [if_pos rfl]; exact .left s f hf hside
    | right => rw [if_neg (by decide)]; exact .right s f hf hside
  · obtain ⟨f, f', hf⟩ := List.length_eq_two.1 h
    obtain ⟨F, hF, h0, -⟩ := C137 g.slerp s (by rw [hf]; exact List.cons_ne_nil _ _)
    have ho : g.zmpOffset s = .ok (0, 0) := by
      unfold Wpg.zmpOffset Support.isBoth
      rw [h, if_pos (by decide)]
    refine ⟨F, _, hF, ho, ?_⟩
    rw [planar_zero, h0 0, h0 1, hf, barycentre_two, barycentre_two]
    exact .both s f f' hf

theorem target_unique {p : WpgParams} {s : Support} {q q' : V2} (h : Target p s q) (h' : Target p s q') : q = q' := by
  cases h with
  | left f hs hf =>
    cases h' with
    | left f' hs' hf' => rw [hs] at hs'; obtain ⟨rfl, -⟩ := List.cons.inj hs'; rfl
    | right f' hs' hf' =>
      rw [hs] at hs'; obtain ⟨rfl, -⟩ := List.cons.inj hs'
      rw [hf] at hf'; cases hf'
    | both f' f'' hs' => rw [hs] at hs'; cases (List.cons.inj hs').2
  | right f hs hf =>
    cases h' with
    | left f' hs' hf' =>
      rw [hs] at hs'; obtain ⟨rfl, -⟩ := List.cons.inj hs'
      rw [hf] at hf'; cases hf'
    | right f' hs' hf' => rw [hs] at hs'; obtain ⟨rfl, -⟩ := List.cons.inj hs'; rfl
    | both f' f'' hs' => rw [hs] at hs'; cases (List.cons.inj hs').2
  | both f f' hs =>
    cases h' with
    | left f' hs' hf' => rw [hs] at hs'; cases (List.cons.inj hs').2
    | right f' hs' hf' => rw [hs] at hs'; cases (List.cons.inj hs').2
    | both f'' f''' hs' =>
      rw [hs] at hs'
      obtain ⟨rfl, h2⟩ := List.cons.inj hs'
      obtain ⟨rfl, -⟩ := List.cons.inj h2
      rfl

/-- The soft constraint of a timestep. -/
def Follows (g : Wpg) (l : Lipm) (s : Support) (k : Nat) (r : Constr ℝ) : Prop :=
  r.ty = .equality ∧ r.priority = .soft ∧ r.weight = g.p.zmpReferenceWeight ∧ r.expr.rows = 2 ∧
    ∀ q, Target g.p s q → ∀ sol, r.expr.rowVal sol 0 = (zmpAt l g.omega2 k sol).x - q.x ∧
      r.expr.rowVal sol 1 = (zmpAt l g.omega2 k sol).y - q.y

theorem eqVec_rows (e : Expr ℝ) (he : e.rows = 2) (x y : ℝ) :
    ∃ c, e.eqVec (vec2 x y) = .ok c ∧ c.ty = .equality ∧ c.expr.rows = 2 ∧
      ∀ sol, c.expr.rowVal sol 0 = e.rowVal sol 0 - x ∧ c.expr.rowVal sol 1 = e.rowVal sol 1 - y := by
  obtain ⟨d, hd, hr, hv⟩ := add_rows_eq e ((Expr.fromVector (vec2 x y)).smul (-1)) (by rw [he]; rfl)
  refine ⟨{ expr := d, weight := 1 }, ?_, rfl, by rw [← he]; exact hr, fun sol => ?_⟩
  · unfold Expr.eqVec Expr.eq Expr.sub
    rw [hd]
    rfl
  · show d.rowVal sol 0 = _ ∧ d.rowVal sol 1 = _
    rw [hv sol 0 (by omega), hv sol 1 (by omega)]
    constructor <;> simp [Expr.rowVal, Expr.smul, Expr.fromVector, vec2] <;> ring

/-- The constraints of one timestep: one on the polygon, one on the reference. -/
theorem constrainZmp_target (g : Wpg) (l : Lipm) (h : LipmOK l) (s : Support) (hs : Stands s) (k : Nat) (hk : k ≤ l.timesteps) :
    ∃ c r, g.constrainZmp l s k = .ok [softenIf g.soft g.zmpInSupportWeight c, r] ∧ c.priority = .hard ∧ Follows g l s k r := by
  obtain ⟨e, he, re, ve⟩ := zmp_evaluates l h k hk g.omega2
  obtain ⟨f, o, hf, ho, ht⟩ := target_of g s hs
  obtain ⟨c, hc, -, c2, -⟩ := polygon_rows e re ((s.supportPolygon g.hull).2.map fun v => (v.x, v.y)) g.p.zmpMargin
  obtain ⟨r, hr, r1, r2, r3⟩ := eqVec_rows e re (planar f o.1 o.2).x (planar f o.1 o.2).y
  refine ⟨c, r.configureP .soft g.p.zmpReferenceWeight, ?_, c2, r1, rfl, rfl, r2, fun q hq sol => ?_⟩
  · unfold Wpg.constrainZmp
    simp only [he, hc, ho, hf, hr, Bind.bind, Except.bind]
  · rw [← target_unique ht hq, ← ve sol]
    exact r3 sol

/-- The squared distance of two points. -/
def dist2 (a b : V2) : ℝ := (a.x - b.x) ^ 2 + (a.y - b.y) ^ 2

theorem Follows.penalty {g : Wpg} {l : Lipm} {s : Support} {k : Nat} {r : Constr ℝ} (h : Follows g l s k r) {q : V2}
    (hq : Target g.p s q) (sol : Nat → ℝ) :
    softPenalty sol r = g.p.zmpReferenceWeight * dist2 (zmpAt l g.omega2 k sol) q := by
  obtain ⟨h1, h2, h3, h4, h5⟩ := h
  obtain ⟨e0, e1⟩ := h5 q hq sol
  unfold softPenalty
  rw [h1, h2, h3, h4]
  simp only [Finset.sum_range_succ, Finset.sum_range_zero, e0, e1, dist2]
  ring

theorem penalty_hard (sol : Nat → ℝ) (c : Constr ℝ) (h : c.priority = .hard) : softPenalty sol c = 0 := by
  unfold softPenalty
  rw [h]

theorem constrainLoop_target (g : Wpg) (l : Lipm) (h : LipmOK l) (s : Support) (hs : Stands s) :
    ∀ count k : Nat, k + count = l.timesteps + 1 → ∃ cs, g.constrainLoop l s count k = .ok cs ∧
      (∀ j, k ≤ j → j < k + count → ∃ r ∈ cs, Follows g l s j r) ∧
      (g.soft = false → (∀ c ∈ cs, c.priority = .soft → ∃ j, k ≤ j ∧ j < k + count ∧ Follows g l s j c) ∧
        ∀ q, Target g.p s q → ∀ sol, (cs.map (softPenalty sol)).sum =
          ∑ j ∈ Finset.range count, g.p.zmpReferenceWeight * dist2 (zmpAt l g.omega2 (k + j) sol) q) := by
  intro count
  induction count with
  | zero =>
    intro k _
    refine ⟨[], rfl, fun j h1 h2 => absurd h2 (by omega), fun _ => ⟨fun c hc => absurd hc List.not_mem_nil, fun q _ sol => by simp⟩⟩
  | succ count ih =>
    intro k hk
    obtain ⟨rest, hrest, r1, r2⟩ := ih (k + 1) (by omega)
    obtain ⟨c, r, hz, hc, hr⟩ := constrainZmp_target g l h s hs k (by omega)
    have hend : ∃ es, g.constrainEnd l s k = .ok es ∧ (g.soft = false → ∀ c ∈ es, c.priority = .hard) := by
      unfold Wpg.constrainEnd
      by_cases hc : s.isEnd = true ∧ k = l.timesteps
      · rw [if_pos hc]
        obtain ⟨f, a, b, d, -, hst, -, ⟨p1, p2, p3⟩, -⟩ := constrainStop_spec g l h s hs k (by omega)
        refine ⟨_, hst, fun h0 x hx => ?_⟩
        simp only [softenIf, h0, List.mem_cons, List.not_mem_nil, or_false] at hx
        rcases hx with rfl | rfl | rfl
        · exact p1
        · exact p2
        · exact p3
      · rw [if_neg hc]
        exact ⟨[], rfl, fun _ c hc => absurd hc List.not_mem_nil⟩
    obtain ⟨es, he, hes⟩ := hend
    refine ⟨([softenIf g.soft g.zmpInSupportWeight c, r] ++ es) ++ rest, ?_, ?_, ?_⟩
    · unfold Wpg.constrainLoop Wpg.constrainStep
      simp only [hz, he, hrest, Bind.bind, Except.bind]
    · intro j h1 h2
      by_cases hj : j = k
      · subst hj
        exact ⟨r, by simp, hr⟩
      · obtain ⟨x, hx, hf⟩ := r1 j (by omega) (by omega)
        exact ⟨x, by simp [hx], hf⟩
    · intro h0
      obtain ⟨r2a, r2b⟩ := r2 h0
      have hcs : softenIf g.soft g.zmpInSupportWeight c = c := by unfold softenIf; rw [h0]; rfl
      rw [hcs]
      constructor
      · intro x hx hp
        simp only [List.mem_append, List.mem_cons, List.not_mem_nil, or_false] at hx
        rcases hx with ((rfl | rfl) | hx) | hx
        · rw [hc] at hp; cases hp
        · exact ⟨k, le_rfl, by omega, hr⟩
        · rw [hes h0 x hx] at hp; cases hp
        · obtain ⟨j, h1, h2, h3⟩ := r2a x hx hp
          exact ⟨j, by omega, by omega, h3⟩
      · intro q hq sol
        have hes0 : (es.map (softPenalty sol)).sum = 0 := by
          apply List.sum_eq_zero
          intro x hx
          obtain ⟨y, hy, rfl⟩ := List.mem_map.1 hx
          exact penalty_hard sol y (hes h0 y hy)
        rw [Finset.sum_range_succ', List.map_append, List.sum_append, List.map_append, List.sum_append, hes0, r2b q hq sol,
          List.map_cons, List.map_cons, List.map_nil, List.sum_cons, List.sum_cons, List.sum_nil, penalty_hard sol c hc, hr.penalty hq sol]
        have : ∀ j, k + 1 + j = k + (j + 1) := fun j => by omega
        simp only [this, add_zero, zero_add]
        rw [add_comm]

/-- **C142.** For each part of a planned walk, whose support has one or two feet: at every timestep from 1 to the last a soft
constraint of weight `zmp_reference_weight` asks the ZMP to be at the target of the support; with hard constraints there is no
other soft constraint, so the cost of the part is the sum over the timesteps of the squared distance from the ZMP to the target. -/
theorem C142 (g : Wpg) (l : Lipm) (h : LipmOK l) (s : Support) (hs : Stands s) :
    ∃ q cs, Target g.p s q ∧ g.constrainLipm l s = .ok cs ∧
      (∀ k, 1 ≤ k → k ≤ l.timesteps → ∃ r ∈ cs, r.ty = .equality ∧ r.priority = .soft ∧ r.weight = g.p.zmpReferenceWeight ∧
        ∀ sol, r.Sat sol ↔ zmpAt l g.omega2 k sol = q) ∧
      (g.soft = false → ∀ sol, (cs.map (softPenalty sol)).sum =
        ∑ j ∈ Finset.range l.timesteps, g.p.zmpReferenceWeight * dist2 (zmpAt l g.omega2 (j + 1) sol) q) := by
  obtain ⟨f, o, -, -, hq⟩ := target_of g s hs
  obtain ⟨cs, hcs, h1, h2⟩ := constrainLoop_target g l h s hs l.timesteps 1 (by omega)
  refine ⟨_, cs, hq, hcs, fun k hk hk' => ?_, fun h0 sol => ?_⟩
  · obtain ⟨r, hr, r1, r2, r3, r4, r5⟩ := h1 k hk (by omega)
    refine ⟨r, hr, r1, r2, r3, fun sol => ?_⟩
    obtain ⟨e0, e1⟩ := r5 _ hq sol
    unfold Constr.Sat
    rw [r1, r4]
    constructor
    · intro H
      have a := H 0 (by omega)
      have b := H 1 (by omega)
      rw [e0] at a
      rw [e1] at b
      exact V2.ext (sub_eq_zero.1 a) (sub_eq_zero.1 b)
    · intro H i hi
      have : i = 0 ∨ i = 1 := by omega
      rcases this with rfl | rfl
      · rw [e0, H, sub_self]
      · rw [e1, H, sub_self]
  · rw [(h2 h0).2 _ hq sol]
    exact Finset.sum_congr rfl fun j _ => by rw [add_comm]

/-- The target of a right foot at the origin, 2 cm inwards (`foot_zmp_target_y = -0.02`): `y` is 2 cm to the left. -/
example (p : WpgParams) (hx : p.footZmpTargetX = 0) (hy : p.footZmpTargetY = -(2 / 100)) (f : Footstep) (hf : f.side = .right)
    (hF : f.frame = Affine.one) : Target p { footsteps := [f] } ⟨0, 2 / 100⟩ := by
  have h := Target.right (p := p) { footsteps := [f] } f rfl hf
  have e : (⟨worldPoint f.frame ![p.footZmpTargetX, -p.footZmpTargetY, 0] 0,
      worldPoint f.frame ![p.footZmpTargetX, -p.footZmpTargetY, 0] 1⟩ : V2) = ⟨0, 2 / 100⟩ := by
    rw [hF, hx, hy]
    simp [worldPoint, Affine.one]
  rwa [e] at h

/-! ## Complements -/

/-- **C84 (omega).** The natural frequency of the LIPM: for a height `h > 0`, `omega` is positive and `omega² h = g`. -/
theorem C84_omega (h : ℝ) (hh : 0 < h) : 0 < computeOmega h ∧ computeOmega h ^ 2 * h = 9.80665 := by
  unfold computeOmega
  have : (0 : ℝ) < 980665 / 100000 / h := by positivity
  refine ⟨Real.sqrt_pos.2 this, ?_⟩
  rw [Real.sq_sqrt this.le]
  field_simp
  norm_num

theorem stdRound_near (x : ℝ) : |(stdRound x : ℝ) - x| ≤ 1 / 2 := by
  unfold stdRound
  split
  · have h1 := Int.floor_le (x + 1 / 2)
    have h2 := Int.lt_floor_add_one (x + 1 / 2)
    rw [abs_le]
    constructor <;> linarith
  · have h1 := Int.le_ceil (x - 1 / 2)
    have h2 := Int.ceil_lt_add_one (x - 1 / 2)
    rw [abs_le]
    constructor <;> linarith

/-- Halves are rounded away from zero. -/
theorem stdRound_half (n : Int) (hn : 0 ≤ n) : stdRound (n + 1 / 2) = n + 1 := by
  unfold stdRound
  rw [if_pos (by positivity)]
  rw [Int.floor_eq_iff]
  push_cast
  constructor <;> linarith

/-- **C93 (rounding).** The number of timesteps of the double supports is within a half of the ratio asked times the number of
timesteps of the single supports (halves are rounded up); their durations are within half a `dt` of the ratio asked times the duration of
the single supports. -/
theorem C93_rounding (p : Params) (hn : 0 < p.singleSupportTimesteps) (hd : 0 < p.singleSupportDuration) :
    |(p.doubleSupportTimesteps : ℝ) - p.doubleSupportRatio * p.singleSupportTimesteps| ≤ 1 / 2 ∧
    |(p.startendDoubleSupportTimesteps : ℝ) - p.startendDoubleSupportRatio * p.singleSupportTimesteps| ≤ 1 / 2 ∧
    |p.doubleSupportDuration - p.doubleSupportRatio * p.singleSupportDuration| ≤ p.dt / 2 ∧
    |p.startendDoubleSupportDuration - p.startendDoubleSupportRatio * p.singleSupportDuration| ≤ p.dt / 2 ∧
    (∀ n : Int, 0 ≤ n → p.doubleSupportRatio * p.singleSupportTimesteps = n + 1 / 2 → p.doubleSupportTimesteps = n + 1) := by
  have hn' : (0 : ℝ) < p.singleSupportTimesteps := by exact_mod_cast hn
  have hdt : 0 < p.dt := div_pos hd hn'
  have hdur : ∀ (m : Int) (r : ℝ), |(m : ℝ) - r * p.singleSupportTimesteps| ≤ 1 / 2 →
      |m * p.dt - r * p.singleSupportDuration| ≤ p.dt / 2 := by
    intro m r h
    have e : m * p.dt - r * p.singleSupportDuration = (m - r * p.singleSupportTimesteps) * p.dt := by
      unfold Params.dt
      field_simp
    rw [e, abs_mul, abs_of_pos hdt]
    nlinarith
  have h1 := stdRound_near (p.doubleSupportRatio * p.singleSupportTimesteps)
  have h2 := stdRound_near (p.startendDoubleSupportRatio * p.singleSupportTimesteps)
  refine ⟨h1, h2, hdur _ _ h1, hdur _ _ h2, fun n h0 h => ?_⟩
  unfold Params.doubleSupportTimesteps
  rw [h]
  exact stdRound_half n h0

end Verif.Humanoid
