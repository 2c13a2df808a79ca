/-
C76 (plans alternate sides), C80 (where the naive planner stops).
-/
import Verif.Humanoid.ClipProps

namespace Verif.Humanoid
open Verif.Tools Verif.Robot

/-- Specification: left, right, left... -/
def Alternate (l : List Footstep) : Prop := l.IsChain fun a b => b.side = a.side.other

theorem other_other (s : Side) : s.other.other = s := by cases s <;> rfl

/-- The first two footsteps are the given ones: the flying foot, then the support foot. -/
def StartsWith (p : Params) (flying : Side) (T_left T_right : Affine) (l : List Footstep) : Prop :=
  ∃ f g r, l = f :: g :: r ∧ f.side = flying ∧ g.side = flying.other ∧
    f.frame = (match flying with | .left => T_left | .right => T_right) ∧
    g.frame = (match flying with | .left => T_right | .right => T_left) ∧
    (f.width = p.footWidth ∧ f.length = p.footLength) ∧ g.width = p.footWidth ∧ g.length = p.footLength

theorem initial_starts (p : Params) (flying : Side) (T_left T_right : Affine) (r : List Footstep) :
    StartsWith p flying T_left T_right (p.initialFootsteps flying T_left T_right ++ r) := by
  refine ⟨_, _, r, rfl, rfl, rfl, ?_, ?_, ⟨rfl, rfl⟩, rfl, rfl⟩
  · cases flying <;> rfl
  · cases flying <;> rfl

theorem clippedOpposite_ok (p : Params) (c : Clipping) (f : Footstep) (dx dy dtheta : ℝ) :
    ∃ g, p.clippedOppositeFootstep c f dx dy dtheta = .ok g ∧ g.side = f.side.other := by
  obtain ⟨j, _, hr, _⟩ := shrinkLoop_spec p f 32 (p.clippedStep c f.side dx dy dtheta)
  exact ⟨_, hr, rfl⟩

theorem repLoop_spec (p : Params) (c : Clipping) (dx dy dtheta : ℝ) : ∀ n f, ∃ g r, p.repLoop c dx dy dtheta n f = .ok (g, r) ∧
    r.length = n ∧ Alternate (f :: r) ∧ (f :: r).getLast? = some g
  | 0, f => ⟨f, [], rfl, rfl, List.isChain_singleton _, rfl⟩
  | n + 1, f => by
    obtain ⟨g, hg, hs⟩ := clippedOpposite_ok p c f dx dy dtheta
    obtain ⟨g', r, hr, hl, ha, hlast⟩ := repLoop_spec p c dx dy dtheta n g
    refine ⟨g', g :: r, ?_, by simp [hl], ?_, ?_⟩
    · rw [Params.repLoop, hg]; simp only [Bind.bind, Except.bind, hr]
    · exact List.isChain_cons_cons.2 ⟨hs, ha⟩
    · rw [List.getLast?_cons_cons]; exact hlast

/-- **C76, repetitive planner.** For every configuration and initial frames: the plan succeeds, begins with the two given
feet, alternates sides, and adds the number of steps requested. -/
theorem C76_repetitive (p : Params) (c : Clipping) (dx dy dtheta : ℝ) (nbSteps : Int) (flying : Side) (T_left T_right : Affine) :
    ∃ l, p.planRepetitive c dx dy dtheta nbSteps flying T_left T_right = .ok l ∧
      StartsWith p flying T_left T_right l ∧ Alternate l ∧ l.length = 2 + nbSteps.toNat := by
  unfold Params.planRepetitive Params.repImpl
  simp only
  rw [show at' (p.initialFootsteps flying T_left T_right) 1
    = .ok (p.createFootstep flying.other (match flying.other with | .left => T_left | .right => T_right)) by
      cases flying <;> rfl]
  simp only [Bind.bind, Except.bind]
  by_cases hn : nbSteps > 0
  · rw [if_pos hn]
    obtain ⟨g, r, hr, hl, ha, hlast⟩ := repLoop_spec p c dx dy dtheta (nbSteps - 1).toNat
      (p.createFootstep flying.other (match flying.other with | .left => T_left | .right => T_right))
    obtain ⟨e, he, hs⟩ := clippedOpposite_ok p c g 0 0 0
    rw [hr]
    simp only [he]
    refine ⟨_, rfl, initial_starts .., ?_, ?_⟩
    · have h2 : Alternate ((p.createFootstep flying.other (match flying.other with | .left => T_left | .right => T_right)) :: r ++ [e]) := by
        unfold Alternate
        rw [List.isChain_append]
        refine ⟨ha, List.isChain_singleton _, fun x hx y hy => ?_⟩
        rw [hlast] at hx
        cases hx; cases hy; exact hs
      have : Alternate (p.createFootstep flying (match flying with | .left => T_left | .right => T_right) ::
          ((p.createFootstep flying.other (match flying.other with | .left => T_left | .right => T_right)) :: r ++ [e])) :=
        List.isChain_cons_cons.2 ⟨rfl, h2⟩
      cases flying <;> exact this
    · simp only [Params.initialFootsteps, List.length_append, List.length_cons, List.length_nil, hl]
      omega
  · rw [if_neg hn]
    refine ⟨_, rfl, initial_starts .., ?_, ?_⟩
    · simp [Alternate, Params.initialFootsteps, Params.createFootstep]
    · simp only [Params.initialFootsteps, List.length_append, List.length_cons, List.length_nil]
      omega

/-! ## The loop of the naive planner -/

/-- The step from `a` to `b` was flagged as arrived. -/
def ArrivedFrom (c : Naive) (a b : Footstep) : Prop := c.step a.side a.frame = (b.frame, true)

/-- `a` is the support from which `b` was placed. -/
def PlacedFrom (c : Naive) (a b : Footstep) : Prop := b.side = a.side.other ∧ b.frame = (c.step a.side a.frame).1

/-- State of the loop against the footsteps placed so far (last first). -/
structure LoopInv (P : Prop) (c : Naive) (R : List Footstep) (s : NaiveSt) : Prop where
  rigid : P → ∀ f ∈ R, Rigid f.frame
  alternate : R.IsChain fun b a => b.side = a.side.other
  head : ∃ b R', R = b :: R' ∧ s.support = b.side ∧ (match b.side with | .left => s.left | .right => s.right) = b.frame ∧
    ((match b.side with | .left => s.leftArrived | .right => s.rightArrived) = true →
      ∃ a R'', R' = a :: R'' ∧ ArrivedFrom c a b) ∧
    ((match b.side with | .left => s.rightArrived | .right => s.leftArrived) = true →
      ∃ a z R'', R' = a :: z :: R'' ∧ ArrivedFrom c z a)

theorem step_rigid (c : Naive) (side : Side) (T : Affine) (h : Rigid T) : Rigid (c.step side T).1 :=
  rigid_mul h (rotZ_isRotation _)

theorem inv_turn {P : Prop} (c : Naive) (R : List Footstep) (s : NaiveSt) (h : LoopInv P c R s) :
    LoopInv P c ((c.turn s).2 :: R) (c.turn s).1 := by
  obtain ⟨b, R', rfl, hsup, hfr, hb, ha⟩ := h.head
  have hrb := fun hP => h.rigid hP b (List.mem_cons_self)
  cases hs : b.side with
  | left =>
    rw [hs] at hsup hfr hb ha
    simp only at hfr hb ha
    have ht : c.turn s = ({ s with rightArrived := (c.step .left s.left).2, right := (c.step .left s.left).1, support := .right },
        c.params.createFootstep .right (c.step .left s.left).1) := by unfold Naive.turn; rw [hsup]
    rw [ht]
    refine ⟨?_, ?_, ?_⟩
    · intro hP f hf
      rcases List.mem_cons.1 hf with rfl | hf
      · exact step_rigid c _ _ (by rw [hfr]; exact hrb hP)
      · exact h.rigid hP f hf
    · exact List.isChain_cons_cons.2 ⟨by rw [hs]; rfl, h.alternate⟩
    · refine ⟨_, _, rfl, rfl, rfl, fun harr => ⟨b, R', rfl, ?_⟩, fun harr => ?_⟩
      · unfold ArrivedFrom
        rw [hs, ← hfr]
        exact Prod.ext rfl harr
      · obtain ⟨a, R'', rfl, hA⟩ := hb harr
        exact ⟨b, a, R'', rfl, hA⟩
  | right =>
    rw [hs] at hsup hfr hb ha
    simp only at hfr hb ha
    have ht : c.turn s = ({ s with leftArrived := (c.step .right s.right).2, left := (c.step .right s.right).1, support := .left },
        c.params.createFootstep .left (c.step .right s.right).1) := by unfold Naive.turn; rw [hsup]
    rw [ht]
    refine ⟨?_, ?_, ?_⟩
    · intro hP f hf
      rcases List.mem_cons.1 hf with rfl | hf
      · exact step_rigid c _ _ (by rw [hfr]; exact hrb hP)
      · exact h.rigid hP f hf
    · exact List.isChain_cons_cons.2 ⟨by rw [hs]; rfl, h.alternate⟩
    · refine ⟨_, _, rfl, rfl, rfl, fun harr => ⟨b, R', rfl, ?_⟩, fun harr => ?_⟩
      · unfold ArrivedFrom
        rw [hs, ← hfr]
        exact Prod.ext rfl harr
      · obtain ⟨a, R'', rfl, hA⟩ := hb harr
        exact ⟨b, a, R'', rfl, hA⟩

theorem loop_spec {P : Prop} (c : Naive) : ∀ n R s, LoopInv P c R s → ∃ s', LoopInv P c ((c.loop n s).reverse ++ R) s' ∧
    (c.loop n s).length ≤ n ∧ ((c.loop n s).length < n → s'.leftArrived = true ∧ s'.rightArrived = true)
  | 0, R, s, h => ⟨s, by simpa [Naive.loop] using h, le_refl _, fun h => absurd h (by simp)⟩
  | n + 1, R, s, h => by
    rw [Naive.loop]
    by_cases hc : (s.leftArrived && s.rightArrived) = true
    · rw [if_pos hc]
      refine ⟨s, by simpa using h, by simp, fun _ => by simpa using hc⟩
    · rw [if_neg hc]
      obtain ⟨s', h1, h2, h3⟩ := loop_spec c n _ _ (inv_turn c R s h)
      refine ⟨s', ?_, by simpa using h2, fun hlt => h3 (by simpa using hlt)⟩
      rw [List.reverse_cons, List.append_assoc]
      exact h1

theorem inv_initial (c : Naive) (flying : Side) (T_left T_right : Affine) :
    LoopInv (Rigid T_left ∧ Rigid T_right) c (c.params.initialFootsteps flying T_left T_right).reverse
      { left := T_left, right := T_right, support := flying.other } := by
  refine ⟨?_, ?_, ?_⟩
  · rintro ⟨hl, hr⟩ f hf
    rw [List.mem_reverse] at hf
    simp only [Params.initialFootsteps, List.mem_cons, List.not_mem_nil, or_false] at hf
    rcases hf with rfl | rfl <;> cases flying <;> first | exact hl | exact hr
  · cases flying <;> simp [Params.initialFootsteps, Params.createFootstep, Side.other]
  · refine ⟨_, _, rfl, rfl, ?_, ?_, ?_⟩
    · cases flying <;> rfl
    · cases flying <;> exact fun h => Bool.noConfusion h
    · cases flying <;> exact fun h => Bool.noConfusion h

/-- **C76, naive planner.** For every configuration, targets and initial frames: the plan begins with the two given
feet, alternates sides, and adds at most `max_steps` steps. -/
theorem C76_naive (c : Naive) (flying : Side) (T_left T_right : Affine) :
    StartsWith c.params flying T_left T_right (c.plan flying T_left T_right) ∧
      Alternate (c.plan flying T_left T_right) ∧ (c.plan flying T_left T_right).length ≤ 2 + c.maxSteps.toNat := by
  obtain ⟨s', h1, h2, -⟩ := loop_spec c c.maxSteps.toNat _ _ (inv_initial c flying T_left T_right)
  refine ⟨initial_starts .., ?_, ?_⟩
  · have h := h1.alternate
    rw [← List.reverse_append] at h
    have h' := List.isChain_reverse.1 h
    exact h'
  · unfold Naive.plan
    simp only [List.length_append]
    have : (c.params.initialFootsteps flying T_left T_right).length = 2 := rfl
    omega

/-! ## C80 -/

/-- The target of the foot of that side. -/
def Naive.target (c : Naive) : Side → Affine
  | .left => c.targetLeft
  | .right => c.targetRight

/-- Where the foot of side `side` has to go, from the neutral stance next to the support foot at `T` (planar target):
the displacement. -/
noncomputable def Naive.request (c : Naive) (side : Side) (T : Affine) : Step :=
  let rel := T.inv.mul (c.target side)
  ⟨rel.translation 0, rel.translation 1 - (match side with | .left => c.params.feetSpacing | .right => -c.params.feetSpacing),
    frameYaw rel.linear⟩

/-- The target is in the plane of the support foot. -/
def Naive.Coplanar (c : Naive) (side : Side) (T : Affine) : Prop :=
  (T.inv.mul (c.target side)).translation 2 = 0 ∧ ∃ a, (T.inv.mul (c.target side)).linear = rotZ a

/-- What the planner does not check before saying it arrived: the displacement is in the ellipsoid, and the target is close
enough for the foot to take its orientation. -/
def Naive.Direct (c : Naive) (side : Side) (T : Affine) : Prop :=
  Inside c.params .ellipsoid (c.request side T) ∧
    Real.sqrt ((c.request side T).x ^ 2 + (c.request side T).y ^ 2) ≤ c.placeThreshold

theorem rescaleAxis_true (e a : ℝ) (st : ℝ × Bool) (h : (rescaleAxis e a st).2 = true) :
    -a ≤ e ∧ e ≤ a ∧ rescaleAxis e a st = st := by
  unfold rescaleAxis at h ⊢
  by_cases h1 : e < -a
  · simp only [if_pos h1] at h
    by_cases h2 : a < e
    · simp [if_pos h2] at h
    · simp [if_neg h2] at h
  · simp only [if_neg h1] at h ⊢
    by_cases h2 : a < e
    · simp [if_pos h2] at h
    · simp only [if_neg h2]
      exact ⟨not_lt.1 h1, not_lt.1 h2, trivial⟩

theorem clampYaw_true (y a : ℝ) (b : Bool) (h : (clampYaw y a b).2 = true) :
    -a ≤ y ∧ y ≤ a ∧ b = true ∧ (clampYaw y a b).1 = y := by
  unfold clampYaw at h ⊢
  by_cases h1 : y < -a
  · simp only [if_pos h1] at h
    by_cases h2 : a < -a
    · simp only [if_pos h2] at h; cases h
    · simp only [if_neg h2] at h; cases h
  · simp only [if_neg h1] at h ⊢
    by_cases h2 : a < y
    · simp [if_pos h2] at h
    · simp only [if_neg h2] at h ⊢
      exact ⟨not_lt.1 h1, not_lt.1 h2, h, trivial⟩

/-- A step flagged as arrived lands on the target when the displacement is direct. -/
theorem arrived_lands (c : Naive) (hp : c.params.Limits) (support : Side) (T F : Affine) (hT : Rigid T)
    (h : c.step support T = (F, true)) (hc : c.Coplanar support.other T) (hd : c.Direct support.other T) :
    F = c.target support.other := by
  have htgt : c.targetOf support = c.target support.other := by cases support <;> rfl
  obtain ⟨hz, a, ha⟩ := hc
  obtain ⟨hin, hdist⟩ := hd
  have hid : c.idleY support = (match support.other with | .left => c.params.feetSpacing | .right => -c.params.feetSpacing) := by
    cases support <;> rfl
  unfold Naive.step at h
  simp only [htgt] at h
  generalize hrel : T.inv.mul (c.target support.other) = rel at *
  have hreq : c.request support.other T = ⟨rel.translation 0, rel.translation 1 - c.idleY support, frameYaw rel.linear⟩ := by
    unfold Naive.request; rw [hrel, hid]
  rw [hreq] at hin hdist
  simp only at hin hdist
  have hn : norm3 ![rel.translation 0, rel.translation 1 - c.idleY support, 0]
      = Real.sqrt (rel.translation 0 ^ 2 + (rel.translation 1 - c.idleY support) ^ 2) := by
    unfold norm3; congr 1; simp only [Matrix.cons_val_zero, Matrix.cons_val_one, Matrix.cons_val]; ring
  simp only [Matrix.cons_val_zero, Matrix.cons_val_one, Matrix.cons_val] at h
  generalize hyaw : Naive.errorYaw c _ _ _ = yaw at h
  have hyaw' : yaw = frameYaw rel.linear := by
    rw [← hyaw]
    unfold Naive.errorYaw
    rw [if_neg (not_lt.2 (le_of_eq_of_le hn hdist))]
  rw [hyaw'] at h
  rw [Prod.mk.injEq] at h
  obtain ⟨hF, harr⟩ := h
  obtain ⟨-, -, hr2, hy⟩ := clampYaw_true _ _ _ harr
  obtain ⟨-, -, hr3⟩ := rescaleAxis_true _ _ _ hr2
  rw [hr3] at hr2 hF
  obtain ⟨-, -, hr4⟩ := rescaleAxis_true _ _ _ hr2
  rw [hr4] at hF
  simp only [mul_one] at hF
  rw [hr3, hr4] at hy
  simp only at hy
  rw [hy] at hF
  have hclip := (C77 c.params hp .ellipsoid _).2.2.1 hin
  rw [show c.params.ellipsoidClip = c.params.clip .ellipsoid from rfl, hclip] at hF
  simp only at hF
  have hlin : rotZ (frameYaw rel.linear) = rel.linear := by
    rw [ha, frameYaw_rotZ]
    obtain ⟨k, hk⟩ := wrapAngle_congr a
    have : wrapAngle a = a + k * (2 * Real.pi) := hk
    rw [this]
    unfold rotZ
    rw [Real.cos_add_int_mul_two_pi, Real.sin_add_int_mul_two_pi]
  have hrel2 : (⟨rotZ (frameYaw rel.linear), ![rel.translation 0, c.idleY support + (rel.translation 1 - c.idleY support), 0]⟩ : Affine)
      = rel := by
    rw [hlin]
    ext i
    · rfl
    · fin_cases i
      · rfl
      · show c.idleY support + (rel.translation 1 - c.idleY support) = rel.translation 1
        ring
      · exact hz.symm
  rw [hrel2] at hF
  rw [← hF, ← hrel, ← mul_assoc', mul_inv' hT, one_mul']

/-- **C80_partial.** Missing: the planner also stops when its last two displacements were not direct (`C80_refuted`). If it
stops before `max_steps`, then it placed at least one footstep for each foot, and each of the last two footsteps which was directly accessible from its
support foot (planar target, in the ellipsoid, close enough) is at the requested target. -/
theorem C80_partial (c : Naive) (hp : c.params.Limits) (flying : Side) (T_left T_right : Affine) (hl : Rigid T_left) (hr : Rigid T_right)
    (hstop : (c.plan flying T_left T_right).length < 2 + c.maxSteps.toNat) :
    ∃ pre z a b, c.plan flying T_left T_right = pre ++ [z, a, b] ∧
      a.side = z.side.other ∧ b.side = a.side.other ∧
      (c.Coplanar a.side z.frame → c.Direct a.side z.frame → a.frame = c.target a.side) ∧
      (c.Coplanar b.side a.frame → c.Direct b.side a.frame → b.frame = c.target b.side) := by
  obtain ⟨s', h1, -, h3⟩ := loop_spec c c.maxSteps.toNat _ _ (inv_initial c flying T_left T_right)
  have hlen : (c.loop c.maxSteps.toNat { left := T_left, right := T_right, support := flying.other }).length < c.maxSteps.toNat := by
    unfold Naive.plan at hstop
    simp only [List.length_append] at hstop
    have : (c.params.initialFootsteps flying T_left T_right).length = 2 := rfl
    omega
  obtain ⟨hL, hR⟩ := h3 hlen
  rw [← List.reverse_append] at h1
  change LoopInv _ c (c.plan flying T_left T_right).reverse s' at h1
  obtain ⟨b, R', hR', -, -, hb, ha⟩ := h1.head
  have hb' := hb (by cases b.side <;> assumption)
  have ha' := ha (by cases b.side <;> assumption)
  obtain ⟨a, R1, rfl, hab⟩ := hb'
  obtain ⟨a', z, R2, he, hza⟩ := ha'
  cases he
  have hch := h1.alternate
  rw [hR'] at hch
  obtain ⟨s1, hch⟩ := List.isChain_cons_cons.1 hch
  obtain ⟨s2, -⟩ := List.isChain_cons_cons.1 hch
  have rz : Rigid z.frame := h1.rigid ⟨hl, hr⟩ z (by rw [hR']; simp)
  have ra : Rigid a.frame := h1.rigid ⟨hl, hr⟩ a (by rw [hR']; simp)
  refine ⟨R2.reverse, z, a, b, ?_, s2, s1, ?_, ?_⟩
  · have := congrArg List.reverse hR'
    rw [List.reverse_reverse] at this
    rw [this]; simp
  · rw [s2]; exact fun h1 h2 => arrived_lands c hp z.side z.frame a.frame rz hza h1 h2
  · rw [s1]; exact fun h1 h2 => arrived_lands c hp a.side a.frame b.frame ra hab h1 h2

/-! ### The counterexample -/

/-- The default planner, asked to go 5 cm backwards: closer than the forward limit (8 cm) used to decide that it arrived, but
farther than the backward limit (3 cm) used to clip the step. -/
noncomputable def backward : Naive where
  params := {}
  targetLeft := ⟨1, ![-5 / 100, 75 / 1000, 0]⟩
  targetRight := ⟨1, ![-5 / 100, -75 / 1000, 0]⟩

theorem frameYaw_one : frameYaw 1 = 0 := by
  rw [frameYaw_eq]; simp only [atan2, Matrix.one_apply_eq, Matrix.one_apply_ne (show (1 : Fin 3) ≠ 0 by decide)]
  exact Complex.arg_one

/-- A step of this planner when the two feet face forward. -/
theorem backward_step (support : Side) (t : V3) (x : ℝ)
    (hx : -5 / 100 - t 0 = x) (hx1 : -8 / 100 ≤ x) (hx2 : x ≤ 0) (hz : t 2 = 0)
    (hy : (match support with | .left => 75 / 1000 | .right => -75 / 1000) = t 1) :
    backward.step support ⟨1, t⟩ = (⟨1, ![t 0 + (if -3 / 100 ≤ x then x else -3 / 100), -t 1, 0]⟩, true) := by
  have hrel : (Affine.inv ⟨1, t⟩).mul (backward.targetOf support) = ⟨1, ![x, -2 * t 1, 0]⟩ := by
    cases support
    all_goals
      simp only at hy
      simp only [Affine.inv, Affine.mul, inv_one, Matrix.one_mulVec, mul_one, Naive.targetOf, backward]
      congr 1
      ext i; fin_cases i
      · simp; linarith
      · simp; linarith
      · simp [hz]
  have hidle : backward.idleY support = -2 * t 1 := by
    cases support
    all_goals
      simp only at hy
      simp only [Naive.idleY, backward]
      linarith
  unfold Naive.step
  simp only [hrel, hidle, Matrix.cons_val_zero, Matrix.cons_val_one, Matrix.cons_val, sub_self]
  have hpar : backward.params = {} := rfl
  have h1 : rescaleAxis x backward.params.maxDxForward (1, true) = (1, true) := by
    unfold rescaleAxis
    have a1 : ¬ x < -(8 / 100) := by linarith
    have a2 : ¬ 8 / 100 < x := by linarith
    simp only [hpar, if_neg a1, if_neg a2]
  have h2 : rescaleAxis 0 backward.params.maxDy (1, true) = (1, true) := by
    unfold rescaleAxis
    have a1 : ¬ (0 : ℝ) < -(4 / 100) := by norm_num
    have a2 : ¬ (4 / 100 : ℝ) < 0 := by norm_num
    simp only [hpar, if_neg a1, if_neg a2]
  have h3 : ∀ v, backward.errorYaw (norm3 ![x, 0, 0]) v 1 = 0 := by
    intro v
    have hn : norm3 ![x, 0, 0] = -x := by
      unfold norm3
      simp only [Matrix.cons_val_zero, Matrix.cons_val_one, Matrix.cons_val, mul_zero, add_zero]
      rw [show x * x = (-x) * (-x) by ring]
      exact Real.sqrt_mul_self (by linarith)
    have hlt : ¬ backward.placeThreshold < -x := by simp only [backward]; linarith
    rw [hn]; unfold Naive.errorYaw; rw [if_neg hlt]; exact frameYaw_one
  have h4 : clampYaw 0 backward.params.maxDtheta true = (0, true) := by
    unfold clampYaw
    have a1 : ¬ (0 : ℝ) < -(35 / 100) := by norm_num
    have a2 : ¬ (35 / 100 : ℝ) < 0 := by norm_num
    simp only [hpar, if_neg a1, if_neg a2]
  have h5 : backward.params.ellipsoidClip ⟨x, 0, 0⟩ = ⟨if -3 / 100 ≤ x then x else -3 / 100, 0, 0⟩ := by
    rw [show backward.params.ellipsoidClip ⟨x, 0, 0⟩ = ({} : Params).clip .ellipsoid ⟨x, 0, 0⟩ from rfl,
      clip_eq _ default_limits]
    rcases eq_or_lt_of_le hx2 with h0 | h0
    · subst h0
      have : ¬ (1 : ℝ) < gauge {} .ellipsoid ⟨0, 0, 0⟩ := by
        simp [gauge]
      rw [if_neg this, if_pos (by norm_num)]
    · have hg : gauge {} .ellipsoid ⟨x, 0, 0⟩ = -x / (3 / 100) := by
        have : ({} : Params).limitX x = 3 / 100 := by
          unfold Params.limitX; rw [if_neg (not_le.2 h0)]
        simp only [gauge, this, zero_div, ne_eq, OfNat.ofNat_ne_zero, not_false_eq_true, zero_pow, add_zero]
        rw [Real.sqrt_sq_eq_abs, abs_of_neg (div_neg_of_neg_of_pos h0 (by norm_num))]
        ring
      rw [hg]
      by_cases hc : -3 / 100 ≤ x
      · have : ¬ 1 < -x / (3 / 100) := by rw [not_lt, div_le_one (by norm_num)]; linarith
        rw [if_neg this, if_pos hc]
      · have hc' : x < -3 / 100 := not_le.1 hc
        have : 1 < -x / (3 / 100) := by rw [lt_div_iff₀ (by norm_num)]; linarith
        rw [if_pos this, if_neg hc]
        simp only [Step.scale, mul_zero, Step.mk.injEq, and_true]
        have : x ≠ 0 := h0.ne
        field_simp
  simp only [h1, h2, h3, h4, mul_one, h5]
  rw [Prod.mk.injEq]
  refine ⟨?_, rfl⟩
  rw [show rotZ 0 = (1 : M3) by ext i j; fin_cases i <;> fin_cases j <;> simp [rotZ]]
  simp only [Affine.mul, mul_one, Matrix.one_mulVec, Affine.mk.injEq, true_and]
  ext i; fin_cases i
  · simp; ring
  · simp; ring
  · simp [hz]

/-- **C80 is false of the code.** With the default parameters, and targets 5 cm behind the feet, the planner stops after
two steps (of 100 allowed) with the right foot 2 cm away from its target. -/
theorem C80_refuted : ∃ (c : Naive) (T_left T_right : Affine) (pre : List Footstep) (a b : Footstep),
    c.params = {} ∧ Rigid T_left ∧ Rigid T_right ∧ c.plan .right T_left T_right = pre ++ [a, b] ∧
    (c.plan .right T_left T_right).length = 4 ∧ c.maxSteps = 100 ∧
    a.side = .right ∧ a.frame.translation 0 = -3 / 100 ∧ (c.target .right).translation 0 = -5 / 100 := by
  have h1 : backward.step .left ⟨1, ![0, 75 / 1000, 0]⟩ = (⟨1, ![-3 / 100, -75 / 1000, 0]⟩, true) := by
    rw [backward_step .left ![0, 75 / 1000, 0] (-5 / 100) (by norm_num) (by norm_num) (by norm_num) rfl rfl]
    norm_num
  have h2 : backward.step .right ⟨1, ![-3 / 100, -75 / 1000, 0]⟩ = (⟨1, ![-5 / 100, 75 / 1000, 0]⟩, true) := by
    rw [backward_step .right ![-3 / 100, -75 / 1000, 0] (-2 / 100) (by norm_num) (by norm_num) (by norm_num) rfl rfl]
    norm_num
  have hplan : backward.plan .right ⟨1, ![0, 75 / 1000, 0]⟩ ⟨1, ![0, -75 / 1000, 0]⟩ =
      [backward.params.createFootstep .right ⟨1, ![0, -75 / 1000, 0]⟩, backward.params.createFootstep .left ⟨1, ![0, 75 / 1000, 0]⟩] ++
      [backward.params.createFootstep .right ⟨1, ![-3 / 100, -75 / 1000, 0]⟩,
        backward.params.createFootstep .left ⟨1, ![-5 / 100, 75 / 1000, 0]⟩] := by
    have hm : backward.maxSteps.toNat = 97 + 1 + 1 + 1 := by decide
    unfold Naive.plan
    rw [hm, Naive.loop, Naive.loop, Naive.loop]
    simp only [Bool.and_self, Bool.false_eq_true, if_false, Naive.turn, Side.other, h1, h2, Bool.false_and, Bool.and_true, if_true]
    rfl
  refine ⟨backward, ⟨1, ![0, 75 / 1000, 0]⟩, ⟨1, ![0, -75 / 1000, 0]⟩, _, _, _, rfl, isRotation_one, isRotation_one, hplan, ?_, rfl,
    rfl, rfl, rfl⟩
  rw [hplan]; rfl

/-- In the same plan, the last footstep meets the hypotheses of C80_partial. -/
example : backward.Coplanar .left ⟨1, ![-3 / 100, -75 / 1000, 0]⟩ ∧ backward.Direct .left ⟨1, ![-3 / 100, -75 / 1000, 0]⟩ := by
  have hrel : (Affine.inv ⟨1, ![-3 / 100, -75 / 1000, 0]⟩).mul (backward.target .left) = ⟨1, ![-2 / 100, 15 / 100, 0]⟩ := by
    simp only [Affine.inv, Affine.mul, inv_one, Matrix.one_mulVec, mul_one, Naive.target, backward]
    congr 1
    ext i; fin_cases i <;> norm_num
  have hreq : backward.request .left ⟨1, ![-3 / 100, -75 / 1000, 0]⟩ = ⟨-2 / 100, 0, 0⟩ := by
    unfold Naive.request
    rw [hrel]
    simp only [frameYaw_one]
    ext
    · rfl
    · show (15 / 100 : ℝ) - 15 / 100 = 0
      norm_num
    · rfl
  refine ⟨⟨by rw [hrel]; rfl, 0, ?_⟩, ?_, ?_⟩
  · rw [hrel]; ext i j; fin_cases i <;> fin_cases j <;> simp [rotZ]
  · rw [hreq]
    simp only [Inside, gauge, Params.limitX, backward]
    rw [if_neg (by norm_num)]
    exact Real.sqrt_le_one.2 (by norm_num)
  · rw [hreq]
    simp only [backward]
    exact (Real.sqrt_le_sqrt (show ((-2 / 100 : ℝ)) ^ 2 + 0 ^ 2 ≤ (1 / 2) ^ 2 by norm_num)).trans_eq (Real.sqrt_sq (by norm_num))

end Verif.Humanoid
