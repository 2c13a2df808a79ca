/-
C178: what a footstep planner plans after any session of calls.
-/
import Verif.Humanoid.PlannerSession
import Verif.Humanoid.PlannerProps

namespace Verif.Humanoid
open Verif.Tools Verif.Robot

/-! ## Specification: the last value given -/

/-- The last value that a session gives by the operations recognised by `f`, or the initial one. -/
def lastGiven {Op A : Type} (f : Op → Option A) (ops : List Op) (init : A) : A := ((ops.filterMap f).getLast?).getD init

theorem lastGiven_append {Op A : Type} (f : Op → Option A) (ops : List Op) (op : Op) (init : A) :
    lastGiven f (ops ++ [op]) init = (f op).getD (lastGiven f ops init) := by
  unfold lastGiven
  rw [List.filterMap_append]
  cases h : f op with
  | none => simp [h]
  | some a => simp [h]

/-- The parameters given by an operation. -/
def RepOp.params? : RepOp → Option Params
  | .setParams p => some p
  | _ => none

/-- The clipping given by an operation. -/
def RepOp.clipping? : RepOp → Option Clipping
  | .setClipping c => some c
  | _ => none

/-- The configuration given by an operation. -/
def RepOp.config? : RepOp → Option (Option RepConfig)
  | .configure c => some (some c)
  | _ => none

/-- The parameters given by an operation. -/
def NaiveOp.params? : NaiveOp → Option Params
  | .setParams p => some p
  | _ => none

/-- The targets given by an operation. -/
def NaiveOp.targets? : NaiveOp → Option (Option (Affine × Affine))
  | .configure l r => some (some (l, r))
  | _ => none

/-! ## Repetitive planner -/

theorem rep_session (p : Params) (ops : List RepOp) :
    ops.foldl RepPlanner.step (RepPlanner.make p) =
      ⟨lastGiven RepOp.params? ops p, lastGiven RepOp.clipping? ops .conic, lastGiven RepOp.config? ops none⟩ := by
  induction ops using List.reverseRecOn with
  | nil => rfl
  | append_singleton ops op ih =>
    rw [List.foldl_append, ih, lastGiven_append, lastGiven_append, lastGiven_append]
    cases op <;> rfl

/-- **C178, repetitive planner.** After any session, the footsteps planned are those of the last configuration, with the last clipping and
the parameters as they are now. Without any call to `configure`, planning reads uninitialised members. -/
theorem C178_repetitive (p : Params) (ops : List RepOp) (flying : Side) (T_left T_right : Affine) :
    (ops.foldl RepPlanner.step (RepPlanner.make p)).plan flying T_left T_right =
      match lastGiven RepOp.config? ops none with
      | none => .error .ub
      | some c => (lastGiven RepOp.params? ops p).planRepetitive (lastGiven RepOp.clipping? ops .conic) c.dx c.dy c.dtheta c.nbSteps
          flying T_left T_right := by
  rw [rep_session]
  rfl

/-- It is configured if and only if some call was made. -/
theorem C178_configured (ops : List RepOp) :
    lastGiven RepOp.config? ops none = none ↔ ∀ op ∈ ops, ∀ c, op ≠ .configure c := by
  induction ops using List.reverseRecOn with
  | nil => simp [lastGiven]
  | append_singleton ops op ih =>
    rw [lastGiven_append]
    constructor
    · intro h o ho c hc
      rcases List.mem_append.1 ho with hm | ho
      · cases op with
        | configure c' => cases h
        | setParams p => exact ih.1 h o hm c hc
        | setClipping p => exact ih.1 h o hm c hc
        | plan a b d => exact ih.1 h o hm c hc
      · rw [List.mem_singleton] at ho
        subst ho; subst hc
        cases h
    · intro h
      have h' := ih.2 fun o ho => h o (List.mem_append_left _ ho)
      cases op with
      | configure c => exact absurd rfl (h _ (List.mem_append_right _ (List.mem_singleton_self _)) c)
      | setParams p => exact h'
      | setClipping p => exact h'
      | plan a b d => exact h'

/-! ## Naive planner -/

theorem naive_session (p : Params) (ops : List NaiveOp) :
    ops.foldl NaivePlanner.step (NaivePlanner.make p) =
      ⟨lastGiven NaiveOp.params? ops p, p.access, lastGiven NaiveOp.targets? ops none⟩ := by
  induction ops using List.reverseRecOn with
  | nil => rfl
  | append_singleton ops op ih =>
    rw [List.foldl_append, ih, lastGiven_append, lastGiven_append]
    cases op <;> rfl

/-- **C178, naive planner.** After any session, the footsteps planned are those of the last targets with the parameters as they are now,
except for the accessibility, which is the one of the parameters at the construction. Without any call to `configure`, planning reads
uninitialised targets. -/
theorem C178_naive (p : Params) (ops : List NaiveOp) (flying : Side) (T_left T_right : Affine) :
    (ops.foldl NaivePlanner.step (NaivePlanner.make p)).plan flying T_left T_right =
      match lastGiven NaiveOp.targets? ops none with
      | none => .error .ub
      | some (l, r) => .ok (Naive.planWith { params := lastGiven NaiveOp.params? ops p, targetLeft := l, targetRight := r } p.access
          flying T_left T_right) := by
  rw [naive_session]
  rfl

theorem turnWith_access (c : Naive) (s : NaiveSt) : c.turnWith c.params.access s = c.turn s := by
  unfold Naive.turnWith Naive.turn
  cases s.support <;> rfl

theorem loopWith_access (c : Naive) : ∀ n s, c.loopWith c.params.access n s = c.loop n s
  | 0, _ => rfl
  | n + 1, s => by
    rw [Naive.loopWith, Naive.loop, turnWith_access, loopWith_access c n]

theorem planWith_access (c : Naive) (flying : Side) (T_left T_right : Affine) :
    c.planWith c.params.access flying T_left T_right = c.plan flying T_left T_right := by
  unfold Naive.planWith Naive.plan
  rw [loopWith_access]

/-- **C178_partial.** If the forward, lateral and angular limits are now what they were when the planner was built, the plan is the one of
a planner built now. Missing for other sessions: the limits at the construction are still used (`C178_stale_refuted`). -/
theorem C178_partial (p : Params) (ops : List NaiveOp) (hp : (lastGiven NaiveOp.params? ops p).access = p.access)
    (l r : Affine) (ht : lastGiven NaiveOp.targets? ops none = some (l, r)) (flying : Side) (T_left T_right : Affine) :
    (ops.foldl NaivePlanner.step (NaivePlanner.make p)).plan flying T_left T_right =
      ([NaiveOp.configure l r].foldl NaivePlanner.step (NaivePlanner.make (lastGiven NaiveOp.params? ops p))).plan flying T_left T_right ∧
    (ops.foldl NaivePlanner.step (NaivePlanner.make p)).plan flying T_left T_right =
      .ok (Naive.plan { params := lastGiven NaiveOp.params? ops p, targetLeft := l, targetRight := r } flying T_left T_right) := by
  rw [naive_session, ht]
  have h2 : ([NaiveOp.configure l r].foldl NaivePlanner.step (NaivePlanner.make (lastGiven NaiveOp.params? ops p))) =
      ⟨lastGiven NaiveOp.params? ops p, (lastGiven NaiveOp.params? ops p).access, some (l, r)⟩ := rfl
  rw [h2, hp]
  refine ⟨rfl, ?_⟩
  rw [← planWith_access, hp]
  rfl

/-! ### Every step respects both sets of limits -/

theorem rescaleAxis_le (e a : ℝ) (ha : 0 < a) (st : ℝ × Bool) (h0 : 0 < st.1) :
    0 < (rescaleAxis e a st).1 ∧ (rescaleAxis e a st).1 ≤ st.1 ∧ |e * (rescaleAxis e a st).1| ≤ a ∨
    0 < (rescaleAxis e a st).1 ∧ (rescaleAxis e a st).1 ≤ st.1 ∧ |e| ≤ a := by
  unfold rescaleAxis
  by_cases h1 : e < -a
  · have hne : ¬ a < e := by linarith
    have he : e < 0 := by linarith
    simp only [if_pos h1, if_neg hne]
    left
    have hq : 0 < -a / e := div_pos_of_neg_of_neg (by linarith) he
    refine ⟨lt_min h0 hq, min_le_left _ _, ?_⟩
    rw [abs_mul, abs_of_neg he, abs_of_pos (lt_min h0 hq)]
    calc -e * min st.1 (-a / e) ≤ -e * (-a / e) := by
            refine mul_le_mul_of_nonneg_left (min_le_right _ _) (by linarith)
      _ = a := by rw [mul_div_assoc', neg_mul_neg, mul_div_assoc, mul_comm, div_mul_cancel₀ _ he.ne]
  · simp only [if_neg h1]
    by_cases h2 : a < e
    · have he : 0 < e := by linarith
      simp only [if_pos h2]
      left
      have hq : 0 < a / e := div_pos ha he
      refine ⟨lt_min h0 hq, min_le_left _ _, ?_⟩
      rw [abs_mul, abs_of_pos he, abs_of_pos (lt_min h0 hq)]
      calc e * min st.1 (a / e) ≤ e * (a / e) := mul_le_mul_of_nonneg_left (min_le_right _ _) he.le
        _ = a := by field_simp
    · simp only [if_neg h2]
      right
      exact ⟨h0, le_rfl, abs_le.2 ⟨not_lt.1 h1, not_lt.1 h2⟩⟩

/-- After the two rescalings, the displacement is in the accessible box. -/
theorem rescale_box (ex ey l w : ℝ) (hl : 0 < l) (hw : 0 < w) :
    let r := (rescaleAxis ey w (rescaleAxis ex l (1, true))).1
    0 < r ∧ r ≤ 1 ∧ |ex * r| ≤ l ∧ |ey * r| ≤ w := by
  have a : 0 < (rescaleAxis ex l (1, true)).1 ∧ (rescaleAxis ex l (1, true)).1 ≤ 1 ∧ |ex * (rescaleAxis ex l (1, true)).1| ≤ l := by
    rcases rescaleAxis_le ex l hl (1, true) one_pos with ⟨a1, a2, a3⟩ | ⟨a1, a2, a3⟩
    · exact ⟨a1, a2, a3⟩
    · refine ⟨a1, a2, ?_⟩
      rw [abs_mul, abs_of_pos a1]
      calc |ex| * _ ≤ |ex| * 1 := mul_le_mul_of_nonneg_left a2 (abs_nonneg _)
        _ ≤ l := by rw [mul_one]; exact a3
  have b : 0 < (rescaleAxis ey w (rescaleAxis ex l (1, true))).1 ∧
      (rescaleAxis ey w (rescaleAxis ex l (1, true))).1 ≤ (rescaleAxis ex l (1, true)).1 ∧
      |ey * (rescaleAxis ey w (rescaleAxis ex l (1, true))).1| ≤ w := by
    rcases rescaleAxis_le ey w hw (rescaleAxis ex l (1, true)) a.1 with ⟨a1, a2, a3⟩ | ⟨a1, a2, a3⟩
    · exact ⟨a1, a2, a3⟩
    · refine ⟨a1, a2, ?_⟩
      rw [abs_mul, abs_of_pos a1]
      calc |ey| * _ ≤ |ey| * 1 := mul_le_mul_of_nonneg_left (a2.trans a.2.1) (abs_nonneg _)
        _ ≤ w := by rw [mul_one]; exact a3
  refine ⟨b.1, b.2.1.trans a.2.1, ?_, b.2.2⟩
  refine le_trans ?_ a.2.2
  rw [abs_mul, abs_mul, abs_of_pos b.1, abs_of_pos a.1]
  exact mul_le_mul_of_nonneg_left b.2.1 (abs_nonneg _)

theorem clampYaw_le (y a : ℝ) (ha : 0 < a) (b : Bool) : |(clampYaw y a b).1| ≤ a := by
  unfold clampYaw
  by_cases h1 : y < -a
  · have : ¬ a < -a := by linarith
    simp only [if_pos h1, if_neg this]
    rw [abs_neg, abs_of_pos ha]
  · simp only [if_neg h1]
    by_cases h2 : a < y
    · simp only [if_pos h2, abs_of_pos ha]; exact le_rfl
    · simp only [if_neg h2]
      exact abs_le.2 ⟨not_lt.1 h1, not_lt.1 h2⟩

/-- `b` is reached from `a`, with the feet at distance `spacing`, by a step that is in the box of `acc` and in the ellipsoid of `p`. -/
def StepsWithin (p : Params) (acc : Access) (a b : Footstep) : Prop :=
  b.side = a.side.other ∧ ∃ s : Step, |s.x| ≤ acc.length ∧ |s.y| ≤ acc.width ∧ |s.z| ≤ acc.yaw ∧ Inside p .ellipsoid s ∧
    b.frame = a.frame.mul ⟨rotZ s.z, ![s.x, (match b.side with | .left => p.feetSpacing | .right => -p.feetSpacing) + s.y, 0]⟩

theorem stepWith_within (c : Naive) (acc : Access) (hp : c.params.Limits) (ha : 0 < acc.length ∧ 0 < acc.width ∧ 0 < acc.yaw)
    (support : Side) (T : Affine) (f : Footstep) (hf : f.side = support ∧ f.frame = T) :
    StepsWithin c.params acc f (c.params.createFootstep support.other (c.stepWith acc support T).1) := by
  refine ⟨by rw [hf.1]; rfl, ?_⟩
  unfold Naive.stepWith
  simp only
  generalize (T.inv.mul (c.targetOf support)) = rel
  generalize hyaw : Naive.errorYaw c _ _ _ = yaw
  simp only [Matrix.cons_val_zero, Matrix.cons_val_one]
  generalize hex : rel.translation 0 = ex
  generalize hey : rel.translation 1 - c.idleY support = ey
  obtain ⟨-, -, b1, b2⟩ := rescale_box ex ey acc.length acc.width ha.1 ha.2.1
  generalize hr : rescaleAxis ey acc.width (rescaleAxis ex acc.length (1, true)) = r at b1 b2
  have b3 := clampYaw_le yaw acc.yaw ha.2.2 r.2
  obtain ⟨c1, -, -, ⟨k, k0, k1, ck⟩, -⟩ := C77 c.params hp .ellipsoid ⟨ex * r.1, ey * r.1, (clampYaw yaw acc.yaw r.2).1⟩
  rw [(C77_functions c.params).1] at c1 ck
  have shrink : ∀ x m : ℝ, |x| ≤ m → |k * x| ≤ m := by
    intro x m hx
    rw [abs_mul, abs_of_pos k0]
    exact (mul_le_of_le_one_left (abs_nonneg _) k1).trans hx
  refine ⟨c.params.ellipsoidClip ⟨ex * r.1, ey * r.1, (clampYaw yaw acc.yaw r.2).1⟩, ?_, ?_, ?_, c1, ?_⟩
  · rw [ck]; exact shrink _ _ b1
  · rw [ck]; exact shrink _ _ b2
  · rw [ck]; exact shrink _ _ b3
  · rw [hf.2]
    cases support <;> rfl

theorem loopWith_within (c : Naive) (acc : Access) (hp : c.params.Limits) (ha : 0 < acc.length ∧ 0 < acc.width ∧ 0 < acc.yaw) :
    ∀ n s (f : Footstep), f.side = s.support → f.frame = (match s.support with | .left => s.left | .right => s.right) →
      List.IsChain (StepsWithin c.params acc) (f :: c.loopWith acc n s)
  | 0, s, f, _, _ => by rw [Naive.loopWith]; exact List.isChain_singleton _
  | n + 1, s, f, h1, h2 => by
    rw [Naive.loopWith]
    split
    · exact List.isChain_singleton _
    · obtain ⟨left, right, support, la, ra⟩ := s
      cases support with
      | left =>
        rw [List.isChain_cons_cons]
        refine ⟨?_, loopWith_within c acc hp ha n _ _ rfl rfl⟩
        exact stepWith_within c acc hp ha .left _ f ⟨h1, h2⟩
      | right =>
        rw [List.isChain_cons_cons]
        refine ⟨?_, loopWith_within c acc hp ha n _ _ rfl rfl⟩
        exact stepWith_within c acc hp ha .right _ f ⟨h1, h2⟩

theorem planWith_within (c : Naive) (acc : Access) (hp : c.params.Limits) (ha : 0 < acc.length ∧ 0 < acc.width ∧ 0 < acc.yaw)
    (flying : Side) (T_left T_right : Affine) :
    ∃ a b more, c.planWith acc flying T_left T_right = a :: b :: more ∧ List.IsChain (StepsWithin c.params acc) (b :: more) := by
  unfold Naive.planWith
  generalize c.maxSteps.toNat = n
  cases flying with
  | left => exact ⟨_, _, _, rfl, loopWith_within c acc hp ha n _ _ rfl rfl⟩
  | right => exact ⟨_, _, _, rfl, loopWith_within c acc hp ha n _ _ rfl rfl⟩

/-- **C178, limits.** Whatever the session, every step of the naive planner is both in the box of the limits at the construction and in the
ellipsoid of the current ones. -/
theorem C178_within (p : Params) (h0 : p.Limits) (ops : List NaiveOp) (hp : (lastGiven NaiveOp.params? ops p).Limits)
    (flying : Side) (T_left T_right : Affine) (fs : List Footstep)
    (h : (ops.foldl NaivePlanner.step (NaivePlanner.make p)).plan flying T_left T_right = .ok fs) :
    ∃ a b more, fs = a :: b :: more ∧ List.IsChain (StepsWithin (lastGiven NaiveOp.params? ops p) p.access) (b :: more) := by
  rw [C178_naive] at h
  split at h
  · cases h
  · cases h
    exact planWith_within _ _ hp ⟨h0.1, h0.2.2.1, h0.2.2.2⟩ _ _ _

/-! ### The limits at the construction are still used -/

/-- **C178 is false when the limits change.** A planner built with a forward limit of 1 cm, whose parameters are then set to the default ones
(8 cm), plans at least 5 footsteps for the targets that a planner built now with the same parameters reaches in 4. -/
theorem C178_stale_refuted : ∃ (p q : Params) (l r T_left T_right : Affine) (a b : List Footstep), p.Limits ∧ q.Limits ∧
    ([NaiveOp.setParams q, .configure l r].foldl NaivePlanner.step (NaivePlanner.make p)).plan .right T_left T_right = .ok a ∧
    ([NaiveOp.configure l r].foldl NaivePlanner.step (NaivePlanner.make q)).plan .right T_left T_right = .ok b ∧
    4 < a.length ∧ b.length = 4 := by
  refine ⟨{ maxDxForward := 1 / 100 }, {}, backward.targetLeft, backward.targetRight, ⟨1, ![0, 75 / 1000, 0]⟩, ⟨1, ![0, -75 / 1000, 0]⟩,
    _, _, ?_, default_limits, rfl, rfl, ?_, ?_⟩
  · refine ⟨?_, ?_, ?_, ?_⟩ <;> norm_num
  · have hs : (backward.stepWith (Params.access { maxDxForward := 1 / 100 }) .left ⟨1, ![0, 75 / 1000, 0]⟩).2 = false := by
      have hrel : (Affine.inv ⟨1, ![0, 75 / 1000, 0]⟩).mul (backward.targetOf .left) = ⟨1, ![-5 / 100, -15 / 100, 0]⟩ := by
        simp only [Affine.inv, Affine.mul, inv_one, Matrix.one_mulVec, mul_one, Naive.targetOf, backward]
        congr 1
        ext i; fin_cases i <;> norm_num
      by_contra hc
      have hc : (backward.stepWith (Params.access { maxDxForward := 1 / 100 }) .left ⟨1, ![0, 75 / 1000, 0]⟩).2 = true := by simpa using hc
      unfold Naive.stepWith at hc
      simp only [hrel] at hc
      obtain ⟨-, -, h1, -⟩ := clampYaw_true _ _ _ hc
      obtain ⟨-, -, h2⟩ := rescaleAxis_true _ _ _ h1
      rw [h2] at h1
      obtain ⟨h3, -, -⟩ := rescaleAxis_true _ _ _ h1
      simp only [Params.access, Matrix.cons_val_zero] at h3
      norm_num at h3
    have hm : (100 : Int).toNat = 97 + 1 + 1 + 1 := by decide
    show 4 < (_ ++ _ : List Footstep).length
    rw [List.length_append]
    show 4 < 2 + (Naive.loopWith backward (Params.access { maxDxForward := 1 / 100 }) (100 : Int).toNat _).length
    rw [hm, Naive.loopWith, Naive.loopWith, Naive.loopWith]
    have hs' : (Naive.stepWith backward (Params.access { maxDxForward := 1 / 100 }) .left
        (NaiveSt.left { left := ⟨1, ![0, 75 / 1000, 0]⟩, right := ⟨1, ![0, -75 / 1000, 0]⟩, support := .left })).2 = false := hs
    simp only [Naive.turnWith, Side.other, hs', Bool.and_false, Bool.false_eq_true, if_false, List.length_cons]
    omega
  · show (Naive.planWith backward backward.params.access .right _ _).length = 4
    rw [planWith_access]
    have h1 : backward.step .left ⟨1, ![0, 75 / 1000, 0]⟩ = (⟨1, ![-3 / 100, -75 / 1000, 0]⟩, true) := by
      rw [backward_step .left ![0, 75 / 1000, 0] (-5 / 100) (by norm_num) (by norm_num) (by norm_num) rfl rfl]
      norm_num
    have h2 : backward.step .right ⟨1, ![-3 / 100, -75 / 1000, 0]⟩ = (⟨1, ![-5 / 100, 75 / 1000, 0]⟩, true) := by
      rw [backward_step .right ![-3 / 100, -75 / 1000, 0] (-2 / 100) (by norm_num) (by norm_num) (by norm_num) rfl rfl]
      norm_num
    have hm : backward.maxSteps.toNat = 97 + 1 + 1 + 1 := by decide
    unfold Naive.plan
    rw [hm, Naive.loop, Naive.loop, Naive.loop]
    simp only [Bool.and_self, Bool.false_eq_true, if_false, Naive.turn, Side.other, h1, h2, Bool.and_true, if_true]
    rfl

/-- A session that meets the hypotheses of C178_partial although the parameters were changed: only the spacing of the feet is. -/
example : (lastGiven NaiveOp.params? [.setParams { feetSpacing := 1 / 5 }, .configure .one .one] {}).access = ({} : Params).access ∧
    lastGiven NaiveOp.targets? [.setParams { feetSpacing := 1 / 5 }, .configure .one .one] none = some (.one, .one) := ⟨rfl, rfl⟩

end Verif.Humanoid
