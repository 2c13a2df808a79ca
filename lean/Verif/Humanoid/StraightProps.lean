/-
The naive planner walking straight ahead: every footstep, how many there are, and where they stop (C194).
  /repo/src/placo/humanoid/footsteps_planner_naive.cpp 31-157
-/
import Verif.Humanoid.PlannerProps
import Mathlib.Algebra.Order.Floor.Semiring
import Mathlib.Tactic.Linarith

namespace Verif.Humanoid
open Verif.Tools Verif.Robot

/-! ## Specification -/

/-- A foot on the ground of `W`, `x` ahead of its origin, on its side of the line that the robot follows. -/
noncomputable def onLine (W : Affine) (spacing : ℝ) (side : Side) (x : ℝ) : Affine :=
  W.mul ⟨1, ![x, match side with | .left => spacing / 2 | .right => -(spacing / 2), 0]⟩

/-- The planner is asked to bring the two feet side by side, `X` ahead of the origin of `W`. -/
def Naive.Ahead (c : Naive) (W : Affine) (X : ℝ) : Prop :=
  c.targetLeft = onLine W c.params.feetSpacing .left X ∧ c.targetRight = onLine W c.params.feetSpacing .right X

/-! ## One step -/

private theorem rigid_onLine {W : Affine} (h : Rigid W) (s : ℝ) (side : Side) (x : ℝ) : Rigid (onLine W s side x) := by
  show IsRotation (W.linear * 1)
  rw [mul_one]
  exact h

private theorem onLine_mul (W : Affine) (s : ℝ) (side : Side) (x : ℝ) (v : V3) :
    (onLine W s side x).mul ⟨1, v⟩ = W.mul ⟨1, ![x, match side with | .left => s / 2 | .right => -(s / 2), 0] + v⟩ := by
  unfold onLine
  rw [mul_assoc']
  congr 1
  refine Affine.ext (mul_one _) ?_
  show (1 : M3).mulVec v + _ = _
  rw [Matrix.one_mulVec, add_comm]

private theorem inv_cancel {T : Affine} (h : Rigid T) (A : Affine) : T.inv.mul (T.mul A) = A := by
  rw [← mul_assoc', inv_mul' h, one_mul']

/-- A step of the planner when the robot is on the line, not beyond the target: the foot goes forward by the longest step, or onto
its target, and the planner knows which. -/
theorem straight_step (c : Naive) (hp : c.params.Limits) (W : Affine) (hW : Rigid W) (X x : ℝ) (hc : c.Ahead W X) (hx : x ≤ X)
    (support : Side) :
    c.step support (onLine W c.params.feetSpacing support x) =
      (onLine W c.params.feetSpacing support.other (min X (x + c.params.maxDxForward)), decide (X - x ≤ c.params.maxDxForward)) := by
  obtain ⟨hl, hr⟩ := hc
  set S := c.params.feetSpacing with hS
  set T := onLine W S support x with hT
  have hrig : Rigid T := rigid_onLine hW S support x
  have hrel : T.inv.mul (c.targetOf support) = ⟨1, ![X - x, c.idleY support, 0]⟩ := by
    have e : c.targetOf support = T.mul ⟨1, ![X - x, c.idleY support, 0]⟩ := by
      rw [hT, onLine_mul]
      cases support
      · show c.targetRight = _
        rw [hr]
        unfold onLine
        congr 2
        ext i; fin_cases i <;> simp [Naive.idleY, ← hS]; ring
      · show c.targetLeft = _
        rw [hl]
        unfold onLine
        congr 2
        ext i; fin_cases i <;> simp [Naive.idleY, ← hS]; ring
    rw [e, inv_cancel hrig]
  have hcenter : T.inv.linear.mulVec (fun i => c.targetLeft.translation i * (1 - 1 / 2) + c.targetRight.translation i * (1 / 2)) +
      T.inv.translation = ![X - x, c.idleY support / 2, 0] := by
    have e : (fun i => c.targetLeft.translation i * (1 - 1 / 2) + c.targetRight.translation i * (1 / 2)) =
        (T.mul ⟨1, ![X - x, c.idleY support / 2, 0]⟩).translation := by
      rw [hT, onLine_mul, hl, hr]
      unfold onLine
      funext i
      simp only [Affine.mul, Pi.add_apply, Matrix.mulVec, dotProduct, Fin.sum_univ_three]
      cases support <;> simp [Naive.idleY, ← hS] <;> ring
    rw [e]
    have := congrArg Affine.translation (inv_cancel hrig ⟨1, ![X - x, c.idleY support / 2, 0]⟩)
    exact this
  have hL := hp.1
  have d0 : 0 ≤ X - x := sub_nonneg.2 hx
  unfold Naive.step
  simp only [hrel, hcenter, Matrix.cons_val_zero, Matrix.cons_val_one, Matrix.cons_val, sub_self]
  have h2 : ∀ st, rescaleAxis 0 c.params.maxDy st = st := by
    intro st
    unfold rescaleAxis
    have a1 : ¬ (0 : ℝ) < -c.params.maxDy := by linarith [hp.2.2.1]
    have a2 : ¬ c.params.maxDy < 0 := by linarith [hp.2.2.1]
    simp only [if_neg a1, if_neg a2]
  have h1 : rescaleAxis (X - x) c.params.maxDxForward (1, true) =
      (if X - x ≤ c.params.maxDxForward then 1 else c.params.maxDxForward / (X - x), decide (X - x ≤ c.params.maxDxForward)) := by
    unfold rescaleAxis
    have a1 : ¬ X - x < -c.params.maxDxForward := by linarith
    simp only [if_neg a1]
    by_cases h : X - x ≤ c.params.maxDxForward
    · simp only [if_neg (not_lt.2 h), if_pos h, decide_eq_true h]
    · have hlt := not_le.1 h
      rw [if_pos hlt, if_neg h, decide_eq_false h]
      rw [min_eq_right ((div_le_one (hL.trans hlt)).2 hlt.le)]
  have h3 : ∀ d, c.errorYaw d (![X - x, c.idleY support / 2, 0] - ![0, c.idleY support / 2, 0]) 1 = 0 := by
    intro d
    have e : (![X - x, c.idleY support / 2, 0] - ![0, c.idleY support / 2, 0] : V3) = ![X - x, 0, 0] := by
      ext i; fin_cases i <;> simp
    rw [e]
    unfold Naive.errorYaw
    split
    · show atan2 0 (X - x) = 0
      unfold atan2
      have : (⟨X - x, 0⟩ : ℂ) = ((X - x : ℝ) : ℂ) := by apply Complex.ext <;> simp
      rw [this, Complex.arg_ofReal_of_nonneg d0]
    · exact frameYaw_one
  have h4 : ∀ b, clampYaw 0 c.params.maxDtheta b = (0, b) := by
    intro b
    unfold clampYaw
    have a1 : ¬ (0 : ℝ) < -c.params.maxDtheta := by linarith [hp.2.2.2]
    have a2 : ¬ c.params.maxDtheta < 0 := by linarith [hp.2.2.2]
    simp only [if_neg a1, if_neg a2]
  have hm : (X - x) * (if X - x ≤ c.params.maxDxForward then 1 else c.params.maxDxForward / (X - x)) =
      min (X - x) c.params.maxDxForward := by
    by_cases h : X - x ≤ c.params.maxDxForward
    · rw [if_pos h, mul_one, min_eq_left h]
    · have hlt := not_le.1 h
      rw [if_neg h, min_eq_right hlt.le, mul_div_cancel₀ _ (hL.trans hlt).ne']
  have h5 : c.params.ellipsoidClip ⟨min (X - x) c.params.maxDxForward, 0, 0⟩ = ⟨min (X - x) c.params.maxDxForward, 0, 0⟩ := by
    rw [show c.params.ellipsoidClip = c.params.clip .ellipsoid from rfl]
    refine (C77 c.params hp .ellipsoid _).2.2.1 ?_
    have m0 : 0 ≤ min (X - x) c.params.maxDxForward := le_min d0 hL.le
    unfold Inside gauge
    simp only [Params.limitX, if_pos m0, zero_div, ne_eq, OfNat.ofNat_ne_zero, not_false_eq_true, zero_pow, add_zero]
    rw [Real.sqrt_sq (div_nonneg m0 hL.le)]
    exact (div_le_one hL).2 (min_le_right _ _)
  simp only [h1, h2, h3, h4, hm, zero_mul, h5, add_zero]
  rw [Prod.mk.injEq]
  refine ⟨?_, rfl⟩
  rw [show rotZ 0 = (1 : M3) by ext i j; fin_cases i <;> fin_cases j <;> simp [rotZ], hT, onLine_mul]
  unfold onLine
  have hmin : x + min (X - x) c.params.maxDxForward = min X (x + c.params.maxDxForward) := by
    rw [← min_add_add_left]; congr 1; ring
  congr 2
  ext i
  fin_cases i
  · simpa using hmin
  · cases support <;> simp [Naive.idleY, Side.other, ← hS] <;> ring
  · simp

/-! ## The walk -/

/-- The side that flies at the step `i`. -/
def flyingAt (flying : Side) (i : Nat) : Side := if i % 2 = 0 then flying else flying.other

private theorem flyingAt_succ (flying : Side) (i : Nat) : flyingAt flying (i + 1) = flyingAt flying.other i := by
  unfold flyingAt
  rcases Nat.mod_two_eq_zero_or_one i with h | h
  · rw [if_neg (by omega), if_pos h]
  · rw [if_pos (by omega), if_neg (by omega), other_other]

/-- The frame and the flag of a foot. -/
def NaiveSt.foot (s : NaiveSt) : Side → Affine
  | .left => s.left
  | .right => s.right

/-- See `NaiveSt.foot`. -/
def NaiveSt.flag (s : NaiveSt) : Side → Bool
  | .left => s.leftArrived
  | .right => s.rightArrived

private theorem turn_spec (c : Naive) (s : NaiveSt) :
    (c.turn s).1.support = s.support.other ∧ (c.turn s).1.foot s.support.other = (c.step s.support (s.foot s.support)).1 ∧
    (c.turn s).1.flag s.support.other = (c.step s.support (s.foot s.support)).2 ∧
    (c.turn s).1.flag s.support = s.flag s.support ∧
    (c.turn s).2 = c.params.createFootstep s.support.other (c.step s.support (s.foot s.support)).1 := by
  unfold Naive.turn
  cases h : s.support <;> simp [NaiveSt.foot, NaiveSt.flag, Side.other]

private theorem loop_stop (c : Naive) (n : Nat) (s : NaiveSt) (h : s.flag s.support = true) (h' : s.flag s.support.other = true) :
    c.loop n s = [] := by
  cases n with
  | zero => rfl
  | succ n =>
    rw [Naive.loop, if_pos]
    cases hs : s.support <;> rw [hs] at h h' <;> simp only [NaiveSt.flag, Side.other] at h h' <;> simp [h, h']

private theorem loop_go (c : Naive) (n : Nat) (s : NaiveSt) (h : s.flag s.support = false ∨ s.flag s.support.other = false) :
    c.loop (n + 1) s = (c.turn s).2 :: c.loop n (c.turn s).1 := by
  rw [Naive.loop, if_neg]
  cases hs : s.support <;> rw [hs] at h <;> simp only [NaiveSt.flag, Side.other] at h <;> rcases h with h | h <;> simp [h]

/-- The walk from a support foot at `x`. `k` is the number of steps before both feet are at the target. -/
private theorem straight_loop (c : Naive) (hp : c.params.Limits) (W : Affine) (hW : Rigid W) (X : ℝ) (hc : c.Ahead W X) :
    ∀ (n k : Nat) (s : NaiveSt) (x : ℝ), x ≤ X → s.foot s.support = onLine W c.params.feetSpacing s.support x →
      (s.flag s.support = true → k = 1 ∧ x = X ∧ s.flag s.support.other = false) → (s.flag s.support = false →
        2 ≤ k ∧ X - x ≤ (k - 1 : Nat) * c.params.maxDxForward ∧ (k = 2 ∨ (k - 2 : Nat) * c.params.maxDxForward < X - x)) →
      (c.loop n s).length = min n k ∧
      ∀ (i : Nat) (hi : i < (c.loop n s).length),
        (c.loop n s)[i] = c.params.createFootstep (flyingAt s.support.other i)
          (onLine W c.params.feetSpacing (flyingAt s.support.other i) (min X (x + (i + 1) * c.params.maxDxForward))) := by
  intro n
  induction n with
  | zero => intro k s x _ _ _ _; exact ⟨by simp [Naive.loop], fun i hi => absurd hi (by simp [Naive.loop])⟩
  | succ n ih =>
    intro k s x hx hfoot ht hf
    have hL := hp.1
    obtain ⟨t1, t2, t3, t4, t5⟩ := turn_spec c s
    rw [hfoot, straight_step c hp W hW X x hc hx] at t2 t3 t5
    have hgo : s.flag s.support = false ∨ s.flag s.support.other = false := by
      cases hfl : s.flag s.support
      · exact Or.inl rfl
      · exact Or.inr (ht hfl).2.2
    have hk1 : 1 ≤ k := by
      cases hfl : s.flag s.support
      · have := (hf hfl).1; omega
      · have := (ht hfl).1; omega
    rw [loop_go c n s hgo]
    have rest : (c.loop n (c.turn s).1).length = min n (k - 1) ∧
        ∀ (i : Nat) (hi : i < (c.loop n (c.turn s).1).length),
          (c.loop n (c.turn s).1)[i] = c.params.createFootstep (flyingAt s.support i)
            (onLine W c.params.feetSpacing (flyingAt s.support i) (min X (x + (i + 1 + 1) * c.params.maxDxForward))) := by
      cases hfl : s.flag s.support
      · obtain ⟨k2, hk, hk'⟩ := hf hfl
        by_cases harr : X - x ≤ c.params.maxDxForward
        · -- the foot lands on the target, the other one follows
          have hk2 : k = 2 := by
            rcases hk' with h | h
            · exact h
            · by_contra hne
              have : (1 : ℝ) ≤ (k - 2 : Nat) := by exact_mod_cast (by omega : 1 ≤ k - 2)
              nlinarith
          obtain ⟨r1, r2⟩ := ih 1 (c.turn s).1 X le_rfl
            (by rw [t1, t2, min_eq_left (by linarith)])
            (fun _ => ⟨rfl, rfl, by rw [t1, other_other, t4, hfl]⟩)
            (fun h => absurd h (by rw [t1, t3, decide_eq_true harr]; simp))
          refine ⟨by rw [r1, hk2], fun i hi => ?_⟩
          rw [r2 i hi, t1, other_other]
          have i0 : (0 : ℝ) ≤ i := Nat.cast_nonneg i
          rw [min_eq_left (by nlinarith), min_eq_left (by nlinarith)]
        · have hlt := not_le.1 harr
          have hk3 : 3 ≤ k := by
            by_contra hne
            have : k = 2 := by omega
            rw [this] at hk
            norm_num at hk
            linarith
          obtain ⟨r1, r2⟩ := ih (k - 1) (c.turn s).1 (x + c.params.maxDxForward) (by linarith)
            (by rw [t1, t2, min_eq_right (by linarith)])
            (fun h => absurd h (by rw [t1, t3, decide_eq_false harr]; simp))
            (fun _ => by
              refine ⟨by omega, ?_, ?_⟩
              · have e : ((k - 1 : Nat) : ℝ) = ((k - 1 - 1 : Nat) : ℝ) + 1 := by
                  exact_mod_cast (by omega : k - 1 = k - 1 - 1 + 1)
                rw [e] at hk
                linarith
              · rcases hk' with h | h
                · omega
                · by_cases h3 : k = 3
                  · left; omega
                  · right
                    have e : ((k - 2 : Nat) : ℝ) = ((k - 1 - 2 : Nat) : ℝ) + 1 := by
                      exact_mod_cast (by omega : k - 2 = k - 1 - 2 + 1)
                    rw [e] at h
                    linarith)
          refine ⟨r1, fun i hi => ?_⟩
          rw [r2 i hi, t1, other_other]
          congr 3
          ring
      · -- the last step
        obtain ⟨k1, hxX, ho⟩ := ht hfl
        have harr : X - x ≤ c.params.maxDxForward := by rw [hxX]; linarith
        have hnil : c.loop n (c.turn s).1 = [] :=
          loop_stop c n _ (by rw [t1, t3, decide_eq_true harr]) (by rw [t1, other_other, t4, hfl])
        rw [hnil]
        exact ⟨by simp [k1], fun i hi => absurd hi (by simp)⟩
    refine ⟨by rw [List.length_cons, rest.1]; omega, fun i hi => ?_⟩
    cases i with
    | zero =>
      rw [List.getElem_cons_zero, t5]
      show _ = c.params.createFootstep s.support.other (onLine W _ s.support.other _)
      congr 3
      push_cast; ring_nf
    | succ i =>
      rw [List.getElem_cons_succ, rest.2 i (by simpa using hi), flyingAt_succ, other_other]
      push_cast
      rfl

/-- **C194.** Both targets are side by side ahead of the support foot, anywhere on the ground of any frame: the step `i` puts its foot
`i + 1` longest steps ahead of the first support foot, or at the target once it is nearer; the walk has `max 1 ⌈D / L⌉ + 1` steps (or
`max_steps` if it is less), the last two of which are on the targets. The place of the foot that flies first does not matter. -/
theorem C194 (c : Naive) (hp : c.params.Limits) (W : Affine) (hW : Rigid W) (X x : ℝ) (hc : c.Ahead W X) (hx : x ≤ X)
    (flying : Side) (T_left T_right : Affine)
    (hs : (match flying.other with | .left => T_left | .right => T_right) = onLine W c.params.feetSpacing flying.other x) :
    ∃ l, c.plan flying T_left T_right = c.params.initialFootsteps flying T_left T_right ++ l ∧
      l.length = min c.maxSteps.toNat (max 1 ⌈(X - x) / c.params.maxDxForward⌉₊ + 1) ∧
      (∀ (i : Nat) (hi : i < l.length), l[i] = c.params.createFootstep (flyingAt flying i)
        (onLine W c.params.feetSpacing (flyingAt flying i) (min X (x + (i + 1) * c.params.maxDxForward)))) ∧
      ((max 1 ⌈(X - x) / c.params.maxDxForward⌉₊ + 1 : Nat) ≤ c.maxSteps →
        ∃ pre a b, l = pre ++ [a, b] ∧ a.frame = c.target a.side ∧ b.frame = c.target b.side ∧ a.side = b.side.other) := by
  have hL := hp.1
  set k := ⌈(X - x) / c.params.maxDxForward⌉₊ with hk
  have hup : X - x ≤ k * c.params.maxDxForward := by
    have := Nat.le_ceil ((X - x) / c.params.maxDxForward)
    rwa [div_le_iff₀ hL] at this
  have hlo : k ≤ 1 ∨ ((k - 1 : Nat) : ℝ) * c.params.maxDxForward < X - x := by
    by_cases h1 : k ≤ 1
    · exact Or.inl h1
    · right
      have : k - 1 < ⌈(X - x) / c.params.maxDxForward⌉₊ := by omega
      have := Nat.lt_ceil.1 this
      rwa [lt_div_iff₀ hL] at this
  obtain ⟨h1, h2⟩ := straight_loop c hp W hW X hc c.maxSteps.toNat (max 1 k + 1)
    { left := T_left, right := T_right, support := flying.other } x hx
    (by cases flying <;> exact hs)
    (fun h => absurd h (by cases flying <;> simp [NaiveSt.flag, Side.other]))
    (fun _ => by
      refine ⟨by omega, ?_, ?_⟩
      · have : (k : ℝ) ≤ ((max 1 k + 1 - 1 : Nat) : ℝ) := by exact_mod_cast (by omega : k ≤ max 1 k + 1 - 1)
        nlinarith
      · rcases hlo with h | h
        · left; omega
        · by_cases h1 : k ≤ 1
          · left; omega
          · right
            rwa [show max 1 k + 1 - 2 = k - 1 by omega])
  rw [show ({ left := T_left, right := T_right, support := flying.other } : NaiveSt).support.other = flying from other_other flying] at h2
  refine ⟨_, rfl, h1, h2, fun hmax => ?_⟩
  set l := c.loop c.maxSteps.toNat { left := T_left, right := T_right, support := flying.other } with hl
  have hlen : l.length = max 1 k + 1 := by rw [h1]; omega
  have htgt : ∀ σ, c.target σ = onLine W c.params.feetSpacing σ X := by
    intro σ; cases σ
    · exact hc.1
    · exact hc.2
  have hsplit : l = l.take (max 1 k - 1) ++ [l[max 1 k - 1]'(by omega), l[max 1 k]'(by omega)] := by
    refine List.ext_getElem ?_ ?_
    · rw [List.length_append, List.length_take]; simp; omega
    · intro i hi hi'
      by_cases hc1 : i < max 1 k - 1
      · rw [List.getElem_append_left (by rw [List.length_take]; omega), List.getElem_take]
      · rw [List.getElem_append_right (by rw [List.length_take]; omega)]
        have e : (l.take (max 1 k - 1)).length = max 1 k - 1 := by rw [List.length_take]; omega
        by_cases hc2 : i = max 1 k - 1
        · subst hc2
          simp [e]
        · have hc3 : i = max 1 k := by omega
          subst hc3
          have e2 : max 1 k - (l.take (max 1 k - 1)).length = 1 := by omega
          simp only [e2, List.getElem_cons_succ, List.getElem_cons_zero]
  have last : ∀ i (hi : i < l.length), max 1 k - 1 ≤ i → l[i] = c.params.createFootstep (flyingAt flying i) (c.target (flyingAt flying i)) := by
    intro i hi hge
    rw [h2 i hi, htgt, min_eq_left]
    have : (k : ℝ) ≤ (i : ℝ) + 1 := by exact_mod_cast (by omega : k ≤ i + 1)
    nlinarith
  refine ⟨_, _, _, hsplit, ?_, ?_, ?_⟩
  · rw [last _ (by omega) le_rfl]; rfl
  · rw [last _ (by omega) (by omega)]; rfl
  · rw [last _ (by omega) le_rfl, last _ (by omega) (by omega)]
    show flyingAt flying (max 1 k - 1) = (flyingAt flying (max 1 k)).other
    obtain ⟨m, hm⟩ : ∃ m, max 1 k = m + 1 := ⟨max 1 k - 1, by omega⟩
    rw [hm, Nat.add_sub_cancel, flyingAt_succ]
    unfold flyingAt
    split
    · rw [other_other]
    · rw [other_other]

/-- With the default parameters, 1 m ahead: 14 steps. -/
example : ∃ c : Naive, c.params = {} ∧ c.params.Limits ∧ Rigid Affine.one ∧ c.Ahead Affine.one 1 ∧ c.maxSteps = 100 ∧
    max 1 ⌈((1 : ℝ) - 0) / c.params.maxDxForward⌉₊ + 1 = 14 := by
  refine ⟨{ params := {}, targetLeft := onLine Affine.one ({} : Params).feetSpacing .left 1
            targetRight := onLine Affine.one ({} : Params).feetSpacing .right 1 }, rfl, default_limits,
    ⟨by simp [Affine.one], by simp [Affine.one]⟩, ⟨rfl, rfl⟩, rfl, ?_⟩
  have : ⌈((1 : ℝ) - 0) / (8 / 100)⌉₊ = 13 := by
    rw [Nat.ceil_eq_iff (by norm_num)]
    norm_num
  show max 1 ⌈((1 : ℝ) - 0) / (8 / 100)⌉₊ + 1 = 14
  rw [this]
  rfl

end Verif.Humanoid
