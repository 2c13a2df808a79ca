/-
Property C215: what the program that shows a robot draws.
-/
import Mathlib.Analysis.Real.Pi.Irrational
import Mathlib.Tactic.Linarith
import Mathlib.Tactic.NormNum
import Mathlib.Tactic.Ring
import Verif.Robot.Viewer
import Verif.Robot.AccessorsProps

namespace Verif.Robot
open Verif.Tools Verif.Problem

/-- The joint is animated: it is neither the universe nor the floating base. -/
def Animated (j : Kinematics.Joint) : Prop := j.name ≠ "universe" ∧ j.name ≠ "root_joint"

/-- The configuration during the pass `n` of the animation: the neutral one at first, then the first coordinate of each joint is the
sine of the time of the pass before. -/
def IsPose (joints : List Kinematics.Joint) (q0 : Nat → ℝ) (n : Nat) (q : Nat → ℝ) : Prop :=
  (n = 0 → q = q0) ∧ ∀ k, n = k + 1 →
    (∀ j ∈ joints, Animated j → q j.idxQ = Real.sin (k * 0.01)) ∧
    ∀ i, (∀ j ∈ joints, Animated j → j.idxQ ≠ i) → q i = q0 i

/-- A continuous joint: its two coordinates are the cosine and the sine of its angle. -/
def IsContinuous (j : Kinematics.Joint) : Prop := j.nQ = 2 ∧ j.nV = 1

/-- The configuration is one of the robot: the coordinates of the continuous joints are a cosine and a sine. -/
def IsConfiguration (joints : List Kinematics.Joint) (q : Nat → ℝ) : Prop :=
  ∀ j ∈ joints, IsContinuous j → ∃ a : ℝ, q j.idxQ = Real.cos a ∧ q (j.idxQ + 1) = Real.sin a

/-! ## Lemmas -/

theorem animate_spec (m : ViewModel) (v : ℝ) (l : List String) : ∀ s : RW, s.oMf = m.fk s.q → (∀ n ∈ l, ∃ j ∈ m.joints, j.name = n) →
    ∃ s', m.animate v l s = .ok s' ∧ s'.oMf = m.fk s'.q ∧
      ∀ i, s'.q i = if ∃ n ∈ l, jointOffset m.joints n = .ok i then v else s.q i := by
  induction l with
  | nil => intro s h _; exact ⟨s, rfl, h, fun i => by simp⟩
  | cons n l ih =>
    intro s _ hl
    obtain ⟨j, hj, hn⟩ := hl n (by simp)
    have hk : ∃ k, jointOffset m.joints n = .ok k := by
      unfold jointOffset
      cases h' : m.joints.find? (fun j => j.name = n) with
      | none =>
        rw [List.find?_eq_none] at h'
        exact absurd (h' j hj) (by simpa using hn)
      | some k => exact ⟨k.idxQ, rfl⟩
    obtain ⟨k, hk⟩ := hk
    obtain ⟨s', e, h1, h2⟩ := ih (m.update { s with q := fun i => if i = k then v else s.q i }) rfl (fun n hn => hl n (by simp [hn]))
    refine ⟨s', ?_, h1, fun i => ?_⟩
    · simp only [ViewModel.animate, ViewModel.setJoint, hk]
      exact e
    · rw [h2 i]
      by_cases hi : ∃ n ∈ l, jointOffset m.joints n = .ok i
      · rw [if_pos hi, if_pos]
        obtain ⟨x, hx, e⟩ := hi
        exact ⟨x, by simp [hx], e⟩
      · rw [if_neg hi]
        by_cases hik : i = k
        · subst hik
          rw [if_pos ⟨n, by simp, hk⟩]
          simp [ViewModel.update]
        · rw [if_neg]
          · simp [ViewModel.update, hik]
          · rintro ⟨x, hx, e⟩
            rcases List.mem_cons.1 hx with rfl | hx
            · rw [hk] at e
              exact hik (Except.ok.inj e).symm
            · exact hi ⟨x, hx, e⟩

theorem offset_animated {joints : List Kinematics.Joint} (hj : JointsOK joints) (i : Nat) :
    (∃ n ∈ namesOf joints, jointOffset joints n = .ok i) ↔ ∃ j ∈ joints, Animated j ∧ j.idxQ = i := by
  constructor
  · rintro ⟨n, hn, e⟩
    obtain ⟨⟨j, hjm, rfl⟩, h1, h2⟩ := (namesOf_mem joints n).1 hn
    refine ⟨j, hjm, ⟨h1, h2⟩, ?_⟩
    unfold jointOffset at e
    rw [find_known hj hjm] at e
    exact Except.ok.inj e
  · rintro ⟨j, hjm, ⟨h1, h2⟩, rfl⟩
    refine ⟨j.name, (namesOf_mem joints _).2 ⟨⟨j, hjm, rfl⟩, h1, h2⟩, ?_⟩
    unfold jointOffset
    rw [find_known hj hjm]

theorem names_known (joints : List Kinematics.Joint) : ∀ n ∈ namesOf joints, ∃ j ∈ joints, j.name = n :=
  fun n hn => ((namesOf_mem joints n).1 hn).1

theorem loop_frames (m : ViewModel) (frames : List Nat) (animated : Bool) (n : Nat) : ∀ (t : ℝ) (s : RW), s.oMf = m.fk s.q →
    ∃ l, m.loop frames animated n t s = .ok l ∧ l.length = n ∧ ∀ p ∈ l, p.frames = frames.map (m.fk p.q) := by
  induction n with
  | zero => intro t s _; exact ⟨[], rfl, rfl, by simp⟩
  | succ n ih =>
    intro t s h
    have hs : ∃ s', (if animated then m.animate (Real.sin t) (namesOf m.joints) s else .ok s) = .ok s' ∧ s'.oMf = m.fk s'.q := by
      cases animated with
      | false => exact ⟨s, rfl, h⟩
      | true =>
        obtain ⟨s', e, h1, -⟩ := animate_spec m (Real.sin t) (namesOf m.joints) s h (names_known m.joints)
        exact ⟨s', e, h1⟩
    obtain ⟨s', e, h1⟩ := hs
    obtain ⟨l, e', hl, hp⟩ := ih (t + 0.01) s' h1
    refine ⟨ViewModel.show s frames :: l, ?_, by simp [hl], ?_⟩
    · cases animated with
      | false =>
        obtain rfl : s = s' := Except.ok.inj e
        simp only [ViewModel.loop, e', bind, Except.bind]
        rfl
      | true =>
        rw [if_pos rfl] at e
        simp only [ViewModel.loop, if_true, e, e', bind, Except.bind]
    · intro p hp'
      rcases List.mem_cons.1 hp' with rfl | hp'
      · show frames.map (fun f => s.oMf f) = _
        rw [h]
        rfl
      · exact hp p hp'

theorem loop_still (m : ViewModel) (frames : List Nat) (n : Nat) : ∀ (t : ℝ) (s : RW),
    ∃ l, m.loop frames false n t s = .ok l ∧ ∀ p ∈ l, p.q = s.q := by
  induction n with
  | zero => intro t s; exact ⟨[], rfl, by simp⟩
  | succ n ih =>
    intro t s
    obtain ⟨l, e', hp⟩ := ih (t + 0.01) s
    refine ⟨ViewModel.show s frames :: l, ?_, ?_⟩
    · simp only [ViewModel.loop, e', bind, Except.bind]
      rfl
    · intro p hp'
      rcases List.mem_cons.1 hp' with rfl | hp'
      · rfl
      · exact hp p hp'

theorem loop_poses (m : ViewModel) (hj : JointsOK m.joints) (frames : List Nat) (q0 : Nat → ℝ) (n : Nat) : ∀ (k : Nat) (s : RW),
    s.oMf = m.fk s.q → IsPose m.joints q0 k s.q →
    ∃ l, m.loop frames true n (k * 0.01) s = .ok l ∧ ∀ (i : Nat) (p : Picture), l[i]? = some p → IsPose m.joints q0 (k + i) p.q := by
  induction n with
  | zero => intro k s _ _; exact ⟨[], rfl, by simp⟩
  | succ n ih =>
    intro k s h hp
    obtain ⟨s', e, h1, h2⟩ := animate_spec m (Real.sin (k * 0.01)) (namesOf m.joints) s h (names_known m.joints)
    have hp' : IsPose m.joints q0 (k + 1) s'.q := by
      refine ⟨by simp, fun k' hk' => ?_⟩
      obtain rfl : k = k' := by omega
      refine ⟨fun j hjm ha => ?_, fun i hi => ?_⟩
      · rw [h2, if_pos ((offset_animated hj _).2 ⟨j, hjm, ha, rfl⟩)]
      · rw [h2, if_neg]
        · cases k with
          | zero => rw [hp.1 rfl]
          | succ k => exact (hp.2 k rfl).2 i hi
        · intro hex
          obtain ⟨j, hjm, ha, e⟩ := (offset_animated hj _).1 hex
          exact hi j hjm ha e
    obtain ⟨l, e', hl⟩ := ih (k + 1) s' h1 hp'
    refine ⟨ViewModel.show s frames :: l, ?_, ?_⟩
    · have ht : ((k + 1 : Nat) : ℝ) * 0.01 = k * 0.01 + 0.01 := by push_cast; ring
      rw [ht] at e'
      simp only [ViewModel.loop, if_true, e, e', bind, Except.bind]
    · intro i p hi
      cases i with
      | zero =>
        obtain rfl : ViewModel.show s frames = p := by simpa using hi
        exact hp
      | succ i =>
        have := hl i p (by simpa using hi)
        rwa [show k + (i + 1) = k + 1 + i by omega]

/-- The sine of a rational is never one or minus one. -/
theorem sin_sq_ne_one (x : ℚ) : Real.sin x ^ 2 ≠ 1 := by
  intro h
  have hc : Real.cos (x : ℝ) = 0 := by
    have := Real.sin_sq_add_cos_sq (x : ℝ)
    have h0 : Real.cos (x : ℝ) ^ 2 = 0 := by linarith
    exact pow_eq_zero_iff (two_ne_zero) |>.1 h0
  obtain ⟨k, hk⟩ := Real.cos_eq_zero_iff.1 hc
  have h2 : (2 * (k : ℝ) + 1) ≠ 0 := by
    intro h0
    have : (2 * k + 1 : ℤ) = 0 := by exact_mod_cast h0
    omega
  have hpi : Real.pi = ((2 * x / (2 * k + 1) : ℚ) : ℝ) := by
    push_cast
    rw [eq_div_iff h2]
    rw [hk]
    ring
  exact irrational_pi.ne_rat _ hpi

/-! ## C215 -/

/-- The program never stops with an exception, and in all its passes the frames are drawn where they are in the configuration that is
displayed, with and without the animation. -/
theorem C215_frames (m : ViewModel) (frames : List Nat) (animated : Bool) (q0 : Nat → ℝ) (oMf0 : Nat → Affine) (n : Nat) :
    ∃ l, m.view frames animated q0 oMf0 n = .ok l ∧ l.length = n ∧ ∀ p ∈ l, p.frames = frames.map (m.fk p.q) :=
  loop_frames m frames animated n 0 _ rfl

/-- Without the animation the neutral configuration is displayed. -/
theorem C215_still (m : ViewModel) (frames : List Nat) (q0 : Nat → ℝ) (oMf0 : Nat → Affine) (n : Nat) :
    ∃ l, m.view frames false q0 oMf0 n = .ok l ∧ ∀ p ∈ l, p.q = q0 :=
  loop_still m frames n 0 _

/-- With the animation: the configuration of each pass. -/
theorem C215_pose (m : ViewModel) (hj : JointsOK m.joints) (frames : List Nat) (q0 : Nat → ℝ) (oMf0 : Nat → Affine) (n : Nat) :
    ∃ l, m.view frames true q0 oMf0 n = .ok l ∧ ∀ (i : Nat) (p : Picture), l[i]? = some p → IsPose m.joints q0 i p.q := by
  obtain ⟨l, e, h⟩ := loop_poses m hj frames q0 n 0 (m.update ⟨q0, oMf0⟩) rfl ⟨fun _ => rfl, fun k hk => by omega⟩
  refine ⟨l, ?_, fun i p hi => ?_⟩
  · simpa [ViewModel.view] using e
  · simpa using h i p hi

/-- The neutral configuration of pinocchio for the continuous joints, and their second coordinate belongs to no other joint. -/
structure NeutralOK (joints : List Kinematics.Joint) (q0 : Nat → ℝ) : Prop where
  values : ∀ j ∈ joints, IsContinuous j → q0 j.idxQ = 1 ∧ q0 (j.idxQ + 1) = 0
  apart : ∀ j ∈ joints, IsContinuous j → ∀ k ∈ joints, Animated k → k.idxQ ≠ j.idxQ + 1
  first : ∀ j ∈ joints, IsContinuous j → ∀ k ∈ joints, Animated k → k.idxQ = j.idxQ → k = j

/-- The program is meant to display configurations of the robot. This is false with the animation of a robot that has a continuous joint:
no picture after the first one is a configuration of the robot. -/
theorem C215_refuted (m : ViewModel) (hj : JointsOK m.joints) (frames : List Nat) (q0 : Nat → ℝ) (hq : NeutralOK m.joints q0)
    (oMf0 : Nat → Affine) (j : Kinematics.Joint) (hjm : j ∈ m.joints) (ha : Animated j) (hc : IsContinuous j) (n : Nat) :
    ∃ l, m.view frames true q0 oMf0 n = .ok l ∧ l.length = n ∧
      ∀ (i : Nat) (p : Picture), l[i + 1]? = some p → ¬ IsConfiguration m.joints p.q := by
  obtain ⟨l, e, h⟩ := C215_pose m hj frames q0 oMf0 n
  obtain ⟨l', e', hl, -⟩ := C215_frames m frames true q0 oMf0 n
  obtain rfl : l' = l := Except.ok.inj (e'.symm.trans e)
  refine ⟨l', e, hl, fun i p hi hconf => ?_⟩
  obtain ⟨h1, h2⟩ := (h (i + 1) p hi).2 i rfl
  obtain ⟨a, ha1, ha2⟩ := hconf j hjm hc
  rw [h1 j hjm ha] at ha1
  rw [h2 _ (fun k hk hak => hq.apart j hjm hc k hk hak), (hq.values j hjm hc).2] at ha2
  have hs := Real.sin_sq_add_cos_sq a
  rw [← ha1, ← ha2] at hs
  refine sin_sq_ne_one (i * (1 / 100)) ?_
  have ht : (((i : ℚ) * (1 / 100) : ℚ) : ℝ) = (i : ℝ) * 0.01 := by push_cast; norm_num
  rw [ht]
  linarith

/-- Exactly: the passes (from two on) all display configurations of the robot if and only if no animated joint is continuous. -/
theorem C215_partial (m : ViewModel) (hj : JointsOK m.joints) (frames : List Nat) (q0 : Nat → ℝ) (hq : NeutralOK m.joints q0)
    (oMf0 : Nat → Affine) (n : Nat) (hn : 2 ≤ n) :
    ∃ l, m.view frames true q0 oMf0 n = .ok l ∧
      ((∀ p ∈ l, IsConfiguration m.joints p.q) ↔ ∀ j ∈ m.joints, Animated j → ¬ IsContinuous j) := by
  obtain ⟨l, e, h⟩ := C215_pose m hj frames q0 oMf0 n
  refine ⟨l, e, fun hall j hjm ha hc => ?_, fun hno p hp j hjm hc => ⟨0, ?_⟩⟩
  · obtain ⟨l', e', hl, hbad⟩ := C215_refuted m hj frames q0 hq oMf0 j hjm ha hc n
    obtain rfl : l' = l := Except.ok.inj (e'.symm.trans e)
    have h1 : 1 < l'.length := by omega
    exact hbad 0 l'[1] (by simp [h1]) (hall _ (List.getElem_mem h1))
  · have hna : ¬ Animated j := fun ha => hno j hjm ha hc
    obtain ⟨i, hi, rfl⟩ := List.getElem_of_mem hp
    have hpose := h i _ (List.getElem?_eq_getElem hi)
    have hv := hq.values j hjm hc
    rw [Real.cos_zero, Real.sin_zero]
    cases i with
    | zero => rw [hpose.1 rfl]; exact hv
    | succ i =>
      have hp2 := (hpose.2 i rfl).2
      rw [hp2 _ (fun k hk hak e => hna (hq.first j hjm hc k hk hak e ▸ hak)),
        hp2 _ (fun k hk hak => hq.apart j hjm hc k hk hak)]
      exact hv

/-- A robot with a floating base, a revolute joint and a continuous one. -/
def viewJoints : List Kinematics.Joint :=
  [⟨"universe", 0, 0, 0, 0⟩, ⟨"root_joint", 0, 7, 0, 6⟩, ⟨"arm", 7, 1, 6, 1⟩, ⟨"wheel", 8, 2, 7, 1⟩]

/-- The hypotheses of `C215_pose`, `C215_refuted` and `C215_partial` hold for it. -/
example : JointsOK viewJoints ∧ NeutralOK viewJoints (fun i => if i = 6 ∨ i = 8 then 1 else 0) ∧
    (∃ j ∈ viewJoints, Animated j ∧ IsContinuous j) ∧ ∃ j ∈ viewJoints, Animated j ∧ ¬ IsContinuous j := by
  refine ⟨⟨?_, ?_⟩, ⟨?_, ?_, ?_⟩, ⟨⟨"wheel", 8, 2, 7, 1⟩, ?_⟩, ⟨⟨"arm", 7, 1, 6, 1⟩, ?_⟩⟩ <;>
    simp [viewJoints, Animated, IsContinuous]

/-- And the same robot without the wheel has only configurations displayed. -/
example : ∀ j ∈ viewJoints.take 3, Animated j → ¬ IsContinuous j := by
  simp [viewJoints, Animated, IsContinuous]

end Verif.Robot
