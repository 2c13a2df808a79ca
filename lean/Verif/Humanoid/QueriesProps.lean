/-
C140: moving a planned trajectory.  C141: the queries agree with each other.
-/
import Verif.Humanoid.Queries
import Verif.Humanoid.LookupProps
import Verif.Humanoid.SupportFrameProps
import Verif.Humanoid.FeetProps
import Verif.Humanoid.ZmpProps
import Verif.Humanoid.OverlapProps
import Verif.Humanoid.ReplanSessionProps
import Verif.Humanoid.DummyWalkProps

namespace Verif.Humanoid
open Verif.Problem Verif.Tools Verif.Robot

/-! ## Specification -/

/-- Two calls that raise the same error, or answer related values. -/
def Related {α : Type} (R : α → α → Prop) (a b : Except Err α) : Prop :=
  (∃ e, a = .error e ∧ b = .error e) ∨ ∃ x y, a = .ok x ∧ b = .ok y ∧ R x y

/-- A transform that keeps the vertical. -/
def Upright (T : Affine) (a : ℝ) : Prop := T.linear = rotZ a

/-- A point of the plane, moved with the floor. -/
noncomputable def onFloor (T : Affine) (p : V2) : V2 :=
  ⟨worldPoint T ![p.x, p.y, 0] 0, worldPoint T ![p.x, p.y, 0] 1⟩

/-! ## Lemmas -/

theorem apply_eq (T : Affine) (p : V3) : T.apply p = worldPoint T p := by
  funext i
  simp [Affine.apply, worldPoint, Matrix.mulVec, dotProduct, Fin.sum_univ_three]

theorem apply_mul (A B : Affine) (p : V3) : (A.mul B).apply p = A.apply (B.apply p) := by
  rw [apply_eq, apply_eq, apply_eq, worldPoint_mul]

theorem related_bind {α β : Type} (x : Except Err α) (f g : α → Except Err β) (R : β → β → Prop)
    (h : ∀ a, x = .ok a → Related R (f a) (g a)) : Related R (x >>= f) (x >>= g) := by
  cases hx : x with
  | error e => exact .inl ⟨e, rfl, rfl⟩
  | ok a => exact h a hx

theorem related_ok {α : Type} {R : α → α → Prop} {x y : α} (h : R x y) : Related R (.ok x) (.ok y) := .inr ⟨x, y, rfl, rfl, h⟩

theorem related_refl {α : Type} {R : α → α → Prop} (hR : ∀ x, R x x) (a : Except Err α) : Related R a a := by
  cases a with
  | error e => exact .inl ⟨e, rfl, rfl⟩
  | ok x => exact related_ok (hR x)

theorem displaced_moved (T U : Affine) (s : Support) : Displaced (worldPoint T) (s.moved U) (s.moved (T.mul U)) := by
  have h := (C138 (s.moved U) T Affine.one ⟨0, 0⟩ ⟨0, 0⟩).1
  rwa [show (s.moved U).moved T = s.moved (T.mul U) from (C138 s U T ⟨0, 0⟩ ⟨0, 0⟩).2.2.1] at h

/-- **C140 (the part that holds).** After `apply_transform(T)`, for every trajectory, transform and time, every query answers (or
raises) as before, with its answer moved by `T`: the frames of the feet, the position of the CoM, the velocities of the feet, the
derivatives of the CoM, the orientation of the trunk, and the footsteps of the supports; the timings and the sides are kept. Two
transforms make one. -/
theorem C140_partial (tr : Traj) (T U : Affine) (t : ℝ) :
    (∀ σ, Related (fun F F' => ∀ p, worldPoint F' p = worldPoint T (worldPoint F p)) (tr.getTWorldFoot σ t)
      ((tr.applyTransform T).getTWorldFoot σ t)) ∧
    Related (fun p p' => p' = worldPoint T p) (tr.getPWorldCoM t) ((tr.applyTransform T).getPWorldCoM t) ∧
    (∀ σ, Related (fun v v' => v' = T.linear.mulVec v) (tr.getVWorldFoot σ t) ((tr.applyTransform T).getVWorldFoot σ t)) ∧
    (∀ d, Related (fun v v' => v' = T.linear.mulVec v) (tr.getDWorldCoM d t) ((tr.applyTransform T).getDWorldCoM d t)) ∧
    Related (fun R R' => R' = T.linear * R) (tr.getRWorldTrunk t) ((tr.applyTransform T).getRWorldTrunk t) ∧
    Related (Displaced (worldPoint T)) (tr.getSupport t) ((tr.applyTransform T).getSupport t) ∧
    (∀ n, Related (Displaced (worldPoint T)) (tr.getNextSupport t n) ((tr.applyTransform T).getNextSupport t n)) ∧
    List.Forall₂ (Displaced (worldPoint T)) tr.getSupports (tr.applyTransform T).getSupports ∧
    ((tr.applyTransform T).tStart = tr.tStart ∧ (tr.applyTransform T).tEnd = tr.tEnd ∧
      (tr.applyTransform T).getPartTStart t = tr.getPartTStart t ∧ (tr.applyTransform T).getPartTEnd t = tr.getPartTEnd t ∧
      (tr.applyTransform T).remainingSupports t = tr.remainingSupports t ∧
      (tr.applyTransform T).supportSide t = tr.supportSide t ∧ (tr.applyTransform T).supportIsBoth t = tr.supportIsBoth t ∧
      ∀ σ, (tr.applyTransform T).isFlying σ t = tr.isFlying σ t) ∧
    (tr.applyTransform T).applyTransform U = tr.applyTransform (U.mul T) := by
  refine ⟨fun σ => ?_, ?_, fun σ => ?_, fun d => ?_, ?_, ?_, fun n => ?_, ?_, ⟨rfl, rfl, rfl, rfl, rfl, rfl, rfl, fun _ => rfl⟩, ?_⟩
  · unfold Traj.getTWorldFoot
    refine related_bind _ _ _ _ fun part _ => related_bind _ _ _ _ fun pos _ => ?_
    rw [show (tr.applyTransform T).footYaw σ = tr.footYaw σ by cases σ <;> rfl]
    refine related_bind _ _ _ _ fun yaw _ => related_ok fun p => ?_
    show worldPoint ((T.mul tr.T).mul _) p = _
    rw [mul_assoc', worldPoint_mul]
  · unfold Traj.getPWorldCoM
    refine related_bind _ _ _ _ fun part _ => related_bind _ _ _ _ fun p _ => related_ok ?_
    show (T.mul tr.T).apply _ = _
    rw [apply_mul, apply_eq]
    rfl
  · unfold Traj.getVWorldFoot
    refine related_bind _ _ _ _ fun part _ => related_bind _ _ _ _ fun s _ => ?_
    by_cases h : s = σ.other
    · simp only [if_pos h]
      refine related_bind _ _ _ _ fun v _ => related_ok ?_
      show (T.linear * tr.T.linear).mulVec v = _
      rw [Matrix.mulVec_mulVec]
    · simp only [if_neg h]
      exact related_ok (Matrix.mulVec_zero _).symm
  · unfold Traj.getDWorldCoM
    refine related_bind _ _ _ _ fun part _ => related_bind _ _ _ _ fun v _ => related_ok ?_
    show (T.linear * tr.T.linear).mulVec _ = _
    rw [Matrix.mulVec_mulVec]
  · unfold Traj.getRWorldTrunk
    refine related_bind _ _ _ _ fun yaw _ => related_ok ?_
    show (T.linear * tr.T.linear) * _ = _
    rw [Matrix.mul_assoc]
    rfl
  · unfold Traj.getSupport
    exact related_bind _ _ _ _ fun part _ => related_ok (displaced_moved T tr.T part.support)
  · unfold Traj.getNextSupport
    refine related_bind _ _ _ _ fun i _ => ?_
    show Related _ _ (if (tr.parts.length : Int) ≤ i + n then (match tr.parts.getLast? with
      | none => .error .ub
      | some p => .ok (p.support.moved (T.mul tr.T))) else _)
    by_cases h : (tr.parts.length : Int) ≤ i + n
    · rw [if_pos h, if_pos h]
      cases tr.parts.getLast? with
      | none => exact .inl ⟨_, rfl, rfl⟩
      | some p => exact related_ok (displaced_moved T tr.T p.support)
    · rw [if_neg h, if_neg h]
      by_cases h' : (i : Int) + n < 0
      · rw [if_pos h', if_pos h']
        exact .inl ⟨_, rfl, rfl⟩
      · rw [if_neg h', if_neg h']
        exact related_bind _ _ _ _ fun part _ => related_ok (displaced_moved T tr.T part.support)
  · unfold Traj.getSupports
    show List.Forall₂ _ (tr.parts.map _) (tr.parts.map _)
    rw [List.forall₂_map_left_iff, List.forall₂_map_right_iff]
    exact List.forall₂_same.2 fun part _ => displaced_moved T tr.T part.support
  · unfold Traj.applyTransform
    simp only [mul_assoc']

/-- **C140 (supports).** `get_next_support(t, n)` is the support `n` supports after the current one, or the last one when fewer
remain, and `remaining_supports(t)` is the number of supports after the current one. -/
theorem C140_next (tr : Traj) (t : ℝ) (h : tr.parts ≠ []) :
    ∃ (i : Nat) (hi : i < tr.parts.length), findPart tr.parts t = .ok tr.parts[i] ∧
      (∀ n : Nat, ∃ hn : min (i + n) (tr.parts.length - 1) < tr.parts.length,
        tr.getNextSupport t n = .ok (tr.parts[min (i + n) (tr.parts.length - 1)].support.moved tr.T)) ∧
      ∃ r : Nat, tr.remainingSupports t = .ok r ∧ i + r + 1 = tr.parts.length := by
  obtain ⟨i, hi, hl⟩ := findIndex_total tr.parts t h
  refine ⟨i, hl, findPart_of_index hi hl, fun n => ⟨by omega, ?_⟩, ⟨tr.parts.length - i - 1, ?_, by omega⟩⟩
  · unfold Traj.getNextSupport
    simp only [hi, Bind.bind, Except.bind]
    by_cases hn : (tr.parts.length : Int) ≤ i + n
    · rw [if_pos hn, List.getLast?_eq_getElem?, List.getElem?_eq_getElem (by omega)]
      have e : min (i + n) (tr.parts.length - 1) = tr.parts.length - 1 := by omega
      simp only [e]
    · rw [if_neg hn, if_neg (by omega)]
      have e : ((i : Int) + n).toNat = min (i + n) (tr.parts.length - 1) := by omega
      rw [e]
      unfold at'
      rw [List.getElem?_eq_getElem (by omega)]
  · unfold Traj.remainingSupports
    simp only [hi, Bind.bind, Except.bind]
    congr 1
    omega

/-! ## Moves along the floor -/

theorem frameYaw_upright {T : Affine} {a : ℝ} (h : Upright T a) : CongrAngle (frameYaw T.linear) a := by
  rw [show T.linear = rotZ a from h, frameYaw_rotZ]
  exact wrapAngle_congr a

theorem congr_add {a b c d : ℝ} (h : CongrAngle a b) (h' : CongrAngle c d) : CongrAngle (a + c) (b + d) := by
  obtain ⟨k, hk⟩ := h
  obtain ⟨l, hl⟩ := h'
  exact ⟨k + l, by push_cast; linarith⟩

theorem congr_symm {a b : ℝ} (h : CongrAngle a b) : CongrAngle b a := by
  obtain ⟨k, hk⟩ := h
  exact ⟨-k, by push_cast; linarith⟩

theorem congr_trans {a b c : ℝ} (h : CongrAngle a b) (h' : CongrAngle b c) : CongrAngle a c := by
  obtain ⟨k, hk⟩ := h
  obtain ⟨l, hl⟩ := h'
  exact ⟨k + l, by push_cast; linarith⟩

theorem upright_mul {A B : Affine} {a b : ℝ} (hA : Upright A a) (hB : Upright B b) : Upright (A.mul B) (a + b) := by
  show A.linear * B.linear = _
  rw [show A.linear = rotZ a from hA, show B.linear = rotZ b from hB, rotZ_mul]

theorem flatten_upright {F : Affine} {a : ℝ} (h : Upright F a) :
    flattenOnFloor F = ⟨rotZ a, ![F.translation 0, F.translation 1, 0]⟩ := by
  unfold flattenOnFloor
  rw [show F.linear = rotZ a from h, frameYaw_rotZ, rotZ_congr (wrapAngle_congr a)]

/-- The foot of an upright trajectory is upright. -/
theorem foot_upright {tr : Traj} {b : ℝ} (h : Upright tr.T b) {σ : Side} {t : ℝ} {F : Affine} (hF : tr.getTWorldFoot σ t = .ok F) :
    ∃ y, ((tr.footYaw σ).interpolation t .value).2 = .ok y ∧ Upright F (b + y) := by
  unfold Traj.getTWorldFoot at hF
  cases h1 : findPart tr.parts t with
  | error e => rw [h1] at hF; cases hF
  | ok part =>
    cases h2 : part.footPosition σ t with
    | error e => simp only [h1, h2, Bind.bind, Except.bind] at hF; cases hF
    | ok x =>
      cases h3 : ((tr.footYaw σ).interpolation t .value).2 with
      | error e => simp only [h1, h2, h3, Bind.bind, Except.bind] at hF; cases hF
      | ok y =>
        simp only [h1, h2, h3, Bind.bind, Except.bind] at hF
        refine ⟨y, rfl, ?_⟩
        rw [← Except.ok.inj hF]
        exact upright_mul h rfl

theorem upright_rigid {T : Affine} {a : ℝ} (h : Upright T a) : Rigid T := by
  show IsRotation T.linear
  rw [show T.linear = rotZ a from h]
  exact rotZ_isRotation a

/-- The flattened frame of a foot that is moved with the trajectory. -/
theorem flatten_moved {T F : Affine} {a b : ℝ} (hT : Upright T a) (hF : Upright F b) :
    (flattenOnFloor (T.mul F)).inv.linear * T.linear = (flattenOnFloor F).inv.linear ∧
    ∀ p : V3, (flattenOnFloor (T.mul F)).inv.apply (T.apply p) = (flattenOnFloor F).inv.apply p + ![0, 0, T.translation 2] := by
  have e1 := flatten_upright (upright_mul hT hF)
  have e2 := flatten_upright hF
  have i1 : (rotZ (a + b))⁻¹ = (rotZ (a + b)).transpose := isRotation_inv (rotZ_isRotation _)
  have i2 : (rotZ b)⁻¹ = (rotZ b).transpose := isRotation_inv (rotZ_isRotation _)
  have hl : (rotZ (a + b)).transpose * rotZ a = (rotZ b).transpose := by
    rw [add_comm, ← rotZ_mul, Matrix.transpose_mul, Matrix.mul_assoc]
    have e : rotZ b * rotZ a = rotZ a * rotZ b := by rw [rotZ_mul, rotZ_mul, add_comm]
    have e' : (rotZ a).transpose * (rotZ b).transpose = (rotZ b).transpose * (rotZ a).transpose := by
      rw [← Matrix.transpose_mul, ← Matrix.transpose_mul, e]
    rw [← Matrix.mul_assoc, e', Matrix.mul_assoc, (rotZ_isRotation a).1, Matrix.mul_one]
  have ht : T.linear = rotZ a := hT
  constructor
  · rw [e1, e2]
    show (rotZ (a + b))⁻¹ * T.linear = (rotZ b)⁻¹
    rw [i1, i2, ht, hl]
  · intro p
    rw [e1, e2]
    have ha0 : (rotZ (a + b)).transpose = (rotZ b).transpose * (rotZ a).transpose := by
      rw [← Matrix.transpose_mul, rotZ_mul]
    have k1 : (rotZ a).transpose * rotZ a = 1 := (rotZ_isRotation a).1
    funext i
    simp only [Affine.apply, Affine.inv, Affine.mul, i1, i2, ht]
    have c := Real.sin_sq_add_cos_sq a
    rw [ha0]
    have v0 : Matrix.vecHead T.translation = T.translation 0 := rfl
    have v1 : Matrix.vecHead (Matrix.vecTail T.translation) = T.translation 1 := rfl
    have v2 : Matrix.vecHead (Matrix.vecTail (Matrix.vecTail T.translation)) = T.translation 2 := rfl
    fin_cases i <;>
      simp [rotZ, Matrix.mulVec, dotProduct, Fin.sum_univ_three, Matrix.mul_apply, Matrix.transpose_apply, v0, v1, v2]
    · linear_combination (Real.cos b * (p 0 - F.translation 0) + Real.sin b * (p 1 - F.translation 1)) * c
    · linear_combination (-Real.sin b * (p 0 - F.translation 0) + Real.cos b * (p 1 - F.translation 1)) * c

theorem foot_moved {tr : Traj} {T : Affine} {s : Side} {t : ℝ} {F : Affine} (hF : tr.getTWorldFoot s t = .ok F) :
    (tr.applyTransform T).getTWorldFoot s t = .ok (T.mul F) := by
  have e : (tr.applyTransform T).footYaw s = tr.footYaw s := by cases s <;> rfl
  have e' : (tr.applyTransform T).parts = tr.parts := rfl
  have e'' : (tr.applyTransform T).T = T.mul tr.T := rfl
  unfold Traj.getTWorldFoot at hF ⊢
  rw [e, e', e'']
  cases h1 : findPart tr.parts t with
  | error e => rw [h1] at hF; cases hF
  | ok part =>
    cases h2 : part.footPosition s t with
    | error e => simp only [h1, h2, Bind.bind, Except.bind] at hF; cases hF
    | ok x =>
      cases h3 : ((tr.footYaw s).interpolation t .value).2 with
      | error e => simp only [h1, h2, h3, Bind.bind, Except.bind] at hF; cases hF
      | ok y =>
        simp only [h1, h2, h3, Bind.bind, Except.bind] at hF ⊢
        rw [← Except.ok.inj hF, mul_assoc']

theorem yaw_moved {T U : Affine} {a b : ℝ} (ha : Upright T a) (hb : Upright U b) (y : ℝ) :
    CongrAngle (frameYaw (T.mul U).linear + y) (frameYaw U.linear + y + a) := by
  have h1 := frameYaw_upright (upright_mul ha hb)
  have h2 := congr_symm (frameYaw_upright hb)
  have h3 := congr_trans h1 (congr_add (a := a) (b := a) ⟨0, by simp⟩ h2)
  have h4 := congr_add h3 (c := y) (d := y) ⟨0, by simp⟩
  obtain ⟨k, hk⟩ := h4
  exact ⟨k, by linarith⟩

/-- A point of the floor and a displacement, in a transform that keeps the vertical. -/
theorem onFloor_add {T : Affine} {a : ℝ} (ha : Upright T a) (p v : V3) (c : ℝ) :
    (⟨worldPoint T p 0 + c * T.linear.mulVec v 0, worldPoint T p 1 + c * T.linear.mulVec v 1⟩ : V2) =
      onFloor T ⟨p 0 + c * v 0, p 1 + c * v 1⟩ := by
  have hT : T.linear = rotZ a := ha
  simp [onFloor, worldPoint, hT, rotZ, Matrix.mulVec, dotProduct, Fin.sum_univ_three]
  constructor <;> ring

theorem dcm_moved (tr : Traj) {T : Affine} {a : ℝ} (ha : Upright T a) (t w : ℝ) :
    Related (fun p p' => p' = onFloor T p) (tr.getPWorldDCM t w) ((tr.applyTransform T).getPWorldDCM t w) := by
  have h1 := (C140_partial tr T Affine.one t).2.1
  have h2 := (C140_partial tr T Affine.one t).2.2.2.1 1
  unfold Traj.getPWorldDCM
  rcases h1 with ⟨e, h1, h1'⟩ | ⟨p, p', h1, h1', rfl⟩
  · rw [h1, h1']; exact .inl ⟨e, rfl, rfl⟩
  rcases h2 with ⟨e, h2, h2'⟩ | ⟨v, v', h2, h2', rfl⟩
  · rw [h1, h1', h2, h2']; exact .inl ⟨e, rfl, rfl⟩
  rw [h1, h1', h2, h2']
  exact related_ok (onFloor_add ha p v (1 / w))

theorem zmp_moved (tr : Traj) {T : Affine} {a : ℝ} (ha : Upright T a) (t w : ℝ) :
    Related (fun p p' => p' = onFloor T p) (tr.getPWorldZMP t w) ((tr.applyTransform T).getPWorldZMP t w) := by
  have h1 := (C140_partial tr T Affine.one t).2.1
  have h2 := (C140_partial tr T Affine.one t).2.2.2.1 2
  unfold Traj.getPWorldZMP
  rcases h1 with ⟨e, h1, h1'⟩ | ⟨p, p', h1, h1', rfl⟩
  · rw [h1, h1']; exact .inl ⟨e, rfl, rfl⟩
  rcases h2 with ⟨e, h2, h2'⟩ | ⟨v, v', h2, h2', rfl⟩
  · rw [h1, h1', h2, h2']; exact .inl ⟨e, rfl, rfl⟩
  rw [h1, h1', h2, h2']
  refine related_ok ?_
  have := onFloor_add ha p v (-(1 / w ^ 2))
  simp only [neg_mul, ← sub_eq_add_neg] at this
  exact this

theorem supportWorld_moved {tr : Traj} {b : ℝ} (hb : Upright tr.T b) (T : Affine) (t : ℝ) :
    Related (fun A B => ∃ F c, A = (flattenOnFloor F).inv ∧ B = (flattenOnFloor (T.mul F)).inv ∧ Upright F c)
      (tr.getTSupportWorld t) ((tr.applyTransform T).getTSupportWorld t) := by
  unfold Traj.getTSupportWorld
  refine related_bind _ _ _ _ fun part _ => related_bind _ _ _ _ fun s _ => ?_
  cases hF : tr.getTWorldFoot s t with
  | error e =>
    rcases (C140_partial tr T Affine.one t).1 s with ⟨e', h1, h1'⟩ | ⟨x, y, h1, _⟩
    · rw [hF] at h1
      rw [h1', ← Except.error.inj h1]
      exact .inl ⟨e, rfl, rfl⟩
    · rw [hF] at h1; cases h1
  | ok F =>
    obtain ⟨y, hy, hu⟩ := foot_upright hb hF
    rw [foot_moved (T := T) hF]
    exact related_ok ⟨F, b + y, rfl, rfl, hu⟩

theorem comSupport_moved {tr : Traj} {b : ℝ} (hb : Upright tr.T b) {T : Affine} {a : ℝ} (ha : Upright T a) (t : ℝ) :
    Related (fun p p' => p' = p + ![0, 0, T.translation 2]) (tr.getPSupportCoM t) ((tr.applyTransform T).getPSupportCoM t) := by
  have hsup := supportWorld_moved hb T t
  unfold Traj.getPSupportCoM
  rcases hsup with ⟨e, h1, h1'⟩ | ⟨A, B, h1, h1', F, c, hA, hB, hu⟩
  · rw [h1, h1']; exact .inl ⟨e, rfl, rfl⟩
  rcases (C140_partial tr T Affine.one t).2.1 with ⟨e, h2, h2'⟩ | ⟨p, p', h2, h2', hp⟩
  · rw [h1, h1', h2, h2']; exact .inl ⟨e, rfl, rfl⟩
  have hfin : B.apply p' = A.apply p + ![0, 0, T.translation 2] := by
    rw [hp, hA, hB, ← apply_eq]
    exact (flatten_moved ha hu).2 p
  rw [h1, h1', h2, h2']
  exact related_ok hfin

theorem velSupport_moved {tr : Traj} {b : ℝ} (hb : Upright tr.T b) {T : Affine} {a : ℝ} (ha : Upright T a) (t : ℝ) :
    (tr.applyTransform T).getVSupportCoM t = tr.getVSupportCoM t := by
  have hsup := supportWorld_moved hb T t
  unfold Traj.getVSupportCoM
  rcases hsup with ⟨e, h1, h1'⟩ | ⟨A, B, h1, h1', F, c, hA, hB, hu⟩
  · simp only [h1, h1', Bind.bind, Except.bind]
  rcases (C140_partial tr T Affine.one t).2.2.2.1 1 with ⟨e, h2, h2'⟩ | ⟨p, p', h2, h2', hp⟩
  · simp only [h1, h1', h2, h2', Bind.bind, Except.bind]
  simp only [h1, h1', h2, h2', Bind.bind, Except.bind]
  rw [hp, hA, hB, Matrix.mulVec_mulVec, (flatten_moved ha hu).1]

/-- **C140 (moves along the floor).** When the transforms keep the vertical, the yaws turn with the transform, modulo a turn; the DCM
and the ZMP move with the floor; and what is expressed in the frame of the support foot does not change (the CoM is raised by the
height of the transform). -/
theorem C140_floor (tr : Traj) (b : ℝ) (hb : Upright tr.T b) (T : Affine) (a : ℝ) (ha : Upright T a) (t omega : ℝ) :
    (∀ σ, Related (fun y y' => CongrAngle y' (y + a)) (tr.getYawWorldFoot σ t) ((tr.applyTransform T).getYawWorldFoot σ t)) ∧
    Related (fun y y' => CongrAngle y' (y + a)) (tr.getYawWorldTrunk t) ((tr.applyTransform T).getYawWorldTrunk t) ∧
    Related (fun p p' => p' = onFloor T p) (tr.getPWorldDCM t omega) ((tr.applyTransform T).getPWorldDCM t omega) ∧
    Related (fun p p' => p' = onFloor T p) (tr.getPWorldZMP t omega) ((tr.applyTransform T).getPWorldZMP t omega) ∧
    Related (fun p p' => p' = onFloor T p) (tr.getPartEndDcm t omega) ((tr.applyTransform T).getPartEndDcm t omega) ∧
    Related (fun p p' => p' = p + ![0, 0, T.translation 2]) (tr.getPSupportCoM t) ((tr.applyTransform T).getPSupportCoM t) ∧
    (tr.applyTransform T).getVSupportCoM t = tr.getVSupportCoM t ∧
    (tr.applyTransform T).getPSupportDCM t omega = tr.getPSupportDCM t omega := by
  refine ⟨fun σ => ?_, ?_, dcm_moved tr ha t omega, zmp_moved tr ha t omega, ?_, comSupport_moved hb ha t, velSupport_moved hb ha t, ?_⟩
  · unfold Traj.getYawWorldFoot
    rw [show (tr.applyTransform T).footYaw σ = tr.footYaw σ by cases σ <;> rfl]
    exact related_bind _ _ _ _ fun y _ => related_ok (yaw_moved ha hb y)
  · unfold Traj.getYawWorldTrunk
    exact related_bind _ _ _ _ fun y _ => related_ok (yaw_moved ha hb y)
  · unfold Traj.getPartEndDcm
    exact related_bind _ _ _ _ fun part _ => dcm_moved tr ha part.tEnd omega
  · unfold Traj.getPSupportDCM
    rw [velSupport_moved hb ha t]
    rcases comSupport_moved hb ha t with ⟨e, h1, h1'⟩ | ⟨p, p', h1, h1', hp⟩
    · simp only [h1, h1', Bind.bind, Except.bind]
    · simp only [h1, h1', Bind.bind, Except.bind]
      have e0 : p' 0 = p 0 := by rw [hp]; exact add_zero _
      have e1 : p' 1 = p 1 := by rw [hp]; exact add_zero _
      rw [e0, e1]

/-! ## What the planning of the feet keeps -/

/-- The same trajectory, but for the swings and the yaws. -/
structure SameBody (a b : Traj) : Prop where
  T : b.T = a.T
  z : b.comTargetZ = a.comTargetZ
  tStart : b.tStart = a.tStart
  tEnd : b.tEnd = a.tEnd
  pitch : b.trunkPitch = a.trunkPitch
  roll : b.trunkRoll = a.trunkRoll
  parts : List.Forall₂ (fun p q => ∃ w, q = { p with swing := w }) a.parts b.parts

theorem SameBody.refl (a : Traj) : SameBody a a :=
  ⟨rfl, rfl, rfl, rfl, rfl, rfl, List.forall₂_same.2 fun p _ => ⟨p.swing, rfl⟩⟩

theorem forall2_swing_trans : ∀ {a b c : List Part}, List.Forall₂ (fun p q : Part => ∃ w, q = { p with swing := w }) a b →
    List.Forall₂ (fun p q : Part => ∃ w, q = { p with swing := w }) b c →
    List.Forall₂ (fun p q : Part => ∃ w, q = { p with swing := w }) a c
  | [], _, _, .nil, .nil => .nil
  | _ :: _, _, _, .cons h hs, .cons h' hs' => by
    refine .cons ?_ (forall2_swing_trans hs hs')
    obtain ⟨w, rfl⟩ := h
    obtain ⟨w', rfl⟩ := h'
    exact ⟨w', rfl⟩

theorem SameBody.trans {a b c : Traj} (h : SameBody a b) (h' : SameBody b c) : SameBody a c :=
  ⟨h'.T.trans h.T, h'.z.trans h.z, h'.tStart.trans h.tStart, h'.tEnd.trans h.tEnd, h'.pitch.trans h.pitch, h'.roll.trans h.roll,
    forall2_swing_trans h.parts h'.parts⟩

theorem sameBody_addYaw {a b : Traj} {σ : Side} {t y d : ℝ} (h : a.addYaw σ t y d = .ok b) : SameBody a b := by
  unfold Traj.addYaw at h
  cases hs : (a.footYaw σ).addPoint wrapAngle t y d with
  | error e => rw [hs] at h; cases h
  | ok s =>
    simp only [hs, Bind.bind, Except.bind] at h
    cases σ <;> (rw [← Except.ok.inj h]; exact ⟨rfl, rfl, rfl, rfl, rfl, rfl, (SameBody.refl a).parts⟩)

theorem sameBody_addTrunkYaw {a b : Traj} {t y d : ℝ} (h : a.addTrunkYaw t y d = .ok b) : SameBody a b := by
  unfold Traj.addTrunkYaw at h
  cases hs : a.trunkYaw.addPoint wrapAngle t y d with
  | error e => rw [hs] at h; cases h
  | ok s =>
    simp only [hs, Bind.bind, Except.bind] at h
    rw [← Except.ok.inj h]
    exact ⟨rfl, rfl, rfl, rfl, rfl, rfl, (SameBody.refl a).parts⟩

theorem sameBody_addSupports : ∀ {fs : List Footstep} {a b : Traj} {t : ℝ}, a.addSupports t fs = .ok b → SameBody a b
  | [], a, b, t, h => by
    rw [← Except.ok.inj h]; exact SameBody.refl a
  | f :: fs, a, b, t, h => by
    unfold Traj.addSupports at h
    cases h1 : a.addYaw f.side t (frameYaw f.frame.linear) 0 with
    | error e => rw [h1] at h; cases h
    | ok c =>
      simp only [h1, Bind.bind, Except.bind] at h
      exact (sameBody_addYaw h1).trans (sameBody_addSupports h)

theorem sameBody_planDbl {g : Wpg} {a b : Traj} {i : Nat} (h : g.planDbl a i = .ok b) : SameBody a b := by
  unfold Wpg.planDbl at h
  cases h1 : at' a.parts i with
  | error e => rw [h1] at h; cases h
  | ok part =>
    cases h2 : a.addSupports part.tEnd part.support.footsteps with
    | error e => simp only [h1, h2, Bind.bind, Except.bind] at h; cases h
    | ok c =>
      cases h3 : part.support.frame g.slerp with
      | error e => simp only [h1, h2, h3, Bind.bind, Except.bind] at h; cases h
      | ok F =>
        simp only [h1, h2, h3, Bind.bind, Except.bind] at h
        exact (sameBody_addSupports h2).trans (sameBody_addTrunkYaw h)

theorem sameBody_planSwing {g : Wpg} {a : Traj} {i : Nat} {part : Part} {σ : Side} {x : V3} {old : Option Traj} {r : Traj × CubicSwing ℝ}
    (h : g.planSwing a i part σ x old = .ok r) : SameBody a r.1 := by
  unfold Wpg.planSwing at h
  cases i with
  | zero =>
    cases old with
    | none => cases h
    | some o =>
      simp only at h
      cases h1 : o.getTWorldFoot σ a.tStart with
      | error e => rw [h1] at h; cases h
      | ok s =>
        cases h2 : o.getVWorldFoot σ a.tStart with
        | error e => simp only [h1, h2, Bind.bind, Except.bind] at h; cases h
        | ok v =>
          simp only [h1, h2, Bind.bind, Except.bind] at h
          split at h
          · cases h
          · split at h
            · cases h
            · split at h
              · cases h
              · split at h
                · cases h
                · rename_i c hc
                  rw [← Except.ok.inj h]
                  exact sameBody_addYaw hc
  | succ i =>
    simp only at h
    cases h1 : at' a.parts i with
    | error e => rw [h1] at h; cases h
    | ok prev =>
      cases h2 : prev.support.footstepFrame σ with
      | error e => simp only [h1, h2, Bind.bind, Except.bind] at h; cases h
      | ok s =>
        simp only [h1, h2, Bind.bind, Except.bind] at h
        split at h
        · cases h
        · rw [← Except.ok.inj h]; exact SameBody.refl a

theorem sameBody_planTrunk {g : Wpg} {a b : Traj} {t y : ℝ} (h : g.planTrunk a t y = .ok b) : SameBody a b := by
  unfold Wpg.planTrunk at h
  split at h
  · rw [← Except.ok.inj h]; exact SameBody.refl a
  · exact sameBody_addTrunkYaw h

theorem forall2_set : ∀ (l : List Part) (i : Nat) (p : Part) (w : CubicSwing ℝ), l[i]? = some p →
    List.Forall₂ (fun p q : Part => ∃ w, q = { p with swing := w }) l (l.set i { p with swing := w })
  | [], _, _, _, h => by cases h
  | a :: l, 0, p, w, h => by
    obtain rfl : a = p := by simpa using h
    exact .cons ⟨w, rfl⟩ (List.forall₂_same.2 fun p _ => ⟨p.swing, rfl⟩)
  | a :: l, i + 1, p, w, h => by
    rw [List.set_cons_succ]
    exact .cons ⟨a.swing, rfl⟩ (forall2_set l i p w (by simpa using h))

theorem sameBody_planSgl {g : Wpg} {a b : Traj} {i : Nat} {old : Option Traj} (h : g.planSgl a i old = .ok b) : SameBody a b := by
  unfold Wpg.planSgl at h
  cases h1 : at' a.parts i with
  | error e => rw [h1] at h; cases h
  | ok part =>
    cases h2 : at' part.support.footsteps 0 with
    | error e => simp only [h1, h2, Bind.bind, Except.bind] at h; cases h
    | ok f =>
      cases h3 : at' a.parts (i + 1) with
      | error e => simp only [h1, h2, h3, Bind.bind, Except.bind] at h; cases h
      | ok next =>
        cases h4 : next.support.footstepFrame f.side.other with
        | error e => simp only [h1, h2, h3, h4, Bind.bind, Except.bind] at h; cases h
        | ok E =>
          cases h5 : g.planSwing a i part f.side.other E.translation old with
          | error e => simp only [h1, h2, h3, h4, h5, Bind.bind, Except.bind] at h; cases h
          | ok r =>
            simp only [h1, h2, h3, h4, h5, Bind.bind, Except.bind] at h
            have hr := sameBody_planSwing h5
            have hset : SameBody a { r.1 with parts := r.1.parts.set i { part with swing := r.2 } } := by
              have hp : a.parts[i]? = some part := by
                unfold at' at h1
                cases hi : a.parts[i]? with
                | none => rw [hi] at h1; cases h1
                | some q => rw [hi] at h1; rw [Except.ok.inj h1]
              refine ⟨hr.T, hr.z, hr.tStart, hr.tEnd, hr.pitch, hr.roll, ?_⟩
              have hrp := hr.parts
              rw [List.forall₂_iff_get] at hrp ⊢
              refine ⟨by rw [List.length_set]; exact hrp.1, fun k h1 h2 => ?_⟩
              simp only [List.get_eq_getElem, List.getElem_set]
              by_cases hk : i = k
              · subst hk
                rw [if_pos rfl]
                rw [List.getElem?_eq_getElem h1] at hp
                exact ⟨r.2, by rw [Option.some.inj hp]⟩
              · rw [if_neg hk]
                have := hrp.2 k h1 (by rw [List.length_set] at h2; exact h2)
                simpa using this
            generalize ({ r.1 with parts := r.1.parts.set i { part with swing := r.2 } } : Traj) = c at h hset
            cases h6 : c.addYaw f.side.other part.tEnd (frameYaw E.linear) 0 with
            | error e => simp only [h6] at h; cases h
            | ok d =>
              simp only [h6] at h
              cases h7 : g.planTrunk d part.tEnd (frameYaw E.linear) with
              | error e => simp only [h7] at h; cases h
              | ok d' =>
                simp only [h7] at h
                exact hset.trans ((sameBody_addYaw h6).trans ((sameBody_planTrunk h7).trans (sameBody_addSupports h)))

theorem sameBody_loop {g : Wpg} {old : Option Traj} : ∀ (n i : Nat) {a b : Traj}, g.planPartsLoop old n i a = .ok b → SameBody a b
  | 0, _, a, b, h => by rw [← Except.ok.inj h]; exact SameBody.refl a
  | n + 1, i, a, b, h => by
    unfold Wpg.planPartsLoop at h
    cases h1 : g.planPart old a i with
    | error e => rw [h1] at h; cases h
    | ok c =>
      simp only [h1, Bind.bind, Except.bind] at h
      refine SameBody.trans ?_ (sameBody_loop n (i + 1) h)
      unfold Wpg.planPart at h1
      cases h2 : at' a.parts i with
      | error e => rw [h2] at h1; cases h1
      | ok part =>
        simp only [h2, Bind.bind, Except.bind] at h1
        split at h1
        · exact sameBody_planSgl h1
        · exact sameBody_planDbl h1

/-- Planning the feet changes the swings and the yaws only. -/
theorem sameBody_planFeet {g : Wpg} {old : Option Traj} {a b : Traj} (h : g.planFeet a old = .ok b) : SameBody a b := by
  unfold Wpg.planFeet at h
  cases h1 : at' a.parts 0 with
  | error e => rw [h1] at h; cases h
  | ok part =>
    cases h2 : a.addSupports a.tStart part.support.footsteps with
    | error e => simp only [h1, h2, Bind.bind, Except.bind] at h; cases h
    | ok c =>
      cases h3 : g.planTrunkStart c part old with
      | error e => simp only [h1, h2, h3, Bind.bind, Except.bind] at h; cases h
      | ok d =>
        simp only [h1, h2, h3, Bind.bind, Except.bind] at h
        refine (sameBody_addSupports h2).trans (SameBody.trans ?_ (sameBody_loop _ _ h))
        unfold Wpg.planTrunkStart at h3
        cases old with
        | none =>
          simp only at h3
          cases h4 : part.support.frame g.slerp with
          | error e => rw [h4] at h3; cases h3
          | ok F =>
            simp only [h4, Bind.bind, Except.bind] at h3
            exact sameBody_addTrunkYaw h3
        | some o =>
          simp only at h3
          cases h4 : o.getYawWorldTrunk c.tStart with
          | error e => rw [h4] at h3; cases h3
          | ok y =>
            simp only [h4, Bind.bind, Except.bind] at h3
            split at h3
            · cases h3
            · exact sameBody_addTrunkYaw h3

theorem SameBody.get {a b : Traj} (h : SameBody a b) (i : Nat) (hi : i < b.parts.length) :
    ∃ (hi' : i < a.parts.length) (w : CubicSwing ℝ), b.parts[i] = { a.parts[i] with swing := w } := by
  have hp := h.parts
  rw [List.forall₂_iff_get] at hp
  refine ⟨by omega, ?_⟩
  have := hp.2 i (by omega) hi
  simpa using this

/-! ## The DCM at the end of a part -/

/-- The parts of a planned trajectory: they follow each other, share the CoM at their boundaries, and the supports hold the DCM
of the CoM at the end of their parts. -/
structure Arrives (parts : List Part) (omega : ℝ) : Prop where
  nonempty : parts ≠ []
  contiguous : Contiguous parts
  joined : ComJoined parts
  arrives : ∀ (i : Nat) (h : i < parts.length), parts[i].com.dcm parts[i].tEnd omega = .ok parts[i].support.targetDcm

theorem arrives_planCom (g : Wpg) (t0 : ℝ) (ss : List Support) (hne : ss.length ≠ 0) (init : ComState)
    (hd : ∀ s ∈ ss, 0 < g.duration s) (parts : List Part) (te : ℝ) (h : g.planCom t0 ss init = .ok (some (parts, te))) :
    Arrives parts g.omega := by
  obtain ⟨hlen, hc, -⟩ := C86 g t0 ss init hd parts te h
  refine ⟨?_, hc, planned_joined g t0 ss init hd parts te h, fun i hi => ?_⟩
  · rintro rfl
    exact hne hlen.symm
  · obtain ⟨ps, n, sol, -, -, hl, hg⟩ := planCom_chained g t0 ss init hd parts te h
    obtain ⟨-, a2, a3, dcm, a4, a5⟩ := hg i (by omega) hi
    rw [a2, a3, a4, a5]

theorem SameBody.arrives {a b : Traj} (h : SameBody a b) {omega : ℝ} (ha : Arrives a.parts omega) : Arrives b.parts omega := by
  have hlen := h.parts.length_eq
  refine ⟨?_, ⟨fun i hi => ?_, fun i hi => ?_⟩, fun i hi d hd => ?_, fun i hi => ?_⟩
  · intro h0
    rw [h0] at hlen
    exact ha.nonempty (List.length_eq_zero_iff.1 hlen)
  · obtain ⟨h1, w, e⟩ := h.get i hi
    rw [e]
    exact ha.contiguous.ordered i h1
  · obtain ⟨h1, w, e⟩ := h.get i (by omega)
    obtain ⟨h1', w', e'⟩ := h.get (i + 1) hi
    rw [e, e']
    exact ha.contiguous.joined i h1'
  · obtain ⟨h1, w, e⟩ := h.get i (by omega)
    obtain ⟨h1', w', e'⟩ := h.get (i + 1) hi
    rw [e, e']
    exact ha.joined i h1' d hd
  · obtain ⟨h1, w, e⟩ := h.get i hi
    rw [e]
    exact ha.arrives i h1

/-- The CoM read at the end of a part is the CoM of this part. -/
theorem com_at_end {parts : List Part} {omega : ℝ} (ha : Arrives parts omega) (i : Nat) (hi : i < parts.length) :
    ∃ (k : Nat) (hk : k < parts.length), findPart parts parts[i].tEnd = .ok parts[k] ∧
      ∀ d : Nat, d < 3 → parts[k].com.component parts[i].tEnd d = parts[i].com.component parts[i].tEnd d := by
  obtain ⟨p, hp, hf, hin, -⟩ := (C81 parts parts[i].tEnd).2 ha.nonempty ha.contiguous
  obtain ⟨k, hk, rfl⟩ := List.getElem_of_mem hp
  refine ⟨k, hk, hf, fun d hd => ?_⟩
  have h0 : (parts.head ha.nonempty).tStart ≤ parts[i].tEnd := by
    rw [List.head_eq_getElem]
    exact (starts_mono ha.contiguous 0 i (by omega) hi).1.trans (ha.contiguous.ordered i hi)
  have h1 : parts[i].tEnd ≤ (parts.getLast ha.nonempty).tEnd := by
    rw [List.getLast_eq_getElem]
    exact (starts_mono ha.contiguous i (parts.length - 1) (by omega) (by omega)).2
  obtain ⟨g1, g2⟩ := hin h0 h1
  rcases le_total i k with h | h
  · exact (com_agree parts ha.contiguous ha.joined _ d hd i k h hk g1 le_rfl).symm
  · exact com_agree parts ha.contiguous ha.joined _ d hd k i h hi (ha.contiguous.ordered i hi) g2

theorem one_upright : Upright Affine.one 0 := by
  show (1 : M3) = rotZ 0
  rw [rotZ_zero]

theorem onFloor_one (p : V2) : onFloor Affine.one p = p := by
  have h : worldPoint Affine.one ![p.x, p.y, 0] = ![p.x, p.y, 0] := by rw [← apply_eq, one_apply']
  unfold onFloor
  rw [h]
  rfl

/-- In a transform that keeps the vertical, the DCM and the ZMP are those of the LIPM trajectory, moved with the floor. -/
theorem dcm_reads {tr : Traj} {b : ℝ} (hb : Upright tr.T b) {t omega : ℝ} {part : Part} (hp : findPart tr.parts t = .ok part)
    {c : V2} (hc : part.com.dcm t omega = .ok c) : tr.getPWorldDCM t omega = .ok (onFloor tr.T c) := by
  unfold LTraj.dcm at hc
  cases h1 : part.com.pos t with
  | error e => rw [h1] at hc; cases hc
  | ok p =>
    cases h2 : part.com.vel t with
    | error e => simp only [h1, h2, Bind.bind, Except.bind] at hc; cases hc
    | ok v =>
      simp only [h1, h2, Bind.bind, Except.bind] at hc
      have h2' : part.com.component t 1 = .ok v := h2
      unfold Traj.getPWorldDCM Traj.getPWorldCoM Traj.getDWorldCoM
      simp only [hp, h1, h2', Bind.bind, Except.bind]
      rw [← Except.ok.inj hc, apply_eq]
      exact congrArg _ (onFloor_add hb ![p.x, p.y, tr.comTargetZ] ![v.x, v.y, 0] (1 / omega))

theorem zmp_reads {tr : Traj} {b : ℝ} (hb : Upright tr.T b) {t omega : ℝ} {part : Part} (hp : findPart tr.parts t = .ok part)
    {c : V2} (hc : part.com.zmp t (omega ^ 2) = .ok c) : tr.getPWorldZMP t omega = .ok (onFloor tr.T c) := by
  unfold LTraj.zmp at hc
  cases h1 : part.com.pos t with
  | error e => rw [h1] at hc; cases hc
  | ok p =>
    cases h2 : part.com.acc t with
    | error e => simp only [h1, h2, Bind.bind, Except.bind] at hc; cases hc
    | ok v =>
      simp only [h1, h2, Bind.bind, Except.bind] at hc
      have h2' : part.com.component t 2 = .ok v := h2
      unfold Traj.getPWorldZMP Traj.getPWorldCoM Traj.getDWorldCoM
      simp only [hp, h1, h2', Bind.bind, Except.bind]
      rw [← Except.ok.inj hc, apply_eq]
      have := onFloor_add hb ![p.x, p.y, tr.comTargetZ] ![v.x, v.y, 0] (-(1 / omega ^ 2))
      simp only [neg_mul, ← sub_eq_add_neg] at this
      exact congrArg _ this

theorem endDcm_reads {tr : Traj} {omega : ℝ} (ha : Arrives tr.parts omega) {b : ℝ} (hb : Upright tr.T b) (t : ℝ) :
    ∃ part ∈ tr.parts, findPart tr.parts t = .ok part ∧ tr.getPartEndDcm t omega = .ok (onFloor tr.T part.support.targetDcm) := by
  obtain ⟨p, hp, hf, -⟩ := (C81 tr.parts t).2 ha.nonempty ha.contiguous
  refine ⟨p, hp, hf, ?_⟩
  obtain ⟨i, hi, rfl⟩ := List.getElem_of_mem hp
  obtain ⟨k, hk, hfk, hcom⟩ := com_at_end ha i hi
  unfold Traj.getPartEndDcm
  simp only [hf, Bind.bind, Except.bind]
  refine dcm_reads hb hfk ?_
  rw [← ha.arrives i hi]
  unfold LTraj.dcm
  have e0 : tr.parts[k].com.pos tr.parts[i].tEnd = tr.parts[i].com.pos tr.parts[i].tEnd := hcom 0 (by omega)
  have e1 : tr.parts[k].com.vel tr.parts[i].tEnd = tr.parts[i].com.vel tr.parts[i].tEnd := hcom 1 (by omega)
  rw [e0, e1]

/-- The trajectories the generator answers: `plan`, or a `replan` that succeeds. -/
def Issued (g : Wpg) (ss : List Support) (tr : Traj) : Prop :=
  (∃ com t, g.plan ss com t = .ok tr) ∨ ∃ old t, g.replan ss old t = .ok tr ∧ tr.replanSuccess = true

theorem issued_arrives {g : Wpg} {ss : List Support} (hd : ∀ s ∈ ss, 0 < g.duration s) {tr : Traj} (h : Issued g ss tr) :
    Arrives tr.parts g.omega ∧ tr.T = Affine.one := by
  rcases h with ⟨com, t, h⟩ | ⟨old, t, h, hok⟩
  · unfold Wpg.plan at h
    by_cases h0 : ss.length = 0
    · rw [if_pos h0] at h; cases h
    · rw [if_neg h0] at h
      cases hc : g.planCom t ss ⟨⟨com 0, com 1⟩, ⟨0, 0⟩, ⟨0, 0⟩⟩ with
      | error e => rw [hc] at h; cases h
      | ok r =>
        simp only [hc, Bind.bind, Except.bind] at h
        cases r with
        | none => cases h
        | some r =>
          have hs := sameBody_planFeet h
          exact ⟨hs.arrives (arrives_planCom g t ss h0 _ hd r.1 r.2 hc), hs.T⟩
  · unfold Wpg.replan at h
    by_cases h0 : ss.length = 0
    · rw [if_pos h0] at h; cases h
    · rw [if_neg h0] at h
      cases h1 : old.getPWorldCoM t with
      | error e => rw [h1] at h; cases h
      | ok p =>
        cases h2 : old.getDWorldCoM 1 t with
        | error e => simp only [h1, h2, Bind.bind, Except.bind] at h; cases h
        | ok v =>
          cases h3 : old.getDWorldCoM 2 t with
          | error e => simp only [h1, h2, h3, Bind.bind, Except.bind] at h; cases h
          | ok a =>
            simp only [h1, h2, h3, Bind.bind, Except.bind] at h
            cases hc : g.planCom t ss ⟨⟨p 0, p 1⟩, ⟨v 0, v 1⟩, ⟨a 0, a 1⟩⟩ with
            | error e => simp only [hc] at h; cases h
            | ok r =>
              simp only [hc] at h
              cases r with
              | none =>
                rw [← Except.ok.inj h] at hok
                cases hok
              | some r =>
                have hs := sameBody_planFeet h
                exact ⟨hs.arrives (arrives_planCom g t ss h0 _ hd r.1 r.2 hc), hs.T⟩

/-! ## The queries agree -/

/-- **C141 (the part that holds).** When the transform of a trajectory keeps the vertical:
the yaw of a foot is the yaw of its frame, modulo a turn;
the DCM and the ZMP of the world are those of the LIPM trajectory of the part, moved with the floor;
the position of the CoM in the frame of the support foot, taken back to the world, is the position of the CoM. -/
theorem C141_partial (tr : Traj) (b : ℝ) (hb : Upright tr.T b) (t omega : ℝ) :
    (∀ σ F, tr.getTWorldFoot σ t = .ok F → ∃ y, tr.getYawWorldFoot σ t = .ok y ∧ CongrAngle y (frameYaw F.linear)) ∧
    (∀ part c, findPart tr.parts t = .ok part → part.com.dcm t omega = .ok c → tr.getPWorldDCM t omega = .ok (onFloor tr.T c)) ∧
    (∀ part c, findPart tr.parts t = .ok part → part.com.zmp t (omega ^ 2) = .ok c →
      tr.getPWorldZMP t omega = .ok (onFloor tr.T c)) ∧
    (∀ σ F p, tr.supportSide t = .ok σ → tr.getTWorldFoot σ t = .ok F → tr.getPWorldCoM t = .ok p →
      ∃ q, tr.getPSupportCoM t = .ok q ∧ worldPoint (flattenOnFloor F) q = p) := by
  refine ⟨fun σ F hF => ?_, fun part c hp hc => dcm_reads hb hp hc, fun part c hp hc => zmp_reads hb hp hc,
    fun σ F p hs hF hp => ?_⟩
  · obtain ⟨y, hy, hu⟩ := foot_upright hb hF
    refine ⟨frameYaw tr.T.linear + y, ?_, ?_⟩
    · unfold Traj.getYawWorldFoot
      simp only [hy, Bind.bind, Except.bind]
    · exact congr_trans (congr_add (frameYaw_upright hb) ⟨0, by simp⟩) (congr_symm (frameYaw_upright hu))
  · have hr : Rigid (flattenOnFloor F) := (C41_flatten F).2.2.2.1
    refine ⟨(flattenOnFloor F).inv.apply p, ?_, ?_⟩
    · unfold Traj.supportSide at hs
      cases h1 : findPart tr.parts t with
      | error e => rw [h1] at hs; cases hs
      | ok part =>
        simp only [h1, Bind.bind, Except.bind] at hs
        unfold Traj.getPSupportCoM Traj.getTSupportWorld
        simp only [h1, hs, hF, hp, Bind.bind, Except.bind]
    · rw [← apply_eq, ← apply_mul, mul_inv' hr, one_apply']

/-- **C141 (the trunk).** With the trunk pitched by less than a quarter of a turn, the yaw of the trunk is the yaw of its
orientation, modulo a turn. -/
theorem C141_trunk (tr : Traj) (b : ℝ) (hb : Upright tr.T b) (hp : 0 < Real.cos tr.trunkPitch) (t : ℝ) (R : M3)
    (hR : tr.getRWorldTrunk t = .ok R) : ∃ y, tr.getYawWorldTrunk t = .ok y ∧ CongrAngle y (frameYaw R) := by
  unfold Traj.getRWorldTrunk at hR
  cases h1 : (tr.trunkYaw.interpolation t .value).2 with
  | error e => rw [h1] at hR; cases hR
  | ok y =>
    simp only [h1, Bind.bind, Except.bind] at hR
    refine ⟨frameYaw tr.T.linear + y, ?_, ?_⟩
    · unfold Traj.getYawWorldTrunk
      simp only [h1, Bind.bind, Except.bind]
    · have e : frameYaw R = wrapAngle (b + y) := by
        rw [← Except.ok.inj hR, show tr.T.linear = rotZ b from hb, ← Matrix.mul_assoc, ← Matrix.mul_assoc, rotZ_mul, frameYaw_eq]
        have e0 : (rotZ (b + y) * turnY tr.trunkPitch * turnX tr.trunkRoll) 0 0 = Real.cos tr.trunkPitch * Real.cos (b + y) := by
          simp [rotZ, turnY, turnX, Matrix.mul_apply, Fin.sum_univ_three]; ring
        have e1 : (rotZ (b + y) * turnY tr.trunkPitch * turnX tr.trunkRoll) 1 0 = Real.cos tr.trunkPitch * Real.sin (b + y) := by
          simp [rotZ, turnY, turnX, Matrix.mul_apply, Fin.sum_univ_three]; ring
        rw [e0, e1]
        unfold wrapAngle atan2
        generalize Real.cos tr.trunkPitch = k at hp
        have ek : (⟨k * Real.cos (b + y), k * Real.sin (b + y)⟩ : ℂ) = (k : ℂ) * ⟨Real.cos (b + y), Real.sin (b + y)⟩ := by
          apply Complex.ext <;> simp
        rw [ek, Complex.arg_real_mul _ hp]
      rw [e]
      exact congr_trans (congr_add (frameYaw_upright hb) ⟨0, by simp⟩) (congr_symm (wrapAngle_congr _))

/-- **C141 (arrivals).** In every trajectory answered by `plan`, or by a `replan` that succeeds, whatever the solver and the old
trajectory, at every time `get_part_end_dcm` is the `target_world_dcm` of the current support. -/
theorem C141_arrives (g : Wpg) (ss : List Support) (hd : ∀ s ∈ ss, 0 < g.duration s) (tr : Traj) (h : Issued g ss tr) (t : ℝ) :
    ∃ s, tr.getSupport t = .ok s ∧ tr.getPartEndDcm t g.omega = .ok s.targetDcm := by
  obtain ⟨ha, hT⟩ := issued_arrives hd h
  obtain ⟨part, -, hf, he⟩ := endDcm_reads ha (b := 0) (by rw [hT]; exact one_upright) t
  refine ⟨part.support.moved tr.T, ?_, ?_⟩
  · unfold Traj.getSupport
    simp only [hf, Bind.bind, Except.bind]
  · rw [he, hT, onFloor_one]
    rfl

/-- **C141 fails in double support**: where both feet support, the CoM, its velocity and the DCM have no value in the frame of
the support foot: `get_p_support_CoM`, `get_v_support_CoM`, `get_p_support_DCM` raise. -/
theorem C141_refuted (tr : Traj) (t omega : ℝ) (part : Part) (hp : findPart tr.parts t = .ok part) (hb : part.support.isBoth = true) :
    tr.getPSupportCoM t = .error .runtimeError ∧ tr.getVSupportCoM t = .error .runtimeError ∧
      tr.getPSupportDCM t omega = .error .runtimeError := by
  have hs : part.support.side = .error .runtimeError := by
    unfold Support.side
    have : part.support.footsteps.length = 2 := by simpa [Support.isBoth] using hb
    rw [if_pos (by omega)]
  have hw : tr.getTSupportWorld t = .error .runtimeError := by
    unfold Traj.getTSupportWorld
    simp only [hp, hs, Bind.bind, Except.bind]
  have hc : tr.getPSupportCoM t = .error .runtimeError := by
    unfold Traj.getPSupportCoM
    simp only [hw, Bind.bind, Except.bind]
  refine ⟨hc, ?_, ?_⟩
  · unfold Traj.getVSupportCoM
    simp only [hw, Bind.bind, Except.bind]
  · unfold Traj.getPSupportDCM
    simp only [hc, Bind.bind, Except.bind]

/-- **C140 fails for the targets of the supports**: `apply_transform` does not move `target_world_dcm`. In every trajectory issued
by the generator, at every time, moving it by one metre leaves `get_support(t).target_world_dcm` where it was, one metre away from
`get_part_end_dcm(t)`, that has moved. -/
theorem C140_refuted (g : Wpg) (ss : List Support) (hd : ∀ s ∈ ss, 0 < g.duration s) (tr : Traj) (h : Issued g ss tr) (t : ℝ) :
    ∃ s s' d, tr.getSupport t = .ok s ∧ (tr.applyTransform ⟨1, ![1, 0, 0]⟩).getSupport t = .ok s' ∧
      (tr.applyTransform ⟨1, ![1, 0, 0]⟩).getPartEndDcm t g.omega = .ok d ∧
      s'.targetDcm = s.targetDcm ∧ d.x = s'.targetDcm.x + 1 := by
  obtain ⟨ha, hT⟩ := issued_arrives hd h
  obtain ⟨part, -, hf, he⟩ := endDcm_reads ha (b := 0) (by rw [hT]; exact one_upright) t
  have hu : Upright ⟨1, ![1, 0, 0]⟩ 0 := one_upright
  rcases (C140_floor tr 0 (by rw [hT]; exact one_upright) ⟨1, ![1, 0, 0]⟩ 0 hu t g.omega).2.2.2.2.1 with
    ⟨e, h1, -⟩ | ⟨c, d, h1, h2, h3⟩
  · rw [he] at h1; cases h1
  · rw [he, hT, onFloor_one] at h1
    refine ⟨part.support.moved tr.T, part.support.moved ((⟨1, ![1, 0, 0]⟩ : Affine).mul tr.T), d, ?_, ?_, h2, rfl, ?_⟩
    · unfold Traj.getSupport
      simp only [hf, Bind.bind, Except.bind]
    · unfold Traj.getSupport
      have e : (tr.applyTransform ⟨1, ![1, 0, 0]⟩).parts = tr.parts := rfl
      simp only [e, hf, Bind.bind, Except.bind]
      rfl
    · rw [h3, ← Except.ok.inj h1]
      simp [onFloor, worldPoint, Support.moved]

/-! ## A walk of three footsteps -/

/-- The walk of three footsteps is issued by the generator: at any time its current support tells the DCM of the end of the part,
and forgets to move it. -/
example (t : ℝ) : ∃ S tr, Issued softWpg S tr ∧ (∃ s, tr.getSupport t = .ok s ∧ tr.getPartEndDcm t softWpg.omega = .ok s.targetDcm) ∧
    ∃ s s' d, tr.getSupport t = .ok s ∧ (tr.applyTransform ⟨1, ![1, 0, 0]⟩).getSupport t = .ok s' ∧
      (tr.applyTransform ⟨1, ![1, 0, 0]⟩).getPartEndDcm t softWpg.omega = .ok d ∧
      s'.targetDcm = s.targetDcm ∧ d.x = s'.targetDcm.x + 1 := by
  obtain ⟨S, hS, hs⟩ := soft_supports true true true
  obtain ⟨S', tr, te, hS', h1, h2⟩ := soft_walk true
  rw [hS] at hS'
  obtain rfl := Except.ok.inj hS'
  have hf := makeSupports_whole hS
  have hd : ∀ s ∈ S, 0 < softWpg.duration s := by
    intro s h
    unfold Wpg.duration
    rw [(hf s h).1, (hf s h).2]
    have := (hs s h).1
    linarith
  have hi : Issued softWpg S tr := .inl ⟨_, _, h1⟩
  exact ⟨S, tr, hi, C141_arrives softWpg S hd tr hi t, C140_refuted softWpg S hd tr hi t⟩

/-- A trajectory that stands on its left foot at the origin: it is upright. -/
example (b : ℝ) : Upright (buildFrame ![1, 2, 3] b) b ∧ Upright Affine.one 0 := ⟨rfl, one_upright⟩

end Verif.Humanoid
