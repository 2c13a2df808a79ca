/-
C206: Hessians of frames. C207: Jacobians of frames and of the centre of mass.
-/
import Verif.Robot.Hessian
import Verif.Robot.BaseProps
import Verif.Kinematics.FrameTasksProps2
import Verif.Dynamics.RelPosProps
import Mathlib.Analysis.Calculus.Deriv.Add
import Mathlib.Analysis.Calculus.Deriv.Mul

namespace Verif.Robot
open Finset Verif.Problem Verif.Tools

/-! ## Specification -/

/-- The velocity, in its own axes, of a frame fixed at the placement `T` on a body whose velocity is `(v, w)` in its axes: the angular
velocity is that of the body, the linear velocity is that of the point of the body. -/
def frameVelocity (T : Affine) (v w : V3) : Row6 → ℝ
  | .inl i => T.linear.transpose.mulVec (v + cross3 w T.translation) i
  | .inr i => T.linear.transpose.mulVec w i

/-- The Jacobian of the frame, column by column. -/
def frameJac {nv : Nat} (T : Affine) (J : Matrix Row6 (Fin nv) ℝ) : Matrix Row6 (Fin nv) ℝ :=
  fun r j => frameVelocity T (fun i => J (.inl i) j) (fun i => J (.inr i) j) r

/-- The entry `(r, j, k)` of a tensor of sizes 6, nv, nv stored with the first index varying first. -/
def tensorAt (data : Nat → ℝ) (nv : Nat) (r : Row6) (j k : Fin nv) : ℝ :=
  data (r.index + 6 * (j + nv * k))

/-! ## Proof -/

theorem mapped_tensor (data : Nat → ℝ) (nv : Nat) (r : Row6) (j k : Fin nv) : mappedHessian data nv k r j = tensorAt data nv r j k := by
  unfold mappedHessian tensorAt
  congr 1
  ring

theorem skew_mulVec (t w : V3) : (skew t).mulVec w = cross3 t w := by
  funext i
  fin_cases i <;> simp [skew, cross3, Matrix.mulVec, dotProduct, Fin.sum_univ_three] <;> ring

theorem cross_neg_comm (a b : V3) : cross3 (-a) b = cross3 b a := by
  funext i
  fin_cases i <;> simp [cross3] <;> ring

/-- The action of the inverse placement gives the velocity of the frame. -/
theorem action_velocity (T : Affine) (hT : Rigid T) (u : Row6 → ℝ) (r : Row6) :
    ∑ l, actionMatrix (se3Inverse T) r l * u l = frameVelocity T (fun i => u (.inl i)) (fun i => u (.inr i)) r := by
  rw [Fintype.sum_sum_type]
  cases r with
  | inr i => simp [actionMatrix, se3Inverse, frameVelocity, Matrix.mulVec, dotProduct]
  | inl i =>
    have h1 : ∑ l, actionMatrix (se3Inverse T) (.inl i) (.inl l) * u (.inl l) = T.linear.transpose.mulVec (fun i => u (.inl i)) i := rfl
    have h2 : ∑ l, actionMatrix (se3Inverse T) (.inl i) (.inr l) * u (.inr l) =
        T.linear.transpose.mulVec (cross3 (fun i => u (.inr i)) T.translation) i := by
      show (skew (-(T.linear.transpose.mulVec T.translation)) * T.linear.transpose).mulVec (fun i => u (.inr i)) i = _
      rw [← Matrix.mulVec_mulVec, skew_mulVec, cross_neg_comm, Dynamics.rotation_cross T.linear hT]
    rw [h1, h2]
    show _ = T.linear.transpose.mulVec (_ + _) i
    rw [Matrix.mulVec_add]
    rfl

theorem getFrameHessian_ok (tensors : Nat → Nat → ℝ) (nv : Nat) (frame : BodyFrame) (hT : Rigid frame.placement) (k : Fin nv) :
    getFrameHessian tensors nv frame (k : Nat) = .ok (frameJac frame.placement fun r j => tensorAt (tensors frame.parent) nv r j k) := by
  unfold getFrameHessian
  rw [if_pos ⟨by omega, by exact_mod_cast k.2⟩]
  congr 1
  ext r j
  rw [Matrix.mul_apply, action_velocity _ hT, Int.toNat_natCast]
  simp only [mapped_tensor]
  rfl

theorem frameJac_linear {nv : Nat} (T : Affine) (r : Row6) : ∃ c : Row6 → ℝ, ∀ (J : Matrix Row6 (Fin nv) ℝ) j,
    frameJac T J r j = ∑ l, c l * J l j := by
  cases r with
  | inl i =>
    refine ⟨fun l => match l with
      | .inl a => T.linear a i
      | .inr a => ∑ b, T.linear b i * cross3 (Pi.single a 1) T.translation b, fun J j => ?_⟩
    rw [Fintype.sum_sum_type]
    simp only [frameJac, frameVelocity, Matrix.mulVec, dotProduct, Fin.sum_univ_three, Matrix.transpose_apply, Pi.add_apply, cross3,
      Matrix.cons_val_zero, Matrix.cons_val_one, Matrix.cons_val]
    simp [Pi.single_apply]
    ring
  | inr i =>
    refine ⟨fun l => match l with
      | .inl _ => 0
      | .inr a => T.linear a i, fun J j => ?_⟩
    rw [Fintype.sum_sum_type]
    simp [frameJac, frameVelocity, Matrix.mulVec, dotProduct, Matrix.transpose_apply]

/-- The Jacobian of the frame moves with that of its body. -/
theorem frameJac_deriv {nv : Nat} (T : Affine) (J : ℝ → Matrix Row6 (Fin nv) ℝ) (H : Fin nv → Matrix Row6 (Fin nv) ℝ) (qd : Fin nv → ℝ) (t : ℝ)
    (hJ : ∀ r j, HasDerivAt (fun s => J s r j) (∑ k, H k r j * qd k) t) (r : Row6) (j : Fin nv) :
    HasDerivAt (fun s => frameJac T (J s) r j) (∑ k, frameJac T (H k) r j * qd k) t := by
  obtain ⟨c, hc⟩ := frameJac_linear (nv := nv) T r
  simp only [hc]
  have := HasDerivAt.fun_sum (u := univ) fun l (_ : l ∈ univ) => (hJ l j).const_mul (c l)
  refine this.congr_deriv ?_
  simp only [mul_sum, sum_mul]
  rw [sum_comm]
  exact sum_congr rfl fun k _ => sum_congr rfl fun l _ => by ring

/-! ## The properties -/

/-- **C206_partial.** Missing: the names that do not exist (`C206_refuted`). Along every motion of velocity `qd`, when the tensor
of the parent joint contains the derivatives of the local Jacobian of that joint, the matrices of `get_frame_hessian` of every joint are the derivatives of the
local Jacobian of the frame: its Jacobian varies at the rate `∑ H_k qd_k`. -/
theorem C206_partial (tensors : Nat → Nat → ℝ) (nv : Nat) (frame : BodyFrame) (hT : Rigid frame.placement)
    (J : ℝ → Matrix Row6 (Fin nv) ℝ) (qd : Fin nv → ℝ) (t : ℝ)
    (hJ : ∀ r j, HasDerivAt (fun s => J s r j) (∑ k, tensorAt (tensors frame.parent) nv r j k * qd k) t) :
    ∃ H : Fin nv → Matrix Row6 (Fin nv) ℝ, (∀ k : Fin nv, getFrameHessian tensors nv frame (k : Nat) = .ok (H k)) ∧
      ∀ r j, HasDerivAt (fun s => frameJac frame.placement (J s) r j) (∑ k, H k r j * qd k) t :=
  ⟨_, fun k => getFrameHessian_ok tensors nv frame hT k, fun r j => frameJac_deriv frame.placement J _ qd t hJ r j⟩

/-- The row of an index. -/
def rowOf (i : Nat) : Option Row6 := if h : i < 3 then some (.inl ⟨i, h⟩) else if h : i - 3 < 3 then some (.inr ⟨i - 3, h⟩) else none

/-- A matrix of six rows read with natural numbers. -/
def readNat {nv : Nat} (M : Matrix Row6 (Fin nv) ℝ) (i j : Nat) : ℝ :=
  match rowOf i with
  | some r => if h : j < nv then M r ⟨j, h⟩ else 0
  | none => 0

/-- **C206, manipulability.** The manipulability task (C119) built with the Jacobian of a frame and with the matrices that `get_frame_hessian`
returns: along every step of the joints, the measure of manipulability of the frame has a derivative `d`, and the squared residual of the
task is, up to a constant, `lambda² |dq|²` minus `d` (plus `d` when minimizing). -/
theorem C206_manipulability (tensors : Nat → Nat → ℝ) (nv : Nat) (h6 : 6 ≤ nv) (frame : BodyFrame) (hT : Rigid frame.placement)
    (type : Kinematics.ManipType) (lambda : ℝ) (hlam : lambda ≠ 0) (minimize : Bool) (J0 : Matrix Row6 (Fin nv) ℝ)
    (hdet : (type.maskMatrix nv (readNat (frameJac frame.placement J0)) *
      (type.maskMatrix nv (readNat (frameJac frame.placement J0))).transpose).det ≠ 0) :
    ∃ (H : Nat → Matrix Row6 (Fin nv) ℝ) (M : Kinematics.TaskMat ℝ) (c : ℝ),
      (∀ k, k < nv → getFrameHessian tensors nv frame k = .ok (H k)) ∧
      Kinematics.manipulabilityTask nv type lambda minimize (readNat (frameJac frame.placement J0)) (fun k => readNat (H k)) = some M ∧
      ∀ (dq : Nat → ℝ) (J : ℝ → Matrix Row6 (Fin nv) ℝ), J 0 = J0 → (∀ k, k < 6 → dq k = 0) →
        (∀ r j, HasDerivAt (fun s => J s r j) (∑ k : Fin nv, tensorAt (tensors frame.parent) nv r j k * dq k) 0) →
        ∃ d, HasDerivAt (fun s => Kinematics.measure (type.maskMatrix nv (readNat (frameJac frame.placement (J s))))) d 0 ∧
          ∑ i ∈ range M.rows, (M.app dq i - M.b i) ^ 2 =
            lambda ^ 2 * ∑ k ∈ range (nv - 6), dq (k + 6) ^ 2 - (if minimize then -1 else 1) * d + c := by
  let H : Nat → Matrix Row6 (Fin nv) ℝ := fun k =>
    if h : k < nv then frameJac frame.placement fun r j => tensorAt (tensors frame.parent) nv r j ⟨k, h⟩ else 0
  obtain ⟨M, c, hM, -, hres⟩ := Kinematics.C119 nv h6 type lambda minimize (readNat (frameJac frame.placement J0)) (fun k => readNat (H k)) hlam hdet
  refine ⟨H, M, c, fun k hk => ?_, hM, fun dq J hJ0 h0 hJ => ?_⟩
  · rw [show (k : Int) = ((⟨k, hk⟩ : Fin nv) : Nat) from rfl, getFrameHessian_ok tensors nv frame hT ⟨k, hk⟩]
    show _ = Except.ok (if h : k < nv then _ else _)
    rw [dif_pos hk]
  · refine hres dq (fun s => readNat (frameJac frame.placement (J s))) (by rw [hJ0]) fun i j => ?_
    have key : ∀ r (j : Fin nv), ∑ k : Fin nv, frameJac frame.placement (fun r j => tensorAt (tensors frame.parent) nv r j k) r j * dq k =
        ∑ k ∈ range (nv - 6), H (k + 6) r j * dq (k + 6) := by
      intro r j
      have e : ∀ k : Fin nv, frameJac frame.placement (fun r j => tensorAt (tensors frame.parent) nv r j k) r j * dq k = H k r j * dq k := by
        intro k
        show _ = (if h : (k : Nat) < nv then _ else _ : Matrix Row6 (Fin nv) ℝ) r j * _
        rw [dif_pos k.2]
      rw [sum_congr rfl fun k _ => e k, Fin.sum_univ_eq_sum_range (fun k => H k r j * dq k)]
      conv_lhs => rw [← Nat.add_sub_cancel' h6, sum_range_add]
      rw [sum_eq_zero (s := range 6) fun k hk => by rw [h0 k (mem_range.1 hk), mul_zero], zero_add]
      exact sum_congr rfl fun k _ => by rw [Nat.add_comm]
    unfold readNat
    cases hr : rowOf i with
    | none => simpa using hasDerivAt_const (0 : ℝ) (0 : ℝ)
    | some r =>
      by_cases hj : j < nv
      · simp only [dif_pos hj]
        rw [← key r ⟨j, hj⟩]
        exact frameJac_deriv frame.placement J _ (fun k : Fin nv => dq k) 0 hJ r ⟨j, hj⟩
      · simp only [dif_neg hj, zero_mul, sum_const_zero]
        exact hasDerivAt_const _ _

/-- **C206, the call of Python.** With the names of a frame and of a joint of the model, it is the Hessian for the first
coordinate of that joint. -/
theorem C206_python (tensors : Nat → Nat → ℝ) (nv : Nat) (frames : List BodyFrame) (joints : List Kinematics.Joint)
    (hf : (frames.map (·.name)).Nodup) (hj : (joints.map (·.name)).Nodup) (f : BodyFrame) (hfm : f ∈ frames) (j : Kinematics.Joint)
    (hjm : j ∈ joints) : pyGetFrameHessian tensors nv frames joints f.name j.name = getFrameHessian tensors nv f j.idxV := by
  have h1 : ∀ {α : Type} (name : α → String) (l : List α), (l.map name).Nodup → ∀ x ∈ l, l.find? (fun y => name y = name x) = some x := by
    intro α name l hl x hx
    induction l with
    | nil => cases hx
    | cons y l ih =>
      rw [List.map_cons, List.nodup_cons] at hl
      rw [List.find?_cons]
      rcases List.mem_cons.1 hx with e | hx
      · subst e; simp
      · have : name y ≠ name x := fun e => hl.1 (e ▸ List.mem_map_of_mem hx)
        simp only [this, decide_false]
        exact ih hl.2 hx
  unfold pyGetFrameHessian jointUnchecked
  rw [h1 Kinematics.Joint.name joints hj j hjm]
  show (match frames.find? (fun g => g.name = f.name) with | some f => _ | none => _) = _
  rw [h1 BodyFrame.name frames hf f hfm]

/-- **C206, indices.** In C++, the call is defined exactly for the indices of the coordinates of velocity. -/
theorem C206_range (tensors : Nat → Nat → ℝ) (nv : Nat) (frame : BodyFrame) (k : Int) :
    (∃ H, getFrameHessian tensors nv frame k = .ok H) ↔ ∃ i : Fin nv, k = (i : Nat) := by
  unfold getFrameHessian
  constructor
  · rintro ⟨H, h⟩
    split at h
    next hk => exact ⟨⟨k.toNat, by omega⟩, by simp only; omega⟩
    next => cases h
  · rintro ⟨i, rfl⟩
    rw [if_pos ⟨by omega, by exact_mod_cast i.2⟩]
    exact ⟨_, rfl⟩

/-- **C206 is false of the code.** For every name that is not that of a frame or not that of a joint, the call of Python is
undefined instead of raising an error. -/
theorem C206_refuted (tensors : Nat → Nat → ℝ) (nv : Nat) (frames : List BodyFrame) (joints : List Kinematics.Joint) (frame joint : String)
    (h : frame ∉ frames.map (·.name) ∨ joint ∉ joints.map (·.name)) :
    pyGetFrameHessian tensors nv frames joints frame joint = .error .ub := by
  have none_of : ∀ {α : Type} (name : α → String) (l : List α) (x : String), x ∉ l.map name → l.find? (fun y => name y = x) = none := by
    intro α name l x hx
    rw [List.find?_eq_none]
    intro y hy e
    exact hx (List.mem_map.2 ⟨y, hy, of_decide_eq_true e⟩)
  unfold pyGetFrameHessian
  by_cases hj : joint ∈ joints.map (·.name)
  · have hf := h.resolve_right fun h => h hj
    rw [none_of BodyFrame.name frames frame hf]
    unfold jointUnchecked
    cases joints.find? (fun j => j.name = joint) <;> rfl
  · unfold jointUnchecked
    rw [none_of Kinematics.Joint.name joints joint hj]
    rfl

/-- **C207, frames.** The velocity given by `frame_jacobian` is the sum of those given by the joints that move the frame: whatever
the columns that pinocchio does not write, they are zero. -/
theorem C207_frame {nv : Nat} (moves : Fin nv → Bool) (columns : Matrix Row6 (Fin nv) ℝ) (qd : Fin nv → ℝ) (r : Row6) :
    ((frameJacobianFill moves columns).mulVec qd) r = ∑ j ∈ univ.filter (fun j => moves j = true), columns r j * qd j := by
  unfold frameJacobianFill fillColumns
  simp only [Matrix.mulVec, dotProduct, Matrix.zero_apply]
  rw [sum_filter]
  exact sum_congr rfl fun j _ => by split <;> simp

theorem massLoop_sum (l : List ℝ) (m : ℝ) : massLoop l m = m + l.sum := by
  induction l generalizing m with
  | nil => simp [massLoop]
  | cons x l ih => rw [massLoop, ih, List.sum_cons]; ring

/-- **C207, mass.** The mass is the sum of those of the bodies, in any order; it is positive if no mass is negative and one is positive. -/
theorem C207_mass (masses : List ℝ) : totalMass masses = masses.sum ∧
    (∀ l, l.Perm masses → totalMass l = totalMass masses) ∧
    ((∀ m ∈ masses, 0 ≤ m) → (∃ m ∈ masses, 0 < m) → 0 < totalMass masses) := by
  have h : ∀ l, totalMass l = l.sum := fun l => by unfold totalMass; rw [massLoop_sum, zero_add]
  refine ⟨h _, fun l hl => by rw [h, h, hl.sum_eq], fun h0 ⟨m, hm, hp⟩ => ?_⟩
  rw [h]
  exact lt_of_lt_of_le hp (List.single_le_sum h0 m hm)

/-- **C207.** Along every motion: when the linear rows of the centroidal map are the mass of the robot times the Jacobian of the CoM
and vary at the rate given by pinocchio, `com_jacobian_time_variation` is the derivative of the Jacobian of the CoM (for a robot with a
mass). -/
theorem C207 {nv : Nat} (masses : List ℝ) (hm : masses.sum ≠ 0) (Ag : ℝ → Matrix Row6 (Fin nv) ℝ) (Jcom : ℝ → Matrix (Fin 3) (Fin nv) ℝ)
    (dAg : Matrix Row6 (Fin nv) ℝ) (t : ℝ) (hA : ∀ s i j, Ag s (.inl i) j = masses.sum * Jcom s i j)
    (hd : ∀ r j, HasDerivAt (fun s => Ag s r j) (dAg r j) t) :
    ∃ dJ, comJacobianVariation dAg masses = some dJ ∧ ∀ i j, HasDerivAt (fun s => Jcom s i j) (dJ i j) t := by
  have h := (C207_mass masses).1
  refine ⟨fun i j => dAg (.inl i) j / totalMass masses, by unfold comJacobianVariation; rw [if_neg (by rw [h]; exact hm)], fun i j => ?_⟩
  rw [h]
  refine ((hd (.inl i) j).div_const masses.sum).congr_of_eventuallyEq (Filter.Eventually.of_forall fun s => ?_)
  show Jcom s i j = Ag s (.inl i) j / masses.sum
  rw [hA]
  field_simp

/-! ## The hypotheses are met -/

/-- A frame at one metre from its joint, turned by a quarter: a joint turning at 1 rad/s moves it at 1 m/s along its own axis. -/
example : frameVelocity ⟨!![0, -1, 0; 1, 0, 0; 0, 0, 1], ![1, 0, 0]⟩ 0 ![0, 0, 1] = Sum.elim ![1, 0, 0] ![0, 0, 1] := by
  funext r
  rcases r with i | i <;> fin_cases i <;>
    simp [frameVelocity, cross3, Matrix.mulVec, dotProduct, Fin.sum_univ_three]

/-- A robot of two joints whose Jacobian varies: the entry `(0, 1)` grows with the first coordinate. -/
example : ∃ (data : Nat → ℝ) (J : ℝ → Matrix Row6 (Fin 2) ℝ) (qd : Fin 2 → ℝ),
    (∀ r j, HasDerivAt (fun s => J s r j) (∑ k, tensorAt data 2 r j k * qd k) 0) ∧ J 1 (.inl 0) 1 ≠ J 0 (.inl 0) 1 := by
  refine ⟨fun n => if n = 6 then 3 else 0, fun s r j => if r = .inl 0 ∧ j = 1 then 6 * s else 0, ![2, 0], fun r j => ?_, by norm_num⟩
  by_cases h : r = .inl 0 ∧ j = 1
  · simp only [h]
    refine ((hasDerivAt_id (0 : ℝ)).const_mul 6).congr_deriv ?_
    simp [tensorAt, Row6.index]
    norm_num
  · simp only [h, if_false]
    refine (hasDerivAt_const _ _).congr_deriv ?_
    have : r.index + 6 * (j + 2 * 0) ≠ 6 := by
      intro e
      apply h
      rcases r with i | i <;> fin_cases i <;> fin_cases j <;> simp [Row6.index] at e ⊢
    simp [tensorAt, Fin.sum_univ_two] at this ⊢
    exact this

/-- Two bodies of one and two kilograms. -/
example : totalMass [1, 2] = 3 ∧ ([1, 2] : List ℝ).sum ≠ 0 := by
  rw [(C207_mass _).1]; norm_num

end Verif.Robot
