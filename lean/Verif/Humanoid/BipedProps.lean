/-
Properties C174 and C175: building a humanoid robot, changing its support, its DCM and its ZMP.
-/
import Mathlib.Analysis.Calculus.Deriv.Add
import Mathlib.Analysis.Calculus.Deriv.Mul
import Mathlib.Analysis.Calculus.Deriv.Prod
import Verif.Humanoid.Biped
import Verif.Robot.BaseProps

namespace Verif.Humanoid
open Verif.Tools Verif.Robot

/-! ## Specification -/

/-- The frames a humanoid robot must have. -/
def HasFeet (frame : String → Option Nat) : Prop := ∀ n ∈ ["left_foot", "right_foot", "trunk"], ∃ i, frame n = some i

/-- The frames that the humanoid robot uses are not the world itself. -/
def OffWorld (m : KinModel) (frame : String → Option Nat) : Prop :=
  ∀ n ∈ ["left_foot", "right_foot", "trunk", "left_hip_yaw", "head_base", "head_pitch", "camera"], ∀ i, frame n = some i → m.world i = none

/-- The calls, one after the other; the exceptions raised are caught. -/
noncomputable def bipedRun (m : KinModel) (frame : String → Option Nat) : Biped → List BipedOp → Biped
  | h, [] => h
  | h, op :: ops => bipedRun m frame (h.step m frame op).1 ops

/-- The side and the frame that a call asks for, if it asks for any. -/
def BipedOp.asks (frame : String → Option Nat) (left right : Nat) : BipedOp → Option (Side × Nat)
  | .side .left => some (.left, left)
  | .side .right => some (.right, right)
  | .sideName n => some (if n = "right" then (.right, right) else (.left, left))
  | .sideFrame s f => some (s, f)
  | .names n f => (frame f).map fun i => (if n = "right" then .right else .left, i)
  | _ => none

/-- The last side and frame asked for. -/
def lastAsked (frame : String → Option Nat) (left right : Nat) : Side × Nat → List BipedOp → Side × Nat
  | a, [] => a
  | a, op :: ops => lastAsked frame left right ((op.asks frame left right).getD a) ops

/-- The call names no frame. -/
def BipedOp.SideOnly : BipedOp → Prop
  | .sideFrame _ _ => False
  | .names _ _ => False
  | _ => True

/-! ## Construction -/

/-- **C174, construction: when.** The constructor raises exactly when one of "left_foot", "right_foot" and "trunk" is missing. -/
theorem C174_when (m : KinModel) (frame : String → Option Nat) (rw : RW) :
    ((∃ h, Biped.construct m frame rw = .ok h) ↔ HasFeet frame) ∧
    ∀ e, Biped.construct m frame rw = .error e → e = .runtimeError := by
  have hF : HasFeet frame ↔ (∃ i, frame "left_foot" = some i) ∧ (∃ i, frame "right_foot" = some i) ∧ ∃ i, frame "trunk" = some i := by
    simp [HasFeet]
  rw [hF]
  cases h1 : frame "left_foot" with
  | none => simp [Biped.construct, frameNamed, h1, Bind.bind, Except.bind]
  | some a =>
    cases h2 : frame "right_foot" with
    | none => simp [Biped.construct, frameNamed, h1, h2, Bind.bind, Except.bind]
    | some b =>
      cases h3 : frame "trunk" with
      | none => simp [Biped.construct, frameNamed, h1, h2, h3, Bind.bind, Except.bind]
      | some c => simp [Biped.construct, frameNamed, h1, h2, h3, Bind.bind, Except.bind]

/-- **C174, construction: what.** The left foot is the support and is at the origin of the world, the placements that are read are those of
the robot, the joints did not move, and the distances that are written are those of the frames of the robot in that configuration. -/
theorem C174_built (m : KinModel) (hm : m.OK) (frame : String → Option Nat) (rw : RW) (hr : Robot.Inv rw) (h : Biped)
    (hc : Biped.construct m frame rw = .ok h) (hw : OffWorld m frame) :
    frame "left_foot" = some h.leftFoot ∧ frame "right_foot" = some h.rightFoot ∧ frame "trunk" = some h.trunk ∧
    h.supportSide = .left ∧ h.supportIsBoth = false ∧ h.hr.supportFrame = h.leftFoot ∧ h.hr.worldSupport = Affine.one ∧
    h.hr.rw.getTWorldFrame h.leftFoot = Affine.one ∧ h.hr.rw.oMf = m.fk h.hr.rw.q ∧ (∀ k, 7 ≤ k → h.hr.rw.q k = rw.q k) ∧
    (∀ a b, frame "trunk" = some a → frame "left_hip_yaw" = some b →
      h.distYTrunkFoot = some |((m.fk rw.q a).inv.mul (m.fk rw.q b)).translation 1|) ∧
    (frame "left_hip_yaw" = none → h.distYTrunkFoot = none) ∧
    (∀ a b c, frame "head_base" = some a → frame "head_pitch" = some b → frame "camera" = some c →
      h.head = some ⟨((m.fk rw.q a).inv.mul (m.fk rw.q b)).translation 2, ((m.fk rw.q a).inv.mul (m.fk rw.q c)).translation 2⟩) ∧
    (frame "head_base" = none ∨ frame "head_pitch" = none ∨ frame "camera" = none → h.head = none) := by
  obtain ⟨l, hl⟩ := ((C174_when m frame rw).1.1 ⟨h, hc⟩) "left_foot" (by simp)
  obtain ⟨r, hr'⟩ := ((C174_when m frame rw).1.1 ⟨h, hc⟩) "right_foot" (by simp)
  obtain ⟨t, ht⟩ := ((C174_when m frame rw).1.1 ⟨h, hc⟩) "trunk" (by simp)
  have hU := inv_update hm hr
  have hlw := hw _ (by simp) _ hl
  obtain ⟨s1, s2⟩ := setFrame_spec hm hU l hlw Affine.one rigid_one
  have hrel : ∀ a b, m.world a = none → m.world b = none →
      (m.ensureOnFloor ⟨rw, l, Affine.one⟩).rw.getTab a b = (m.fk rw.q a).inv.mul (m.fk rw.q b) := fun a b ha hb =>
    setFrame_relative hm hU l Affine.one rigid_one a b ha hb
  simp only [Biped.construct, frameNamed, hl, hr', ht, Bind.bind, Except.bind] at hc
  cases hc
  refine ⟨hl, hr', ht, rfl, rfl, rfl, rfl, ?_, rfl, s2, ?_, ?_, ?_, ?_⟩
  · show (m.updateKinematics (m.setTWorldFrame (m.updateKinematics rw) l Affine.one)).getTWorldFrame l = _
    rw [s1]
    have hcache : (m.updateKinematics rw).getTWorldFrame l = m.fk (m.updateKinematics rw).q l := rfl
    rw [hcache, inv_mul' (rigid_fk hm hU.1 l), mul_one']
  · intro a b ha hb
    rw [ht] at ha
    cases ha
    dsimp only
    rw [hb]
    dsimp only
    rw [hrel t b (hw _ (by simp) _ ht) (hw _ (by simp) _ hb)]
  · intro hb
    dsimp only
    rw [hb]
  · intro a b c ha hb hc
    dsimp only
    rw [ha, hb, hc]
    dsimp only
    rw [hrel a b (hw _ (by simp) _ ha) (hw _ (by simp) _ hb), hrel a c (hw _ (by simp) _ ha) (hw _ (by simp) _ hc)]
    rfl
  · intro hn
    dsimp only
    rcases hn with hn | hn | hn <;> rw [hn]
    · cases frame "head_base" <;> rfl
    · cases frame "head_base" <;> cases frame "head_pitch" <;> rfl

/-! ## The camera -/

theorem step_keeps (m : KinModel) (frame : String → Option Nat) (h : Biped) (op : BipedOp) :
    (h.step m frame op).1.head = h.head ∧ (h.step m frame op).1.leftFoot = h.leftFoot ∧
      (h.step m frame op).1.rightFoot = h.rightFoot := by
  cases op with
  | names n f =>
    unfold Biped.step
    dsimp only
    split <;> exact ⟨rfl, rfl, rfl⟩
  | _ => exact ⟨rfl, rfl, rfl⟩

theorem run_keeps (m : KinModel) (frame : String → Option Nat) (ops : List BipedOp) : ∀ h : Biped,
    (bipedRun m frame h ops).head = h.head ∧ (bipedRun m frame h ops).leftFoot = h.leftFoot ∧
      (bipedRun m frame h ops).rightFoot = h.rightFoot := by
  induction ops with
  | nil => exact fun h => ⟨rfl, rfl, rfl⟩
  | cons op ops ih =>
    intro h
    obtain ⟨a, b, c⟩ := ih (h.step m frame op).1
    obtain ⟨a', b', c'⟩ := step_keeps m frame h op
    exact ⟨a.trans a', b.trans b', c.trans c'⟩

/-- **C174, camera: exactly when.** After the construction and any calls, `camera_look_at` raises exactly when "head_base" is missing, and
reads distances that were never written exactly when "head_base" exists and "head_pitch" or "camera" does not. Otherwise it uses the
distances measured at the construction. -/
theorem C174_camera (m : KinModel) (hm : m.OK) (frame : String → Option Nat) (rw : RW) (hr : Robot.Inv rw) (h : Biped)
    (hc : Biped.construct m frame rw = .ok h) (hw : OffWorld m frame) (ops : List BipedOp) (P : V3) :
    ((bipedRun m frame h ops).cameraLookAt frame P = .error .runtimeError ↔ frame "head_base" = none) ∧
    ((bipedRun m frame h ops).cameraLookAt frame P = .error .ub ↔
      frame "head_base" ≠ none ∧ (frame "head_pitch" = none ∨ frame "camera" = none)) ∧
    (∀ a b c, frame "head_base" = some a → frame "head_pitch" = some b → frame "camera" = some c →
      (bipedRun m frame h ops).cameraLookAt frame P =
        .ok ((⟨((m.fk rw.q a).inv.mul (m.fk rw.q b)).translation 2, ((m.fk rw.q a).inv.mul (m.fk rw.q c)).translation 2⟩ : Head).lookAt
          ((bipedRun m frame h ops).hr.rw.getTWorldFrame a) P)) := by
  obtain ⟨-, -, -, -, -, -, -, -, -, -, -, -, h1, h2⟩ := C174_built m hm frame rw hr h hc hw
  obtain ⟨k, -, -⟩ := run_keeps m frame ops h
  cases ha : frame "head_base" with
  | none => simp [Biped.cameraLookAt, frameNamed, ha, Bind.bind, Except.bind]
  | some a =>
    cases hb : frame "head_pitch" with
    | none =>
      have hn := h2 (Or.inr (Or.inl hb))
      simp [Biped.cameraLookAt, frameNamed, ha, Bind.bind, Except.bind, k, hn]
    | some b =>
      cases hc' : frame "camera" with
      | none =>
        have hn := h2 (Or.inr (Or.inr hc'))
        simp [Biped.cameraLookAt, frameNamed, ha, Bind.bind, Except.bind, k, hn]
      | some c =>
        have hn := h1 a b c ha hb hc'
        simp [Biped.cameraLookAt, frameNamed, ha, Bind.bind, Except.bind, k, hn]

/-- **C174 is false (camera)**: a robot with feet, a trunk and a head base but no camera frame is built, and `camera_look_at` then reads
distances that were never written. -/
theorem C174_camera_refuted : ∃ (m : KinModel) (frame : String → Option Nat) (rw : RW) (h : Biped), m.OK ∧ Robot.Inv rw ∧
    Biped.construct m frame rw = .ok h ∧ ∀ P, h.cameraLookAt frame P = .error .ub := by
  let frame : String → Option Nat := fun n =>
    if n = "left_foot" then some 0 else if n = "right_foot" then some 1 else if n = "trunk" then some 2
    else if n = "head_base" then some 3 else if n = "head_pitch" then some 4 else none
  obtain ⟨h, hc⟩ := (C174_when Robot.plain frame (Robot.initial Robot.plain)).1.2 (by simp [HasFeet, frame])
  refine ⟨Robot.plain, frame, Robot.initial Robot.plain, h, plain_ok, inv_initial plain_ok, hc, fun P => ?_⟩
  exact ((C174_camera Robot.plain plain_ok frame _ (inv_initial plain_ok) h hc (fun _ _ _ _ => rfl) [] P).2.1).2
    ⟨by simp [frame], Or.inr (by simp [frame])⟩

/-! ## The support -/

/-- **C174, support frame.** After the construction and any calls, whatever was raised, the support frame is the one last asked for. -/
theorem C174_frame (m : KinModel) (frame : String → Option Nat) (ops : List BipedOp) : ∀ h : Biped,
    (bipedRun m frame h ops).hr.supportFrame =
      (lastAsked frame h.leftFoot h.rightFoot (h.supportSide, h.hr.supportFrame) ops).2 := by
  have key : ∀ (h : Biped) (s : Side) (f : Nat), (h.updateSide s f).hr.supportFrame = f := by
    intro h s f
    show (h.hr.updateSupport f).supportFrame = f
    unfold HR.updateSupport
    by_cases hf : f = h.hr.supportFrame
    · rw [if_neg (by simp [hf]), hf]
    · rw [if_pos hf]
  have gen : ∀ (ops : List BipedOp) (h : Biped) (s : Side), (bipedRun m frame h ops).hr.supportFrame =
      (lastAsked frame h.leftFoot h.rightFoot (s, h.hr.supportFrame) ops).2 := by
    intro ops
    induction ops with
    | nil => exact fun h s => rfl
    | cons op ops ih =>
      intro h s
      obtain ⟨-, k1, k2⟩ := step_keeps m frame h op
      rw [bipedRun, lastAsked]
      cases hk : op.asks frame h.leftFoot h.rightFoot with
      | none =>
        rw [ih _ s, k1, k2]
        have : (h.step m frame op).1.hr.supportFrame = h.hr.supportFrame := by
          cases op with
          | side s => cases s <;> cases hk
          | sideName n => cases hk
          | sideFrame s f => cases hk
          | names n f =>
            have hf : frame f = none := by
              dsimp only [BipedOp.asks] at hk
              exact Option.map_eq_none_iff.1 hk
            simp only [Biped.step, frameNamed, hf]
          | onFloor => rfl
          | oriented R => rfl
          | move rw => rfl
        rw [this]; rfl
      | some a =>
        obtain ⟨sa, fa⟩ := a
        rw [ih _ sa, k1, k2]
        have : (h.step m frame op).1.hr.supportFrame = fa := by
          cases op with
          | side s =>
            cases s <;> (cases hk; exact key _ _ _)
          | sideName n =>
            dsimp only [BipedOp.asks] at hk
            show (h.updateSide (stringToSide n) _).hr.supportFrame = fa
            rw [key]
            unfold stringToSide
            by_cases hn : n = "right"
            · rw [if_pos hn] at hk
              cases hk
              rw [if_pos hn]; rfl
            · rw [if_neg hn] at hk
              cases hk
              rw [if_neg hn]; rfl
          | sideFrame s f => cases hk; exact key _ _ _
          | names n f =>
            dsimp only [BipedOp.asks] at hk
            cases hf : frame f with
            | none => rw [hf] at hk; cases hk
            | some i =>
              rw [hf] at hk
              cases hk
              simp only [Biped.step, frameNamed, hf]
              exact key _ _ _
          | onFloor => cases hk
          | oriented R => cases hk
          | move rw => cases hk
        rw [this]; rfl
  exact fun h => gen ops h h.supportSide

/-- **C174, what is true of the side**: when no frame is named, after the construction and any calls, the support side and the support
frame are the side last asked for and its foot ("right" is the right side, any other name the left one). Missing for the full C174: with
frames, the side is kept when the frame does not change (`C174_side_refuted`). -/
theorem C174_partial (m : KinModel) (frame : String → Option Nat) (ops : List BipedOp) (hs : ∀ op ∈ ops, op.SideOnly) : ∀ h : Biped,
    h.leftFoot ≠ h.rightFoot → h.hr.supportFrame = (if h.supportSide = .left then h.leftFoot else h.rightFoot) →
    (bipedRun m frame h ops).supportSide = (lastAsked frame h.leftFoot h.rightFoot (h.supportSide, h.hr.supportFrame) ops).1 ∧
    (bipedRun m frame h ops).hr.supportFrame =
      if (bipedRun m frame h ops).supportSide = .left then h.leftFoot else h.rightFoot := by
  have key : ∀ (h : Biped) (s : Side), h.leftFoot ≠ h.rightFoot →
      h.hr.supportFrame = (if h.supportSide = .left then h.leftFoot else h.rightFoot) →
      (h.updateSide s (if s = .left then h.leftFoot else h.rightFoot)).supportSide = s ∧
      (h.updateSide s (if s = .left then h.leftFoot else h.rightFoot)).hr.supportFrame =
        (if s = .left then h.leftFoot else h.rightFoot) := by
    intro h s hne hf
    constructor
    · show (if _ ≠ h.hr.supportFrame then s else h.supportSide) = s
      rw [hf]
      cases s <;> cases h.supportSide <;> simp [hne, Ne.symm hne]
    · generalize (if s = Side.left then h.leftFoot else h.rightFoot) = f
      show (h.hr.updateSupport f).supportFrame = f
      unfold HR.updateSupport
      by_cases hx : f = h.hr.supportFrame
      · rw [if_neg (by simp [hx]), hx]
      · rw [if_pos hx]
  induction ops with
  | nil => exact fun h _ hf => ⟨rfl, hf⟩
  | cons op ops ih =>
    intro h hne hf
    obtain ⟨-, k1, k2⟩ := step_keeps m frame h op
    have hso := hs op List.mem_cons_self
    have ih' := ih fun o ho => hs o (List.mem_cons_of_mem _ ho)
    have step : ∀ (a : Side × Nat), (op.asks frame h.leftFoot h.rightFoot).getD (h.supportSide, h.hr.supportFrame) = a →
        (h.step m frame op).1.supportSide = a.1 → (h.step m frame op).1.hr.supportFrame = a.2 →
        a.2 = (if a.1 = .left then h.leftFoot else h.rightFoot) →
        (bipedRun m frame h (op :: ops)).supportSide =
          (lastAsked frame h.leftFoot h.rightFoot (h.supportSide, h.hr.supportFrame) (op :: ops)).1 ∧
        (bipedRun m frame h (op :: ops)).hr.supportFrame =
          if (bipedRun m frame h (op :: ops)).supportSide = .left then h.leftFoot else h.rightFoot := by
      intro a ha e1 e2 e3
      have := ih' (h.step m frame op).1 (by rw [k1, k2]; exact hne) (by rw [e1, e2, k1, k2]; exact e3)
      rw [k1, k2, e1, e2] at this
      rw [bipedRun, lastAsked, ha]
      exact this
    cases op with
    | side s =>
      obtain ⟨e1, e2⟩ := key h s hne hf
      exact step (s, if s = .left then h.leftFoot else h.rightFoot) (by cases s <;> rfl) e1 e2 rfl
    | sideName n =>
      obtain ⟨e1, e2⟩ := key h (stringToSide n) hne hf
      refine step (stringToSide n, if stringToSide n = .left then h.leftFoot else h.rightFoot) ?_ e1 e2 rfl
      dsimp only [BipedOp.asks]
      by_cases hn : n = "right" <;> simp [stringToSide, hn]
    | sideFrame s f => exact hso.elim
    | names n f => exact hso.elim
    | onFloor => exact step _ rfl rfl rfl hf
    | oriented R => exact step _ rfl rfl rfl hf
    | move rw => exact step _ rfl rfl rfl hf

/-- **C174 is false (side)**: asking for the right side with the frame that is already the support leaves the left side. -/
theorem C174_side_refuted (m : KinModel) (frame : String → Option Nat) (h : Biped) (hs : h.supportSide = .left) :
    (h.step m frame (.sideFrame .right h.hr.supportFrame)) = (h, none) ∧
    (h.step m frame (.sideFrame .right h.hr.supportFrame)).1.supportSide ≠ .right := by
  have : h.step m frame (.sideFrame .right h.hr.supportFrame) = (h, none) := by
    unfold Biped.step Biped.updateSide HR.updateSupport
    simp
  rw [this]
  exact ⟨rfl, by rw [hs]; decide⟩

/-- **C174 is false (names)**: every name that is not "right" is the left side. -/
theorem C174_name_refuted (m : KinModel) (frame : String → Option Nat) (h : Biped) :
    h.step m frame (.sideName "Right") = h.step m frame (.side .left) := rfl

/-- The hypotheses are met: a robot whose feet are its base. -/
example : ∃ (frame : String → Option Nat) (h : Biped), HasFeet frame ∧ Biped.construct Robot.plain frame (Robot.initial Robot.plain) = .ok h ∧
    h.leftFoot ≠ h.rightFoot ∧ h.hr.supportFrame = (if h.supportSide = .left then h.leftFoot else h.rightFoot) := by
  let frame : String → Option Nat := fun n =>
    if n = "left_foot" then some 0 else if n = "right_foot" then some 1 else if n = "trunk" then some 2 else none
  have hF : HasFeet frame := by simp [HasFeet, frame]
  obtain ⟨h, hc⟩ := (C174_when Robot.plain frame (Robot.initial Robot.plain)).1.2 hF
  obtain ⟨b1, b2, -, b4, -, b6, -⟩ := C174_built Robot.plain plain_ok frame _ (inv_initial plain_ok) h hc (fun _ _ _ _ => rfl)
  refine ⟨frame, h, hF, hc, fun he => ?_, by rw [b6, b4]; rfl⟩
  have e1 : 0 = h.leftFoot := Option.some.inj b1
  have e2 : 1 = h.rightFoot := Option.some.inj b2
  omega

/-! ## C175: DCM and ZMP -/

/-- **C175.** For any motion of the centre of mass with a velocity and an acceleration, and any frequency that is not null: the DCM moves
away from the ZMP at a speed proportional to their distance, `d/dt dcm = omega (dcm - zmp)`. -/
theorem C175 (c : ℝ → V3) (v a : ℝ → Fin 2 → ℝ) (omega : ℝ) (hw : omega ≠ 0) (t : ℝ)
    (hc : ∀ i : Fin 2, HasDerivAt (fun s => c s (i.castLE (by omega))) (v t i) t) (hv : ∀ i, HasDerivAt (fun s => v s i) (a t i) t) (i : Fin 2) :
    HasDerivAt (fun s => humanoidDcm (c s) omega (v s) i)
      (omega * (humanoidDcm (c t) omega (v t) i - humanoidZmp (c t) omega (a t) i)) t := by
  have h := (hc i).add ((hv i).const_mul (1 / omega))
  have e1 : (fun s => humanoidDcm (c s) omega (v s) i) = fun s => c s (i.castLE (by omega)) + 1 / omega * v s i := by
    funext s
    fin_cases i <;> rfl
  have e2 : omega * (humanoidDcm (c t) omega (v t) i - humanoidZmp (c t) omega (a t) i) = v t i + 1 / omega * a t i := by
    have : humanoidDcm (c t) omega (v t) i - humanoidZmp (c t) omega (a t) i = 1 / omega * v t i + 1 / omega ^ 2 * a t i := by
      fin_cases i <;> simp [humanoidDcm, humanoidZmp]
    rw [this]
    field_simp
  rw [e1, e2]
  exact h

/-- **C175, balance.** The centre of mass goes towards the DCM, `d/dt com = omega (dcm - com)`, and the ZMP is under the centre of mass
exactly when it does not accelerate. -/
theorem C175_com (c : V3) (v a : Fin 2 → ℝ) (omega : ℝ) (hw : omega ≠ 0) :
    (∀ i : Fin 2, v i = omega * (humanoidDcm c omega v i - c (i.castLE (by omega)))) ∧
    ((∀ i : Fin 2, humanoidZmp c omega a i = c (i.castLE (by omega))) ↔ a = 0) := by
  constructor
  · intro i
    fin_cases i <;> simp [humanoidDcm] <;> field_simp
  · constructor
    · intro h
      funext i
      have := h i
      fin_cases i <;> simp [humanoidZmp] at this ⊢ <;> tauto
    · rintro rfl i
      fin_cases i <;> simp [humanoidZmp]

/-- A centre of mass that moves at constant speed. -/
example : ∀ i : Fin 2, HasDerivAt (fun s : ℝ => (![s, 2 * s, 1] : V3) (i.castLE (by omega))) ((![1, 2] : Fin 2 → ℝ) i) 0 := by
  intro i
  fin_cases i
  · exact hasDerivAt_id (0 : ℝ)
  · simpa using (hasDerivAt_id (0 : ℝ)).const_mul 2

end Verif.Humanoid
