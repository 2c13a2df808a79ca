/-
Property C216, the whole plan: with the feet and the trunk, a walk does not depend on where it is.
-/
import Verif.Humanoid.TranslateProps
import Verif.Humanoid.Queries
import Verif.Tools.CubicSplineProps

namespace Verif.Humanoid
open Verif.Problem Verif.Tools Verif.Robot Finset

/-! ## Specification -/

/-- The vector of the floor, in the space. -/
def floorVec (o : V2) : V3 := ![o.x, o.y, 0]

/-- The walk at another place: at all times the feet and the CoM are moved by `o`, all orientations and velocities are the same, and so are
the errors. -/
structure WalkMoved (o : V2) (tr tr' : Traj) : Prop where
  tStart : tr'.tStart = tr.tStart
  tEnd : tr'.tEnd = tr.tEnd
  foot : ∀ side t, ExRel (fun A B => B.linear = A.linear ∧ B.translation = A.translation + floorVec o) (tr.getTWorldFoot side t)
    (tr'.getTWorldFoot side t)
  footVelocity : ∀ side t, tr'.getVWorldFoot side t = tr.getVWorldFoot side t
  footYaw : ∀ side t, tr'.getYawWorldFoot side t = tr.getYawWorldFoot side t
  trunk : ∀ t, tr'.getRWorldTrunk t = tr.getRWorldTrunk t
  com : ∀ t, ExRel (fun a b => b = a + floorVec o) (tr.getPWorldCoM t) (tr'.getPWorldCoM t)
  comVelocity : ∀ t, tr'.getDWorldCoM 1 t = tr.getDWorldCoM 1 t
  comAcceleration : ∀ t, tr'.getDWorldCoM 2 t = tr.getDWorldCoM 2 t
  comJerk : ∀ t, tr'.getDWorldCoM 3 t = tr.getDWorldCoM 3 t
  flying : ∀ side t, tr'.isFlying side t = tr.isFlying side t
  remaining : ∀ t, tr'.remainingSupports t = tr.remainingSupports t

/-! ## Swing trajectories -/

/-- The spline between two points. -/
def twoPoints (t1 x1 d1 t2 x2 d2 : ℝ) : SplineSt ℝ := ⟨false, true, [⟨t1, x1, d1⟩, ⟨t2, x2, d2⟩], []⟩

theorem two_eval {t1 t2 : ℝ} (h : t1 < t2) (t : ℝ) (ty : ValueType) : ∃ u, ∀ x1 d1 x2 d2,
    ((twoPoints t1 x1 d1 t2 x2 d2).interpolation t ty).2 = .ok (evalSpline ⟨fit 0 x1 d1 (t2 - t1) x2 d2, t1, t2⟩ u ty) := by
  refine ⟨if t2 < (if t < t1 then t1 else t) then t2 else (if t < t1 then t1 else t), fun x1 d1 x2 d2 => ?_⟩
  have hb : t1 ≤ (if t2 < (if t < t1 then t1 else t) then t2 else (if t < t1 then t1 else t)) ∧
      (if t2 < (if t < t1 then t1 else t) then t2 else (if t < t1 then t1 else t)) ≤ t2 := by
    constructor <;> split_ifs <;> linarith
  simp only [SplineSt.interpolation, SplineSt.refresh, twoPoints, if_true, computeSplines, mkSpline, sub_self, lookup, List.head?_cons,
    List.getLast?_singleton, List.find?_cons, List.find?_nil]
  rw [decide_eq_true hb]

/-- Reading a spline that is moved by `c`. -/
def ReadMoved (c : ℝ) (s s' : SplineSt ℝ) : Prop :=
  ∀ t, ExRel (fun a b => b = a + c) (s.interpolation t .value).2 (s'.interpolation t .value).2 ∧
    (s'.interpolation t .speed).2 = (s.interpolation t .speed).2

theorem two_moved (c : ℝ) {t1 t2 : ℝ} (h : t1 < t2) (x1 d1 x2 d2 : ℝ) :
    ReadMoved c (twoPoints t1 x1 d1 t2 x2 d2) (twoPoints t1 (x1 + c) d1 t2 (x2 + c) d2) := by
  have hne : t2 - t1 ≠ 0 := sub_ne_zero.2 (ne_of_gt h)
  intro t
  obtain ⟨u, hu⟩ := two_eval h t .value
  obtain ⟨w, hw⟩ := two_eval h t .speed
  rw [hu, hu, hw, hw, fit_eq _ _ _ _ _ hne, fit_eq _ _ _ _ _ hne]
  have e1 : x1 + c - (x2 + c) = x1 - x2 := by ring
  have e2 : x2 + c - (x1 + c) = x2 - x1 := by ring
  rw [e1, e2]
  refine ⟨.ok ?_, ?_⟩
  · simp only [evalSpline, polyValue]
    ring
  · simp only [evalSpline, polyDiff]

theorem axis_moved (c : ℝ) (wrap : ℝ → ℝ) (t1 x1 d1 t2 x2 d2 : ℝ) :
    ExRel (ReadMoved c) ((⟨false, true, [⟨t1, x1, d1⟩], []⟩ : SplineSt ℝ).addPoint wrap t2 x2 d2)
      ((⟨false, true, [⟨t1, x1 + c, d1⟩], []⟩ : SplineSt ℝ).addPoint wrap t2 (x2 + c) d2) := by
  unfold SplineSt.addPoint
  simp only [List.getLast?_singleton]
  by_cases h : t2 ≤ t1
  · rw [if_pos h, if_pos h]
    exact .err _
  · rw [if_neg h, if_neg h]
    exact .ok (two_moved c (not_le.1 h) x1 d1 x2 d2)

/-- The swing trajectory at another place. -/
def SwingMoved (o : V2) (s s' : CubicSwing ℝ) : Prop :=
  ∀ t, ExRel (fun a b => b = a + floorVec o) (s.read t .value) (s'.read t .value) ∧ s'.read t .speed = s.read t .speed

theorem make_moved (o : V2) (wrap : ℝ → ℝ) (t d h rr : ℝ) (a b : V3) (e : ℝ) (v : V3) :
    ExRel (SwingMoved o) (CubicSwing.make wrap t d h rr a b e v) (CubicSwing.make wrap t d h rr (a + floorVec o) (b + floorVec o) e v) := by
  have hz : ∀ c : V3, (c + floorVec o) 2 = c 2 := fun c => by simp [floorVec]
  have hx : ∀ c : V3, (c + floorVec o) 0 = c 0 + o.x := fun c => by simp [floorVec]
  have hy : ∀ c : V3, (c + floorVec o) 1 = c 1 + o.y := fun c => by simp [floorVec]
  unfold CubicSwing.make
  dsimp only
  rw [hz, hz, hx, hx, hy, hy]
  refine ExRel.bind (R := fun s s' => s = ⟨false, true, [⟨t, a 0, v 0⟩], []⟩ ∧ s' = ⟨false, true, [⟨t, a 0 + o.x, v 0⟩], []⟩) (.ok ⟨rfl, rfl⟩) ?_
  rintro _ _ ⟨rfl, rfl⟩
  refine (axis_moved o.x wrap _ _ _ _ _ _).bind fun x x' hx => ?_
  refine ExRel.bind (R := fun s s' => s = ⟨false, true, [⟨t, a 1, v 1⟩], []⟩ ∧ s' = ⟨false, true, [⟨t, a 1 + o.y, v 1⟩], []⟩) (.ok ⟨rfl, rfl⟩) ?_
  rintro _ _ ⟨rfl, rfl⟩
  refine (axis_moved o.y wrap _ _ _ _ _ _).bind fun y y' hy => ?_
  refine (ExRel.refl (R := fun a b => a = b) (fun _ => rfl) _).bind fun z z' hz => ?_
  subst hz
  refine (ExRel.refl (R := fun a b => a = b) (fun _ => rfl) _).bind fun z z' hz => ?_
  subst hz
  refine (ExRel.refl (R := fun a b => a = b) (fun _ => rfl) _).bind fun z z' hz => ?_
  subst hz
  refine .ok fun t => ⟨?_, ?_⟩
  · unfold CubicSwing.read
    dsimp only
    refine (hx t).1.bind fun p p' hp => ?_
    refine (hy t).1.bind fun q q' hq => ?_
    refine (ExRel.refl (R := fun a b => a = b) (fun _ => rfl) _).bind fun r r' hr => ?_
    subst hp hq hr
    refine .ok ?_
    funext i
    fin_cases i <;> simp [floorVec]
  · unfold CubicSwing.read
    dsimp only
    rw [(hx t).2, (hy t).2]

/-! ## Trajectories -/

/-- The part at another place, without its swing trajectory. -/
structure WalkPart (o : V2) (p p' : Part) : Prop where
  tStart : p'.tStart = p.tStart
  tEnd : p'.tEnd = p.tEnd
  steps : p'.support.footsteps = p.support.footsteps.map (·.offset o)
  timeRatio : p'.support.timeRatio = p.support.timeRatio
  stamp : p'.support.tStart = p.support.tStart
  elapsed : p'.support.elapsedRatio = p.support.elapsedRatio
  start : p'.support.start = p.support.start
  isEnd : p'.support.isEnd = p.support.isEnd
  pos : ∀ t, ExRel (fun a b => b = V2.shift a o) (p.com.pos t) (p'.com.pos t)
  vel : ∀ t, p'.com.vel t = p.com.vel t
  acc : ∀ t, p'.com.acc t = p.com.acc t
  jerk : ∀ t, p'.com.jerk t = p.com.jerk t

/-- The swing trajectory of single supports. -/
def SglMoved (o : V2) (p p' : Part) : Prop := p.support.footsteps.length = 1 → SwingMoved o p.swing p'.swing

/-- The trajectory while the feet are planned: the parts before `i` are. -/
structure TrajMoved (o : V2) (n i : Nat) (tr tr' : Traj) : Prop where
  tStart : tr'.tStart = tr.tStart
  tEnd : tr'.tEnd = tr.tEnd
  length : tr.parts.length = n
  parts : List.Forall₂ (WalkPart o) tr.parts tr'.parts
  swings : ∀ j, j < i → ∀ p p', tr.parts[j]? = some p → tr'.parts[j]? = some p' → SglMoved o p p'
  comTargetZ : tr'.comTargetZ = tr.comTargetZ
  trunkPitch : tr'.trunkPitch = tr.trunkPitch
  trunkRoll : tr'.trunkRoll = tr.trunkRoll
  left : tr'.leftYaw = tr.leftYaw
  right : tr'.rightYaw = tr.rightYaw
  trunk : tr'.trunkYaw = tr.trunkYaw
  T : tr.T = Affine.one
  T' : tr'.T = Affine.one

theorem at_moved {α β : Type} {R : α → β → Prop} {l : List α} {l' : List β} (h : List.Forall₂ R l l') (i : Nat) :
    ExRel R (at' l i) (at' l' i) := by
  induction h generalizing i with
  | nil => exact .err _
  | cons h _ ih =>
    cases i with
    | zero => exact .ok h
    | succ i => exact ih i

theorem search_moved {o : V2} {l l' : List Part} (h : List.Forall₂ (WalkPart o) l l') (t : ℝ) (fuel : Nat) :
    ∀ low high, searchLoop l' t fuel low high = searchLoop l t fuel low high := by
  induction fuel with
  | zero => intro low high; rfl
  | succ fuel ih =>
    intro low high
    unfold searchLoop
    by_cases hl : low = high
    · rw [if_pos hl, if_pos hl]
    · rw [if_neg hl, if_neg hl]
      dsimp only
      have ha := at_moved h ((low + high) / 2)
      unfold at' at ha
      cases hx : l[(low + high) / 2]? with
      | none =>
        cases hx' : l'[(low + high) / 2]? with
        | none => rfl
        | some b => rw [hx, hx'] at ha; cases ha
      | some a =>
        cases hx' : l'[(low + high) / 2]? with
        | none => rw [hx, hx'] at ha; cases ha
        | some b =>
          rw [hx, hx'] at ha
          cases ha with
          | ok ha =>
            dsimp only
            rw [ha.tStart, ha.tEnd, ih, ih]

theorem findIndex_moved {o : V2} {l l' : List Part} (h : List.Forall₂ (WalkPart o) l l') (t : ℝ) : findIndex l' t = findIndex l t := by
  unfold findIndex
  rw [← h.length_eq, search_moved h]

theorem forall₂_and {α β : Type} {R S : α → β → Prop} {l : List α} {l' : List β} (h : List.Forall₂ R l l')
    (hs : ∀ (j : Nat) (a : α) (b : β), l[j]? = some a → l'[j]? = some b → S a b) : List.Forall₂ (fun a b => R a b ∧ S a b) l l' := by
  induction h with
  | nil => exact .nil
  | cons h _ ih => exact .cons ⟨h, hs 0 _ _ rfl rfl⟩ (ih fun j a b ha hb => hs (j + 1) a b ha hb)

theorem TrajMoved.done {o : V2} {n : Nat} {tr tr' : Traj} (h : TrajMoved o n n tr tr') :
    List.Forall₂ (fun p p' => WalkPart o p p' ∧ SglMoved o p p') tr.parts tr'.parts := by
  refine forall₂_and h.parts fun j a b ha hb => h.swings j ?_ a b ha hb
  rw [← h.length]
  exact (List.getElem?_eq_some_iff.1 ha).1

theorem find_moved {o : V2} {n : Nat} {tr tr' : Traj} (h : TrajMoved o n n tr tr') (t : ℝ) :
    ExRel (fun p p' => WalkPart o p p' ∧ SglMoved o p p') (findPart tr.parts t) (findPart tr'.parts t) := by
  unfold findPart
  rw [findIndex_moved h.parts]
  refine (ExRel.refl (R := fun a b => a = b) (fun _ => rfl) _).bind fun i i' hi => ?_
  subst hi
  exact at_moved h.done i

theorem WalkPart.sideEq {o : V2} {p p' : Part} (h : WalkPart o p p') : p'.support.side = p.support.side := by
  have := side_offset p.support o
  unfold Support.side Support.applyOffset at *
  dsimp only at this
  rw [h.steps]
  exact this

theorem WalkPart.bothEq {o : V2} {p p' : Part} (h : WalkPart o p p') : p'.support.isBoth = p.support.isBoth := by
  unfold Support.isBoth
  rw [h.steps, List.length_map]

theorem WalkPart.flyingEq {o : V2} {p p' : Part} (h : WalkPart o p p') (side : Side) : p'.isFlying side = p.isFlying side := by
  unfold Part.isFlying
  rw [h.bothEq, h.sideEq]

theorem side_single {s : Support} {x : Side} (h : s.side = .ok x) : s.footsteps.length = 1 := by
  unfold Support.side at h
  split at h
  · cases h
  · rename_i hl
    match hs : s.footsteps with
    | [] => rw [hs] at h; cases h
    | f :: fs => rw [hs] at hl; simp at hl; simp [hl]

theorem footstep_moved (s s' : Support) (o : V2) (h : s'.footsteps = s.footsteps.map (·.offset o)) (side : Side) :
    ExRel (fun A B => B.linear = A.linear ∧ B.translation = A.translation + floorVec o) (s.footstepFrame side) (s'.footstepFrame side) := by
  unfold Support.footstepFrame
  rw [h, List.find?_map]
  have he : ((fun f : Footstep => decide (f.side = side)) ∘ fun f : Footstep => f.offset o) = fun f : Footstep => decide (f.side = side) := rfl
  rw [he]
  cases s.footsteps.find? (fun f => decide (f.side = side)) with
  | none => exact .err _
  | some f =>
    refine .ok ⟨rfl, ?_⟩
    funext i
    fin_cases i <;> simp [Footstep.offset, floorVec]

theorem footPosition_moved {o : V2} {p p' : Part} (h : WalkPart o p p') (hs : SglMoved o p p') (side : Side) (t : ℝ) :
    ExRel (fun a b => b = a + floorVec o) (p.footPosition side t) (p'.footPosition side t) := by
  unfold Part.footPosition
  rw [h.flyingEq]
  cases hf : p.isFlying side with
  | error e => exact .err _
  | ok f =>
    cases f with
    | true =>
      have hl : p.support.footsteps.length = 1 := by
        unfold Part.isFlying at hf
        split at hf
        · cases hf
        · cases hx : p.support.side with
          | error e => rw [hx] at hf; cases hf
          | ok x => exact side_single hx
      exact (hs hl t).1
    | false =>
      show ExRel _ (p.support.footstepFrame side >>= fun f => .ok f.translation) (p'.support.footstepFrame side >>= fun f => .ok f.translation)
      exact (footstep_moved p.support p'.support o h.steps side).bind fun A B hAB => .ok hAB.2

theorem TrajMoved.yaw {o : V2} {n i : Nat} {tr tr' : Traj} (h : TrajMoved o n i tr tr') (side : Side) : tr'.footYaw side = tr.footYaw side := by
  cases side
  · exact h.left
  · exact h.right

theorem one_mul_frame (A : Affine) : Affine.one.mul A = A := by
  cases A
  simp [Affine.mul, Affine.one]

theorem one_linear (v : V3) : Affine.one.linear.mulVec v = v := by simp [Affine.one]

theorem TrajMoved.walk {o : V2} {n : Nat} {tr tr' : Traj} (h : TrajMoved o n n tr tr') : WalkMoved o tr tr' where
  tStart := h.tStart
  tEnd := h.tEnd
  foot side t := by
    unfold Traj.getTWorldFoot
    refine (find_moved h t).bind fun p p' hp => ?_
    refine (footPosition_moved hp.1 hp.2 side t).bind fun a b hab => ?_
    rw [h.yaw, h.T, h.T']
    refine (ExRel.refl (R := fun a b => a = b) (fun _ => rfl) _).bind fun y y' hy => ?_
    subst hy
    rw [one_mul_frame, one_mul_frame]
    exact .ok ⟨rfl, hab⟩
  footVelocity side t := by
    refine ExRel.eq ?_
    unfold Traj.getVWorldFoot
    refine (find_moved h t).bind fun p p' hp => ?_
    rw [hp.1.sideEq]
    cases hs : p.support.side with
    | error e => exact .err _
    | ok s =>
      have := (hp.2 (side_single hs) t).2
      rw [this, h.T, h.T']
      exact ExRel.refl (R := fun a b => b = a) (fun _ => rfl) _
  footYaw side t := by
    unfold Traj.getYawWorldFoot
    rw [h.yaw, h.T, h.T']
  trunk t := by
    unfold Traj.getRWorldTrunk
    rw [h.trunk, h.T, h.T', h.trunkPitch, h.trunkRoll]
  com t := by
    unfold Traj.getPWorldCoM
    refine (find_moved h t).bind fun p p' hp => ?_
    refine (hp.1.pos t).bind fun a b hab => ?_
    rw [h.T, h.T', h.comTargetZ, hab]
    refine .ok ?_
    unfold Affine.apply
    rw [one_linear, one_linear]
    funext i
    fin_cases i <;> simp [floorVec, V2.shift, Affine.one]
  comVelocity t := by
    refine ExRel.eq ?_
    unfold Traj.getDWorldCoM
    refine (find_moved h t).bind fun p p' hp => ?_
    rw [show p'.com.component t 1 = p.com.component t 1 from hp.1.vel t, h.T, h.T']
    exact ExRel.refl (R := fun a b => b = a) (fun _ => rfl) _
  comAcceleration t := by
    refine ExRel.eq ?_
    unfold Traj.getDWorldCoM
    refine (find_moved h t).bind fun p p' hp => ?_
    rw [show p'.com.component t 2 = p.com.component t 2 from hp.1.acc t, h.T, h.T']
    exact ExRel.refl (R := fun a b => b = a) (fun _ => rfl) _
  comJerk t := by
    refine ExRel.eq ?_
    unfold Traj.getDWorldCoM
    refine (find_moved h t).bind fun p p' hp => ?_
    rw [show p'.com.component t 3 = p.com.component t 3 from hp.1.jerk t, h.T, h.T']
    exact ExRel.refl (R := fun a b => b = a) (fun _ => rfl) _
  flying side t := by
    refine ExRel.eq ?_
    unfold Traj.isFlying
    refine (find_moved h t).bind fun p p' hp => ?_
    rw [hp.1.flyingEq]
    exact ExRel.refl (R := fun a b => b = a) (fun _ => rfl) _
  remaining t := by
    unfold Traj.remainingSupports
    rw [findIndex_moved h.parts, h.parts.length_eq]

/-! ## The feet -/

theorem addYaw_moved {o : V2} {n i : Nat} {tr tr' : Traj} (h : TrajMoved o n i tr tr') (side : Side) (t yaw speed : ℝ) :
    ExRel (TrajMoved o n i) (tr.addYaw side t yaw speed) (tr'.addYaw side t yaw speed) := by
  unfold Traj.addYaw
  rw [h.yaw]
  refine (ExRel.refl (R := fun a b => a = b) (fun _ => rfl) _).bind fun s s' hs => ?_
  subst hs
  cases side
  · exact .ok { h with left := rfl }
  · exact .ok { h with right := rfl }

theorem addTrunk_moved {o : V2} {n i : Nat} {tr tr' : Traj} (h : TrajMoved o n i tr tr') (t yaw speed : ℝ) :
    ExRel (TrajMoved o n i) (tr.addTrunkYaw t yaw speed) (tr'.addTrunkYaw t yaw speed) := by
  unfold Traj.addTrunkYaw
  rw [h.trunk]
  refine (ExRel.refl (R := fun a b => a = b) (fun _ => rfl) _).bind fun s s' hs => ?_
  subst hs
  exact .ok { h with trunk := rfl }

theorem addSupports_moved {o : V2} {n i : Nat} (t : ℝ) (fs : List Footstep) : ∀ {tr tr' : Traj}, TrajMoved o n i tr tr' →
    ExRel (TrajMoved o n i) (tr.addSupports t fs) (tr'.addSupports t (fs.map (·.offset o))) := by
  induction fs with
  | nil => intro tr tr' h; exact .ok h
  | cons f fs ih =>
    intro tr tr' h
    rw [List.map_cons]
    unfold Traj.addSupports
    exact (addYaw_moved h _ _ _ _).bind fun a b hab => ih hab

theorem supportFrame_moved (g : Wpg) {o : V2} {s s' : Support} (h : s'.footsteps = s.footsteps.map (·.offset o)) :
    ExRel (FrameMoved o) (s.frame g.slerp) (s'.frame g.slerp) := by
  have := frame_moved g.slerp o s
  unfold Support.frame Support.applyOffset at *
  dsimp only at this
  rw [h]
  exact this

theorem planDbl_moved (g : Wpg) {o : V2} {n i : Nat} {tr tr' : Traj} (h : TrajMoved o n i tr tr') (k : Nat) :
    ExRel (TrajMoved o n i) (g.planDbl tr k) (g.planDbl tr' k) := by
  unfold Wpg.planDbl
  refine (at_moved h.parts k).bind fun p p' hp => ?_
  rw [hp.steps, hp.tEnd]
  refine (addSupports_moved p.tEnd _ h).bind fun a b hab => ?_
  refine (supportFrame_moved g hp.steps).bind fun f f' hf => ?_
  rw [hf.linear]
  exact addTrunk_moved hab _ _ _

/-- Two trajectories whose feet are planned. -/
def OldMoved (o : V2) (old old' : Traj) : Prop := ∃ m, TrajMoved o m m old old'

theorem planSwing_moved (g : Wpg) {o : V2} {n : Nat} {old old' : Option Traj} (ho : Option.Rel (OldMoved o) old old') {tr tr' : Traj} (i : Nat)
    (h : TrajMoved o n i tr tr') {p p' : Part} (hp : WalkPart o p p') (flying : Side) (target : V3) :
    ExRel (fun a b => TrajMoved o n i a.1 b.1 ∧ SwingMoved o a.2 b.2)
      (g.planSwing tr i p flying target old) (g.planSwing tr' i p' flying (target + floorVec o) old') := by
  have hv : g.p.supportDuration p'.support * p'.support.timeRatio = g.p.supportDuration p.support * p.support.timeRatio := by
    unfold Params.supportDuration
    rw [hp.bothEq, hp.start, hp.isEnd, hp.timeRatio]
  unfold Wpg.planSwing
  dsimp only
  rw [hv, hp.tStart, hp.elapsed]
  cases i with
  | zero =>
    cases ho with
    | none => exact .err _
    | some ho =>
      obtain ⟨m, ho⟩ := ho
      have hw := ho.walk
      dsimp only
      rw [h.tStart, hw.footVelocity, hw.footYaw, ho.yaw]
      refine (hw.foot flying tr.tStart).bind fun s s' hs => ?_
      refine (ExRel.refl (R := fun a b => a = b) (fun _ => rfl) _).bind fun v v' hv => ?_
      subst hv
      rw [hs.2]
      refine (make_moved o _ _ _ _ _ _ _ _ _).bind fun sw sw' hsw => ?_
      refine (ExRel.refl (R := fun a b => a = b) (fun _ => rfl) _).bind fun y y' hy => ?_
      refine (ExRel.refl (R := fun a b => a = b) (fun _ => rfl) _).bind fun z z' hz => ?_
      subst hy hz
      exact (addYaw_moved h _ _ _ _).bind fun a b hab => .ok ⟨hab, hsw⟩
  | succ i =>
    dsimp only
    refine (at_moved h.parts i).bind fun q q' hq => ?_
    refine (footstep_moved q.support q'.support o hq.steps flying).bind fun s s' hs => ?_
    rw [hs.2]
    exact (make_moved o _ _ _ _ _ _ _ _ _).bind fun sw sw' hsw => .ok ⟨h, hsw⟩

theorem set_moved {α β : Type} {R : α → β → Prop} {l : List α} {l' : List β} (h : List.Forall₂ R l l') {a : α} {b : β} (hab : R a b) (i : Nat) :
    List.Forall₂ R (l.set i a) (l'.set i b) := by
  induction h generalizing i with
  | nil => exact .nil
  | cons h ht ih =>
    cases i with
    | zero => exact .cons hab ht
    | succ i => exact .cons h (ih i)

theorem planSgl_moved (g : Wpg) {o : V2} {n : Nat} {old old' : Option Traj} (ho : Option.Rel (OldMoved o) old old') {tr tr' : Traj} (i : Nat) (h : TrajMoved o n i tr tr') :
    ExRel (TrajMoved o n (i + 1)) (g.planSgl tr i old) (g.planSgl tr' i old') := by
  unfold Wpg.planSgl
  refine (at_moved h.parts i).bind fun p p' hp => ?_
  rw [hp.steps]
  refine (at_moved (R := fun f f' => f' = f.offset o) (l := p.support.footsteps) ?_ 0).bind fun f f' hf => ?_
  · rw [List.forall₂_map_right_iff]
    exact List.forall₂_same.2 fun _ _ => rfl
  have hside : f'.side = f.side := by rw [hf]; rfl
  dsimp only
  rw [hside]
  refine (at_moved h.parts (i + 1)).bind fun q q' hq => ?_
  refine (footstep_moved q.support q'.support o hq.steps _).bind fun T T' hT => ?_
  rw [hT.1, hT.2]
  refine (planSwing_moved g ho i h hp _ _).bind fun r r' hr => ?_
  have hpart : WalkPart o { p with swing := r.2 } { p' with tEnd := p.tEnd, swing := r'.2 } :=
    ⟨hp.tStart, rfl, hp.steps, hp.timeRatio, hp.stamp, hp.elapsed, hp.start, hp.isEnd, hp.pos, hp.vel, hp.acc, hp.jerk⟩
  have hset : TrajMoved o n (i + 1) { r.1 with parts := r.1.parts.set i { p with swing := r.2 } }
      { r'.1 with parts := r'.1.parts.set i { p' with tEnd := p.tEnd, swing := r'.2 } } := by
    refine { hr.1 with length := ?_, parts := ?_, swings := ?_ }
    · show (r.1.parts.set i _).length = n
      rw [List.length_set, hr.1.length]
    · exact set_moved hr.1.parts hpart i
    · intro j hj a b ha hb
      dsimp only at ha hb
      rw [List.getElem?_set] at ha hb
      by_cases hij : i = j
      · rw [if_pos hij] at ha hb
        split at ha
        · split at hb
          · cases ha
            cases hb
            exact fun _ => hr.2
          · cases hb
        · cases ha
      · rw [if_neg hij] at ha hb
        exact hr.1.swings j (by omega) a b ha hb
  rw [hp.tEnd]
  refine (addYaw_moved hset _ _ _ _).bind fun a b hab => ?_
  have ht : ExRel (TrajMoved o n (i + 1)) (g.planTrunk a p.tEnd (frameYaw T.linear)) (g.planTrunk b p.tEnd (frameYaw T.linear)) := by
    unfold Wpg.planTrunk
    split
    · exact .ok hab
    · exact addTrunk_moved hab _ _ _
  exact ht.bind fun a b hab => addSupports_moved _ _ hab

theorem planPart_moved (g : Wpg) {o : V2} {n : Nat} {old old' : Option Traj} (ho : Option.Rel (OldMoved o) old old') {tr tr' : Traj} (i : Nat) (h : TrajMoved o n i tr tr') :
    ExRel (TrajMoved o n (i + 1)) (g.planPart old tr i) (g.planPart old' tr' i) := by
  unfold Wpg.planPart
  have hat := at_moved h.parts i
  cases ha : tr.parts[i]? with
  | none =>
    have e1 : at' tr.parts i = .error .ub := by unfold at'; rw [ha]
    rw [e1] at hat ⊢
    generalize at' tr'.parts i = r at hat
    cases hat
    exact .err _
  | some p =>
    have e1 : at' tr.parts i = .ok p := by unfold at'; rw [ha]
    rw [e1] at hat ⊢
    generalize at' tr'.parts i = r at hat
    cases hat with
    | ok hp =>
      rename_i p'
      show ExRel _ (if p.support.footsteps.length = 1 then g.planSgl tr i old else g.planDbl tr i)
        (if p'.support.footsteps.length = 1 then g.planSgl tr' i old' else g.planDbl tr' i)
      rw [hp.steps, List.length_map]
      by_cases hl : p.support.footsteps.length = 1
      · rw [if_pos hl, if_pos hl]
        exact planSgl_moved g ho i h
      · rw [if_neg hl, if_neg hl]
        refine planDbl_moved g { h with swings := ?_ } i
        intro j hj a b ha' hb'
        by_cases hji : j = i
        · subst hji
          rw [ha] at ha'
          cases ha'
          exact fun h1 => absurd h1 hl
        · exact h.swings j (by omega) a b ha' hb'

theorem planPartsLoop_moved (g : Wpg) {o : V2} {n : Nat} {old old' : Option Traj} (ho : Option.Rel (OldMoved o) old old') (count : Nat) :
    ∀ (i : Nat) {tr tr' : Traj}, TrajMoved o n i tr tr' →
      ExRel (TrajMoved o n (i + count)) (g.planPartsLoop old count i tr) (g.planPartsLoop old' count i tr') := by
  induction count with
  | zero => intro i tr tr' h; exact .ok h
  | succ count ih =>
    intro i tr tr' h
    unfold Wpg.planPartsLoop
    refine (planPart_moved g ho i h).bind fun a b hab => ?_
    have := ih (i + 1) hab
    rw [show i + 1 + count = i + (count + 1) by omega] at this
    exact this

theorem planFeet_moved (g : Wpg) {o : V2} {n : Nat} {old old' : Option Traj} (ho : Option.Rel (OldMoved o) old old') {tr tr' : Traj} (h : TrajMoved o n 0 tr tr') :
    ExRel (TrajMoved o n n) (g.planFeet tr old) (g.planFeet tr' old') := by
  unfold Wpg.planFeet
  refine (at_moved h.parts 0).bind fun p p' hp => ?_
  rw [hp.steps, h.tStart]
  refine (addSupports_moved _ _ h).bind fun a b hab => ?_
  have ht : ExRel (TrajMoved o n 0) (g.planTrunkStart a p old) (g.planTrunkStart b p' old') := by
    cases ho with
    | none =>
      unfold Wpg.planTrunkStart
      refine (supportFrame_moved g hp.steps).bind fun f f' hf => ?_
      rw [hf.linear, hab.tStart]
      exact addTrunk_moved hab _ _ _
    | some ho =>
      obtain ⟨m, ho⟩ := ho
      unfold Wpg.planTrunkStart Traj.getYawWorldTrunk
      dsimp only
      rw [hab.tStart, ho.trunk, ho.T, ho.T']
      refine (ExRel.refl (R := fun a b => a = b) (fun _ => rfl) _).bind fun y y' hy => ?_
      refine (ExRel.refl (R := fun a b => a = b) (fun _ => rfl) _).bind fun z z' hz => ?_
      subst hy hz
      exact addTrunk_moved hab _ _ _
  refine ht.bind fun a b hab => ?_
  rw [← hab.parts.length_eq, hab.length]
  have := planPartsLoop_moved g ho n 0 hab
  rw [Nat.zero_add] at this
  exact this

/-! ## C216 -/

theorem start_moved (g : Wpg) {o : V2} {parts parts' : List Part} (h : List.Forall₂ (PartMoved o) parts parts') (t0 : ℝ) {te te' : ℝ} (ht : te' = te) :
    TrajMoved o parts.length 0
      { tStart := t0, tEnd := te, parts := parts, comTargetZ := g.p.walkComHeight, trunkPitch := g.p.walkTrunkPitch, trunkRoll := 0 }
      { tStart := t0, tEnd := te', parts := parts', comTargetZ := g.p.walkComHeight, trunkPitch := g.p.walkTrunkPitch, trunkRoll := 0 } := by
  refine ⟨rfl, ht, rfl, ?_, fun j hj => absurd hj (by omega), rfl, rfl, rfl, rfl, rfl, rfl, rfl, rfl⟩
  refine h.imp fun p p' hp => ⟨hp.tStart, hp.tEnd, ?_, ?_, ?_, ?_, ?_, ?_, hp.pos, hp.vel, hp.acc, hp.jerk⟩ <;> rw [hp.support] <;> rfl

theorem plan_moved (g : Wpg) (hh : HullMoves g.hull) (ss : List Support) (hs : ∀ s ∈ ss, UpToDate g.hull s) (com : V3) (t0 : ℝ) (o : V2) :
    ExRel (OldMoved o) (g.plan ss com t0) (g.plan (ss.map (·.applyOffset o)) (com + floorVec o) t0) := by
  unfold Wpg.plan
  rw [List.length_map]
  by_cases hl : ss.length = 0
  · rw [if_pos hl, if_pos hl]
    exact .err _
  · rw [if_neg hl, if_neg hl]
    have hc : (⟨⟨(com + floorVec o) 0, (com + floorVec o) 1⟩, ⟨0, 0⟩, ⟨0, 0⟩⟩ : ComState) =
        { (⟨⟨com 0, com 1⟩, ⟨0, 0⟩, ⟨0, 0⟩⟩ : ComState) with pos := V2.shift ⟨com 0, com 1⟩ o } := by
      simp [floorVec, V2.shift]
    rw [hc]
    refine (C216 g hh t0 ss hs ⟨⟨com 0, com 1⟩, ⟨0, 0⟩, ⟨0, 0⟩⟩ o).bind fun a b hab => ?_
    match a, b, hab with
    | none, none, _ => exact .err _
    | some (parts, te), some (parts', te'), h =>
      exact (planFeet_moved g (old := none) (old' := none) .none (start_moved g h.1 t0 h.2)).mono fun _ _ h => ⟨_, h⟩

/-- The whole walk at another place is the same walk at this place: `plan` raises the same errors in the same cases, and otherwise at all
times the feet and the CoM are moved, with the same orientations and velocities. -/
theorem C216_walk (g : Wpg) (hh : HullMoves g.hull) (ss : List Support) (hs : ∀ s ∈ ss, UpToDate g.hull s) (com : V3) (t0 : ℝ) (o : V2) :
    ExRel (WalkMoved o) (g.plan ss com t0) (g.plan (ss.map (·.applyOffset o)) (com + floorVec o) t0) :=
  (plan_moved g hh ss hs com t0 o).mono fun _ _ h => h.choose_spec.walk

/-! ## Walks that are planned again -/

theorem trimPart_moved (g : Wpg) {o : V2} {old old' : Traj} (ht : old'.tStart = old.tStart) (t : ℝ) {p p' : Part}
    (hp : WalkPart o p p' ∧ SglMoved o p p') :
    List.Forall₂ (fun p p' => WalkPart o p p' ∧ SglMoved o p p') (g.trimPart old t p) (g.trimPart old' t p') := by
  have hv : g.p.supportDuration p'.support * p'.support.timeRatio = g.p.supportDuration p.support * p.support.timeRatio := by
    unfold Params.supportDuration
    rw [hp.1.bothEq, hp.1.start, hp.1.isEnd, hp.1.timeRatio]
  unfold Wpg.trimPart
  dsimp only
  rw [hv, ht, hp.1.stamp, hp.1.tStart, hp.1.tEnd]
  split
  · split
    · refine .cons ⟨⟨rfl, rfl, hp.1.steps, hp.1.timeRatio, rfl, ?_, hp.1.start, hp.1.isEnd, hp.1.pos, hp.1.vel, hp.1.acc, hp.1.jerk⟩, hp.2⟩ .nil
      dsimp only
      rw [hp.1.elapsed]
    · exact .nil
  · exact .cons hp .nil

theorem trim_moved (g : Wpg) {o : V2} {old old' : Traj} (ho : OldMoved o old old') (t : ℝ) : OldMoved o (g.trim old t) (g.trim old' t) := by
  obtain ⟨m, ho⟩ := ho
  have hf : List.Forall₂ (fun p p' => WalkPart o p p' ∧ SglMoved o p p') (old.parts.map (g.trimPart old t)).flatten
      (old'.parts.map (g.trimPart old' t)).flatten := by
    have h := ho.done
    generalize old.parts = l at h
    generalize old'.parts = l' at h
    induction h with
    | nil => exact .nil
    | cons hp _ ih =>
      rw [List.map_cons, List.map_cons, List.flatten_cons, List.flatten_cons]
      exact List.rel_append (trimPart_moved g ho.tStart t hp) ih
  refine ⟨(g.trim old t).parts.length, { ho with tStart := rfl, length := rfl, parts := ?_, swings := ?_ }⟩
  · exact hf.imp fun _ _ h => h.1
  · intro j _ a b ha hb
    have := at_moved hf j
    unfold at' at this
    rw [show (old.parts.map (g.trimPart old t)).flatten[j]? = some a from ha,
      show (old'.parts.map (g.trimPart old' t)).flatten[j]? = some b from hb] at this
    cases this with
    | ok h => exact h.2

theorem replan_moved (g : Wpg) (hh : HullMoves g.hull) (ss : List Support) (hs : ∀ s ∈ ss, UpToDate g.hull s) (o : V2) {old old' : Traj}
    (ho : OldMoved o old old') (t : ℝ) : ExRel (OldMoved o) (g.replan ss old t) (g.replan (ss.map (·.applyOffset o)) old' t) := by
  unfold Wpg.replan
  rw [List.length_map]
  by_cases hl : ss.length = 0
  · rw [if_pos hl, if_pos hl]
    exact .err _
  · rw [if_neg hl, if_neg hl]
    have hw := ho.choose_spec.walk
    rw [hw.comVelocity, hw.comAcceleration]
    refine (hw.com t).bind fun p p' hp => ?_
    refine (ExRel.refl (R := fun a b => a = b) (fun _ => rfl) _).bind fun v v' hv => ?_
    refine (ExRel.refl (R := fun a b => a = b) (fun _ => rfl) _).bind fun a a' ha => ?_
    subst hv ha
    have hc : (⟨⟨p' 0, p' 1⟩, ⟨v 0, v 1⟩, ⟨a 0, a 1⟩⟩ : ComState) =
        { (⟨⟨p 0, p 1⟩, ⟨v 0, v 1⟩, ⟨a 0, a 1⟩⟩ : ComState) with pos := V2.shift ⟨p 0, p 1⟩ o } := by
      rw [hp]
      simp [floorVec, V2.shift]
    rw [hc]
    refine (C216 g hh t ss hs ⟨⟨p 0, p 1⟩, ⟨v 0, v 1⟩, ⟨a 0, a 1⟩⟩ o).bind fun a b hab => ?_
    match a, b, hab with
    | none, none, _ => exact .ok (trim_moved g ho t)
    | some (parts, te), some (parts', te'), h =>
      exact (planFeet_moved g (old := some old) (old' := some old') (.some ho) (start_moved g h.1 t h.2)).mono fun _ _ h => ⟨_, h⟩

/-- A program that plans a walk again any number of times, with any supports and at any times. The caller. -/
noncomputable def planAgain (g : Wpg) : List (List Support × ℝ) → Traj → Except Err Traj
  | [], tr => .ok tr
  | c :: cs, tr => do
    let tr ← g.replan c.1 tr c.2
    planAgain g cs tr

/-- Whole programs: a walk that is planned, and planned again any number of times (even if some of the plans fail and the old trajectory is
trimmed), is the same at another place. -/
theorem C216_session (g : Wpg) (hh : HullMoves g.hull) (ss : List Support) (hs : ∀ s ∈ ss, UpToDate g.hull s) (com : V3) (t0 : ℝ) (o : V2)
    (calls : List (List Support × ℝ)) (hc : ∀ c ∈ calls, ∀ s ∈ c.1, UpToDate g.hull s) :
    ExRel (WalkMoved o) (g.plan ss com t0 >>= planAgain g calls)
      (g.plan (ss.map (·.applyOffset o)) (com + floorVec o) t0 >>= planAgain g (calls.map fun c => (c.1.map (·.applyOffset o), c.2))) := by
  refine (plan_moved g hh ss hs com t0 o).bind fun tr tr' h => ?_
  refine ExRel.mono (R := OldMoved o) (fun _ _ h => h.choose_spec.walk) ?_
  induction calls generalizing tr tr' with
  | nil => exact .ok h
  | cons c cs ih =>
    rw [List.map_cons]
    unfold planAgain
    refine (replan_moved g hh c.1 (hc c (by simp)) o h c.2).bind fun a b hab => ?_
    exact ih (fun c hm => hc c (by simp [hm])) a b hab

end Verif.Humanoid
