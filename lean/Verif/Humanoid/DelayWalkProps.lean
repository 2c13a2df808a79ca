/-
Property C217, the whole plan: with the feet and the trunk, a walk does not depend on when it is.
-/
import Verif.Humanoid.DelayProps
import Verif.Humanoid.Queries

namespace Verif.Humanoid
open Verif.Problem Verif.Tools Verif.Robot Finset

/-! ## Specification -/

/-- The walk that is `τ` later: at all times, the feet (poses and velocities), the trunk, the CoM and its derivatives, and the number of
remaining supports are those of `τ` before, errors included. -/
structure WalkLater (τ : ℝ) (tr tr' : Traj) : Prop where
  tStart : tr'.tStart = tr.tStart + τ
  tEnd : tr'.tEnd = tr.tEnd + τ
  foot : ∀ side t, tr'.getTWorldFoot side (t + τ) = tr.getTWorldFoot side t
  footVelocity : ∀ side t, tr'.getVWorldFoot side (t + τ) = tr.getVWorldFoot side t
  footYaw : ∀ side t, tr'.getYawWorldFoot side (t + τ) = tr.getYawWorldFoot side t
  trunk : ∀ t, tr'.getRWorldTrunk (t + τ) = tr.getRWorldTrunk t
  com : ∀ t, tr'.getPWorldCoM (t + τ) = tr.getPWorldCoM t
  comDerivative : ∀ d t, tr'.getDWorldCoM d (t + τ) = tr.getDWorldCoM d t
  flying : ∀ side t, tr'.isFlying side (t + τ) = tr.isFlying side t
  remaining : ∀ t, tr'.remainingSupports (t + τ) = tr.remainingSupports t
  partStart : ∀ t, ExRel (fun a b => b = a + τ) (tr.getPartTStart t) (tr'.getPartTStart (t + τ))
  partEnd : ∀ t, ExRel (fun a b => b = a + τ) (tr.getPartTEnd t) (tr'.getPartTEnd (t + τ))

/-! ## Splines -/

/-- The point of a spline that is later. -/
def laterPoint (τ : ℝ) (p : SPoint ℝ) : SPoint ℝ := { p with t := p.t + τ }

/-- The piece of a spline that is later. -/
def laterPiece (τ : ℝ) (p : Spline ℝ) : Spline ℝ := { p with tStart := p.tStart + τ, tEnd := p.tEnd + τ }

/-- The spline that is later. -/
def laterSpline (τ : ℝ) (s : SplineSt ℝ) : SplineSt ℝ :=
  { s with points := s.points.map (laterPoint τ), splines := s.splines.map (laterPiece τ) }

theorem computeSplines_later (τ : ℝ) : ∀ l : List (SPoint ℝ), computeSplines (l.map (laterPoint τ)) = (computeSplines l).map (laterPiece τ)
  | [] => rfl
  | [_] => rfl
  | p :: q :: l => by
    have ih := computeSplines_later τ (q :: l)
    rw [List.map_cons] at ih
    rw [List.map_cons, List.map_cons]
    unfold computeSplines
    rw [List.map_cons, ih]
    congr 1
    unfold mkSpline laterPoint laterPiece
    dsimp only
    rw [add_sub_add_right_eq_sub, add_sub_add_right_eq_sub]

theorem eval_later (τ : ℝ) (sp : Spline ℝ) (t : ℝ) (ty : ValueType) : evalSpline (laterPiece τ sp) (t + τ) ty = evalSpline sp t ty := by
  cases ty <;> simp [evalSpline, laterPiece]

theorem find_later (τ : ℝ) (t : ℝ) (l : List (Spline ℝ)) :
    (l.map (laterPiece τ)).find? (fun sp => decide (sp.tStart ≤ t + τ ∧ t + τ ≤ sp.tEnd)) =
      (l.find? (fun sp => decide (sp.tStart ≤ t ∧ t ≤ sp.tEnd))).map (laterPiece τ) := by
  rw [List.find?_map]
  congr 2
  funext sp
  simp [laterPiece]

theorem lookup_later (τ : ℝ) (points : List (SPoint ℝ)) (splines : List (Spline ℝ)) (t : ℝ) (ty : ValueType) :
    lookup (points.map (laterPoint τ)) (splines.map (laterPiece τ)) (t + τ) ty = lookup points splines t ty := by
  match points with
  | [] => rfl
  | [p] => cases ty <;> rfl
  | _ :: _ :: _ =>
    rw [List.map_cons, List.map_cons]
    unfold lookup
    dsimp only
    rw [List.head?_map, List.getLast?_map]
    cases splines.head? with
    | none => rfl
    | some front =>
      cases splines.getLast? with
      | none => rfl
      | some back =>
        simp only [Option.map_some]
        have h1 : (if t + τ < (laterPiece τ front).tStart then (laterPiece τ front).tStart else t + τ) =
            (if t < front.tStart then front.tStart else t) + τ := by
          simp only [laterPiece, add_lt_add_iff_right]
          split <;> rfl
        rw [h1]
        generalize (if t < front.tStart then front.tStart else t) = u
        have h2 : (if (laterPiece τ back).tEnd < u + τ then (laterPiece τ back).tEnd else u + τ) =
            (if back.tEnd < u then back.tEnd else u) + τ := by
          simp only [laterPiece, add_lt_add_iff_right]
          split <;> rfl
        rw [h2]
        generalize (if back.tEnd < u then back.tEnd else u) = v
        rw [find_later]
        cases splines.find? (fun sp => decide (sp.tStart ≤ v ∧ v ≤ sp.tEnd)) with
        | none => rfl
        | some sp => simp only [Option.map_some]; rw [eval_later]

theorem interpolation_later (τ : ℝ) (s : SplineSt ℝ) (t : ℝ) (ty : ValueType) :
    ((laterSpline τ s).interpolation (t + τ) ty).2 = (s.interpolation t ty).2 := by
  unfold SplineSt.interpolation SplineSt.refresh
  dsimp only
  by_cases hd : s.dirty = true
  · have hd' : (laterSpline τ s).dirty = true := hd
    rw [if_pos hd, if_pos hd']
    show lookup (s.points.map (laterPoint τ)) (computeSplines (s.points.map (laterPoint τ))) (t + τ) ty = _
    rw [computeSplines_later, lookup_later]
  · have hd' : ¬ (laterSpline τ s).dirty = true := hd
    rw [if_neg hd, if_neg hd']
    exact lookup_later τ s.points s.splines t ty

theorem addPoint_later (τ : ℝ) (wrap : ℝ → ℝ) (s : SplineSt ℝ) (t x dx : ℝ) :
    ExRel (fun a b => b = laterSpline τ a) (s.addPoint wrap t x dx) ((laterSpline τ s).addPoint wrap (t + τ) x dx) := by
  unfold SplineSt.addPoint
  have hl : (laterSpline τ s).points.getLast? = s.points.getLast?.map (laterPoint τ) := List.getLast?_map
  rw [hl]
  cases s.points.getLast? with
  | none => exact .ok (by simp [laterSpline, laterPoint])
  | some last =>
    simp only [Option.map_some]
    by_cases ht : t ≤ last.t
    · have ht' : t + τ ≤ (laterPoint τ last).t := by simpa [laterPoint] using ht
      rw [if_pos ht, if_pos ht']
      exact .err _
    · have ht' : ¬ t + τ ≤ (laterPoint τ last).t := by simpa [laterPoint] using ht
      rw [if_neg ht, if_neg ht']
      refine .ok ?_
      simp only [laterSpline, laterPoint, List.map_append, List.map_cons, List.map_nil]
      rfl

/-! ## Swing trajectories -/

/-- The swing trajectory that is later. -/
def laterSwing (τ : ℝ) (s : CubicSwing ℝ) : CubicSwing ℝ := ⟨laterSpline τ s.x, laterSpline τ s.y, laterSpline τ s.z⟩

theorem read_later (τ : ℝ) (s : CubicSwing ℝ) (t : ℝ) (ty : ValueType) : (laterSwing τ s).read (t + τ) ty = s.read t ty := by
  unfold CubicSwing.read laterSwing
  dsimp only
  rw [interpolation_later, interpolation_later, interpolation_later]

theorem addPlateau_later (τ : ℝ) (wrap : ℝ → ℝ) (tStart height : ℝ) (ts : List ℝ) : ∀ s : SplineSt ℝ,
    ExRel (fun a b => b = laterSpline τ a) (addPlateau wrap tStart height ts s)
      (addPlateau wrap (tStart + τ) height (ts.map (· + τ)) (laterSpline τ s)) := by
  induction ts with
  | nil => intro s; exact .ok rfl
  | cons t ts ih =>
    intro s
    rw [List.map_cons]
    unfold addPlateau
    by_cases ht : tStart < t
    · have ht' : tStart + τ < t + τ := by linarith
      rw [if_pos ht, if_pos ht']
      have h := addPoint_later τ wrap s t height 0
      generalize s.addPoint wrap t height 0 = r at h
      generalize (laterSpline τ s).addPoint wrap (t + τ) height 0 = r' at h
      cases h with
      | err e => exact .err e
      | ok h => subst h; exact ih _
    · have ht' : ¬ tStart + τ < t + τ := by linarith
      rw [if_neg ht, if_neg ht']
      exact ih s

theorem init_later (τ : ℝ) (a : Bool) : SplineSt.init a = laterSpline τ (SplineSt.init a) := rfl

theorem make_later (τ : ℝ) (wrap : ℝ → ℝ) (t d h rr : ℝ) (a b : Fin 3 → ℝ) (e : ℝ) (v : Fin 3 → ℝ) :
    ExRel (fun a b => b = laterSwing τ a) (CubicSwing.make wrap t d h rr a b e v) (CubicSwing.make wrap (t + τ) d h rr a b e v) := by
  have hp : plateauTimes (t + τ) d rr e = (plateauTimes t d rr e).map (· + τ) := by
    unfold plateauTimes
    dsimp only
    split
    · simp only [List.map_cons, List.map_nil]
      congr 1
      · ring
      · congr 1; ring
    · simp only [List.map_cons, List.map_nil]
      congr 1; ring
  unfold CubicSwing.make
  dsimp only
  rw [hp, show t + τ + (1 - e) * d = t + (1 - e) * d + τ by ring]
  refine (addPoint_later τ wrap (SplineSt.init false) _ _ _).bind fun x x' hx => ?_
  subst hx
  refine (addPoint_later τ wrap _ _ _ _).bind fun x x' hx => ?_
  subst hx
  refine (addPoint_later τ wrap (SplineSt.init false) _ _ _).bind fun y y' hy => ?_
  subst hy
  refine (addPoint_later τ wrap _ _ _ _).bind fun y y' hy => ?_
  subst hy
  refine (addPoint_later τ wrap (SplineSt.init false) _ _ _).bind fun z z' hz => ?_
  subst hz
  refine (addPlateau_later τ wrap _ _ _ _).bind fun z z' hz => ?_
  subst hz
  refine (addPoint_later τ wrap _ _ _ _).bind fun z z' hz => ?_
  subst hz
  exact .ok rfl

/-! ## Trajectories -/

/-- The part, with its swing trajectory, and with the start time of its support if `P`. -/
structure FullLater (τ : ℝ) (P : Prop) (p p' : Part) : Prop where
  tStart : p'.tStart = p.tStart + τ
  tEnd : p'.tEnd = p.tEnd + τ
  swing : p'.swing = laterSwing τ p.swing
  support : SameButTime p.support p'.support
  com : ∀ t k, p'.com.component (t + τ) k = p.com.component t k
  stamp : P → StampsLater τ p p'

/-- The trajectory. -/
structure TrajLater (τ : ℝ) (P : Prop) (tr tr' : Traj) : Prop where
  tStart : tr'.tStart = tr.tStart + τ
  tEnd : tr'.tEnd = tr.tEnd + τ
  parts : List.Forall₂ (FullLater τ P) tr.parts tr'.parts
  comTargetZ : tr'.comTargetZ = tr.comTargetZ
  trunkPitch : tr'.trunkPitch = tr.trunkPitch
  trunkRoll : tr'.trunkRoll = tr.trunkRoll
  left : tr'.leftYaw = laterSpline τ tr.leftYaw
  right : tr'.rightYaw = laterSpline τ tr.rightYaw
  trunk : tr'.trunkYaw = laterSpline τ tr.trunkYaw
  T : tr'.T = tr.T

variable {P : Prop}

theorem at_later {α β : Type} {R : α → β → Prop} {l : List α} {l' : List β} (h : List.Forall₂ R l l') (i : Nat) :
    ExRel R (at' l i) (at' l' i) := by
  induction h generalizing i with
  | nil => exact .err _
  | cons h _ ih =>
    cases i with
    | zero => exact .ok h
    | succ i => exact ih i

theorem search_later {τ : ℝ} {l l' : List Part} (h : List.Forall₂ (FullLater τ P) l l') (t : ℝ) (fuel : Nat) :
    ∀ low high, searchLoop l' (t + τ) fuel low high = searchLoop l t fuel low high := by
  induction fuel with
  | zero => intro low high; rfl
  | succ fuel ih =>
    intro low high
    unfold searchLoop
    by_cases hl : low = high
    · rw [if_pos hl, if_pos hl]
    · rw [if_neg hl, if_neg hl]
      dsimp only
      have ha := at_later h ((low + high) / 2)
      unfold at' at ha
      cases hx : l[(low + high) / 2]? with
      | none =>
        cases hx' : l'[(low + high) / 2]? with
        | none => rfl
        | some b => rw [hx, hx'] at ha; cases ha
      | some a =>
        cases hx' : l'[(low + high) / 2]? with
        | none => rw [hx, hx'] at ha; cases ha
        | some b =>
          rw [hx, hx'] at ha
          cases ha with
          | ok ha =>
            dsimp only
            rw [ha.tStart, ha.tEnd, ih, ih]
            simp only [add_lt_add_iff_right]

theorem findIndex_later {τ : ℝ} {l l' : List Part} (h : List.Forall₂ (FullLater τ P) l l') (t : ℝ) :
    findIndex l' (t + τ) = findIndex l t := by
  unfold findIndex
  rw [← h.length_eq, search_later h]

theorem findPart_later {τ : ℝ} {l l' : List Part} (h : List.Forall₂ (FullLater τ P) l l') (t : ℝ) :
    ExRel (FullLater τ P) (findPart l t) (findPart l' (t + τ)) := by
  unfold findPart
  rw [findIndex_later h]
  refine (ExRel.refl (R := fun a b => a = b) (fun _ => rfl) _).bind fun i i' hi => ?_
  subst hi
  exact at_later h i

theorem FullLater.steps {τ : ℝ} {p p' : Part} (h : FullLater τ P p p') : p'.support.footsteps = p.support.footsteps := by rw [h.support]

theorem FullLater.flying {τ : ℝ} {p p' : Part} (h : FullLater τ P p p') (side : Side) : p'.isFlying side = p.isFlying side := by
  unfold Part.isFlying Support.isBoth Support.side
  rw [h.steps]

theorem FullLater.footPos {τ : ℝ} {p p' : Part} (h : FullLater τ P p p') (side : Side) (t : ℝ) :
    p'.footPosition side (t + τ) = p.footPosition side t := by
  unfold Part.footPosition Support.footstepFrame
  rw [h.flying, h.steps, h.swing, read_later]

theorem TrajLater.yaw {τ : ℝ} {tr tr' : Traj} (h : TrajLater τ P tr tr') (side : Side) : tr'.footYaw side = laterSpline τ (tr.footYaw side) := by
  cases side
  · exact h.left
  · exact h.right

theorem TrajLater.walk {τ : ℝ} {tr tr' : Traj} (h : TrajLater τ P tr tr') : WalkLater τ tr tr' where
  tStart := h.tStart
  tEnd := h.tEnd
  foot side t := by
    refine ExRel.eq ?_
    unfold Traj.getTWorldFoot
    refine (findPart_later h.parts t).bind fun p p' hp => ?_
    rw [hp.footPos, h.yaw, interpolation_later, h.T]
    exact ExRel.refl (R := fun a b => b = a) (fun _ => rfl) _
  footVelocity side t := by
    refine ExRel.eq ?_
    unfold Traj.getVWorldFoot
    refine (findPart_later h.parts t).bind fun p p' hp => ?_
    unfold Support.side
    rw [hp.steps, h.T, hp.swing, read_later]
    exact ExRel.refl (R := fun a b => b = a) (fun _ => rfl) _
  footYaw side t := by
    unfold Traj.getYawWorldFoot
    rw [h.yaw, interpolation_later, h.T]
  trunk t := by
    unfold Traj.getRWorldTrunk
    rw [h.trunk, interpolation_later, h.T, h.trunkPitch, h.trunkRoll]
  com t := by
    refine ExRel.eq ?_
    unfold Traj.getPWorldCoM
    refine (findPart_later h.parts t).bind fun p p' hp => ?_
    unfold LTraj.pos
    rw [hp.com, h.T, h.comTargetZ]
    exact ExRel.refl (R := fun a b => b = a) (fun _ => rfl) _
  comDerivative d t := by
    refine ExRel.eq ?_
    unfold Traj.getDWorldCoM
    refine (findPart_later h.parts t).bind fun p p' hp => ?_
    rw [hp.com, h.T]
    exact ExRel.refl (R := fun a b => b = a) (fun _ => rfl) _
  flying side t := by
    refine ExRel.eq ?_
    unfold Traj.isFlying
    refine (findPart_later h.parts t).bind fun p p' hp => ?_
    rw [hp.flying]
    exact ExRel.refl (R := fun a b => b = a) (fun _ => rfl) _
  remaining t := by
    unfold Traj.remainingSupports
    rw [findIndex_later h.parts, h.parts.length_eq]
  partStart t := by
    unfold Traj.getPartTStart
    exact (findPart_later h.parts t).bind fun p p' hp => .ok hp.tStart
  partEnd t := by
    unfold Traj.getPartTEnd
    exact (findPart_later h.parts t).bind fun p p' hp => .ok hp.tEnd

/-! ## The feet -/

theorem addYaw_later {τ : ℝ} {tr tr' : Traj} (h : TrajLater τ P tr tr') (side : Side) (t yaw speed : ℝ) :
    ExRel (TrajLater τ P) (tr.addYaw side t yaw speed) (tr'.addYaw side (t + τ) yaw speed) := by
  unfold Traj.addYaw
  rw [h.yaw]
  refine (addPoint_later τ _ _ _ _ _).bind fun s s' hs => ?_
  subst hs
  cases side
  · exact .ok { h with left := rfl }
  · exact .ok { h with right := rfl }

theorem addTrunk_later {τ : ℝ} {tr tr' : Traj} (h : TrajLater τ P tr tr') (t yaw speed : ℝ) :
    ExRel (TrajLater τ P) (tr.addTrunkYaw t yaw speed) (tr'.addTrunkYaw (t + τ) yaw speed) := by
  unfold Traj.addTrunkYaw
  rw [h.trunk]
  refine (addPoint_later τ _ _ _ _ _).bind fun s s' hs => ?_
  subst hs
  exact .ok { h with trunk := rfl }

theorem addSupports_later {τ : ℝ} (t : ℝ) (fs : List Footstep) : ∀ {tr tr' : Traj}, TrajLater τ P tr tr' →
    ExRel (TrajLater τ P) (tr.addSupports t fs) (tr'.addSupports (t + τ) fs) := by
  induction fs with
  | nil => intro tr tr' h; exact .ok h
  | cons f fs ih =>
    intro tr tr' h
    unfold Traj.addSupports
    exact (addYaw_later h _ _ _ _).bind fun a b hab => ih hab

theorem planDbl_later (g : Wpg) {τ : ℝ} {tr tr' : Traj} (h : TrajLater τ P tr tr') (i : Nat) :
    ExRel (TrajLater τ P) (g.planDbl tr i) (g.planDbl tr' i) := by
  unfold Wpg.planDbl
  refine (at_later h.parts i).bind fun p p' hp => ?_
  unfold Support.frame
  rw [hp.steps, hp.tEnd]
  refine (addSupports_later p.tEnd _ h).bind fun a b hab => ?_
  refine (ExRel.refl (R := fun a b => a = b) (fun _ => rfl) _).bind fun f f' hf => ?_
  subst hf
  exact addTrunk_later hab _ _ _

theorem planSwing_later (g : Wpg) {τ : ℝ} {tr tr' : Traj} (h : TrajLater τ P tr tr') (i : Nat) {p p' : Part} (hp : FullLater τ P p p')
    (flying : Side) (target : V3) {old old' : Option Traj} (ho : Option.Rel (TrajLater τ P) old old') :
    ExRel (fun a b => TrajLater τ P a.1 b.1 ∧ b.2 = laterSwing τ a.2) (g.planSwing tr i p flying target old)
      (g.planSwing tr' i p' flying target old') := by
  have hv : g.p.supportDuration p'.support * p'.support.timeRatio = g.p.supportDuration p.support * p.support.timeRatio := by
    rw [hp.support]; rfl
  have he : p'.support.elapsedRatio = p.support.elapsedRatio := by rw [hp.support]
  unfold Wpg.planSwing
  dsimp only
  rw [hv, he, hp.tStart]
  cases i with
  | zero =>
    cases ho with
    | none => exact .err _
    | some ho =>
      dsimp only
      have hw := ho.walk
      rw [h.tStart, hw.foot, hw.footVelocity, hw.footYaw, ho.yaw, interpolation_later]
      refine (ExRel.refl (R := fun a b => a = b) (fun _ => rfl) _).bind fun s s' hs => ?_
      refine (ExRel.refl (R := fun a b => a = b) (fun _ => rfl) _).bind fun v v' hv => ?_
      subst hs hv
      refine (make_later τ _ _ _ _ _ _ _ _ _).bind fun sw sw' hsw => ?_
      refine (ExRel.refl (R := fun a b => a = b) (fun _ => rfl) _).bind fun y y' hy => ?_
      refine (ExRel.refl (R := fun a b => a = b) (fun _ => rfl) _).bind fun z z' hz => ?_
      subst hy hz
      exact (addYaw_later h _ _ _ _).bind fun a b hab => .ok ⟨hab, hsw⟩
  | succ i =>
    dsimp only
    refine (at_later h.parts i).bind fun q q' hq => ?_
    unfold Support.footstepFrame
    rw [hq.steps]
    refine (ExRel.refl (R := fun a b => a = b) (fun _ => rfl) _).bind fun s s' hs => ?_
    subst hs
    exact (make_later τ _ _ _ _ _ _ _ _ _).bind fun sw sw' hsw => .ok ⟨h, hsw⟩

theorem set_later {α β : Type} {R : α → β → Prop} {l : List α} {l' : List β} (h : List.Forall₂ R l l') {a : α} {b : β} (hab : R a b) (i : Nat) :
    List.Forall₂ R (l.set i a) (l'.set i b) := by
  induction h generalizing i with
  | nil => exact .nil
  | cons h ht ih =>
    cases i with
    | zero => exact .cons hab ht
    | succ i => exact .cons h (ih i)

theorem planSgl_later (g : Wpg) {τ : ℝ} {tr tr' : Traj} (h : TrajLater τ P tr tr') (i : Nat)
    {old old' : Option Traj} (ho : Option.Rel (TrajLater τ P) old old') :
    ExRel (TrajLater τ P) (g.planSgl tr i old) (g.planSgl tr' i old') := by
  unfold Wpg.planSgl
  refine (at_later h.parts i).bind fun p p' hp => ?_
  rw [hp.steps]
  refine (ExRel.refl (R := fun a b => a = b) (fun _ => rfl) _).bind fun f f' hf => ?_
  subst hf
  dsimp only
  refine (at_later h.parts (i + 1)).bind fun q q' hq => ?_
  unfold Support.footstepFrame
  rw [hq.steps]
  refine (ExRel.refl (R := fun a b => a = b) (fun _ => rfl) _).bind fun T T' hT => ?_
  subst hT
  refine (planSwing_later g h i hp _ _ ho).bind fun r r' hr => ?_
  have hpart : FullLater τ P { p with swing := r.2 } { p' with tEnd := p.tEnd + τ, swing := r'.2 } :=
    ⟨hp.tStart, rfl, hr.2, hp.support, hp.com, hp.stamp⟩
  have hset : TrajLater τ P { r.1 with parts := r.1.parts.set i { p with swing := r.2 } }
      { r'.1 with parts := r'.1.parts.set i { p' with tEnd := p.tEnd + τ, swing := r'.2 } } :=
    { hr.1 with parts := set_later hr.1.parts hpart i }
  rw [hp.tEnd]
  refine (addYaw_later hset _ _ _ _).bind fun a b hab => ?_
  have ht : ExRel (TrajLater τ P) (g.planTrunk a p.tEnd (frameYaw T.linear)) (g.planTrunk b (p.tEnd + τ) (frameYaw T.linear)) := by
    unfold Wpg.planTrunk
    split
    · exact .ok hab
    · exact addTrunk_later hab _ _ _
  exact ht.bind fun a b hab => addSupports_later _ _ hab

theorem planPart_later (g : Wpg) {τ : ℝ} {old old' : Option Traj} (ho : Option.Rel (TrajLater τ P) old old') {tr tr' : Traj}
    (h : TrajLater τ P tr tr') (i : Nat) : ExRel (TrajLater τ P) (g.planPart old tr i) (g.planPart old' tr' i) := by
  unfold Wpg.planPart
  refine (at_later h.parts i).bind fun p p' hp => ?_
  rw [hp.steps]
  split
  · exact planSgl_later g h i ho
  · exact planDbl_later g h i

theorem planPartsLoop_later (g : Wpg) {τ : ℝ} {old old' : Option Traj} (ho : Option.Rel (TrajLater τ P) old old') (count : Nat) :
    ∀ (i : Nat) {tr tr' : Traj}, TrajLater τ P tr tr' → ExRel (TrajLater τ P) (g.planPartsLoop old count i tr) (g.planPartsLoop old' count i tr') := by
  induction count with
  | zero => intro i tr tr' h; exact .ok h
  | succ count ih =>
    intro i tr tr' h
    unfold Wpg.planPartsLoop
    exact (planPart_later g ho h i).bind fun a b hab => ih (i + 1) hab

theorem planFeet_later (g : Wpg) {τ : ℝ} {old old' : Option Traj} (ho : Option.Rel (TrajLater τ P) old old') {tr tr' : Traj}
    (h : TrajLater τ P tr tr') : ExRel (TrajLater τ P) (g.planFeet tr old) (g.planFeet tr' old') := by
  unfold Wpg.planFeet
  refine (at_later h.parts 0).bind fun p p' hp => ?_
  rw [hp.steps, h.tStart]
  refine (addSupports_later _ _ h).bind fun a b hab => ?_
  have ht : ExRel (TrajLater τ P) (g.planTrunkStart a p old) (g.planTrunkStart b p' old') := by
    cases ho with
    | none =>
      unfold Wpg.planTrunkStart Support.frame
      rw [hp.steps, hab.tStart]
      refine (ExRel.refl (R := fun a b => a = b) (fun _ => rfl) _).bind fun f f' hf => ?_
      subst hf
      exact addTrunk_later hab _ _ _
    | some ho =>
      unfold Wpg.planTrunkStart Traj.getYawWorldTrunk
      dsimp only
      rw [hab.tStart, ho.trunk, interpolation_later, interpolation_later, ho.T]
      refine (ExRel.refl (R := fun a b => a = b) (fun _ => rfl) _).bind fun y y' hy => ?_
      refine (ExRel.refl (R := fun a b => a = b) (fun _ => rfl) _).bind fun z z' hz => ?_
      subst hy hz
      exact addTrunk_later hab _ _ _
  refine ht.bind fun a b hab => ?_
  rw [← hab.parts.length_eq]
  exact planPartsLoop_later g ho _ 0 hab

/-! ## C217 -/

theorem attach_swing (g : Wpg) (sol : Nat → ℝ) (p : Planned) (a : Part) (h : g.attach sol p = .ok a) : a.swing = emptySwing := by
  unfold Wpg.attach at h
  dsimp only at h
  cases hd : (p.lipm.getTrajectory sol).dcm p.tEnd g.omega with
  | error e => simp [hd, bind, Except.bind] at h
  | ok x =>
    simp [hd, bind, Except.bind] at h
    rw [← h]

theorem mapM_swing (g : Wpg) (sol : Nat → ℝ) (l : List Planned) : ∀ parts, l.mapM (g.attach sol) = .ok parts → ∀ p ∈ parts, p.swing = emptySwing := by
  induction l with
  | nil => intro parts h; cases h; simp
  | cons a l ih =>
    intro parts h p hp
    rw [List.mapM_cons] at h
    cases ha : g.attach sol a with
    | error e => simp [ha, bind, Except.bind] at h
    | ok b =>
      cases hl : l.mapM (g.attach sol) with
      | error e => simp [ha, hl, bind, Except.bind] at h
      | ok bs =>
        simp [ha, hl, bind, Except.bind, pure, Except.pure] at h
        subst h
        rcases List.mem_cons.1 hp with rfl | hp
        · exact attach_swing g sol a _ ha
        · exact ih bs hl p hp

theorem planCom_swing (g : Wpg) (t0 : ℝ) (ss : List Support) (init : ComState) (parts : List Part) (te : ℝ)
    (h : g.planCom t0 ss init = .ok (some (parts, te))) : ∀ p ∈ parts, p.swing = emptySwing := by
  unfold Wpg.planCom at h
  cases hl : g.planLoop t0 init ss t0 0 none with
  | error e => simp [hl, bind, Except.bind] at h
  | ok r =>
    simp only [hl, bind, Except.bind] at h
    split at h
    · cases h
    · cases h
    · rename_i sol _
      cases hm : r.1.mapM (g.attach sol) with
      | error e => simp [hm] at h
      | ok ps =>
        simp [hm] at h
        rw [← h.1]
        exact mapM_swing g sol _ ps hm

/-- The parts of two plans of CoMs. -/
theorem parts_later {τ : ℝ} {parts parts' : List Part} (h : List.Forall₂ (fun p p' => PartLater τ p p' ∧ (P → StampsLater τ p p')) parts parts')
    (hs : ∀ p ∈ parts, p.swing = emptySwing) : List.Forall₂ (FullLater τ P) parts parts' := by
  induction h with
  | nil => exact .nil
  | cons hp _ ih =>
    refine .cons ⟨hp.1.tStart, hp.1.tEnd, ?_, ?_, hp.1.com, hp.2⟩ (ih fun p hp => hs p (by simp [hp]))
    · rw [hp.1.swing, hs _ (by simp)]
      rfl
    · rename_i a b _ _ _
      exact congrArg (fun s : Support => { s with tStart := b.support.tStart }) hp.1.support

theorem planCom_full (g : Wpg) (t0 τ : ℝ) (ss : List Support) (hs : P → ∀ s ∈ ss, s.tStart ≠ -1 → s.tStart + τ ≠ -1) (init : ComState) :
    ExRel (PlanLater (FullLater τ P) τ) (g.planCom t0 ss init) (g.planCom (t0 + τ) (ss.map (later τ)) init) := by
  have h : ExRel (PlanLater (fun p p' => PartLater τ p p' ∧ (P → StampsLater τ p p')) τ) (g.planCom t0 ss init)
      (g.planCom (t0 + τ) (ss.map (later τ)) init) := by
    by_cases hP : P
    · refine (C217_partial g t0 τ ss (hs hP) init).mono fun a b hab => ?_
      match a, b, hab with
      | none, none, _ => trivial
      | some _, some _, hab => exact ⟨hab.1.imp fun _ _ h => ⟨h.1, fun _ => h.2⟩, hab.2⟩
    · refine (C217 g t0 τ ss init).mono fun a b hab => ?_
      match a, b, hab with
      | none, none, _ => trivial
      | some _, some _, hab => exact ⟨hab.1.imp fun _ _ h => ⟨h, fun hp => absurd hp hP⟩, hab.2⟩
  have hsw := planCom_swing g t0 ss init
  generalize g.planCom t0 ss init = r at h hsw
  generalize g.planCom (t0 + τ) (ss.map (later τ)) init = r' at h
  cases h with
  | err e => exact .err e
  | ok h =>
    rename_i a b
    match a, b, h with
    | none, none, _ => exact .ok trivial
    | some (parts, te), some (parts', te'), h => exact .ok ⟨parts_later h.1 (hsw parts te rfl), h.2⟩

theorem plan_later (g : Wpg) (ss : List Support) (com : V3) (t0 τ : ℝ) (hs : P → ∀ s ∈ ss, s.tStart ≠ -1 → s.tStart + τ ≠ -1) :
    ExRel (TrajLater τ P) (g.plan ss com t0) (g.plan (ss.map (later τ)) com (t0 + τ)) := by
  unfold Wpg.plan
  rw [List.length_map]
  by_cases hl : ss.length = 0
  · rw [if_pos hl, if_pos hl]
    exact .err _
  · rw [if_neg hl, if_neg hl]
    refine (planCom_full g t0 τ ss hs _).bind fun a b hab => ?_
    match a, b, hab with
    | none, none, _ => exact .err _
    | some (parts, te), some (parts', te'), h =>
      exact planFeet_later g (old := none) (old' := none) .none ⟨rfl, h.2, h.1, rfl, rfl, rfl, rfl, rfl, rfl, rfl⟩

/-- The whole walk planned `τ` later is the same walk `τ` later: `plan` raises the same errors in the same cases, and otherwise at all times
the feet, the trunk and the CoM are where they were `τ` before. -/
theorem C217_walk (g : Wpg) (ss : List Support) (com : V3) (t0 τ : ℝ) :
    ExRel (WalkLater τ) (g.plan ss com t0) (g.plan (ss.map (later τ)) com (t0 + τ)) :=
  (plan_later (P := False) g ss com t0 τ fun h => h.elim).mono fun _ _ h => h.walk

/-! ## Walks that are planned again -/

theorem trimPart_later (g : Wpg) {τ : ℝ} {old old' : Traj} (ho : TrajLater τ True old old') (t : ℝ) {p p' : Part} (hp : FullLater τ True p p') :
    List.Forall₂ (FullLater τ True) (g.trimPart old t p) (g.trimPart old' (t + τ) p') := by
  have hv : g.p.supportDuration p'.support * p'.support.timeRatio = g.p.supportDuration p.support * p.support.timeRatio := by
    rw [hp.support]; rfl
  have he : p'.support.elapsedRatio = p.support.elapsedRatio := by rw [hp.support]
  have hm : t + τ - max old'.tStart p'.support.tStart = t - max old.tStart p.support.tStart := by
    rw [ho.tStart, show p'.support.tStart = _ from hp.stamp trivial, max_add_add_right]
    ring
  unfold Wpg.trimPart
  dsimp only
  rw [hv, he, hm]
  by_cases h1 : p.tStart ≤ t
  · have h1' : p'.tStart ≤ t + τ := by rw [hp.tStart]; linarith
    rw [if_pos h1, if_pos h1']
    by_cases h2 : t < p.tEnd
    · have h2' : t + τ < p'.tEnd := by rw [hp.tEnd]; linarith
      rw [if_pos h2, if_pos h2']
      refine .cons ⟨rfl, hp.tEnd, hp.swing, ?_, hp.com, hp.stamp⟩ .nil
      unfold SameButTime
      dsimp only
      conv_lhs => rw [hp.support]
    · have h2' : ¬ t + τ < p'.tEnd := by rw [hp.tEnd]; linarith
      rw [if_neg h2, if_neg h2']
      exact .nil
  · have h1' : ¬ p'.tStart ≤ t + τ := by rw [hp.tStart]; linarith
    rw [if_neg h1, if_neg h1']
    exact .cons hp .nil

theorem trim_later (g : Wpg) {τ : ℝ} {old old' : Traj} (ho : TrajLater τ True old old') (t : ℝ) :
    TrajLater τ True (g.trim old t) (g.trim old' (t + τ)) := by
  refine { ho with tStart := rfl, parts := ?_ }
  show List.Forall₂ _ (old.parts.map (g.trimPart old t)).flatten (old'.parts.map (g.trimPart old' (t + τ))).flatten
  have h := ho.parts
  generalize old.parts = l at h
  generalize old'.parts = l' at h
  induction h with
  | nil => exact .nil
  | cons hp _ ih =>
    rw [List.map_cons, List.map_cons, List.flatten_cons, List.flatten_cons]
    exact List.rel_append (trimPart_later g ho t hp) ih

theorem replan_later (g : Wpg) (ss : List Support) {τ : ℝ} {old old' : Traj} (ho : TrajLater τ True old old') (t : ℝ)
    (hs : ∀ s ∈ ss, s.tStart ≠ -1 → s.tStart + τ ≠ -1) :
    ExRel (TrajLater τ True) (g.replan ss old t) (g.replan (ss.map (later τ)) old' (t + τ)) := by
  unfold Wpg.replan
  rw [List.length_map]
  by_cases hl : ss.length = 0
  · rw [if_pos hl, if_pos hl]
    exact .err _
  · rw [if_neg hl, if_neg hl]
    have hw := ho.walk
    rw [hw.com, hw.comDerivative, hw.comDerivative]
    refine (ExRel.refl (R := fun a b => a = b) (fun _ => rfl) _).bind fun p p' hp => ?_
    refine (ExRel.refl (R := fun a b => a = b) (fun _ => rfl) _).bind fun v v' hv => ?_
    refine (ExRel.refl (R := fun a b => a = b) (fun _ => rfl) _).bind fun a a' ha => ?_
    subst hp hv ha
    refine (planCom_full (P := True) g t τ ss (fun _ => hs) _).bind fun a b hab => ?_
    match a, b, hab with
    | none, none, _ => exact .ok (trim_later g ho t)
    | some (parts, te), some (parts', te'), h =>
      exact planFeet_later g (old := some old) (old' := some old') (.some ho) ⟨rfl, h.2, h.1, rfl, rfl, rfl, rfl, rfl, rfl, rfl⟩

/-- A program that plans a walk, and plans it again any number of times, with any supports and at any times. The caller. -/
noncomputable def walkAgain (g : Wpg) : List (List Support × ℝ) → Traj → Except Err Traj
  | [], tr => .ok tr
  | c :: cs, tr => do
    let tr ← g.replan c.1 tr c.2
    walkAgain g cs tr

/-- Whole programs: a walk that is planned, and planned again any number of times (even if some of the plans fail and the old trajectory is
trimmed), is the same when all is `τ` later, if no start time of a support becomes `-1`. -/
theorem C217_session (g : Wpg) (ss : List Support) (com : V3) (t0 τ : ℝ) (calls : List (List Support × ℝ))
    (hs : ∀ s ∈ ss, s.tStart ≠ -1 → s.tStart + τ ≠ -1) (hc : ∀ c ∈ calls, ∀ s ∈ c.1, s.tStart ≠ -1 → s.tStart + τ ≠ -1) :
    ExRel (WalkLater τ) (g.plan ss com t0 >>= walkAgain g calls)
      (g.plan (ss.map (later τ)) com (t0 + τ) >>= walkAgain g (calls.map fun c => (c.1.map (later τ), c.2 + τ))) := by
  refine (plan_later (P := True) g ss com t0 τ fun _ => hs).bind fun tr tr' h => ?_
  refine ExRel.mono (R := TrajLater τ True) (fun _ _ h => h.walk) ?_
  induction calls generalizing tr tr' with
  | nil => exact .ok h
  | cons c cs ih =>
    rw [List.map_cons]
    unfold walkAgain
    refine (replan_later g c.1 h c.2 (hc c (by simp))).bind fun a b hab => ?_
    exact ih (fun c hm => hc c (by simp [hm])) a b hab

/-- The hypotheses are met by a walk of new supports, planned again with a support that started at the time 3, and any delay. -/
example (τ : ℝ) (h : 0 ≤ τ) : (∀ s ∈ [({ footsteps := [] } : Support)], s.tStart ≠ -1 → s.tStart + τ ≠ -1) ∧
    ∀ c ∈ [([({ footsteps := [], tStart := 3 } : Support)], (4 : ℝ))], ∀ s ∈ c.1, s.tStart ≠ -1 → s.tStart + τ ≠ -1 := by
  constructor
  · intro s hs h'
    simp at hs
    subst hs
    exact absurd rfl h'
  · intro c hc s hs _ h'
    simp at hc
    subst hc
    simp at hs
    subst hs
    dsimp only at h'
    linarith

end Verif.Humanoid
