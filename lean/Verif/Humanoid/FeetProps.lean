/-
C132: the planned feet. A foot of the support stays at its footstep, and the other one goes from the footstep it left to
the one where it lands.
-/
import Verif.Humanoid.PlanProps
import Verif.Humanoid.SupportsProps
import Verif.Humanoid.SwingProps
import Verif.Tools.UtilsProps

namespace Verif.Humanoid
open Verif.Tools Verif.Robot

/-! ## Specification -/

/-- The parts can be walked: each one lasts, the robot stands on one foot or on two, and a foot that flies is on the ground
before (unless the part is the first one) and after. -/
structure Walk (parts : List Part) : Prop where
  lasts : ∀ (i : Nat) (h : i < parts.length), parts[i].tStart < parts[i].tEnd
  joined : ∀ (i : Nat) (h : i + 1 < parts.length), parts[i].tEnd = parts[i + 1].tStart
  shape : ∀ (i : Nat) (h : i < parts.length), (∃ f, parts[i].support.footsteps = [f]) ∨
    ∃ f f', parts[i].support.footsteps = [f, f'] ∧ f'.side = f.side.other
  lands : ∀ (i : Nat) (h : i < parts.length) (f : Footstep), parts[i].support.footsteps = [f] →
    ∃ (h' : i + 1 < parts.length), ∃ f' ∈ parts[i + 1].support.footsteps, f'.side = f.side.other
  lifts : ∀ (i : Nat) (h : i + 1 < parts.length) (f : Footstep), parts[i + 1].support.footsteps = [f] →
    ∃ f' ∈ parts[i].support.footsteps, f'.side = f.side.other

/-- Where each foot is at the start of part `i` (and at the end of part `i - 1`): its position and its yaw. A foot of the
support is at its footstep at the start and at the end of the part. -/
structure Places (parts : List Part) (X : Nat → Side → V3) (yaw : Nat → Side → ℝ) : Prop where
  first : ∀ (i : Nat) (h : i < parts.length), ∀ f ∈ parts[i].support.footsteps,
    X i f.side = f.frame.translation ∧ yaw i f.side = frameYaw f.frame.linear
  last : ∀ (i : Nat) (h : i < parts.length), ∀ f ∈ parts[i].support.footsteps,
    X (i + 1) f.side = f.frame.translation ∧ yaw (i + 1) f.side = frameYaw f.frame.linear

/-- The time of the start of part `i`, or of the end of the last part. -/
def boundary (t0 : ℝ) (parts : List Part) : Nat → ℝ
  | 0 => t0
  | i + 1 => match parts[i]? with
    | some p => p.tEnd
    | none => 0

/-! ## The yaw of a foot -/

/-- The yaws stored by an angular spline. -/
noncomputable def unwrapped (yaw : Nat → ℝ) : Nat → ℝ
  | 0 => yaw 0
  | j + 1 => unwrapped yaw j + wrapAngle (yaw (j + 1) - unwrapped yaw j)

/-- The point of index `j`. -/
noncomputable def knot (time yaw : Nat → ℝ) (d0 : ℝ) (j : Nat) : SPoint ℝ :=
  ⟨time j, unwrapped yaw j, if j = 0 then d0 else 0⟩

/-- The spline with the points `0` to `i`. -/
noncomputable def knots (time yaw : Nat → ℝ) (d0 : ℝ) (i : Nat) : SplineSt ℝ :=
  ⟨true, true, (List.range (i + 1)).map (knot time yaw d0), []⟩

theorem unwrapped_congr (yaw : Nat → ℝ) (j : Nat) : CongrAngle (unwrapped yaw j) (yaw j) := by
  cases j with
  | zero => exact ⟨0, by simp [unwrapped]⟩
  | succ j =>
    obtain ⟨k, hk⟩ := wrapAngle_congr (yaw (j + 1) - unwrapped yaw j)
    exact ⟨k, by rw [unwrapped, hk]; ring⟩

theorem wrapAngle_zero_of_congr {a : ℝ} (h : CongrAngle a 0) : wrapAngle a = 0 := by
  have hp := Real.pi_pos
  rw [wrapAngle_eq]
  obtain ⟨k, hk⟩ := h
  rw [hk, zero_add, toIocMod_eq_iff]
  exact ⟨⟨by linarith, by linarith⟩, k, by simp⟩

theorem unwrapped_same (yaw : Nat → ℝ) (j : Nat) (h : yaw (j + 1) = yaw j) : unwrapped yaw (j + 1) = unwrapped yaw j := by
  obtain ⟨k, hk⟩ := unwrapped_congr yaw j
  rw [unwrapped, wrapAngle_zero_of_congr, add_zero]
  exact ⟨-k, by rw [h, hk]; push_cast; ring⟩

theorem rotZ_congr {a b : ℝ} (h : CongrAngle a b) : rotZ a = rotZ b := by
  obtain ⟨k, rfl⟩ := h
  unfold rotZ
  rw [Real.cos_add_int_mul_two_pi, Real.sin_add_int_mul_two_pi]

theorem knots_first (time yaw : Nat → ℝ) (d0 : ℝ) :
    (SplineSt.init true).addPoint wrapAngle (time 0) (yaw 0) d0 = .ok (knots time yaw d0 0) := rfl

theorem knots_next (time yaw : Nat → ℝ) (d0 : ℝ) (i : Nat) (h : time i < time (i + 1)) :
    (knots time yaw d0 i).addPoint wrapAngle (time (i + 1)) (yaw (i + 1)) 0 = .ok (knots time yaw d0 (i + 1)) := by
  have hl : (knots time yaw d0 i).points.getLast? = some (knot time yaw d0 i) := by
    simp [knots, List.range_succ]
  unfold SplineSt.addPoint
  rw [hl]
  have hn : ¬ time (i + 1) ≤ (knot time yaw d0 i).t := not_le.2 h
  simp only [if_neg hn, knots, Except.ok.injEq, SplineSt.mk.injEq, true_and, and_true]
  rw [List.range_succ (n := i + 1), List.map_append]
  congr 1

theorem knots_increasing (time yaw : Nat → ℝ) (d0 : ℝ) (i : Nat) (h : ∀ j < i, time j < time (j + 1)) :
    Increasing (knots time yaw d0 i).points := by
  have hm : ∀ a b, a < b → b ≤ i → time a < time b := by
    intro a b hab hb
    induction b with
    | zero => omega
    | succ b ih =>
      rcases Nat.lt_or_ge a b with h1 | h1
      · exact (ih h1 (by omega)).trans (h b (by omega))
      · have : a = b := by omega
        subst this
        exact h a (by omega)
  show List.Pairwise _ ((List.range (i + 1)).map (knot time yaw d0))
  rw [List.pairwise_map]
  refine List.pairwise_lt_range.imp_of_mem ?_
  intro a b _ hb hab
  exact hm a b hab (by have := List.mem_range.1 hb; omega)

/-- Between two points, the spline is the cubic that joins them. -/
theorem knots_read (time yaw : Nat → ℝ) (d0 : ℝ) (i : Nat) (h : ∀ j < i, time j < time (j + 1)) (j : Nat) (hj : j < i)
    (t : ℝ) (h0 : time j ≤ t) (h1 : t ≤ time (j + 1)) (ty : ValueType) (hty : ty = .value ∨ ty = .speed) :
    ((knots time yaw d0 i).interpolation t ty).2
      = .ok (evalSpline (mkSpline (knot time yaw d0 j) (knot time yaw d0 (j + 1))) t ty) := by
  have hi := knots_increasing time yaw d0 i h
  have hsplit : (knots time yaw d0 i).points = (List.range j).map (knot time yaw d0) ++
      knot time yaw d0 j :: knot time yaw d0 (j + 1) :: (List.range' (j + 2) (i - 1 - j)).map (knot time yaw d0) := by
    show (List.range (i + 1)).map (knot time yaw d0) = _
    have e : List.range (i + 1) = List.range j ++ j :: (j + 1) :: List.range' (j + 2) (i - 1 - j) := by
      rw [List.range_eq_range', List.range_eq_range', show i + 1 = j + (i - 1 - j + 2) by omega, ← List.range'_append]
      congr 1
      rw [List.range'_succ, List.range'_succ]
      simp
    rw [e, List.map_append, List.map_cons, List.map_cons]
  rw [hsplit] at hi
  have := lookup_inside _ _ _ _ hi t h0 h1
  unfold SplineSt.interpolation SplineSt.refresh
  have hd : (knots time yaw d0 i).dirty = true := rfl
  simp only [hd, if_true]
  rw [hsplit]
  rcases hty with rfl | rfl
  · exact this.1
  · exact this.2

theorem knots_at_first (time yaw : Nat → ℝ) (d0 : ℝ) (i : Nat) (h : ∀ j < i, time j < time (j + 1)) (j : Nat) (hj : j < i) :
    ((knots time yaw d0 i).interpolation (time j) .value).2 = .ok (unwrapped yaw j) ∧
    ((knots time yaw d0 i).interpolation (time j) .speed).2 = .ok (if j = 0 then d0 else 0) := by
  obtain ⟨a, b, -, -⟩ := mkSpline_ends (knot time yaw d0 j) (knot time yaw d0 (j + 1)) (h j hj)
  rw [knots_read time yaw d0 i h j hj _ le_rfl (h j hj).le _ (Or.inl rfl),
    knots_read time yaw d0 i h j hj _ le_rfl (h j hj).le _ (Or.inr rfl)]
  exact ⟨congrArg _ a, congrArg _ b⟩

theorem knots_at_last (time yaw : Nat → ℝ) (d0 : ℝ) (i : Nat) (h : ∀ j < i, time j < time (j + 1)) (j : Nat) (hj : j < i) :
    ((knots time yaw d0 i).interpolation (time (j + 1)) .value).2 = .ok (unwrapped yaw (j + 1)) ∧
    ((knots time yaw d0 i).interpolation (time (j + 1)) .speed).2 = .ok 0 := by
  obtain ⟨-, -, a, b⟩ := mkSpline_ends (knot time yaw d0 j) (knot time yaw d0 (j + 1)) (h j hj)
  rw [knots_read time yaw d0 i h j hj _ (h j hj).le le_rfl _ (Or.inl rfl),
    knots_read time yaw d0 i h j hj _ (h j hj).le le_rfl _ (Or.inr rfl)]
  exact ⟨congrArg _ a, congrArg _ b⟩

/-- A foot whose yaw does not change does not turn. -/
theorem knots_flat (time yaw : Nat → ℝ) (d0 : ℝ) (i : Nat) (h : ∀ j < i, time j < time (j + 1)) (j : Nat) (hj : j < i)
    (hy : yaw (j + 1) = yaw j) (hd : j = 0 → d0 = 0) (t : ℝ) (h0 : time j ≤ t) (h1 : t ≤ time (j + 1)) :
    ((knots time yaw d0 i).interpolation t .value).2 = .ok (unwrapped yaw j) ∧
    ((knots time yaw d0 i).interpolation t .speed).2 = .ok 0 := by
  rw [knots_read time yaw d0 i h j hj t h0 h1 _ (Or.inl rfl), knots_read time yaw d0 i h j hj t h0 h1 _ (Or.inr rfl)]
  have hp : (knot time yaw d0 j).dx = 0 := by
    show (if j = 0 then d0 else 0) = 0
    split
    · rename_i hj0; exact hd hj0
    · rfl
  obtain ⟨a, b⟩ := flat_spline (knot time yaw d0 j) (knot time yaw d0 (j + 1)) (h j hj) (unwrapped_same yaw j hy) hp
    (by show (if j + 1 = 0 then d0 else 0) = 0; simp) t
  exact ⟨congrArg _ a, congrArg _ b⟩

/-! ## The state of the planning -/

/-- The trajectory with another spline for the yaw of a foot. -/
def Traj.withYaw (tr : Traj) (side : Side) (s : SplineSt ℝ) : Traj :=
  match side with
  | .left => { tr with leftYaw := s }
  | .right => { tr with rightYaw := s }

theorem addYaw_ok (tr : Traj) (side : Side) (t yaw speed : ℝ) (s : SplineSt ℝ)
    (h : (tr.footYaw side).addPoint wrapAngle t yaw speed = .ok s) : tr.addYaw side t yaw speed = .ok (tr.withYaw side s) := by
  unfold Traj.addYaw
  rw [h]
  cases side <;> rfl

@[simp] theorem withYaw_parts (tr : Traj) (side : Side) (s : SplineSt ℝ) : (tr.withYaw side s).parts = tr.parts := by
  cases side <;> rfl
@[simp] theorem withYaw_tStart (tr : Traj) (side : Side) (s : SplineSt ℝ) : (tr.withYaw side s).tStart = tr.tStart := by
  cases side <;> rfl
@[simp] theorem withYaw_trunk (tr : Traj) (side : Side) (s : SplineSt ℝ) : (tr.withYaw side s).trunkYaw = tr.trunkYaw := by
  cases side <;> rfl
@[simp] theorem withYaw_T (tr : Traj) (side : Side) (s : SplineSt ℝ) : (tr.withYaw side s).T = tr.T := by
  cases side <;> rfl
@[simp] theorem withYaw_tEnd (tr : Traj) (side : Side) (s : SplineSt ℝ) : (tr.withYaw side s).tEnd = tr.tEnd := by
  cases side <;> rfl
@[simp] theorem withYaw_z (tr : Traj) (side : Side) (s : SplineSt ℝ) : (tr.withYaw side s).comTargetZ = tr.comTargetZ := by
  cases side <;> rfl
@[simp] theorem withYaw_same (tr : Traj) (side : Side) (s : SplineSt ℝ) : (tr.withYaw side s).footYaw side = s := by
  cases side <;> rfl
@[simp] theorem withYaw_other (tr : Traj) (side : Side) (s : SplineSt ℝ) :
    (tr.withYaw side s).footYaw side.other = tr.footYaw side.other := by
  cases side <;> rfl
@[simp] theorem withYaw_other' (tr : Traj) (side : Side) (s : SplineSt ℝ) :
    (tr.withYaw side.other s).footYaw side = tr.footYaw side := by
  cases side <;> rfl

theorem side_cases (a b : Side) : b = a ∨ b = a.other := by cases a <;> cases b <;> simp [Side.other]
theorem other_other (a : Side) : a.other.other = a := by cases a <;> rfl
theorem other_ne (a : Side) : a.other ≠ a := by cases a <;> simp [Side.other]

theorem frame_of_mem {s : Support} {f : Footstep} (hm : f ∈ s.footsteps)
    (hs : (∃ a, s.footsteps = [a]) ∨ ∃ a b, s.footsteps = [a, b] ∧ b.side = a.side.other) :
    s.footstepFrame f.side = .ok f.frame := by
  unfold Support.footstepFrame
  rcases hs with ⟨a, h⟩ | ⟨a, b, h, hab⟩
  · rw [h] at hm ⊢
    rw [List.mem_singleton] at hm
    subst hm
    simp
  · rw [h] at hm ⊢
    rcases List.mem_cons.1 hm with rfl | hm
    · simp
    · rw [List.mem_singleton] at hm
      subst hm
      have : ¬ a.side = f.side := by rw [hab]; exact fun e => other_ne a.side e.symm
      simp [this]

/-- The support polygon is one foot or two: its frame exists. -/
theorem frame_ok {s : Support} (slerp : M3 → M3 → ℝ → M3)
    (hs : (∃ a, s.footsteps = [a]) ∨ ∃ a b, s.footsteps = [a, b] ∧ b.side = a.side.other) :
    ∃ F, s.frame slerp = .ok F := by
  unfold Support.frame
  rcases hs with ⟨a, h⟩ | ⟨a, b, h, -⟩ <;> rw [h] <;> exact ⟨_, rfl⟩

section
variable (g : Wpg) (parts : List Part) (t0 : ℝ) (X : Nat → Side → V3) (yaw : Nat → Side → ℝ) (V0 : Side → V3)
  (d0 : Side → ℝ)

/-- The duration a support would last had nothing elapsed. -/
noncomputable def Wpg.virtual (s : Support) : ℝ := g.p.supportDuration s * s.timeRatio

/-- The swing planned for part `j`, while the robot stands on `f`: from where the foot is to where it lands. The first part
starts with the velocity of the foot and the elapsed ratio of the support. -/
def SwingOf (j : Nat) (p : Part) (flying : Side) (w : CubicSwing ℝ) : Prop :=
  CubicSwing.make wrapAngle p.tStart (g.virtual p.support) g.p.walkFootHeight g.p.walkFootRiseRatio (X j flying)
    (X (j + 1) flying) (if j = 0 then p.support.elapsedRatio else 0) (if j = 0 then V0 flying else 0) = .ok w

/-- The foot flies in the first part. -/
def FliesFirst (σ : Side) : Prop :=
  ∃ (h : 0 < parts.length) (f : Footstep), parts[0].support.footsteps = [f] ∧ σ = f.side.other

/-- The state after the first `i` parts. -/
structure FeetInv (tr0 : Traj) (i : Nat) (tr : Traj) : Prop where
  tStart : tr.tStart = t0
  tEnd : tr.tEnd = tr0.tEnd
  comTargetZ : tr.comTargetZ = tr0.comTargetZ
  T : tr.T = tr0.T
  len : tr.parts.length = parts.length
  keep : ∀ (j : Nat) (h : j < parts.length), ∃ w, tr.parts[j]? = some { parts[j] with swing := w } ∧
    (j < i → ∀ f, parts[j].support.footsteps = [f] → SwingOf g X V0 j parts[j] f.side.other w)
  yaw : ∀ σ, (¬ (i = 0 ∧ FliesFirst parts σ) →
      tr.footYaw σ = knots (boundary t0 parts) (fun j => yaw j σ) (d0 σ) i) ∧
    (i = 0 ∧ FliesFirst parts σ → tr.footYaw σ = SplineSt.init true)
  trunk : ∃ last, tr.trunkYaw.points.getLast? = some last ∧ last.t ≤ boundary t0 parts i

variable {g parts t0 X yaw V0 d0}

theorem boundary_start (hW : Walk parts) (h0 : ∀ h : 0 < parts.length, parts[0].tStart = t0) (j : Nat)
    (hj : j < parts.length) : boundary t0 parts j = parts[j].tStart := by
  cases j with
  | zero => exact (h0 hj).symm
  | succ j =>
    rw [boundary, List.getElem?_eq_getElem (by omega : j < parts.length)]
    exact hW.joined j hj

theorem boundary_end (j : Nat) (hj : j < parts.length) : boundary t0 parts (j + 1) = parts[j].tEnd := by
  rw [boundary, List.getElem?_eq_getElem hj]

theorem boundary_lt (hW : Walk parts) (h0 : ∀ h : 0 < parts.length, parts[0].tStart = t0) (j : Nat)
    (hj : j < parts.length) : boundary t0 parts j < boundary t0 parts (j + 1) := by
  rw [boundary_start hW h0 j hj, boundary_end j hj]
  exact hW.lasts j hj

theorem addTrunk_ok (tr : Traj) (last : SPoint ℝ) (hl : tr.trunkYaw.points.getLast? = some last) (t a d : ℝ)
    (ht : last.t < t) : ∃ s, tr.addTrunkYaw t a d = .ok { tr with trunkYaw := s } ∧
      ∃ l, s.points.getLast? = some l ∧ l.t = t := by
  rcases addPoint_cases wrapAngle tr.trunkYaw t a d with ⟨-, l, h1, h2⟩ | ⟨x', h1, -, -⟩
  · rw [hl] at h1; cases h1; exact absurd ht (not_lt.2 h2)
  · refine ⟨⟨tr.trunkYaw.angular, true, tr.trunkYaw.points ++ [⟨t, x', d⟩], tr.trunkYaw.splines⟩, ?_, ?_⟩
    · unfold Traj.addTrunkYaw; rw [h1]; rfl
    · exact ⟨⟨t, x', d⟩, by simp, rfl⟩

/-- The start of the planning: what is known of the flying foot when the first part is a single support. -/
def Takeoff (parts : List Part) (t0 : ℝ) (X : Nat → Side → V3) (yaw : Nat → Side → ℝ) (V0 : Side → V3) (d0 : Side → ℝ)
    (old : Option Traj) : Prop :=
  ∀ (h : 0 < parts.length) (f : Footstep), parts[0].support.footsteps = [f] →
    ∃ o F, old = some o ∧ o.getTWorldFoot f.side.other t0 = .ok F ∧ F.translation = X 0 f.side.other ∧
      o.getVWorldFoot f.side.other t0 = .ok (V0 f.side.other) ∧
      o.getYawWorldFoot f.side.other t0 = .ok (yaw 0 f.side.other) ∧
      ((o.footYaw f.side.other).interpolation t0 .speed).2 = .ok (d0 f.side.other)

/-- The swings can be planned. -/
structure Swings (g : Wpg) (parts : List Part) : Prop where
  rise0 : 0 < g.p.walkFootRiseRatio
  rise1 : g.p.walkFootRiseRatio < 1
  virt : ∀ (i : Nat) (h : i < parts.length) (f : Footstep), parts[i].support.footsteps = [f] → 0 < g.virtual parts[i].support
  elapsed : ∀ (h : 0 < parts.length), parts[0].support.elapsedRatio < 1

theorem at_part {tr : Traj} {j : Nat} {p : Part} (h : tr.parts[j]? = some p) : at' tr.parts j = .ok p := by
  unfold at'; rw [h]

theorem planDbl_inv (hW : Walk parts) (hP : Places parts X yaw) (h0 : ∀ h : 0 < parts.length, parts[0].tStart = t0)
    (tr0 tr : Traj) (i : Nat) (hi : i < parts.length) (f f' : Footstep) (hf : parts[i].support.footsteps = [f, f'])
    (hff : f'.side = f.side.other) (h : FeetInv g parts t0 X yaw V0 d0 tr0 i tr) :
    ∃ tr', g.planDbl tr i = .ok tr' ∧ FeetInv g parts t0 X yaw V0 d0 tr0 (i + 1) tr' := by
  obtain ⟨w, hw, -⟩ := h.keep i hi
  have hlt := boundary_lt hW h0 i hi
  have hend : boundary t0 parts (i + 1) = parts[i].tEnd := boundary_end i hi
  have hknots : ∀ σ, tr.footYaw σ = knots (boundary t0 parts) (fun j => yaw j σ) (d0 σ) i := by
    intro σ
    refine (h.yaw σ).1 ?_
    rintro ⟨rfl, _, a, ha, -⟩
    rw [hf] at ha; cases ha
  have hadd : ∀ (tr' : Traj) (a : Footstep), a ∈ parts[i].support.footsteps →
      tr'.footYaw a.side = knots (boundary t0 parts) (fun j => yaw j a.side) (d0 a.side) i →
      tr'.addYaw a.side parts[i].tEnd (frameYaw a.frame.linear) 0
        = .ok (tr'.withYaw a.side (knots (boundary t0 parts) (fun j => yaw j a.side) (d0 a.side) (i + 1))) := by
    intro tr' a ha hk
    apply addYaw_ok
    rw [hk, ← (hP.last i hi a ha).2, ← hend]
    exact knots_next (boundary t0 parts) (fun j => yaw j a.side) (d0 a.side) i hlt
  have m1 : f ∈ parts[i].support.footsteps := by rw [hf]; simp
  have m2 : f' ∈ parts[i].support.footsteps := by rw [hf]; simp
  have e1 := hadd tr f m1 (hknots f.side)
  generalize ht1 : tr.withYaw f.side (knots (boundary t0 parts) (fun j => yaw j f.side) (d0 f.side) (i + 1)) = tr1 at e1
  have e2 := hadd tr1 f' m2 (by rw [hff, ← ht1, withYaw_other]; exact hknots _)
  generalize ht2 : tr1.withYaw f'.side (knots (boundary t0 parts) (fun j => yaw j f'.side) (d0 f'.side) (i + 1)) = tr2 at e2
  obtain ⟨F, hF⟩ := frame_ok g.slerp (hW.shape i hi)
  obtain ⟨last, hl1, hl2⟩ := h.trunk
  have htrunk : tr2.trunkYaw = tr.trunkYaw := by rw [← ht2, withYaw_trunk, ← ht1, withYaw_trunk]
  obtain ⟨s, e3, l, hs1, hs2⟩ := addTrunk_ok tr2 last (by rw [htrunk]; exact hl1) parts[i].tEnd (frameYaw F.linear) 0
    (by rw [← hend]; exact hl2.trans_lt hlt)
  refine ⟨{ tr2 with trunkYaw := s }, ?_, ?_⟩
  · unfold Wpg.planDbl
    rw [at_part hw]
    simp only [Bind.bind, Except.bind]
    rw [hf]
    simp only [Traj.addSupports, e1, Bind.bind, Except.bind, e2, hF]
    exact e3
  · have hparts : tr2.parts = tr.parts := by rw [← ht2, withYaw_parts, ← ht1, withYaw_parts]
    refine ⟨?_, ?_, ?_, ?_, ?_, ?_, ?_, ?_⟩
    · show tr2.tStart = t0
      rw [← ht2, withYaw_tStart, ← ht1, withYaw_tStart]; exact h.tStart
    · show tr2.tEnd = _
      rw [← ht2, withYaw_tEnd, ← ht1, withYaw_tEnd]; exact h.tEnd
    · show tr2.comTargetZ = _
      rw [← ht2, withYaw_z, ← ht1, withYaw_z]; exact h.comTargetZ
    · show tr2.T = _
      rw [← ht2, withYaw_T, ← ht1, withYaw_T]; exact h.T
    · show tr2.parts.length = _
      rw [hparts]; exact h.len
    · intro j hj
      obtain ⟨w', a1, a2⟩ := h.keep j hj
      refine ⟨w', by show tr2.parts[j]? = _; rw [hparts]; exact a1, fun hji a ha => ?_⟩
      rcases Nat.lt_or_ge j i with hlt' | hge
      · exact a2 hlt' a ha
      · have : j = i := by omega
        subst this
        rw [hf] at ha; cases ha
    · intro σ
      refine ⟨fun _ => ?_, fun hc => by omega⟩
      show tr2.footYaw σ = _
      rcases side_cases f.side σ with rfl | rfl
      · rw [← ht2, hff, withYaw_other', ← ht1, withYaw_same]
      · rw [← ht2, hff, withYaw_same]
    · exact ⟨l, hs1, by rw [hs2, hend]⟩

theorem planSwing_ok (hW : Walk parts) (hP : Places parts X yaw) (h0 : ∀ h : 0 < parts.length, parts[0].tStart = t0)
    (hS : Swings g parts) (old : Option Traj) (hT : Takeoff parts t0 X yaw V0 d0 old)
    (tr0 tr : Traj) (i : Nat) (hi : i < parts.length) (f : Footstep) (hf : parts[i].support.footsteps = [f])
    (h : FeetInv g parts t0 X yaw V0 d0 tr0 i tr) (w : CubicSwing ℝ) :
    ∃ tr1 sw, g.planSwing tr i { parts[i] with swing := w } f.side.other (X (i + 1) f.side.other) old = .ok (tr1, sw) ∧
      SwingOf g X V0 i parts[i] f.side.other sw ∧
      tr1 = tr.withYaw f.side.other (knots (boundary t0 parts) (fun j => yaw j f.side.other) (d0 f.side.other) i) := by
  have hv : 0 < g.virtual parts[i].support := hS.virt i hi f hf
  cases i with
  | zero =>
    obtain ⟨o, F, rfl, o1, o2, o3, o4, o5⟩ := hT hi f hf
    obtain ⟨sw, hsw, -⟩ := C87_ends wrapAngle parts[0].tStart (g.virtual parts[0].support) g.p.walkFootHeight
      g.p.walkFootRiseRatio (X 0 f.side.other) (X 1 f.side.other) parts[0].support.elapsedRatio (V0 f.side.other) hv
      hS.rise0 hS.rise1 (hS.elapsed hi)
    have hyaw := (h.yaw f.side.other).2 ⟨rfl, hi, f, hf, rfl⟩
    have hadd := addYaw_ok tr f.side.other t0 (yaw 0 f.side.other) (d0 f.side.other) _
      (by rw [hyaw]; exact knots_first (boundary t0 parts) (fun j => yaw j f.side.other) (d0 f.side.other))
    refine ⟨_, sw, ?_, by simpa only [SwingOf, if_true] using hsw, rfl⟩
    rw [← o2] at hsw
    unfold Wpg.virtual at hsw
    simp only [Wpg.planSwing, h.tStart, o1, o3, o4, o5, hsw, hadd, Bind.bind, Except.bind]
  | succ i =>
    obtain ⟨w', hw', -⟩ := h.keep i (by omega)
    obtain ⟨f', hm, hside⟩ := hW.lifts i hi f hf
    have hfr := frame_of_mem hm (hW.shape i (by omega))
    have hx := (hP.last i (by omega) f' hm).1
    rw [hside] at hfr hx
    obtain ⟨sw, hsw, -⟩ := C87_ends wrapAngle parts[i + 1].tStart (g.virtual parts[i + 1].support) g.p.walkFootHeight
      g.p.walkFootRiseRatio (X (i + 1) f.side.other) (X (i + 1 + 1) f.side.other) 0 0 hv hS.rise0 hS.rise1 zero_lt_one
    refine ⟨_, sw, ?_, by simpa only [SwingOf, Nat.succ_ne_zero, if_false] using hsw, rfl⟩
    rw [hx] at hsw
    unfold Wpg.virtual at hsw
    simp only [Wpg.planSwing, at_part hw', hfr, hsw, Bind.bind, Except.bind, Except.ok.injEq, Prod.mk.injEq, and_true]
    have hk := (h.yaw f.side.other).1 (by rintro ⟨h, -⟩; omega)
    rw [← hk]
    generalize f.side.other = σ
    cases σ <;> rfl

/-- The trajectory with another swing in part `i`. -/
def Traj.withSwing (tr : Traj) (i : Nat) (p : Part) : Traj := { tr with parts := tr.parts.set i p }

theorem planTrunk_ok (g : Wpg) (tr : Traj) (last : SPoint ℝ) (hl : tr.trunkYaw.points.getLast? = some last) (t a : ℝ)
    (ht : last.t < t) : ∃ s, g.planTrunk tr t a = .ok { tr with trunkYaw := s } ∧
      ∃ l, s.points.getLast? = some l ∧ l.t ≤ t := by
  unfold Wpg.planTrunk
  split
  · exact ⟨tr.trunkYaw, rfl, last, hl, ht.le⟩
  · obtain ⟨s, h1, l, h2, h3⟩ := addTrunk_ok tr last hl t a 0 ht
    exact ⟨s, h1, l, h2, h3.le⟩

theorem planSgl_inv (hW : Walk parts) (hP : Places parts X yaw) (h0 : ∀ h : 0 < parts.length, parts[0].tStart = t0)
    (hS : Swings g parts) (old : Option Traj) (hT : Takeoff parts t0 X yaw V0 d0 old)
    (tr0 tr : Traj) (i : Nat) (hi : i < parts.length) (f : Footstep) (hf : parts[i].support.footsteps = [f])
    (h : FeetInv g parts t0 X yaw V0 d0 tr0 i tr) :
    ∃ tr', g.planSgl tr i old = .ok tr' ∧ FeetInv g parts t0 X yaw V0 d0 tr0 (i + 1) tr' := by
  obtain ⟨w, hw, -⟩ := h.keep i hi
  have hlt := boundary_lt hW h0 i hi
  have hend : boundary t0 parts (i + 1) = parts[i].tEnd := boundary_end i hi
  obtain ⟨hi', f', hm, hside⟩ := hW.lands i hi f hf
  obtain ⟨wn, hwn, -⟩ := h.keep (i + 1) hi'
  have hfr := frame_of_mem hm (hW.shape (i + 1) hi')
  obtain ⟨hx, hy⟩ := hP.first (i + 1) hi' f' hm
  rw [hside] at hfr hx hy
  obtain ⟨tr1, sw, e1, hsw, ht1⟩ := planSwing_ok hW hP h0 hS old hT tr0 tr i hi f hf h w
  have m1 : f ∈ parts[i].support.footsteps := by rw [hf]; simp
  obtain ⟨hlx, hly⟩ := hP.last i hi f m1
  -- the yaw of the flying foot
  generalize hp2 : tr1.withSwing i { parts[i] with swing := sw } = tr2
  have h2yaw : ∀ σ, tr2.footYaw σ = tr1.footYaw σ := by rw [← hp2]; intro σ; cases σ <;> rfl
  have k1 : tr2.footYaw f.side.other
      = knots (boundary t0 parts) (fun j => yaw j f.side.other) (d0 f.side.other) i := by
    rw [h2yaw, ht1, withYaw_same]
  have e2 : tr2.addYaw f.side.other parts[i].tEnd (frameYaw f'.frame.linear) 0 = .ok (tr2.withYaw f.side.other
      (knots (boundary t0 parts) (fun j => yaw j f.side.other) (d0 f.side.other) (i + 1))) := by
    apply addYaw_ok
    rw [k1, ← hy, ← hend]
    exact knots_next (boundary t0 parts) (fun j => yaw j f.side.other) (d0 f.side.other) i hlt
  generalize ht3 : tr2.withYaw f.side.other
      (knots (boundary t0 parts) (fun j => yaw j f.side.other) (d0 f.side.other) (i + 1)) = tr3 at e2
  -- the trunk
  obtain ⟨last, hl1, hl2⟩ := h.trunk
  have htrunk : tr3.trunkYaw = tr.trunkYaw := by
    rw [← ht3, withYaw_trunk, ← hp2]
    show tr1.trunkYaw = _
    rw [ht1, withYaw_trunk]
  obtain ⟨s, e3, l, hs1, hs2⟩ := planTrunk_ok g tr3 last (by rw [htrunk]; exact hl1) parts[i].tEnd
    (frameYaw f'.frame.linear) (by rw [← hend]; exact hl2.trans_lt hlt)
  generalize ht4 : ({ tr3 with trunkYaw := s } : Traj) = tr4 at e3
  have h4yaw : ∀ σ, tr4.footYaw σ = tr3.footYaw σ := by rw [← ht4]; intro σ; cases σ <;> rfl
  -- the support foot
  have k2 : tr4.footYaw f.side = knots (boundary t0 parts) (fun j => yaw j f.side) (d0 f.side) i := by
    rw [h4yaw, ← ht3, withYaw_other', h2yaw, ht1, withYaw_other']
    refine (h.yaw f.side).1 ?_
    rintro ⟨rfl, _, a, ha, hs⟩
    rw [hf] at ha; cases ha
    exact other_ne f.side hs.symm
  have e4 : tr4.addYaw f.side parts[i].tEnd (frameYaw f.frame.linear) 0
      = .ok (tr4.withYaw f.side (knots (boundary t0 parts) (fun j => yaw j f.side) (d0 f.side) (i + 1))) := by
    apply addYaw_ok
    rw [k2, ← hly, ← hend]
    exact knots_next (boundary t0 parts) (fun j => yaw j f.side) (d0 f.side) i hlt
  generalize ht5 : tr4.withYaw f.side (knots (boundary t0 parts) (fun j => yaw j f.side) (d0 f.side) (i + 1)) = tr5 at e4
  have hparts : tr5.parts = tr.parts.set i { parts[i] with swing := sw } := by
    rw [← ht5, withYaw_parts, ← ht4]
    show tr3.parts = _
    rw [← ht3, withYaw_parts, ← hp2]
    show tr1.parts.set i _ = _
    rw [ht1, withYaw_parts]
  refine ⟨tr5, ?_, ?_⟩
  · unfold Wpg.planSgl
    have a1 : at' parts[i].support.footsteps 0 = .ok f := by rw [hf]; rfl
    have a2 : g.planSwing tr i { parts[i] with swing := w } f.side.other f'.frame.translation old = .ok (tr1, sw) := by
      rw [← hx]; exact e1
    have a3 : ({ tr1 with parts := tr1.parts.set i { parts[i] with swing := sw } } : Traj) = tr2 := hp2
    simp only [at_part hw, at_part hwn, a1, hfr, a2, Bind.bind, Except.bind, a3, e2, e3]
    rw [hf]
    simp only [Traj.addSupports, e4, Bind.bind, Except.bind]
  · refine ⟨?_, ?_, ?_, ?_, ?_, ?_, ?_, ?_⟩
    · rw [← ht5, withYaw_tStart, ← ht4]
      show tr3.tStart = _
      rw [← ht3, withYaw_tStart, ← hp2]
      show tr1.tStart = _
      rw [ht1, withYaw_tStart]; exact h.tStart
    · rw [← ht5, withYaw_tEnd, ← ht4]
      show tr3.tEnd = _
      rw [← ht3, withYaw_tEnd, ← hp2]
      show tr1.tEnd = _
      rw [ht1, withYaw_tEnd]; exact h.tEnd
    · rw [← ht5, withYaw_z, ← ht4]
      show tr3.comTargetZ = _
      rw [← ht3, withYaw_z, ← hp2]
      show tr1.comTargetZ = _
      rw [ht1, withYaw_z]; exact h.comTargetZ
    · rw [← ht5, withYaw_T, ← ht4]
      show tr3.T = _
      rw [← ht3, withYaw_T, ← hp2]
      show tr1.T = _
      rw [ht1, withYaw_T]; exact h.T
    · rw [hparts, List.length_set]; exact h.len
    · intro j hj
      obtain ⟨w', b1, b2⟩ := h.keep j hj
      rw [hparts]
      by_cases hji : j = i
      · subst hji
        refine ⟨sw, ?_, fun _ a ha => ?_⟩
        · rw [List.getElem?_set_self (by rw [h.len]; exact hj)]
        · rw [hf] at ha; cases ha; exact hsw
      · exact ⟨w', by rw [List.getElem?_set_ne (Ne.symm hji)]; exact b1, fun hlt' => b2 (by omega)⟩
    · intro σ
      refine ⟨fun _ => ?_, fun hc => by omega⟩
      rcases side_cases f.side σ with rfl | rfl
      · rw [← ht5, withYaw_same]
      · rw [← ht5, withYaw_other, h4yaw, ← ht3, withYaw_same]
    · refine ⟨l, ?_, by rw [hend]; exact hs2⟩
      rw [← ht5, withYaw_trunk, ← ht4]
      exact hs1

theorem planPartsLoop_inv (hW : Walk parts) (hP : Places parts X yaw) (h0 : ∀ h : 0 < parts.length, parts[0].tStart = t0)
    (hS : Swings g parts) (old : Option Traj) (hT : Takeoff parts t0 X yaw V0 d0 old) (tr0 : Traj) :
    ∀ (count i : Nat) (tr : Traj), i + count = parts.length → FeetInv g parts t0 X yaw V0 d0 tr0 i tr →
      ∃ tr', g.planPartsLoop old count i tr = .ok tr' ∧ FeetInv g parts t0 X yaw V0 d0 tr0 parts.length tr' := by
  intro count
  induction count with
  | zero => intro i tr hi h; exact ⟨tr, rfl, by rw [Nat.add_zero] at hi; rw [← hi]; exact h⟩
  | succ count ih =>
    intro i tr hi h
    have hlt : i < parts.length := by omega
    obtain ⟨w, hw, -⟩ := h.keep i hlt
    have hstep : ∃ tr', g.planPart old tr i = .ok tr' ∧ FeetInv g parts t0 X yaw V0 d0 tr0 (i + 1) tr' := by
      unfold Wpg.planPart
      rw [at_part hw]
      simp only [Bind.bind, Except.bind]
      rcases hW.shape i hlt with ⟨f, hf⟩ | ⟨f, f', hf, hff⟩
      · rw [if_pos (by rw [hf]; rfl)]
        exact planSgl_inv hW hP h0 hS old hT tr0 tr i hlt f hf h
      · rw [if_neg (by rw [hf]; simp)]
        exact planDbl_inv hW hP h0 tr0 tr i hlt f f' hf hff h
    obtain ⟨tr', e, h'⟩ := hstep
    obtain ⟨tr'', e', h''⟩ := ih (i + 1) tr' (by omega) h'
    exact ⟨tr'', by simp only [Wpg.planPartsLoop, e, Bind.bind, Except.bind]; exact e', h''⟩

/-- The yaw of the trunk of the old trajectory can be read. -/
def TrunkKnown (t0 : ℝ) (old : Option Traj) : Prop :=
  ∀ o, old = some o → ∃ a b, o.getYawWorldTrunk t0 = .ok a ∧ (o.trunkYaw.interpolation t0 .speed).2 = .ok b

/-- The planning of the feet succeeds, and ends with the swings and yaws of all the parts. -/
theorem planFeet_inv (hW : Walk parts) (hP : Places parts X yaw) (hne : 0 < parts.length)
    (h0 : ∀ h : 0 < parts.length, parts[0].tStart = t0) (hS : Swings g parts) (old : Option Traj)
    (hT : Takeoff parts t0 X yaw V0 d0 old) (hK : TrunkKnown t0 old)
    (hd : ∀ (h : 0 < parts.length), ∀ f ∈ parts[0].support.footsteps, d0 f.side = 0)
    (tr0 : Traj) (hp : tr0.parts = parts) (ht : tr0.tStart = t0) (hl : tr0.leftYaw = SplineSt.init true)
    (hr : tr0.rightYaw = SplineSt.init true) (hu : tr0.trunkYaw = SplineSt.init true) :
    ∃ tr', g.planFeet tr0 old = .ok tr' ∧ FeetInv g parts t0 X yaw V0 d0 tr0 parts.length tr' := by
  have hinit : ∀ σ, tr0.footYaw σ = SplineSt.init true := by intro σ; cases σ <;> assumption
  have hadd : ∀ (tr' : Traj) (a : Footstep), a ∈ parts[0].support.footsteps →
      tr'.footYaw a.side = SplineSt.init true →
      tr'.addYaw a.side t0 (frameYaw a.frame.linear) 0
        = .ok (tr'.withYaw a.side (knots (boundary t0 parts) (fun j => yaw j a.side) (d0 a.side) 0)) := by
    intro tr' a ha hk
    apply addYaw_ok
    rw [hk, ← (hP.first 0 hne a ha).2]
    have := knots_first (boundary t0 parts) (fun j => yaw j a.side) (d0 a.side)
    rw [hd hne a ha] at this ⊢
    exact this
  have key : ∃ tr1, tr0.addSupports t0 parts[0].support.footsteps = .ok tr1 ∧ tr1.parts = parts ∧ tr1.tStart = t0 ∧
      tr1.tEnd = tr0.tEnd ∧ tr1.comTargetZ = tr0.comTargetZ ∧ tr1.T = tr0.T ∧ tr1.trunkYaw = tr0.trunkYaw ∧
      ∀ σ, (¬ FliesFirst parts σ → tr1.footYaw σ = knots (boundary t0 parts) (fun j => yaw j σ) (d0 σ) 0) ∧
        (FliesFirst parts σ → tr1.footYaw σ = SplineSt.init true) := by
    rcases hW.shape 0 hne with ⟨f, hf⟩ | ⟨f, f', hf, hff⟩
    · have e1 := hadd tr0 f (by rw [hf]; simp) (hinit _)
      refine ⟨tr0.withYaw f.side (knots (boundary t0 parts) (fun j => yaw j f.side) (d0 f.side) 0),
        ?_, ?_, ?_, ?_, ?_, ?_, ?_, ?_⟩
      · rw [hf]; simp only [Traj.addSupports, e1, Bind.bind, Except.bind]
      · rw [withYaw_parts, hp]
      · rw [withYaw_tStart, ht]
      · rw [withYaw_tEnd]
      · rw [withYaw_z]
      · rw [withYaw_T]
      · rw [withYaw_trunk]
      · intro σ
        rcases side_cases f.side σ with rfl | rfl
        · refine ⟨fun _ => withYaw_same _ _ _, ?_⟩
          rintro ⟨_, a, ha, hs⟩
          rw [hf] at ha; cases ha
          exact absurd hs.symm (other_ne _)
        · refine ⟨fun h => absurd ⟨hne, f, hf, rfl⟩ h, fun _ => ?_⟩
          rw [withYaw_other]; exact hinit _
    · have e1 := hadd tr0 f (by rw [hf]; simp) (hinit _)
      generalize ht1 : tr0.withYaw f.side (knots (boundary t0 parts) (fun j => yaw j f.side) (d0 f.side) 0) = tr1 at e1
      have e2 := hadd tr1 f' (by rw [hf]; simp) (by rw [hff, ← ht1, withYaw_other]; exact hinit _)
      refine ⟨tr1.withYaw f'.side (knots (boundary t0 parts) (fun j => yaw j f'.side) (d0 f'.side) 0),
        ?_, ?_, ?_, ?_, ?_, ?_, ?_, ?_⟩
      · rw [hf]; simp only [Traj.addSupports, e1, e2, Bind.bind, Except.bind]
      · rw [withYaw_parts, ← ht1, withYaw_parts, hp]
      · rw [withYaw_tStart, ← ht1, withYaw_tStart, ht]
      · rw [withYaw_tEnd, ← ht1, withYaw_tEnd]
      · rw [withYaw_z, ← ht1, withYaw_z]
      · rw [withYaw_T, ← ht1, withYaw_T]
      · rw [withYaw_trunk, ← ht1, withYaw_trunk]
      · intro σ
        refine ⟨fun _ => ?_, ?_⟩
        · rcases side_cases f.side σ with rfl | rfl
          · rw [hff, withYaw_other', ← ht1, withYaw_same]
          · rw [hff, withYaw_same]
        · rintro ⟨_, a, ha, -⟩
          rw [hf] at ha; cases ha
  obtain ⟨tr1, e1, p1, p2, p3, p4, p5, p6, p7⟩ := key
  have htr : ∀ a b, tr1.addTrunkYaw t0 a b = .ok { tr1 with trunkYaw := ⟨true, true, [⟨t0, a, b⟩], []⟩ } := by
    intro a b
    unfold Traj.addTrunkYaw
    rw [p6, hu]
    rfl
  have e2 : ∃ a b, g.planTrunkStart tr1 parts[0] old = .ok { tr1 with trunkYaw := ⟨true, true, [⟨t0, a, b⟩], []⟩ } := by
    cases old with
    | none =>
      obtain ⟨F, hF⟩ := frame_ok g.slerp (hW.shape 0 hne)
      exact ⟨frameYaw F.linear, 0, by simp only [Wpg.planTrunkStart, hF, Bind.bind, Except.bind, p2, htr]⟩
    | some o =>
      obtain ⟨a, b, ha, hb⟩ := hK o rfl
      exact ⟨a, b, by simp only [Wpg.planTrunkStart, p2, ha, hb, Bind.bind, Except.bind, htr]⟩
  obtain ⟨a, b, e2⟩ := e2
  generalize ht2 : ({ tr1 with trunkYaw := ⟨true, true, [⟨t0, a, b⟩], []⟩ } : Traj) = tr2 at e2
  have q1 : tr2.parts = parts := by rw [← ht2]; exact p1
  have hinv : FeetInv g parts t0 X yaw V0 d0 tr0 0 tr2 := by
    refine ⟨by rw [← ht2]; exact p2, by rw [← ht2]; exact p3, by rw [← ht2]; exact p4, by rw [← ht2]; exact p5,
      by rw [q1], ?_, ?_, ?_⟩
    · intro j hj
      exact ⟨parts[j].swing, by rw [q1, List.getElem?_eq_getElem hj], fun h => absurd h (by omega)⟩
    · intro σ
      have e : tr2.footYaw σ = tr1.footYaw σ := by rw [← ht2]; cases σ <;> rfl
      rw [e]
      exact ⟨fun h => (p7 σ).1 fun h' => h ⟨rfl, h'⟩, fun h => (p7 σ).2 h.2⟩
    · exact ⟨⟨t0, a, b⟩, by rw [← ht2]; rfl, le_rfl⟩
  obtain ⟨tr', e3, h'⟩ := planPartsLoop_inv hW hP h0 hS old hT tr0 parts.length 0 tr2 (by omega) hinv
  refine ⟨tr', ?_, h'⟩
  have a0 : at' tr0.parts 0 = .ok parts[0] := by rw [hp]; exact at_ok hne
  simp only [Wpg.planFeet, a0, ht, Bind.bind, Except.bind, e1, e2, q1]
  exact e3

/-! ## What is read -/

section
variable (hW : Walk parts) (hP : Places parts X yaw) (h0 : ∀ h : 0 < parts.length, parts[0].tStart = t0)
  (hS : Swings g parts) (tr0 tr : Traj) (hI : FeetInv g parts t0 X yaw V0 d0 tr0 parts.length tr)
  (hD : ∀ (i : Nat) (h : i < parts.length), parts[i].tEnd - parts[i].tStart = g.duration parts[i].support)
  (hF : ∀ (i : Nat) (h : i < parts.length), 0 < i → parts[i].support.elapsedRatio = 0)
include hW hS hI hD hF

/-- The swing of a part, at its two ends. -/
theorem swing_ends (i : Nat) (hi : i < parts.length) (f : Footstep) (hf : parts[i].support.footsteps = [f]) :
    ∃ w, tr.parts[i]? = some { parts[i] with swing := w } ∧
      w.read parts[i].tStart .value = .ok (X i f.side.other) ∧
      w.read parts[i].tStart .speed = .ok (if i = 0 then V0 f.side.other else 0) ∧
      w.read parts[i].tEnd .value = .ok (X (i + 1) f.side.other) ∧ w.read parts[i].tEnd .speed = .ok 0 := by
  obtain ⟨w, hw, hs⟩ := hI.keep i hi
  have hsw := hs hi f hf
  have hel : (if i = 0 then parts[i].support.elapsedRatio else 0) = parts[i].support.elapsedRatio := by
    split
    · rfl
    · exact (hF i hi (by omega)).symm
  have hel1 : parts[i].support.elapsedRatio < 1 := by
    by_cases h : i = 0
    · subst h; exact hS.elapsed hi
    · rw [hF i hi (by omega)]; exact zero_lt_one
  unfold SwingOf at hsw
  rw [hel] at hsw
  obtain ⟨s, h1, h2, h3, h4, h5⟩ := C87_ends wrapAngle parts[i].tStart (g.virtual parts[i].support) g.p.walkFootHeight
    g.p.walkFootRiseRatio (X i f.side.other) (X (i + 1) f.side.other) parts[i].support.elapsedRatio
    (if i = 0 then V0 f.side.other else 0) (hS.virt i hi f hf) hS.rise0 hS.rise1 hel1
  rw [h1] at hsw
  cases hsw
  have hend : parts[i].tStart + (1 - parts[i].support.elapsedRatio) * g.virtual parts[i].support = parts[i].tEnd := by
    have := hD i hi
    unfold Wpg.duration at this
    unfold Wpg.virtual
    linarith
  rw [hend] at h4 h5
  exact ⟨w, hw, h2, h3, h4, h5⟩

/-- Every part, at its two ends: both feet are where they should be. -/
theorem position_ends (hP : Places parts X yaw) (i : Nat) (hi : i < parts.length) (σ : Side) :
    ∃ p, tr.parts[i]? = some p ∧ p.tStart = parts[i].tStart ∧ p.tEnd = parts[i].tEnd ∧ p.support = parts[i].support ∧
      p.footPosition σ parts[i].tStart = .ok (X i σ) ∧ p.footPosition σ parts[i].tEnd = .ok (X (i + 1) σ) ∧
      ((∃ f ∈ parts[i].support.footsteps, f.side = σ) → ∀ t, p.footPosition σ t = .ok (X i σ)) := by
  rcases hW.shape i hi with ⟨f, hf⟩ | ⟨f, f', hf, hff⟩
  · obtain ⟨w, hw, r1, -, r3, -⟩ := swing_ends hW hS tr0 tr hI hD hF i hi f hf
    have hb : parts[i].support.isBoth = false := by unfold Support.isBoth; rw [hf]; rfl
    have hside : parts[i].support.side = .ok f.side := by
      unfold Support.side
      rw [if_neg (by rw [hf]; simp)]
      rw [hf]
    refine ⟨_, hw, rfl, rfl, rfl, ?_⟩
    rcases side_cases f.side σ with rfl | rfl
    · have hfr := frame_of_mem (s := parts[i].support) (f := f) (by rw [hf]; simp) (Or.inl ⟨f, hf⟩)
      have hx := hP.first i hi f (by rw [hf]; simp)
      have hx' := hP.last i hi f (by rw [hf]; simp)
      have hp : ∀ t, ({ parts[i] with swing := w } : Part).footPosition f.side t = .ok f.frame.translation := by
        intro t
        have hn : ¬ f.side = f.side.other := fun e => other_ne _ e.symm
        simp only [Part.footPosition, Part.isFlying, hb, hside, hfr, Bind.bind, Except.bind, Bool.false_eq_true, if_false,
          hn, decide_false]
      refine ⟨?_, ?_, fun _ t => ?_⟩
      · rw [hp, hx.1]
      · rw [hp, hx'.1]
      · rw [hp, hx.1]
    · have hp : ∀ t, ({ parts[i] with swing := w } : Part).footPosition f.side.other t = w.read t .value := by
        intro t
        simp only [Part.footPosition, Part.isFlying, hb, hside, Bind.bind, Except.bind, Bool.false_eq_true, if_false,
          other_other, decide_true, if_true]
      refine ⟨by rw [hp, r1], by rw [hp, r3], ?_⟩
      rintro ⟨a, ha, hs⟩
      rw [hf, List.mem_singleton] at ha
      subst ha
      exact absurd hs.symm (other_ne _)
  · obtain ⟨w, hw, -⟩ := hI.keep i hi
    have hb : parts[i].support.isBoth = true := by unfold Support.isBoth; rw [hf]; rfl
    have key : ∀ a ∈ parts[i].support.footsteps, ∀ t,
        ({ parts[i] with swing := w } : Part).footPosition a.side t = .ok a.frame.translation := by
      intro a ha t
      have hfr := frame_of_mem ha (Or.inr ⟨f, f', hf, hff⟩)
      simp only [Part.footPosition, Part.isFlying, hb, hfr, Bind.bind, Except.bind, Bool.false_eq_true, if_false, if_true]
    have hmem : ∃ a ∈ parts[i].support.footsteps, a.side = σ := by
      rcases side_cases f.side σ with rfl | rfl
      · exact ⟨f, by rw [hf]; simp, rfl⟩
      · exact ⟨f', by rw [hf]; simp, hff⟩
    obtain ⟨a, ha, rfl⟩ := hmem
    refine ⟨_, hw, rfl, rfl, rfl, ?_, ?_, fun _ t => ?_⟩
    · rw [key a ha, (hP.first i hi a ha).1]
    · rw [key a ha, (hP.last i hi a ha).1]
    · rw [key a ha, (hP.first i hi a ha).1]

theorem contiguous_result (hne : 0 < parts.length) : Contiguous tr.parts := by
  have hget : ∀ (i : Nat) (h : i < parts.length) (h' : i < tr.parts.length),
      tr.parts[i].tStart = parts[i].tStart ∧ tr.parts[i].tEnd = parts[i].tEnd := by
    intro i h h'
    obtain ⟨w, hw, -⟩ := hI.keep i h
    rw [List.getElem?_eq_getElem h'] at hw
    rw [Option.some.inj hw]
    exact ⟨rfl, rfl⟩
  have hl := hI.len
  constructor
  · intro i h
    obtain ⟨a, b⟩ := hget i (by omega) h
    rw [a, b]
    exact (hW.lasts i (by omega)).le
  · intro i h
    rw [(hget i (by omega) (by omega)).2, (hget (i + 1) (by omega) h).1]
    exact hW.joined i (by omega)

/-- The part served at time `t` contains it. -/
theorem served (hne : 0 < parts.length) (t : ℝ) (ha : parts[0].tStart ≤ t) (hb : t ≤ parts[parts.length - 1].tEnd) :
    ∃ (k : Nat) (hk : k < parts.length) (p : Part), tr.parts[k]? = some p ∧ findPart tr.parts t = .ok p ∧
      parts[k].tStart ≤ t ∧ t ≤ parts[k].tEnd := by
  have hc := contiguous_result hW hS tr0 tr hI hD hF hne
  have hl := hI.len
  have hnil : tr.parts ≠ [] := by intro e; rw [e] at hl; simp at hl; omega
  obtain ⟨p, hm, hp, hin, -⟩ := (C81 tr.parts t).2 hnil hc
  obtain ⟨k, hk, rfl⟩ := List.getElem_of_mem hm
  have hget : ∀ (i : Nat) (h : i < parts.length) (h' : i < tr.parts.length),
      tr.parts[i].tStart = parts[i].tStart ∧ tr.parts[i].tEnd = parts[i].tEnd := by
    intro i h h'
    obtain ⟨w, hw, -⟩ := hI.keep i h
    rw [List.getElem?_eq_getElem h'] at hw
    rw [Option.some.inj hw]
    exact ⟨rfl, rfl⟩
  obtain ⟨c, d⟩ := hin (by rw [List.head_eq_getElem, (hget 0 hne (by omega)).1]; exact ha)
    (by
      rw [List.getLast_eq_getElem, (hget (tr.parts.length - 1) (by omega) (by omega)).2]
      simp only [hl]; exact hb)
  rw [(hget k (by omega) hk).1] at c
  rw [(hget k (by omega) hk).2] at d
  exact ⟨k, by omega, _, List.getElem?_eq_getElem hk, hp, c, d⟩

theorem boundary_mono (h0 : ∀ h : 0 < parts.length, parts[0].tStart = t0) (i j : Nat) (hij : i < j)
    (hj : j ≤ parts.length) : boundary t0 parts i < boundary t0 parts j := by
  induction j with
  | zero => omega
  | succ j ih =>
    have := boundary_lt hW h0 j (by omega)
    rcases Nat.lt_or_ge i j with h | h
    · exact (ih h (by omega)).trans this
    · have : i = j := by omega
      subst this
      assumption

/-- The position of a foot in the part served: at a boundary it does not depend on which part is served. -/
theorem served_at (hP : Places parts X yaw) (h0 : ∀ h : 0 < parts.length, parts[0].tStart = t0)
    (i : Nat) (hi : i < parts.length) (σ : Side) (t : ℝ) (ht0 : parts[i].tStart ≤ t) (ht1 : t ≤ parts[i].tEnd) :
    ∃ p, findPart tr.parts t = .ok p ∧
      (t = parts[i].tStart → p.footPosition σ t = .ok (X i σ)) ∧
      (t = parts[i].tEnd → p.footPosition σ t = .ok (X (i + 1) σ)) ∧
      ((∃ f ∈ parts[i].support.footsteps, f.side = σ) → p.footPosition σ t = .ok (X i σ)) ∧
      (parts[i].tStart < t → t < parts[i].tEnd → tr.parts[i]? = some p) := by
  have hne : 0 < parts.length := by omega
  have hlt : ∀ j < parts.length, boundary t0 parts j < boundary t0 parts (j + 1) := fun j hj => boundary_lt hW h0 j hj
  have bs := fun j (hj : j < parts.length) => boundary_start (t0 := t0) hW h0 j hj
  have be := fun j (hj : j < parts.length) => boundary_end (t0 := t0) j hj
  have hfirst : parts[0].tStart ≤ t := by
    rw [← bs 0 hne]
    rw [← bs i hi] at ht0
    rcases Nat.eq_zero_or_pos i with rfl | h
    · exact ht0
    · exact (boundary_mono hW hS tr0 tr hI hD hF h0 0 i h (by omega)).le.trans ht0
  have hlast : t ≤ parts[parts.length - 1].tEnd := by
    rw [← be (parts.length - 1) (by omega)]
    rw [← be i hi] at ht1
    rcases Nat.lt_or_ge i (parts.length - 1) with h | h
    · exact ht1.trans (boundary_mono hW hS tr0 tr hI hD hF h0 (i + 1) _ (by omega) (by omega)).le
    · have e : i = parts.length - 1 := by omega
      rw [← e]; exact ht1
  obtain ⟨k, hk, p, hp, hfp, c, d⟩ := served hW hS tr0 tr hI hD hF hne t hfirst hlast
  obtain ⟨p', hp', -, -, -, r1, r2, r3⟩ := position_ends hW hS tr0 tr hI hD hF hP k hk σ
  rw [hp] at hp'
  cases hp'
  refine ⟨p, hfp, ?_⟩
  have es := bs i hi
  have ee := be i hi
  rw [← bs i hi] at ht0
  rw [← be i hi] at ht1
  rw [← bs k hk] at c
  rw [← be k hk] at d
  rcases Nat.lt_trichotomy k i with hlt' | rfl | hgt
  · -- the part before
    have hki : k + 1 = i := by
      by_contra hne'
      have := boundary_mono hW hS tr0 tr hI hD hF h0 (k + 1) i (by omega) (by omega)
      linarith
    subst hki
    have ht : t = boundary t0 parts (k + 1) := le_antisymm d ht0
    have hst : t = parts[k].tEnd := by rw [ht, be k hk]
    have q : p.footPosition σ t = .ok (X (k + 1) σ) := by rw [hst]; exact r2
    refine ⟨fun _ => q, fun h => ?_, fun _ => q, fun h _ => by linarith⟩
    have := hlt (k + 1) hi
    rw [be (k + 1) hi] at this
    linarith
  · refine ⟨fun h => by rw [h]; exact r1, fun h => by rw [h]; exact r2, fun h => r3 h t, fun _ _ => hp⟩
  · -- the part after
    have hki : i + 1 = k := by
      by_contra hne'
      have := boundary_mono hW hS tr0 tr hI hD hF h0 (i + 1) k (by omega) (by omega)
      linarith
    subst hki
    have ht : t = boundary t0 parts (i + 1) := le_antisymm ht1 c
    have hst : t = parts[i + 1].tStart := by rw [ht, bs (i + 1) hk]
    have q : p.footPosition σ t = .ok (X (i + 1) σ) := by rw [hst]; exact r1
    refine ⟨fun h => ?_, fun _ => q, ?_, fun _ h => by linarith⟩
    · have := hlt i hi
      rw [bs i hi] at this
      linarith
    · rintro ⟨f, hf, rfl⟩
      rw [q, (hP.last i hi f hf).1, (hP.first i hi f hf).1]

/-- A foot at a boundary, or a foot of the support at any time of the part. -/
theorem foot_read (hP : Places parts X yaw) (h0 : ∀ h : 0 < parts.length, parts[0].tStart = t0)
    (hd : ∀ (h : 0 < parts.length), ∀ f ∈ parts[0].support.footsteps, d0 f.side = 0)
    (i : Nat) (hi : i < parts.length) (σ : Side) (t : ℝ) :
    (t = parts[i].tStart → tr.getTWorldFoot σ t = .ok (tr0.T.mul ⟨rotZ (yaw i σ), X i σ⟩)) ∧
    (t = parts[i].tEnd → tr.getTWorldFoot σ t = .ok (tr0.T.mul ⟨rotZ (yaw (i + 1) σ), X (i + 1) σ⟩)) ∧
    ((∃ f ∈ parts[i].support.footsteps, f.side = σ) → parts[i].tStart ≤ t → t ≤ parts[i].tEnd →
      tr.getTWorldFoot σ t = .ok (tr0.T.mul ⟨rotZ (yaw i σ), X i σ⟩)) := by
  have hne : 0 < parts.length := by omega
  have hlt : ∀ j < parts.length, boundary t0 parts j < boundary t0 parts (j + 1) := fun j hj => boundary_lt hW h0 j hj
  have hyaw : tr.footYaw σ = knots (boundary t0 parts) (fun j => yaw j σ) (d0 σ) parts.length :=
    (hI.yaw σ).1 (by rintro ⟨h, -⟩; omega)
  have bs := fun j (hj : j < parts.length) => boundary_start (t0 := t0) hW h0 j hj
  have be := fun j (hj : j < parts.length) => boundary_end (t0 := t0) j hj
  have hpos := served_at hW hS tr0 tr hI hD hF hP h0 i hi σ
  have build : ∀ (p : Part) (t a : ℝ) (x : V3) (b : ℝ), findPart tr.parts t = .ok p → p.footPosition σ t = .ok x →
      ((tr.footYaw σ).interpolation t .value).2 = .ok a → CongrAngle a b →
      tr.getTWorldFoot σ t = .ok (tr0.T.mul ⟨rotZ b, x⟩) := by
    intro p t a x b h1 h2 h3 h4
    simp only [Traj.getTWorldFoot, h1, h2, h3, Bind.bind, Except.bind, hI.T, buildFrame, rotZ_congr h4]
  refine ⟨fun h => ?_, fun h => ?_, fun hf ht0 ht1 => ?_⟩
  · obtain ⟨p, h1, h2, -⟩ := hpos t h.ge (by rw [h]; exact (hW.lasts i hi).le)
    refine build p t _ _ _ h1 (h2 h) ?_ (unwrapped_congr (fun j => yaw j σ) i)
    rw [hyaw, h, ← bs i hi]
    exact (knots_at_first (boundary t0 parts) (fun j => yaw j σ) (d0 σ) parts.length hlt i hi).1
  · obtain ⟨p, h1, -, h2, -⟩ := hpos t (by rw [h]; exact (hW.lasts i hi).le) h.le
    refine build p t _ _ _ h1 (h2 h) ?_ (unwrapped_congr (fun j => yaw j σ) (i + 1))
    rw [hyaw, h, ← be i hi]
    exact (knots_at_last (boundary t0 parts) (fun j => yaw j σ) (d0 σ) parts.length hlt i hi).1
  · obtain ⟨p, h1, -, -, h2, -⟩ := hpos t ht0 ht1
    refine build p t _ _ _ h1 (h2 hf) ?_ (unwrapped_congr (fun j => yaw j σ) i)
    rw [hyaw]
    obtain ⟨f, hm, rfl⟩ := hf
    refine (knots_flat (boundary t0 parts) (fun j => yaw j f.side) (d0 f.side) parts.length hlt i hi ?_ ?_ t ?_ ?_).1
    · show yaw (i + 1) f.side = yaw i f.side
      rw [(hP.last i hi f hm).2, (hP.first i hi f hm).2]
    · rintro rfl
      exact hd hne f hm
    · rw [bs i hi]; exact ht0
    · rw [be i hi]; exact ht1

end

end

end Verif.Humanoid
