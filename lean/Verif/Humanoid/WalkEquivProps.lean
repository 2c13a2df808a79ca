/-
Properties C216 and C217, from the footsteps: the walk planned on given footsteps does not depend on where they are, nor on when it is.
-/
import Verif.Humanoid.TranslateWalkProps
import Verif.Humanoid.DelayWalkProps

namespace Verif.Humanoid
open Verif.Problem Verif.Tools Verif.Robot Finset

/-- A support whose polygons were not read. -/
def Unread (s : Support) : Prop := s.computed = false ∧ ∀ f ∈ s.footsteps, f.computed = false

/-- The supports at another place. -/
def SupportsMoved (o : V2) (S S' : List Support) : Prop := S' = S.map (·.applyOffset o) ∧ ∀ s ∈ S, Unread s

section moved
variable {o : V2} {fs : List Footstep} (hf : ∀ f ∈ fs, f.computed = false)
include hf

theorem atFresh_moved (i : Nat) : ExRel (fun f f' => f' = f.offset o ∧ f.computed = false) (at' fs i) (at' (fs.map (·.offset o)) i) := by
  unfold at'
  rw [List.getElem?_map]
  cases h : fs[i]? with
  | none => exact .err _
  | some f => exact .ok ⟨rfl, hf f (List.mem_of_getElem? h)⟩

theorem single_moved (i : Nat) : ExRel (fun s s' => s' = s.applyOffset o ∧ Unread s) (single fs i) (single (fs.map (·.offset o)) i) := by
  unfold single
  refine (atFresh_moved hf i).bind fun f f' h => .ok ⟨?_, rfl, by simp [h.2]⟩
  rw [h.1]
  rfl

theorem double_moved (i : Nat) : ExRel (fun s s' => s' = s.applyOffset o ∧ Unread s) (double fs i) (double (fs.map (·.offset o)) i) := by
  unfold double
  refine (atFresh_moved hf i).bind fun f f' h => ?_
  refine (atFresh_moved hf (i + 1)).bind fun k k' h' => .ok ⟨?_, rfl, by simp [h.2, h'.2]⟩
  rw [h.1, h'.1]
  rfl

theorem supportsHead_moved (t : ℝ) (start middle : Bool) :
    ExRel (SupportsMoved o) (supportsHead fs t start middle) (supportsHead (fs.map (·.offset o)) t start middle) := by
  unfold supportsHead
  split
  · refine (double_moved hf 0).bind fun s s' h => .ok ⟨?_, by simp; exact h.2⟩
    rw [h.1]
    rfl
  · split
    · refine (single_moved hf 0).bind fun s s' h => ?_
      refine (double_moved hf 0).bind fun d d' h' => .ok ⟨?_, by simpa using ⟨h.2, h'.2⟩⟩
      rw [h.1, h'.1]
      rfl
    · refine (single_moved hf 0).bind fun s s' h => .ok ⟨?_, by simp; exact h.2⟩
      rw [h.1]
      rfl

theorem supportsAt_moved (middle : Bool) (step : Nat) :
    ExRel (SupportsMoved o) (supportsAt fs middle step) (supportsAt (fs.map (·.offset o)) middle step) := by
  unfold supportsAt
  rw [List.length_map]
  split
  · refine (single_moved hf step).bind fun s s' h => ?_
    refine (double_moved hf step).bind fun d d' h' => .ok ⟨?_, by simpa using ⟨h.2, h'.2⟩⟩
    rw [h.1, h'.1]
    rfl
  · refine (single_moved hf step).bind fun s s' h => .ok ⟨?_, by simpa using h.2⟩
    rw [h.1]
    rfl

theorem supportsLoop_moved (middle : Bool) (count : Nat) : ∀ step,
    ExRel (SupportsMoved o) (supportsLoop fs middle count step) (supportsLoop (fs.map (·.offset o)) middle count step) := by
  induction count with
  | zero => intro step; exact .ok ⟨rfl, by simp⟩
  | succ count ih =>
    intro step
    unfold supportsLoop
    refine (supportsAt_moved hf middle step).bind fun a a' ha => ?_
    refine (ih (step + 1)).bind fun b b' hb => .ok ⟨?_, ?_⟩
    · rw [ha.1, hb.1, List.map_append]
    · intro s hs
      rcases List.mem_append.1 hs with hs | hs
      · exact ha.2 s hs
      · exact hb.2 s hs

theorem makeSupports_moved (t : ℝ) (start middle isEnd : Bool) :
    ExRel (SupportsMoved o) (makeSupports fs t start middle isEnd) (makeSupports (fs.map (·.offset o)) t start middle isEnd) := by
  have app : ∀ a a' b b' : List Support, SupportsMoved o a a' → SupportsMoved o b b' → SupportsMoved o (a ++ b) (a' ++ b') := by
    intro a a' b b' ha hb
    refine ⟨by rw [ha.1, hb.1, List.map_append], ?_⟩
    intro s hs
    rcases List.mem_append.1 hs with hs | hs
    · exact ha.2 s hs
    · exact hb.2 s hs
  have hbody : ExRel (SupportsMoved o) (supportsBody fs t start middle) (supportsBody (fs.map (·.offset o)) t start middle) := by
    unfold supportsBody
    rw [List.length_map]
    split
    · refine (supportsHead_moved hf t start middle).bind fun a a' ha => ?_
      exact (supportsLoop_moved hf middle _ 1).bind fun b b' hb => .ok (app _ _ _ _ ha hb)
    · exact .ok ⟨rfl, by simp⟩
  have hend : ExRel (SupportsMoved o) (supportsEnd fs isEnd) (supportsEnd (fs.map (·.offset o)) isEnd) := by
    unfold supportsEnd
    rw [List.length_map]
    split
    · split
      · exact .err _
      · refine (double_moved hf _).bind fun s s' h => .ok ⟨?_, by simp; exact h.2⟩
        rw [h.1]
        rfl
    · exact .ok ⟨rfl, by simp⟩
  unfold makeSupports
  exact hbody.bind fun a a' ha => hend.bind fun b b' hb => .ok (app _ _ _ _ ha hb)

end moved

/-- From the footsteps: the walk on the footsteps at another place is the same walk at this place. -/
theorem C216_footsteps (g : Wpg) (hh : HullMoves g.hull) (fs : List Footstep) (hf : ∀ f ∈ fs, f.computed = false) (t : ℝ)
    (start middle isEnd : Bool) (com : V3) (t0 : ℝ) (o : V2) :
    ExRel (WalkMoved o) (makeSupports fs t start middle isEnd >>= fun S => g.plan S com t0)
      (makeSupports (fs.map (·.offset o)) t start middle isEnd >>= fun S => g.plan S (com + floorVec o) t0) := by
  refine (makeSupports_moved hf t start middle isEnd).bind fun S S' h => ?_
  rw [h.1]
  exact C216_walk g hh S (fun s hs => C216_fresh g.hull s (h.2 s hs).1 (h.2 s hs).2) com t0 o

/-! ## Delays -/

/-- The supports of a later walk. -/
def SupportsLater (τ : ℝ) (S S' : List Support) : Prop := S' = S.map (later τ)

theorem later_stamped (τ : ℝ) (s : Support) {t : ℝ} (ht : t ≠ -1) : { s with tStart := t + τ } = later τ { s with tStart := t } := by
  unfold later
  rw [if_neg ht]

theorem later_unset (τ : ℝ) {s : Support} (h : s.tStart = -1) : later τ s = s := by
  unfold later
  rw [if_pos h]

theorem single_unset (fs : List Footstep) (i : Nat) : ExRel (fun s s' => s' = s ∧ s.tStart = -1) (single fs i) (single fs i) := by
  unfold single
  exact (ExRel.refl (R := fun a b => a = b) (fun _ => rfl) _).bind fun f f' h => by subst h; exact .ok ⟨rfl, rfl⟩

theorem double_unset (fs : List Footstep) (i : Nat) : ExRel (fun s s' => s' = s ∧ s.tStart = -1) (double fs i) (double fs i) := by
  unfold double
  refine (ExRel.refl (R := fun a b => a = b) (fun _ => rfl) _).bind fun f f' h => ?_
  subst h
  exact (ExRel.refl (R := fun a b => a = b) (fun _ => rfl) _).bind fun k k' h => by subst h; exact .ok ⟨rfl, rfl⟩

theorem supportsHead_later (fs : List Footstep) (τ : ℝ) {t : ℝ} (ht : t ≠ -1) (start middle : Bool) :
    ExRel (SupportsLater τ) (supportsHead fs t start middle) (supportsHead fs (t + τ) start middle) := by
  unfold supportsHead SupportsLater
  split
  · refine (double_unset fs 0).bind fun s s' h => ?_
    rw [h.1]
    refine .ok ?_
    rw [List.map_singleton, ← later_stamped τ { s with start := true } ht]
  · split
    · refine (single_unset fs 0).bind fun s s' h => ?_
      rw [h.1]
      refine (double_unset fs 0).bind fun d d' h' => ?_
      rw [h'.1]
      refine .ok ?_
      rw [List.map_cons, List.map_singleton, ← later_stamped τ s ht, ← later_stamped τ d ht]
    · refine (single_unset fs 0).bind fun s s' h => ?_
      rw [h.1]
      refine .ok ?_
      rw [List.map_singleton, ← later_stamped τ s ht]

theorem supportsLoop_later (fs : List Footstep) (τ : ℝ) (middle : Bool) (count : Nat) : ∀ step,
    ExRel (SupportsLater τ) (supportsLoop fs middle count step) (supportsLoop fs middle count step) := by
  induction count with
  | zero => intro step; exact .ok rfl
  | succ count ih =>
    intro step
    unfold supportsLoop
    have hat : ExRel (SupportsLater τ) (supportsAt fs middle step) (supportsAt fs middle step) := by
      unfold supportsAt SupportsLater
      split
      · refine (single_unset fs step).bind fun s s' h => ?_
        rw [h.1]
        refine (double_unset fs step).bind fun d d' h' => ?_
        rw [h'.1]
        refine .ok ?_
        rw [List.map_cons, List.map_singleton, later_unset τ h.2, later_unset τ h'.2]
      · refine (single_unset fs step).bind fun s s' h => ?_
        rw [h.1]
        refine .ok ?_
        rw [List.map_singleton, later_unset τ h.2]
    refine hat.bind fun a a' ha => ?_
    refine (ih (step + 1)).bind fun b b' hb => .ok ?_
    rw [show a' = _ from ha, show b' = _ from hb]
    exact (List.map_append).symm

theorem makeSupports_later (fs : List Footstep) (τ : ℝ) {t : ℝ} (ht : t ≠ -1) (start middle isEnd : Bool) :
    ExRel (SupportsLater τ) (makeSupports fs t start middle isEnd) (makeSupports fs (t + τ) start middle isEnd) := by
  have app : ∀ a a' b b' : List Support, SupportsLater τ a a' → SupportsLater τ b b' → SupportsLater τ (a ++ b) (a' ++ b') := by
    intro a a' b b' ha hb
    rw [show a' = _ from ha, show b' = _ from hb]
    exact (List.map_append).symm
  have hbody : ExRel (SupportsLater τ) (supportsBody fs t start middle) (supportsBody fs (t + τ) start middle) := by
    unfold supportsBody
    split
    · refine (supportsHead_later fs τ ht start middle).bind fun a a' ha => ?_
      exact (supportsLoop_later fs τ middle _ 1).bind fun b b' hb => .ok (app _ _ _ _ ha hb)
    · exact .ok rfl
  have hend : ExRel (SupportsLater τ) (supportsEnd fs isEnd) (supportsEnd fs isEnd) := by
    unfold supportsEnd SupportsLater
    split
    · split
      · exact .err _
      · refine (double_unset fs _).bind fun s s' h => ?_
        rw [h.1]
        refine .ok ?_
        rw [List.map_singleton]
        have hs : ({ s with isEnd := true } : Support).tStart = -1 := h.2
        rw [later_unset τ hs]
    · exact .ok rfl
  unfold makeSupports
  exact hbody.bind fun a a' ha => hend.bind fun b b' hb => .ok (app _ _ _ _ ha hb)

/-- From the footsteps: the walk on the same footsteps planned later is the same walk later. -/
theorem C217_footsteps (g : Wpg) (fs : List Footstep) (t : ℝ) (ht : t ≠ -1) (start middle isEnd : Bool) (com : V3) (t0 τ : ℝ) :
    ExRel (WalkLater τ) (makeSupports fs t start middle isEnd >>= fun S => g.plan S com t0)
      (makeSupports fs (t + τ) start middle isEnd >>= fun S => g.plan S com (t0 + τ)) := by
  refine (makeSupports_later fs τ ht start middle isEnd).bind fun S S' h => ?_
  rw [show S' = _ from h]
  exact C217_walk g S com t0 τ

/-- Footsteps that meet the hypothesis of `C216_footsteps`: new ones. -/
example (p : Params) (A B : Affine) : ∀ f ∈ [p.createFootstep .left A, p.createFootstep .right B], f.computed = false := by
  simp [Params.createFootstep]

end Verif.Humanoid
