/-
Properties C37, C38, C39.
-/
import Mathlib.Data.Rat.Defs
import Mathlib.Data.List.Forall2
import Mathlib.Algebra.Field.Rat
import Verif.Tools.Mask

namespace Verif.Tools

/-- Specification: the axis named by a letter, in any case. -/
def axisOf : Char → Option (Fin 3)
  | 'x' => some 0
  | 'X' => some 0
  | 'y' => some 1
  | 'Y' => some 1
  | 'z' => some 2
  | 'Z' => some 2
  | _ => none

/-- Specification: the frame named by a string. -/
def frameOf : String → Option RefFrame
  | "task" => some .task
  | "world" => some .task
  | "local" => some .loc
  | "custom" => some .custom
  | _ => none

theorem toLower_toNat (c : Char) :
    c.toLower.toNat = if 65 ≤ c.toNat ∧ c.toNat ≤ 90 then c.toNat + 32 else c.toNat := by
  have hA : ('A'.val).toNat = 65 := rfl
  have hZ : ('Z'.val).toNat = 90 := rfl
  unfold Char.toLower
  by_cases h : c.val ≥ 'A'.val ∧ c.val ≤ 'Z'.val
  · rw [dif_pos h]
    have h1 : 65 ≤ c.toNat := by have := UInt32.le_iff_toNat_le.1 h.1; rw [hA] at this; exact this
    have h2 : c.toNat ≤ 90 := by have := UInt32.le_iff_toNat_le.1 h.2; rw [hZ] at this; exact this
    rw [if_pos ⟨h1, h2⟩]
    show (c.val + ('a'.val - 'A'.val)).toNat = c.toNat + 32
    rw [UInt32.toNat_add]
    have : ('a'.val - 'A'.val).toNat = 32 := rfl
    rw [this]
    have hc : c.val.toNat = c.toNat := rfl
    rw [hc]
    omega
  · rw [dif_neg h, if_neg]
    rintro ⟨h1, h2⟩
    apply h
    exact ⟨UInt32.le_iff_toNat_le.2 (by rw [hA]; exact h1), UInt32.le_iff_toNat_le.2 (by rw [hZ]; exact h2)⟩

theorem char_eq_iff (c d : Char) : c = d ↔ c.toNat = d.toNat :=
  ⟨fun h => by rw [h], fun h => Char.ext (UInt32.toNat_inj.1 h)⟩

theorem toLower_eq_iff (c : Char) :
    (c.toLower = 'x' ↔ c = 'x' ∨ c = 'X') ∧ (c.toLower = 'y' ↔ c = 'y' ∨ c = 'Y') ∧
    (c.toLower = 'z' ↔ c = 'z' ∨ c = 'Z') := by
  have e : 'x'.toNat = 120 ∧ 'X'.toNat = 88 ∧ 'y'.toNat = 121 ∧ 'Y'.toNat = 89 ∧ 'z'.toNat = 122 ∧ 'Z'.toNat = 90 :=
    ⟨rfl, rfl, rfl, rfl, rfl, rfl⟩
  obtain ⟨e1, e2, e3, e4, e5, e6⟩ := e
  simp only [char_eq_iff, toLower_toNat, e1, e2, e3, e4, e5, e6]
  split <;> omega

theorem axisOf_eq (c : Char) : axisOf c =
    if c.toLower = 'x' then some 0 else if c.toLower = 'y' then some 1 else if c.toLower = 'z' then some 2 else none := by
  obtain ⟨hx, hy, hz⟩ := toLower_eq_iff c
  simp only [hx, hy, hz]
  unfold axisOf
  split <;> simp_all

section
variable {K : Type} [Field K]

/-- What the loop of `set_axises` computes. -/
theorem pushAxes_spec (cs : List Char) : ∀ acc, (∀ l, cs.mapM axisOf = some l → pushAxes acc cs = (acc ++ l, none)) ∧
    (cs.mapM axisOf = none → (pushAxes acc cs).2 = some .runtimeError) := by
  induction cs with
  | nil => intro acc; exact ⟨by intro l h; simp at h; subst h; simp [pushAxes], by intro h; simp at h⟩
  | cons c cs ih =>
    intro acc
    have step : pushAxes acc (c :: cs) = match axisOf c with
        | some i => pushAxes (acc ++ [i]) cs
        | none => (acc, some .runtimeError) := by
      rw [axisOf_eq]
      simp only [pushAxes]
      split
      · rfl
      · split
        · rfl
        · split <;> rfl
    rw [step]
    cases hc : axisOf c with
    | none =>
      simp only
      refine ⟨fun l h => ?_, fun _ => trivial⟩
      rw [List.mapM_cons, hc] at h; cases h
    | some i =>
      simp only
      obtain ⟨h1, h2⟩ := ih (acc ++ [i])
      constructor
      · intro l h
        rw [List.mapM_cons, hc] at h
        cases hm : cs.mapM axisOf with
        | none => rw [hm] at h; cases h
        | some l' =>
          rw [hm] at h
          have : l = i :: l' := (Option.some.inj h).symm
          subst this
          rw [h1 l' hm]; simp
      · intro h
        apply h2
        rw [List.mapM_cons, hc] at h
        cases hm : cs.mapM axisOf with
        | none => rfl
        | some l' => rw [hm] at h; cases h

/-- Specification: row `i` of `M` seen in the chosen frame. -/
def rowIn (m : Mask K) (f : RefFrame) (M : Fin 3 → Nat → K) (i : Fin 3) (j : Nat) : K :=
  match f with
  | .task => M i j
  | .loc => m.rLocalWorld i 0 * M 0 j + m.rLocalWorld i 1 * M 1 j + m.rLocalWorld i 2 * M 2 j
  | .custom => m.rCustomWorld i 0 * M 0 j + m.rCustomWorld i 1 * M 1 j + m.rCustomWorld i 2 * M 2 j

/-- **C37.** For every string of x, y, z letters (any case, any length) and frame name,
`set_axises` succeeds and `apply` then returns one row per letter, in order: the row
named by the letter, in the chosen frame. Other strings raise. -/
theorem C37_mask (m : Mask K) (axises frame : String) :
    (∀ f l, frameOf frame = some f → axises.toList.mapM axisOf = some l →
      (m.setAxisesStr axises frame).2 = none ∧
      ∀ M, ((m.setAxisesStr axises frame).1.apply M) = l.map fun i => rowIn m f M i) ∧
    ((frameOf frame = none ∨ axises.toList.mapM axisOf = none) → (m.setAxisesStr axises frame).2 = some .runtimeError) := by
  have hset : m.setAxisesStr axises frame = match frameOf frame with
      | some f => m.setAxises axises f
      | none => (m, some .runtimeError) := by
    unfold Mask.setAxisesStr
    by_cases n1 : frame = "task"
    · subst n1; simp [frameOf]
    by_cases n2 : frame = "world"
    · subst n2; simp [frameOf]
    by_cases n3 : frame = "local"
    · subst n3; simp [frameOf]
    by_cases n4 : frame = "custom"
    · subst n4; simp [frameOf]
    have hn : frameOf frame = none := by
      unfold frameOf
      split <;> first | rfl | exact absurd rfl ‹_›
    rw [hn]
    simp [n1, n2, n3, n4]
  rw [hset]
  constructor
  · intro f l hf hl
    rw [hf]
    simp only [Mask.setAxises, (pushAxes_spec axises.toList []).1 l hl, List.nil_append]
    refine ⟨trivial, fun M => ?_⟩
    unfold Mask.apply
    simp only
    congr 1
    funext i j
    cases f
    · rfl
    · exact Fin.sum_univ_three _
    · exact Fin.sum_univ_three _
  · intro h
    cases hf : frameOf frame with
    | none => rfl
    | some f =>
      rcases h with h | h
      · rw [hf] at h; cases h
      · exact (pushAxes_spec axises.toList []).2 h

/-- **C37 (length).** One row per letter. -/
theorem C37_rows (axises : String) (l : List (Fin 3)) (h : axises.toList.mapM axisOf = some l) :
    l.length = axises.toList.length ∧ ∀ (k : Nat) (c : Char), axises.toList[k]? = some c → l[k]? = axisOf c := by
  generalize axises.toList = cs at h
  induction cs generalizing l with
  | nil => simp at h; subst h; simp
  | cons c cs ih =>
    rw [List.mapM_cons] at h
    cases hc : axisOf c with
    | none => rw [hc] at h; cases h
    | some i =>
      rw [hc] at h
      cases hm : cs.mapM axisOf with
      | none => rw [hm] at h; cases h
      | some l' =>
        rw [hm] at h
        have : l = i :: l' := (Option.some.inj h).symm
        subst this
        obtain ⟨h1, h2⟩ := ih l' hm
        refine ⟨by simp [h1], fun k d hd => ?_⟩
        cases k with
        | zero => simp at hd; subst hd; simp [hc]
        | succ k => simp at hd ⊢; exact h2 k d hd

/-- **C38, partial.** An unknown frame name leaves the mask unchanged; whatever raises, the
rotations are unchanged. Missing: unknown axis letters, for which the claim is false
(`C38_refuted`). -/
theorem C38_rejected_partial (m : Mask K) (axises frame : String) :
    (frameOf frame = none → m.setAxisesStr axises frame = (m, some .runtimeError)) ∧
    ((m.setAxisesStr axises frame).1.rLocalWorld = m.rLocalWorld ∧
      (m.setAxisesStr axises frame).1.rCustomWorld = m.rCustomWorld) := by
  constructor
  · intro h
    unfold Mask.setAxisesStr
    have n1 : frame ≠ "task" := by rintro rfl; simp [frameOf] at h
    have n2 : frame ≠ "world" := by rintro rfl; simp [frameOf] at h
    have n3 : frame ≠ "local" := by rintro rfl; simp [frameOf] at h
    have n4 : frame ≠ "custom" := by rintro rfl; simp [frameOf] at h
    simp [n1, n2, n3, n4]
  · unfold Mask.setAxisesStr Mask.setAxises
    split
    · exact ⟨rfl, rfl⟩
    · split
      · exact ⟨rfl, rfl⟩
      · split <;> exact ⟨rfl, rfl⟩

end

/-- **C38, refuted.** `set_axises("xq", "local")` on a fresh mask raises and leaves a mask
that keeps only the x row, in the local frame. -/
theorem C38_refuted :
    ((Mask.init (K := ℚ)).setAxisesStr "xq" "local").2 = some .runtimeError ∧
    ((Mask.init (K := ℚ)).setAxisesStr "xq" "local").1.indices = [0] ∧
    ((Mask.init (K := ℚ)).setAxisesStr "xq" "local").1.frame = .loc ∧
    ∃ M, ((Mask.init (K := ℚ)).setAxisesStr "xq" "local").1.apply M ≠ (Mask.init (K := ℚ)).apply M := by
  refine ⟨by decide +kernel, by decide +kernel, by decide +kernel, fun _ _ => 0, fun h => ?_⟩
  have := congrArg List.length h
  revert this
  decide +kernel

/-- **C39, partial.** When the priority is rejected, priority and weight are unchanged (but
the name is not: `C39_refuted`). Accepted priorities set the three fields. -/
theorem C39_rejected_partial {K : Type} (p : Prioritized K) (name priority : String) (weight : K) :
    ((p.configureStr name priority weight).2 ≠ none →
      (p.configureStr name priority weight).1.priority = p.priority ∧
      (p.configureStr name priority weight).1.weight = p.weight) ∧
    ((p.configureStr name priority weight).2 = none →
      (p.configureStr name priority weight).1 = ⟨name, (p.configureStr name priority weight).1.priority, weight⟩ ∧
      (p.configureStr name priority weight).1.priorityName = priority) ∧
    ((p.configureStr name priority weight).2 = none ↔ priority = "soft" ∨ priority = "hard" ∨ priority = "scaled") := by
  unfold Prioritized.configureStr priorityFromString Prioritized.priorityName
  by_cases h1 : priority = "soft"
  · subst h1; simp
  · by_cases h2 : priority = "hard"
    · subst h2; simp
    · by_cases h3 : priority = "scaled"
      · subst h3; simp
      · simp [h1, h2, h3]

/-- **C39, refuted.** -/
theorem C39_refuted :
    ((Prioritized.mk "a" .soft (1 : ℚ)).configureStr "b" "strong" 2) = (⟨"b", .soft, 1⟩, some .runtimeError) := by
  decide +kernel

/-- Non-vacuity of C37. -/
example : "xZy".toList.mapM axisOf = some [0, 2, 1] := by decide +kernel

end Verif.Tools
