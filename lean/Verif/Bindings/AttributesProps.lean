/-
Theorems about the attributes of the Python objects (C200).
-/
import Mathlib.Data.List.Nodup
import Verif.Bindings.Attributes

namespace Verif.Bindings
variable {V : Type}

/-! ## Specification -/

/-- The value that an attribute should have: the last one that it was given, or the first one. -/
def lastAssigned (a : String) (v : V) : List (String × V) → V
  | [] => v
  | (b, w) :: l => lastAssigned a (if b = a then w else v) l

/-- The attributes of a class that the bindings let Python assign, and those it can only read. -/
def PyClass.Assignable (c : PyClass) (a : String) : Prop := ∃ p ∈ c.attrs, p.name = a ∧ p.setter ≠ none
def PyClass.ReadOnly (c : PyClass) (a : String) : Prop := ∃ p ∈ c.attrs, p.name = a ∧ p.setter = none

/-! ## Each class -/

/-- Two attributes do not have the same name or the same member, and a member that is written is the one that is read. -/
private def Sound (c : PyClass) : Bool :=
  (c.attrs.map PyAttr.name).Nodup && (c.attrs.map PyAttr.getter).Nodup && c.attrs.all fun p => p.setter = none || p.setter = some p.getter

private theorem classes_sound : ∀ c ∈ pyClasses, c.name ≠ "Segment" → Sound c = true := by decide +kernel

private theorem find_of_mem {c : PyClass} (h : (c.attrs.map PyAttr.name).Nodup) {p : PyAttr} (hp : p ∈ c.attrs) : c.find p.name = some p := by
  unfold PyClass.find
  generalize c.attrs = l at h hp
  induction l with
  | nil => cases hp
  | cons q l ih =>
    rw [List.map_cons, List.nodup_cons] at h
    rcases List.mem_cons.mp hp with rfl | hp'
    · rw [List.find?_cons_of_pos (by simp)]
    · have hne : q.name ≠ p.name := fun he => h.1 (he ▸ List.mem_map.mpr ⟨p, hp', rfl⟩)
      rw [List.find?_cons_of_neg (by simpa using hne)]
      exact ih h.2 hp'

private theorem mem_of_find {c : PyClass} {a : String} {p : PyAttr} (h : c.find a = some p) : p ∈ c.attrs ∧ p.name = a := by
  unfold PyClass.find at h
  exact ⟨List.mem_of_find?_eq_some h, by simpa using List.find?_some h⟩

/-- One assignment changes what an attribute reads only if it is an assignment of this attribute. -/
private theorem get_set {c : PyClass} (hc : Sound c = true) {p : PyAttr} (hp : p ∈ c.attrs) (o : PyObj V) (b : String) (w : V) :
    (o.set c b w).1.member p.getter = if b = p.name ∧ p.setter ≠ none then w else o.member p.getter := by
  unfold Sound at hc
  simp only [Bool.and_eq_true, decide_eq_true_eq, List.all_eq_true, Bool.or_eq_true] at hc
  obtain ⟨⟨h1, h2⟩, h3⟩ := hc
  unfold PyObj.set
  cases hb : c.find b with
  | none =>
    have : b ≠ p.name := by rintro rfl; rw [find_of_mem h1 hp] at hb; cases hb
    simp [this]
  | some q =>
    obtain ⟨hq, rfl⟩ := mem_of_find hb
    dsimp only
    cases hs : q.setter with
    | none =>
      dsimp only
      by_cases e : q.name = p.name
      · have : q = p := by
          have a1 := find_of_mem h1 hq
          rw [e, find_of_mem h1 hp] at a1
          exact (Option.some.inj a1).symm
        subst this
        simp [hs]
      · simp [e]
    | some m =>
      dsimp only
      have hm : m = q.getter := by
        rcases h3 q hq with h | h
        · rw [hs] at h; cases h
        · rw [hs] at h; exact Option.some.inj h
      subst hm
      by_cases e : q.name = p.name
      · have : q = p := by
          have a1 := find_of_mem h1 hq
          rw [e, find_of_mem h1 hp] at a1
          exact (Option.some.inj a1).symm
        subst this
        simp [hs]
      · have hg : p.getter ≠ q.getter := fun hg => e (by
          have := List.inj_on_of_nodup_map h2 hq hp hg.symm
          rw [this])
        simp [e, hg]

/-- **C200.** In every class but `Segment`: after any sequence of assignments of any names, an attribute that can be assigned reads the last value that
it was given, one that cannot be reads its first value and its assignment raises an error, whatever the other assignments. Missing: `Segment`
(`C200_refuted`). -/
theorem C200_partial (c : PyClass) (hc : c ∈ pyClasses) (hn : c.name ≠ "Segment") (o : PyObj V) (l : List (String × V)) :
    (∀ a, c.Assignable a → ∃ v, o.get c a = some v ∧ (o.run c l).get c a = some (lastAssigned a v l) ∧ ∀ w, ((o.run c l).set c a w).2 = false) ∧
    (∀ a, c.ReadOnly a → (o.run c l).get c a = o.get c a ∧ ∀ w, (o.run c l).set c a w = (o.run c l, true)) := by
  have hs := classes_sound c hc hn
  have h1 : (c.attrs.map PyAttr.name).Nodup := by
    unfold Sound at hs
    simp only [Bool.and_eq_true, decide_eq_true_eq] at hs
    exact hs.1.1
  have hget : ∀ p ∈ c.attrs, ∀ o : PyObj V, o.get c p.name = some (o.member p.getter) := by
    intro p hp o
    unfold PyObj.get
    rw [find_of_mem h1 hp]
  constructor
  · rintro a ⟨p, hp, rfl, hset⟩
    refine ⟨o.member p.getter, hget p hp o, ?_, ?_⟩
    · rw [hget p hp]
      congr 1
      induction l generalizing o with
      | nil => rfl
      | cons x l ih =>
        unfold PyObj.run at ih ⊢
        rw [List.foldl_cons, ih, get_set hs hp]
        obtain ⟨b, w⟩ := x
        simp only [lastAssigned, hset, ne_eq, not_false_eq_true, and_true]
    · intro w
      unfold PyObj.set
      rw [find_of_mem h1 hp]
      cases h : p.setter with
      | none => exact absurd h hset
      | some m => simp [h]
  · rintro a ⟨p, hp, rfl, hset⟩
    constructor
    · rw [hget p hp, hget p hp]
      congr 1
      induction l generalizing o with
      | nil => rfl
      | cons x l ih =>
        unfold PyObj.run at ih ⊢
        rw [List.foldl_cons, ih, get_set hs hp]
        simp [hset]
    · intro w
      unfold PyObj.set
      rw [find_of_mem h1 hp]
      simp [hset]

/-- **C200 is false** for `Segment`: whatever is assigned, the end of a segment stays the one of the constructor, although no assignment raises
anything; and the start is the last value given to the start or to the end. -/
theorem C200_refuted (o : PyObj V) (l : List (String × V)) :
    ⟨"Segment", attrsSegment⟩ ∈ pyClasses ∧ PyClass.Assignable ⟨"Segment", attrsSegment⟩ "end" ∧
    (o.run ⟨"Segment", attrsSegment⟩ l).get ⟨"Segment", attrsSegment⟩ "end" = o.get ⟨"Segment", attrsSegment⟩ "end" ∧
    (∀ w, ((o.run ⟨"Segment", attrsSegment⟩ l).set ⟨"Segment", attrsSegment⟩ "end" w).2 = false ∧
      ((o.run ⟨"Segment", attrsSegment⟩ l).set ⟨"Segment", attrsSegment⟩ "end" w).1.get ⟨"Segment", attrsSegment⟩ "start" = some w) ∧
    (o.run ⟨"Segment", attrsSegment⟩ l).get ⟨"Segment", attrsSegment⟩ "start" =
      some (lastAssigned "start" (o.member "start") (l.map fun p => (if p.1 = "end" then "start" else p.1, p.2))) := by
  have hstart : PyClass.find ⟨"Segment", attrsSegment⟩ "start" = some ⟨"start", "start", some "start"⟩ := rfl
  have hend : PyClass.find ⟨"Segment", attrsSegment⟩ "end" = some ⟨"end", "end", some "start"⟩ := rfl
  have hother : ∀ a, a ≠ "start" → a ≠ "end" → PyClass.find ⟨"Segment", attrsSegment⟩ a = none := by
    intro a h1 h2
    simp [PyClass.find, attrsSegment, PyAttr.rw, Ne.symm h1, Ne.symm h2]
  have hstep : ∀ (o : PyObj V) a w, (o.set ⟨"Segment", attrsSegment⟩ a w).1.member "end" = o.member "end" ∧
      (o.set ⟨"Segment", attrsSegment⟩ a w).1.member "start" = if a = "start" ∨ a = "end" then w else o.member "start" := by
    intro o a w
    by_cases h1 : a = "start"
    · subst h1; simp [PyObj.set, hstart]
    · by_cases h2 : a = "end"
      · subst h2; simp [PyObj.set, hend]
      · simp [PyObj.set, hother a h1 h2, h1, h2]
  have hm : ∀ (l : List (String × V)) (o : PyObj V), (o.run ⟨"Segment", attrsSegment⟩ l).member "end" = o.member "end" ∧
      (o.run ⟨"Segment", attrsSegment⟩ l).member "start" =
        lastAssigned "start" (o.member "start") (l.map fun p => (if p.1 = "end" then "start" else p.1, p.2)) := by
    intro l
    induction l with
    | nil => intro o; exact ⟨rfl, rfl⟩
    | cons x l ih =>
      intro o
      obtain ⟨a, w⟩ := x
      have := ih (o.set ⟨"Segment", attrsSegment⟩ a w).1
      unfold PyObj.run at this ⊢
      rw [List.foldl_cons]
      refine ⟨this.1.trans (hstep o a w).1, this.2.trans ?_⟩
      rw [List.map_cons, lastAssigned, (hstep o a w).2]
      congr 1
      by_cases h2 : a = "end"
      · simp [h2]
      · simp [h2]
  refine ⟨by decide +kernel, ⟨⟨"end", "end", some "start"⟩, by decide +kernel, rfl, by simp⟩, ?_, ?_, ?_⟩
  · unfold PyObj.get
    rw [hend]
    exact congrArg some (hm l o).1
  · intro w
    refine ⟨by simp [PyObj.set, hend], ?_⟩
    unfold PyObj.get
    rw [hstart]
    simp [PyObj.set, hend]
  · unfold PyObj.get
    rw [hstart]
    exact congrArg some (hm l o).2

/-- **C200**, other names: an assignment of a name that is not an attribute of the class raises nothing and changes no member. -/
theorem C200_silent (c : PyClass) (o : PyObj V) (a : String) (v : V) (h : c.find a = none) :
    (o.set c a v).2 = false ∧ (o.set c a v).1.get c a = some v ∧ (o.set c a v).1.member = o.member := by
  have e : o.set c a v = ({ o with dict := fun k => if k = a then some v else o.dict k }, false) := by
    unfold PyObj.set
    rw [h]
  rw [e]
  refine ⟨rfl, ?_, rfl⟩
  unfold PyObj.get
  rw [h]
  simp

/-- The step of a solver, assigned twice. -/
example (o : PyObj Nat) : (o.run ⟨"KinematicsSolver", attrsKinematicsSolver⟩ [("dt", 1), ("N", 5), ("dt", 2)]).get
    ⟨"KinematicsSolver", attrsKinematicsSolver⟩ "dt" = some 2 := by
  obtain ⟨v, -, h, -⟩ := (C200_partial ⟨"KinematicsSolver", attrsKinematicsSolver⟩ (by decide +kernel) (by decide) o
    [("dt", 1), ("N", 5), ("dt", 2)]).1 "dt" ⟨.rw "dt", by decide +kernel, rfl, by simp [PyAttr.rw]⟩
  rw [h]
  rfl

end Verif.Bindings
