/-
The settings of the contacts, assigned from Python (C195).
-/
import Verif.Bindings.Contacts

namespace Verif.Bindings
variable {V : Type*}

/-- Specification: the settings of each contact, the data members that contacts.h documents as such. -/
def Setting : ContactCls → ContactAttr → Prop
  | _, .active | _, .mu | _, .weightForces | _, .weightTangentials | _, .weightMoments => True
  | .point, .unilateral | .point, .rWorldSurface => True
  | .sixD, .unilateral | .sixD, .length | .sixD, .width => True
  | .line, .unilateral | .line, .length | .line, .rWorldSurface => True
  | .wrench, .wExt => True
  | _, _ => False

/-- Specification: the value after a sequence of assignments is the last one given, or the first value. -/
def lastContactsGiven (a : ContactAttr) (v : V) : List (ContactAttr × V) → V
  | [] => v
  | (b, w) :: l => lastContactsGiven a (if b = a then w else v) l

private theorem set_cls (o : PyContact V) (a : ContactAttr) (v : V) : (o.set a v).1.cls = o.cls := by
  unfold PyContact.set
  split
  · split <;> rfl
  · rfl
  · rfl

/-- Every setting but one is a property that takes the contact itself. -/
private theorem setting_entry (c : ContactCls) (a : ContactAttr) (h : Setting c a) (hn : ¬ (c = .line ∧ a = .rWorldSurface)) :
    ∃ s, c.lookup a = some (.readwrite s) ∧ c.converts s = true := by
  cases c <;> cases a <;> first
    | exact ⟨_, rfl, rfl⟩
    | exact absurd ⟨rfl, rfl⟩ hn
    | exact h.elim

private theorem other_entry (c : ContactCls) (a : ContactAttr) (h : ¬ Setting c a) : ∀ s, c.lookup a ≠ some (.readwrite s) := by
  intro s
  cases c <;> cases a <;> first
    | exact absurd trivial h
    | (intro e; cases e)

private theorem set_member_setting (o : PyContact V) (a b : ContactAttr) (v : V) (h : Setting o.cls a)
    (hn : ¬ (o.cls = .line ∧ a = .rWorldSurface)) :
    (o.set b v).1.member a = if b = a then v else o.member a := by
  by_cases e : b = a
  · subst e
    obtain ⟨s, h1, h2⟩ := setting_entry _ _ h hn
    unfold PyContact.set
    simp only [h1, h2, if_true]
  · unfold PyContact.set
    split
    · split
      · simp only [if_neg e]; rw [if_neg (Ne.symm e)]
      · simp only [if_neg e]
    · simp only [if_neg e]
    · simp only [if_neg e]

private theorem set_member_same (o : PyContact V) (a b : ContactAttr) (v : V)
    (h : ∀ s, o.cls.lookup a = some (.readwrite s) → o.cls.converts s = false) : (o.set b v).1.member a = o.member a := by
  unfold PyContact.set
  split
  · next s hs =>
    split
    · next hc =>
      have : a ≠ b := by
        rintro rfl
        rw [h s hs] at hc
        cases hc
      simp only [if_neg this]
    · rfl
  · rfl
  · rfl

/-- **C195, partial.** For every class of contacts and every setting other than `LineContact.R_world_surface`, after any sequence of
assignments of any attributes, the member of the contact is the last value given, it is what Python reads, and assigning it raises nothing.
Members that are not settings are never changed. Missing: `LineContact.R_world_surface` (refuted below). -/
theorem C195_partial (o : PyContact V) (l : List (ContactAttr × V)) :
    (∀ a, Setting o.cls a → ¬ (o.cls = .line ∧ a = .rWorldSurface) →
      (o.run l).member a = lastContactsGiven a (o.member a) l ∧ (o.run l).get a = .ok (.value (lastContactsGiven a (o.member a) l)) ∧
      ∀ v, ((o.run l).set a v).2 = none) ∧
    (∀ a, ¬ Setting o.cls a → (o.run l).member a = o.member a) := by
  have hcls : (o.run l).cls = o.cls := by
    unfold PyContact.run
    induction l generalizing o with
    | nil => rfl
    | cons p l ih => rw [List.foldl_cons, ih, set_cls]
  constructor
  · intro a h hn
    have hm : (o.run l).member a = lastContactsGiven a (o.member a) l := by
      clear hcls
      unfold PyContact.run
      induction l generalizing o with
      | nil => rfl
      | cons p l ih =>
        obtain ⟨b, w⟩ := p
        rw [List.foldl_cons, ih _ (by rw [set_cls]; exact h) (by rw [set_cls]; exact hn), set_member_setting o a b w h hn]
        rfl
    obtain ⟨s, h1, h2⟩ := setting_entry _ _ h hn
    refine ⟨hm, ?_, fun v => ?_⟩
    · unfold PyContact.get
      simp only [hcls, h1, h2, if_true, hm]
    · unfold PyContact.set
      simp only [hcls, h1, h2, if_true]
  · intro a h
    clear hcls
    unfold PyContact.run
    induction l generalizing o with
    | nil => rfl
    | cons p l ih =>
      obtain ⟨b, w⟩ := p
      rw [List.foldl_cons, ih _ (by rw [set_cls]; exact h)]
      exact set_member_same o a b w fun s hs => absurd hs (other_entry _ _ h s)

/-- **C195, refuted.** `R_world_surface` of a line contact can be neither read nor assigned from Python, whatever was done before: the
accessors expect a `PointContact`. The surface of a line contact made from Python stays the one of the constructor. -/
theorem C195_refuted (o : PyContact V) (ho : o.cls = .line) (l : List (ContactAttr × V)) :
    Setting .line .rWorldSurface ∧
    (o.run l).get .rWorldSurface = .error .argumentError ∧
    (∀ v, (o.run l).set .rWorldSurface v = (o.run l, some .argumentError)) ∧
    (o.run l).member .rWorldSurface = o.member .rWorldSurface := by
  have hcls : (o.run l).cls = .line := by
    rw [← ho]
    clear ho
    unfold PyContact.run
    induction l generalizing o with
    | nil => rfl
    | cons p l ih => rw [List.foldl_cons, ih, set_cls]
  refine ⟨trivial, ?_, fun v => ?_, ?_⟩
  · unfold PyContact.get
    rw [hcls]
    rfl
  · unfold PyContact.set
    rw [hcls]
    rfl
  · clear hcls
    unfold PyContact.run
    induction l generalizing o with
    | nil => rfl
    | cons p l ih =>
      rw [List.foldl_cons, ih _ (by rw [set_cls]; exact ho)]
      apply set_member_same
      rw [ho]
      intro s hs
      cases hs
      rfl

/-- **C195**, other names: assigning a setting that belongs to other contacts (`length` of a point contact, `width` of a line contact) raises
nothing, is read back, and changes nothing in the contact. -/
theorem C195_silent (o : PyContact V) (a : ContactAttr) (v : V) (h : o.cls.lookup a = none) :
    (o.set a v).2 = none ∧ (o.set a v).1.get a = .ok (.value v) ∧ (o.set a v).1.member = o.member := by
  have e : o.set a v = ({ o with dict := fun b => if b = a then some v else o.dict b }, none) := by
    unfold PyContact.set
    rw [h]
  rw [e]
  refine ⟨rfl, ?_, rfl⟩
  unfold PyContact.get
  simp only [h, if_true]

/-- The friction of a point contact, assigned twice. -/
example : ((⟨.point, fun _ => 1, fun _ => none⟩ : PyContact Nat).run [(.mu, 2), (.unilateral, 0), (.mu, 3)]).get .mu = .ok (.value 3) :=
  ((C195_partial (⟨.point, fun _ => 1, fun _ => none⟩ : PyContact Nat) [(.mu, 2), (.unilateral, 0), (.mu, 3)]).1 .mu trivial
    (fun h => nomatch h.1)).2.1

/-- A line contact has no `width`. -/
example : ContactCls.line.lookup .width = none := rfl

end Verif.Bindings
