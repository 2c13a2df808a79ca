/-
C211: what a Python program can still use.
-/
import Mathlib.Data.List.Induction
import Verif.Bindings.Lifetime

namespace Verif.Bindings

/-! ## Specification -/

/-- The object `i` has a name, or is kept alive by an object that is itself kept alive. -/
inductive Kept (s : List HeapObj) : Nat → Prop
  | name {i : Nat} {o : HeapObj} : lookup s i = some o → o.held = true → Kept s i
  | via {i j : Nat} {o : HeapObj} : lookup s j = some o → i ∈ o.keeps → Kept s j → Kept s i

/-- The object `j` can be reached from `i` through references and pointers. -/
inductive Reaches (s : List HeapObj) : Nat → Nat → Prop
  | here (i : Nat) : Reaches s i i
  | through {i u j : Nat} {o : HeapObj} : lookup s i = some o → u ∈ o.uses → Reaches s u j → Reaches s i j

/-- The call neither gives an object to the constructor of another, nor reads such an object back. -/
def PyCall.Internal : PyCall → Prop
  | .construct _ _ => False
  | .existing _ _ => False
  | _ => True

/-! ## Proof -/

/-- References, keepers and bodies are older. -/
def Older : List HeapObj → Prop
  | [] => True
  | o :: l => (∀ k ∈ o.keeps, k < l.length) ∧ (∀ u ∈ o.uses, u < l.length) ∧ o.body ≤ l.length ∧ Older l

theorem lookup_lt {s : List HeapObj} {i : Nat} {o : HeapObj} (h : lookup s i = some o) : i < s.length := by
  induction s with
  | nil => cases h
  | cons a l ih =>
    rw [lookup] at h
    split at h
    · rename_i e; rw [e]; exact Nat.lt_succ_self _
    · exact Nat.lt_succ_of_lt (ih h)

theorem lookup_some {s : List HeapObj} {i : Nat} (h : i < s.length) : ∃ o, lookup s i = some o := by
  induction s with
  | nil => cases h
  | cons a l ih =>
    rw [lookup]
    split
    · exact ⟨a, rfl⟩
    · rename_i e; exact ih (by simp only [List.length_cons] at h; omega)

theorem lookup_cons_lt (o : HeapObj) (l : List HeapObj) {i : Nat} (h : i < l.length) : lookup (o :: l) i = lookup l i := by
  rw [lookup, if_neg (by omega)]

theorem lookup_top (o : HeapObj) (l : List HeapObj) : lookup (o :: l) l.length = some o := by rw [lookup, if_pos rfl]

theorem older_lookup {s : List HeapObj} (w : Older s) {i : Nat} {o : HeapObj} (h : lookup s i = some o) :
    (∀ k ∈ o.keeps, k < i) ∧ (∀ u ∈ o.uses, u < i) ∧ o.body ≤ i := by
  induction s with
  | nil => cases h
  | cons a l ih =>
    rw [lookup] at h
    split at h
    · rename_i e; cases h; rw [e]; exact ⟨w.1, w.2.1, w.2.2.1⟩
    · exact ih w.2.2.2 h

/-- The objects kept by names or by `kept`. -/
inductive KeptBy (s : List HeapObj) (kept : List Nat) : Nat → Prop
  | name {i : Nat} {o : HeapObj} : lookup s i = some o → o.held = true → KeptBy s kept i
  | given {i : Nat} : i ∈ kept → KeptBy s kept i
  | via {i j : Nat} {o : HeapObj} : lookup s j = some o → i ∈ o.keeps → KeptBy s kept j → KeptBy s kept i

theorem keptBy_nil (s : List HeapObj) (i : Nat) : KeptBy s [] i ↔ Kept s i := by
  constructor
  · intro h
    induction h with
    | name a b => exact .name a b
    | given h => cases h
    | via a b _ ih => exact .via a b ih
  · intro h
    induction h with
    | name a b => exact .name a b
    | via a b _ ih => exact .via a b ih

theorem keptBy_top {o : HeapObj} {l : List HeapObj} (w : Older (o :: l)) (kept : List Nat) :
    KeptBy (o :: l) kept l.length ↔ o.held = true ∨ l.length ∈ kept := by
  constructor
  · intro h
    cases h with
    | name a b => rw [lookup_top] at a; cases a; exact .inl b
    | given h => exact .inr h
    | via a b _ =>
      have h1 := (older_lookup w a).1 _ b
      have h2 := lookup_lt a
      simp only [List.length_cons] at h2
      omega
  · rintro (h | h)
    · exact .name (lookup_top o l) h
    · exact .given h

theorem keptBy_below {o : HeapObj} {l : List HeapObj} (w : Older (o :: l)) (kept : List Nat) {i : Nat} (hi : i < l.length) :
    KeptBy (o :: l) kept i ↔ KeptBy l (if o.held = true ∨ l.length ∈ kept then kept ++ o.keeps else kept) i := by
  constructor
  · intro h
    induction h with
    | name a b => rw [lookup_cons_lt o l hi] at a; exact .name a b
    | given h => refine .given ?_; split; exact List.mem_append_left _ h; exact h
    | @via i j o' a b hj ih =>
      rw [lookup] at a
      split at a
      · rename_i e
        cases a
        subst e
        have := (keptBy_top w kept).1 hj
        rw [if_pos this]
        exact .given (List.mem_append_right _ b)
      · exact .via a b (ih (lookup_lt a))
  · intro h
    induction h with
    | name a b => exact .name (by rw [lookup_cons_lt o l (lookup_lt a)]; exact a) b
    | given h =>
      split at h
      · rename_i e
        rcases List.mem_append.1 h with h | h
        · exact .given h
        · exact .via (lookup_top o l) h ((keptBy_top w kept).2 e)
      · exact .given h
    | via a b _ ih => exact .via (by rw [lookup_cons_lt o l (lookup_lt a)]; exact a) b (ih (lookup_lt a))

theorem collect_length (s : List HeapObj) (kept : List Nat) : (collect s kept).length = s.length := by
  induction s generalizing kept with
  | nil => rfl
  | cons o l ih => rw [collect]; split <;> simp [ih]

theorem collect_lookup (s : List HeapObj) (w : Older s) (kept : List Nat) (i : Nat) (o : HeapObj) (h : lookup s i = some o) :
    ∃ b, lookup (collect s kept) i = some { o with freed := b } ∧ (b = false ↔ KeptBy s kept i) := by
  induction s generalizing kept with
  | nil => cases h
  | cons a l ih =>
    by_cases hi : i = l.length
    · subst hi
      rw [lookup_top] at h
      cases h
      rw [collect, keptBy_top w]
      by_cases hc : o.held = true ∨ l.length ∈ kept
      · rw [if_pos hc]
        refine ⟨false, ?_, fun _ => hc, fun _ => rfl⟩
        rw [lookup, if_pos (collect_length _ _).symm]
      · rw [if_neg hc]
        refine ⟨true, ?_, fun h => (by cases h), fun h => absurd h hc⟩
        rw [lookup, if_pos (collect_length _ _).symm]
    · rw [lookup, if_neg hi] at h
      rw [keptBy_below w kept (lookup_lt h), collect]
      by_cases hc : a.held = true ∨ l.length ∈ kept
      · rw [if_pos hc, if_pos hc, lookup, if_neg (by rw [collect_length]; exact hi)]
        exact ih w.2.2.2 _ h
      · rw [if_neg hc, if_neg hc, lookup, if_neg (by rw [collect_length]; exact hi)]
        exact ih w.2.2.2 _ h

theorem allThere_iff (s : List HeapObj) (w : Older s) (todo : List Nat) : allThere s todo = true ↔
    ∀ i ∈ todo, ∀ j, Reaches s i j → ∀ o, lookup s j = some o → o.freed = false := by
  induction s generalizing todo with
  | nil => simp [allThere, lookup]
  | cons a l ih =>
    -- what is reached from an older object does not go through the last one
    have low : ∀ i j, Reaches (a :: l) i j → i < l.length → Reaches l i j ∧ j < l.length := by
      intro i j h
      induction h with
      | here i => exact fun hi => ⟨.here i, hi⟩
      | through x y _ ih =>
        intro hi
        rw [lookup_cons_lt a l hi] at x
        have := (older_lookup w.2.2.2 x).2.1 _ y
        obtain ⟨h1, h2⟩ := ih (by omega)
        exact ⟨.through x y h1, h2⟩
    have up : ∀ i j, Reaches l i j → i < l.length → Reaches (a :: l) i j := by
      intro i j h
      induction h with
      | here i => exact fun _ => .here i
      | through x y _ ih =>
        intro hi
        have := (older_lookup w.2.2.2 x).2.1 _ y
        exact .through (by rw [lookup_cons_lt a l hi]; exact x) y (ih (by omega))
    have out : ∀ i j, Reaches (a :: l) i j → l.length < i → j = i := by
      intro i j h hi
      cases h with
      | here => rfl
      | through x _ _ => have := lookup_lt x; simp only [List.length_cons] at this; omega
    have out' : ∀ i j, Reaches l i j → l.length ≤ i → j = i := by
      intro i j h hi
      cases h with
      | here => rfl
      | through x _ _ => have := lookup_lt x; omega
    have sub : ∀ todo' : List Nat, (∀ i ∈ todo', ∀ j, Reaches l i j → ∀ o, lookup l j = some o → o.freed = false) ↔
        ∀ i ∈ todo', i < l.length → ∀ j, Reaches (a :: l) i j → ∀ o, lookup (a :: l) j = some o → o.freed = false := by
      intro todo'
      constructor
      · intro h i hi hlt j hr o ho
        obtain ⟨h1, h2⟩ := low i j hr hlt
        exact h i hi j h1 o (by rw [← lookup_cons_lt a l h2]; exact ho)
      · intro h i hi j hr o ho
        by_cases hlt : i < l.length
        · exact h i hi hlt j (up i j hr hlt) o (by rw [lookup_cons_lt a l (lookup_lt ho)]; exact ho)
        · rw [out' i j hr (by omega)] at ho
          exact absurd (lookup_lt ho) hlt
    rw [allThere]
    by_cases hm : l.length ∈ todo
    · rw [if_pos hm, Bool.and_eq_true, ih w.2.2.2, sub]
      constructor
      · rintro ⟨h1, h2⟩ i hi j hr o ho
        have h1 : a.freed = false := by simpa using h1
        by_cases hlt : i < l.length
        · exact h2 i (List.mem_append_left _ hi) hlt j hr o ho
        · by_cases he : i = l.length
          · subst he
            cases hr with
            | here => rw [lookup_top] at ho; cases ho; exact h1
            | through x y hr' =>
              rw [lookup_top] at x
              cases x
              exact h2 _ (List.mem_append_right _ y) (w.2.1 _ y) j hr' o ho
          · rw [out i j hr (by omega)] at ho
            have := lookup_lt ho
            simp only [List.length_cons] at this
            omega
      · intro h
        refine ⟨by simp [h _ hm _ (.here _) a (lookup_top a l)], fun i hi hlt j hr o ho => ?_⟩
        rcases List.mem_append.1 hi with hi | hi
        · exact h i hi j hr o ho
        · exact h _ hm j (.through (lookup_top a l) hi hr) o ho
    · rw [if_neg hm, ih w.2.2.2, sub]
      constructor
      · intro h i hi j hr o ho
        by_cases hlt : i < l.length
        · exact h i hi hlt j hr o ho
        · have he : i ≠ l.length := fun e => hm (e ▸ hi)
          rw [out i j hr (by omega)] at ho
          have := lookup_lt ho
          simp only [List.length_cons] at this
          omega
      · exact fun h i hi _ => h i hi

/-! ### Invariants -/

/-- What is true of the memory at any time: an object is destroyed exactly when nothing keeps it. -/
structure PyOK (s : List HeapObj) : Prop where
  older : Older s
  freed : ∀ i o, lookup s i = some o → (o.freed = false ↔ Kept s i)

theorem kept_new {o : HeapObj} {l : List HeapObj} (hk : ∀ k ∈ o.keeps, Kept l k) {i : Nat} (hi : i < l.length) :
    Kept (o :: l) i ↔ Kept l i := by
  constructor
  · intro h
    induction h with
    | name a b => rw [lookup_cons_lt o l hi] at a; exact .name a b
    | @via i j o' a b hj ih =>
      rw [lookup] at a
      split at a
      · cases a; exact hk _ b
      · exact .via a b (ih (lookup_lt a))
  · intro h
    induction h with
    | name a b => exact .name (by rw [lookup_cons_lt o l (lookup_lt a)]; exact a) b
    | via a b _ ih => exact .via (by rw [lookup_cons_lt o l (lookup_lt a)]; exact a) b (ih (lookup_lt a))

theorem pyOK_new {o : HeapObj} {l : List HeapObj} (h : PyOK l) (ho : o.held = true) (hf : o.freed = false) (hk : ∀ k ∈ o.keeps, Kept l k ∧ k < l.length)
    (hu : ∀ u ∈ o.uses, u < l.length) (hb : o.body ≤ l.length) : PyOK (o :: l) := by
  have w : Older (o :: l) := ⟨fun k hk' => (hk k hk').2, hu, hb, h.older⟩
  refine ⟨w, fun i o' hl => ?_⟩
  by_cases hi : i < l.length
  · rw [kept_new (fun k hk' => (hk k hk').1) hi]
    rw [lookup_cons_lt o l hi] at hl
    exact h.freed i o' hl
  · have := lookup_lt hl
    simp only [List.length_cons] at this
    have : i = l.length := by omega
    subst this
    have hl' := hl
    rw [lookup_top] at hl'
    cases hl'
    exact ⟨fun _ => .name hl ho, fun _ => hf⟩

theorem unhold_length (s : List HeapObj) (i : Nat) : (unhold s i).length = s.length := by
  induction s with
  | nil => rfl
  | cons o l ih => rw [unhold]; split <;> simp [ih]

theorem unhold_lookup (s : List HeapObj) (i j : Nat) :
    lookup (unhold s i) j = if j = i then (lookup s j).map fun o => { o with held := false } else lookup s j := by
  induction s with
  | nil => simp [unhold, lookup]
  | cons o l ih =>
    rw [unhold]
    by_cases hi : i = l.length
    · rw [if_pos hi, lookup]
      by_cases hj : j = l.length
      · rw [if_pos hj, if_pos (by omega), lookup, if_pos hj]; rfl
      · rw [if_neg hj, if_neg (by omega), lookup, if_neg hj]
    · rw [if_neg hi, lookup, unhold_length]
      by_cases hj : j = l.length
      · rw [if_pos hj, if_neg (by omega), lookup, if_pos hj]
      · rw [if_neg hj, ih, lookup, if_neg hj]

theorem unhold_older (s : List HeapObj) (i : Nat) (w : Older s) : Older (unhold s i) := by
  induction s with
  | nil => trivial
  | cons o l ih =>
    rw [unhold]
    split
    · exact w
    · exact ⟨by rw [unhold_length]; exact w.1, by rw [unhold_length]; exact w.2.1, by rw [unhold_length]; exact w.2.2.1, ih w.2.2.2⟩

theorem collect_older (s : List HeapObj) (kept : List Nat) (w : Older s) : Older (collect s kept) := by
  induction s generalizing kept with
  | nil => trivial
  | cons o l ih =>
    rw [collect]
    split
    all_goals exact ⟨by rw [collect_length]; exact w.1, by rw [collect_length]; exact w.2.1, by rw [collect_length]; exact w.2.2.1, ih _ w.2.2.2⟩

theorem collect_back (s : List HeapObj) (w : Older s) (i : Nat) (o' : HeapObj) (h : lookup (collect s []) i = some o') :
    ∃ o, lookup s i = some o ∧ o'.body = o.body ∧ o'.uses = o.uses ∧ o'.keeps = o.keeps ∧ o'.held = o.held ∧ (o'.freed = false ↔ Kept s i) := by
  have hi := lookup_lt h
  rw [collect_length] at hi
  obtain ⟨o, ho⟩ := lookup_some hi
  obtain ⟨b, h1, h2⟩ := collect_lookup s w [] i o ho
  rw [h] at h1
  cases h1
  rw [keptBy_nil] at h2
  exact ⟨o, ho, rfl, rfl, rfl, rfl, h2⟩

theorem collect_kept (s : List HeapObj) (w : Older s) (i : Nat) : Kept (collect s []) i ↔ Kept s i := by
  constructor
  · intro h
    induction h with
    | name a b =>
      obtain ⟨o, ho, -, -, -, e, -⟩ := collect_back s w _ _ a
      exact .name ho (by rw [← e]; exact b)
    | via a b _ ih =>
      obtain ⟨o, ho, -, -, e, -, -⟩ := collect_back s w _ _ a
      exact .via ho (by rw [← e]; exact b) ih
  · intro h
    induction h with
    | name a b =>
      obtain ⟨c, h1, -⟩ := collect_lookup s w [] _ _ a
      exact .name h1 b
    | via a b _ ih =>
      obtain ⟨c, h1, -⟩ := collect_lookup s w [] _ _ a
      exact .via h1 b ih

theorem pyOK_collect (s : List HeapObj) (w : Older s) : PyOK (collect s []) :=
  ⟨collect_older s [] w, fun i o' h => by
    obtain ⟨o, -, -, -, -, -, e⟩ := collect_back s w i o' h
    rw [collect_kept s w]; exact e⟩

theorem checkUse_none {s : List HeapObj} {i : Nat} (h : checkUse s i = none) : ∃ o, lookup s i = some o ∧ o.held = true ∧ allThere s [o.body] = true := by
  unfold checkUse at h
  split at h
  · cases h
  · rename_i o ho
    split at h
    · rename_i hh
      split at h
      · rename_i ha; exact ⟨o, ho, hh, ha⟩
      · cases h
    · cases h

theorem checkAll_none {s : List HeapObj} {args : List Nat} (h : checkAll s args = none) : ∀ i ∈ args, checkUse s i = none := by
  induction args with
  | nil => intro i hi; cases hi
  | cons a l ih =>
    rw [checkAll] at h
    split at h
    · cases h
    · rename_i e
      intro i hi
      rcases List.mem_cons.1 hi with rfl | hi
      · exact e
      · exact ih h i hi

theorem bodyOf_eq {s : List HeapObj} {i : Nat} {o : HeapObj} (h : lookup s i = some o) : bodyOf s i = o.body := by
  unfold bodyOf; rw [h]

theorem pyOK_step (s : List HeapObj) (h : PyOK s) (c : PyCall) : PyOK (pyStep s c).1 := by
  cases c with
  | make => exact pyOK_new h rfl rfl (fun k hk => by cases hk) (fun k hk => by cases hk) (Nat.le_refl _)
  | construct c args =>
    rw [pyStep]
    split
    · exact h
    · rename_i e
      have hall := checkAll_none e
      refine pyOK_new h rfl rfl (fun k hk => ?_) (fun u hu => ?_) (Nat.le_refl _)
      · have hk : k ∈ args := by
          dsimp only at hk
          split at hk
          · exact hk
          · cases hk
        obtain ⟨o, ho, hh, -⟩ := checkUse_none (hall k hk)
        exact ⟨.name ho hh, lookup_lt ho⟩
      · obtain ⟨i, hi, rfl⟩ := List.mem_map.1 hu
        obtain ⟨o, ho, -, -⟩ := checkUse_none (hall i hi)
        rw [bodyOf_eq ho]
        exact Nat.lt_of_le_of_lt (older_lookup h.older ho).2.2 (lookup_lt ho)
  | internal p =>
    rw [pyStep]
    split
    · exact h
    · rename_i e
      obtain ⟨o, ho, hh, -⟩ := checkUse_none e
      refine pyOK_new h rfl rfl (fun k hk => ?_) (fun u hu => by cases hu) ?_
      · rw [List.mem_singleton.1 hk]; exact ⟨.name ho hh, lookup_lt ho⟩
      · show bodyOf s p ≤ s.length
        rw [bodyOf_eq ho]
        exact Nat.le_trans (older_lookup h.older ho).2.2 (Nat.le_of_lt (lookup_lt ho))
  | existing p k =>
    rw [pyStep]
    split
    · exact h
    · split
      · exact h
      · rename_i o ho
        split
        · exact h
        · rename_i b hb
          refine pyOK_new h rfl rfl (fun k hk => by cases hk) (fun u hu => by cases hu) ?_
          have := (older_lookup h.older ho).2.1 b (List.mem_of_getElem? hb)
          exact Nat.le_of_lt (Nat.lt_trans this (lookup_lt ho))
  | del i =>
    rw [pyStep]
    split
    · exact h
    · split
      · exact pyOK_collect _ (unhold_older s i h.older)
      · exact h
  | use i => exact h

theorem run_append (calls : List PyCall) (c : PyCall) : pyRun (calls ++ [c]) = (pyStep (pyRun calls) c).1 := by
  unfold pyRun; rw [List.foldl_append]; rfl

theorem pyOK_run (calls : List PyCall) : PyOK (pyRun calls) := by
  induction calls using List.reverseRecOn with
  | nil => exact ⟨trivial, fun i o h => by cases h⟩
  | append_singleton calls c ih => rw [run_append]; exact pyOK_step _ ih c

/-! ## The property -/

/-- **C211, memory.** After any program, an object is destroyed exactly when it has no name and no living object keeps it alive. -/
theorem C211_memory (calls : List PyCall) (i : Nat) (o : HeapObj) (h : lookup (pyRun calls) i = some o) :
    o.freed = true ↔ ¬ Kept (pyRun calls) i := by
  rw [← (pyOK_run calls).freed i o h]; simp

/-- **C211, exact form.** After any program, calling a method of an object that has a name is undefined behaviour exactly when an object
that it reaches through references has neither a name nor an object that keeps it alive. -/
theorem C211_exact (calls : List PyCall) (i : Nat) (o : HeapObj) (h : lookup (pyRun calls) i = some o) (hh : o.held = true) :
    (pyStep (pyRun calls) (.use i)).2 = some .ub ↔
      ∃ j, j < (pyRun calls).length ∧ Reaches (pyRun calls) o.body j ∧ ¬ Kept (pyRun calls) j := by
  have ok := pyOK_run calls
  have key := allThere_iff _ ok.older [o.body]
  rw [pyStep]
  unfold checkUse
  rw [h]
  dsimp only
  rw [if_pos hh]
  constructor
  · intro hu
    by_contra hc
    have : allThere (pyRun calls) [o.body] = true := by
      rw [key]
      intro i hi j hr o' ho'
      rw [List.mem_singleton.1 hi] at hr
      rw [ok.freed j o' ho']
      by_contra hk
      exact hc ⟨j, lookup_lt ho', hr, hk⟩
    rw [if_pos this] at hu
    cases hu
  · rintro ⟨j, hj, hr, hk⟩
    rw [if_neg]
    intro ha
    obtain ⟨o', ho'⟩ := lookup_some hj
    exact hk ((ok.freed j o' ho').1 (key.1 ha _ List.mem_cons_self j hr o' ho'))

/-- What programs without constructors that store references keep true. -/
structure PartsOK (s : List HeapObj) : Prop where
  uses : ∀ i o, lookup s i = some o → o.uses = []
  parts : ∀ i o, lookup s i = some o → o.body = i ∨ ∃ p ∈ o.keeps, bodyOf s p = o.body

theorem kept_body {s : List HeapObj} (w : Older s) (h : PartsOK s) : ∀ n i o, i ≤ n → lookup s i = some o → Kept s i → Kept s o.body := by
  intro n
  induction n with
  | zero =>
    intro i o hi ho hk
    have := (older_lookup w ho).2.2
    rw [show o.body = i by omega]; exact hk
  | succ n ih =>
    intro i o hi ho hk
    rcases h.parts i o ho with e | ⟨p, hp, e⟩
    · rw [e]; exact hk
    · have hlt := (older_lookup w ho).1 p hp
      obtain ⟨o', ho'⟩ := lookup_some (Nat.lt_trans hlt (lookup_lt ho))
      have := ih p o' (by omega) ho' (.via ho hp hk)
      rw [← e, bodyOf_eq ho']
      exact this

theorem bodyOf_new {o : HeapObj} {l : List HeapObj} {p : Nat} (hp : p < l.length) : bodyOf (o :: l) p = bodyOf l p := by
  unfold bodyOf; rw [lookup_cons_lt o l hp]

theorem parts_new {o : HeapObj} {l : List HeapObj} (w : Older (o :: l)) (h : PartsOK l) (hu : o.uses = [])
    (hb : o.body = l.length ∨ ∃ p ∈ o.keeps, bodyOf l p = o.body) : PartsOK (o :: l) := by
  refine ⟨fun i o' ho => ?_, fun i o' ho => ?_⟩
  · rw [lookup] at ho
    split at ho
    · cases ho; exact hu
    · exact h.uses i o' ho
  · rw [lookup] at ho
    split at ho
    · rename_i e
      cases ho
      rw [e]
      rcases hb with hb | ⟨p, hp, hb⟩
      · exact .inl hb
      · exact .inr ⟨p, hp, by rw [bodyOf_new (w.1 p hp)]; exact hb⟩
    · rcases h.parts i o' ho with e | ⟨p, hp, e⟩
      · exact .inl e
      · refine .inr ⟨p, hp, ?_⟩
        rw [bodyOf_new (Nat.lt_trans ((older_lookup w.2.2.2 ho).1 p hp) (lookup_lt ho))]
        exact e

theorem del_back (s : List HeapObj) (w : Older s) (i j : Nat) (o' : HeapObj) (h : lookup (collect (unhold s i) []) j = some o') :
    ∃ o, lookup s j = some o ∧ o'.body = o.body ∧ o'.uses = o.uses ∧ o'.keeps = o.keeps := by
  obtain ⟨o, ho, h1, h2, h3, -⟩ := collect_back _ (unhold_older s i w) j o' h
  rw [unhold_lookup] at ho
  split at ho
  · cases hl : lookup s j with
    | none => rw [hl] at ho; cases ho
    | some o2 => rw [hl] at ho; cases ho; exact ⟨o2, rfl, h1, h2, h3⟩
  · exact ⟨o, ho, h1, h2, h3⟩

theorem del_body (s : List HeapObj) (w : Older s) (i p : Nat) : bodyOf (collect (unhold s i) []) p = bodyOf s p := by
  cases h : lookup (collect (unhold s i) []) p with
  | some o' =>
    obtain ⟨o, ho, e, -⟩ := del_back s w i p o' h
    rw [bodyOf_eq h, bodyOf_eq ho, e]
  | none =>
    have : lookup s p = none := by
      cases h2 : lookup s p with
      | none => rfl
      | some o =>
        obtain ⟨o2, ho2⟩ := lookup_some (s := collect (unhold s i) []) (i := p) (by rw [collect_length, unhold_length]; exact lookup_lt h2)
        rw [h] at ho2; cases ho2
    unfold bodyOf
    rw [h, this]

theorem parts_step (s : List HeapObj) (ok : PyOK s) (h : PartsOK s) (c : PyCall) (hc : c.Internal) : PartsOK (pyStep s c).1 := by
  have ok' := pyOK_step s ok c
  cases c with
  | make => exact parts_new ok'.older h rfl (.inl rfl)
  | construct c args => cases hc
  | existing p k => cases hc
  | internal p =>
    revert ok'
    rw [pyStep]
    split
    · exact fun _ => h
    · intro ok'
      exact parts_new ok'.older h rfl (.inr ⟨p, List.mem_cons_self, rfl⟩)
  | del i =>
    rw [pyStep]
    split
    · exact h
    · split
      · refine ⟨fun j o' ho => ?_, fun j o' ho => ?_⟩
        · obtain ⟨o, h1, -, e, -⟩ := del_back s ok.older i j o' ho
          rw [e]; exact h.uses j o h1
        · obtain ⟨o, h1, e1, -, e2⟩ := del_back s ok.older i j o' ho
          rw [e1, e2]
          rcases h.parts j o h1 with e | ⟨p, hp, e⟩
          · exact .inl e
          · exact .inr ⟨p, hp, by rw [del_body s ok.older]; exact e⟩
      · exact h
  | use i => exact h

theorem no_ub_use {s : List HeapObj} (ok : PyOK s) (h : PartsOK s) (i : Nat) : checkUse s i ≠ some .ub := by
  unfold checkUse
  split
  · exact fun e => by cases e
  · rename_i o ho
    split
    · rename_i hh
      rw [if_pos]
      · exact fun e => by cases e
      · rw [allThere_iff _ ok.older]
        intro b hb j hr o' ho'
        rw [List.mem_singleton.1 hb] at hr
        have hk := kept_body ok.older h i i o (Nat.le_refl _) ho (.name ho hh)
        have : j = o.body := by
          cases hr with
          | here => rfl
          | through x y _ => rw [h.uses _ _ x] at y; cases y
        rw [ok.freed j o' ho', this]
        exact hk
    · exact fun e => by cases e

/-- **C211_partial.** Programs that only make objects and read parts of them (problems with their variables and constraints; robots): no
call is ever undefined behaviour, whatever the names that are forgotten. Missing: objects built from others, for which it is false
(`C211_refuted`). -/
theorem C211_partial (calls : List PyCall) (hc : ∀ c ∈ calls, c.Internal) (c : PyCall) (hc' : c.Internal) :
    (pyStep (pyRun calls) c).2 ≠ some .ub := by
  have key : PartsOK (pyRun calls) := by
    induction calls using List.reverseRecOn with
    | nil => exact ⟨fun i o h => (by cases h), fun i o h => (by cases h)⟩
    | append_singleton calls c ih =>
      rw [run_append]
      exact parts_step _ (pyOK_run calls) (ih fun c hc'' => hc c (List.mem_append_left _ hc'')) c (hc c (by simp))
  have ok := pyOK_run calls
  cases c with
  | make => exact fun e => by cases e
  | construct c args => cases hc'
  | existing p k => cases hc'
  | internal p =>
    rw [pyStep]
    split
    · rename_i e he
      exact fun h => no_ub_use ok key p (by rw [he]; exact h)
    · exact fun e => by cases e
  | del i =>
    rw [pyStep]
    split
    · exact fun e => by cases e
    · split
      · exact fun e => by cases e
      · exact fun e => by cases e
  | use i => exact no_ub_use ok key i

/-- The number of an object that owns its memory and still has a name. -/
def HeldOwner (s : List HeapObj) (b : Nat) : Prop := ∃ o, lookup s b = some o ∧ o.body = b ∧ o.held = true

/-- What programs that keep the names of the owners keep true. -/
def OwnersHeld (s : List HeapObj) : Prop := ∀ i o, lookup s i = some o → HeldOwner s o.body ∧ ∀ u ∈ o.uses, HeldOwner s u

theorem owner_new {o : HeapObj} {l : List HeapObj} {b : Nat} (h : HeldOwner l b) : HeldOwner (o :: l) b := by
  obtain ⟨o', h1, h2⟩ := h
  exact ⟨o', by rw [lookup_cons_lt o l (lookup_lt h1)]; exact h1, h2⟩

theorem owners_new {o : HeapObj} {l : List HeapObj} (h : OwnersHeld l) (hh : o.held = true) (hb : o.body = l.length ∨ HeldOwner l o.body)
    (hu : ∀ u ∈ o.uses, HeldOwner l u) : OwnersHeld (o :: l) := by
  intro i o' ho
  rw [lookup] at ho
  split at ho
  · cases ho
    refine ⟨?_, fun u h' => owner_new (hu u h')⟩
    rcases hb with hb | hb
    · rw [hb]; exact ⟨o, lookup_top o l, hb, hh⟩
    · exact owner_new hb
  · obtain ⟨h1, h2⟩ := h i o' ho
    exact ⟨owner_new h1, fun u h' => owner_new (h2 u h')⟩

theorem owners_step (s : List HeapObj) (ok : PyOK s) (h : OwnersHeld s) (c : PyCall) (hc : ∀ i, c = .del i → bodyOf s i ≠ i) :
    OwnersHeld (pyStep s c).1 := by
  cases c with
  | make => exact owners_new h rfl (.inl rfl) (fun u hu => by cases hu)
  | construct c args =>
    rw [pyStep]
    split
    · exact h
    · rename_i e
      refine owners_new h rfl (.inl rfl) (fun u hu => ?_)
      obtain ⟨i, hi, rfl⟩ := List.mem_map.1 hu
      obtain ⟨o, ho, -⟩ := checkUse_none (checkAll_none e i hi)
      rw [bodyOf_eq ho]
      exact (h i o ho).1
  | internal p =>
    rw [pyStep]
    split
    · exact h
    · rename_i e
      obtain ⟨o, ho, -⟩ := checkUse_none e
      refine owners_new h rfl (.inr ?_) (fun u hu => by cases hu)
      show HeldOwner s (bodyOf s p)
      rw [bodyOf_eq ho]
      exact (h p o ho).1
  | existing p k =>
    rw [pyStep]
    split
    · exact h
    · split
      · exact h
      · rename_i o ho
        split
        · exact h
        · rename_i b hb
          exact owners_new h rfl (.inr ((h _ o ho).2 b (List.mem_of_getElem? hb))) (fun u hu => by cases hu)
  | del i =>
    have hi := hc i rfl
    rw [pyStep]
    split
    · exact h
    · split
      · have keep : ∀ b, HeldOwner s b → HeldOwner (collect (unhold s i) []) b := by
          rintro b ⟨o, h1, h2, h3⟩
          have hne : b ≠ i := by
            rintro rfl
            exact hi (by rw [bodyOf_eq h1]; exact h2)
          have h4 : lookup (unhold s i) b = some o := by rw [unhold_lookup, if_neg hne]; exact h1
          obtain ⟨f, h5, -⟩ := collect_lookup _ (unhold_older s i ok.older) [] b o h4
          exact ⟨_, h5, h2, h3⟩
        intro j o' ho'
        obtain ⟨o, h1, e1, e2, -⟩ := del_back s ok.older i j o' ho'
        rw [e1, e2]
        exact ⟨keep _ (h j o h1).1, fun u hu => keep _ ((h j o h1).2 u hu)⟩
      · exact h
  | use i => exact h

theorem owners_no_ub {s : List HeapObj} (ok : PyOK s) (h : OwnersHeld s) (i : Nat) : checkUse s i ≠ some .ub := by
  unfold checkUse
  split
  · exact fun e => by cases e
  · rename_i o ho
    split
    · rw [if_pos]
      · exact fun e => by cases e
      · rw [allThere_iff _ ok.older]
        intro b hb j hr o' ho'
        rw [List.mem_singleton.1 hb] at hr
        have : ∀ b j, Reaches s b j → HeldOwner s b → HeldOwner s j := by
          intro b j hr
          induction hr with
          | here => exact fun h => h
          | through x y _ ih => exact fun _ => ih ((h _ _ x).2 _ y)
        obtain ⟨o2, h1, -, h3⟩ := this _ _ hr (h i o ho).1
        rw [ok.freed j o' ho']
        exact .name h1 h3
    · exact fun e => by cases e

theorem owners_no_ub_all {s : List HeapObj} (ok : PyOK s) (h : OwnersHeld s) (args : List Nat) : checkAll s args ≠ some .ub := by
  induction args with
  | nil => exact fun e => by cases e
  | cons a l ih =>
    rw [checkAll]
    split
    · rename_i e he
      exact fun h' => owners_no_ub ok h a (by rw [he]; exact h')
    · exact ih

/-- **C211, careful programs.** If a program forgets only the names of parts of other objects, and keeps those of the robots, parameters,
problems, solvers and so on, no call is ever undefined behaviour. -/
theorem C211_careful (calls : List PyCall) (hc : ∀ pre i post, calls = pre ++ .del i :: post → bodyOf (pyRun pre) i ≠ i) (c : PyCall) :
    (pyStep (pyRun calls) c).2 ≠ some .ub := by
  have ok := pyOK_run calls
  have key : OwnersHeld (pyRun calls) := by
    clear ok
    induction calls using List.reverseRecOn with
    | nil => exact fun i o h => by cases h
    | append_singleton calls c ih =>
      rw [run_append]
      refine owners_step _ (pyOK_run calls) (ih fun pre i post e => hc pre i (post ++ [c]) (by rw [e]; simp)) c ?_
      rintro i rfl
      exact hc calls i [] rfl
  cases c with
  | make => exact fun e => by cases e
  | construct c args =>
    rw [pyStep]
    split
    · rename_i e he
      exact fun h => owners_no_ub_all ok key args (by rw [he]; exact h)
    · exact fun e => by cases e
  | existing p k =>
    rw [pyStep]
    split
    · rename_i e he
      exact fun h => owners_no_ub ok key p (by rw [he]; exact h)
    · split
      · exact fun e => by cases e
      · split
        · exact fun e => by cases e
        · exact fun e => by cases e
  | internal p =>
    rw [pyStep]
    split
    · rename_i e he
      exact fun h => owners_no_ub ok key p (by rw [he]; exact h)
    · exact fun e => by cases e
  | del i =>
    rw [pyStep]
    split
    · exact fun e => by cases e
    · split
      · exact fun e => by cases e
      · exact fun e => by cases e
  | use i => exact owners_no_ub ok key i

/-- **C211 is false** of every class whose constructor stores references: when the name of the argument is forgotten (or when there was none,
as in `KinematicsSolver(RobotWrapper(…))`), the next method called is undefined behaviour. -/
theorem C211_refuted (c : Ctor) : (pyStep (pyRun [.make, .construct c [0], .del 0]) (.use 1)).2 = some .ub := by
  cases c <;> rfl

/-- **C211 is false** of the tasks too: they keep their solver alive, but not its robot. -/
theorem C211_refuted_task :
    (pyStep (pyRun [.make, .construct .kinematicsSolver [0], .internal 1, .del 1, .del 0]) (.use 2)).2 = some .ub ∧
    (pyStep (pyRun [.make, .construct .kinematicsSolver [0], .internal 1, .del 1]) (.use 2)).2 = none := ⟨rfl, rfl⟩

/-- **C211 is false** of the robot read from a solver: it does not keep the robot alive. -/
theorem C211_refuted_existing :
    (pyStep (pyRun [.make, .construct .kinematicsSolver [0], .existing 1 0, .del 0]) (.use 2)).2 = some .ub := rfl

/-- A variable keeps its problem alive. -/
example : (pyStep (pyRun [.make, .internal 0, .del 0]) (.use 1)).2 = none ∧ (pyStep (pyRun [.make, .internal 0, .del 0]) (.use 0)).2 = some .logicError :=
  ⟨rfl, rfl⟩

/-- A program that forgets the name of a task only. -/
example : ∀ pre i post, [PyCall.make, .construct .kinematicsSolver [0], .internal 1, .del 2] = pre ++ .del i :: post →
    bodyOf (pyRun pre) i ≠ i := by
  intro pre i post h
  rcases pre with _ | ⟨a, _ | ⟨b, _ | ⟨c, _ | ⟨d, pre⟩⟩⟩⟩ <;> simp at h
  obtain ⟨rfl, rfl, rfl, rfl, -⟩ := h
  decide

end Verif.Bindings
