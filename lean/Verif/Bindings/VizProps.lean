import Verif.Bindings.Viz
import Mathlib.Tactic.Ring
import Mathlib.Tactic.Linarith
import Mathlib.Tactic.FinCases

namespace Verif.Bindings

open Verif.Tools

/-! ## C161: what the viewer shows after any sequence of calls -/

theorem deleteFrom_apply {P : Type} (f : Shown P) (k n i : ℕ) :
    deleteFrom f k n i = if k ≤ i ∧ i < n then none else f i := by
  induction h : n - k generalizing f k with
  | zero =>
    rw [deleteFrom, if_neg (by omega), if_neg (by omega)]
  | succ m ih =>
    rw [deleteFrom, if_pos (by omega), ih _ (k + 1) (by omega)]
    by_cases hi : i = k
    · subst hi
      rw [if_neg (by omega), if_pos (by omega)]; simp
    · rw [Function.update_of_ne hi]
      by_cases h1 : k ≤ i ∧ i < n
      · rw [if_pos h1, if_pos (by omega)]
      · rw [if_neg h1, if_neg (by omega)]

theorem drawPoints_spec {P : Type} (ps : List P) (f : Shown P) (k : ℕ) :
    (drawPoints f k ps).2 = k + ps.length ∧
    ∀ i, (drawPoints f k ps).1 i = if i < k then f i else if i < k + ps.length then ps[i - k]? else f i := by
  induction ps generalizing f k with
  | nil => exact ⟨rfl, fun i => by
    rw [drawPoints]; simp only [List.length_nil, Nat.add_zero]; split <;> simp_all⟩
  | cons p ps ih =>
    obtain ⟨h1, h2⟩ := ih (Function.update f k (some p)) (k + 1)
    refine ⟨by rw [drawPoints, h1]; simp; omega, fun i => ?_⟩
    rw [drawPoints, h2 i]
    rcases Nat.lt_trichotomy i k with hi | hi | hi
    · rw [if_pos (by omega), if_pos hi, Function.update_of_ne (by omega)]
    · subst hi
      rw [if_pos (by omega), if_neg (by omega), if_pos (by simp)]; simp
    · rw [if_neg (show ¬ i < k + 1 by omega), if_neg (show ¬ i < k by omega), Function.update_of_ne (by omega)]
      have e : i - k = (i - (k + 1)) + 1 := by omega
      rw [e, List.getElem?_cons_succ]
      by_cases h : i < k + 1 + ps.length
      · rw [if_pos h, if_pos (by simp; omega)]
      · rw [if_neg h, if_neg (by simp; omega)]

/-- The points of the last call made with a name. -/
def lastPoints {P : Type} (name : String) : List (String × List P) → List P
  | [] => []
  | c :: cs => if cs.any (fun d => d.1 == name) then lastPoints name cs else if c.1 = name then c.2 else []

theorem points_run {P : Type} (calls : List (String × List P)) (name : String) (s : PointsSt P) (old : List P)
    (h : ∀ i, s.shown name i = old[i]?) (hz : s.sizes name = old.length) :
    let s' := calls.foldl (fun s c => s.viz c.1 c.2) s
    let last := if calls.any (fun d => d.1 == name) then lastPoints name calls else old
    (∀ i, s'.shown name i = last[i]?) ∧ s'.sizes name = last.length := by
  induction calls generalizing s old with
  | nil => exact ⟨h, hz⟩
  | cons c cs ih =>
    by_cases hc : c.1 = name
    · subst hc
      obtain ⟨d1, d2⟩ := drawPoints_spec c.2 (s.shown c.1) 0
      have := ih (s.viz c.1 c.2) c.2
        (fun i => by
          rw [PointsSt.viz]
          simp only [Function.update_self]
          rw [deleteFrom_apply, d1, d2, hz, h]
          simp only [Nat.zero_add, Nat.sub_zero, Nat.not_lt_zero, if_false]
          by_cases hi : i < c.2.length
          · rw [if_neg (by omega), if_pos hi]
          · rw [if_neg hi, List.getElem?_eq_none (by omega : c.2.length ≤ i)]
            by_cases ho : i < old.length
            · rw [if_pos (by omega)]
            · rw [if_neg (by omega), List.getElem?_eq_none (by omega)])
        (by rw [PointsSt.viz]; simp)
      simp only [List.foldl_cons, List.any_cons, beq_self_eq_true, Bool.true_or, if_true, lastPoints]
      simpa using this
    · have hn : (c.1 == name) = false := by simpa using hc
      have := ih (s.viz c.1 c.2) old
        (fun i => by
          rw [PointsSt.viz]
          simp only
          rw [Function.update_of_ne (Ne.symm hc)]; exact h i)
        (by rw [PointsSt.viz]; simp only; rw [Function.update_of_ne (Ne.symm hc)]; exact hz)
      simp only [List.foldl_cons, List.any_cons, hn, Bool.false_or, lastPoints, if_neg hc]
      by_cases ha : cs.any (fun d => d.1 == name)
      · simp only [ha, if_true] at this ⊢; exact this
      · simp only [ha, Bool.false_eq_true, if_false] at this ⊢; exact this

/-- **C161 (points).** After any sequence of calls of `points_viz`, the points shown under a
name are those of the last call made with this name: no point of an earlier call
remains. -/
theorem C161_points {P : Type} (calls : List (String × List P)) (name : String) (i : ℕ) :
    (calls.foldl (fun s c => s.viz c.1 c.2) PointsSt.init).shown name i = (lastPoints name calls)[i]? := by
  have h := (points_run calls name (PointsSt.init : PointsSt P) [] (fun i => by simp [PointsSt.init]) rfl).1 i
  by_cases ha : calls.any (fun d => d.1 == name)
  · rw [if_pos ha] at h; exact h
  · rw [if_neg ha] at h
    rw [h]
    have e : lastPoints name calls = [] := by
      cases calls with
      | nil => rfl
      | cons c cs =>
        simp only [List.any_cons, Bool.or_eq_true, not_or] at ha
        rw [lastPoints, if_neg ha.2, if_neg (by simpa using ha.1)]
    rw [e]

example : lastPoints "a" [("a", [1, 2, 3]), ("b", [4]), ("a", [5])] = [5] := by decide

theorem drawSteps_spec {P : Type} (ps : List (List P)) (f : Shown (List P)) (k : ℕ) :
    (∀ i, i ≤ k ∨ k + ps.length < i → (drawSteps f k ps).1 i = f i) ∧
    ((drawSteps f k ps).2 = none ↔ ∀ p ∈ ps, p ≠ []) ∧
    ((drawSteps f k ps).2 = none → ∀ j p, ps[j]? = some p →
      ∃ v, p.getLast? = some v ∧ (drawSteps f k ps).1 (k + 1 + j) = some (p ++ [v])) := by
  induction ps generalizing f k with
  | nil => refine ⟨fun _ _ => rfl, by simp [drawSteps], fun _ j p h => by simp at h⟩
  | cons q qs ih =>
    cases hq : q.getLast? with
    | none =>
      have e : q = [] := List.getLast?_eq_none_iff.1 hq
      have hd : drawSteps f k (q :: qs) = (f, some .outOfRange) := by rw [drawSteps, hq]
      rw [hd]
      exact ⟨fun _ _ => rfl, by simp [e], fun h => by simp at h⟩
    | some v =>
      have hd : drawSteps f k (q :: qs) =
          drawSteps (Function.update f (k + 1) (some (q ++ [v]))) (k + 1) qs := by rw [drawSteps, hq]
      have hne : q ≠ [] := by rintro rfl; simp at hq
      obtain ⟨h1, h2, h3⟩ := ih (Function.update f (k + 1) (some (q ++ [v]))) (k + 1)
      rw [hd]
      refine ⟨fun i hi => ?_, ?_, fun hok j p hj => ?_⟩
      · rw [h1 i (by simp at hi; omega), Function.update_of_ne (by simp at hi; omega)]
      · rw [h2]; simp [hne]
      · cases j with
        | zero =>
          simp only [List.getElem?_cons_zero, Option.some.injEq] at hj
          subst hj
          exact ⟨v, hq, by rw [h1 _ (by omega)]; simp⟩
        | succ j =>
          rw [List.getElem?_cons_succ] at hj
          obtain ⟨w, w1, w2⟩ := h3 hok j p hj
          have e : k + 1 + (j + 1) = k + 1 + 1 + j := by omega
          exact ⟨w, w1, by rw [e]; exact w2⟩

/-- Nothing is drawn outside the numbers `1 … steps`. -/
theorem steps_viz_range {P : Type} (s : StepsSt P) (fs : List (List P))
    (h : ∀ i, i = 0 ∨ s.steps < i → s.shown i = none) :
    ∀ i, i = 0 ∨ (s.viz fs).1.steps < i → (s.viz fs).1.shown i = none := by
  intro i hi
  simp only [StepsSt.viz] at hi ⊢
  rw [(drawSteps_spec fs _ 0).1 i (by omega)]
  by_cases hl : fs.length < s.steps
  · rw [if_pos hl]
  · rw [if_neg hl]; exact h i (by omega)

theorem steps_run_range {P : Type} (calls : List (List (List P))) (s : StepsSt P)
    (h : ∀ i, i = 0 ∨ s.steps < i → s.shown i = none) :
    ∀ i, i = 0 ∨ (calls.foldl (fun s c => (s.viz c).1) s).steps < i →
      (calls.foldl (fun s c => (s.viz c).1) s).shown i = none := by
  induction calls generalizing s with
  | nil => exact h
  | cons c cs ih => exact ih _ (steps_viz_range s c h)

/-- **C161 (footsteps).** Whatever was drawn before, and even if earlier calls raised, a call
of `footsteps_viz` succeeds exactly when no support polygon is empty, and then the
viewer shows the polygons of its footsteps, numbered from 1, and nothing else. -/
theorem C161_footsteps {P : Type} (calls : List (List (List P))) (fs : List (List P)) :
    let r := (calls.foldl (fun s c => (s.viz c).1) StepsSt.init).viz fs
    (r.2 = none ↔ ∀ p ∈ fs, p ≠ []) ∧
    (r.2 = none → ∀ i, (∀ p, i ≠ 0 → fs[i - 1]? = some p →
        ∃ v, p.getLast? = some v ∧ r.1.shown i = some (p ++ [v])) ∧
      (i = 0 ∨ fs.length < i → r.1.shown i = none)) := by
  intro r
  have hinv := steps_run_range calls (StepsSt.init : StepsSt P) (fun _ _ => rfl)
  have hr := steps_viz_range _ fs hinv
  refine ⟨?_, fun hok i => ⟨fun p hi hp => ?_, fun hi => hr i hi⟩⟩
  · exact (drawSteps_spec fs _ 0).2.1
  · obtain ⟨v, v1, v2⟩ := (drawSteps_spec fs _ 0).2.2 hok (i - 1) p hp
    refine ⟨v, v1, ?_⟩
    have e : 0 + 1 + (i - 1) = i := by omega
    rw [e] at v2
    exact v2

example : ((StepsSt.init.viz [[1, 2], [3]]).1.viz [[7]]).1.shown 2 = none ∧
    ((StepsSt.init.viz [[1, 2], [3]]).1.viz [[7]]).1.shown 1 = some [7, 7] := by decide

theorem drawContacts_spec {A : Type} (cs : List (VizContact A)) (n k : ℕ) (f : Shown A) (hn : n + k = cs.length) :
    ∃ g, drawContacts cs n f k = .ok (g, k + ((cs.drop k).takeWhile (·.active)).length) ∧
      ∀ i, g i = if k ≤ i ∧ i < k + ((cs.drop k).takeWhile (·.active)).length
        then ((cs[i]?.bind (·.arrow)) <|> f i) else f i := by
  induction n generalizing k f with
  | zero =>
    have e : cs.drop k = [] := by rw [List.drop_eq_nil_iff]; omega
    refine ⟨f, by rw [drawContacts, e]; simp, fun i => ?_⟩
    rw [e, if_neg (by simp)]
  | succ n ih =>
    have hk : k < cs.length := by omega
    have hd : cs.drop k = cs[k] :: cs.drop (k + 1) := List.drop_eq_getElem_cons hk
    have hg : cs[k]? = some cs[k] := List.getElem?_eq_getElem hk
    by_cases ha : cs[k].active = true
    · have hl : ((cs.drop k).takeWhile (·.active)).length = ((cs.drop (k + 1)).takeWhile (·.active)).length + 1 := by
        rw [hd, List.takeWhile_cons, if_pos ha]; simp
      rw [hl]
      cases hc : cs[k].arrow with
      | none =>
        obtain ⟨g, g1, g2⟩ := ih (k + 1) f (by omega)
        refine ⟨g, ?_, fun i => ?_⟩
        · rw [drawContacts, hg]; simp only [ha, if_true, hc, g1]; congr 2; omega
        · rw [g2 i]
          by_cases hi : i = k
          · subst hi
            rw [if_neg (by omega), if_pos (by omega), hg]; simp [hc]
          · by_cases h : k ≤ i ∧ i < k + (((cs.drop (k + 1)).takeWhile (·.active)).length + 1)
            · rw [if_pos h, if_pos (by omega)]
            · rw [if_neg h, if_neg (by omega)]
      | some a =>
        obtain ⟨g, g1, g2⟩ := ih (k + 1) (Function.update f k (some a)) (by omega)
        refine ⟨g, ?_, fun i => ?_⟩
        · rw [drawContacts, hg]; simp only [ha, if_true, hc, g1]; congr 2; omega
        · rw [g2 i]
          by_cases hi : i = k
          · subst hi
            rw [if_neg (by omega), if_pos (by omega), hg]; simp [hc]
          · rw [Function.update_of_ne hi]
            by_cases h : k ≤ i ∧ i < k + (((cs.drop (k + 1)).takeWhile (·.active)).length + 1)
            · rw [if_pos h, if_pos (by omega)]
            · rw [if_neg h, if_neg (by omega)]
    · have hl : (cs.drop k).takeWhile (·.active) = [] := by
        rw [hd, List.takeWhile_cons, if_neg ha]
      -- the loop stays on the same contact until it is over
      have hstay : ∀ m, drawContacts cs m f k = .ok (f, k) := by
        intro m
        induction m with
        | zero => rfl
        | succ m ihm =>
          rw [drawContacts, hg]
          simp only [ha, Bool.false_eq_true, if_false, ihm]
      refine ⟨f, by rw [hstay, hl]; simp, fun i => ?_⟩
      rw [hl, if_neg (by simp)]

/-- One call of `contacts_viz`. -/
theorem contacts_viz_spec {A : Type} (s : ContactsSt A) (cs : List (VizContact A))
    (hs : ∀ i, s.previous ≤ i → s.shown i = none) :
    ∃ s', s.viz cs = .ok s' ∧ s'.previous = (cs.takeWhile (·.active)).length ∧
      ∀ i, s'.shown i = if i < (cs.takeWhile (·.active)).length
        then ((cs[i]?.bind (·.arrow)) <|> s.shown i) else none := by
  obtain ⟨g, g1, g2⟩ := drawContacts_spec cs cs.length 0 s.shown (by omega)
  simp only [List.drop_zero, Nat.zero_add, Nat.zero_le, true_and] at g1 g2
  refine ⟨⟨deleteFrom g (cs.takeWhile (·.active)).length s.previous, (cs.takeWhile (·.active)).length⟩, ?_, rfl,
    fun i => ?_⟩
  · simp only [ContactsSt.viz, g1, Bind.bind, Except.bind]; rfl
  · simp only [deleteFrom_apply, g2 i]
    by_cases hi : i < (cs.takeWhile (·.active)).length
    · rw [if_neg (by omega), if_pos hi, if_pos hi]
    · rw [if_neg hi, if_neg hi]
      by_cases hp : i < s.previous
      · rw [if_pos (by omega)]
      · rw [if_neg (by omega)]; exact hs i (by omega)

/-- A sequence of calls of `contacts_viz`. -/
def contactsRun {A : Type} (s : ContactsSt A) : List (List (VizContact A)) → Except Err (ContactsSt A)
  | [] => .ok s
  | c :: cs => do let s ← s.viz c; contactsRun s cs

theorem contacts_run_inv {A : Type} (calls : List (List (VizContact A))) (s : ContactsSt A)
    (hs : ∀ i, s.previous ≤ i → s.shown i = none) :
    ∃ s', contactsRun s calls = .ok s' ∧ ∀ i, s'.previous ≤ i → s'.shown i = none := by
  induction calls generalizing s with
  | nil => exact ⟨s, rfl, hs⟩
  | cons c cs ih =>
    obtain ⟨s1, h1, h2, h3⟩ := contacts_viz_spec s c hs
    obtain ⟨s2, h4, h5⟩ := ih s1 (fun i hi => by rw [h3 i, if_neg (by omega)])
    exact ⟨s2, by simp only [contactsRun, h1, Bind.bind, Except.bind]; exact h4, h5⟩

/-- **C161 (contacts, exactly what is shown).** After any sequence of calls, a call of
`contacts_viz` succeeds and shows the arrows of the contacts placed before the first
inactive one; for a contact of a kind it does not draw, the arrow shown by the previous
call under the same number remains. Nothing else is shown. -/
theorem C161_contacts_exact {A : Type} (calls : List (List (VizContact A))) (cs : List (VizContact A)) :
    ∃ s s', contactsRun ContactsSt.init calls = .ok s ∧ s.viz cs = .ok s' ∧
      ∀ i, s'.shown i = if i < (cs.takeWhile (·.active)).length
        then ((cs[i]?.bind (·.arrow)) <|> s.shown i) else none := by
  obtain ⟨s, h1, h2⟩ := contacts_run_inv calls (ContactsSt.init : ContactsSt A) (fun _ _ => rfl)
  obtain ⟨s', h3, _, h4⟩ := contacts_viz_spec s cs h2
  exact ⟨s, s', h1, h3, h4⟩

/-- The arrows expected: those of the active contacts of a kind that is drawn. -/
def expectedArrows {A : Type} (cs : List (VizContact A)) : Shown A :=
  fun i => cs[i]?.bind fun c => if c.active then c.arrow else none

/-- **C161 (contacts, partial).** When the active contacts come first and are all of a kind
that is drawn, exactly their arrows are shown. Missing: inactive contacts followed by
active ones, and the kinds that are not drawn, for which it is false
(`C161_contacts_refuted`). -/
theorem C161_contacts_partial {A : Type} (calls : List (List (VizContact A))) (cs : List (VizContact A))
    (hfirst : ∀ (i j : ℕ) (ci cj : VizContact A), i ≤ j → cs[i]? = some ci → cs[j]? = some cj → cj.active = true → ci.active = true)
    (hdrawn : ∀ c ∈ cs, c.active = true → c.arrow ≠ none) :
    ∃ s s', contactsRun ContactsSt.init calls = .ok s ∧ s.viz cs = .ok s' ∧ s'.shown = expectedArrows cs := by
  obtain ⟨s, s', h1, h2, h3⟩ := C161_contacts_exact calls cs
  refine ⟨s, s', h1, h2, ?_⟩
  have key : ∀ i c, cs[i]? = some c → (i < (cs.takeWhile (·.active)).length ↔ c.active = true) := by
    clear h2 h3
    induction cs with
    | nil => intro i c h; simp at h
    | cons d ds ih =>
      intro i c h
      have hfirst' := fun (i j : ℕ) (ci cj : VizContact A) (hij : i ≤ j) (hi : ds[i]? = some ci) (hj : ds[j]? = some cj) =>
        hfirst (i + 1) (j + 1) ci cj (by omega) (by simpa using hi) (by simpa using hj)
      by_cases hd : d.active = true
      · rw [List.takeWhile_cons, if_pos hd]
        cases i with
        | zero => simp only [List.getElem?_cons_zero, Option.some.injEq] at h; subst h; simp [hd]
        | succ i =>
          rw [List.getElem?_cons_succ] at h
          rw [← ih hfirst' (fun c hc => hdrawn c (List.mem_cons_of_mem _ hc)) i c h]
          simp
      · rw [List.takeWhile_cons, if_neg hd]
        simp only [List.length_nil, Nat.not_lt_zero, false_iff]
        intro hc
        exact hd (hfirst 0 i d c (by omega) rfl h hc)
  funext i
  rw [h3 i]
  unfold expectedArrows
  cases hc : cs[i]? with
  | none =>
    have hl : (cs.takeWhile (·.active)).length ≤ cs.length := (List.takeWhile_prefix _).length_le
    have := List.getElem?_eq_none_iff.1 hc
    rw [if_neg (by omega)]; rfl
  | some c =>
    have hk := key i c hc
    by_cases ha : c.active = true
    · rw [if_pos (hk.2 ha)]
      obtain ⟨a, hca⟩ := Option.ne_none_iff_exists'.1 (hdrawn c (List.mem_of_getElem? hc) ha)
      simp [hca, ha]
    · rw [if_neg (fun h => ha (hk.1 h))]
      simp [ha]

/-- Non-vacuity: two active contacts then an inactive one. -/
example : ∃ s s', contactsRun ContactsSt.init [[⟨true, some 8⟩, ⟨true, some 9⟩, ⟨true, some 3⟩]] = .ok s ∧
    s.viz [⟨true, some 1⟩, ⟨true, some 2⟩, ⟨false, some 3⟩] = .ok s' ∧
    s'.shown 0 = some 1 ∧ s'.shown 1 = some 2 ∧ s'.shown 2 = none := by
  obtain ⟨s, s', h1, h2, h3⟩ := C161_contacts_exact [[⟨true, some 8⟩, ⟨true, some 9⟩, ⟨true, some 3⟩]]
    [⟨true, some 1⟩, ⟨true, some 2⟩, ⟨false, some 3⟩]
  exact ⟨s, s', h1, h2, by rw [h3]; rfl, by rw [h3]; rfl, by rw [h3]; rfl⟩

/-- **C161 is false of the code for contacts.** As soon as the first contact is inactive, no
arrow at all is shown, whatever the other contacts; and when the first contact becomes
one of a kind that is not drawn (a puppet contact, say), the arrow of the contact it
replaces stays. -/
theorem C161_contacts_refuted {A : Type} (calls : List (List (VizContact A))) (c : VizContact A)
    (cs : List (VizContact A)) (a : A) :
    (c.active = false → ∃ s s', contactsRun ContactsSt.init calls = .ok s ∧ s.viz (c :: cs) = .ok s' ∧
      ∀ i, s'.shown i = none) ∧
    (∃ s s', contactsRun (ContactsSt.init : ContactsSt A) [[⟨true, some a⟩]] = .ok s ∧
      s.viz [⟨true, none⟩] = .ok s' ∧ s'.shown 0 = some a ∧ expectedArrows [(⟨true, none⟩ : VizContact A)] 0 = none) := by
  constructor
  · intro hc
    obtain ⟨s, s', h1, h2, h3⟩ := C161_contacts_exact calls (c :: cs)
    refine ⟨s, s', h1, h2, fun i => ?_⟩
    rw [h3 i, List.takeWhile_cons, hc]; simp
  · obtain ⟨s0, s, h1, h2, h3⟩ := C161_contacts_exact [] [(⟨true, some a⟩ : VizContact A)]
    obtain ⟨t, s', h4, h5, h6⟩ := C161_contacts_exact [[(⟨true, some a⟩ : VizContact A)]] [(⟨true, none⟩ : VizContact A)]
    refine ⟨t, s', h4, h5, ?_, rfl⟩
    have e0 : s0 = ContactsSt.init := by
      simp only [contactsRun] at h1; cases h1; rfl
    have e1 : t = s := by
      simp only [contactsRun, Bind.bind, Except.bind] at h4
      rw [← e0, h2] at h4
      simp only at h4; cases h4; rfl
    rw [h6 0]
    simp [e1, h3 0]

/-! ## C162: where arrows, frames and cylinders are drawn -/

/-- Where a point of the shape is drawn. -/
def place (T : Affine) (v : V3) : V3 := T.linear.mulVec v + T.translation

/-- The two ends of a cylinder of meshcat: it is centred on the origin, along `y`. -/
noncomputable def Cylinder.bottom (c : Cylinder) : V3 := place c.T ![0, -(c.height / 2), 0]

noncomputable def Cylinder.top (c : Cylinder) : V3 := place c.T ![0, c.height / 2, 0]

theorem mulVec_y (M : M3) (t : ℝ) : M.mulVec ![0, t, 0] = t • M.mulVec ![0, 1, 0] := by
  funext i
  simp [Matrix.mulVec, dotProduct, Fin.sum_univ_three, mul_comm]

theorem place_compose (a b : Affine) (v : V3) : place (compose a b) v = place a (place b v) := by
  unfold place compose
  rw [Matrix.mulVec_add, Matrix.mulVec_mulVec, add_assoc]

theorem place_translation (u v : V3) : place (translationMatrix u) v = v + u := by
  simp [place, translationMatrix]

theorem norm3_nonneg' (v : V3) : 0 ≤ norm3 v := Real.sqrt_nonneg _

theorem norm3_zero_iff (v : V3) (h : v = 0) : norm3 v = 0 := by
  subst h; simp [norm3]

theorem norm3_div (d : V3) (h : 0 < norm3 d) : norm3 (fun i => d i / norm3 d) = 1 := by
  have hs : d 0 * d 0 + d 1 * d 1 + d 2 * d 2 = norm3 d * norm3 d := by
    unfold norm3
    rw [Real.mul_self_sqrt]
    nlinarith [mul_self_nonneg (d 0), mul_self_nonneg (d 1), mul_self_nonneg (d 2)]
  have : d 0 / norm3 d * (d 0 / norm3 d) + d 1 / norm3 d * (d 1 / norm3 d) + d 2 / norm3 d * (d 2 / norm3 d) = 1 := by
    field_simp
    rw [← pow_two] at hs
    linarith [hs, pow_two (d 0), pow_two (d 1), pow_two (d 2)]
  show Real.sqrt _ = 1
  rw [this, Real.sqrt_one]

/-- **C162 (arrows).** For every pair of points more than 1e-6 apart and every radius, the
arrow starts at `point_from`, is straight along the direction of `point_to`, and its
tip is at the distance `max(L, 3 radius + 1e-3)`. -/
theorem C162_arrow (pointFrom pointTo : V3) (radius : ℝ)
    (hL : 1 / 1000000 < norm3 (pointTo - pointFrom)) :
    ∃ c h, arrowViz pointFrom pointTo radius = .ok (c, h) ∧
      c.bottom = pointFrom ∧ c.top = h.bottom ∧
      c.top = pointFrom + c.height • (fun i => (pointTo - pointFrom) i / norm3 (pointTo - pointFrom)) ∧
      h.top = pointFrom + max (norm3 (pointTo - pointFrom)) (3 * radius + 1 / 1000) •
        (fun i => (pointTo - pointFrom) i / norm3 (pointTo - pointFrom)) ∧
      h.height = 3 * radius := by
  set d : V3 := pointTo - pointFrom with hd
  have hpos : 0 < norm3 d := by linarith
  have hu : norm3 (fun i => d i / norm3 d) = 1 := norm3_div d hpos
  have hne : (fun i => d i / norm3 d) ≠ (0 : V3) := by
    intro h; rw [norm3_zero_iff _ h] at hu; norm_num at hu
  obtain ⟨R, r1, -, r3⟩ := (C42_rotation_from_axis "y" (fun i => d i / norm3 d)).1 _ rfl hne
  rw [hu] at r3
  have r4 : R.mulVec ![0, 1, 0] = fun i => d i / norm3 d := by rw [r3]; funext i; simp
  set l := max (1 / 1000) (norm3 d - radius * 3) with hl
  have hv : arrowViz pointFrom pointTo radius = .ok
      (⟨l, compose ⟨R, pointFrom⟩ (translationMatrix ![0, l / 2, 0])⟩,
        ⟨radius * 3, compose ⟨R, pointFrom⟩ (translationMatrix ![0, l + radius * 3 / 2, 0])⟩) := by
    unfold arrowViz
    simp only [← hd]
    rw [if_pos hL, r1]
    rfl
  have hend : ∀ a t : ℝ, place (compose ⟨R, pointFrom⟩ (translationMatrix ![0, a, 0])) ![0, t, 0] =
      pointFrom + (a + t) • (fun i => d i / norm3 d) := by
    intro a t
    rw [place_compose, place_translation]
    have : (![0, t, 0] : V3) + ![0, a, 0] = ![0, a + t, 0] := by
      funext i; fin_cases i <;> simp [add_comm]
    rw [this, place, mulVec_y, r4, add_comm]
  refine ⟨_, _, hv, ?_, ?_, ?_, ?_, by ring⟩
  · unfold Cylinder.bottom; rw [hend]; funext i; simp
  · unfold Cylinder.top Cylinder.bottom; rw [hend, hend]; congr 2; ring
  · unfold Cylinder.top; rw [hend]; congr 2; ring
  · unfold Cylinder.top; rw [hend]; congr 2
    have : max (norm3 d) (3 * radius + 1 / 1000) = l + radius * 3 := by
      rw [hl, max_comm, ← max_add_add_right]; congr 1 <;> ring
    rw [this]; ring

/-- **C162 (tip, exactly when it is right).** The arrow ends at `point_to` exactly when the two
points are at least `3 radius + 1e-3` apart. -/
theorem C162_tip_exact (pointFrom pointTo : V3) (radius : ℝ)
    (hL : 1 / 1000000 < norm3 (pointTo - pointFrom)) :
    ∃ c h, arrowViz pointFrom pointTo radius = .ok (c, h) ∧
      (h.top = pointTo ↔ 3 * radius + 1 / 1000 ≤ norm3 (pointTo - pointFrom)) := by
  obtain ⟨c, h, h1, -, -, -, h2, -⟩ := C162_arrow pointFrom pointTo radius hL
  refine ⟨c, h, h1, ?_⟩
  rw [h2]
  set d : V3 := pointTo - pointFrom with hd
  have hpos : 0 < norm3 d := by linarith
  have hto : pointTo = pointFrom + norm3 d • (fun i => d i / norm3 d) := by
    funext i
    simp only [Pi.add_apply, Pi.smul_apply, smul_eq_mul]
    rw [mul_div_cancel₀ _ hpos.ne', hd]; simp
  have hne : (fun i => d i / norm3 d) ≠ (0 : V3) := by
    intro h; have := norm3_div d hpos; rw [norm3_zero_iff _ h] at this; norm_num at this
  constructor
  · intro he
    have he2 := he.trans hto
    have he3 := smul_left_injective ℝ hne (add_left_cancel he2)
    have he4 : max (norm3 d) (3 * radius + 1 / 1000) = norm3 d := he3
    exact (le_max_right _ _).trans he4.le
  · intro hle
    rw [max_eq_left hle]; exact hto.symm

/-- **C162 (partial).** Arrows that are long enough end at `point_to`. Missing: short arrows,
for which it is false (`C162_refuted`). -/
theorem C162_partial (pointFrom pointTo : V3) (radius : ℝ) (hr : 0 ≤ radius)
    (hL : 3 * radius + 1 / 1000 ≤ norm3 (pointTo - pointFrom)) :
    ∃ c h, arrowViz pointFrom pointTo radius = .ok (c, h) ∧ c.bottom = pointFrom ∧ c.top = h.bottom ∧ h.top = pointTo := by
  have hL' : 1 / 1000000 < norm3 (pointTo - pointFrom) := by linarith
  obtain ⟨c, h, h1, h2, h3, -⟩ := C162_arrow pointFrom pointTo radius hL'
  obtain ⟨c', h', h4, h5⟩ := C162_tip_exact pointFrom pointTo radius hL'
  rw [h1] at h4
  cases h4
  exact ⟨c, h, h1, h2, h3, h5.2 hL⟩

/-- Non-vacuity: one metre along z with the default radius. -/
example : 3 * (0.003 : ℝ) + 1 / 1000 ≤ norm3 ((![0, 0, 1] : V3) - ![0, 0, 0]) := by
  have : norm3 ((![0, 0, 1] : V3) - ![0, 0, 0]) = 1 := by simp [norm3]
  rw [this]; norm_num

/-- **C162 is false of the code for short arrows.** When the two points coincide (a contact
without force, say), an arrow of length `3 radius + 1e-3` is drawn along the `y` axis of
the world. -/
theorem C162_refuted (p : V3) (radius : ℝ) (hr : 0 ≤ radius) :
    ∃ c h, arrowViz p p radius = .ok (c, h) ∧ c.bottom = p ∧
      h.top = p + (3 * radius + 1 / 1000) • (![0, 1, 0] : V3) ∧ h.top ≠ p := by
  have h0 : norm3 (p - p) = 0 := by simp [norm3]
  have hl : max (1 / 1000) (norm3 (p - p) - radius * 3) = 1 / 1000 := by
    rw [h0]; apply max_eq_left; linarith
  have hv : arrowViz p p radius = .ok
      (⟨1 / 1000, compose ⟨1, p⟩ (translationMatrix ![0, 1 / 1000 / 2, 0])⟩,
        ⟨radius * 3, compose ⟨1, p⟩ (translationMatrix ![0, 1 / 1000 + radius * 3 / 2, 0])⟩) := by
    unfold arrowViz
    simp only [hl]
    rw [if_neg (by rw [h0]; norm_num)]
    rfl
  have hend : ∀ a t : ℝ, place (compose ⟨1, p⟩ (translationMatrix ![0, a, 0])) ![0, t, 0] =
      p + (a + t) • (![0, 1, 0] : V3) := by
    intro a t
    rw [place_compose, place_translation]
    funext i; fin_cases i <;> simp [place, add_comm]
  have htop : place (compose ⟨1, p⟩ (translationMatrix ![0, 1 / 1000 + radius * 3 / 2, 0])) ![0, radius * 3 / 2, 0] =
      p + (3 * radius + 1 / 1000) • (![0, 1, 0] : V3) := by rw [hend]; congr 2; ring
  refine ⟨_, _, hv, ?_, htop, ?_⟩
  · unfold Cylinder.bottom; rw [hend]; funext i; simp
  · unfold Cylinder.top; rw [htop]
    intro h
    have := congrFun h 1
    simp at this
    linarith

/-- **C162 (frames).** For every transform and every scale, the cylinders of `frame_viz` go from
the origin of the frame to the point at `0.1 scale` on the x, y and z axis of the
frame. -/
theorem C162_frame (T : Affine) (scale : ℝ) (axis : Fin 3) :
    (frameViz T scale axis).bottom = T.translation ∧
    (frameViz T scale axis).top = T.translation + (scale / 10) • (fun i => T.linear i axis) := by
  have hend : ∀ t : ℝ, place (frameViz T scale axis).T ![0, t, 0] =
      T.translation + (scale * (1 / 20 + t)) • (fun i => T.linear i axis) := by
    intro t
    unfold frameViz
    simp only [place_compose, place_translation]
    have : (![0, t, 0] : V3) + ![0, 1 / 20, 0] = ![0, 1 / 20 + t, 0] := by
      funext i; fin_cases i <;> simp [add_comm]
    rw [this]
    have hrot : place ⟨axisRotation axis, 0⟩ ![0, 1 / 20 + t, 0] = (1 / 20 + t) • Pi.single axis (1 : ℝ) := by
      have hc : Real.cos (-Real.pi / 2) = 0 := by
        rw [neg_div, Real.cos_neg, Real.cos_pi_div_two]
      have hs : Real.sin (-Real.pi / 2) = -1 := by
        rw [neg_div, Real.sin_neg, Real.sin_pi_div_two]
      funext i
      fin_cases axis <;> fin_cases i <;>
        simp [place, axisRotation, rotZ, rotMatX, rotMatY, Matrix.mulVec, dotProduct, Fin.sum_univ_three, hc, hs]
    rw [hrot]
    funext i
    simp [place, scaleMatrix, Matrix.mulVec, dotProduct, Fin.sum_univ_three]
    fin_cases axis <;> simp <;> ring
  constructor
  · unfold Cylinder.bottom
    rw [hend]
    funext i
    simp [frameViz]; left; right; norm_num
  · unfold Cylinder.top
    rw [hend]
    congr 2
    simp only [frameViz]; ring

/-- **C162 (cylinders).** `cylinder_viz` draws a vertical cylinder standing on the floor at the
given position. -/
theorem C162_cylinder (position : ℝ × ℝ) (length : ℝ) :
    (cylinderViz position length).bottom = ![position.1, position.2, 0] ∧
    (cylinderViz position length).top = ![position.1, position.2, length] := by
  constructor
  · unfold Cylinder.bottom cylinderViz
    simp only [place_compose, place_translation]
    funext i
    fin_cases i <;> simp [place, rotMatX, Matrix.mulVec, dotProduct, Fin.sum_univ_three]
  · unfold Cylinder.top cylinderViz
    simp only [place_compose, place_translation]
    funext i
    fin_cases i <;> simp [place, rotMatX, Matrix.mulVec, dotProduct, Fin.sum_univ_three]

end Verif.Bindings
