/-
Exact forms of C33 (duration of a spline), C36 (half-line test), C38 (rejected axes) and C39 (rejected priorities).
-/
import Verif.Tools.CubicSplineProps
import Verif.Tools.MaskProps
import Verif.Tools.SegmentProps

namespace Verif.Tools

section
variable {K : Type} [Field K] [LinearOrder K] [IsStrictOrderedRing K]

/-- Calls that neither read the spline nor clear it. -/
def SplOp.Silent : SplOp K → Prop
  | .addPoint _ _ _ => True
  | .duration => True
  | _ => False

/-- Silent calls keep the segments and only add points. -/
theorem silent_run (wrap : K → K) (rest : List (SplOp K)) : ∀ s : SplineSt K, (∀ op ∈ rest, op.Silent) →
    (rest.foldl (splStep wrap) s).splines = s.splines ∧ s.points <+: (rest.foldl (splStep wrap) s).points := by
  induction rest with
  | nil => intro s _; exact ⟨rfl, List.prefix_refl _⟩
  | cons op rest ih =>
    intro s h
    have hs : (splStep wrap s op).splines = s.splines ∧ s.points <+: (splStep wrap s op).points := by
      have hop := h op List.mem_cons_self
      cases op with
      | addPoint t x dx =>
        rcases addPoint_cases wrap s t x dx with ⟨h1, -⟩ | ⟨x', h1, -⟩
        · simp only [splStep, h1]; exact ⟨trivial, List.prefix_refl _⟩
        · simp only [splStep, h1]; exact ⟨trivial, List.prefix_append _ _⟩
      | clear => exact hop.elim
      | read t ty => exact hop.elim
      | duration => exact ⟨rfl, List.prefix_refl _⟩
    obtain ⟨h1, h2⟩ := ih (splStep wrap s op) fun o ho => h o (List.mem_cons_of_mem _ ho)
    exact ⟨h1.trans hs.1, hs.2.trans h2⟩

/-- **C33, exactly (never read).** Without a read since the creation or since the last `clear`, `duration()` is undefined. -/
theorem C33_unread (wrap : K → K) (angular : Bool) (ops rest : List (SplOp K)) (hrest : ∀ op ∈ rest, op.Silent) :
    (splRun wrap angular rest).duration = .error .ub ∧
    (splRun wrap angular (ops ++ .clear :: rest)).duration = .error .ub := by
  have key : ∀ s : SplineSt K, s.splines = [] → (rest.foldl (splStep wrap) s).duration = .error .ub := by
    intro s hs
    unfold SplineSt.duration
    rw [(silent_run wrap rest s hrest).1, hs]
    rfl
  refine ⟨key _ rfl, ?_⟩
  have : splRun wrap angular (ops ++ .clear :: rest) = rest.foldl (splStep wrap) (splStep wrap (splRun wrap angular ops) .clear) := by
    unfold splRun; rw [List.foldl_append]; rfl
  rw [this]
  exact key _ rfl

/-- **C33, exactly (read).** After the last read, `duration()` is the time between the first and the last point if and only if no point
was added since that read. -/
theorem C33_exact (wrap : K → K) (angular : Bool) (ops rest : List (SplOp K)) (t : K) (ty : ValueType)
    (hrest : ∀ op ∈ rest, op.Silent) (f l : SPoint K)
    (h2 : 2 ≤ (splRun wrap angular (ops ++ .read t ty :: rest)).points.length)
    (hf : (splRun wrap angular (ops ++ .read t ty :: rest)).points.head? = some f)
    (hl : (splRun wrap angular (ops ++ .read t ty :: rest)).points.getLast? = some l) :
    (splRun wrap angular (ops ++ .read t ty :: rest)).duration = .ok (l.t - f.t) ↔
      (splRun wrap angular (ops ++ .read t ty :: rest)).points = (splRun wrap angular ops).points := by
  have hrun : splRun wrap angular (ops ++ .read t ty :: rest)
      = rest.foldl (splStep wrap) (splRun wrap angular (ops ++ [.read t ty])) := by
    unfold splRun; rw [List.foldl_append, List.foldl_append]; rfl
  have hread : splRun wrap angular (ops ++ [.read t ty]) = (splRun wrap angular ops).refresh := by
    unfold splRun; rw [List.foldl_append]; rfl
  have hpts : (splRun wrap angular (ops ++ [.read t ty])).points = (splRun wrap angular ops).points := by
    rw [hread]; unfold SplineSt.refresh; split <;> rfl
  obtain ⟨hsp, hpre⟩ := silent_run wrap rest (splRun wrap angular (ops ++ [.read t ty])) hrest
  have hinc : Increasing (splRun wrap angular (ops ++ .read t ty :: rest)).points :=
    (foldl_inv wrap _ _ (inv_init angular) List.Pairwise.nil).2
  have hdur : (splRun wrap angular (ops ++ .read t ty :: rest)).duration
      = (splRun wrap angular (ops ++ [.read t ty])).duration := by
    rw [hrun]; unfold SplineSt.duration; rw [hsp]
  rw [← hrun, hpts] at hpre
  rw [hdur]
  generalize hP : (splRun wrap angular (ops ++ .read t ty :: rest)).points = P at *
  constructor
  · intro hd
    by_contra hne
    obtain ⟨more, hmore⟩ := hpre
    have hmne : more ≠ [] := by
      rintro rfl
      rw [List.append_nil] at hmore
      exact hne hmore.symm
    by_cases hlen : 2 ≤ (splRun wrap angular ops).points.length
    · obtain ⟨f', hf'⟩ : ∃ f', (splRun wrap angular ops).points.head? = some f' := by
        cases hq : (splRun wrap angular ops).points with
        | nil => rw [hq] at hlen; simp at hlen
        | cons a r => exact ⟨a, rfl⟩
      obtain ⟨l', hl'⟩ : ∃ l', (splRun wrap angular ops).points.getLast? = some l' := by
        cases hq : (splRun wrap angular ops).points.getLast? with
        | none => rw [List.getLast?_eq_none_iff] at hq; rw [hq] at hlen; simp at hlen
        | some a => exact ⟨a, rfl⟩
      have hd' := C33_duration_partial wrap angular ops t ty f' l' hlen hf' hl'
      rw [hd'] at hd
      have hff : f' = f := by
        rw [← hmore] at hf
        rw [List.head?_append, hf'] at hf
        exact Option.some.inj hf
      have hlt : l'.t < l.t := by
        have hlm : l ∈ more := by
          rw [← hmore, List.getLast?_append] at hl
          cases hq : more.getLast? with
          | none => rw [List.getLast?_eq_none_iff] at hq; exact absurd hq hmne
          | some a =>
            rw [hq] at hl
            have : a = l := Option.some.inj hl
            rw [← this]
            exact List.mem_of_getLast? hq
        have hlm' : l' ∈ (splRun wrap angular ops).points := List.mem_of_getLast? hl'
        rw [← hmore] at hinc
        exact (List.pairwise_append.1 hinc).2.2 l' hlm' l hlm
      have := Except.ok.inj hd
      rw [hff] at this
      have : l'.t = l.t := sub_left_inj.1 this
      exact absurd this hlt.ne
    · have hinv := (foldl_inv wrap ops _ (inv_init angular) List.Pairwise.nil).1
      change SplineInv (splRun wrap angular ops) at hinv
      have hs : (splRun wrap angular (ops ++ [.read t ty])).splines = [] := by
        rw [hread]
        have hc : computeSplines (splRun wrap angular ops).points = [] := by
          match hq : (splRun wrap angular ops).points with
          | [] => rfl
          | [a] => rfl
          | a :: b :: r => rw [hq] at hlen; simp at hlen
        unfold SplineSt.refresh
        by_cases hd : (splRun wrap angular ops).dirty = true
        · rw [if_pos hd]; exact hc
        · rw [if_neg hd]; exact (hinv (by simpa using hd)).trans hc
      have hu : (splRun wrap angular (ops ++ [.read t ty])).duration = .error .ub := by
        unfold SplineSt.duration; rw [hs]; rfl
      rw [hu] at hd
      cases hd
  · intro heq
    rw [heq] at h2 hf hl
    exact C33_duration_partial wrap angular ops t ty f l h2 hf hl

end

/-- **C36, exactly.** The answer differs from the documented one if and only if the lines meet on one of the segments and on the
prolongation of the other one beyond its end. -/
theorem C36_exact {a s : Segment} (h : NonParallel a s) :
    ∃ b, a.halfLinePassThrough s = .ok b ∧
      ((b = true ↔ ∃ p, a.OnHalfLine p ∧ s.OnSegment p) ↔
        ¬ ((∃ p, a.OnSegment p ∧ s.OnHalfLine p ∧ ¬ s.OnSegment p) ∨ ∃ p, s.OnSegment p ∧ a.OnHalfLine p ∧ ¬ a.OnSegment p)) := by
  obtain ⟨l, m, hl, ⟨p, hp1, hp2⟩, hu⟩ := lambdas_spec h
  obtain ⟨b, hb, hi⟩ := C36_half_line_partial h
  refine ⟨b, hb, ?_⟩
  have e1 : (∃ p, a.OnSegment p ∧ s.OnHalfLine p) ↔ (0 ≤ l ∧ l ≤ 1 ∧ 0 ≤ m) := by
    constructor
    · rintro ⟨q, ⟨l', h0, h1, h2⟩, m', h4, h3⟩
      obtain ⟨rfl, rfl⟩ := hu l' m' q h2 h3
      exact ⟨h0, h1, h4⟩
    · rintro ⟨h0, h1, h2⟩
      exact ⟨p, ⟨l, h0, h1, hp1⟩, m, h2, hp2⟩
  have e2 : (∃ p, a.OnHalfLine p ∧ s.OnSegment p) ↔ (0 ≤ l ∧ 0 ≤ m ∧ m ≤ 1) := by
    constructor
    · rintro ⟨q, ⟨l', h0, h2⟩, m', h4, h5, h3⟩
      obtain ⟨rfl, rfl⟩ := hu l' m' q h2 h3
      exact ⟨h0, h4, h5⟩
    · rintro ⟨h0, h1, h2⟩
      exact ⟨p, ⟨l, h0, hp1⟩, m, h1, h2, hp2⟩
  have e3 : (∃ p, a.OnSegment p ∧ s.OnHalfLine p ∧ ¬ s.OnSegment p) ↔ (0 ≤ l ∧ l ≤ 1 ∧ 1 < m) := by
    constructor
    · rintro ⟨q, ⟨l', h0, h1, h2⟩, ⟨m', h4, h3⟩, h5⟩
      obtain ⟨rfl, rfl⟩ := hu l' m' q h2 h3
      exact ⟨h0, h1, by by_contra hm; exact h5 ⟨m', h4, not_lt.1 hm, h3⟩⟩
    · rintro ⟨h0, h1, h2⟩
      refine ⟨p, ⟨l, h0, h1, hp1⟩, ⟨m, by linarith, hp2⟩, ?_⟩
      rintro ⟨m', h4, h5, h3⟩
      obtain ⟨-, rfl⟩ := hu l m' p hp1 h3
      linarith
  have e4 : (∃ p, s.OnSegment p ∧ a.OnHalfLine p ∧ ¬ a.OnSegment p) ↔ (0 ≤ m ∧ m ≤ 1 ∧ 1 < l) := by
    constructor
    · rintro ⟨q, ⟨m', h0, h1, h2⟩, ⟨l', h4, h3⟩, h5⟩
      obtain ⟨rfl, rfl⟩ := hu l' m' q h3 h2
      exact ⟨h0, h1, by by_contra hm; exact h5 ⟨l', h4, not_lt.1 hm, h3⟩⟩
    · rintro ⟨h0, h1, h2⟩
      refine ⟨p, ⟨m, h0, h1, hp2⟩, ⟨l, by linarith, hp1⟩, ?_⟩
      rintro ⟨l', h4, h5, h3⟩
      obtain ⟨rfl, -⟩ := hu l' m p h3 hp2
      linarith
  rw [hi, e1, e2, e3, e4]
  constructor
  · rintro hiff (⟨h0, h1, h2⟩ | ⟨h0, h1, h2⟩)
    · have := (hiff.1 ⟨h0, h1, by linarith⟩).2.2; linarith
    · have := (hiff.2 ⟨by linarith, h0, h1⟩).2.1; linarith
  · intro hn
    constructor
    · rintro ⟨h0, h1, h2⟩
      exact ⟨h0, h2, by by_contra hm; exact hn (.inl ⟨h0, h1, not_le.1 hm⟩)⟩
    · rintro ⟨h0, h1, h2⟩
      exact ⟨h0, by by_contra hm; exact hn (.inr ⟨h1, h2, not_le.1 hm⟩), h1⟩

section
variable {K : Type} [Field K]

theorem pushAxes_cons (acc : List (Fin 3)) (c : Char) (cs : List Char) : pushAxes acc (c :: cs) = match axisOf c with
    | some i => pushAxes (acc ++ [i]) cs
    | none => (acc, some .runtimeError) := by
  rw [axisOf_eq]
  simp only [pushAxes]
  split
  · rfl
  · split
    · rfl
    · split <;> rfl

theorem pushAxes_error (cs : List Char) : ∀ acc : List (Fin 3), cs.mapM axisOf = none →
    (pushAxes acc cs).1 = acc ++ (cs.takeWhile fun c => (axisOf c).isSome).filterMap axisOf := by
  induction cs with
  | nil => intro acc h; cases h
  | cons c cs ih =>
    intro acc h
    cases hc : axisOf c with
    | none =>
      rw [pushAxes_cons, hc]
      simp [hc]
    | some i =>
      rw [pushAxes_cons, hc, List.takeWhile_cons, hc]
      have h' : cs.mapM axisOf = none := by
        rw [List.mapM_cons, hc] at h
        cases hm : cs.mapM axisOf with
        | none => rfl
        | some l' => rw [hm] at h; cases h
      dsimp only
      rw [ih (acc ++ [i]) h']
      simp [hc]

/-- **C38, exactly.** When `set_axises` raises, either the name of the frame is unknown and nothing changed, or the mask is left in the
new frame with the axes that precede the first unknown letter. -/
theorem C38_exact (m : Mask K) (axises frame : String) (h : (m.setAxisesStr axises frame).2 ≠ none) :
    (frameOf frame = none ∧ (m.setAxisesStr axises frame).1 = m) ∨
    ∃ f, frameOf frame = some f ∧ (m.setAxisesStr axises frame).1 =
      { m with frame := f, indices := (axises.toList.takeWhile fun c => (axisOf c).isSome).filterMap axisOf } := by
  cases hf : frameOf frame with
  | none => exact .inl ⟨rfl, by rw [(C38_rejected_partial m axises frame).1 hf]⟩
  | some f =>
    right
    refine ⟨f, rfl, ?_⟩
    have hbad : axises.toList.mapM axisOf = none := by
      cases hm : axises.toList.mapM axisOf with
      | none => rfl
      | some l => exact absurd ((C37_mask m axises frame).1 f l hf hm).1 h
    have hset : m.setAxisesStr axises frame = m.setAxises axises f := by
      unfold Mask.setAxisesStr
      by_cases n1 : frame = "task"
      · subst n1; simp [frameOf] at hf; subst hf; simp
      by_cases n2 : frame = "world"
      · subst n2; simp [frameOf] at hf; subst hf; simp
      by_cases n3 : frame = "local"
      · subst n3; simp [frameOf] at hf; subst hf; simp
      by_cases n4 : frame = "custom"
      · subst n4; simp [frameOf] at hf; subst hf; simp
      have hn : frameOf frame = none := by
        unfold frameOf
        split <;> first | rfl | exact absurd rfl ‹_›
      rw [hn] at hf
      cases hf
    rw [hset]
    unfold Mask.setAxises
    simp only [pushAxes_error axises.toList [] hbad, List.nil_append]

/-- **C39, exactly.** When `configure` rejects the priority, only the name is changed: the object is unchanged if and only if it had that
name. -/
theorem C39_exact {K : Type} (p : Prioritized K) (name priority : String) (weight : K)
    (h : (p.configureStr name priority weight).2 ≠ none) :
    (p.configureStr name priority weight).1 = ⟨name, p.priority, p.weight⟩ ∧
    ((p.configureStr name priority weight).1 = p ↔ name = p.name) := by
  have h1 : (p.configureStr name priority weight).1 = ⟨name, p.priority, p.weight⟩ := by
    unfold Prioritized.configureStr at h ⊢
    cases hp : priorityFromString priority with
    | error e => rfl
    | ok pr => simp [hp] at h
  refine ⟨h1, ?_⟩
  rw [h1]
  constructor
  · intro h2; rw [← h2]
  · intro h2; rw [h2]

end

/-- A rejected call that leaves two axes in the local frame, and one that leaves the mask as it was. -/
example : ("yzq".toList.takeWhile fun c => (axisOf c).isSome).filterMap axisOf = [1, 2] := by decide +kernel

end Verif.Tools
