/-
C83: are the polygons of footsteps and supports up to date?
-/
import Verif.Humanoid.PlannerProps
import Verif.Humanoid.SupportsProps

namespace Verif.Humanoid
open Verif.Tools Verif.Robot

/-! ## Specification -/

/-- The corner `(sx, sy)` of a foot, seen from above. -/
noncomputable def corner (f : Footstep) (sx sy : ℝ) : V2 :=
  ⟨f.frame.linear 0 0 * (sx * (f.length / 2)) + f.frame.linear 0 1 * (sy * (f.width / 2)) + f.frame.translation 0,
   f.frame.linear 1 0 * (sx * (f.length / 2)) + f.frame.linear 1 1 * (sy * (f.width / 2)) + f.frame.translation 1⟩

/-- The outline of a foot at its current frame, clockwise from the rear left corner. -/
noncomputable def outline (f : Footstep) : List V2 := [corner f (-1) 1, corner f 1 1, corner f 1 (-1), corner f (-1) (-1)]

/-- The polygon that a read of the footstep returns is its current outline. -/
def Footstep.UpToDate (f : Footstep) : Prop := f.supportPolygon.2 = outline f

/-- The polygon that a read of the support returns is the hull of the current outlines of its footsteps (boost repeats the
first point at the end), and so are the polygons of its footsteps. -/
def Support.UpToDate (hull : List V2 → List V2) (s : Support) : Prop :=
  (s.supportPolygon hull).2 = (hull (s.footsteps.flatMap outline)).dropLast ∧ ∀ f ∈ s.footsteps, f.UpToDate

/-- The calls on a support. -/
inductive SupOp where
  | read                    -- `support_polygon()`
  | readFootstep (i : Nat)  -- `footsteps[i].support_polygon()`
  | offset (o : V2)         -- `apply_offset`
  | move (T : Affine)       -- `T * support`

/-- Read the polygon of the `i`-th footstep. -/
noncomputable def readAt (i : Nat) (l : List Footstep) : List Footstep := l.modify i fun f => f.supportPolygon.1

noncomputable def supStep (hull : List V2 → List V2) (s : Support) : SupOp → Support
  | .read => (s.supportPolygon hull).1
  | .readFootstep i => { s with footsteps := readAt i s.footsteps }
  | .offset o => s.applyOffset o
  | .move T => s.moved T

noncomputable def supRun (hull : List V2 → List V2) (s : Support) (ops : List SupOp) : Support := ops.foldl (supStep hull) s

/-! ## Proof -/

theorem computePolygon_outline (f : Footstep) : f.computePolygon 0 = outline f := by
  simp [Footstep.computePolygon, outline, corner, planar, Matrix.mulVec, dotProduct, Fin.sum_univ_three]

/-- A footstep with a valid cache. -/
def Footstep.Valid (f : Footstep) : Prop := f.computed = true → f.polygon = outline f

theorem valid_upToDate (f : Footstep) : f.Valid ↔ f.UpToDate := by
  unfold Footstep.Valid Footstep.UpToDate Footstep.supportPolygon
  cases h : f.computed
  · simp [computePolygon_outline]
  · simp

theorem valid_fresh (f : Footstep) (h : f.computed = false) : f.Valid := fun h' => by rw [h] at h'; cases h'

theorem read_same (f : Footstep) : outline f.supportPolygon.1 = outline f := by
  unfold Footstep.supportPolygon
  cases f.computed <;> rfl

theorem read_valid (f : Footstep) (h : f.Valid) : f.supportPolygon.1.Valid := by
  unfold Footstep.supportPolygon
  cases hc : f.computed
  · intro _
    exact computePolygon_outline f
  · simpa using h

/-- A support with valid caches. -/
structure SupValid (hull : List V2 → List V2) (s : Support) : Prop where
  own : s.computed = true → s.polygon = (hull (s.footsteps.flatMap outline)).dropLast
  steps : ∀ f ∈ s.footsteps, f.Valid

theorem readFootsteps_spec : ∀ l : List Footstep, (∀ f ∈ l, f.Valid) →
    (readFootsteps l).2 = l.flatMap outline ∧ (readFootsteps l).1.flatMap outline = l.flatMap outline ∧
    ∀ f ∈ (readFootsteps l).1, f.Valid
  | [], _ => ⟨rfl, rfl, fun _ h => absurd h List.not_mem_nil⟩
  | f :: l, h => by
    obtain ⟨h1, h2, h3⟩ := readFootsteps_spec l (fun g hg => h g (List.mem_cons_of_mem _ hg))
    have hf := h f List.mem_cons_self
    refine ⟨?_, ?_, ?_⟩
    · rw [readFootsteps, List.flatMap_cons, h1, (valid_upToDate f).1 hf]
    · rw [readFootsteps, List.flatMap_cons, List.flatMap_cons, h2, read_same]
    · intro g hg
      rw [readFootsteps] at hg
      rcases List.mem_cons.1 hg with rfl | hg
      · exact read_valid f hf
      · exact h3 g hg

theorem modify_outline (i : Nat) : ∀ l : List Footstep, (readAt i l).flatMap outline = l.flatMap outline := by
  unfold readAt
  induction i with
  | zero => intro l; cases l with
    | nil => rfl
    | cons f l => simp [read_same]
  | succ i ih => intro l; cases l with
    | nil => rfl
    | cons f l => simp [ih]

theorem modify_valid (i : Nat) : ∀ l : List Footstep, (∀ f ∈ l, f.Valid) → ∀ f ∈ readAt i l, f.Valid := by
  unfold readAt
  induction i with
  | zero => intro l; cases l with
    | nil => simp
    | cons f l =>
      intro h g hg
      simp only [List.modify_zero_cons, List.mem_cons] at hg
      rcases hg with rfl | hg
      · exact read_valid f (h f List.mem_cons_self)
      · exact h g (List.mem_cons_of_mem _ hg)
  | succ i ih => intro l; cases l with
    | nil => simp
    | cons f l =>
      intro h g hg
      simp only [List.modify_succ_cons, List.mem_cons] at hg
      rcases hg with rfl | hg
      · exact h _ List.mem_cons_self
      · exact ih l (fun x hx => h x (List.mem_cons_of_mem _ hx)) g hg

theorem supValid_step (hull : List V2 → List V2) (s : Support) (h : SupValid hull s) (op : SupOp) : SupValid hull (supStep hull s op) := by
  cases op with
  | read =>
    show SupValid hull (s.supportPolygon hull).1
    unfold Support.supportPolygon
    cases hc : s.computed
    · obtain ⟨h1, h2, h3⟩ := readFootsteps_spec s.footsteps h.steps
      refine ⟨fun _ => ?_, h3⟩
      simp only [Bool.false_eq_true, if_false]
      rw [h1, h2]
    · simpa using h
  | readFootstep i =>
    refine ⟨fun hc => ?_, modify_valid i _ h.steps⟩
    show s.polygon = (hull ((readAt i s.footsteps).flatMap outline)).dropLast
    rw [modify_outline]; exact h.own hc
  | offset o =>
    refine ⟨fun hc => Bool.noConfusion hc, fun f hf => ?_⟩
    obtain ⟨g, -, rfl⟩ := List.mem_map.1 hf
    exact valid_fresh _ rfl
  | move T =>
    refine ⟨fun hc => Bool.noConfusion hc, fun f hf => ?_⟩
    obtain ⟨g, -, rfl⟩ := List.mem_map.1 hf
    exact valid_fresh _ rfl

theorem supValid_upToDate (hull : List V2 → List V2) (s : Support) (h : SupValid hull s) : s.UpToDate hull := by
  refine ⟨?_, fun f hf => (valid_upToDate f).1 (h.steps f hf)⟩
  unfold Support.supportPolygon
  cases hc : s.computed
  · simp only [Bool.false_eq_true, if_false]
    rw [(readFootsteps_spec s.footsteps h.steps).1]
  · simp only [if_true]
    exact h.own hc

/-! ## C83 -/

/-- **C83_partial.** Missing: `opposite_footstep` and `update_supports`, which change a frame and keep the polygon
(`C83_refuted_opposite`, `C83_refuted_update`). For every support whose caches are empty, and every history of polygon reads (of the support or of its
footsteps), `apply_offset` and left multiplications: the polygons read are those of the current frames. -/
theorem C83_partial (hull : List V2 → List V2) (s : Support) (h0 : s.computed = false) (hf : ∀ f ∈ s.footsteps, f.computed = false)
    (ops : List SupOp) : (supRun hull s ops).UpToDate hull := by
  refine supValid_upToDate hull _ ?_
  have : SupValid hull s := ⟨fun h => (by rw [h0] at h; cases h), fun f h => valid_fresh f (hf f h)⟩
  clear h0 hf
  induction ops generalizing s with
  | nil => exact this
  | cons op ops ih => exact ih _ (supValid_step hull s this op)

/-- Planned footsteps have empty caches. -/
theorem shrink_fresh (p : Params) (c : Clipping) (f g : Footstep) (dx dy dt : ℝ) (hf : f.computed = false)
    (h : p.clippedOppositeFootstep c f dx dy dt = .ok g) : g.computed = false := by
  obtain ⟨j, -, hr, -⟩ := shrinkLoop_spec p f 32 (p.clippedStep c f.side dx dy dt)
  have := h.symm.trans hr
  cases this
  exact hf

theorem repLoop_fresh (p : Params) (c : Clipping) (dx dy dt : ℝ) : ∀ n f, f.computed = false → ∀ g r,
    p.repLoop c dx dy dt n f = .ok (g, r) → g.computed = false ∧ ∀ x ∈ r, x.computed = false
  | 0, f, hf, g, r, h => by
    cases h
    exact ⟨hf, fun _ h => absurd h List.not_mem_nil⟩
  | n + 1, f, hf, g, r, h => by
    obtain ⟨f', hf', -⟩ := clippedOpposite_ok p c f dx dy dt
    have hfr := shrink_fresh p c f f' dx dy dt hf hf'
    obtain ⟨g', r', hr', -⟩ := repLoop_spec p c dx dy dt n f'
    rw [Params.repLoop, hf'] at h
    simp only [Bind.bind, Except.bind, hr'] at h
    cases h
    obtain ⟨h1, h2⟩ := repLoop_fresh p c dx dy dt n f' hfr _ _ hr'
    refine ⟨h1, fun x hx => ?_⟩
    rcases List.mem_cons.1 hx with rfl | hx
    · exact hfr
    · exact h2 x hx

/-- **C83, after planning.** The supports made from a plan of either planner have empty caches, so that C83_partial applies
to them. -/
theorem C83_planned (p : Params) (c : Clipping) (dx dy dt : ℝ) (n : Int) (flying : Side) (T_left T_right : Affine)
    (l : List Footstep) (h : p.planRepetitive c dx dy dt n flying T_left T_right = .ok l) : ∀ f ∈ l, f.computed = false := by
  unfold Params.planRepetitive Params.repImpl at h
  simp only at h
  rw [show at' (p.initialFootsteps flying T_left T_right) 1
    = .ok (p.createFootstep flying.other (match flying.other with | .left => T_left | .right => T_right)) by
      cases flying <;> rfl] at h
  simp only [Bind.bind, Except.bind] at h
  have hinit : ∀ f ∈ p.initialFootsteps flying T_left T_right, f.computed = false := by
    intro f hf
    simp only [Params.initialFootsteps, List.mem_cons, List.not_mem_nil, or_false] at hf
    rcases hf with rfl | rfl <;> rfl
  by_cases hn : n > 0
  · rw [if_pos hn] at h
    obtain ⟨g, r, hr, -⟩ := repLoop_spec p c dx dy dt (n - 1).toNat
      (p.createFootstep flying.other (match flying.other with | .left => T_left | .right => T_right))
    obtain ⟨e, he, -⟩ := clippedOpposite_ok p c g 0 0 0
    rw [hr] at h
    simp only [he] at h
    cases h
    obtain ⟨h1, h2⟩ := repLoop_fresh p c dx dy dt _ _ (by exact rfl) _ _ hr
    have h3 := shrink_fresh p c g e 0 0 0 h1 he
    intro f hf
    simp only [List.mem_append, List.mem_singleton] at hf
    rcases hf with hf | hf | rfl
    · exact hinit f hf
    · exact h2 f hf
    · exact h3
  · rw [if_neg hn] at h
    cases h
    simpa using hinit

theorem loop_fresh (c : Naive) : ∀ n s, ∀ f ∈ c.loop n s, f.computed = false
  | 0, _, _, h => absurd h List.not_mem_nil
  | n + 1, s, f, h => by
    rw [Naive.loop] at h
    split at h
    · cases h
    · rcases List.mem_cons.1 h with rfl | h
      · unfold Naive.turn; cases s.support <;> rfl
      · exact loop_fresh c n _ f h

theorem C83_planned_naive (c : Naive) (flying : Side) (T_left T_right : Affine) :
    ∀ f ∈ c.plan flying T_left T_right, f.computed = false := by
  intro f hf
  unfold Naive.plan at hf
  rcases List.mem_append.1 hf with hf | hf
  · simp only [Params.initialFootsteps, List.mem_cons, List.not_mem_nil, or_false] at hf
    rcases hf with rfl | rfl <;> rfl
  · exact loop_fresh c _ _ f hf

theorem makeSupports_fresh (l : List Footstep) (t : ℝ) (a b e : Bool) (hl : ∀ f ∈ l, f.computed = false) (S : List Support)
    (h : makeSupports l t a b e = .ok S) : ∀ s ∈ S, s.computed = false ∧ ∀ f ∈ s.footsteps, f.computed = false := by
  have hat : ∀ i f, at' l i = .ok f → f.computed = false := by
    intro i f hf
    unfold at' at hf
    cases hi : l[i]? with
    | none => rw [hi] at hf; cases hf
    | some x => rw [hi] at hf; cases hf; exact hl _ (List.mem_of_getElem? hi)
  have hsingle : ∀ i s, single l i = .ok s → s.computed = false ∧ ∀ f ∈ s.footsteps, f.computed = false := by
    intro i s hs
    unfold single at hs
    cases hi : at' l i with
    | error => rw [hi] at hs; cases hs
    | ok x =>
      rw [hi] at hs; cases hs
      exact ⟨rfl, by simp [hat i x hi]⟩
  have hdouble : ∀ i s, double l i = .ok s → s.computed = false ∧ ∀ f ∈ s.footsteps, f.computed = false := by
    intro i s hs
    unfold double at hs
    cases hi : at' l i with
    | error => rw [hi] at hs; cases hs
    | ok x =>
      cases hj : at' l (i + 1) with
      | error => rw [hi, hj] at hs; cases hs
      | ok y =>
        rw [hi, hj] at hs; cases hs
        exact ⟨rfl, by simp [hat i x hi, hat _ y hj]⟩
  have hstep : ∀ i A, supportsAt l b i = .ok A → ∀ s ∈ A, s.computed = false ∧ ∀ f ∈ s.footsteps, f.computed = false := by
    intro i A hA
    unfold supportsAt at hA
    split at hA
    · cases h1 : single l i with
      | error => rw [h1] at hA; cases hA
      | ok s1 =>
        cases h2 : double l i with
        | error => rw [h1, h2] at hA; cases hA
        | ok s2 =>
          rw [h1, h2] at hA; cases hA
          intro s hs
          simp only [List.mem_cons, List.not_mem_nil, or_false] at hs
          rcases hs with rfl | rfl
          · exact hsingle i _ h1
          · exact hdouble i _ h2
    · cases h1 : single l i with
      | error => rw [h1] at hA; cases hA
      | ok s1 =>
        rw [h1] at hA; cases hA
        intro s hs
        rw [List.mem_singleton] at hs; subst hs
        exact hsingle i _ h1
  have hloop : ∀ k i A, supportsLoop l b k i = .ok A → ∀ s ∈ A, s.computed = false ∧ ∀ f ∈ s.footsteps, f.computed = false := by
    intro k
    induction k with
    | zero => intro i A hA; cases hA; simp
    | succ k ih =>
      intro i A hA
      rw [supportsLoop] at hA
      cases h1 : supportsAt l b i with
      | error => rw [h1] at hA; cases hA
      | ok A1 =>
        cases h2 : supportsLoop l b k (i + 1) with
        | error => rw [h1, h2] at hA; cases hA
        | ok A2 =>
          rw [h1, h2] at hA; cases hA
          intro s hs
          rcases List.mem_append.1 hs with hs | hs
          · exact hstep i A1 h1 s hs
          · exact ih (i + 1) A2 h2 s hs
  have hhead : ∀ A, supportsHead l t a b = .ok A → ∀ s ∈ A, s.computed = false ∧ ∀ f ∈ s.footsteps, f.computed = false := by
    intro A hA
    unfold supportsHead at hA
    split at hA
    · cases h1 : double l 0 with
      | error => rw [h1] at hA; cases hA
      | ok s1 =>
        rw [h1] at hA; cases hA
        intro s hs
        rw [List.mem_singleton] at hs; subst hs
        exact ⟨(hdouble _ _ h1).1, (hdouble _ _ h1).2⟩
    · split at hA
      · cases h1 : single l 0 with
        | error => rw [h1] at hA; cases hA
        | ok s1 =>
          cases h2 : double l 0 with
          | error => rw [h1, h2] at hA; cases hA
          | ok s2 =>
            rw [h1, h2] at hA; cases hA
            intro s hs
            simp only [List.mem_cons, List.not_mem_nil, or_false] at hs
            rcases hs with rfl | rfl
            · exact ⟨(hsingle _ _ h1).1, (hsingle _ _ h1).2⟩
            · exact ⟨(hdouble _ _ h2).1, (hdouble _ _ h2).2⟩
      · cases h1 : single l 0 with
        | error => rw [h1] at hA; cases hA
        | ok s1 =>
          rw [h1] at hA; cases hA
          intro s hs
          rw [List.mem_singleton] at hs; subst hs
          exact ⟨(hsingle _ _ h1).1, (hsingle _ _ h1).2⟩
  unfold makeSupports supportsBody supportsEnd at h
  intro s hs
  have hend : ∀ A, (if e = true then
      if l.length < 2 then (.error .ub : Except Err (List Support))
      else do
        let s ← double l (l.length - 2)
        .ok [{ s with isEnd := true }]
      else .ok []) = .ok A → ∀ s ∈ A, s.computed = false ∧ ∀ f ∈ s.footsteps, f.computed = false := by
    intro A hA
    split at hA
    · split at hA
      · cases hA
      · cases h1 : double l (l.length - 2) with
        | error => rw [h1] at hA; cases hA
        | ok s1 =>
          rw [h1] at hA; cases hA
          intro s hs
          rw [List.mem_singleton] at hs; subst hs
          exact ⟨(hdouble _ _ h1).1, (hdouble _ _ h1).2⟩
    · cases hA; simp
  generalize hE : (if e = true then
      if l.length < 2 then (.error .ub : Except Err (List Support))
      else do
        let s ← double l (l.length - 2)
        .ok [{ s with isEnd := true }]
      else .ok []) = E at h hend
  by_cases hl2 : l.length > 2
  · rw [if_pos hl2] at h
    cases h1 : supportsHead l t a b with
    | error => rw [h1] at h; cases h
    | ok A1 =>
      cases h2 : supportsLoop l b (l.length - 2) 1 with
      | error => rw [h1, h2] at h; cases h
      | ok A2 =>
        cases E with
        | error => rw [h1, h2] at h; cases h
        | ok A3 =>
          rw [h1, h2] at h; cases h
          rcases List.mem_append.1 hs with hs | hs
          · rcases List.mem_append.1 hs with hs | hs
            · exact hhead A1 h1 s hs
            · exact hloop _ _ A2 h2 s hs
          · exact hend A3 rfl s hs
  · rw [if_neg hl2] at h
    cases E with
    | error => cases h
    | ok A3 =>
      cases h
      exact hend A3 rfl s (by simpa using hs)

/-- **C83, supports of a plan.** -/
theorem C83_supports (hull : List V2 → List V2) (l : List Footstep) (t : ℝ) (a b e : Bool) (hl : ∀ f ∈ l, f.computed = false)
    (S : List Support) (h : makeSupports l t a b e = .ok S) (s : Support) (hs : s ∈ S) (ops : List SupOp) :
    (supRun hull s ops).UpToDate hull :=
  C83_partial hull s (makeSupports_fresh l t a b e hl S h s hs).1 (makeSupports_fresh l t a b e hl S h s hs).2 ops

/-- The footstep left by `update_supports` at its end, walk_pattern_generator.cpp 774-777: `footsteps[0]` of the next support
is moved to the point found by the QP, and nothing else is changed. -/
def moveFirst (s : Support) (x y : ℝ) : Support :=
  match s.footsteps with
  | [] => s
  | f :: fs => { s with footsteps := { f with frame := ⟨f.frame.linear, ![x, y, f.frame.translation 2]⟩ } :: fs }

/-- A foot at the origin. -/
noncomputable def footO : Footstep := ({} : Params).createFootstep .left .one

theorem corner_footO : corner footO 1 1 = ⟨75 / 1000, 5 / 100⟩ := by
  simp only [corner, footO, Params.createFootstep, Affine.one]
  norm_num

/-- **C83 is false of the code (1).** `opposite_footstep` of a footstep whose polygon was read returns a footstep whose polygon
is that of the other foot. -/
theorem C83_refuted_opposite : ∃ (p : Params) (f : Footstep), f.computed = false ∧
    ¬ (p.oppositeFootstep f.supportPolygon.1 0 0 0).UpToDate := by
  refine ⟨{}, footO, rfl, ?_⟩
  intro h
  have h1 : (({} : Params).oppositeFootstep footO.supportPolygon.1 0 0 0).supportPolygon.2 = outline footO := by
    rw [← computePolygon_outline]; rfl
  unfold Footstep.UpToDate at h
  rw [h1] at h
  have h2 := congrArg (fun l => (l[1]?).map V2.y) h
  simp only [outline, List.getElem?_cons_succ, List.getElem?_cons_zero, Option.map_some, corner_footO, Option.some.injEq] at h2
  simp [corner, Params.oppositeFootstep, Params.oppositeFrame, footO, Footstep.supportPolygon, Params.createFootstep, translate, rotateZ,
    Affine.mul, Affine.one, rotZ, Footstep.computePolygon] at h2
  norm_num at h2

/-- **C83 is false of the code (2).** `update_supports` moves the next footstep; if the polygon of that support was read
before, the polygon read afterwards is that of the former place. -/
theorem C83_refuted_update : ∃ (hull : List V2 → List V2) (s : Support) (x y : ℝ), s.computed = false ∧
    (∀ f ∈ s.footsteps, f.computed = false) ∧ ¬ (moveFirst (supRun hull s [.read]) x y).UpToDate hull := by
  refine ⟨fun l => l ++ [⟨0, 0⟩], { footsteps := [footO] }, 1, 0, rfl, by simp [footO, Params.createFootstep], ?_⟩
  intro h
  have h1 := h.2 _ List.mem_cons_self
  have h2 : ({ footO.supportPolygon.1 with frame := ⟨footO.frame.linear, ![1, 0, 0]⟩ } : Footstep).supportPolygon.2 = outline footO := by
    rw [← computePolygon_outline]; rfl
  have h3 : outline footO = outline { footO.supportPolygon.1 with frame := ⟨footO.frame.linear, ![1, 0, 0]⟩ } := h2.symm.trans h1
  have h4 := congrArg (fun l => (l[1]?).map V2.x) h3
  simp only [outline, List.getElem?_cons_succ, List.getElem?_cons_zero, Option.map_some, corner_footO, Option.some.injEq] at h4
  simp [corner, footO, Footstep.supportPolygon, Params.createFootstep, Affine.one, Footstep.computePolygon] at h4
  norm_num at h4

/-- The supports of a real plan meet the hypotheses. -/
example : ∃ l, ({} : Params).planRepetitive .ellipsoid (1 / 100) 0 0 5 .left .one .one = .ok l ∧ l.length = 7 ∧
    ∃ S, makeSupports l 0 true true true = .ok S ∧ 0 < S.length := by
  obtain ⟨l, hl, -, -, hn⟩ := C76_repetitive {} .ellipsoid (1 / 100) 0 0 5 .left .one .one
  obtain ⟨S, ph, hS, -, -, -, -, -, hpos, -⟩ := C75 l 0 true true true (by rw [hn]; decide)
  exact ⟨l, hl, hn, S, hS, hpos⟩

end Verif.Humanoid
