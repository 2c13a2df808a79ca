import Verif.Humanoid.Walks
import Verif.Humanoid.ReferenceProps

/-! Three timesteps reach every state of the CoM, so that the equations that stop the CoM at an end support are independent as soon as
the plan has three timesteps. -/

namespace Verif.Humanoid

open Verif.Tools Verif.Problem Verif.Robot

/-- Three constant jerks reach every position, velocity and acceleration. -/
theorem axis_reach (d1 d2 d3 : ℝ) (h1 : 0 < d1) (h2 : 0 < d2) (h3 : 0 < d3) (p v a p' v' a' : ℝ) : ∃ u1 u2 u3 : ℝ,
    let p1 := p + d1 * v + d1 ^ 2 / 2 * a + d1 ^ 3 / 6 * u1
    let v1 := v + d1 * a + d1 ^ 2 / 2 * u1
    let a1 := a + d1 * u1
    let p2 := p1 + d2 * v1 + d2 ^ 2 / 2 * a1 + d2 ^ 3 / 6 * u2
    let v2 := v1 + d2 * a1 + d2 ^ 2 / 2 * u2
    let a2 := a1 + d2 * u2
    p2 + d3 * v2 + d3 ^ 2 / 2 * a2 + d3 ^ 3 / 6 * u3 = p' ∧ v2 + d3 * a2 + d3 ^ 2 / 2 * u3 = v' ∧ a2 + d3 * u3 = a' := by
  -- `τ1`, `τ2`, `τ3`: the times left at the start of each step
  obtain ⟨t1, e1⟩ : ∃ t, t = d1 + d2 + d3 := ⟨_, rfl⟩
  obtain ⟨t2, e2⟩ : ∃ t, t = d2 + d3 := ⟨_, rfl⟩
  obtain ⟨P, eP⟩ : ∃ P, P = 6 * (p' - (p + t1 * v + t1 ^ 2 / 2 * a)) := ⟨_, rfl⟩
  obtain ⟨V, eV⟩ : ∃ V, V = 2 * (v' - (v + t1 * a)) := ⟨_, rfl⟩
  obtain ⟨A, eA⟩ : ∃ A, A = a' - a := ⟨_, rfl⟩
  have n1 : t1 ≠ 0 := by rw [e1]; positivity
  have n2 : t2 ≠ 0 := by rw [e2]; positivity
  have n3 : d3 ≠ 0 := h3.ne'
  have n12 : t1 - t2 ≠ 0 := by rw [e1, e2]; intro h; linarith
  have n13 : t1 - d3 ≠ 0 := by rw [e1]; intro h; linarith
  have n23 : t2 - d3 ≠ 0 := by rw [e2]; intro h; linarith
  have hy : ∃ y1 y2 y3 : ℝ, y1 * t1 + y2 * t2 + y3 * d3 = A ∧ y1 * t1 ^ 2 + y2 * t2 ^ 2 + y3 * d3 ^ 2 = V ∧
      y1 * t1 ^ 3 + y2 * t2 ^ 3 + y3 * d3 ^ 3 = P := by
    refine ⟨(P - (t2 + d3) * V + t2 * d3 * A) / ((t1 - t2) * (t1 - d3)) / t1,
      -(P - (t1 + d3) * V + t1 * d3 * A) / ((t1 - t2) * (t2 - d3)) / t2,
      (P - (t1 + t2) * V + t1 * t2 * A) / ((t1 - d3) * (t2 - d3)) / d3, ?_, ?_, ?_⟩ <;>
    · field_simp
      ring
  obtain ⟨y1, y2, y3, q1, q2, q3⟩ := hy
  have f1 : d1 = t1 - t2 := by rw [e1, e2]; ring
  have f2 : d2 = t2 - d3 := by rw [e2]; ring
  refine ⟨y1, y1 + y2, y1 + y2 + y3, ?_, ?_, ?_⟩
  · rw [f1, f2]
    linear_combination 1 / 6 * q3 + 1 / 6 * eP
  · rw [f1, f2]
    linear_combination 1 / 2 * q2 + 1 / 2 * eV
  · rw [f1, f2]
    linear_combination q1 + eA

/-- Jerks, each with its duration. -/
noncomputable def pushedAll (c : ComState) (l : List (ℝ × V2)) : ComState := l.foldl (fun c p => pushed p.1 p.2 c) c

theorem steps_reach (ds : List ℝ) (hd : ∀ d ∈ ds, 0 < d) (hl : 3 ≤ ds.length) : ∀ c c' : ComState,
    ∃ us : List V2, us.length = ds.length ∧ pushedAll c (ds.zip us) = c' := by
  induction ds with
  | nil => simp at hl
  | cons d ds ih =>
    intro c c'
    by_cases h3 : 3 ≤ ds.length
    · obtain ⟨us, h1, h2⟩ := ih (fun d h => hd d (List.mem_cons_of_mem _ h)) h3 (pushed d ⟨0, 0⟩ c) c'
      exact ⟨⟨0, 0⟩ :: us, by simp [h1], h2⟩
    · obtain ⟨d2, d3, rfl⟩ : ∃ d2 d3, ds = [d2, d3] := by
        rw [List.length_cons] at hl
        exact List.length_eq_two.1 (by omega)
      have p1 := hd d (by simp)
      have p2 := hd d2 (by simp)
      have p3 := hd d3 (by simp)
      obtain ⟨u1, u2, u3, x1, x2, x3⟩ := axis_reach d d2 d3 p1 p2 p3 c.pos.x c.vel.x c.acc.x c'.pos.x c'.vel.x c'.acc.x
      obtain ⟨w1, w2, w3, y1, y2, y3⟩ := axis_reach d d2 d3 p1 p2 p3 c.pos.y c.vel.y c.acc.y c'.pos.y c'.vel.y c'.acc.y
      refine ⟨[⟨u1, w1⟩, ⟨u2, w2⟩, ⟨u3, w3⟩], rfl, ?_⟩
      simp only [pushedAll, List.zip_cons_cons, List.zip_nil_right, List.foldl_cons, List.foldl_nil, pushed]
      simp only [x1, x2, x3, y1, y2, y3]

/-- The durations of the timesteps. -/
noncomputable def stepDurations (g : Wpg) (ss : List Support) : List ℝ :=
  ss.flatMap fun s => List.replicate (g.timesteps s) (g.duration s / g.timesteps s)

theorem pushedBy_all (d : ℝ) (c : ComState) : ∀ (m : Nat) (us : List V2) (u : Nat → V2), us.length = m →
    (∀ k (h : k < us.length), u k = us[k]) → pushedBy d u c m = pushedAll c ((List.replicate m d).zip us) := by
  intro m
  induction m with
  | zero =>
    intro us u h _
    rfl
  | succ m ih =>
    intro us u h hu
    obtain ⟨us', x, rfl⟩ : ∃ us' x, us = us' ++ [x] := ⟨us.dropLast, us.getLast (by intro h'; rw [h'] at h; simp at h),
      (List.dropLast_append_getLast _).symm⟩
    have hl : us'.length = m := by simpa using h
    have := ih us' u hl fun k hk => by
      rw [hu k (by rw [List.length_append]; omega), List.getElem_append_left hk]
    unfold pushedBy
    rw [this, List.replicate_succ', List.zip_append (by rw [List.length_replicate, hl])]
    unfold pushedAll
    rw [List.foldl_append]
    have e := hu m (by simp [hl])
    rw [List.getElem_append_right (by omega)] at e
    simp only [List.zip_cons_cons, List.zip_nil_right, List.foldl_cons, List.foldl_nil]
    rw [e]
    simp

theorem walks_steps (g : Wpg) : ∀ (ss : List Support) (c : ComState) (us : List V2), us.length = (stepDurations g ss).length →
    Walks g (fun _ _ => True) c ss (pushedAll c ((stepDurations g ss).zip us)) := by
  intro ss
  induction ss with
  | nil =>
    intro c us h
    simp [Walks, stepDurations, pushedAll]
  | cons s ss ih =>
    intro c us h
    have hcons : stepDurations g (s :: ss) = List.replicate (g.timesteps s) (g.duration s / g.timesteps s) ++ stepDurations g ss := rfl
    rw [hcons, List.length_append, List.length_replicate] at h
    have hlen : (us.take (g.timesteps s)).length = g.timesteps s := by rw [List.length_take]; omega
    refine ⟨fun k => us.getD k ⟨0, 0⟩, trivial, ?_⟩
    have e := pushedBy_all (g.duration s / g.timesteps s) c (g.timesteps s) (us.take (g.timesteps s)) (fun k => us.getD k ⟨0, 0⟩) hlen
      (fun k hk => by
        rw [hlen] at hk
        have : k < us.length := by omega
        simp [List.getD, this])
    have hz : (stepDurations g (s :: ss)).zip us = (List.replicate (g.timesteps s) (g.duration s / g.timesteps s)).zip (us.take (g.timesteps s)) ++
        (stepDurations g ss).zip (us.drop (g.timesteps s)) := by
      rw [hcons, ← List.zip_append (by rw [List.length_replicate, hlen]), List.take_append_drop]
    rw [hz]
    unfold pushedAll at e ⊢
    rw [List.foldl_append, ← e]
    exact ih _ _ (by rw [List.length_drop]; omega)

theorem stepDurations_length (g : Wpg) (ss : List Support) : (stepDurations g ss).length = (ss.map g.timesteps).sum := by
  induction ss with
  | nil => rfl
  | cons s ss ih =>
    have hcons : stepDurations g (s :: ss) = List.replicate (g.timesteps s) (g.duration s / g.timesteps s) ++ stepDurations g ss := rfl
    rw [hcons, List.length_append, List.length_replicate, ih]
    rfl

/-- With three timesteps, the CoM can be brought anywhere. -/
theorem walks_anywhere (g : Wpg) (ss : List Support) (hd : ∀ s ∈ ss, 0 < g.duration s) (h3 : 3 ≤ (ss.map g.timesteps).sum)
    (c c' : ComState) : Walks g (fun _ _ => True) c ss c' := by
  obtain ⟨us, h1, h2⟩ := steps_reach (stepDurations g ss) (by
    intro d hd'
    obtain ⟨s, hs, hm⟩ := List.mem_flatMap.1 hd'
    rw [(List.mem_replicate.1 hm).2]
    exact div_pos (hd s hs) (by exact_mod_cast timesteps_pos g s)) (by rw [stepDurations_length]; exact h3) c c'
  rw [← h2]
  exact walks_steps g ss c us h1

/-! ## The equations of an end support -/

/-- The three constraints that stop the CoM. -/
structure Stops (g : Wpg) (l : Lipm) (s : Support) (a b d : Constr ℝ) : Prop where
  hard : a.hardEq = true ∧ b.hardEq = true ∧ d.hardEq = true
  rows : a.expr.rows = 2 ∧ b.expr.rows = 2 ∧ d.expr.rows = 2
  value : ∃ q : V2, ∀ sol,
    a.expr.rowVal sol 0 = (l.stateAt sol l.timesteps 0).x - q.x ∧ a.expr.rowVal sol 1 = (l.stateAt sol l.timesteps 0).y - q.y ∧
    b.expr.rowVal sol 0 = (l.stateAt sol l.timesteps 1).x ∧ b.expr.rowVal sol 1 = (l.stateAt sol l.timesteps 1).y ∧
    d.expr.rowVal sol 0 = (l.stateAt sol l.timesteps 2).x ∧ d.expr.rowVal sol 1 = (l.stateAt sol l.timesteps 2).y

theorem constrainStop_stops (g : Wpg) (h0 : g.soft = false) (l : Lipm) (h : LipmOK l) (s : Support) (hs : Stands s) :
    ∃ a b d, g.constrainStop l s l.timesteps = .ok [a, b, d] ∧ Stops g l s a b d := by
  obtain ⟨f, a, b, d, hf, hst, ⟨t1, t2, t3⟩, ⟨p1, p2, p3⟩, -, -⟩ := constrainStop_spec g l h s hs l.timesteps le_rfl
  have e : ∀ y, softenIf g.soft g.stopEndSupportWeight y = y := fun y => by simp [softenIf, h0]
  rw [e, e, e] at hst
  have hh : a.hardEq = true ∧ b.hardEq = true ∧ d.hardEq = true :=
    ⟨by simp [Constr.hardEq, t1, p1], by simp [Constr.hardEq, t2, p2], by simp [Constr.hardEq, t3, p3]⟩
  obtain ⟨e0, he0, re0, ve0⟩ := component_evaluates h l.timesteps 0 le_rfl (by omega)
  obtain ⟨e1, he1, re1, ve1⟩ := component_evaluates h l.timesteps 1 le_rfl (by omega)
  obtain ⟨e2, he2, re2, ve2⟩ := component_evaluates h l.timesteps 2 le_rfl (by omega)
  obtain ⟨a', ha, a1, a2, a3⟩ := eqVec_rows e0 re0 (f.translation 0) (f.translation 1)
  obtain ⟨b', hb, b1, b2, b3⟩ := eqVec_rows e1 re1 0 0
  obtain ⟨d', hd, d1, d2, d3⟩ := eqVec_rows e2 re2 0 0
  have hst' : g.constrainStop l s l.timesteps = .ok [a', b', d'] := by
    unfold Wpg.constrainStop
    have q0 : l.pos l.timesteps = .ok e0 := he0
    have q1 : l.vel l.timesteps = .ok e1 := he1
    have q2 : l.acc l.timesteps = .ok e2 := he2
    simp only [hf, q0, q1, q2, ha, hb, hd, e, Bind.bind, Except.bind]
  rw [hst] at hst'
  simp only [Except.ok.injEq, List.cons.injEq, and_true] at hst'
  obtain ⟨rfl, rfl, rfl⟩ := hst'
  refine ⟨_, _, _, hst, hh, ⟨a2, b2, d2⟩, ⟨f.translation 0, f.translation 1⟩, fun sol => ?_⟩
  have v0 := ve0 sol
  have v1 := ve1 sol
  have v2 := ve2 sol
  simp only [pointAt] at v0 v1 v2
  rw [(a3 sol).1, (a3 sol).2, (b3 sol).1, (b3 sol).2, (d3 sol).1, (d3 sol).2, ← v0, ← v1, ← v2]
  simp

theorem constrainLoop_end (g : Wpg) (h0 : g.soft = false) (l : Lipm) (h : LipmOK l) (s : Support) (hs : Stands s)
    (he : s.isEnd = true) :
    ∀ count k : Nat, 0 < count → k + count = l.timesteps + 1 → ∃ pre a b d, g.constrainLoop l s count k = .ok (pre ++ [a, b, d]) ∧
      (∀ c ∈ pre, c.hardEq = false) ∧ Stops g l s a b d := by
  intro count
  induction count with
  | zero => intro k h; omega
  | succ count ih =>
    intro k _ hk
    obtain ⟨c, r, hz, c1, c2, -, -, r1, -, -⟩ := constrainZmp_spec g l h s hs k (by omega)
    have hpre : ∀ x ∈ [softenIf g.soft g.zmpInSupportWeight c, r.configureP .soft g.p.zmpReferenceWeight], x.hardEq = false := by
      intro x hx
      simp only [List.mem_cons, List.not_mem_nil, or_false] at hx
      rcases hx with rfl | rfl
      · simp [softenIf, h0, Constr.hardEq, c1]
      · simp [Constr.hardEq, Constr.configureP]
    by_cases h1 : count = 0
    · subst h1
      obtain rfl : k = l.timesteps := by omega
      obtain ⟨a, b, d, hst, hs'⟩ := constrainStop_stops g h0 l h s hs
      refine ⟨_, a, b, d, ?_, hpre, hs'⟩
      unfold Wpg.constrainLoop Wpg.constrainStep Wpg.constrainEnd
      simp only [hz, he, hst, Wpg.constrainLoop, Bind.bind, Except.bind, and_self, if_true, List.append_nil]
    · obtain ⟨pre, a, b, d, hr, hp, hst⟩ := ih (k + 1) (by omega) (by omega)
      refine ⟨[softenIf g.soft g.zmpInSupportWeight c, r.configureP .soft g.p.zmpReferenceWeight] ++ pre, a, b, d, ?_, ?_, hst⟩
      · have : g.constrainEnd l s k = .ok [] := by
          unfold Wpg.constrainEnd
          rw [if_neg (by rintro ⟨-, h⟩; omega)]
        unfold Wpg.constrainLoop Wpg.constrainStep
        simp only [hz, this, hr, Bind.bind, Except.bind, List.append_nil, List.append_assoc]
      · intro x hx
        rcases List.mem_append.1 hx with hx | hx
        · exact hpre x hx
        · exact hp x hx

theorem constrain_plain (g : Wpg) (l : Lipm) (h : LipmOK l) (s : Support) (hs : Stands s) (he : s.isEnd = false)
    (cs : List (Constr ℝ)) (hc : g.constrainLipm l s = .ok cs) : ∀ c ∈ cs, c.hardEq = false := by
  obtain ⟨cs1, e1, -, hq, -, -⟩ := constrainLoop_spec g l h _ hs l.timesteps 1 (by omega)
  have hc' : g.constrainLoop l s l.timesteps 1 = .ok cs := hc
  rw [hc'] at e1
  cases e1
  exact hq (.inl he)

theorem chained_count {g : Wpg} {init : ComState} {prev : Option Lipm} {t : ℝ} {n : Nat} {ss : List Support}
    {ps : List Planned} {n' : Nat} {te : ℝ} (h : Chained g init prev t n ss ps n' te) :
    n' = n + 2 * (ss.map g.timesteps).sum := by
  induction h with
  | nil => rfl
  | cons prev t n s ss l cs ps n' te hst lok hdt hm ht hx hy hc rest ih =>
    rw [ih, List.map_cons, List.sum_cons]
    ring

/-- The equations of a plan that only ends with its last support. -/
theorem chained_stops {g : Wpg} (h0 : g.soft = false) {init : ComState} {prev : Option Lipm} {t : ℝ} {n : Nat} {ss : List Support}
    {ps : List Planned} {n' : Nat} {te : ℝ} (h : Chained g init prev t n ss ps n' te) :
    ∀ (ss0 : List Support) (s : Support), ss = ss0 ++ [s] → (∀ s ∈ ss, Stands s) → (∀ s ∈ ss0, s.isEnd = false) → s.isEnd = true →
    ∃ pre a b d l s', (ps.map Planned.cs).flatten = pre ++ [a, b, d] ∧ (∀ c ∈ pre, c.hardEq = false) ∧ Stops g l s' a b d ∧
      lastLipm prev ps = some l := by
  induction h with
  | nil => intro ss0 s h; simp at h
  | cons prev t n s ss l cs ps n' te hst lok hdt hm ht hx hy hc rest ih =>
    intro ss0 s1 hss hs hp he
    have hsi : Stands (stamped s t) := (stamped_stands _ _).2 (hs s List.mem_cons_self)
    cases ss0 with
    | nil =>
      simp only [List.nil_append, List.cons.injEq] at hss
      obtain ⟨rfl, rfl⟩ := hss
      cases rest with
      | nil =>
        obtain ⟨pre, a, b, d, e, h1, h2⟩ := constrainLoop_end g h0 l lok (stamped s t) hsi (by rw [stamped_isEnd]; exact he) l.timesteps 1
          (by rw [hm]; exact timesteps_pos g s) (by omega)
        have hc' : g.constrainLoop l (stamped s t) l.timesteps 1 = .ok cs := hc
        rw [hc'] at e
        cases e
        exact ⟨pre, a, b, d, l, _, by simp, h1, h2, rfl⟩
    | cons s0 ss0 =>
      simp only [List.cons_append, List.cons.injEq] at hss
      obtain ⟨rfl, rfl⟩ := hss
      obtain ⟨pre, a, b, d, l', s', e, h1, h2, h3⟩ := ih ss0 s1 rfl (fun s h => hs s (List.mem_cons_of_mem _ h))
        (fun s h => hp s (List.mem_cons_of_mem _ h)) he
      refine ⟨cs ++ pre, a, b, d, l', s', ?_, ?_, h2, h3⟩
      · rw [List.map_cons, List.flatten_cons, e, List.append_assoc]
      · intro c hc'
        rcases List.mem_append.1 hc' with hc' | hc'
        · exact constrain_plain g l lok _ hsi (by rw [stamped_isEnd]; exact hp s List.mem_cons_self) cs hc c hc'
        · exact h1 c hc'

theorem six_rows {g : Wpg} {l : Lipm} {s : Support} {pre : List (Constr ℝ)} {a b d : Constr ℝ} (h1 : ∀ c ∈ pre, c.hardEq = false)
    (h2 : Stops g l s a b d) : nEqualities (pre ++ [a, b, d]) = 6 := by
  have := nEqualities_zero pre h1
  unfold nEqualities at this ⊢
  rw [List.map_append, List.sum_append, this]
  simp [h2.hard, h2.rows]

/-- These equations are independent as soon as the CoM can be brought anywhere. -/
theorem stops_indep {g : Wpg} {l : Lipm} {s : Support} {pre : List (Constr ℝ)} {a b d : Constr ℝ} (h1 : ∀ c ∈ pre, c.hardEq = false)
    (h2 : Stops g l s a b d) (n : Nat) (hcols : ∀ c ∈ pre ++ [a, b, d], c.expr.cols ≤ n)
    (hreach : ∀ c' : ComState, ∃ sol, lipmState l sol l.timesteps = c') :
    RowsIndep n (nEqualities (pre ++ [a, b, d])) (equalities (pre ++ [a, b, d])).A := by
  have h6 := six_rows h1 h2
  have hz := nEqualities_zero pre h1
  obtain ⟨q, hv⟩ := h2.value
  obtain ⟨hda, hdb, hdd⟩ := h2.hard
  obtain ⟨ra, rb, rd⟩ := h2.rows
  obtain ⟨-, -, i3, -⟩ := equalities_inv (pre ++ [a, b, d])
  have t0 : (pre ++ [a, b, d])[pre.length]? = some a := by simp
  have t1 : (pre ++ [a, b, d])[pre.length + 1]? = some b := by simp
  have t2 : (pre ++ [a, b, d])[pre.length + 2]? = some d := by simp
  have n0 : nEqualities ((pre ++ [a, b, d]).take pre.length) = 0 := by simpa using hz
  have n1 : nEqualities ((pre ++ [a, b, d]).take (pre.length + 1)) = 2 := by
    rw [List.take_length_add_append]
    unfold nEqualities at hz ⊢
    simp [hz, hda, ra]
  have n2 : nEqualities ((pre ++ [a, b, d]).take (pre.length + 2)) = 4 := by
    rw [List.take_length_add_append]
    unfold nEqualities at hz ⊢
    simp [hz, hda, ra, hdb, rb]
  have ea := fun j hj => (i3 _ a t0 hda j hj).1
  have eb := fun j hj => (i3 _ b t1 hdb j hj).1
  have ed := fun j hj => (i3 _ d t2 hdd j hj).1
  rw [n0] at ea
  rw [n1] at eb
  rw [n2] at ed
  rw [h6]
  intro w hw
  -- what the combination of the six rows says of any two states that are reached
  have key : ∀ sol, w 0 * (a.expr.rowVal sol 0 - a.expr.b 0) + w 1 * (a.expr.rowVal sol 1 - a.expr.b 1) +
      w 2 * (b.expr.rowVal sol 0 - b.expr.b 0) + w 3 * (b.expr.rowVal sol 1 - b.expr.b 1) +
      w 4 * (d.expr.rowVal sol 0 - d.expr.b 0) + w 5 * (d.expr.rowVal sol 1 - d.expr.b 1) = 0 := by
    intro sol
    have row : ∀ (c : Constr ℝ) (i j : Nat), c.expr.cols ≤ n → (∀ k, (equalities (pre ++ [a, b, d])).A i k = c.expr.pad j k) →
        c.expr.rowVal sol j - c.expr.b j = ∑ k ∈ Finset.range n, (equalities (pre ++ [a, b, d])).A i k * sol k := by
      intro c i j hc hi
      rw [Expr.rowVal_pad c.expr n hc]
      simp only [hi]
      ring
    have ca := hcols a (by simp)
    have cb := hcols b (by simp)
    have cd := hcols d (by simp)
    rw [row a 0 0 ca (ea 0 (by omega)), row a 1 1 ca (ea 1 (by omega)), row b 2 0 cb (eb 0 (by omega)), row b 3 1 cb (eb 1 (by omega)),
      row d 4 0 cd (ed 0 (by omega)), row d 5 1 cd (ed 1 (by omega))]
    simp only [Finset.mul_sum]
    rw [← Finset.sum_add_distrib, ← Finset.sum_add_distrib, ← Finset.sum_add_distrib, ← Finset.sum_add_distrib,
      ← Finset.sum_add_distrib]
    refine Finset.sum_eq_zero fun k hk => ?_
    have := hw k (Finset.mem_range.1 hk)
    simp only [Finset.sum_range_succ, Finset.sum_range_zero] at this
    linear_combination sol k * this
  have reach : ∀ p0 p1 v0 v1 a0 a1 : ℝ, w 0 * (p0 - q.x - a.expr.b 0) + w 1 * (p1 - q.y - a.expr.b 1) +
      w 2 * (v0 - b.expr.b 0) + w 3 * (v1 - b.expr.b 1) + w 4 * (a0 - d.expr.b 0) + w 5 * (a1 - d.expr.b 1) = 0 := by
    intro p0 p1 v0 v1 a0 a1
    obtain ⟨sol, hsol⟩ := hreach ⟨⟨p0, p1⟩, ⟨v0, v1⟩, ⟨a0, a1⟩⟩
    have k := key sol
    obtain ⟨x1, x2, x3, x4, x5, x6⟩ := hv sol
    rw [lipmState, ComState.mk.injEq] at hsol
    rw [x1, x2, x3, x4, x5, x6, hsol.1, hsol.2.1, hsol.2.2] at k
    exact k
  have z := reach 0 0 0 0 0 0
  have w0 := reach 1 0 0 0 0 0
  have w1 := reach 0 1 0 0 0 0
  have w2 := reach 0 0 1 0 0 0
  have w3 := reach 0 0 0 1 0 0
  have w4 := reach 0 0 0 0 1 0
  have w5 := reach 0 0 0 0 0 1
  intro i hi
  interval_cases i <;> linarith

end Verif.Humanoid
