/-
C143: what `plan_com` really minimises, and a plan of two supports that is not the documented one.
-/
import Verif.Humanoid.PlanCostProps

namespace Verif.Humanoid
open Verif.Problem Verif.Tools Verif.Robot

/-! ## The cost of the assembled problem -/

theorem softTerm_penalty (x s : Nat → ℝ) (c : Constr ℝ) (h : c.priority = .soft → c.ty = .equality) : softTerm x s c = softPenalty x c := by
  unfold softTerm softPenalty
  cases h1 : c.priority with
  | hard => rfl
  | soft => rw [h h1]

theorem qp_cost_walk (g : Wpg) (h0 : g.soft = false) (q : Support → V2) (hq : ∀ s, Stands s → Target g.p s (q s)) (n : Nat)
    (ps : List Planned)
    (hps : ∀ p ∈ ps, LipmOK p.lipm ∧ Stands p.support ∧ g.constrainLipm p.lipm p.support = .ok p.cs)
    (hz : nEqualities (ps.map Planned.cs).flatten = 0) (qp : QP ℝ)
    (hqp : assemble (newProblem n) g.qr (ps.map Planned.cs).flatten = .ok qp) :
    qp.red = none ∧ (∀ x, (∃ v, qp.Feasible v ∧ ∀ k, k < n → x k = v k) ↔ HardSat (ps.map Planned.cs).flatten x) ∧
    ∃ const, ∀ v, qp.cost v =
      walkCost g ps q n v - lostSum (1 / 1000000000000) n none (ps.map Planned.cs).flatten v + const := by
  have hqr : QRContract (newProblem n) g.qr (ps.map Planned.cs).flatten := by
    intro h
    rw [hz] at h
    simp at h
  have hred : qp.red = none := by
    rw [(assembled_of_ok hqp).red, hz]
    rfl
  have hrec : ∀ v, qp.recover n v = v := by
    intro v
    unfold QP.recover
    rw [hred]
  obtain ⟨qp', hqp', -, hr', hcost⟩ := C10_exact (newProblem n) g.qr _ qp hqp
  obtain ⟨const, hc⟩ := C09_objective { newProblem n with useSparsity := false } g.qr _ qp' hqr rfl hqp'
  refine ⟨hred, fun x => ?_, const, fun v => ?_⟩
  · rw [← C15_equalities_lossless (newProblem n) g.qr _ qp hqr hqp x]
    show _ ↔ ∃ v, qp.Feasible v ∧ ∀ k, k < n → x k = qp.recover n v k
    simp only [hrec]
  · have hv : qp'.recover (newProblem n).n v = v := (hr' v).symm.trans (hrec v)
    have e1 := hcost v
    have e2 := hc v
    have e3 := spec_walk g h0 q n v ps fun p hp => ⟨(hps p hp).1, (hps p hp).2.1, hq _ (hps p hp).2.1, (hps p hp).2.2⟩
    have hred' : qp.red = none := hred
    rw [hred'] at e1
    rw [e1, e2, ← e3]
    unfold specCost
    have e4 : ((ps.map Planned.cs).flatten.mapIdx fun ci c =>
        softTerm (qp'.recover (newProblem n).n v) (slackOf qp' (ps.map Planned.cs).flatten v ci) c) =
        (ps.map Planned.cs).flatten.map (softPenalty v) := by
      rw [hv]
      apply List.ext_getElem
      · rw [List.length_mapIdx, List.length_map]
      · intro i h1 h2
        simp only [List.getElem_mapIdx, List.getElem_map]
        rw [softTerm_penalty]
        intro hp
        obtain ⟨p, -, k, -, -, hf⟩ := soft_equality g h0 ps hps _ (List.getElem_mem _) hp
        exact hf.1
    have e5 : ∀ j, qp'.recover (newProblem n).n v j = v j := fun j => congrFun hv j
    show 1 / 100000000 * (∑ j ∈ Finset.range n, qp'.recover (newProblem n).n v j ^ 2) + _ + const - _ = _
    simp only [e4, e5]
    show _ - lostSum (1 / 1000000000000) n none _ v = _
    ring

/-- **C143 (exact).** With hard constraints, an optimal QP solver and no end support, the plan minimises the documented cost minus
the products that the sparse accumulation leaves out. -/
theorem C143_exact (g : Wpg) (h0 : g.soft = false) (hor : SolverOptimal g.oracle)
    (t0 : ℝ) (ss : List Support) (hss : ∀ s ∈ ss, Stands s ∧ 0 < g.duration s ∧ 0 < (s.supportPolygon g.hull).2.length)
    (hend : ∀ s ∈ ss, s.isEnd = false) (init : ComState)
    (q : Support → V2) (hq : ∀ s, Stands s → Target g.p s (q s))
    (parts : List Part) (te : ℝ) (h : g.planCom t0 ss init = .ok (some (parts, te))) :
    ∃ ps n sol, Chained g init none t0 0 ss ps n te ∧ From g ps sol parts ∧ HardSat (ps.map Planned.cs).flatten sol ∧
      (∀ c ∈ (ps.map Planned.cs).flatten, c.expr.cols ≤ n) ∧ ∀ sol', HardSat (ps.map Planned.cs).flatten sol' →
        walkCost g ps q n sol - lostSum (1 / 1000000000000) n none (ps.map Planned.cs).flatten sol ≤
          walkCost g ps q n sol' - lostSum (1 / 1000000000000) n none (ps.map Planned.cs).flatten sol' := by
  obtain ⟨ps, n, sol, hc, hr, hsol, hlen, hget⟩ := planCom_loop g t0 ss init (fun s hs => (hss s hs).2.1) parts te h
  obtain ⟨qp, hqp, hi, rfl⟩ := solveQP_qp g n _ sol hsol
  have hps := chained_parts hc fun s hs => (hss s hs).1
  obtain ⟨r, hr0, -, hfit, heq⟩ := planLoop_total g t0 init ss t0 0 none hss (fun _ => rfl) (fun l hl => by cases hl)
  rw [hr] at hr0
  cases hr0
  have hz : nEqualities (ps.map Planned.cs).flatten = 0 := by
    apply nEqualities_zero
    intro c hc
    obtain ⟨l, hl, hcl⟩ := List.mem_flatten.1 hc
    obtain ⟨p, hp, rfl⟩ := List.mem_map.1 hl
    exact heq (.inl hend) p hp c hcl
  obtain ⟨hred, hfeas, const, hcost⟩ := qp_cost_walk g h0 q hq n ps hps hz qp hqp
  obtain ⟨-, hf, hmin⟩ := (hor qp).1 hi
  have hrec : qp.recover n (g.oracle qp).x = (g.oracle qp).x := by unfold QP.recover; rw [hred]
  -- the costs read the first `n` entries only
  have hcols : ∀ c ∈ (ps.map Planned.cs).flatten, c.expr.cols ≤ n := fun c hc => by
    obtain ⟨l, hl, hcl⟩ := List.mem_flatten.1 hc
    obtain ⟨p, hp, rfl⟩ := List.mem_map.1 hl
    exact (hfit p hp c hcl).1
  refine ⟨ps, n, _, hc, ⟨hlen, fun i h1 h2 => by have := (hget i h1 h2).2.2.1; rw [hrec] at this; exact this⟩,
    (hfeas _).1 ⟨_, hf, fun _ _ => rfl⟩, hcols, fun sol' hs' => ?_⟩
  obtain ⟨v, hv, hvk⟩ := (hfeas sol').2 hs'
  have m := hmin v hv
  rw [hcost, hcost] at m
  have e1 : walkCost g ps q n sol' = walkCost g ps q n v := by
    rw [← spec_walk g h0 q n v ps fun p hp => ⟨(hps p hp).1, (hps p hp).2.1, hq _ (hps p hp).2.1, (hps p hp).2.2⟩,
      ← spec_walk g h0 q n sol' ps fun p hp => ⟨(hps p hp).1, (hps p hp).2.1, hq _ (hps p hp).2.1, (hps p hp).2.2⟩]
    exact specCost_congr n _ _ _ _ hcols hvk
  have e2 : lostSum (1 / 1000000000000) n none (ps.map Planned.cs).flatten sol' =
      lostSum (1 / 1000000000000) n none (ps.map Planned.cs).flatten v := by
    unfold lostSum
    congr 1
    refine List.map_congr_left fun c hc => ?_
    by_cases hs : c.softEq = true
    · rw [if_pos hs, if_pos hs]
      unfold lost
      simp only [reduceExpr]
      refine Finset.sum_congr rfl fun a ha => Finset.sum_congr rfl fun b hb => ?_
      have ha' := hvk a (lt_of_lt_of_le (Finset.mem_range.1 ha) (hcols c hc))
      have hb' := hvk b (lt_of_lt_of_le (Finset.mem_range.1 hb) (hcols c hc))
      rw [ha', hb']
    · rw [if_neg hs, if_neg hs]
  rw [e1, e2]
  linarith

/-! ## A plan of two supports -/

/-- Sums over the constraints of a part. -/
theorem constrainLoop_sum (g : Wpg) (h0 : g.soft = false) (l : Lipm) (h : LipmOK l) (s : Support) (hs : Stands s) :
    ∀ count k : Nat, k + count = l.timesteps + 1 → ∃ cs, g.constrainLoop l s count k = .ok cs ∧
      ∀ (F : Constr ℝ → ℝ) (G : Nat → ℝ), (∀ c ∈ cs, c.priority = .hard → F c = 0) →
        (∀ j c, c ∈ cs → k ≤ j → j < k + count → Follows g l s j c → F c = G j) →
        (cs.map F).sum = ∑ j ∈ Finset.range count, G (k + j) := by
  intro count
  induction count with
  | zero =>
    intro k _
    exact ⟨[], rfl, fun F G _ _ => by simp⟩
  | succ count ih =>
    intro k hk
    obtain ⟨rest, hrest, r1⟩ := ih (k + 1) (by omega)
    obtain ⟨c, r, hz, hc, hr⟩ := constrainZmp_target g l h s hs k (by omega)
    have hend : ∃ es, g.constrainEnd l s k = .ok es ∧ ∀ c ∈ es, c.priority = .hard := by
      unfold Wpg.constrainEnd
      by_cases hc : s.isEnd = true ∧ k = l.timesteps
      · rw [if_pos hc]
        obtain ⟨f, a, b, d, -, hst, -, ⟨p1, p2, p3⟩, -⟩ := constrainStop_spec g l h s hs k (by omega)
        refine ⟨_, hst, fun x hx => ?_⟩
        simp only [softenIf, h0, List.mem_cons, List.not_mem_nil, or_false] at hx
        rcases hx with rfl | rfl | rfl
        · exact p1
        · exact p2
        · exact p3
      · rw [if_neg hc]
        exact ⟨[], rfl, fun c hc => absurd hc List.not_mem_nil⟩
    obtain ⟨es, he, hes⟩ := hend
    have hcs : softenIf g.soft g.zmpInSupportWeight c = c := by unfold softenIf; rw [h0]; rfl
    refine ⟨([softenIf g.soft g.zmpInSupportWeight c, r] ++ es) ++ rest, ?_, ?_⟩
    · unfold Wpg.constrainLoop Wpg.constrainStep
      simp only [hz, he, hrest, Bind.bind, Except.bind]
    · intro F G hF hG
      rw [hcs] at hF hG ⊢
      have hes0 : (es.map F).sum = 0 := by
        apply List.sum_eq_zero
        intro x hx
        obtain ⟨y, hy, rfl⟩ := List.mem_map.1 hx
        exact hF y (by simp [hy]) (hes y hy)
      rw [List.map_append, List.sum_append, List.map_append, List.sum_append, hes0, List.map_cons, List.map_cons, List.map_nil,
        List.sum_cons, List.sum_cons, List.sum_nil, hF c (by simp) hc, hG k r (by simp) le_rfl (by omega) hr,
        r1 F G (fun c hc hp => hF c (by simp [hc]) hp) (fun j c hc h1 h2 hf => hG j c (by simp [hc]) (by omega) (by omega) hf),
        Finset.sum_range_succ']
      have : ∀ j, k + 1 + j = k + (j + 1) := fun j => by omega
      simp only [this, add_zero, zero_add]
      rw [add_comm]

/-- A left foot 10 cm on the left. -/
noncomputable def lostLeft : Footstep :=
  { width := 1 / 10, length := 15 / 100, side := .left, frame := ⟨1, ![0, 1 / 10, 0]⟩ }

/-- A right foot at the origin. -/
noncomputable def lostRight : Footstep :=
  { width := 1 / 10, length := 15 / 100, side := .right, frame := ⟨1, ![0, 0, 0]⟩ }

/-- Half of a step on the left foot is left, then a step on the right foot. -/
noncomputable def lostSupports : List Support := [{ footsteps := [lostLeft], elapsedRatio := 1 / 2 }, { footsteps := [lostRight] }]

/-- Steps of two timesteps of 0.1 s, a CoM at 39 cm (`omega² = 25`). -/
noncomputable def lostWpg (qr : Nat → EqSt ℝ → QR ℝ) (oracle : QP ℝ → QPResult ℝ) : Wpg where
  p := { singleSupportDuration := 2 / 10, singleSupportTimesteps := 2, walkComHeight := 392266 / 1000000, zmpMargin := 0 }
  hull := fun l => l ++ l.take 1
  slerp := fun a _ _ => a
  qr := qr
  oracle := oracle

variable (qr : Nat → EqSt ℝ → QR ℝ) (oracle : QP ℝ → QPResult ℝ)

theorem lost_omega2 : (lostWpg qr oracle).omega2 = 25 := by
  unfold Wpg.omega2 Wpg.omega computeOmega lostWpg
  rw [Real.sq_sqrt (by norm_num)]
  norm_num

theorem lost_polygon (f : Footstep) (cy : ℝ) (hf : f.computed = false) (hw : f.width = 1 / 10) (hl : f.length = 15 / 100)
    (hF : f.frame = ⟨1, ![0, cy, 0]⟩) (el : ℝ) : (Support.supportPolygon (fun l => l ++ l.take 1) { footsteps := [f], elapsedRatio := el }).2 =
    [⟨-75 / 1000, cy + 5 / 100⟩, ⟨75 / 1000, cy + 5 / 100⟩, ⟨75 / 1000, cy - 5 / 100⟩, ⟨-75 / 1000, cy - 5 / 100⟩] := by
  simp [Support.supportPolygon, readFootsteps, Footstep.supportPolygon, Footstep.computePolygon, planar, hf, hw, hl, hF]
  norm_num
  ring_nf
  exact ⟨trivial, trivial⟩

theorem box_noRepeat (cy : ℝ) : NoRepeat
    [⟨-75 / 1000, cy + 5 / 100⟩, ⟨75 / 1000, cy + 5 / 100⟩, ⟨75 / 1000, cy - 5 / 100⟩, ⟨-75 / 1000, cy - 5 / 100⟩] := by
  intro i hi
  have : i < 4 := hi
  interval_cases i <;> simp [vertex] <;> norm_num
  · intro h; linarith
  · intro h; linarith

theorem box_inside (cy : ℝ) (p : V2) (hx : |p.x| ≤ 75 / 1000) (hy : |p.y - cy| ≤ 5 / 100) : InsideBy 0
    [⟨-75 / 1000, cy + 5 / 100⟩, ⟨75 / 1000, cy + 5 / 100⟩, ⟨75 / 1000, cy - 5 / 100⟩, ⟨-75 / 1000, cy - 5 / 100⟩] p := by
  rw [abs_le] at hx hy
  intro i hi
  have : i < 4 := hi
  unfold signedDistance
  refine div_nonneg ?_ (Real.sqrt_nonneg _)
  interval_cases i <;>
  simp only [vertex, List.map, List.length_cons, List.length_nil, List.getD_cons_zero, List.getD_cons_succ, Nat.reduceAdd, Nat.reduceMod] <;>
  nlinarith

theorem lost_times : (lostWpg qr oracle).timesteps { footsteps := [lostLeft], elapsedRatio := 1 / 2 } = 1 ∧
    (lostWpg qr oracle).timesteps { footsteps := [lostRight] } = 2 ∧
    (lostWpg qr oracle).duration { footsteps := [lostLeft], elapsedRatio := 1 / 2 } = 1 / 10 ∧
    (lostWpg qr oracle).duration { footsteps := [lostRight] } = 2 / 10 := by
  refine ⟨?_, ?_, ?_, ?_⟩
  · have e : (1 - (1 : ℝ) / 2) * ((2 : Int) : ℝ) = ((1 : Int) : ℝ) := by norm_num
    show (max 1 (truncZ ((1 - (1 : ℝ) / 2) * ((2 : Int) : ℝ)))).toNat = 1
    rw [e, truncZ_int]
    rfl
  · have e : (1 - (0 : ℝ)) * ((2 : Int) : ℝ) = ((2 : Int) : ℝ) := by norm_num
    show (max 1 (truncZ ((1 - (0 : ℝ)) * ((2 : Int) : ℝ)))).toNat = 2
    rw [e, truncZ_int]
    rfl
  · simp [Wpg.duration, Params.supportDuration, Support.isBoth, lostWpg]
    norm_num
  · simp [Wpg.duration, Params.supportDuration, Support.isBoth, lostWpg]

/-- The two LIPMs of the plan. -/
structure LostPair (l m : Lipm) : Prop where
  lok : LipmOK l
  mok : LipmOK m
  ldt : l.dt = 1 / 10
  mdt : m.dt = 1 / 10
  lt : l.timesteps = 1
  mt : m.timesteps = 2
  lx : l.x.var.kStart = 0
  ly : l.y.var.kStart = 1
  mx : m.x.var.kStart = 2
  my : m.y.var.kStart = 4
  ls : Starts ⟨⟨0, 0⟩, ⟨0, 0⟩, ⟨0, 0⟩⟩ none l
  ms : Starts ⟨⟨0, 0⟩, ⟨0, 0⟩, ⟨0, 0⟩⟩ (some l) m

theorem lost_shape {ps : List Planned} {n : Nat} {te : ℝ}
    (hc : Chained (lostWpg qr oracle) ⟨⟨0, 0⟩, ⟨0, 0⟩, ⟨0, 0⟩⟩ none 0 0 lostSupports ps n te) :
    n = 6 ∧ ∃ p p' : Planned, ps = [p, p'] ∧ LostPair p.lipm p'.lipm ∧
      p.support = stamped { footsteps := [lostLeft], elapsedRatio := 1 / 2 } 0 ∧
      p'.support = stamped { footsteps := [lostRight] } (0 + (lostWpg qr oracle).duration { footsteps := [lostLeft], elapsedRatio := 1 / 2 }) ∧
      (lostWpg qr oracle).constrainLipm p.lipm p.support = .ok p.cs ∧
      (lostWpg qr oracle).constrainLipm p'.lipm p'.support = .ok p'.cs := by
  obtain ⟨t1, t2, d1, d2⟩ := lost_times qr oracle
  unfold lostSupports at hc
  cases hc with
  | cons _ _ _ _ _ l cs ps n' te hs ok hdt hm ht hx hy hc rest =>
    cases rest with
    | cons _ _ _ _ _ l' cs' ps' n'' te' hs' ok' hdt' hm' ht' hx' hy' hc' rest' =>
      cases rest'
      refine ⟨by rw [t1, t2], _, _, rfl, ?_, rfl, rfl, hc, hc'⟩
      refine ⟨ok, ok', ?_, ?_, ?_, ?_, ?_, ?_, ?_, ?_, hs, hs'⟩
      · rw [hdt, t1, d1]; norm_num
      · rw [hdt', t2, d2]; norm_num
      · rw [hm, t1]
      · rw [hm', t2]
      · rw [hx]
      · rw [hy, t1]
      · rw [hx', t1]
      · rw [hy', t1, t2]

/-- The ZMP at the three timesteps. -/
theorem lost_zmp {l m : Lipm} (h : LostPair l m) (v : Nat → ℝ) :
    zmpAt l 25 1 v = ⟨-23 / 6000 * v 0, -23 / 6000 * v 1⟩ ∧
    zmpAt m 25 1 v = ⟨-17 / 6000 * v 0 - 23 / 6000 * v 2, -17 / 6000 * v 1 - 23 / 6000 * v 4⟩ ∧
    zmpAt m 25 2 v = ⟨-5 / 6000 * v 0 - 17 / 6000 * v 2 - 23 / 6000 * v 3, -5 / 6000 * v 1 - 17 / 6000 * v 4 - 23 / 6000 * v 5⟩ := by
  obtain ⟨p0, p1, p2⟩ := h.ls v
  have q := h.ms v
  rw [h.lt] at q
  have q0 := q 0 (by omega)
  have q1 := q 1 (by omega)
  have q2 := q 2 (by omega)
  unfold Lipm.stateAt at p0 p1 p2 q0 q1 q2
  simp only [V2.mk.injEq] at p0 p1 p2 q0 q1 q2
  have sx := fun k d hd => axisState_succ h.lok.x v k d hd
  have sy := fun k d hd => axisState_succ h.lok.y v k d hd
  have tx := fun k d hd => axisState_succ h.mok.x v k d hd
  have ty := fun k d hd => axisState_succ h.mok.y v k d hd
  simp only [inputs, h.lx, h.ly, h.mx, h.my, h.ldt, h.mdt] at sx sy tx ty
  have sx0 := sx 0 0 (by omega)
  have sx1 := sx 0 1 (by omega)
  have sx2 := sx 0 2 (by omega)
  have sy0 := sy 0 0 (by omega)
  have sy1 := sy 0 1 (by omega)
  have sy2 := sy 0 2 (by omega)
  have tx0 := tx 0 0 (by omega)
  have tx1 := tx 0 1 (by omega)
  have tx2 := tx 0 2 (by omega)
  have ty0 := ty 0 0 (by omega)
  have ty1 := ty 0 1 (by omega)
  have ty2 := ty 0 2 (by omega)
  have ux0 := tx 1 0 (by omega)
  have ux2 := tx 1 2 (by omega)
  have uy0 := ty 1 0 (by omega)
  have uy2 := ty 1 2 (by omega)
  simp only [motion, zero_add, Nat.reduceAdd, add_zero, p0.1, p0.2, p1.1, p1.2, p2.1, p2.2] at sx0 sx1 sx2 sy0 sy1 sy2
  simp only [motion, zero_add, Nat.reduceAdd, add_zero, q0.1, q0.2, q1.1, q1.2, q2.1, q2.2, sx0, sx1, sx2, sy0, sy1, sy2] at tx0 tx1 tx2 ty0 ty1 ty2
  simp only [motion, Nat.reduceAdd, tx0, tx1, tx2, ty0, ty1, ty2] at ux0 ux2 uy0 uy2
  unfold zmpAt Lipm.stateAt
  simp only [sx0, sx2, sy0, sy2, tx0, tx2, ty0, ty2, ux0, ux2, uy0, uy2, V2.mk.injEq]
  refine ⟨⟨?_, ?_⟩, ⟨?_, ?_⟩, ?_, ?_⟩ <;> ring

theorem follows_unit {g : Wpg} {l : Lipm} {s : Support} {k : Nat} {c : Constr ℝ} (hf : Follows g l s k c) (hs : Stands s) (j : Nat) :
    coef c.expr 0 j = (zmpAt l g.omega2 k (unitAt j)).x - (zmpAt l g.omega2 k fun _ => 0).x ∧
    coef c.expr 1 j = (zmpAt l g.omega2 k (unitAt j)).y - (zmpAt l g.omega2 k fun _ => 0).y := by
  obtain ⟨f, o, -, -, hq⟩ := target_of g s hs
  obtain ⟨-, -, -, -, h5⟩ := hf
  have u := h5 _ hq (unitAt j)
  have z := h5 _ hq fun _ => 0
  constructor
  · unfold coef
    have e : c.expr.rowVal (fun k => if k = j then 1 else 0) 0 = _ := u.1
    rw [e, z.1]
    ring
  · unfold coef
    have e : c.expr.rowVal (fun k => if k = j then 1 else 0) 1 = _ := u.2
    rw [e, z.2]
    ring

/-- A run of columns that are not zero. -/
theorem same_run {e : Expr ℝ} (hrows : e.rows = 2) (r c : Nat) (hrc : r ≤ c)
    (h : ∀ j, r ≤ j → j ≤ c → coef e 0 j ≤ -1 / 2000 ∨ coef e 1 j ≤ -1 / 2000) :
    SameInterval (1 / 1000000000000) e r c := by
  rw [same_iff _ (by norm_num) e r c hrc]
  intro j h1 h2
  rcases h j h1 h2 with h | h
  · exact ⟨0, by omega, fun hh => by norm_num at hh; linarith [hh.1]⟩
  · exact ⟨1, by omega, fun hh => by norm_num at hh; linarith [hh.1]⟩

theorem lost_first {g : Wpg} (hg : g.omega2 = 25) {l m : Lipm} (h : LostPair l m) {s : Support} (hs : Stands s) {c : Constr ℝ}
    (hf : Follows g l s 1 c) (hcols : c.expr.cols ≤ 6) (v : Nat → ℝ) : lost (1 / 1000000000000) c.weight c.expr v = 0 := by
  have hrows : c.expr.rows = 2 := hf.2.2.2.1
  have hk := fun j => follows_unit hf hs j
  simp only [hg, (lost_zmp h _).1] at hk
  have k0 : ∀ j, coef c.expr 0 j = -23 / 6000 * unitAt j 0 := fun j => by rw [(hk j).1]; ring
  have k1 : ∀ j, coef c.expr 1 j = -23 / 6000 * unitAt j 1 := fun j => by rw [(hk j).2]; ring
  have S00 : SameInterval (1 / 1000000000000) c.expr 0 0 := same_run hrows 0 0 le_rfl fun j h1 h2 => by
    obtain rfl : j = 0 := by omega
    left; rw [k0]; norm_num [unitAt]
  have S11 : SameInterval (1 / 1000000000000) c.expr 1 1 := same_run hrows 1 1 le_rfl fun j h1 h2 => by
    obtain rfl : j = 1 := by omega
    right; rw [k1]; norm_num [unitAt]
  rw [lost_eq _ _ _ _ 6 hcols]
  simp only [hrows, Finset.sum_range_succ, Finset.sum_range_zero, k0, k1, unitAt, S00, S11, if_true]
  simp

theorem lost_second {g : Wpg} (hg : g.omega2 = 25) {l m : Lipm} (h : LostPair l m) {s : Support} (hs : Stands s) {c : Constr ℝ}
    (hf : Follows g m s 1 c) (hcols : c.expr.cols ≤ 6) (v : Nat → ℝ) :
    lost (1 / 1000000000000) c.weight c.expr v = 2 * c.weight * (17 / 6000 * (23 / 6000)) * (v 1 * v 4) := by
  have hrows : c.expr.rows = 2 := hf.2.2.2.1
  have hk := fun j => follows_unit hf hs j
  simp only [hg, (lost_zmp h _).2.1] at hk
  have k0 : ∀ j, coef c.expr 0 j = -17 / 6000 * unitAt j 0 - 23 / 6000 * unitAt j 2 := fun j => by rw [(hk j).1]; ring
  have k1 : ∀ j, coef c.expr 1 j = -17 / 6000 * unitAt j 1 - 23 / 6000 * unitAt j 4 := fun j => by rw [(hk j).2]; ring
  have S : ∀ a b, a ≤ b → b ≤ 2 → SameInterval (1 / 1000000000000) c.expr a b := fun a b h1 h2 =>
    same_run hrows a b h1 fun j h3 h4 => by
      have : j ≤ 2 := by omega
      interval_cases j
      · left; rw [k0]; norm_num [unitAt]
      · right; rw [k1]; norm_num [unitAt]
      · left; rw [k0]; norm_num [unitAt]
  have S00 := S 0 0 (by omega) (by omega)
  have S02 := S 0 2 (by omega) (by omega)
  have S11 := S 1 1 (by omega) (by omega)
  have S22 := S 2 2 (by omega) (by omega)
  have S44 : SameInterval (1 / 1000000000000) c.expr 4 4 := same_run hrows 4 4 le_rfl fun j h1 h2 => by
    obtain rfl : j = 4 := by omega
    right; rw [k1]; norm_num [unitAt]
  have N14 : ¬ SameInterval (1 / 1000000000000) c.expr 1 4 := by
    rw [same_iff _ (by norm_num) c.expr 1 4 (by omega)]
    intro hh
    obtain ⟨i, hi, hn⟩ := hh 3 (by omega) (by omega)
    apply hn
    have : i = 0 ∨ i = 1 := by omega
    rcases this with rfl | rfl
    · rw [k0]; norm_num [unitAt]
    · rw [k1]; norm_num [unitAt]
  have N41 : ¬ SameInterval (1 / 1000000000000) c.expr 4 1 := fun hh => N14 hh.symm
  rw [lost_eq _ _ _ _ 6 hcols]
  simp only [hrows, Finset.sum_range_succ, Finset.sum_range_zero, k0, k1, unitAt, S00, S02, S02.symm, S11, S22, S44, N14,
    N41, if_true, if_false]
  simp
  ring

theorem lost_third {g : Wpg} (hg : g.omega2 = 25) {l m : Lipm} (h : LostPair l m) {s : Support} (hs : Stands s) {c : Constr ℝ}
    (hf : Follows g m s 2 c) (hcols : c.expr.cols ≤ 6) (v : Nat → ℝ) : lost (1 / 1000000000000) c.weight c.expr v = 0 := by
  have hrows : c.expr.rows = 2 := hf.2.2.2.1
  have hk := fun j => follows_unit hf hs j
  simp only [hg, (lost_zmp h _).2.2] at hk
  have k0 : ∀ j, coef c.expr 0 j = -5 / 6000 * unitAt j 0 - 17 / 6000 * unitAt j 2 - 23 / 6000 * unitAt j 3 := fun j => by
    rw [(hk j).1]; ring
  have k1 : ∀ j, coef c.expr 1 j = -5 / 6000 * unitAt j 1 - 17 / 6000 * unitAt j 4 - 23 / 6000 * unitAt j 5 := fun j => by
    rw [(hk j).2]; ring
  have S : ∀ a b, a ≤ b → b ≤ 5 → SameInterval (1 / 1000000000000) c.expr a b := fun a b h1 h2 =>
    same_run hrows a b h1 fun j h3 h4 => by
      have : j ≤ 5 := by omega
      interval_cases j
      · left; rw [k0]; norm_num [unitAt]
      · right; rw [k1]; norm_num [unitAt]
      · left; rw [k0]; norm_num [unitAt]
      · left; rw [k0]; norm_num [unitAt]
      · right; rw [k1]; norm_num [unitAt]
      · right; rw [k1]; norm_num [unitAt]
  rw [lost_eq _ _ _ _ 6 hcols]
  refine Finset.sum_eq_zero fun a ha => Finset.sum_eq_zero fun b hb => ?_
  rw [Finset.mem_range] at ha hb
  rw [if_pos]
  rcases Nat.le_total a b with hab | hab
  · exact S a b hab (by omega)
  · exact (S b a hab (by omega)).symm

theorem lost_targets (t t' : ℝ) :
    targetOf (lostWpg qr oracle).p (stamped { footsteps := [lostLeft], elapsedRatio := 1 / 2 } t) = ⟨0, 1 / 10⟩ ∧
    targetOf (lostWpg qr oracle).p (stamped { footsteps := [lostRight] } t') = ⟨0, 0⟩ := by
  constructor
  · have h1 := targetOf_spec (lostWpg qr oracle).p _ ((stamped_stands { footsteps := [lostLeft], elapsedRatio := 1 / 2 } t).2 (.inl rfl))
    refine target_unique h1 (target_congr (s := { footsteps := [lostLeft], elapsedRatio := 1 / 2 }) ?_ ?_)
    · have := Target.left (p := (lostWpg qr oracle).p) { footsteps := [lostLeft], elapsedRatio := 1 / 2 } lostLeft rfl rfl
      simpa [worldPoint, lostLeft, lostWpg] using this
    · unfold stamped; split <;> rfl
  · have h1 := targetOf_spec (lostWpg qr oracle).p _ ((stamped_stands { footsteps := [lostRight] } t').2 (.inl rfl))
    refine target_unique h1 (target_congr (s := { footsteps := [lostRight] }) ?_ ?_)
    · have := Target.right (p := (lostWpg qr oracle).p) { footsteps := [lostRight] } lostRight rfl rfl
      simpa [worldPoint, lostRight, lostWpg] using this
    · unfold stamped; split <;> rfl

/-- The costs of the plan: documented, and left out. -/
theorem lost_costs {ps : List Planned} {n : Nat} {te : ℝ}
    (hc : Chained (lostWpg qr oracle) ⟨⟨0, 0⟩, ⟨0, 0⟩, ⟨0, 0⟩⟩ none 0 0 lostSupports ps n te)
    (hfit : ∀ c ∈ (ps.map Planned.cs).flatten, c.expr.cols ≤ n) (v : Nat → ℝ) :
    walkCost (lostWpg qr oracle) ps (targetOf (lostWpg qr oracle).p) n v =
      1 / 100000000 * (v 0 ^ 2 + v 1 ^ 2 + v 2 ^ 2 + v 3 ^ 2 + v 4 ^ 2 + v 5 ^ 2) +
      1 / 10 * ((23 / 6000 * v 0) ^ 2 + (-23 / 6000 * v 1 - 1 / 10) ^ 2 +
        (17 / 6000 * v 0 + 23 / 6000 * v 2) ^ 2 + (17 / 6000 * v 1 + 23 / 6000 * v 4) ^ 2 +
        (5 / 6000 * v 0 + 17 / 6000 * v 2 + 23 / 6000 * v 3) ^ 2 + (5 / 6000 * v 1 + 17 / 6000 * v 4 + 23 / 6000 * v 5) ^ 2) ∧
    lostSum (1 / 1000000000000) n none (ps.map Planned.cs).flatten v = 2 * (1 / 10) * (17 / 6000 * (23 / 6000)) * (v 1 * v 4) := by
  obtain ⟨rfl, p, p', rfl, hp, e1, e2, h1, h2⟩ := lost_shape qr oracle hc
  obtain ⟨z1, z2, z3⟩ := lost_zmp hp v
  have w : (lostWpg qr oracle).p.zmpReferenceWeight = 1 / 10 := rfl
  have om := lost_omega2 qr oracle
  have hs1 : Stands p.support := by rw [e1]; exact (stamped_stands _ _).2 (.inl rfl)
  have hs2 : Stands p'.support := by rw [e2]; exact (stamped_stands _ _).2 (.inl rfl)
  constructor
  · unfold walkCost
    simp only [List.map_cons, List.map_nil, List.sum_cons, List.sum_nil, hp.lt, hp.mt, Finset.sum_range_succ, Finset.sum_range_zero,
      om, w, zero_add, Nat.reduceAdd, z1, z2, z3, e1, e2, (lost_targets qr oracle _ 0).1, (lost_targets qr oracle 0 _).2, dist2]
    ring
  · have hF1 : ∀ c ∈ p.cs, c.expr.cols ≤ 6 := fun c h => hfit c (by simp [h])
    have hF2 : ∀ c ∈ p'.cs, c.expr.cols ≤ 6 := fun c h => hfit c (by simp [h])
    obtain ⟨cs, hcs, s1⟩ := constrainLoop_sum (lostWpg qr oracle) rfl p.lipm hp.lok p.support hs1 p.lipm.timesteps 1 (by omega)
    obtain rfl : cs = p.cs := by
      have : (lostWpg qr oracle).constrainLipm p.lipm p.support = .ok cs := hcs
      rw [h1] at this
      cases this; rfl
    obtain ⟨cs, hcs', s2⟩ := constrainLoop_sum (lostWpg qr oracle) rfl p'.lipm hp.mok p'.support hs2 p'.lipm.timesteps 1 (by omega)
    obtain rfl : cs = p'.cs := by
      have : (lostWpg qr oracle).constrainLipm p'.lipm p'.support = .ok cs := hcs'
      rw [h2] at this
      cases this; rfl
    have hard : ∀ c : Constr ℝ, c.priority = .hard → (if c.softEq then lost (1 / 1000000000000) c.weight (reduceExpr 6 none c.expr) v else 0) = 0 := by
      intro c hc
      have : c.softEq = false := by unfold Constr.softEq; rw [hc]; cases c.ty <;> rfl
      rw [this]; rfl
    have soft : ∀ c : Constr ℝ, c.priority = .soft → c.ty = .equality →
        (if c.softEq then lost (1 / 1000000000000) c.weight (reduceExpr 6 none c.expr) v else 0) = lost (1 / 1000000000000) c.weight c.expr v := by
      intro c hc ht
      have : c.softEq = true := by unfold Constr.softEq; rw [hc, ht]; rfl
      rw [this]; rfl
    have a1 := s1 (fun c => if c.softEq then lost (1 / 1000000000000) c.weight (reduceExpr 6 none c.expr) v else 0) (fun _ => 0)
      (fun c _ hp => hard c hp) (fun j c hc hj hj' hf => by
        have : j = 1 := by have := hp.lt; omega
        subst this
        show (if c.softEq then _ else _) = _
        rw [soft c hf.2.1 hf.1]
        exact lost_first om hp hs1 hf (hF1 c hc) v)
    have a2 := s2 (fun c => if c.softEq then lost (1 / 1000000000000) c.weight (reduceExpr 6 none c.expr) v else 0)
      (fun j => if j = 1 then 2 * (1 / 10) * (17 / 6000 * (23 / 6000)) * (v 1 * v 4) else 0)
      (fun c _ hp => hard c hp) (fun j c hc hj hj' hf => by
        have : j = 1 ∨ j = 2 := by have := hp.mt; omega
        show (if c.softEq then _ else _) = _
        rw [soft c hf.2.1 hf.1]
        rcases this with rfl | rfl
        · rw [lost_second om hp hs2 hf (hF2 c hc) v, hf.2.2.1, w, if_pos rfl]
        · rw [lost_third om hp hs2 hf (hF2 c hc) v, if_neg (by omega)])
    unfold lostSum
    rw [List.map_cons, List.map_cons, List.map_nil, List.flatten_cons, List.flatten_cons, List.flatten_nil, List.append_nil,
      List.map_append, List.sum_append, a1, a2, hp.lt, hp.mt]
    simp [Finset.sum_range_succ]

theorem lost_polygons :
    (Support.supportPolygon (lostWpg qr oracle).hull { footsteps := [lostLeft], elapsedRatio := 1 / 2 }).2 =
      [⟨-75 / 1000, 1 / 10 + 5 / 100⟩, ⟨75 / 1000, 1 / 10 + 5 / 100⟩, ⟨75 / 1000, 1 / 10 - 5 / 100⟩, ⟨-75 / 1000, 1 / 10 - 5 / 100⟩] ∧
    (Support.supportPolygon (lostWpg qr oracle).hull { footsteps := [lostRight] }).2 =
      [⟨-75 / 1000, 0 + 5 / 100⟩, ⟨75 / 1000, 0 + 5 / 100⟩, ⟨75 / 1000, 0 - 5 / 100⟩, ⟨-75 / 1000, 0 - 5 / 100⟩] :=
  ⟨lost_polygon lostLeft (1 / 10) rfl rfl rfl rfl _, lost_polygon lostRight 0 rfl rfl rfl rfl _⟩

theorem lost_feasible {ps : List Planned} {n : Nat} {te : ℝ}
    (hc : Chained (lostWpg qr oracle) ⟨⟨0, 0⟩, ⟨0, 0⟩, ⟨0, 0⟩⟩ none 0 0 lostSupports ps n te) (v : Nat → ℝ)
    (hx0 : v 0 = 0) (hx2 : v 2 = 0) (hx3 : v 3 = 0) (h1 : |-23 / 6000 * v 1 - 1 / 10| ≤ 5 / 100)
    (h2 : |-17 / 6000 * v 1 - 23 / 6000 * v 4| ≤ 5 / 100) (h3 : |-5 / 6000 * v 1 - 17 / 6000 * v 4 - 23 / 6000 * v 5| ≤ 5 / 100) :
    HardSat (ps.map Planned.cs).flatten v := by
  obtain ⟨-, p, p', rfl, hp, e1, e2, q1, q2⟩ := lost_shape qr oracle hc
  obtain ⟨z1, z2, z3⟩ := lost_zmp hp v
  have om := lost_omega2 qr oracle
  have hs1 : Stands p.support := by rw [e1]; exact (stamped_stands _ _).2 (.inl rfl)
  have hs2 : Stands p'.support := by rw [e2]; exact (stamped_stands _ _).2 (.inl rfl)
  obtain ⟨cs, hcs, -, -, -, s1⟩ := constrainLoop_spec (lostWpg qr oracle) p.lipm hp.lok p.support hs1 p.lipm.timesteps 1 (by omega)
  obtain rfl : cs = p.cs := by
    have : (lostWpg qr oracle).constrainLipm p.lipm p.support = .ok cs := hcs
    rw [q1] at this
    cases this; rfl
  obtain ⟨cs, hcs', -, -, -, s2⟩ := constrainLoop_spec (lostWpg qr oracle) p'.lipm hp.mok p'.support hs2 p'.lipm.timesteps 1 (by omega)
  obtain rfl : cs = p'.cs := by
    have : (lostWpg qr oracle).constrainLipm p'.lipm p'.support = .ok cs := hcs'
    rw [q2] at this
    cases this; rfl
  have P1 := (stamped_polygon (lostWpg qr oracle) { footsteps := [lostLeft], elapsedRatio := 1 / 2 } 0).trans (lost_polygons qr oracle).1
  have P2 := (stamped_polygon (lostWpg qr oracle) { footsteps := [lostRight] }
    (0 + (lostWpg qr oracle).duration { footsteps := [lostLeft], elapsedRatio := 1 / 2 })).trans (lost_polygons qr oracle).2
  rw [← e1] at P1
  rw [← e2] at P2
  rw [P1] at s1
  rw [P2] at s2
  have r1 := s1 (by rw [e1, stamped_isEnd]) (box_noRepeat _) v (fun j hj hj' => by
    obtain rfl : j = 1 := by have := hp.lt; omega
    rw [om, z1]
    refine box_inside _ _ ?_ h1
    rw [hx0]; norm_num)
  have r2 := s2 (by rw [e2, stamped_isEnd]) (box_noRepeat _) v (fun j hj hj' => by
    have : j = 1 ∨ j = 2 := by have := hp.mt; omega
    rw [om]
    rcases this with rfl | rfl
    · rw [z2]
      refine box_inside _ _ ?_ (by rw [sub_zero]; exact h2)
      rw [hx0, hx2]; norm_num
    · rw [z3]
      refine box_inside _ _ ?_ (by rw [sub_zero]; exact h3)
      rw [hx0, hx2, hx3]; norm_num)
  intro c hc hpr
  simp only [List.map_cons, List.map_nil, List.flatten_cons, List.flatten_nil, List.append_nil, List.mem_append] at hc
  rcases hc with hc | hc
  · exact r1 c hc hpr
  · exact r2 c hc hpr

/-- The jerks that minimise what the solver is given. -/
noncomputable def lostJerks (j : Nat) : ℝ :=
  if j = 1 then -245556475500 / 14622503141 else if j = 4 then 263925000 / 14622503141
  else if j = 5 then 52827262500 / 14622503141 else 0

/-- The jerks that keep the ZMP on the targets. -/
noncomputable def goodJerks (j : Nat) : ℝ :=
  if j = 1 then -3000 / 115 else if j = 4 then 51000 / 2645 else if j = 5 then -522000 / 60835 else 0

theorem lost_supports_ok : ∀ s ∈ lostSupports, Stands s ∧ 0 < (lostWpg qr oracle).duration s ∧
    0 < (s.supportPolygon (lostWpg qr oracle).hull).2.length := by
  obtain ⟨-, -, d1, d2⟩ := lost_times qr oracle
  intro s hs
  unfold lostSupports at hs
  rw [List.mem_cons, List.mem_singleton] at hs
  rcases hs with rfl | rfl
  · exact ⟨.inl rfl, by rw [d1]; norm_num, by rw [(lost_polygons qr oracle).1]; decide⟩
  · exact ⟨.inl rfl, by rw [d2]; norm_num, by rw [(lost_polygons qr oracle).2]; decide⟩

/-- What the solver is given is least at `lostJerks`, and only there. -/
theorem lost_least {ps : List Planned} {n : Nat} {te : ℝ}
    (hc : Chained (lostWpg qr oracle) ⟨⟨0, 0⟩, ⟨0, 0⟩, ⟨0, 0⟩⟩ none 0 0 lostSupports ps n te)
    (hfit : ∀ c ∈ (ps.map Planned.cs).flatten, c.expr.cols ≤ n) (v : Nat → ℝ) :
    walkCost (lostWpg qr oracle) ps (targetOf (lostWpg qr oracle).p) n lostJerks -
        lostSum (1 / 1000000000000) n none (ps.map Planned.cs).flatten lostJerks +
        1 / 100000000 * ((v 0 - lostJerks 0) ^ 2 + (v 1 - lostJerks 1) ^ 2 + (v 2 - lostJerks 2) ^ 2 + (v 3 - lostJerks 3) ^ 2 +
          (v 4 - lostJerks 4) ^ 2 + (v 5 - lostJerks 5) ^ 2) ≤
      walkCost (lostWpg qr oracle) ps (targetOf (lostWpg qr oracle).p) n v -
        lostSum (1 / 1000000000000) n none (ps.map Planned.cs).flatten v := by
  rw [(lost_costs qr oracle hc hfit v).1, (lost_costs qr oracle hc hfit v).2, (lost_costs qr oracle hc hfit lostJerks).1,
    (lost_costs qr oracle hc hfit lostJerks).2]
  have j0 : lostJerks 0 = 0 := rfl
  have j1 : lostJerks 1 = -245556475500 / 14622503141 := rfl
  have j2 : lostJerks 2 = 0 := rfl
  have j3 : lostJerks 3 = 0 := rfl
  have j4 : lostJerks 4 = 263925000 / 14622503141 := rfl
  have j5 : lostJerks 5 = 52827262500 / 14622503141 := rfl
  rw [j0, j1, j2, j3, j4, j5]
  have sq : 0 ≤ (23 / 6000 * v 0) ^ 2 + (17 / 6000 * v 0 + 23 / 6000 * v 2) ^ 2 +
      (5 / 6000 * v 0 + 17 / 6000 * v 2 + 23 / 6000 * v 3) ^ 2 +
      (23 / 6000 * (v 1 + 245556475500 / 14622503141)) ^ 2 + (17 / 6000 * (v 1 + 245556475500 / 14622503141)) ^ 2 +
      (23 / 6000 * (v 4 - 263925000 / 14622503141)) ^ 2 +
      (5 / 6000 * (v 1 + 245556475500 / 14622503141) + 17 / 6000 * (v 4 - 263925000 / 14622503141) +
        23 / 6000 * (v 5 - 52827262500 / 14622503141)) ^ 2 := by positivity
  nlinarith [sq]

/-- **C143 (refuted).** The documented cost is not minimised: on half a step on the left foot followed by a step on the right foot,
whatever the optimal QP solver, the plan costs more than 30 times the cost of jerks that satisfy all the constraints; these jerks
keep the ZMP on its target at every timestep, and the plan leaves it 4.7 cm away at the first timestep on the right foot, and 3.5 cm
away on the left foot. -/
theorem C143_refuted (ho : SolverOptimal oracle) : ∃ parts te ps n sol sol',
    (lostWpg qr oracle).planCom 0 lostSupports ⟨⟨0, 0⟩, ⟨0, 0⟩, ⟨0, 0⟩⟩ = .ok (some (parts, te)) ∧
    Chained (lostWpg qr oracle) ⟨⟨0, 0⟩, ⟨0, 0⟩, ⟨0, 0⟩⟩ none 0 0 lostSupports ps n te ∧ From (lostWpg qr oracle) ps sol parts ∧
    HardSat (ps.map Planned.cs).flatten sol' ∧
    30 * walkCost (lostWpg qr oracle) ps (targetOf (lostWpg qr oracle).p) n sol' <
      walkCost (lostWpg qr oracle) ps (targetOf (lostWpg qr oracle).p) n sol ∧
    (∀ p ∈ ps, ∀ k, 1 ≤ k → k ≤ p.lipm.timesteps →
      zmpAt p.lipm (lostWpg qr oracle).omega2 k sol' = targetOf (lostWpg qr oracle).p p.support) ∧
    ∃ p p' : Planned, ps = [p, p'] ∧
      (35 / 1000) ^ 2 < dist2 (zmpAt p.lipm (lostWpg qr oracle).omega2 1 sol) (targetOf (lostWpg qr oracle).p p.support) ∧
      (47 / 1000) ^ 2 < dist2 (zmpAt p'.lipm (lostWpg qr oracle).omega2 1 sol) (targetOf (lostWpg qr oracle).p p'.support) := by
  have hs := lost_supports_ok qr oracle
  have hend : ∀ s ∈ lostSupports, s.isEnd = false := by
    intro s h
    unfold lostSupports at h
    rw [List.mem_cons, List.mem_singleton] at h
    rcases h with rfl | rfl <;> rfl
  have hq : ∀ s, Stands s → Target (lostWpg qr oracle).p s (targetOf (lostWpg qr oracle).p s) := targetOf_spec _
  have j1 : lostJerks 1 = -245556475500 / 14622503141 := rfl
  have j4 : lostJerks 4 = 263925000 / 14622503141 := rfl
  have j5 : lostJerks 5 = 52827262500 / 14622503141 := rfl
  have g1 : goodJerks 1 = -3000 / 115 := rfl
  have g4 : goodJerks 4 = 51000 / 2645 := rfl
  have g5 : goodJerks 5 = -522000 / 60835 := rfl
  -- a plan is found
  have hplan : ∃ parts te, (lostWpg qr oracle).planCom 0 lostSupports ⟨⟨0, 0⟩, ⟨0, 0⟩, ⟨0, 0⟩⟩ = .ok (some (parts, te)) := by
    obtain ⟨⟨ps, n, te⟩, hr, -, hfit, heq⟩ := planLoop_total (lostWpg qr oracle) 0 ⟨⟨0, 0⟩, ⟨0, 0⟩, ⟨0, 0⟩⟩ lostSupports 0 0 none hs
      (fun _ => rfl) (fun l hl => by cases hl)
    have hc := planLoop_chained (lostWpg qr oracle) 0 ⟨⟨0, 0⟩, ⟨0, 0⟩, ⟨0, 0⟩⟩ lostSupports 0 0 none (fun s h => (hs s h).2.1)
      (fun _ => rfl) (fun l hl => by cases hl) _ hr
    have hfit' : ∀ c ∈ (ps.map Planned.cs).flatten, Fits n c := by
      intro c hc
      obtain ⟨l, hl, hcl⟩ := List.mem_flatten.1 hc
      obtain ⟨p, hp, rfl⟩ := List.mem_map.1 hl
      exact hfit p hp c hcl
    have hz : nEqualities (ps.map Planned.cs).flatten = 0 := by
      apply nEqualities_zero
      intro c hc
      obtain ⟨l, hl, hcl⟩ := List.mem_flatten.1 hc
      obtain ⟨p, hp, rfl⟩ := List.mem_map.1 hl
      exact heq (.inl hend) p hp c hcl
    rcases assemble_fits n qr _ hfit' with ⟨qp, hqp, hnz⟩ | ⟨-, hpos⟩
    · obtain ⟨hred, hfeas, const, hcost⟩ := qp_cost_walk (lostWpg qr oracle) rfl _ hq n ps
        (chained_parts hc fun s h => (hs s h).1) hz qp hqp
      have hsat := lost_feasible qr oracle hc lostJerks rfl rfl rfl (by rw [j1, abs_le]; constructor <;> norm_num)
        (by rw [j1, j4, abs_le]; constructor <;> norm_num) (by rw [j1, j4, j5, abs_le]; constructor <;> norm_num)
      obtain ⟨v, hv, hvk⟩ := (hfeas lostJerks).2 hsat
      have n6 : n = 6 := (lost_shape qr oracle hc).1
      have least := lost_least qr oracle hc fun c h => (hfit' c h).1
      have hmin : ∀ v', qp.Feasible v' → qp.cost v ≤ qp.cost v' := by
        intro v' _
        rw [hcost, hcost]
        have a := least v'
        rw [(lost_costs qr oracle hc (fun c h => (hfit' c h).1) v).1, (lost_costs qr oracle hc (fun c h => (hfit' c h).1) v).2]
        rw [(lost_costs qr oracle hc (fun c h => (hfit' c h).1) lostJerks).1, (lost_costs qr oracle hc (fun c h => (hfit' c h).1) lostJerks).2] at a
        rw [hvk 0 (by omega), hvk 1 (by omega), hvk 2 (by omega), hvk 3 (by omega), hvk 4 (by omega), hvk 5 (by omega)] at a
        have sq : 0 ≤ 1 / 100000000 * ((v' 0 - v 0) ^ 2 + (v' 1 - v 1) ^ 2 + (v' 2 - v 2) ^ 2 + (v' 3 - v 3) ^ 2 + (v' 4 - v 4) ^ 2 +
          (v' 5 - v 5) ^ 2) := by positivity
        linarith
      have hi := (ho qp).2 ⟨v, hv, hmin⟩
      have hnan := ((ho qp).1 hi).1
      have hdim : qp.dimMismatch = false := by unfold QP.dimMismatch; rw [hnz]; rfl
      obtain ⟨hfull, -⟩ := C109 (lostWpg qr oracle) 0 lostSupports ⟨⟨0, 0⟩, ⟨0, 0⟩, ⟨0, 0⟩⟩ hs
      rcases hfull with hn | h
      · exfalso
        unfold Wpg.planCom at hn
        rw [hr] at hn
        have hqq : ∃ sol, (lostWpg qr oracle).solveQP n (ps.map Planned.cs).flatten = .ok sol := by
          have hi' : ((lostWpg qr oracle).oracle qp).infeasible = false := hi
          have hnan' : ((lostWpg qr oracle).oracle qp).hasNaN = false := hnan
          have hqp' : assemble (newProblem n) (lostWpg qr oracle).qr (ps.map Planned.cs).flatten = .ok qp := hqp
          unfold Wpg.solveQP Problem.solve
          simp only [hqp', hdim, hi', hnan', hnz, List.range_zero, List.any_nil, Bool.false_eq_true, if_false]
          exact ⟨_, rfl⟩
        obtain ⟨sol, hqq⟩ := hqq
        simp only [Bind.bind, Except.bind] at hn
        rw [hqq] at hn
        simp only at hn
        cases hm : ps.mapM ((lostWpg qr oracle).attach sol) with
        | error e => rw [hm] at hn; cases hn
        | ok parts => rw [hm] at hn; cases hn
      · exact h
    · omega
  obtain ⟨parts, te, hplan⟩ := hplan
  obtain ⟨ps, n, sol, hc, hfrom, hsat, hfit, hmin⟩ := C143_exact (lostWpg qr oracle) rfl ho 0 lostSupports hs hend _ _ hq parts te hplan
  have hgood : HardSat (ps.map Planned.cs).flatten goodJerks :=
    lost_feasible qr oracle hc goodJerks rfl rfl rfl (by rw [g1, abs_le]; constructor <;> norm_num)
      (by rw [g1, g4, abs_le]; constructor <;> norm_num) (by rw [g1, g4, g5, abs_le]; constructor <;> norm_num)
  have hlost : HardSat (ps.map Planned.cs).flatten lostJerks :=
    lost_feasible qr oracle hc lostJerks rfl rfl rfl (by rw [j1, abs_le]; constructor <;> norm_num)
        (by rw [j1, j4, abs_le]; constructor <;> norm_num) (by rw [j1, j4, j5, abs_le]; constructor <;> norm_num)
  have m := hmin _ hlost
  have least := lost_least qr oracle hc hfit sol
  have e : (sol 0 - lostJerks 0) ^ 2 + (sol 1 - lostJerks 1) ^ 2 + (sol 2 - lostJerks 2) ^ 2 + (sol 3 - lostJerks 3) ^ 2 +
      (sol 4 - lostJerks 4) ^ 2 + (sol 5 - lostJerks 5) ^ 2 ≤ 0 := by linarith
  have zero : ∀ a : ℝ, a ^ 2 ≤ 0 → a = 0 := fun a h => pow_eq_zero_iff (two_ne_zero) |>.1 (le_antisymm h (sq_nonneg a))
  have p0 := sq_nonneg (sol 0 - lostJerks 0)
  have p1 := sq_nonneg (sol 1 - lostJerks 1)
  have p2 := sq_nonneg (sol 2 - lostJerks 2)
  have p3 := sq_nonneg (sol 3 - lostJerks 3)
  have p4 := sq_nonneg (sol 4 - lostJerks 4)
  have p5 := sq_nonneg (sol 5 - lostJerks 5)
  have v0 : sol 0 = 0 := sub_eq_zero.1 (zero (sol 0 - lostJerks 0) (by linarith))
  have v1 : sol 1 = lostJerks 1 := sub_eq_zero.1 (zero _ (by linarith))
  have v2 : sol 2 = 0 := sub_eq_zero.1 (zero (sol 2 - lostJerks 2) (by linarith))
  have v3 : sol 3 = 0 := sub_eq_zero.1 (zero (sol 3 - lostJerks 3) (by linarith))
  have v4 : sol 4 = lostJerks 4 := sub_eq_zero.1 (zero _ (by linarith))
  have v5 : sol 5 = lostJerks 5 := sub_eq_zero.1 (zero _ (by linarith))
  have g0 : goodJerks 0 = 0 := rfl
  have g2 : goodJerks 2 = 0 := rfl
  have g3 : goodJerks 3 = 0 := rfl
  refine ⟨parts, te, ps, n, sol, goodJerks, hplan, hc, hfrom, hgood, ?_, ?_, ?_⟩
  · rw [(lost_costs qr oracle hc hfit sol).1, (lost_costs qr oracle hc hfit goodJerks).1, v0, v1, v2, v3, v4, v5, j1, j4, j5, g0, g1, g2,
      g3, g4, g5]
    norm_num
  · obtain ⟨-, p, p', rfl, hp, e1, e2, -⟩ := lost_shape qr oracle hc
    obtain ⟨z1, z2, z3⟩ := lost_zmp hp goodJerks
    intro q hq k h1 h2
    rw [List.mem_cons, List.mem_singleton] at hq
    rw [lost_omega2]
    rcases hq with rfl | rfl
    · obtain rfl : k = 1 := by have := hp.lt; omega
      rw [z1, e1, (lost_targets qr oracle _ 0).1, g0, g1, V2.mk.injEq]
      constructor <;> norm_num
    · have : k = 1 ∨ k = 2 := by have := hp.mt; omega
      rw [e2, (lost_targets qr oracle 0 _).2]
      rcases this with rfl | rfl
      · rw [z2, g0, g1, g2, g4, V2.mk.injEq]
        constructor <;> norm_num
      · rw [z3, g0, g1, g2, g3, g4, g5, V2.mk.injEq]
        constructor <;> norm_num
  · obtain ⟨-, p, p', rfl, hp, e1, e2, -⟩ := lost_shape qr oracle hc
    obtain ⟨z1, z2, z3⟩ := lost_zmp hp sol
    refine ⟨p, p', rfl, ?_, ?_⟩
    · rw [lost_omega2, z1, e1, (lost_targets qr oracle _ 0).1, v0, v1, j1]
      norm_num [dist2]
    · rw [lost_omega2, z2, e2, (lost_targets qr oracle 0 _).2, v0, v1, v2, v4, j1, j4]
      norm_num [dist2]

/-- There is such a solver: the hypothesis is met, and so is that of C143_conditional, C143_partial and C143_exact. -/
example : ∃ oracle, SolverOptimal oracle := ⟨_, bestOracle_optimal⟩

end Verif.Humanoid
