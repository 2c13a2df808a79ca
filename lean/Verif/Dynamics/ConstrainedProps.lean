/-
Property C181: inverse dynamics with constraints. It succeeds exactly when a motion compatible with the dynamics satisfies the hard
constraints; soft constraints never prevent it.
-/
import Verif.Dynamics.TotalProps
import Verif.Dynamics.SelfCollisionProps
import Verif.Kinematics.ConstrainedProps

namespace Verif.Dynamics
open Finset Verif.Problem Verif.Kinematics Verif.Tools

theorem dmapM_of_forall₂ {s : DState ℝ} {tau : Expr ℝ} {cons : List (DConstraint ℝ)} {ls : List (List (Constr ℝ))}
    (h : List.Forall₂ (fun k l => k.add s tau = .ok l) cons ls) : cons.mapM (fun c => c.add s tau) = .ok ls := by
  induction h with
  | nil => rfl
  | cons a _ ih => simp only [List.mapM_cons, a, ih, bind, Except.bind, pure, Except.pure]

/-- Everything `solve` builds with constraints that add inequalities on the accelerations: `ls` is what they add. -/
theorem build_constrained (env : DEnv ℝ) (r : DynRobot ℝ) (hn : 6 < r.nv) (tasks : List (DTask ℝ)) (contacts : List (Contact ℝ))
    (cons : List (DConstraint ℝ)) (ls : List (List (Constr ℝ))) (s : DState ℝ)
    (hc : ∀ c ∈ contacts, c.active = true → ContactReady r.nv s.robot c) (ht : ∀ t ∈ tasks, DTaskReady r.nv s.robot t)
    (hw : ∀ t ∈ tasks, t.priority = .soft → 0 ≤ t.weight) (htc : 0 ≤ s.torqueCost)
    (hx : ∀ f, s.extraForce = some f → f.size = r.nv)
    (hdt : s.jointLimits = true ∨ s.velocityLimits = true ∨ s.velocityVsTorque = true → s.dt ≠ 0)
    (hadd : ∀ tau, List.Forall₂ (fun k l => k.add s tau = .ok l) cons ls)
    (hls : ∀ l ∈ ls, ∀ c ∈ l, SizedFor r.nv c ∧ c.ty = .inequality ∧ (c.priority = .soft → 0 < c.weight)) :
    ∃ p, build env r tasks contacts cons s = .ok p ∧
      (∀ c ∈ p.cs, SizedFor p.n c ∧ GoodWeight c ∧ (c.softIneq = true → ∃ l ∈ ls, c ∈ l)) ∧
      ((∃ x, HardSat p.cs x) ↔ ∃ y tau ws, Motion env.sqrt r tasks contacts s y tau ws ∧ ∀ l ∈ ls, HardSat l y) ∧
      (MotionFree r tasks contacts s ↔ ∀ ps : List (Constr ℝ × (Nat → ℝ)), ps.map Prod.fst = p.cs → ∃ x, MeetsRhs ps x) ∧
      (∃ c ∈ p.cs, c.hardEq = true) ∧ ∀ l ∈ ls, ∀ c ∈ l, c ∈ p.cs := by
  have hN : 0 < r.nv := by omega
  obtain ⟨user, huser⟩ : ∃ user, user = ls.flatten := ⟨_, rfl⟩
  have hls' : ∀ c ∈ user, SizedFor r.nv c ∧ c.ty = .inequality ∧ (c.priority = .soft → 0 < c.weight) := by
    intro c hc
    rw [huser] at hc
    obtain ⟨l', hl', hc⟩ := List.mem_flatten.1 hc
    exact hls l' hl' c hc
  have hS : ∀ x, HardSat user x ↔ ∀ l ∈ ls, HardSat l x := fun x => by rw [huser]; exact hardSat_flatten ls x
  obtain ⟨tau0, htau0⟩ := bareTau_total r s hx
  obtain ⟨t1, t2, t3⟩ := bareTau_spec r s tau0 htau0
  obtain ⟨n, js, cc, a1, a2, a3, a4, a5, a6⟩ := addContacts_total r.nv hN s.robot contacts r.nv hc
  obtain ⟨hch, hfa⟩ := addContacts_spec _ _ _ _ _ _ _ a1
  have hle := hch.le
  obtain ⟨tau, htau⟩ := fullTau_total r.nv n tau0 js hch t2 a3
  obtain ⟨f1, f2, f3⟩ := fullTau_spec _ _ _ _ _ hch t2 htau
  rw [t1] at f1
  obtain ⟨cl, l1, l2, l3⟩ := limitConstraints_total env.sqrt r s n tau f1 f2 hn hle hdt
  obtain ⟨mats, ct, k1, k2, k3, k4, k5, k6⟩ := dtasks_total (robot := s.robot) hN hle tau f1 f2 tasks ht
  obtain ⟨cm, m1, m2, m3, m4, m5, m6⟩ := fbase_total r.nv n (by omega) hle
  obtain ⟨cf, b1, b2, b3, b4, b5, b6⟩ := base_total n tau (by omega) f2 (by omega)
  obtain ⟨mm, mf, mb⟩ := single_rhs m3 m4 m5 (fun x i => x i) m6
  obtain ⟨bm, bf, bb⟩ := single_rhs b3 b4 b5 (fun x i => tau.rowVal x i) fun x i _ => b6 x i
  have hsl : ∃ e, tau.slice 6 (-1) = .ok e := by
    unfold Expr.slice
    simp only
    rw [if_pos (by omega : ((-1 : Int) < 0)), if_pos (by omega)]
    exact ⟨_, rfl⟩
  obtain ⟨e, he⟩ := hsl
  obtain ⟨-, e2, e3, -⟩ := slice_rest_ok (start := 6) he
  obtain ⟨ce, g1, g2, g3, -⟩ := zero_total (n := n) e (by omega) (by omega) (by omega)
  have hval : ∀ x i, tau.rowVal x i = (∑ j ∈ range r.nv, r.mass s.robot i j * x j) + s.damping * s.robot.qd i + bias r s i + extra s i -
      contactTerm js x i := fun x i => by rw [f3, t3]
  have hlin : ∀ x i, tau.rowVal x i - tau.rowVal (fun _ => 0) i = (∑ j ∈ range r.nv, r.mass s.robot i j * x j) - contactTerm js x i := by
    intro x i
    rw [hval, hval, chain_zero js _ n hch i]
    simp only [mul_zero, sum_const_zero]
    ring
  have hupd : (contacts.filter (·.active)).mapM (fun c => c.update r.nv s.robot) = .ok (js.map (·.1)) :=
    updates_of_forall₂ (fun c p hp => hp.1) hfa
  have hready : ∀ c ∈ contacts.filter (·.active), ContactReady r.nv s.robot c := fun c hcm => by
    obtain ⟨h1, h2⟩ := List.mem_filter.1 hcm
    exact hc c h1 h2
  -- the two constraints on the floating base
  have hcmE : addIf s.maskedFbase (zeroConstraint ((⟨0, r.nv⟩ : Var).expr 0 6)) = .ok (if s.maskedFbase then [cm] else []) := by
    unfold addIf
    split
    · exact m1
    · rfl
  have hcfE : addIf (!s.maskedFbase) (zeroConstraint (tau.slice 0 6)) = .ok (if s.maskedFbase then [] else [cf]) := by
    unfold addIf
    cases s.maskedFbase
    · exact b1
    · rfl
  generalize hcmL : (if s.maskedFbase then [cm] else []) = cmL at hcmE
  generalize hcfL : (if s.maskedFbase then [] else [cf]) = cfL at hcfE
  have hb : build env r tasks contacts cons s = .ok ⟨n, ⟨r.nv, r.nv, fun k j => if j = k then 1 else 0, fun _ => 0⟩, js, tau,
      cmL ++ cc ++ cl ++ ct.flatten ++ user ++ cfL ++ [ce.configureP .soft s.torqueCost]⟩ := by
    unfold build
    simp only [qddExpr_eq, bind, Except.bind, hcmE, k1, htau0, a1, htau, l1, k2, dmapM_of_forall₂ (hadd tau), pure, Except.pure, hcfE, he, g1, huser]
  have hcmC : ∀ c ∈ cmL, Clean n c := by
    intro c h
    rw [← hcmL] at h
    split at h
    · rw [List.mem_singleton.1 h]; exact m2
    · cases h
  have hcfC : ∀ c ∈ cfL, Clean n c := by
    intro c h
    rw [← hcfL] at h
    split at h
    · cases h
    · rw [List.mem_singleton.1 h]; exact b2
  have hcmS : ∀ x, HardSat cmL x ↔ (s.maskedFbase = true → ∀ i, i < 6 → x i = 0) := by
    intro x
    rw [← hcmL]
    cases s.maskedFbase
    · simp [HardSat_nil]
    · simp only [if_true, mm, forall_const]
  have hcfS : ∀ x, HardSat cfL x ↔ (s.maskedFbase = false → ∀ i, i < 6 → tau.rowVal x i = 0) := by
    intro x
    rw [← hcfL]
    cases s.maskedFbase
    · simp only [Bool.false_eq_true, if_false, bm, forall_const]
    · simp [HardSat_nil]
  refine ⟨_, hb, fun c hcm => ?_, ?_, ⟨fun hfree ps hps => ?_, fun hall rs es u hrs hes => ?_⟩, ?_, fun l hl c hc => ?_⟩
  rotate_right 2
  · show ∃ c ∈ cmL ++ cc ++ cl ++ ct.flatten ++ user ++ cfL ++ [ce.configureP .soft s.torqueCost], _
    rw [← hcmL, ← hcfL]
    cases s.maskedFbase with
    | true => exact ⟨cm, by simp, by simp [Constr.hardEq, m3, m4]⟩
    | false => exact ⟨cf, by simp, by simp [Constr.hardEq, b3, b4]⟩
  · show c ∈ cmL ++ cc ++ cl ++ ct.flatten ++ user ++ cfL ++ [ce.configureP .soft s.torqueCost]
    have : c ∈ user := by rw [huser]; exact List.mem_flatten.2 ⟨l, hl, hc⟩
    simp [this]
  · have hcm : c ∈ cmL ++ cc ++ cl ++ ct.flatten ++ user ++ cfL ++ [ce.configureP .soft s.torqueCost] := hcm
    simp only [List.mem_append, List.mem_singleton] at hcm
    rcases hcm with (((((h | h) | h) | h) | h) | h) | rfl
    · exact ⟨(hcmC c h).1, addIf_good hcmE (fun l hl => zeroConstraint_good hl) c h, fun hs => by rw [(hcmC c h).2] at hs; cases hs⟩
    · exact ⟨(a2 c h).1, addContacts_good _ _ _ _ _ _ _ a1 c h, fun hs => by rw [(a2 c h).2] at hs; cases hs⟩
    · exact ⟨(l2 c h).1.1, limitConstraints_good l1 c h, fun hs => by rw [(l2 c h).1.2] at hs; cases hs⟩
    · refine ⟨(k3 c h).1, ?_, fun hs => by rw [(k3 c h).2] at hs; cases hs⟩
      refine flatten_good (fun l hl => ?_) c h
      obtain ⟨q, hq, hql⟩ := Kinematics.mapM_mem _ k2 l hl
      exact dtask_good (hw q.1 (List.of_mem_zip hq).1) hql
    · refine ⟨(hls' c h).1.mono hle, ⟨fun hs => ?_, fun hs => ?_⟩, fun _ => by rw [huser] at h; exact List.mem_flatten.1 h⟩
      · simp [Constr.softEq, (hls' c h).2.1] at hs
      · exact (hls' c h).2.2 (by simp [Constr.softIneq] at hs; exact hs.2)
    · exact ⟨(hcfC c h).1, addIf_good hcfE (fun l hl => zeroConstraint_good hl) c h, fun hs => by rw [(hcfC c h).2] at hs; cases hs⟩
    · exact ⟨g2.1, soft_good htc g1, fun hs => by simp [Constr.softIneq, Constr.configureP, g3] at hs⟩
  · have hlast : ∀ x, HardSat [ce.configureP .soft s.torqueCost] x := fun x => HardSat_soft (by simp [Constr.configureP]) x
    show (∃ x, HardSat (cmL ++ cc ++ cl ++ ct.flatten ++ user ++ cfL ++ [ce.configureP .soft s.torqueCost]) x) ↔ _
    simp only [HardSat_append, hcmS, a4, l3, k4, hcfS, hS, hlast, and_true]
    constructor
    · rintro ⟨x, ⟨⟨⟨⟨h1, h2⟩, h3⟩, h4⟩, hu⟩, h5⟩
      refine ⟨x, tau.rowVal x, js.map fun p => p.2.rowVal x, ⟨⟨_, hupd, fun i hi => ?_⟩, ?_, h5, h1, h4, h3⟩, hu⟩
      · rw [generalised_eq, hval]
        unfold bias extra
        cases s.extraForce <;> ring
      · rw [List.forall₂_map_right_iff]
        exact h2
    · rintro ⟨y, tv, ws, hm, hu⟩
      obtain ⟨Js, hJ1, hJ2⟩ := hm.dynamics
      rw [hupd] at hJ1
      cases hJ1
      have hlen : ws.length = js.length := by rw [← hm.wrenches.length_eq, hfa.length_eq]
      obtain ⟨x, x1, x2⟩ := chain_point js r.nv n hch y ws hlen
      have hsum : ∀ i, ∑ j ∈ range r.nv, r.mass s.robot i j * x j = ∑ j ∈ range r.nv, r.mass s.robot i j * y j := fun i =>
        sum_congr rfl fun j hj => by rw [x1 j (mem_range.1 hj)]
      have htv : ∀ i, i < r.nv → tau.rowVal x i = tv i := by
        intro i hi
        have h := hJ2 i hi
        rw [hval, hsum, contactTerm_generalised js x ws x2]
        unfold bias extra
        cases he : s.extraForce <;> rw [he] at h <;> simp only at h ⊢ <;> linarith
      refine ⟨x, ⟨⟨⟨⟨fun hb i hi => ?_, ?_⟩, ?_⟩, fun t htm hp M hM i hi => ?_⟩, fun l hl c hc hp => ?_⟩, fun hb i hi => ?_⟩
      · rw [x1 i (by omega)]; exact hm.fbase hb i hi
      · exact wrenches_read hN (hfa.imp fun c p h => h.1) hready x2 hm.wrenches
      · have hl := hm.limits
        refine ⟨fun h i h6 hi => ?_, fun h h' i h6 hi => ?_, fun h i h6 hi => ?_, fun h i h6 hi => ?_, fun h i h6 hi => ?_⟩
        · rw [htv i hi]; exact hl.torque h i h6 hi
        · rw [x1 i hi]; exact hl.velocity h h' i h6 hi
        · rw [x1 i hi, htv i hi]; exact hl.mixed h i h6 hi
        · rw [x1 i hi]; exact hl.upper h i h6 hi
        · rw [x1 i hi]; exact hl.lower h i h6 hi
      · rw [← hm.tasks t htm hp M hM i hi]
        obtain ⟨-, M', hM', hcols⟩ := ht t htm
        rw [hM] at hM'
        cases hM'
        refine sum_congr rfl fun j hj => ?_
        have hj := mem_range.1 hj
        rw [x1 j (by omega), htv j (by omega)]
      · rw [sat_congr c r.nv (hls l hl c hc).1.2.2 x y x1]
        exact hu l hl c hc hp
      · rw [htv i (by omega)]; exact hm.base hb i hi
  · have hps : ps.map Prod.fst = cmL ++ cc ++ cl ++ ct.flatten ++ user ++ cfL ++ [ce.configureP .soft s.torqueCost] := hps
    obtain ⟨q6, p7, rfl, hq6, hp7⟩ := List.map_eq_append_iff.1 hps
    obtain ⟨q5, p6, rfl, hq5, hp6⟩ := List.map_eq_append_iff.1 hq6
    obtain ⟨q4, p5, rfl, hq4, hp5⟩ := List.map_eq_append_iff.1 hq5
    obtain ⟨q3, p4, rfl, hq3, hp4⟩ := List.map_eq_append_iff.1 hq4
    obtain ⟨q2, p3, rfl, hq2, hp3⟩ := List.map_eq_append_iff.1 hq3
    obtain ⟨p1, p2, rfl, hp1, hp2⟩ := List.map_eq_append_iff.1 hq2
    obtain ⟨es, hes, hex⟩ := a5 p2 hp2
    obtain ⟨rs, hrs, hrx⟩ := k5 p4 hp4
    have hmask : ∃ u : Nat → ℝ, ∀ x, (s.maskedFbase = true → ∀ i, i < 6 → x i = u i) → MeetsRhs p1 x := by
      rw [← hcmL] at hp1
      cases hmk : s.maskedFbase
      · rw [hmk] at hp1
        refine ⟨fun _ => 0, fun x _ p hp => ?_⟩
        rw [List.map_eq_nil_iff.1 hp1] at hp
        cases hp
      · rw [hmk] at hp1
        obtain ⟨u, hu⟩ := mf p1 hp1
        exact ⟨u, fun x hx => hu x (by simpa using hx rfl)⟩
    have hbase : ∃ u : Nat → ℝ, ∀ x, (s.maskedFbase = false → ∀ i, i < 6 → tau.rowVal x i - tau.rowVal (fun _ => 0) i = u i) →
        MeetsRhs p6 x := by
      rw [← hcfL] at hp6
      cases hmk : s.maskedFbase
      · rw [hmk] at hp6
        obtain ⟨u, hu⟩ := bf p6 hp6
        exact ⟨u, fun x hx => hu x (hx rfl)⟩
      · rw [hmk] at hp6
        refine ⟨fun _ => 0, fun x _ p hp => ?_⟩
        rw [List.map_eq_nil_iff.1 hp6] at hp
        cases hp
    obtain ⟨u1, hu1⟩ := hmask
    obtain ⟨u2, hu2⟩ := hbase
    obtain ⟨y, tv, ws, Js, y1, y2, y3, y4, y5, y6⟩ := hfree rs es (fun i => if s.maskedFbase then u1 i else u2 i) hrs hes
    rw [hupd] at y1
    cases y1
    have hlen : ws.length = js.length := by
      rw [← y3.length_eq, ← hfa.length_eq, ← hes, List.length_map]
    obtain ⟨x, x1, x2⟩ := chain_point js r.nv n hch y ws hlen
    have hsum : ∀ i, ∑ j ∈ range r.nv, r.mass s.robot i j * x j = ∑ j ∈ range r.nv, r.mass s.robot i j * y j := fun i =>
      sum_congr rfl fun j hj => by rw [x1 j (mem_range.1 hj)]
    have htv : ∀ i, i < r.nv → tau.rowVal x i - tau.rowVal (fun _ => 0) i = tv i := by
      intro i hi
      have := y2 i hi
      rw [hlin, hsum, contactTerm_generalised js x ws x2]
      linarith
    refine ⟨x, fun p hp hh i hi => ?_⟩
    simp only [List.mem_append] at hp
    rcases hp with (((((hp | hp) | hp) | hp) | hp) | hp) | hp
    · refine hu1 x (fun hb k hk => ?_) p hp hh i hi
      rw [x1 k (by omega), y5 hb k hk, if_pos hb]
    · refine hex x ?_ p hp hh i hi
      exact externals_read hN es js ws (by rw [hes]; exact hfa.imp fun c p h => h.1) (by rw [hes]; exact hready) x2 y3
    · have := (l2 p.1 (by rw [← hp3]; exact List.mem_map.2 ⟨p, hp, rfl⟩)).2
      rw [this] at hh
      cases hh
    · refine hrx x (fun q hq hpr M hM k hk => ?_) p hp hh i hi
      rw [← y6 q hq hpr M hM k hk]
      obtain ⟨-, M', hM', hcols⟩ := ht q.1 (by rw [← hrs]; exact List.mem_map.2 ⟨q, hq, rfl⟩)
      rw [hM] at hM'
      cases hM'
      refine sum_congr rfl fun j hj => ?_
      have hj := mem_range.1 hj
      rw [x1 j (by omega), ← htv j (by omega)]
    · have := (hls' p.1 (by rw [← hp5]; exact List.mem_map.2 ⟨p, hp, rfl⟩)).2.1
      simp [Constr.hardEq, this] at hh
    · refine hu2 x (fun hb k hk => ?_) p hp hh i hi
      rw [htv k (by omega), y4 hb k hk, hb]
      rfl
    · have : p.1 = ce.configureP .soft s.torqueCost := by
        have : p.1 ∈ p7.map Prod.fst := List.mem_map.2 ⟨p, hp, rfl⟩
        rw [hp7] at this
        exact List.mem_singleton.1 this
      rw [this] at hh
      simp [Constr.hardEq, Constr.configureP] at hh
  · obtain ⟨p2, hp2, hx2⟩ := a6 es hes
    obtain ⟨p4, hp4, hx4⟩ := k6 rs hrs
    obtain ⟨x, hx⟩ := hall (cmL.map (fun c => (c, u)) ++ p2 ++ cl.map (fun c => (c, u)) ++ p4 ++ user.map (fun c => (c, u)) ++ cfL.map (fun c => (c, u)) ++
      [(ce.configureP .soft s.torqueCost, u)]) (by simp [hp2, hp4, Function.comp_def])
    refine ⟨x, fun i => tau.rowVal x i - tau.rowVal (fun _ => 0) i, js.map fun p => p.2.rowVal x, js.map (·.1), hupd, fun i _ => ?_, ?_,
      fun hb => ?_, fun hb => ?_, ?_⟩
    · beta_reduce
      rw [hlin, generalised_eq]
      ring
    · rw [List.forall₂_map_right_iff]
      exact hx2 x fun p hp => hx p (by simp only [List.mem_append]; tauto)
    · refine bb u x fun p hp => hx p ?_
      rw [← hcfL, hb]
      simp only [List.mem_append, Bool.false_eq_true, if_false, List.map_cons, List.map_nil]
      exact .inl (.inr hp)
    · have := mb u x fun p hp => hx p (by
        rw [← hcmL, hb]
        simp only [List.mem_append, if_true, List.map_cons, List.map_nil]
        exact .inl (.inl (.inl (.inl (.inl (.inl hp))))))
      simpa using this
    · exact hx4 x fun p hp => hx p (by simp only [List.mem_append]; tauto)

/-- C181 for any constraints that add inequalities on the accelerations: `ls` is what they add. -/
theorem dsolve_constrained (env : DEnv ℝ) (r : DynRobot ℝ) (hn : 6 < r.nv) (tasks : List (DTask ℝ)) (contacts : List (Contact ℝ))
    (cons : List (DConstraint ℝ)) (ls : List (List (Constr ℝ))) (integrate : Bool)
    (s : DState ℝ) (hc : ∀ c ∈ contacts, c.active = true → ContactReady r.nv s.robot c) (ht : ∀ t ∈ tasks, DTaskReady r.nv s.robot t)
    (hw : ∀ t ∈ tasks, t.priority = .soft → 0 ≤ t.weight) (htc : 0 ≤ s.torqueCost)
    (hx : ∀ f, s.extraForce = some f → f.size = r.nv)
    (hdt : s.jointLimits = true ∨ s.velocityLimits = true ∨ s.velocityVsTorque = true ∨ integrate = true → s.dt ≠ 0)
    (hreg : 0 < env.regularization) (htol : 0 ≤ env.tol) (hex : env.toQPEnv.Exact)
    (hadd : ∀ tau, List.Forall₂ (fun k l => k.add s tau = .ok l) cons ls)
    (hls : ∀ l ∈ ls, ∀ c ∈ l, SizedFor r.nv c ∧ c.ty = .inequality ∧ (c.priority = .soft → 0 < c.weight))
    (hre : env.rewriteEqualities = true ∨ ∀ l ∈ ls, ∀ c ∈ l, c.priority = .hard) :
    ((∃ res, (solve env r tasks contacts cons integrate s).2 = .ok res ∧ res.success = true) ↔
      (∃ y tau ws, Motion env.sqrt r tasks contacts s y tau ws ∧ ∀ l ∈ ls, HardSat l y) ∧
        (env.rewriteEqualities = true → MotionFree r tasks contacts s)) ∧
    (¬ ((∃ y tau ws, Motion env.sqrt r tasks contacts s y tau ws ∧ ∀ l ∈ ls, HardSat l y) ∧
        (env.rewriteEqualities = true → MotionFree r tasks contacts s)) →
      ∃ res, solve env r tasks contacts cons integrate s = (s.robot, .ok res) ∧ res.success = false) := by
  obtain ⟨p, hb, hgood, hiff, hfree, -⟩ := build_constrained env r hn tasks contacts cons ls s hc ht hw htc hx
    (fun h => hdt (by rcases h with h | h | h <;> simp [h])) hadd hls
  have hsized : ∀ c ∈ p.cs, SizedFor p.n c := fun c h => (hgood c h).1
  have hslack : env.rewriteEqualities = true ∨ ∀ c ∈ p.cs, c.softIneq = false := hre.imp_right fun h c hc => by
    cases hs : c.softIneq with
    | false => rfl
    | true =>
      obtain ⟨l, hl, hcl⟩ := (hgood c hc).2.2 hs
      simp [Constr.softIneq, h l hl c hcl] at hs
  have hq := hex.1.equalities (sized_defined _ _ hsized)
  have hrank : MotionFree r tasks contacts s ↔ (env.qr (nEqualities p.cs) (equalities p.cs)).rank = nEqualities p.cs := by
    rw [hfree]
    exact ⟨fun h => hq.full (indep_of_free p.n _ hsized h), fun h => free_of_indep p.n _ hsized (hq.qr.indep h)⟩
  by_cases hf : env.rewriteEqualities = true → MotionFree r tasks contacts s
  swap
  · have hre1 : env.rewriteEqualities = true := by
      by_contra h
      exact hf fun h' => absurd h' h
    have hnr : ¬ (env.qr (nEqualities p.cs) (equalities p.cs)).rank = nEqualities p.cs := fun h => hf fun _ => hrank.2 h
    have hpos : 0 < nEqualities p.cs := by
      by_contra h0
      exact hnr (hq.full fun w _ i hi => by omega)
    have herr := assemble_deficient (env.settings p.n) env.qr p.cs hsized hre1 hnr hpos
    have hsol : (Problem.solve (env.settings p.n) env.qr env.oracle env.tol p.cs ⟨[], []⟩).2 = .error .qpError := by
      unfold Problem.solve
      simp only [herr]
    unfold solve
    rw [hb]
    simp only [hsol]
    exact ⟨⟨fun ⟨res, h, hs⟩ => (by cases h; cases hs), fun h => absurd h.2 hf⟩, fun _ => ⟨_, rfl, rfl⟩⟩
  obtain ⟨qp, hqp⟩ := assemble_total (env.settings p.n) env.qr p.cs hsized fun h => hrank.1 (hf h)
  obtain ⟨k1, k2, -⟩ := C144_solve_partial (env.settings p.n) env.qr p.cs qp (hex.1.contract hqp) (hslack.elim .inl fun h => .inr (.inr (nSlack_zero _ h))) hqp hreg
    (fun c h => (hgood c h).2.1.1) (fun c h => (hgood c h).2.1.2) env.tol env.tol htol htol ⟨[], []⟩ (by simp) env.oracle env.oracle
    (hex.2 qp) (hex.2 qp)
  rw [and_iff_left hf, ← hiff]
  unfold solve
  rw [hb]
  simp only
  refine ⟨⟨?_, fun h => ?_⟩, fun h => ?_⟩
  · rintro ⟨res, h, hs⟩
    rw [← k1]
    generalize (Problem.solve (env.settings p.n) env.qr env.oracle env.tol p.cs ⟨[], []⟩).2 = o at h ⊢
    cases o with
    | ok _ => rfl
    | error e =>
      cases e <;> simp only at h <;> cases h
      cases hs
  · rw [k1.2 h]
    simp only
    cases integrate with
    | false => exact ⟨_, rfl, rfl⟩
    | true =>
      rw [if_pos rfl, if_neg (hdt (by simp))]
      exact ⟨_, rfl, rfl⟩
  · rw [k2 h]
    exact ⟨_, rfl, rfl⟩

/-! ## The constraint of the library -/

/-- What a self collisions constraint asks of the accelerations `y`, for each pair of bodies closer than the trigger: outside of the margin,
the speed of approach after one step can be cancelled before the margin with half of the safe deceleration; inside, the bodies are pushed
apart. dynamics/avoid_self_collisions_constraint.cpp 69-84. -/
def CollisionSafe (p : SelfCollisions) (N : Nat) (distances : RState ℝ → List DynPair) (s : DState ℝ) (y : Nat → ℝ) : Prop :=
  ∀ d ∈ distances s.robot, d.minDistance < p.trigger →
    (p.margin ≤ d.minDistance → -Real.sqrt (2 * (d.minDistance - p.margin) * d.xddSafe N s.qddSafe) ≤
      ∑ j ∈ range N, d.J j * s.robot.qd j + s.dt * (∑ j ∈ range N, d.J j * y j + d.drift N s.robot.qd)) ∧
    (d.minDistance < p.margin → d.xddSafe N s.qddSafe ≤ ∑ j ∈ range N, d.J j * y j)

/-- A self collisions constraint is hard unless it was configured as soft. dynamics/avoid_self_collisions_constraint.cpp 90-91. -/
def CollisionHard (p : SelfCollisions) : Prop := p.priority ≠ .soft

/-- What a self collisions constraint adds. -/
theorem collisions_add (p : SelfCollisions) (N : Nat) (distances : RState ℝ → List DynPair) (s : DState ℝ) (hdt : s.dt ≠ 0) :
    ∃ l, (∀ tau, (selfCollisions p N distances).add s tau = .ok l) ∧
      (∀ c ∈ l, SizedFor N c ∧ c.ty = .inequality ∧ (c.priority = .hard ↔ CollisionHard p) ∧ c.weight = p.weight) ∧
      (∀ y, (∀ c ∈ l, c.Sat y) ↔ CollisionSafe p N distances s y) ∧
      ((∃ d ∈ distances s.robot, d.minDistance < p.trigger) → l ≠ []) := by
  obtain ⟨l, h1, h2, h3⟩ := selfCollisions_rows p N distances s (Expr.fromDouble 0) hdt
  have h1' := h1
  unfold selfCollisions at h1'
  simp only [if_neg hdt] at h1'
  set near := (distances s.robot).filter fun d => d.minDistance < p.trigger with hnear
  have hl : l = [] ∧ near.length = 0 ∨ ∃ c, l = [c] ∧ SizedFor N c ∧ c.ty = .inequality := by
    by_cases h0 : near.length = 0
    · rw [if_pos h0] at h1'
      exact .inl ⟨(Except.ok.inj h1').symm, h0⟩
    · rw [if_neg h0] at h1'
      revert h1'
      generalize he : (⟨near.length, N, _, _⟩ : Expr ℝ) = e
      intro h1'
      obtain ⟨c, hc, h1'⟩ := do_ok h1'
      have hs := ge_sized (n := N) (show e.ge (Expr.fromDouble 0) = .ok c from hc) (by rw [← he]; exact Nat.pos_of_ne_zero h0) one_pos
        (by rw [← he]) (Nat.zero_le _)
      exact .inr ⟨_, (Except.ok.inj h1').symm, hs.1, hs.2⟩
  refine ⟨l, fun tau => h1, fun c hc => ?_, fun y => ?_, fun ⟨d, hd, ht⟩ hn => ?_⟩
  · obtain ⟨hp, hw⟩ := h2 c hc
    rcases hl with ⟨rfl, -⟩ | ⟨c', rfl, hs1, hs2⟩
    · cases hc
    · rw [List.mem_singleton] at hc
      subst hc
      refine ⟨hs1, hs2, ?_, hw⟩
      unfold CollisionHard
      rw [ne_eq, ← hp]
      cases c.priority <;> simp
  · rw [h3]
    unfold CollisionSafe
    exact forall_congr' fun d => forall_congr' fun _ => forall_congr' fun _ => row_iff d p.margin N s y
  · rcases hl with ⟨-, h0⟩ | ⟨c, rfl, -⟩
    · have : d ∈ near := by simp [hnear, hd, ht]
      rw [List.length_eq_zero_iff] at h0
      rw [h0] at this
      cases this
    · cases hn

/-- A list of self collisions constraints, with the distances that each one reads. -/
abbrev Collisions := List (SelfCollisions × (RState ℝ → List DynPair))

/-- The constraints that they are. dynamics/constraint.h 10-28. -/
noncomputable def Collisions.toConstraints (cs : Collisions) (N : Nat) : List (DConstraint ℝ) := cs.map fun k => selfCollisions k.1 N k.2

theorem collisions_forall (N : Nat) (s : DState ℝ) (hdt : s.dt ≠ 0) : ∀ cs : Collisions, ∃ ls : List (List (Constr ℝ)),
    (∀ tau, List.Forall₂ (fun k l => k.add s tau = .ok l) (cs.toConstraints N) ls) ∧
    List.Forall₂ (fun k l => (∀ c ∈ l, SizedFor N c ∧ c.ty = .inequality ∧ (c.priority = .hard ↔ CollisionHard k.1) ∧ c.weight = k.1.weight) ∧
      (∀ y, (∀ c ∈ l, c.Sat y) ↔ CollisionSafe k.1 N k.2 s y) ∧ ((∃ d ∈ k.2 s.robot, d.minDistance < k.1.trigger) → l ≠ [])) cs ls
  | [] => ⟨[], fun _ => .nil, .nil⟩
  | k :: cs => by
    obtain ⟨l, h1, h2⟩ := collisions_add k.1 N k.2 s hdt
    obtain ⟨ls, h3, h4⟩ := collisions_forall N s hdt cs
    exact ⟨l :: ls, fun tau => .cons (h1 tau) (h3 tau), .cons h2 h4⟩

/-- **C181, exact.** With self collisions constraints (soft ones with a positive weight) and a time step, on a robot with actuated joints,
when the contacts and tasks are ready, with exact external solvers: inverse dynamics succeeds exactly when a motion compatible with the
dynamics satisfies the hard constraints and, with `rewrite_equalities` (the default), the hard equalities are independent. Soft constraints
never prevent it. Otherwise `success` is false and the robot is unchanged. -/
theorem C181_exact (env : DEnv ℝ) (r : DynRobot ℝ) (hn : 6 < r.nv) (tasks : List (DTask ℝ)) (contacts : List (Contact ℝ))
    (cs : Collisions) (integrate : Bool)
    (s : DState ℝ) (hc : ∀ c ∈ contacts, c.active = true → ContactReady r.nv s.robot c) (ht : ∀ t ∈ tasks, DTaskReady r.nv s.robot t)
    (hw : ∀ t ∈ tasks, t.priority = .soft → 0 ≤ t.weight) (htc : 0 ≤ s.torqueCost)
    (hx : ∀ f, s.extraForce = some f → f.size = r.nv) (hdt : s.dt ≠ 0)
    (hreg : 0 < env.regularization) (htol : 0 ≤ env.tol) (hex : env.toQPEnv.Exact)
    (hwc : ∀ k ∈ cs, k.1.priority = .soft → 0 < k.1.weight)
    (hre : env.rewriteEqualities = true ∨ ∀ k ∈ cs, CollisionHard k.1) :
    ((∃ res, (solve env r tasks contacts (cs.toConstraints r.nv) integrate s).2 = .ok res ∧ res.success = true) ↔
      (∃ y tau ws, Motion env.sqrt r tasks contacts s y tau ws ∧ ∀ k ∈ cs, CollisionHard k.1 → CollisionSafe k.1 r.nv k.2 s y) ∧
        (env.rewriteEqualities = true → MotionFree r tasks contacts s)) ∧
    (¬ ((∃ y tau ws, Motion env.sqrt r tasks contacts s y tau ws ∧ ∀ k ∈ cs, CollisionHard k.1 → CollisionSafe k.1 r.nv k.2 s y) ∧
        (env.rewriteEqualities = true → MotionFree r tasks contacts s)) →
      ∃ res, solve env r tasks contacts (cs.toConstraints r.nv) integrate s = (s.robot, .ok res) ∧ res.success = false) := by
  obtain ⟨ls, hadd, hls⟩ := collisions_forall r.nv s hdt cs
  have key : ∀ y, (∀ l ∈ ls, HardSat l y) ↔ ∀ k ∈ cs, CollisionHard k.1 → CollisionSafe k.1 r.nv k.2 s y := by
    intro y
    constructor
    · intro h k hk hh
      obtain ⟨l, hl, h1, h2, -⟩ := forall₂_mem_left hls k hk
      exact (h2 y).1 fun c hc => h l hl c hc ((h1 c hc).2.2.1.2 hh)
    · intro h l hl c hc hp
      obtain ⟨k, hk, h1, h2, -⟩ := forall₂_mem_right hls l hl
      exact (h2 y).2 (h k hk ((h1 c hc).2.2.1.1 hp)) c hc
  have h := dsolve_constrained env r hn tasks contacts (cs.toConstraints r.nv) ls integrate s hc ht hw htc hx (fun _ => hdt) hreg htol hex hadd
    (fun l hl c hc => by
      obtain ⟨k, hk, h1, -⟩ := forall₂_mem_right hls l hl
      obtain ⟨a, b, d, e⟩ := h1 c hc
      refine ⟨a, b, fun hp => ?_⟩
      rw [e]
      refine hwc k hk ?_
      by_contra hh
      rw [d.2 hh] at hp
      cases hp)
    (hre.imp_right fun h l hl c hc => by
      obtain ⟨k, hk, h1, -⟩ := forall₂_mem_right hls l hl
      exact (h1 c hc).2.2.1.2 (h k hk))
  simp only [key] at h
  exact h

/-- **C181, partial.** As `C181_exact` when the hard equalities are independent: inverse dynamics succeeds exactly when a motion compatible
with the dynamics satisfies the hard constraints. Missing: dependent hard equalities (C166), robots without actuated joints (C166), solvers
without a time step, on which the constraints raise (`C181_dt`), soft constraints without `rewrite_equalities` (`C181_plain_refuted`). -/
theorem C181_partial (env : DEnv ℝ) (r : DynRobot ℝ) (hn : 6 < r.nv) (tasks : List (DTask ℝ)) (contacts : List (Contact ℝ))
    (cs : Collisions) (integrate : Bool)
    (s : DState ℝ) (hc : ∀ c ∈ contacts, c.active = true → ContactReady r.nv s.robot c) (ht : ∀ t ∈ tasks, DTaskReady r.nv s.robot t)
    (hw : ∀ t ∈ tasks, t.priority = .soft → 0 ≤ t.weight) (htc : 0 ≤ s.torqueCost)
    (hx : ∀ f, s.extraForce = some f → f.size = r.nv) (hdt : s.dt ≠ 0)
    (hreg : 0 < env.regularization) (htol : 0 ≤ env.tol) (hex : env.toQPEnv.Exact)
    (hwc : ∀ k ∈ cs, k.1.priority = .soft → 0 < k.1.weight)
    (hre : env.rewriteEqualities = true ∨ ∀ k ∈ cs, CollisionHard k.1) (hfree : MotionFree r tasks contacts s) :
    (∃ res, (solve env r tasks contacts (cs.toConstraints r.nv) integrate s).2 = .ok res ∧ res.success = true) ↔
      ∃ y tau ws, Motion env.sqrt r tasks contacts s y tau ws ∧ ∀ k ∈ cs, CollisionHard k.1 → CollisionSafe k.1 r.nv k.2 s y := by
  rw [(C181_exact env r hn tasks contacts cs integrate s hc ht hw htc hx hdt hreg htol hex hwc hre).1]
  exact ⟨fun h => h.1, fun h => ⟨h, fun _ => hfree⟩⟩

/-- **C181 (at rest).** With soft tasks, a positive definite mass matrix, joints inside of their range, no limits on the torques, a robot at
rest whose bodies are outside of the margins of the hard constraints: inverse dynamics always succeeds. (The distance of two bodies does not
change when only the floating base moves: `hbase`.) -/
theorem C181_rest (env : DEnv ℝ) (hsq : ∀ x, 0 ≤ x → 0 ≤ env.sqrt x) (r : DynRobot ℝ) (hn : 6 < r.nv) (tasks : List (DTask ℝ))
    (contacts : List (Contact ℝ)) (cs : Collisions) (integrate : Bool) (s : DState ℝ)
    (hc : ∀ c ∈ contacts, c.active = true → ContactReady r.nv s.robot c) (ht : ∀ t ∈ tasks, DTaskReady r.nv s.robot t)
    (hsoft : ∀ t ∈ tasks, t.priority = .soft ∧ 0 ≤ t.weight) (htc : 0 ≤ s.torqueCost) (hx : ∀ f, s.extraForce = some f → f.size = r.nv)
    (hM : PosDef r.nv (r.mass s.robot)) (hdt : s.dt ≠ 0) (htl : s.torqueLimits = false) (hvt : s.velocityVsTorque = false)
    (hv : s.velocityLimits = true → ∀ i, 6 ≤ i → i < r.nv → 0 ≤ r.vlim i)
    (hj : s.jointLimits = true → ∀ i, 6 ≤ i → i < r.nv →
      r.lower (i + 1) ≤ s.robot.q (i + 1) ∧ s.robot.q (i + 1) ≤ r.upper (i + 1) ∧ 0 ≤ s.qddSafe i)
    (hreg : 0 < env.regularization) (htol : 0 ≤ env.tol) (hex : env.toQPEnv.Exact)
    (hwc : ∀ k ∈ cs, k.1.priority = .soft → 0 < k.1.weight) (hre : env.rewriteEqualities = true ∨ ∀ k ∈ cs, CollisionHard k.1)
    (hrest : ∀ k, s.robot.qd k = 0)
    (hbase : ∀ k ∈ cs, ∀ d ∈ k.2 s.robot, ∀ j, j < 6 → d.J j = 0)
    (hout : ∀ k ∈ cs, CollisionHard k.1 → ∀ d ∈ k.2 s.robot, k.1.margin ≤ d.minDistance) :
    ∃ res, (solve env r tasks contacts (cs.toConstraints r.nv) integrate s).2 = .ok res ∧ res.success = true := by
  refine (C181_exact env r hn tasks contacts cs integrate s hc ht (fun t h _ => (hsoft t h).2) htc hx hdt hreg htol hex hwc hre).1.2
    ⟨?_, fun _ => motionFree_soft r hn tasks contacts s hc hM fun t h => (hsoft t h).1⟩
  obtain ⟨y, tau, ws, hm, hy⟩ := motion_stop_joints env.sqrt hsq r hn tasks contacts s hc hM (fun t h => (hsoft t h).1) (fun _ => hdt) htl hvt hv hj
  refine ⟨y, tau, ws, hm, fun k hk hh d hd _ => ⟨fun _ => ?_, fun h => absurd (hout k hk hh d hd) (not_le.2 h)⟩⟩
  have h1 : ∑ j ∈ range r.nv, d.J j * s.robot.qd j = 0 := sum_eq_zero fun j _ => by rw [hrest, mul_zero]
  have h2 : ∑ j ∈ range r.nv, d.J j * y j = 0 := sum_eq_zero fun j _ => by
    by_cases h : j < 6
    · rw [hbase k hk d hd j h, zero_mul]
    · rw [hy j (by omega), hrest, zero_div, neg_zero, mul_zero]
  have h3 : d.drift r.nv s.robot.qd = 0 := by
    unfold DynPair.drift
    exact sum_eq_zero fun j _ => by rw [hrest, mul_zero]
  rw [h1, h2, h3]
  simp [Real.sqrt_nonneg]

/-! ## Where it is false -/

/-- Without a time step a self collisions constraint, soft or hard, makes `solve` raise: nothing is found. -/
theorem C181_dt (env : DEnv ℝ) (r : DynRobot ℝ) (tasks : List (DTask ℝ)) (contacts : List (Contact ℝ)) (cs : Collisions) (integrate : Bool)
    (s : DState ℝ) (hdt : s.dt = 0) (hcs : cs ≠ []) :
    ∀ res, (solve env r tasks contacts (cs.toConstraints r.nv) integrate s).2 ≠ .ok res := by
  intro res h
  obtain ⟨k, cs', rfl⟩ := List.exists_cons_of_ne_nil hcs
  unfold solve at h
  cases hb : build env r tasks contacts (Collisions.toConstraints (k :: cs') r.nv) s with
  | error e => rw [hb] at h; cases h
  | ok p =>
    unfold build at hb
    obtain ⟨qdd, -, hb⟩ := do_ok hb
    obtain ⟨cm, -, hb⟩ := do_ok hb
    obtain ⟨mats, -, hb⟩ := do_ok hb
    obtain ⟨tau0, -, hb⟩ := do_ok hb
    obtain ⟨⟨n, js, cc⟩, -, hb⟩ := do_ok hb
    obtain ⟨tau, -, hb⟩ := do_ok hb
    obtain ⟨cl, -, hb⟩ := do_ok hb
    obtain ⟨ct, -, hb⟩ := do_ok hb
    obtain ⟨cu, hcu, -⟩ := do_ok hb
    simp [Collisions.toConstraints, List.mapM_cons, selfCollisions, hdt, bind, Except.bind, throw, throwThe, MonadExceptOf.throw] at hcu

/-- **C181 is false** without `rewrite_equalities`: a soft constraint with a pair closer than its trigger
makes `solve` undefined. -/
theorem C181_plain_refuted (env : DEnv ℝ) (r : DynRobot ℝ) (hn : 6 < r.nv) (tasks : List (DTask ℝ)) (contacts : List (Contact ℝ))
    (cs : Collisions) (integrate : Bool)
    (s : DState ℝ) (hc : ∀ c ∈ contacts, c.active = true → ContactReady r.nv s.robot c) (ht : ∀ t ∈ tasks, DTaskReady r.nv s.robot t)
    (hw : ∀ t ∈ tasks, t.priority = .soft → 0 ≤ t.weight) (htc : 0 ≤ s.torqueCost)
    (hx : ∀ f, s.extraForce = some f → f.size = r.nv) (hdt : s.dt ≠ 0)
    (hwc : ∀ k ∈ cs, k.1.priority = .soft → 0 < k.1.weight) (hre : env.rewriteEqualities = false)
    (k : SelfCollisions × (RState ℝ → List DynPair)) (hk : k ∈ cs) (hks : k.1.priority = .soft)
    (hnear : ∃ d ∈ k.2 s.robot, d.minDistance < k.1.trigger) :
    (solve env r tasks contacts (cs.toConstraints r.nv) integrate s).2 = .error .ub := by
  obtain ⟨ls, hadd, hls⟩ := collisions_forall r.nv s hdt cs
  obtain ⟨p, hb, hgood, -, -, ⟨c, hcm, hce⟩, hin⟩ := build_constrained env r hn tasks contacts (cs.toConstraints r.nv) ls s hc ht hw htc hx
    (fun _ => hdt) hadd (fun l hl c hc => by
      obtain ⟨k, hk, h1, -⟩ := forall₂_mem_right hls l hl
      obtain ⟨a, b, d, e⟩ := h1 c hc
      refine ⟨a, b, fun hp => ?_⟩
      rw [e]
      refine hwc k hk ?_
      by_contra hh
      rw [d.2 hh] at hp
      cases hp)
  obtain ⟨qp, hqp⟩ := assemble_total (env.settings p.n) env.qr p.cs (fun c hc => (hgood c hc).1) fun h => by
    rw [show (env.settings p.n).rewriteEqualities = env.rewriteEqualities from rfl, hre] at h; cases h
  have hsum : ∀ (f : Constr ℝ → Nat) (l : List (Constr ℝ)) (c : Constr ℝ), c ∈ l → 0 < f c → 0 < (l.map f).sum := by
    intro f l c hc h
    exact lt_of_lt_of_le h (List.single_le_sum (fun _ _ => Nat.zero_le _) _ (List.mem_map.2 ⟨c, hc, rfl⟩))
  have e1 : 0 < nEqualities p.cs := by
    unfold nEqualities
    refine hsum _ _ c hcm ?_
    rw [if_pos hce]
    exact (hgood c hcm).1.2.1
  obtain ⟨l, hl, h1, -, h3⟩ := forall₂_mem_left hls k hk
  obtain ⟨cu, l', rfl⟩ := List.exists_cons_of_ne_nil (h3 hnear)
  have hcu : cu ∈ cu :: l' := by simp
  have e2 : 0 < nSlack p.cs := by
    unfold nSlack
    refine hsum _ _ cu (hin _ hl cu hcu) ?_
    obtain ⟨⟨-, a, -⟩, b, d, -⟩ := h1 cu hcu
    have hp : cu.priority = .soft := by
      cases hp : cu.priority with
      | soft => rfl
      | hard => exact absurd hks (d.1 hp)
    simp [Constr.softIneq, b, hp, a]
  unfold solve
  rw [hb]
  simp only
  rw [C144_mismatch_refuted (env.settings p.n) env.qr _ qp hre hqp e1 e2]

/-! ## A case that meets the hypotheses -/

/-- A body that the hinge moves away (`σ = 1`) from or towards (`σ = -1`) a fixed one, at the distance 1. -/
noncomputable def hingePair (σ : ℝ) : DynPair :=
  { pointA := ![0, 0, 0], pointB := ![1, 0, 0], minDistance := 1, ALin := fun _ _ => 0, AAng := fun _ _ => 0, dALin := fun _ _ => 0,
    dAAng := fun _ _ => 0, BLin := fun i j => if i = 0 ∧ j = 6 then σ else 0, BAng := fun _ _ => 0, dBLin := fun _ _ => 0, dBAng := fun _ _ => 0 }

theorem hingePair_J (σ : ℝ) (j : Nat) : (hingePair σ).J j = if j = 6 then σ else 0 := by
  unfold DynPair.J DynPair.normal
  simp [hingePair, atPoint, dot3, normalize3, norm3, cross3, not_lt.2 (zero_le_one (α := ℝ))]

theorem hingePair_safe (σ : ℝ) : (hingePair σ).xddSafe 7 (fun _ => 1) = |σ| / 2 := by
  unfold DynPair.xddSafe
  have : Ico 6 7 = {6} := rfl
  rw [this]
  simp [hingePair_J]
  ring

/-- The bodies are at the distance 1. A hard constraint keeps them 1/2 apart, a soft one asks for 3: a motion is found. With two hard
constraints asking for 3 that push the hinge in both directions, none is. -/
example : ∃ env : DEnv ℝ, env.toQPEnv.Exact ∧ env.rewriteEqualities = true ∧
    (∃ res, (solve env hingeDyn [{ hingeDTask (1 / 2) with priority := .soft }] [hingeFoot]
      (Collisions.toConstraints [(⟨1 / 2, 2, .hard, 1⟩, fun _ => [hingePair 1]), (⟨3, 4, .soft, 1⟩, fun _ => [hingePair (-1)])] 7) true
      hingeDState).2 = .ok res ∧ res.success = true) ∧
    ∃ res, solve env hingeDyn [{ hingeDTask (1 / 2) with priority := .soft }] [hingeFoot]
      (Collisions.toConstraints [(⟨3, 4, .hard, 1⟩, fun _ => [hingePair 1, hingePair (-1)])] 7) true
      hingeDState = (hingeDState.robot, .ok res) ∧ res.success = false := by
  obtain ⟨env, hex, -, -, hreg, hre, -, htol⟩ := exact_env_exists 1 0 0 true
  have hc : ∀ c ∈ [hingeFoot], c.active = true → ContactReady hingeDyn.nv hingeDState.robot c := by
    intro c hc _
    rw [List.mem_singleton.1 hc]
    exact ⟨rfl, rfl⟩
  have ht : ∀ t ∈ [{ hingeDTask (1 / 2) with priority := Tools.Priority.soft }], DTaskReady hingeDyn.nv hingeDState.robot t := by
    intro t ht
    rw [List.mem_singleton.1 ht]
    exact ⟨by simp, _, rfl, rfl⟩
  have hw : ∀ t ∈ [{ hingeDTask (1 / 2) with priority := Tools.Priority.soft }], t.priority = .soft ∧ 0 ≤ t.weight := by
    intro t ht
    rw [List.mem_singleton.1 ht]
    exact ⟨rfl, zero_le_one⟩
  have hreg : 0 < env.regularization := by rw [hreg]; exact one_pos
  have htol : 0 ≤ env.tol := by rw [htol]
  refine ⟨⟨env, Real.sqrt⟩, hex, hre, ?_, ?_⟩
  · refine C181_rest ⟨env, Real.sqrt⟩ (fun x _ => Real.sqrt_nonneg x) hingeDyn (by decide) _ _ _ true _ hc ht hw zero_le_one
      (fun f h => (by cases h)) (hinge_mass _) one_ne_zero rfl rfl (fun h => (by cases h)) (fun h => (by cases h)) hreg htol hex ?_ (.inl hre)
      (fun _ => rfl) ?_ ?_
    · intro k hk _
      simp only [List.mem_cons, List.not_mem_nil, or_false] at hk
      rcases hk with rfl | rfl <;> exact one_pos
    · intro k hk d hd j hj
      simp only [List.mem_cons, List.not_mem_nil, or_false] at hk
      rcases hk with rfl | rfl <;> (rw [List.mem_singleton.1 hd, hingePair_J, if_neg (by omega)])
    · intro k hk hh d hd
      simp only [List.mem_cons, List.not_mem_nil, or_false] at hk
      rcases hk with rfl | rfl
      · rw [List.mem_singleton.1 hd]
        norm_num [hingePair]
      · exact absurd rfl hh
  · refine (C181_exact ⟨env, Real.sqrt⟩ hingeDyn (by decide) _ _ _ true _ hc ht (fun t h _ => (hw t h).2) zero_le_one (fun f h => (by cases h))
      one_ne_zero hreg htol hex ?_ (.inl hre)).2 ?_
    · intro k hk _
      rw [List.mem_singleton.1 hk]
      exact one_pos
    · rintro ⟨⟨y, tau, ws, -, h⟩, -⟩
      have h := h _ (List.mem_singleton_self _) (by simp [CollisionHard])
      have h1 := (h (hingePair 1) (by simp) (by norm_num [hingePair])).2 (by norm_num [hingePair])
      have h2 := (h (hingePair (-1)) (by simp) (by norm_num [hingePair])).2 (by norm_num [hingePair])
      have e : hingeDyn.nv = 7 := rfl
      rw [e, show hingeDState.qddSafe = fun _ => 1 from rfl, hingePair_safe] at h1 h2
      simp only [hingePair_J, Finset.sum_range_succ, Finset.sum_range_zero] at h1 h2
      norm_num at h1 h2
      linarith

end Verif.Dynamics
