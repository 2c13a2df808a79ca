/-
Properties C183 and C184: a puppet contact makes every task feasible force-wise (docs/dynamics/puppet_contact.rst), and a task contact provides
the force that achieves its task, whatever the torques of the robot (docs/dynamics/task_contact.rst).
-/
import Verif.Dynamics.TotalProps

namespace Verif.Dynamics
open Finset Verif.Problem Verif.Kinematics

/-! ## C183: puppet contact -/

/-- A puppet contact absorbs any force: the other wrenches being given, one of the puppet gives the generalised force any value. -/
theorem puppet_absorbs {α : Type} (f : α → Contact ℝ) (P : α → (Nat → ℝ) → Prop) (N : Nat) (robot : RState ℝ) :
    ∀ (l : List α) (Js : List (Mat ℝ)) (ws : List (Nat → ℝ)), (l.map f).mapM (fun c => c.update N robot) = .ok Js → List.Forall₂ P l ws →
      (∃ a ∈ l, (f a).kind = .puppet ∧ ∀ w, P a w) → ∀ target : Nat → ℝ,
      ∃ ws', List.Forall₂ P l ws' ∧ ∀ i, i < N → generalised Js ws' i = target i
  | [], _, _, _, _, ⟨_, ha, _⟩, _ => absurd ha List.not_mem_nil
  | a :: l, Js, ws, hJ, hw, ⟨b, hb, hk, hP⟩, target => by
    rw [List.map_cons, List.mapM_cons] at hJ
    obtain ⟨J, hJ1, hJ⟩ := bind_ok hJ
    obtain ⟨Js', hJ2, hJ⟩ := bind_ok hJ
    cases hJ
    cases hw with
    | @cons _ w _ ws' hw1 hw2 =>
      have hcons : ∀ v vs i, generalised (J :: Js') (v :: vs) i = (∑ k ∈ range J.rows, J.m k i * v k) + generalised Js' vs i := fun v vs i => by
        simp [generalised]
      by_cases hab : (f a).kind = .puppet ∧ ∀ w, P a w
      · refine ⟨(fun i => target i - generalised Js' ws' i) :: ws', .cons (hab.2 _) hw2, fun i hi => ?_⟩
        have e : J = ⟨N, N, fun i j => if i = j then 1 else 0⟩ := by
          unfold Contact.update at hJ1
          rw [hab.1] at hJ1
          cases hJ1
          rfl
        rw [hcons, e]
        simp only
        rw [sum_eq_single_of_mem i (mem_range.2 hi) fun j _ hj => by rw [if_neg hj, zero_mul], if_pos rfl]
        ring
      · have hbl : b ∈ l := by
          rcases List.mem_cons.1 hb with rfl | h
          · exact absurd ⟨hk, hP⟩ hab
          · exact h
        obtain ⟨vs, h1, h2⟩ := puppet_absorbs f P N robot l Js' ws' hJ2 hw2 ⟨b, hbl, hk, hP⟩ fun i => target i - ∑ k ∈ range J.rows, J.m k i * w k
        exact ⟨w :: vs, .cons hw1 h1, fun i hi => by rw [hcons, h2 i hi]; ring⟩

/-- The requirements apart from forces: the hard tasks, the enabled limits and the floating base. The equation of motion, the
masses and the requirements on the wrenches of the contacts play no part. -/
structure FreeMotion (sqrt : ℝ → ℝ) (r : DynRobot ℝ) (tasks : List (DTask ℝ)) (s : DState ℝ) (y tau : Nat → ℝ) : Prop where
  base : s.maskedFbase = false → ∀ i, i < 6 → tau i = 0
  fbase : s.maskedFbase = true → ∀ i, i < 6 → y i = 0
  tasks : ∀ t ∈ tasks, DTaskMet s.robot t y tau
  limits : LimitsOK sqrt r s y tau

/-- The rows of the hard tasks (and the values of the floating base) can be given any values, by accelerations and torques without relation. -/
def FreeRows (tasks : List (DTask ℝ)) (s : DState ℝ) : Prop :=
  ∀ (rs : List (DTask ℝ × (Nat → ℝ))) (u : Nat → ℝ), rs.map Prod.fst = tasks → ∃ y tau : Nat → ℝ,
    (s.maskedFbase = false → ∀ i, i < 6 → tau i = u i) ∧ (s.maskedFbase = true → ∀ i, i < 6 → y i = u i) ∧
    ∀ q ∈ rs, DTaskRhs s.robot q.1 q.2 y tau

theorem givenWrenches_ok (l : List (Contact ℝ)) : List.Forall₂ WrenchOK l (l.map givenWrench) := by
  induction l with
  | nil => exact .nil
  | cons c l ih => exact .cons (givenWrench_ok c) ih

/-- With an active puppet contact, a motion compatible with the dynamics exists exactly when the hard tasks and the limits can be met. -/
theorem puppet_motion (sqrt : ℝ → ℝ) (r : DynRobot ℝ) (hn : 6 < r.nv) (tasks : List (DTask ℝ)) (contacts : List (Contact ℝ)) (s : DState ℝ)
    (hc : ∀ c ∈ contacts, c.active = true → ContactReady r.nv s.robot c) (hp : ∃ c ∈ contacts, c.active = true ∧ c.kind = .puppet)
    (y tau : Nat → ℝ) : (∃ ws, Motion sqrt r tasks contacts s y tau ws) ↔ FreeMotion sqrt r tasks s y tau := by
  constructor
  · rintro ⟨ws, h⟩
    exact ⟨h.base, h.fbase, h.tasks, h.limits⟩
  · intro h
    obtain ⟨c, hc1, hc2, hc3⟩ := hp
    obtain ⟨Js, hJs⟩ := updates_total (N := r.nv) (by omega) (contacts.filter (·.active)) fun c hcm => by
      obtain ⟨h1, h2⟩ := List.mem_filter.1 hcm
      exact hc c h1 h2
    obtain ⟨ws, h1, h2⟩ := puppet_absorbs id WrenchOK r.nv s.robot (contacts.filter (·.active)) Js _ (by rw [List.map_id]; exact hJs)
      (givenWrenches_ok _) ⟨c, List.mem_filter.2 ⟨hc1, hc2⟩, hc3, fun w => by
        unfold WrenchOK
        simp only [hc3]⟩
      fun i => (∑ j ∈ range r.nv, r.mass s.robot i j * y j) + s.damping * s.robot.qd i +
        (if s.gravityOnly then r.gravity s.robot i else r.nle s.robot i) + (match s.extraForce with | some f => f.v i | none => 0) - tau i
    exact ⟨ws, ⟨Js, hJs, fun i hi => by rw [h2 i hi]; exact (add_sub_cancel _ _).symm⟩, h1, h.base, h.fbase, h.tasks, h.limits⟩

/-- With an active puppet contact, the hard requirements are independent exactly when the rows of the hard tasks are. -/
theorem puppet_free (r : DynRobot ℝ) (hn : 6 < r.nv) (tasks : List (DTask ℝ)) (contacts : List (Contact ℝ)) (s : DState ℝ)
    (hc : ∀ c ∈ contacts, c.active = true → ContactReady r.nv s.robot c) (hp : ∃ c ∈ contacts, c.active = true ∧ c.kind = .puppet) :
    MotionFree r tasks contacts s ↔ FreeRows tasks s := by
  constructor
  · intro h rs u hrs
    obtain ⟨y, tau, -, -, -, -, -, h1, h2, h3⟩ := h rs ((contacts.filter (·.active)).map fun c => (c, fun _ => 0)) u hrs
      (by rw [List.map_map]; exact List.map_id _)
    exact ⟨y, tau, h1, h2, h3⟩
  · intro h rs es u hrs hes
    obtain ⟨y, tau, h1, h2, h3⟩ := h rs u hrs
    obtain ⟨c, hc1, hc2, hc3⟩ := hp
    obtain ⟨Js, hJs⟩ := updates_total (N := r.nv) (by omega) (contacts.filter (·.active)) fun c hcm => by
      obtain ⟨h1, h2⟩ := List.mem_filter.1 hcm
      exact hc c h1 h2
    have hex : List.Forall₂ (fun (q : Contact ℝ × (Nat → ℝ)) w => ExternalIs q.1 q.2 w) es (es.map Prod.snd) := by
      clear hes
      induction es with
      | nil => exact .nil
      | cons q es ih =>
        refine .cons ?_ ih
        unfold ExternalIs
        split
        · exact fun i _ => rfl
        · trivial
    have hce : c ∈ es.map Prod.fst := by
      rw [hes]
      exact List.mem_filter.2 ⟨hc1, hc2⟩
    obtain ⟨q, hq, hqc⟩ := List.mem_map.1 hce
    obtain ⟨ws, w1, w2⟩ := puppet_absorbs Prod.fst (fun (q : Contact ℝ × (Nat → ℝ)) w => ExternalIs q.1 q.2 w) r.nv s.robot es Js _
      (by rw [hes]; exact hJs) hex ⟨q, hq, by rw [hqc]; exact hc3, fun w => by unfold ExternalIs; rw [hqc, hc3]; trivial⟩
      fun i => (∑ j ∈ range r.nv, r.mass s.robot i j * y j) - tau i
    exact ⟨y, tau, ws, Js, hJs, fun i hi => by rw [w2 i hi]; ring, w1, h1, h2, h3⟩

/-- **C183, exact.** With an active puppet contact, inverse dynamics succeeds exactly when the hard tasks and the enabled limits can be met by
some accelerations and torques, related by nothing else (and, with `rewrite_equalities`, the rows of the hard tasks are independent), whatever
the masses, the bias forces and the other contacts. -/
theorem C183_exact (env : DEnv ℝ) (r : DynRobot ℝ) (hn : 6 < r.nv) (tasks : List (DTask ℝ)) (contacts : List (Contact ℝ)) (integrate : Bool)
    (s : DState ℝ) (hc : ∀ c ∈ contacts, c.active = true → ContactReady r.nv s.robot c) (hp : ∃ c ∈ contacts, c.active = true ∧ c.kind = .puppet)
    (ht : ∀ t ∈ tasks, DTaskReady r.nv s.robot t) (hw : ∀ t ∈ tasks, t.priority = .soft → 0 ≤ t.weight) (htc : 0 ≤ s.torqueCost)
    (hx : ∀ f, s.extraForce = some f → f.size = r.nv)
    (hdt : s.jointLimits = true ∨ s.velocityLimits = true ∨ s.velocityVsTorque = true ∨ integrate = true → s.dt ≠ 0)
    (hreg : 0 < env.regularization) (htol : 0 ≤ env.tol) (hex : env.toQPEnv.Exact) :
    (∃ res, (solve env r tasks contacts [] integrate s).2 = .ok res ∧ res.success = true) ↔
      (∃ y tau, FreeMotion env.sqrt r tasks s y tau) ∧ (env.rewriteEqualities = true → FreeRows tasks s) := by
  rw [(C166_exact env r hn tasks contacts integrate s hc ht hw htc hx hdt hreg htol hex).1, puppet_free r hn tasks contacts s hc hp]
  refine and_congr_left fun _ => exists_congr fun y => exists_congr fun tau => puppet_motion env.sqrt r hn tasks contacts s hc hp y tau

/-- **C183.** With an active puppet contact and no limits, inverse dynamics succeeds as soon as the rows of the hard tasks on accelerations
are independent (and those of the hard tasks on torques): any motion can be asked for, of any robot. -/
theorem C183 (env : DEnv ℝ) (r : DynRobot ℝ) (hn : 6 < r.nv) (tasks : List (DTask ℝ)) (contacts : List (Contact ℝ)) (integrate : Bool)
    (s : DState ℝ) (hc : ∀ c ∈ contacts, c.active = true → ContactReady r.nv s.robot c) (hp : ∃ c ∈ contacts, c.active = true ∧ c.kind = .puppet)
    (ht : ∀ t ∈ tasks, DTaskReady r.nv s.robot t) (hw : ∀ t ∈ tasks, t.priority = .soft → 0 ≤ t.weight) (htc : 0 ≤ s.torqueCost)
    (hx : ∀ f, s.extraForce = some f → f.size = r.nv) (hdt : integrate = true → s.dt ≠ 0)
    (hl : s.torqueLimits = false ∧ s.velocityLimits = false ∧ s.velocityVsTorque = false ∧ s.jointLimits = false)
    (hfree : FreeRows tasks s) (hreg : 0 < env.regularization) (htol : 0 ≤ env.tol) (hex : env.toQPEnv.Exact) :
    ∃ res, (solve env r tasks contacts [] integrate s).2 = .ok res ∧ res.success = true := by
  obtain ⟨l1, l2, l3, l4⟩ := hl
  refine (C183_exact env r hn tasks contacts integrate s hc hp ht hw htc hx (fun h => ?_) hreg htol hex).2 ⟨?_, fun _ => hfree⟩
  · rcases h with h | h | h | h
    · rw [l4] at h; cases h
    · rw [l2] at h; cases h
    · rw [l3] at h; cases h
    · exact hdt h
  · have : Nonempty (TaskMat ℝ) := ⟨⟨0, 0, fun _ _ => 0, fun _ => 0⟩⟩
    choose! b hb using fun t (h : t ∈ tasks) => (ht t h).2
    obtain ⟨y, tau, h1, h2, h3⟩ := hfree (tasks.map fun t => (t, (b t).b)) (fun _ => 0) (by rw [List.map_map]; exact List.map_id _)
    refine ⟨y, tau, h1, h2, fun t htm hh M hM i hi => ?_, ?_⟩
    · have := h3 (t, (b t).b) (List.mem_map.2 ⟨t, htm, rfl⟩) hh M hM i hi
      rw [this]
      have e := (hb t htm).1
      rw [hM] at e
      cases e
      rfl
    · refine ⟨fun h => ?_, fun h => ?_, fun h => ?_, fun h => ?_, fun h => ?_⟩
      · rw [l1] at h; cases h
      · rw [l2] at h; cases h
      · rw [l3] at h; cases h
      · rw [l4] at h; cases h
      · rw [l4] at h; cases h

/-- **C183 (soft tasks).** With an active puppet contact and soft tasks, inverse dynamics succeeds with all the limits enabled, on torques too,
as soon as the joints are inside their range: no force is missing. -/
theorem C183_soft (env : DEnv ℝ) (hsq : ∀ x, 0 ≤ x → 0 ≤ env.sqrt x) (r : DynRobot ℝ) (hn : 6 < r.nv) (tasks : List (DTask ℝ))
    (contacts : List (Contact ℝ)) (integrate : Bool) (s : DState ℝ) (hc : ∀ c ∈ contacts, c.active = true → ContactReady r.nv s.robot c)
    (hp : ∃ c ∈ contacts, c.active = true ∧ c.kind = .puppet) (ht : ∀ t ∈ tasks, DTaskReady r.nv s.robot t)
    (hsoft : ∀ t ∈ tasks, t.priority = .soft ∧ 0 ≤ t.weight) (htc : 0 ≤ s.torqueCost) (hx : ∀ f, s.extraForce = some f → f.size = r.nv)
    (hdt : s.dt ≠ 0) (he : ∀ i, 6 ≤ i → i < r.nv → 0 ≤ (s.overrides i).getD (r.effort i)) (hv : ∀ i, 6 ≤ i → i < r.nv → 0 ≤ r.vlim i)
    (hj : s.jointLimits = true → ∀ i, 6 ≤ i → i < r.nv →
      r.lower (i + 1) ≤ s.robot.q (i + 1) ∧ s.robot.q (i + 1) ≤ r.upper (i + 1) ∧ 0 ≤ s.qddSafe i)
    (hreg : 0 < env.regularization) (htol : 0 ≤ env.tol) (hex : env.toQPEnv.Exact) :
    ∃ res, (solve env r tasks contacts [] integrate s).2 = .ok res ∧ res.success = true := by
  refine (C183_exact env r hn tasks contacts integrate s hc hp ht (fun t h _ => (hsoft t h).2) htc hx (fun _ => hdt) hreg htol hex).2
    ⟨⟨fun i => if i < 6 then 0 else -(s.robot.qd i / s.dt), fun _ => 0, fun _ _ _ => rfl, fun _ i hi => if_pos hi, fun t h hh => ?_, ?_⟩,
      fun _ rs u hrs => ⟨u, u, fun _ _ _ => rfl, fun _ _ _ => rfl, fun q hq hh => ?_⟩⟩
  · rw [(hsoft t h).1] at hh
    cases hh
  · have hstop : ∀ i, 6 ≤ i → s.robot.qd i + s.dt * (if i < 6 then 0 else -(s.robot.qd i / s.dt)) = 0 := by
      intro i hi
      rw [if_neg (by omega)]
      field_simp
      ring
    refine ⟨fun _ i h6 hi => ?_, fun _ _ i h6 hi => ?_, fun _ i h6 hi => ?_, fun h i h6 hi => ?_, fun h i h6 hi => ?_⟩
    · rw [abs_zero]
      exact he i h6 hi
    · rw [hstop i h6, abs_zero]
      exact hv i h6 hi
    · rw [hstop i h6, mul_zero, add_zero, abs_zero]
      exact hv i h6 hi
    · obtain ⟨h1, h2, h3⟩ := hj h i h6 hi
      rw [if_neg (not_lt.2 h2), hstop i h6]
      exact hsq _ (mul_nonneg (mul_nonneg zero_le_two (sub_nonneg.2 h2)) h3)
    · obtain ⟨h1, h2, h3⟩ := hj h i h6 hi
      rw [if_neg (not_lt.2 h1), hstop i h6, neg_zero]
      exact hsq _ (mul_nonneg (mul_nonneg zero_le_two (abs_nonneg _)) h3)
  · rw [(hsoft q.1 (by rw [← hrs]; exact List.mem_map.2 ⟨q, hq, rfl⟩)).1] at hh
    cases hh

/-! ## C184: task contact -/

/-- The product of two vectors. -/
def dot {n : Nat} (x y : Fin n → ℝ) : ℝ := ∑ i, x i * y i

/-- With a positive definite matrix, a vector can be moved, without moving its products with the vectors of `S`, so that its image is `c` plus
a vector of `S`. -/
theorem kkt {n : Nat} (M : Fin n → Fin n → ℝ) (hM : ∀ v : Fin n → ℝ, v ≠ 0 → 0 < ∑ i, ∑ j, v i * M i j * v j) (S : Submodule ℝ (Fin n → ℝ))
    (c y0 : Fin n → ℝ) : ∃ y : Fin n → ℝ, (∀ a ∈ S, dot a y = dot a y0) ∧ (fun i => ∑ j, M i j * y j - c i) ∈ S := by
  let V : Submodule ℝ (Fin n → ℝ) :=
    { carrier := { v | ∀ a ∈ S, dot a v = 0 }
      add_mem' := fun {v w} hv hw a ha => by
        have h1 := hv a ha
        have h2 := hw a ha
        unfold dot at *
        simp only [Pi.add_apply, mul_add, sum_add_distrib, h1, h2, add_zero]
      zero_mem' := fun a _ => by simp [dot]
      smul_mem' := fun k v hv a ha => by
        have h1 := hv a ha
        unfold dot at *
        simp only [Pi.smul_apply, smul_eq_mul]
        rw [show ∑ i, a i * (k * v i) = k * ∑ i, a i * v i from by rw [mul_sum]; exact sum_congr rfl fun i _ => by ring, h1, mul_zero] }
  let B : (Fin n → ℝ) →ₗ[ℝ] (Fin n → ℝ) →ₗ[ℝ] ℝ := LinearMap.mk₂ ℝ (fun v u => ∑ i, ∑ j, u i * M i j * v j)
    (fun v v' u => by simp only [Pi.add_apply, mul_add, sum_add_distrib])
    (fun k v u => by
      simp only [Pi.smul_apply, smul_eq_mul, mul_sum]
      exact sum_congr rfl fun i _ => sum_congr rfl fun j _ => by ring)
    (fun v u u' => by simp only [Pi.add_apply, add_mul, sum_add_distrib])
    (fun k v u => by
      simp only [Pi.smul_apply, smul_eq_mul, mul_sum]
      exact sum_congr rfl fun i _ => sum_congr rfl fun j _ => by ring)
  have hB : ∀ v u, B v u = ∑ i, ∑ j, u i * M i j * v j := fun v u => rfl
  let f : V →ₗ[ℝ] Module.Dual ℝ V := (LinearMap.lcomp ℝ ℝ V.subtype).comp (B.comp V.subtype)
  have hf : ∀ v u : V, f v u = B v.1 u.1 := fun v u => rfl
  have hinj : Function.Injective f := by
    rw [← LinearMap.ker_eq_bot, LinearMap.ker_eq_bot']
    intro v hv
    by_contra hne
    have h0 : f v v = 0 := by rw [hv]; rfl
    rw [hf, hB] at h0
    exact absurd h0 (ne_of_gt (hM v.1 fun h => hne (Subtype.ext h)))
  have hsurj : Function.Surjective f :=
    (LinearMap.injective_iff_surjective_of_finrank_eq_finrank (Subspace.dual_finrank_eq (K := ℝ) (V := V)).symm).1 hinj
  let g : (Fin n → ℝ) →ₗ[ℝ] ℝ :=
    { toFun := fun u => ∑ i, u i * (c i - ∑ j, M i j * y0 j)
      map_add' := fun u u' => by simp only [Pi.add_apply, add_mul, sum_add_distrib]
      map_smul' := fun k u => by
        simp only [Pi.smul_apply, smul_eq_mul, RingHom.id_apply, mul_sum]
        exact sum_congr rfl fun i _ => by ring }
  obtain ⟨v, hv⟩ := hsurj (g.comp V.subtype)
  have hv' : ∀ u ∈ V, ∑ i, ∑ j, u i * M i j * v.1 j = ∑ i, u i * (c i - ∑ j, M i j * y0 j) := fun u hu => by
    have := LinearMap.congr_fun hv ⟨u, hu⟩
    rw [hf, hB] at this
    exact this
  refine ⟨fun i => y0 i + v.1 i, fun a ha => ?_, ?_⟩
  · have := v.2 a ha
    unfold dot at *
    simp only [mul_add, sum_add_distrib, this, add_zero]
  · by_contra hx
    obtain ⟨φ, h1, h2⟩ := Submodule.exists_le_ker_of_notMem hx
    have hφ : ∀ x : Fin n → ℝ, φ x = dot x fun i => φ (Pi.single i 1) := fun x => by
      conv_lhs => rw [pi_eq_sum_univ' x]
      rw [map_sum]
      exact sum_congr rfl fun i _ => by rw [map_smul, smul_eq_mul]
    have hu : (fun i => φ (Pi.single i 1)) ∈ V := fun a ha => by
      rw [← hφ a]
      exact h2 ha
    have h3 := hv' _ hu
    refine h1 ?_
    rw [hφ]
    unfold dot
    simp only [mul_add, sum_add_distrib, mul_sub, sub_mul, add_mul, sum_sub_distrib] at h3 ⊢
    have e : ∀ z : Fin n → ℝ, ∑ i, (∑ j, M i j * z j) * φ (Pi.single i 1) = ∑ i, ∑ j, φ (Pi.single i 1) * M i j * z j := fun z =>
      sum_congr rfl fun i _ => by
        rw [sum_mul]
        exact sum_congr rfl fun j _ => by ring
    have e' : ∀ z : Fin n → ℝ, ∑ i, φ (Pi.single i 1) * (∑ j, M i j * z j) = ∑ i, ∑ j, φ (Pi.single i 1) * M i j * z j := fun z =>
      sum_congr rfl fun i _ => by
        rw [mul_sum]
        exact sum_congr rfl fun j _ => by ring
    rw [e] 
    rw [e'] at h3
    rw [e, h3]
    have : ∑ i, c i * φ (Pi.single i 1) = ∑ i, φ (Pi.single i 1) * c i := sum_congr rfl fun i _ => mul_comm _ _
    rw [this]
    ring

/-- The rows of the task contacts of a list, from the column `m` on. -/
def taskRows (m n : Nat) (robot : RState ℝ) : List (Contact ℝ) → Submodule ℝ (Fin n → ℝ)
  | [] => ⊥
  | c :: l => (match c.kind with
      | .task A => Submodule.span ℝ (Set.range fun (k : Fin (A robot).rows) (i : Fin n) => (A robot).m k (i + m))
      | _ => ⊥) ⊔ taskRows m n robot l

theorem taskRows_mem (m n : Nat) (robot : RState ℝ) : ∀ (l : List (Contact ℝ)) (c : Contact ℝ), c ∈ l → ∀ A, c.kind = .task A → ∀ k,
    k < (A robot).rows → (fun i : Fin n => (A robot).m k (i + m)) ∈ taskRows m n robot l
  | [], _, h, _, _, _, _ => absurd h List.not_mem_nil
  | d :: l, c, h, A, hA, k, hk => by
    rw [taskRows]
    rcases List.mem_cons.1 h with rfl | h
    · refine Submodule.mem_sup_left ?_
      rw [hA]
      exact Submodule.subset_span ⟨⟨k, hk⟩, rfl⟩
    · exact Submodule.mem_sup_right (taskRows_mem m n robot l c h A hA k hk)

/-- Forces along the rows of the task contacts can be added to the generalised force. -/
theorem taskRows_absorb {α : Type} (f : α → Contact ℝ) (P : α → (Nat → ℝ) → Prop) (m n N : Nat) (robot : RState ℝ) :
    ∀ (l : List α) (Js : List (Mat ℝ)) (ws : List (Nat → ℝ)), (l.map f).mapM (fun c => c.update N robot) = .ok Js → List.Forall₂ P l ws →
      (∀ a ∈ l, ∀ A, (f a).kind = .task A → ∀ w, P a w) → ∀ x ∈ taskRows m n robot (l.map f),
      ∃ ws', List.Forall₂ P l ws' ∧ ∀ i : Fin n, generalised Js ws' (i + m) = generalised Js ws (i + m) + x i
  | [], Js, ws, hJ, hw, _, x, hx => by
    cases hw
    have : x = 0 := (Submodule.mem_bot ℝ).1 hx
    exact ⟨[], .nil, fun i => by rw [this]; simp⟩
  | a :: l, Js, ws, hJ, hw, hP, x, hx => by
    rw [List.map_cons, List.mapM_cons] at hJ
    obtain ⟨J, hJ1, hJ⟩ := bind_ok hJ
    obtain ⟨Js', hJ2, hJ⟩ := bind_ok hJ
    cases hJ
    cases hw with
    | @cons _ w _ ws' hw1 hw2 =>
      have hcons : ∀ v vs i, generalised (J :: Js') (v :: vs) i = (∑ k ∈ range J.rows, J.m k i * v k) + generalised Js' vs i := fun v vs i => by
        simp [generalised]
      rw [List.map_cons, taskRows] at hx
      obtain ⟨x1, h1, x2, h2, rfl⟩ := Submodule.mem_sup.1 hx
      obtain ⟨vs, v1, v2⟩ := taskRows_absorb f P m n N robot l Js' ws' hJ2 hw2 (fun b hb => hP b (List.mem_cons_of_mem _ hb)) x2 h2
      cases hk : (f a).kind with
      | task A =>
        rw [hk] at h1
        simp only at h1
        have e : J = A robot := by
          unfold Contact.update at hJ1
          rw [hk] at hJ1
          cases hJ1
          rfl
        obtain ⟨u, hu⟩ := (Submodule.mem_span_range_iff_exists_fun ℝ).1 h1
        refine ⟨(fun k => w k + if h : k < (A robot).rows then u ⟨k, h⟩ else 0) :: vs,
          .cons (hP a List.mem_cons_self A hk _) v1, fun i => ?_⟩
        rw [hcons, hcons, v2 i, e]
        have hx1 : x1 i = ∑ k ∈ range (A robot).rows, (A robot).m k (i + m) * (if h : k < (A robot).rows then u ⟨k, h⟩ else 0) := by
          rw [← hu, ← Fin.sum_univ_eq_sum_range
            (fun k => (A robot).m k (i + m) * (if h : k < (A robot).rows then u ⟨k, h⟩ else 0)), Finset.sum_apply]
          exact sum_congr rfl fun k _ => by
            rw [dif_pos k.2]
            simp [mul_comm]
        rw [Pi.add_apply, hx1]
        simp only [mul_add, sum_add_distrib]
        ring
      | _ =>
        rw [hk] at h1
        have : x1 = 0 := (Submodule.mem_bot ℝ).1 h1
        exact ⟨w :: vs, .cons hw1 v1, fun i => by rw [hcons, hcons, v2 i, this, zero_add, add_assoc]⟩

/-- With a positive definite mass matrix, the forces of the task contacts make the accelerations of their tasks possible, whatever the
torques, the bias forces and the other wrenches. -/
theorem task_contacts {α : Type} (f : α → Contact ℝ) (P : α → (Nat → ℝ) → Prop) (m N : Nat) (hm : m ≤ N) (robot : RState ℝ)
    (M : Nat → Nat → ℝ) (hM : PosDef N M) (l : List α) (Js : List (Mat ℝ)) (ws : List (Nat → ℝ))
    (hJ : (l.map f).mapM (fun c => c.update N robot) = .ok Js) (hw : List.Forall₂ P l ws)
    (hP : ∀ a ∈ l, ∀ A, (f a).kind = .task A → ∀ w, P a w) (y0 target : Nat → ℝ) :
    ∃ (y : Nat → ℝ) (ws' : List (Nat → ℝ)), List.Forall₂ P l ws' ∧ (∀ i, i < m → y i = y0 i) ∧
      (∀ a ∈ l, ∀ A, (f a).kind = .task A → ∀ k, k < (A robot).rows →
        ∑ j ∈ range N, (A robot).m k j * y j = ∑ j ∈ range N, (A robot).m k j * y0 j) ∧
      ∀ i, m ≤ i → i < N → ∑ j ∈ range N, M i j * y j = target i + generalised Js ws' i := by
  obtain ⟨n, rfl⟩ := Nat.exists_eq_add_of_le hm
  have hsplit : ∀ g : Nat → ℝ, ∑ j ∈ range (m + n), g j = ∑ j ∈ range m, g j + ∑ j : Fin n, g (j + m) := fun g => by
    rw [sum_range_add, Fin.sum_univ_eq_sum_range (fun j => g (j + m))]
    exact congrArg _ (sum_congr rfl fun j _ => by rw [add_comm])
  have hpd : ∀ v : Fin n → ℝ, v ≠ 0 → 0 < ∑ i : Fin n, ∑ j : Fin n, v i * M (i + m) (j + m) * v j := fun v hv => by
    let Z : Nat → ℝ := fun k => if k < m then 0 else if h : k - m < n then v ⟨k - m, h⟩ else 0
    have Z1 : ∀ i, i < m → Z i = 0 := fun i hi => if_pos hi
    have Z2 : ∀ i : Fin n, Z (i + m) = v i := fun i => by
      have h1 : ¬ (i + m < m) := by omega
      have h2 : (i : Nat) + m - m = i := by omega
      simp only [Z, if_neg h1, h2, i.2, dif_pos]
    obtain ⟨k, hk⟩ := Function.ne_iff.1 hv
    have := hM Z ⟨k + m, by omega, by rw [Z2]; exact hk⟩
    unfold form at this
    rw [hsplit, sum_eq_zero fun i hi => sum_eq_zero fun j _ => by rw [Z1 i (mem_range.1 hi), zero_mul, zero_mul], zero_add] at this
    refine lt_of_lt_of_eq this (sum_congr rfl fun i _ => ?_)
    rw [hsplit, sum_eq_zero fun j hj => by rw [Z1 j (mem_range.1 hj), mul_zero], zero_add]
    exact sum_congr rfl fun j _ => by rw [Z2 i, Z2 j]
  obtain ⟨y, hy1, hy2⟩ := kkt (n := n) (fun i j => M (i + m) (j + m)) hpd (taskRows m n robot (l.map f))
    (fun i => target (i + m) + generalised Js ws (i + m) - ∑ j ∈ range m, M (i + m) j * y0 j) (fun i => y0 (i + m))
  obtain ⟨ws', hws, hgen⟩ := taskRows_absorb f P m n (m + n) robot l Js ws hJ hw hP _ hy2
  let Y : Nat → ℝ := fun k => if k < m then y0 k else if h : k - m < n then y ⟨k - m, h⟩ else 0
  have Y1 : ∀ i, i < m → Y i = y0 i := fun i hi => if_pos hi
  have Y2 : ∀ i : Fin n, Y (i + m) = y i := fun i => by
    have h1 : ¬ (i + m < m) := by omega
    have h2 : (i : Nat) + m - m = i := by omega
    simp only [Y, if_neg h1, h2, i.2, dif_pos]
  refine ⟨Y, ws', hws, Y1, fun a ha A hA k hk => ?_, fun i h1 h2 => ?_⟩
  · have := hy1 _ (taskRows_mem m n robot (l.map f) (f a) (List.mem_map.2 ⟨a, ha, rfl⟩) A hA k hk)
    unfold dot at this
    rw [hsplit, hsplit, ← this]
    congr 1
    · exact sum_congr rfl fun j hj => by rw [Y1 j (mem_range.1 hj)]
    · exact sum_congr rfl fun j _ => by rw [Y2 j]
  · have := hgen ⟨i - m, by omega⟩
    simp only [show i - m + m = i by omega] at this
    rw [this, hsplit]
    have e1 : ∑ j : Fin n, M i (j + m) * Y (j + m) = ∑ j : Fin n, M i (j + m) * y j := sum_congr rfl fun j _ => by rw [Y2 j]
    have e2 : ∑ j ∈ range m, M i j * Y j = ∑ j ∈ range m, M i j * y0 j := sum_congr rfl fun j hj => by rw [Y1 j (mem_range.1 hj)]
    rw [e1, e2]
    ring

/-- Each hard task on accelerations has an active task contact. -/
def Supported (N : Nat) (tasks : List (DTask ℝ)) (contacts : List (Contact ℝ)) (robot : RState ℝ) : Prop :=
  ∀ t ∈ tasks, t.priority = .hard → t.tauTask = false → ∀ M, t.update robot = .ok M → ∃ c ∈ contacts, c.active = true ∧
    ∃ A, c.kind = .task A ∧ (A robot).rows = M.rows ∧ ∀ i, i < M.rows → ∀ j, j < N → (A robot).m i j = M.A i j

/-- The hard tasks on torques are about joints, not about the floating base. -/
def JointTorques (tasks : List (DTask ℝ)) (robot : RState ℝ) : Prop :=
  ∀ t ∈ tasks, t.priority = .hard → t.tauTask = true → ∀ M, t.update robot = .ok M → ∀ i, i < M.rows → ∀ j, j < 6 → M.A i j = 0

/-- The number of coordinates whose acceleration is imposed. -/
def fixedColumns (s : DState ℝ) : Nat := if s.maskedFbase then 6 else 0

/-- Torques of the joints, with the torques of a masked floating base given by the equation of motion. -/
def baseTorques (s : DState ℝ) (tau z : Nat → ℝ) : Nat → ℝ := fun i => if i < fixedColumns s then z i else tau i

theorem baseTorques_base {s : DState ℝ} (h : s.maskedFbase = false) (tau z : Nat → ℝ) : baseTorques s tau z = tau := by
  funext i
  unfold baseTorques fixedColumns
  rw [h]
  simp

theorem baseTorques_joint (s : DState ℝ) (tau z : Nat → ℝ) (i : Nat) (hi : 6 ≤ i) : baseTorques s tau z i = tau i := by
  have h : fixedColumns s ≤ 6 := by unfold fixedColumns; split <;> omega
  exact if_neg (by omega)

theorem supported_rhs {N : Nat} {tasks : List (DTask ℝ)} {contacts : List (Contact ℝ)} {s : DState ℝ}
    (hs : Supported N tasks contacts s.robot) (hj : JointTorques tasks s.robot) (ht : ∀ t ∈ tasks, DTaskReady N s.robot t)
    {y y0 tau z : Nat → ℝ} (hy : ∀ c ∈ contacts, c.active = true → ∀ A, c.kind = .task A → ∀ k, k < (A s.robot).rows →
      ∑ j ∈ range N, (A s.robot).m k j * y j = ∑ j ∈ range N, (A s.robot).m k j * y0 j) (ρ : Nat → ℝ) (t : DTask ℝ) (htm : t ∈ tasks)
    (h : DTaskRhs s.robot t ρ y0 tau) : DTaskRhs s.robot t ρ y (baseTorques s tau z) := by
  intro hh M hM i hi
  have h0 := h hh M hM i hi
  obtain ⟨-, M', hM', hcols⟩ := ht t htm
  rw [hM] at hM'
  cases hM'
  rw [← h0]
  cases htau : t.tauTask with
  | true =>
    refine sum_congr rfl fun j _ => ?_
    simp only [if_true]
    by_cases h6 : j < 6
    · rw [hj t htm hh htau M hM i hi j h6, zero_mul, zero_mul]
    · rw [baseTorques_joint s tau z j (by omega)]
  | false =>
    simp only [Bool.false_eq_true, if_false]
    obtain ⟨c, hc1, hc2, A, hA, hr, hm⟩ := hs t htm hh htau M hM
    have := hy c hc1 hc2 A hA i (by rw [hr]; exact hi)
    rw [hcols]
    rw [sum_congr rfl fun j hj => by rw [← hm i hi j (mem_range.1 hj)], this]
    exact sum_congr rfl fun j hj => by rw [hm i hi j (mem_range.1 hj)]

/-- With a contact for each hard task on accelerations, torques and task accelerations can be chosen freely: some motion has them. -/
theorem task_motion (sqrt : ℝ → ℝ) (r : DynRobot ℝ) (hn : 6 < r.nv) (tasks : List (DTask ℝ)) (contacts : List (Contact ℝ)) (s : DState ℝ)
    (hM : PosDef r.nv (r.mass s.robot)) (hc : ∀ c ∈ contacts, c.active = true → ContactReady r.nv s.robot c)
    (ht : ∀ t ∈ tasks, DTaskReady r.nv s.robot t) (hs : Supported r.nv tasks contacts s.robot) (hj : JointTorques tasks s.robot)
    (hl : s.velocityLimits = false ∧ s.velocityVsTorque = false ∧ s.jointLimits = false) (y0 tau : Nat → ℝ)
    (h : FreeMotion sqrt r tasks s y0 tau) :
    ∃ y tau' ws, Motion sqrt r tasks contacts s y tau' ws ∧ ∀ i, 6 ≤ i → tau' i = tau i := by
  obtain ⟨l2, l3, l4⟩ := hl
  obtain ⟨Js, hJs⟩ := updates_total (N := r.nv) (by omega) (contacts.filter (·.active)) fun c hcm => by
    obtain ⟨h1, h2⟩ := List.mem_filter.1 hcm
    exact hc c h1 h2
  let β : Nat → ℝ := fun i => s.damping * s.robot.qd i +
    (if s.gravityOnly then r.gravity s.robot i else r.nle s.robot i) + (match s.extraForce with | some f => f.v i | none => 0)
  have hmn : fixedColumns s ≤ r.nv := by unfold fixedColumns; split <;> omega
  obtain ⟨y, ws, w1, w2, w3, w4⟩ := task_contacts id WrenchOK (fixedColumns s) r.nv hmn s.robot _ hM (contacts.filter (·.active)) Js _
    (by rw [List.map_id]; exact hJs) (givenWrenches_ok _)
    (fun c _ A hA w => by
      unfold WrenchOK
      simp only [show c.kind = _ from hA]) y0 (fun i => tau i - β i)
  have hrows : ∀ c ∈ contacts, c.active = true → ∀ A, c.kind = .task A → ∀ k, k < (A s.robot).rows →
      ∑ j ∈ range r.nv, (A s.robot).m k j * y j = ∑ j ∈ range r.nv, (A s.robot).m k j * y0 j := fun c h1 h2 A hA k hk =>
    w3 c (List.mem_filter.2 ⟨h1, h2⟩) A hA k hk
  let z : Nat → ℝ := fun i => (∑ j ∈ range r.nv, r.mass s.robot i j * y j) + β i - generalised Js ws i
  refine ⟨y, baseTorques s tau z, ws, ⟨⟨Js, hJs, fun i hi => ?_⟩, w1, fun hb i hi => ?_, fun hb i hi => ?_, fun t htm => ?_, ?_⟩,
    fun i hi => baseTorques_joint s tau z i hi⟩
  · have e : (∑ j ∈ range r.nv, r.mass s.robot i j * y j) + β i = baseTorques s tau z i + generalised Js ws i := by
      by_cases hf : i < fixedColumns s
      · rw [show baseTorques s tau z i = z i from if_pos hf]
        simp only [z]
        ring
      · rw [w4 i (by omega) hi, show baseTorques s tau z i = tau i from if_neg hf]
        ring
    simp only [β] at e
    rw [← add_assoc, ← add_assoc] at e
    exact e
  · rw [baseTorques_base hb]
    exact h.base hb i hi
  · rw [w2 i (by unfold fixedColumns; rw [hb]; exact hi)]
    exact h.fbase hb i hi
  · intro hh M hM' i hi
    exact supported_rhs hs hj ht hrows M.b t htm (fun _ M' hM'' k hk => by
      rw [hM'] at hM''
      cases hM''
      exact h.tasks t htm hh M hM' k hk) hh M hM' i hi
  · refine ⟨fun hh i h6 hi => ?_, fun hh => ?_, fun hh => ?_, fun hh => ?_, fun hh => ?_⟩
    · rw [baseTorques_joint s tau z i h6]
      exact h.limits.torque hh i h6 hi
    · rw [l2] at hh; cases hh
    · rw [l3] at hh; cases hh
    · rw [l4] at hh; cases hh
    · rw [l4] at hh; cases hh

/-- With a contact for each hard task on accelerations, the hard requirements are independent exactly when the rows of the hard tasks are. -/
theorem task_free (r : DynRobot ℝ) (hn : 6 < r.nv) (tasks : List (DTask ℝ)) (contacts : List (Contact ℝ)) (s : DState ℝ)
    (hM : PosDef r.nv (r.mass s.robot)) (hc : ∀ c ∈ contacts, c.active = true → ContactReady r.nv s.robot c)
    (ht : ∀ t ∈ tasks, DTaskReady r.nv s.robot t) (hs : Supported r.nv tasks contacts s.robot) (hj : JointTorques tasks s.robot) :
    MotionFree r tasks contacts s ↔ FreeRows tasks s := by
  constructor
  · intro h rs u hrs
    obtain ⟨y, tau, -, -, -, -, -, h1, h2, h3⟩ := h rs ((contacts.filter (·.active)).map fun c => (c, fun _ => 0)) u hrs
      (by rw [List.map_map]; exact List.map_id _)
    exact ⟨y, tau, h1, h2, h3⟩
  · intro h rs es u hrs hes
    obtain ⟨y0, tau, h1, h2, h3⟩ := h rs u hrs
    obtain ⟨Js, hJs⟩ := updates_total (N := r.nv) (by omega) (contacts.filter (·.active)) fun c hcm => by
      obtain ⟨h1, h2⟩ := List.mem_filter.1 hcm
      exact hc c h1 h2
    have hex : List.Forall₂ (fun (q : Contact ℝ × (Nat → ℝ)) w => ExternalIs q.1 q.2 w) es (es.map Prod.snd) := by
      clear hes
      induction es with
      | nil => exact .nil
      | cons q es ih =>
        refine .cons ?_ ih
        unfold ExternalIs
        split
        · exact fun i _ => rfl
        · trivial
    have hmn : fixedColumns s ≤ r.nv := by unfold fixedColumns; split <;> omega
    obtain ⟨y, ws, w1, w2, w3, w4⟩ := task_contacts Prod.fst (fun (q : Contact ℝ × (Nat → ℝ)) w => ExternalIs q.1 q.2 w) (fixedColumns s)
      r.nv hmn s.robot _ hM es Js _ (by rw [hes]; exact hJs) hex
      (fun q _ A hA w => by
        unfold ExternalIs
        simp only [hA]) y0 tau
    have hrows : ∀ c ∈ contacts, c.active = true → ∀ A, c.kind = .task A → ∀ k, k < (A s.robot).rows →
        ∑ j ∈ range r.nv, (A s.robot).m k j * y j = ∑ j ∈ range r.nv, (A s.robot).m k j * y0 j := fun c c1 c2 A hA k hk => by
      have hce : c ∈ es.map Prod.fst := by
        rw [hes]
        exact List.mem_filter.2 ⟨c1, c2⟩
      obtain ⟨q, hq, rfl⟩ := List.mem_map.1 hce
      exact w3 q hq A hA k hk
    let z : Nat → ℝ := fun i => (∑ j ∈ range r.nv, r.mass s.robot i j * y j) - generalised Js ws i
    refine ⟨y, baseTorques s tau z, ws, Js, hJs, fun i hi => ?_, w1, fun hb i hi => ?_, fun hb i hi => ?_, fun q hq => ?_⟩
    · by_cases hf : i < fixedColumns s
      · rw [show baseTorques s tau z i = z i from if_pos hf]
        simp only [z]
        ring
      · rw [w4 i (by omega) hi, show baseTorques s tau z i = tau i from if_neg hf]
    · rw [baseTorques_base hb]
      exact h1 hb i hi
    · rw [w2 i (by unfold fixedColumns; rw [hb]; exact hi)]
      exact h2 hb i hi
    · exact supported_rhs hs hj ht hrows q.2 q.1 (by rw [← hrs]; exact List.mem_map.2 ⟨q, hq, rfl⟩) (h3 q hq)

/-- **C184, exact.** With a task contact for each hard task on accelerations and a positive definite mass matrix, inverse dynamics without
limits on positions and velocities succeeds exactly when the accelerations of these tasks are possible and the torques asked for by the hard
torque tasks are within the limits, each on its own (and, with `rewrite_equalities`, the rows of the hard tasks are independent): no matter
what the torques, the bias forces and the other contacts are, the contacts bring the forces that are missing. -/
theorem C184_exact (env : DEnv ℝ) (r : DynRobot ℝ) (hn : 6 < r.nv) (tasks : List (DTask ℝ)) (contacts : List (Contact ℝ)) (integrate : Bool)
    (s : DState ℝ) (hM : PosDef r.nv (r.mass s.robot)) (hc : ∀ c ∈ contacts, c.active = true → ContactReady r.nv s.robot c)
    (ht : ∀ t ∈ tasks, DTaskReady r.nv s.robot t) (hs : Supported r.nv tasks contacts s.robot) (hj : JointTorques tasks s.robot)
    (hl : s.velocityLimits = false ∧ s.velocityVsTorque = false ∧ s.jointLimits = false)
    (hw : ∀ t ∈ tasks, t.priority = .soft → 0 ≤ t.weight) (htc : 0 ≤ s.torqueCost)
    (hx : ∀ f, s.extraForce = some f → f.size = r.nv) (hdt : integrate = true → s.dt ≠ 0)
    (hreg : 0 < env.regularization) (htol : 0 ≤ env.tol) (hex : env.toQPEnv.Exact) :
    (∃ res, (solve env r tasks contacts [] integrate s).2 = .ok res ∧ res.success = true) ↔
      (∃ y tau, FreeMotion env.sqrt r tasks s y tau) ∧ (env.rewriteEqualities = true → FreeRows tasks s) := by
  have hdt' : s.jointLimits = true ∨ s.velocityLimits = true ∨ s.velocityVsTorque = true ∨ integrate = true → s.dt ≠ 0 := by
    obtain ⟨l2, l3, l4⟩ := hl
    rintro (h | h | h | h)
    · rw [l4] at h; cases h
    · rw [l2] at h; cases h
    · rw [l3] at h; cases h
    · exact hdt h
  rw [(C166_exact env r hn tasks contacts integrate s hc ht hw htc hx hdt' hreg htol hex).1, task_free r hn tasks contacts s hM hc ht hs hj]
  refine and_congr_left fun _ => ⟨?_, ?_⟩
  · rintro ⟨y, tau, ws, h⟩
    exact ⟨y, tau, h.base, h.fbase, h.tasks, h.limits⟩
  · rintro ⟨y, tau, h⟩
    obtain ⟨y', tau', ws, h', -⟩ := task_motion env.sqrt r hn tasks contacts s hM hc ht hs hj hl y tau h
    exact ⟨y', tau', ws, h'⟩

/-! ## A robot that lifts itself -/

/-- A hard task asking for the acceleration 1 of the base of the hinge, upwards. -/
noncomputable def liftTask : DTask ℝ :=
  { priority := .hard, weight := 1, update := fun _ => .ok ⟨1, 7, fun _ j => if j = 2 then 1 else 0, fun _ => 1⟩ }

/-- A puppet contact. -/
noncomputable def puppetContact : Contact ℝ := ⟨.puppet, true, 1, 0, 0, 0⟩

/-- The task contact of `liftTask`. -/
noncomputable def liftContact : Contact ℝ := ⟨.task fun _ => ⟨1, 7, fun _ j => if j = 2 then 1 else 0⟩, true, 1, 0, 0, 0⟩

theorem lift_ready : ∀ t ∈ [liftTask], DTaskReady hingeDyn.nv hingeDState.robot t := by
  intro t ht
  rw [List.mem_singleton.1 ht]
  exact ⟨by simp [liftTask], _, rfl, rfl⟩

theorem lift_rows : FreeRows [liftTask] hingeDState := by
  intro rs u hrs
  obtain ⟨q, l, rfl, hq, hl⟩ := List.map_eq_cons_iff.1 hrs
  rw [List.map_eq_nil_iff.1 hl]
  refine ⟨fun _ => q.2 0, u, fun _ _ _ => rfl, fun h => (by cases h), fun q' hq' hh M hM i hi => ?_⟩
  rw [List.mem_singleton.1 hq'] at hM ⊢
  rw [hq] at hM ⊢
  cases hM
  have hi0 : i = 0 := Nat.lt_one_iff.1 hi
  subst hi0
  simp [liftTask]

theorem lift_motion (sqrt : ℝ → ℝ) : FreeMotion sqrt hingeDyn [liftTask]
    { hingeDState with jointLimits := false, velocityLimits := false, velocityVsTorque := false } (fun _ => 1) fun _ => 0 := by
  refine ⟨fun _ _ _ => rfl, fun h => (by cases h), fun t ht hh M hM i hi => ?_, fun _ i _ _ => ?_, fun h => (by cases h), fun h => (by cases h),
    fun h => (by cases h), fun h => (by cases h)⟩
  · rw [List.mem_singleton.1 ht] at hM ⊢
    cases hM
    simp [liftTask]
  · simp [hingeDyn, hingeDState]

/-- The hinge, that touches nothing, cannot lift itself; with a puppet contact or with the contact of the task, it does. -/
theorem C184_lift (env : DEnv ℝ) (hreg : 0 < env.regularization) (htol : 0 ≤ env.tol) (hex : env.toQPEnv.Exact) :
    let s := { hingeDState with jointLimits := false, velocityLimits := false, velocityVsTorque := false }
    (∀ res, (solve env hingeDyn [liftTask] [] [] false s).2 = .ok res → res.success = false) ∧
    (∃ res, (solve env hingeDyn [liftTask] [puppetContact] [] false s).2 = .ok res ∧ res.success = true) ∧
    ∃ res, (solve env hingeDyn [liftTask] [liftContact] [] false s).2 = .ok res ∧ res.success = true := by
  intro s
  have hw : ∀ t ∈ [liftTask], t.priority = .soft → 0 ≤ t.weight := by
    intro t ht h
    rw [List.mem_singleton.1 ht] at h
    cases h
  refine ⟨fun res hres => ?_, ?_, ?_⟩
  · by_contra hsucc
    obtain ⟨⟨y, tau, ws, h⟩, -⟩ := (C166_exact env hingeDyn (by decide) [liftTask] [] false s (by simp) lift_ready hw zero_le_one
      (fun f h => (by cases h)) (by rintro (h | h | h | h) <;> cases h) hreg htol hex).1.1 ⟨res, hres, by simpa using hsucc⟩
    have h1 := h.tasks liftTask List.mem_cons_self rfl _ rfl 0 Nat.zero_lt_one
    obtain ⟨Js, hJs, hd⟩ := h.dynamics
    cases hJs
    have h2 := hd 2 (by decide)
    rw [hinge_mass_mul _ _ 2 (by decide), h.base rfl 2 (by decide)] at h2
    simp [s, hingeDState, hingeDyn, generalised] at h2
    simp [liftTask, h2] at h1
  · exact (C183_exact env hingeDyn (by decide) [liftTask] [puppetContact] false s
      (fun c hc _ => by rw [List.mem_singleton.1 hc]; trivial) ⟨puppetContact, List.mem_cons_self, rfl, rfl⟩ lift_ready hw zero_le_one
      (fun f h => (by cases h)) (by rintro (h | h | h | h) <;> cases h) hreg htol hex).2 ⟨⟨_, _, lift_motion env.sqrt⟩, fun _ => lift_rows⟩
  · refine (C184_exact env hingeDyn (by decide) [liftTask] [liftContact] false s (hinge_mass _)
      (fun c hc _ => by rw [List.mem_singleton.1 hc]; exact ⟨Nat.zero_lt_one, rfl⟩) lift_ready (fun t ht hh htau M hM => ?_)
      (fun t ht hh htau => ?_) ⟨rfl, rfl, rfl⟩ hw zero_le_one (fun f h => (by cases h)) (fun h => (by cases h)) hreg htol hex).2
      ⟨⟨_, _, lift_motion env.sqrt⟩, fun _ => lift_rows⟩
    · rw [List.mem_singleton.1 ht] at hM
      cases hM
      exact ⟨liftContact, List.mem_cons_self, rfl, _, rfl, rfl, fun _ _ _ _ => rfl⟩
    · rw [List.mem_singleton.1 ht] at htau
      cases htau

end Verif.Dynamics
