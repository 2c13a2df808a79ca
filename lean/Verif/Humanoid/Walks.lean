import Verif.Humanoid.PlanCostProps
import Verif.Problem.ConvexProps
import Verif.Problem.QRExists

/-! When `plan_com` finds a plan: specification of the walks it looks for, and their correspondence with the jerks that satisfy the
hard constraints. -/

namespace Verif.Humanoid

open Verif.Tools Verif.Problem Verif.Robot

/-! ## Specification -/

/-- The CoM after a constant jerk `u` during `dt`. -/
noncomputable def pushed (dt : ℝ) (u : V2) (c : ComState) : ComState where
  pos := ⟨c.pos.x + dt * c.vel.x + dt ^ 2 / 2 * c.acc.x + dt ^ 3 / 6 * u.x, c.pos.y + dt * c.vel.y + dt ^ 2 / 2 * c.acc.y + dt ^ 3 / 6 * u.y⟩
  vel := ⟨c.vel.x + dt * c.acc.x + dt ^ 2 / 2 * u.x, c.vel.y + dt * c.acc.y + dt ^ 2 / 2 * u.y⟩
  acc := ⟨c.acc.x + dt * u.x, c.acc.y + dt * u.y⟩

/-- The CoM after the first `k` of the jerks `u`, each during `dt`. -/
noncomputable def pushedBy (dt : ℝ) (u : Nat → V2) (c : ComState) : Nat → ComState
  | 0 => c
  | k + 1 => pushed dt (u k) (pushedBy dt u c k)

/-- The ZMP of the linear inverted pendulum. -/
noncomputable def zmpOf (omega2 : ℝ) (c : ComState) : V2 := ⟨c.pos.x - c.acc.x / omega2, c.pos.y - c.acc.y / omega2⟩

/-- What is asked of the CoM during a support: the ZMP is inside the polygon by the margin at the end of every timestep, and if this is
an end support the CoM is finally at rest above the support frame. -/
def Keeps (g : Wpg) (s : Support) (tr : Nat → ComState) : Prop :=
  (∀ k, 1 ≤ k → k ≤ g.timesteps s → InsideBy g.p.zmpMargin (s.supportPolygon g.hull).2 (zmpOf g.omega2 (tr k))) ∧
  (s.isEnd = true → ∃ f, s.frame g.slerp = .ok f ∧ tr (g.timesteps s) = ⟨⟨f.translation 0, f.translation 1⟩, ⟨0, 0⟩, ⟨0, 0⟩⟩)

/-- The CoM can go from `c` to `c'` over the supports, with jerks constant during each timestep, each support being as `ok` asks. -/
def Walks (g : Wpg) (ok : Support → (Nat → ComState) → Prop) : ComState → List Support → ComState → Prop
  | c, [], c' => c' = c
  | c, s :: ss, c' => ∃ u : Nat → V2, ok s (pushedBy (g.duration s / g.timesteps s) u c) ∧
      Walks g ok (pushedBy (g.duration s / g.timesteps s) u c (g.timesteps s)) ss c'

/-! ## The states of the LIPM -/

noncomputable def lipmState (l : Lipm) (sol : Nat → ℝ) (k : Nat) : ComState := ⟨l.stateAt sol k 0, l.stateAt sol k 1, l.stateAt sol k 2⟩

noncomputable def lipmJerk (l : Lipm) (sol : Nat → ℝ) (k : Nat) : V2 := ⟨inputs l.x sol k, inputs l.y sol k⟩

/-- The state from which a part starts. -/
noncomputable def startOf (init : ComState) (prev : Option Lipm) (sol : Nat → ℝ) : ComState :=
  match prev with
  | none => init
  | some l => lipmState l sol l.timesteps

/-- The last LIPM. -/
def lastLipm (prev : Option Lipm) (ps : List Planned) : Option Lipm := ps.foldl (fun _ p => some p.lipm) prev

theorem starts_startOf {init : ComState} {prev : Option Lipm} {l : Lipm} (h : Starts init prev l) (sol : Nat → ℝ) :
    lipmState l sol 0 = startOf init prev sol := by
  cases prev with
  | none =>
    obtain ⟨h0, h1, h2⟩ := h sol
    simp only [lipmState, startOf, h0, h1, h2]
  | some p =>
    have h := h sol
    simp only [lipmState, startOf, h 0 (by omega), h 1 (by omega), h 2 (by omega)]

theorem lipmState_pushed {l : Lipm} (h : LipmOK l) (sol : Nat → ℝ) (k : Nat) :
    lipmState l sol k = pushedBy l.dt (lipmJerk l sol) (lipmState l sol 0) k := by
  induction k with
  | zero => rfl
  | succ k ih =>
    unfold pushedBy
    rw [← ih]
    simp only [lipmState, Lipm.stateAt, pushed, lipmJerk, axisState_succ h.x sol k _ (by omega : 0 < 3),
      axisState_succ h.x sol k _ (by omega : 1 < 3), axisState_succ h.x sol k _ (by omega : 2 < 3),
      axisState_succ h.y sol k _ (by omega : 0 < 3), axisState_succ h.y sol k _ (by omega : 1 < 3),
      axisState_succ h.y sol k _ (by omega : 2 < 3), motion]

theorem pushedBy_congr (dt : ℝ) (u u' : Nat → V2) (c : ComState) (k : Nat) (h : ∀ j, j < k → u j = u' j) :
    pushedBy dt u c k = pushedBy dt u' c k := by
  induction k with
  | zero => rfl
  | succ k ih =>
    unfold pushedBy
    rw [ih fun j hj => h j (by omega), h k (by omega)]

/-- The state from which a part starts only depends on the variables of the previous parts. -/
def Below (init : ComState) (prev : Option Lipm) (n : Nat) : Prop :=
  ∀ sol sol' : Nat → ℝ, (∀ k, k < n → sol k = sol' k) → startOf init prev sol = startOf init prev sol'

theorem lipmState_below {g : Wpg} {init : ComState} {prev : Option Lipm} {n : Nat} {s : Support} {l : Lipm} (hb : Below init prev n)
    (hs : Starts init prev l) (ok : LipmOK l) (hm : l.timesteps = g.timesteps s)
    (hx : l.x.var = ⟨n, n + g.timesteps s⟩) (hy : l.y.var = ⟨n + g.timesteps s, n + g.timesteps s + g.timesteps s⟩)
    (sol sol' : Nat → ℝ) (h : ∀ k, k < n + g.timesteps s + g.timesteps s → sol k = sol' k) (k : Nat) (hk : k ≤ l.timesteps) :
    lipmState l sol k = lipmState l sol' k := by
  rw [lipmState_pushed ok sol, lipmState_pushed ok sol', starts_startOf hs, starts_startOf hs, hb sol sol' fun k hk => h k (by omega)]
  refine pushedBy_congr _ _ _ _ _ fun j hj => ?_
  simp only [lipmJerk, inputs, hx, hy]
  rw [h _ (by omega), h _ (by omega)]

/-- The jerks of a plan are a walk. -/
theorem chained_walks {g : Wpg} {init : ComState} {prev : Option Lipm} {t : ℝ} {n : Nat} {ss : List Support} {ps : List Planned}
    {n' : Nat} {te : ℝ} (h : Chained g init prev t n ss ps n' te) (ok : Support → (Nat → ComState) → Prop)
    (sol : Nat → ℝ) (hok : List.Forall₂ (fun s p => ok s (lipmState p.lipm sol)) ss ps) :
    Walks g ok (startOf init prev sol) ss (startOf init (lastLipm prev ps) sol) := by
  induction h with
  | nil prev t n => rfl
  | cons prev t n s ss l cs ps n' te hs lok hdt hm ht hx hy hc rest ih =>
    rw [List.forall₂_cons] at hok
    have e : lipmState l sol = pushedBy (g.duration s / g.timesteps s) (lipmJerk l sol) (startOf init prev sol) := by
      funext k
      rw [← starts_startOf hs, ← hdt]
      exact lipmState_pushed lok sol k
    refine ⟨lipmJerk l sol, by rw [← e]; exact hok.1, ?_⟩
    have := ih hok.2
    have e' : startOf init (some l) sol = lipmState l sol (g.timesteps s) := by rw [← hm]; rfl
    rw [e', e] at this
    exact this

/-- Every walk is given by some jerks. -/
theorem walks_chained {g : Wpg} {init : ComState} {prev : Option Lipm} {t : ℝ} {n : Nat} {ss : List Support} {ps : List Planned}
    {n' : Nat} {te : ℝ} (h : Chained g init prev t n ss ps n' te) (ok : Support → (Nat → ComState) → Prop)
    (hok : ∀ s tr tr', (∀ k, k ≤ g.timesteps s → tr k = tr' k) → ok s tr → ok s tr') :
    ∀ (sol : Nat → ℝ) (c' : ComState), Below init prev n → Walks g ok (startOf init prev sol) ss c' →
      ∃ sol', (∀ k, k < n → sol' k = sol k) ∧ List.Forall₂ (fun s p => ok s (lipmState p.lipm sol')) ss ps ∧
        startOf init (lastLipm prev ps) sol' = c' := by
  induction h with
  | nil prev t n =>
    intro sol c' _ hw
    exact ⟨sol, fun _ _ => rfl, .nil, hw.symm⟩
  | cons prev t n s ss l cs ps n' te hs lok hdt hm ht hx hy hc rest ih =>
    rintro sol c' hb ⟨u, hu, hw⟩
    let sol1 : Nat → ℝ := fun k => if k < n then sol k else if k < n + g.timesteps s then (u (k - n)).x else (u (k - (n + g.timesteps s))).y
    have e1 : ∀ k, k ≤ g.timesteps s → lipmState l sol1 k = pushedBy (g.duration s / g.timesteps s) u (startOf init prev sol) k := by
      intro k hk
      rw [lipmState_pushed lok, starts_startOf hs, hdt]
      rw [hb sol1 sol fun k hk => by simp only [sol1, if_pos hk]]
      refine pushedBy_congr _ _ _ _ _ fun j hj => ?_
      simp only [lipmJerk, inputs, hx, hy, sol1]
      rw [if_neg (by omega), if_pos (by omega), if_neg (by omega), if_neg (by omega)]
      simp
    have hb' : Below init (some l) (n + g.timesteps s + g.timesteps s) := fun a b hab =>
      lipmState_below hb hs lok hm hx hy a b hab l.timesteps le_rfl
    have hst : startOf init (some l) sol1 = pushedBy (g.duration s / g.timesteps s) u (startOf init prev sol) (g.timesteps s) := by
      unfold startOf
      simp only [hm]
      exact e1 _ le_rfl
    obtain ⟨sol', h1, h2, h3⟩ := ih sol1 c' hb' (by rw [hst]; exact hw)
    refine ⟨sol', fun k hk => ?_, ?_, h3⟩
    · rw [h1 k (by omega)]
      simp only [sol1, if_pos hk]
    · refine .cons (hok s _ _ (fun k hk => ?_) hu) h2
      rw [lipmState_below hb hs lok hm hx hy sol' sol1 h1 k (by omega), e1 k hk]

theorem keeps_congr (g : Wpg) (s : Support) (tr tr' : Nat → ComState) (h : ∀ k, k ≤ g.timesteps s → tr k = tr' k)
    (hk : Keeps g s tr) : Keeps g s tr' :=
  ⟨fun k h1 h2 => by rw [← h k h2]; exact hk.1 k h1 h2, fun he => by rw [← h _ le_rfl]; exact hk.2 he⟩

/-! ## The constraints -/

/-- The weights that can be given to `plan_com`. -/
structure Weighted (g : Wpg) : Prop where
  reference : 0 ≤ g.p.zmpReferenceWeight
  inSupport : g.soft = true → 0 < g.zmpInSupportWeight
  stop : g.soft = true → 0 ≤ g.stopEndSupportWeight

theorem constrainLoop_hard (g : Wpg) (l : Lipm) (h : LipmOK l) (s : Support) (hs : Stands s) :
    ∀ count k : Nat, k + count = l.timesteps + 1 → ∃ cs, g.constrainLoop l s count k = .ok cs ∧
      (Weighted g → ∀ c ∈ cs, c.priority = .soft → 0 ≤ c.weight ∧ (c.ty = .inequality → 0 < c.weight)) ∧
      (g.soft = true → ∀ c ∈ cs, c.priority = .soft) ∧
      (g.soft = false → NoRepeat (s.supportPolygon g.hull).2 → ∀ sol,
        (∀ j, k ≤ j → j ≤ l.timesteps → InsideBy g.p.zmpMargin (s.supportPolygon g.hull).2 (zmpAt l g.omega2 j sol)) →
        (s.isEnd = true → ∃ f, s.frame g.slerp = .ok f ∧
          l.stateAt sol l.timesteps 0 = ⟨f.translation 0, f.translation 1⟩ ∧
          l.stateAt sol l.timesteps 1 = ⟨0, 0⟩ ∧ l.stateAt sol l.timesteps 2 = ⟨0, 0⟩) →
        ∀ c ∈ cs, c.priority = .hard → c.Sat sol) := by
  intro count
  induction count with
  | zero =>
    intro k hk
    exact ⟨[], rfl, fun _ c hc => absurd hc List.not_mem_nil, fun _ c hc => absurd hc List.not_mem_nil,
      fun _ _ _ _ _ c hc => absurd hc List.not_mem_nil⟩
  | succ count ih =>
    intro k hk
    obtain ⟨rest, hrest, rw', rsoft, rconv⟩ := ih (k + 1) (by omega)
    obtain ⟨c, r, hz, c1, c2, -, c4, r1, r2, -⟩ := constrainZmp_spec g l h s hs k (by omega)
    have hend : ∃ es, g.constrainEnd l s k = .ok es ∧
        (Weighted g → ∀ c ∈ es, c.priority = .soft → 0 ≤ c.weight ∧ (c.ty = .inequality → 0 < c.weight)) ∧
        (g.soft = true → ∀ c ∈ es, c.priority = .soft) ∧
        (g.soft = false → ∀ sol, (s.isEnd = true → ∃ f, s.frame g.slerp = .ok f ∧
          l.stateAt sol l.timesteps 0 = ⟨f.translation 0, f.translation 1⟩ ∧
          l.stateAt sol l.timesteps 1 = ⟨0, 0⟩ ∧ l.stateAt sol l.timesteps 2 = ⟨0, 0⟩) →
          ∀ c ∈ es, c.priority = .hard → c.Sat sol) := by
      unfold Wpg.constrainEnd
      by_cases hc : s.isEnd = true ∧ k = l.timesteps
      · rw [if_pos hc]
        obtain ⟨f, a, b, d, hf, hst, ⟨t1, t2, t3⟩, ⟨p1, p2, p3⟩, hsat, -⟩ := constrainStop_spec g l h s hs k (by omega)
        have key : ∀ x ∈ [softenIf g.soft g.stopEndSupportWeight a, softenIf g.soft g.stopEndSupportWeight b,
            softenIf g.soft g.stopEndSupportWeight d], ∃ y, (y = a ∨ y = b ∨ y = d) ∧ x = softenIf g.soft g.stopEndSupportWeight y ∧
            y.ty = .equality ∧ y.priority = .hard := by
          intro x hx
          simp only [List.mem_cons, List.not_mem_nil, or_false] at hx
          rcases hx with rfl | rfl | rfl
          · exact ⟨a, .inl rfl, rfl, t1, p1⟩
          · exact ⟨b, .inr (.inl rfl), rfl, t2, p2⟩
          · exact ⟨d, .inr (.inr rfl), rfl, t3, p3⟩
        refine ⟨_, hst, ?_, ?_, ?_⟩
        · intro hw x hx hp
          obtain ⟨y, -, rfl, ty, py⟩ := key x hx
          by_cases hsoft : g.soft = true
          · rw [hsoft] at hp ⊢
            refine ⟨hw.stop hsoft, fun ht => ?_⟩
            have : y.ty = .inequality := ht
            rw [ty] at this; cases this
          · have : softenIf g.soft g.stopEndSupportWeight y = y := by simp [softenIf, hsoft]
            rw [this, py] at hp; cases hp
        · intro hsoft x hx
          obtain ⟨y, -, rfl, -⟩ := key x hx
          rw [hsoft]; rfl
        · intro h0 sol he x hx hp
          obtain ⟨y, hy, rfl, -⟩ := key x hx
          have : softenIf g.soft g.stopEndSupportWeight y = y := by simp [softenIf, h0]
          rw [this]
          obtain ⟨f', hf', e1, e2, e3⟩ := he hc.1
          rw [hf] at hf'
          cases hf'
          obtain ⟨s1, s2, s3⟩ := hsat sol
          rw [hc.2] at s1 s2 s3
          rcases hy with rfl | rfl | rfl
          · exact s1.2 e1
          · exact s2.2 e2
          · exact s3.2 e3
      · rw [if_neg hc]
        exact ⟨[], rfl, fun _ c hc => absurd hc List.not_mem_nil, fun _ c hc => absurd hc List.not_mem_nil,
          fun _ _ _ c hc => absurd hc List.not_mem_nil⟩
    obtain ⟨es, hes, ew, esoft, econv⟩ := hend
    refine ⟨([softenIf g.soft g.zmpInSupportWeight c, r.configureP .soft g.p.zmpReferenceWeight] ++ es) ++ rest, ?_, ?_, ?_, ?_⟩
    · unfold Wpg.constrainLoop Wpg.constrainStep
      simp only [hz, hes, hrest, Bind.bind, Except.bind]
    · intro hw x hx hp
      simp only [List.cons_append, List.nil_append, List.mem_cons, List.mem_append] at hx
      rcases hx with rfl | rfl | hx | hx
      · by_cases hsoft : g.soft = true
        · rw [hsoft]
          exact ⟨(hw.inSupport hsoft).le, fun _ => hw.inSupport hsoft⟩
        · have : softenIf g.soft g.zmpInSupportWeight c = c := by simp [softenIf, hsoft]
          rw [this, c2] at hp; cases hp
      · refine ⟨hw.reference, fun ht => ?_⟩
        have : r.ty = .inequality := ht
        rw [r1] at this; cases this
      · exact ew hw x hx hp
      · exact rw' hw x hx hp
    · intro hsoft x hx
      simp only [List.cons_append, List.nil_append, List.mem_cons, List.mem_append] at hx
      rcases hx with rfl | rfl | hx | hx
      · rw [hsoft]; rfl
      · rfl
      · exact esoft hsoft x hx
      · exact rsoft hsoft x hx
    · intro h0 hn sol hin he x hx hp
      simp only [List.cons_append, List.nil_append, List.mem_cons, List.mem_append] at hx
      rcases hx with rfl | rfl | hx | hx
      · have : softenIf g.soft g.zmpInSupportWeight c = c := by simp [softenIf, h0]
        rw [this]
        exact (c4 hn sol).2 (hin k le_rfl (by omega))
      · cases hp
      · exact econv h0 sol he x hx hp
      · exact rconv h0 hn sol (fun j h1 h2 => hin j (by omega) h2) he x hx hp

theorem zmpAt_state (l : Lipm) (omega2 : ℝ) (k : Nat) (sol : Nat → ℝ) : zmpAt l omega2 k sol = zmpOf omega2 (lipmState l sol k) := rfl

/-- The constraints of a part. -/
theorem part_keeps (g : Wpg) (h0 : g.soft = false) (l : Lipm) (h : LipmOK l) (s : Support) (hs : Stands s) (t : ℝ)
    (hn : NoRepeat (s.supportPolygon g.hull).2) (hm : l.timesteps = g.timesteps s) (cs : List (Constr ℝ))
    (hc : g.constrainLipm l (stamped s t) = .ok cs) (sol : Nat → ℝ) : HardSat cs sol ↔ Keeps g s (lipmState l sol) := by
  have hs' : Stands (stamped s t) := (stamped_stands _ _).2 hs
  have hfr : (stamped s t).frame g.slerp = s.frame g.slerp := by unfold stamped; split <;> rfl
  obtain ⟨cs1, e1, -, -, hin, -⟩ := constrainLoop_spec g l h _ hs' l.timesteps 1 (by omega)
  obtain ⟨cs2, e2, -, -, hconv⟩ := constrainLoop_hard g l h _ hs' l.timesteps 1 (by omega)
  have hc' : g.constrainLoop l (stamped s t) l.timesteps 1 = .ok cs := hc
  rw [hc'] at e1 e2
  cases e1
  cases e2
  rw [stamped_polygon, stamped_isEnd, hfr] at hin hconv
  constructor
  · intro hsat
    obtain ⟨a, b⟩ := hin h0 sol hsat
    refine ⟨fun k h1 h2 => a hn k h1 (by omega), fun he => ?_⟩
    obtain ⟨f, hf, f1, f2, f3⟩ := b he (by rw [hm]; exact timesteps_pos g s)
    refine ⟨f, hf, ?_⟩
    rw [← hm]
    simp only [lipmState, f1, f2, f3]
  · rintro ⟨a, b⟩
    refine hconv h0 hn sol (fun j h1 h2 => a j h1 (by omega)) fun he => ?_
    obtain ⟨f, hf, e⟩ := b he
    rw [← hm, lipmState, ComState.mk.injEq] at e
    exact ⟨f, hf, e⟩

theorem chained_keeps {g : Wpg} (h0 : g.soft = false) {init : ComState} {prev : Option Lipm} {t : ℝ} {n : Nat} {ss : List Support}
    {ps : List Planned} {n' : Nat} {te : ℝ} (h : Chained g init prev t n ss ps n' te)
    (hs : ∀ s ∈ ss, Stands s ∧ NoRepeat (s.supportPolygon g.hull).2) (sol : Nat → ℝ) :
    HardSat (ps.map Planned.cs).flatten sol ↔ List.Forall₂ (fun s p => Keeps g s (lipmState p.lipm sol)) ss ps := by
  induction h with
  | nil prev t n => simp [HardSat]
  | cons prev t n s ss l cs ps n' te hst lok hdt hm ht hx hy hc rest ih =>
    have := ih fun s h => hs s (List.mem_cons_of_mem _ h)
    obtain ⟨h1, h2⟩ := hs s List.mem_cons_self
    rw [List.forall₂_cons, ← this, ← part_keeps g h0 l lok s h1 t h2 hm cs hc sol]
    simp only [HardSat, List.map_cons, List.flatten_cons, List.mem_append]
    exact ⟨fun h => ⟨fun c hc => h c (.inl hc), fun c hc => h c (.inr hc)⟩, fun h c hc => hc.elim (h.1 c) (h.2 c)⟩

/-- Some jerks satisfy the hard constraints if and only if there is a walk. -/
theorem hardSat_walks {g : Wpg} (h0 : g.soft = false) {init : ComState} {t : ℝ} {ss : List Support}
    {ps : List Planned} {n' : Nat} {te : ℝ} (h : Chained g init none t 0 ss ps n' te)
    (hs : ∀ s ∈ ss, Stands s ∧ NoRepeat (s.supportPolygon g.hull).2) :
    (∃ sol, HardSat (ps.map Planned.cs).flatten sol) ↔ ∃ c', Walks g (Keeps g) init ss c' := by
  constructor
  · rintro ⟨sol, hsol⟩
    exact ⟨_, chained_walks h (Keeps g) sol ((chained_keeps h0 h hs sol).1 hsol)⟩
  · rintro ⟨c', hw⟩
    obtain ⟨sol, -, h2, -⟩ := walks_chained h (Keeps g) (keeps_congr g) (fun _ => 0) c' (fun _ _ _ => rfl) hw
    exact ⟨sol, (chained_keeps h0 h hs sol).2 h2⟩

end Verif.Humanoid
