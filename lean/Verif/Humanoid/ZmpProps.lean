/-
Properties C108 and C109 of `constrain_lipm` and `plan_com`: the ZMP stays in the support polygons, the robot stops at
the end, and the problem built is always well formed.
-/
import Verif.Humanoid.PlanProps
import Verif.Problem.ProblemQPProps
import Verif.Problem.ProblemSolveProps

namespace Verif.Humanoid
open Verif.Problem Verif.Tools Verif.Robot

/-! ## The constraints of one timestep -/

/-- Specification: a point is in a polygon, at a distance of at least `margin` from the line of every edge, on its
right. -/
def InsideBy (margin : ℝ) (polygon : List V2) (p : V2) : Prop :=
  ∀ i, i < polygon.length →
    margin ≤ signedDistance (vertex (polygon.map fun v => (v.x, v.y)) i)
      (vertex (polygon.map fun v => (v.x, v.y)) ((i + 1) % polygon.length)) (p.x, p.y)

/-- No two consecutive vertices are the same. -/
def NoRepeat (polygon : List V2) : Prop :=
  ∀ i, i < polygon.length → vertex (polygon.map fun v => (v.x, v.y)) i ≠
    vertex (polygon.map fun v => (v.x, v.y)) ((i + 1) % polygon.length)

theorem add_cols {a b e : Expr ℝ} (h : a.add b = .ok e) : e.cols ≤ max a.cols b.cols := by
  unfold Expr.add at h
  split at h
  · cases h; exact le_max_right _ _
  · split at h
    · cases h; exact le_max_left _ _
    · split at h
      · cases h
      · cases h; exact le_refl _

theorem polygon_cols {e : Expr ℝ} {polygon : List P2} {margin : ℝ} {c : Constr ℝ}
    (h : inPolygonXY e polygon margin = .ok c) : c.expr.cols ≤ e.cols ∧ c.brows = c.expr.rows := by
  unfold inPolygonXY at h
  split at h
  · cases h
  · revert h
    cases (List.range polygon.length).mapM fun i =>
      edgeValue e (vertex polygon i) (vertex polygon ((i + 1) % polygon.length)) margin with
    | error e' => intro h; cases h
    | ok rows =>
      intro h
      simp only [Bind.bind, Except.bind, Expr.geDouble, Expr.ge] at h
      split at h
      · cases h
      · rename_i d hd
        cases h
        refine ⟨?_, rfl⟩
        have := add_cols hd
        simpa [Expr.smul, Expr.fromDouble] using this

/-- `expr == vector`, for two rows. -/
theorem eqVec_spec (e : Expr ℝ) (he : e.rows = 2) (x y : ℝ) :
    ∃ c, e.eqVec (vec2 x y) = .ok c ∧ c.ty = .equality ∧ c.priority = .hard ∧ c.expr.rows = 2 ∧ c.brows = 2 ∧
      c.expr.cols ≤ e.cols ∧ ∀ sol, c.Sat sol ↔ pointAt e sol = ⟨x, y⟩ := by
  obtain ⟨d, hd, hr, hv⟩ := add_rows_eq e ((Expr.fromVector (vec2 x y)).smul (-1)) (by rw [he]; rfl)
  have hc : d.cols ≤ e.cols := by
    have := add_cols hd
    simpa [Expr.smul, Expr.fromVector] using this
  refine ⟨{ expr := d, weight := 1 }, ?_, rfl, rfl, by rw [← he]; exact hr, by rw [← he]; exact hr, hc, fun sol => ?_⟩
  · unfold Expr.eqVec Expr.eq Expr.sub
    rw [hd]
    rfl
  · have e0 := hv sol 0 (by omega)
    have e1 := hv sol 1 (by omega)
    have w : ∀ i, ((Expr.fromVector (vec2 x y)).smul (-1)).rowVal sol i = -(if i = 0 then x else y) := by
      intro i
      simp [Expr.rowVal, Expr.smul, Expr.fromVector, vec2]
    rw [w] at e0 e1
    simp only [if_true, one_ne_zero, if_false] at e0 e1
    show (∀ i, i < d.rows → d.rowVal sol i = 0) ↔ _
    unfold pointAt
    rw [V2.mk.injEq, hr, he]
    constructor
    · intro h
      have a := h 0 (by omega)
      have b := h 1 (by omega)
      constructor <;> linarith
    · rintro ⟨a, b⟩ i hi
      have : i = 0 ∨ i = 1 := by omega
      rcases this with rfl | rfl
      · rw [e0, a]; ring
      · rw [e1, b]; ring

/-- One or two footsteps. -/
def Stands (s : Support) : Prop := s.footsteps.length = 1 ∨ s.footsteps.length = 2

theorem Stands.frame {s : Support} (h : Stands s) (slerp : M3 → M3 → ℝ → M3) : ∃ f, s.frame slerp = .ok f := by
  unfold Support.frame
  cases hf : s.footsteps with
  | nil => rcases h with h | h <;> rw [hf] at h <;> cases h
  | cons a l => exact ⟨_, rfl⟩

theorem Stands.offset {s : Support} (h : Stands s) (g : Wpg) : ∃ o, g.zmpOffset s = .ok o := by
  unfold Wpg.zmpOffset Support.isBoth Support.side
  rcases h with h | h
  · rw [h, if_neg (by decide), if_neg (by decide)]
    cases hf : s.footsteps with
    | nil => rw [hf] at h; cases h
    | cons a l => exact ⟨_, rfl⟩
  · rw [h, if_pos (by decide)]
    exact ⟨_, rfl⟩

/-- A constraint the problem accepts: its columns are variables of the problem, and it has a row. -/
def Fits (n : Nat) (c : Constr ℝ) : Prop := c.expr.cols ≤ n ∧ 0 < c.expr.rows ∧ c.brows = c.expr.rows

theorem Fits.configureP {n : Nat} {c : Constr ℝ} (h : Fits n c) (p : Verif.Problem.Priority) (w : ℝ) : Fits n (c.configureP p w) := h

theorem Fits.soften {n : Nat} {c : Constr ℝ} (h : Fits n c) (b : Bool) (w : ℝ) : Fits n (softenIf b w c) := by
  unfold softenIf
  split
  · exact h
  · exact h

/-- The number of columns of the expressions of an axis. -/
theorem axis_cols {I : Integrator ℝ} {k d : Int} {e : Expr ℝ} (hd : d ≠ I.order) (h : I.expr k d = .ok e) :
    e.cols ≤ max I.var.kEnd I.X0.cols := by
  unfold Integrator.expr at h
  cases hc : checkDiff I.order d true with
  | error e' => rw [hc] at h; cases h
  | ok u =>
    rw [hc] at h
    simp only [Bind.bind, Except.bind] at h
    generalize hstep : (if k = -1 then (I.var.size : Int) else k) = step at h
    split at h
    · cases h
    · split at h
      · cases hp : Expr.matMul ⟨I.order, I.order, I.aPowers step.toNat⟩ I.X0 with
        | error e' => rw [hp] at h; cases h
        | ok p =>
          rw [hp] at h
          have := add_cols h
          have hpc : p.cols = I.X0.cols := by
            unfold Expr.matMul at hp
            split at hp
            · cases hp; rfl
            · cases hp
          rw [hpc] at this
          exact this
      · cases hp : Expr.matMul ⟨I.order, I.order, I.aPowers step.toNat⟩ I.X0 with
        | error e' => rw [hp] at h; cases h
        | ok p =>
          rw [hp] at h
          simp only at h
          cases hq : p.slice d 1 with
          | error e' => rw [hq] at h; cases h
          | ok q =>
            rw [hq] at h
            have := add_cols h
            have hpc : p.cols = I.X0.cols := by
              unfold Expr.matMul at hp
              split at hp
              · cases hp; rfl
              · cases hp
            have hqc : q.cols = p.cols := by
              unfold Expr.slice at hq
              simp only at hq
              generalize (if (1 : Int) < 0 then (p.rows : Int) - d else 1) = r at hq
              split at hq
              · cases hq; rfl
              · cases hq
            rw [hqc, hpc] at this
            exact this

/-- The LIPM reads variables of the problem only. -/
structure Within (n : Nat) (l : Lipm) : Prop where
  x : l.x.var.kEnd ≤ n
  y : l.y.var.kEnd ≤ n
  x0 : l.x.X0.cols ≤ n
  y0 : l.y.X0.cols ≤ n

theorem Within.mono {n n' : Nat} {l : Lipm} (h : Within n l) (hn : n ≤ n') : Within n' l :=
  ⟨h.x.trans hn, h.y.trans hn, h.x0.trans hn, h.y0.trans hn⟩

theorem component_cols {n : Nat} {l : Lipm} (h : LipmOK l) (hw : Within n l) {k d : Int} (hd : d ≠ 3) {e : Expr ℝ}
    (he : l.component k d = .ok e) : e.cols ≤ n := by
  unfold Lipm.component at he
  cases ha : l.x.expr k d with
  | error e' => rw [ha] at he; cases he
  | ok a =>
    rw [ha] at he
    cases hb : l.y.expr k d with
    | error e' => simp only [hb, Bind.bind, Except.bind] at he; cases he
    | ok b =>
      simp only [hb, Bind.bind, Except.bind, Except.ok.injEq] at he
      rw [← he]
      have h1 := axis_cols (by rw [h.x.order]; exact hd) ha
      have h2 := axis_cols (by rw [h.y.order]; exact hd) hb
      have := hw.x; have := hw.y; have := hw.x0; have := hw.y0
      show max a.cols b.cols ≤ n
      omega

theorem zmp_cols {n : Nat} {l : Lipm} (h : LipmOK l) (hw : Within n l) {k : Int} {w : ℝ} {e : Expr ℝ}
    (he : l.zmp k w = .ok e) : e.cols ≤ n := by
  have row : ∀ (I : Integrator ℝ) (r : Expr ℝ), I.order = 3 → I.var.kEnd ≤ n → I.X0.cols ≤ n →
      zmpRow I k w = .ok r → r.cols ≤ n := by
    intro I r ho h1 h2 hr
    unfold zmpRow at hr
    cases ha : I.expr k 0 with
    | error e' => rw [ha] at hr; cases hr
    | ok a =>
      rw [ha] at hr
      simp only [Bind.bind, Except.bind] at hr
      cases hb : I.expr k 2 with
      | error e' => rw [hb] at hr; cases hr
      | ok b =>
        rw [hb] at hr
        have h3 := axis_cols (by rw [ho]; decide) ha
        have h4 := axis_cols (by rw [ho]; decide) hb
        have h5 := add_cols hr
        simp only [Expr.smul] at h5
        omega
  unfold Lipm.zmp at he
  cases ha : zmpRow l.x k w with
  | error e' => rw [ha] at he; cases he
  | ok a =>
    rw [ha] at he
    cases hb : zmpRow l.y k w with
    | error e' => simp only [hb, Bind.bind, Except.bind] at he; cases he
    | ok b =>
      simp only [hb, Bind.bind, Except.bind, Except.ok.injEq] at he
      rw [← he]
      have h1 := row l.x a h.x.order hw.x hw.x0 ha
      have h2 := row l.y b h.y.order hw.y hw.y0 hb
      show max a.cols b.cols ≤ n
      omega

/-- Specification: the ZMP of the LIPM at a timestep. -/
noncomputable def zmpAt (l : Lipm) (omega2 : ℝ) (k : Nat) (sol : Nat → ℝ) : V2 :=
  ⟨(l.stateAt sol k 0).x - (l.stateAt sol k 2).x / omega2, (l.stateAt sol k 0).y - (l.stateAt sol k 2).y / omega2⟩

theorem zmp_evaluates (l : Lipm) (h : LipmOK l) (k : Nat) (hk : k ≤ l.timesteps) (omega2 : ℝ) :
    Evaluates (l.zmp k omega2) (zmpAt l omega2 k) := by
  have row : ∀ I : Integrator ℝ, AxisOK I l.dt l.timesteps l.tStart →
      ∃ e, zmpRow I k omega2 = .ok e ∧ e.rows = 1 ∧
        ∀ sol, e.rowVal sol 0 = axisState I sol k 0 - axisState I sol k 2 / omega2 := by
    intro I hI
    obtain ⟨a, ha, ra, va⟩ := axis_expr hI k 0 hk (by omega)
    obtain ⟨b, hb, rb, vb⟩ := axis_expr hI k 2 hk (by omega)
    obtain ⟨e, he, re, ve⟩ := sub_value a b ra rb (1 / omega2)
    refine ⟨e, ?_, re, fun sol => ?_⟩
    · unfold zmpRow
      have ha' : I.expr (k : Int) 0 = .ok a := ha
      have hb' : I.expr (k : Int) 2 = .ok b := hb
      rw [ha', hb']
      exact he
    · rw [ve, va, vb]; ring
  exact row_evaluates l (fun I => zmpRow I k omega2)
    (fun I sol => axisState I sol k 0 - axisState I sol k 2 / omega2) (row l.x h.x) (row l.y h.y)

/-- The constraints of one timestep exist; the first one says that the ZMP is in the polygon. -/
theorem constrainZmp_spec (g : Wpg) (l : Lipm) (h : LipmOK l) (s : Support) (hs : Stands s) (k : Nat)
    (hk : k ≤ l.timesteps) :
    ∃ c r, g.constrainZmp l s k = .ok [softenIf g.soft g.zmpInSupportWeight c, r.configureP .soft g.p.zmpReferenceWeight] ∧
      c.ty = .inequality ∧ c.priority = .hard ∧ c.expr.rows = (s.supportPolygon g.hull).2.length ∧
      (NoRepeat (s.supportPolygon g.hull).2 →
        ∀ sol, c.Sat sol ↔ InsideBy g.p.zmpMargin (s.supportPolygon g.hull).2 (zmpAt l g.omega2 k sol)) ∧
      r.ty = .equality ∧ r.expr.rows = 2 ∧
      ∀ n, Within n l → (0 < (s.supportPolygon g.hull).2.length → Fits n c) ∧ Fits n r := by
  obtain ⟨e, he, re, ve⟩ := zmp_evaluates l h k hk g.omega2
  obtain ⟨f, hf⟩ := hs.frame g.slerp
  obtain ⟨o, ho⟩ := hs.offset g
  obtain ⟨c, hc, c1, c2, c3, c4⟩ := polygon_rows e re ((s.supportPolygon g.hull).2.map fun v => (v.x, v.y)) g.p.zmpMargin
  obtain ⟨r, hr, r1, -, r3, r4, r5, -⟩ := eqVec_spec e re (planar f o.1 o.2).x (planar f o.1 o.2).y
  have hcols := polygon_cols hc
  refine ⟨c, r, ?_, c1, c2, ?_, ?_, r1, r3, ?_⟩
  · unfold Wpg.constrainZmp
    rw [he]
    show (do
      let c ← inPolygonXY e _ _
      let off ← g.zmpOffset s
      let frame ← s.frame g.slerp
      let zmp' ← Except.ok e
      let r ← zmp'.eqVec (vec2 (planar frame off.1 off.2).x (planar frame off.1 off.2).y)
      Except.ok [softenIf g.soft g.zmpInSupportWeight c, r.configureP .soft g.p.zmpReferenceWeight]) = _
    rw [hc, ho, hf]
    show (do
      let r ← e.eqVec _
      Except.ok [softenIf g.soft g.zmpInSupportWeight c, r.configureP .soft g.p.zmpReferenceWeight]) = _
    rw [hr]
    rfl
  · rw [c3, List.length_map]
  · intro hn sol
    rw [c4 sol]
    unfold InsideBy
    rw [List.length_map]
    refine forall_congr' fun i => forall_congr' fun hi => ?_
    unfold edgeRow
    rw [if_neg (hn i hi)]
    have : pointOf e sol = ((zmpAt l g.omega2 k sol).x, (zmpAt l g.omega2 k sol).y) := by
      rw [← ve sol]; rfl
    rw [this]
    constructor <;> intro h <;> linarith
  · intro n hw
    have hz := zmp_cols h hw he
    refine ⟨fun hp => ⟨hcols.1.trans hz, by rw [c3, List.length_map]; exact hp, hcols.2⟩,
      ⟨r5.trans hz, by rw [r3]; omega, by rw [r4, r3]⟩⟩

/-- The constraints that stop the CoM. -/
theorem constrainStop_spec (g : Wpg) (l : Lipm) (h : LipmOK l) (s : Support) (hs : Stands s) (k : Nat)
    (hk : k ≤ l.timesteps) :
    ∃ f a b c, s.frame g.slerp = .ok f ∧ g.constrainStop l s k = .ok [softenIf g.soft g.stopEndSupportWeight a,
        softenIf g.soft g.stopEndSupportWeight b, softenIf g.soft g.stopEndSupportWeight c] ∧
      (a.ty = .equality ∧ b.ty = .equality ∧ c.ty = .equality) ∧
      (a.priority = .hard ∧ b.priority = .hard ∧ c.priority = .hard) ∧
      (∀ sol, (a.Sat sol ↔ l.stateAt sol k 0 = ⟨f.translation 0, f.translation 1⟩) ∧
        (b.Sat sol ↔ l.stateAt sol k 1 = ⟨0, 0⟩) ∧ (c.Sat sol ↔ l.stateAt sol k 2 = ⟨0, 0⟩)) ∧
      ∀ n, Within n l → Fits n a ∧ Fits n b ∧ Fits n c := by
  obtain ⟨f, hf⟩ := hs.frame g.slerp
  obtain ⟨e0, he0, re0, ve0⟩ := component_evaluates h k 0 hk (by omega)
  obtain ⟨e1, he1, re1, ve1⟩ := component_evaluates h k 1 hk (by omega)
  obtain ⟨e2, he2, re2, ve2⟩ := component_evaluates h k 2 hk (by omega)
  obtain ⟨a, ha, a1, a2, a3, a4, a5, a6⟩ := eqVec_spec e0 re0 (f.translation 0) (f.translation 1)
  obtain ⟨b, hb, b1, b2, b3, b4, b5, b6⟩ := eqVec_spec e1 re1 0 0
  obtain ⟨c, hc, c1, c2, c3, c4, c5, c6⟩ := eqVec_spec e2 re2 0 0
  refine ⟨f, a, b, c, hf, ?_, ⟨a1, b1, c1⟩, ⟨a2, b2, c2⟩, fun sol => ⟨?_, ?_, ?_⟩, fun n hw => ⟨?_, ?_, ?_⟩⟩
  · unfold Wpg.constrainStop
    rw [hf]
    have p0 : l.pos (k : Int) = .ok e0 := he0
    have p1 : l.vel (k : Int) = .ok e1 := he1
    have p2 : l.acc (k : Int) = .ok e2 := he2
    rw [p0, p1, p2]
    simp only [Bind.bind, Except.bind]
    rw [ha]
    simp only
    rw [hb]
    simp only
    rw [hc]
  · rw [a6, ve0]
  · rw [b6, ve1]
  · rw [c6, ve2]
  · exact ⟨a5.trans (component_cols h hw (by decide) he0), by omega, by omega⟩
  · exact ⟨b5.trans (component_cols h hw (by decide) he1), by omega, by omega⟩
  · exact ⟨c5.trans (component_cols h hw (by decide) he2), by omega, by omega⟩

/-! ## All the timesteps -/

/-- A hard constraint `c` of the list, not softened. -/
def HardIn (c : Constr ℝ) (cs : List (Constr ℝ)) : Prop := c ∈ cs ∧ c.priority = .hard

/-- The constraints of a part: they exist; those of a problem with hard constraints imply that the ZMP is in the polygon
at every timestep from 1 to the last, and that the CoM has stopped on the support at the end of an end support. -/
theorem constrainLoop_spec (g : Wpg) (l : Lipm) (h : LipmOK l) (s : Support) (hs : Stands s) :
    ∀ count k : Nat, k + count = l.timesteps + 1 → ∃ cs, g.constrainLoop l s count k = .ok cs ∧
      (∀ n, Within n l → 0 < (s.supportPolygon g.hull).2.length → ∀ c ∈ cs, Fits n c) ∧
      (s.isEnd = false ∨ g.soft = true → ∀ c ∈ cs, c.hardEq = false) ∧
      (g.soft = false → ∀ sol, (∀ c ∈ cs, c.priority = .hard → c.Sat sol) →
        (NoRepeat (s.supportPolygon g.hull).2 → ∀ j, k ≤ j → j ≤ l.timesteps →
          InsideBy g.p.zmpMargin (s.supportPolygon g.hull).2 (zmpAt l g.omega2 j sol)) ∧
        (s.isEnd = true → 0 < count → ∃ f, s.frame g.slerp = .ok f ∧
          l.stateAt sol l.timesteps 0 = ⟨f.translation 0, f.translation 1⟩ ∧
          l.stateAt sol l.timesteps 1 = ⟨0, 0⟩ ∧ l.stateAt sol l.timesteps 2 = ⟨0, 0⟩)) ∧
      (s.isEnd = false → NoRepeat (s.supportPolygon g.hull).2 → ∀ sol,
        (∀ j, k ≤ j → j ≤ l.timesteps → InsideBy g.p.zmpMargin (s.supportPolygon g.hull).2 (zmpAt l g.omega2 j sol)) →
        ∀ c ∈ cs, c.priority = .hard → c.Sat sol) := by
  intro count
  induction count with
  | zero =>
    intro k hk
    refine ⟨[], rfl, fun n _ _ c hc => absurd hc List.not_mem_nil, fun _ c hc => absurd hc List.not_mem_nil,
      fun _ sol _ => ⟨fun _ j h1 h2 => by omega, fun _ h => absurd h (by omega)⟩,
      fun _ _ sol _ c hc => absurd hc List.not_mem_nil⟩
  | succ count ih =>
    intro k hk
    obtain ⟨rest, hrest, rfit, req, rsat, rconv⟩ := ih (k + 1) (by omega)
    obtain ⟨c, r, hz, c1, c2, -, c4, r1, r2, zfit⟩ := constrainZmp_spec g l h s hs k (by omega)
    have hend : ∃ es, g.constrainEnd l s k = .ok es ∧ (∀ n, Within n l → ∀ c ∈ es, Fits n c) ∧
        (s.isEnd = false ∨ g.soft = true → ∀ c ∈ es, c.hardEq = false) ∧
        (g.soft = false → ∀ sol, (∀ c ∈ es, c.priority = .hard → c.Sat sol) → s.isEnd = true → k = l.timesteps →
          ∃ f, s.frame g.slerp = .ok f ∧ l.stateAt sol l.timesteps 0 = ⟨f.translation 0, f.translation 1⟩ ∧
            l.stateAt sol l.timesteps 1 = ⟨0, 0⟩ ∧ l.stateAt sol l.timesteps 2 = ⟨0, 0⟩) ∧
        (s.isEnd = false → es = []) := by
      unfold Wpg.constrainEnd
      by_cases hc : s.isEnd = true ∧ k = l.timesteps
      · rw [if_pos hc]
        obtain ⟨f, a, b, d, hf, hst, ⟨t1, t2, t3⟩, ⟨p1, p2, p3⟩, hsat, hfit⟩ := constrainStop_spec g l h s hs k (by omega)
        refine ⟨_, hst, ?_, ?_, ?_, fun h0 => by rw [hc.1] at h0; cases h0⟩
        · intro n hw x hx
          obtain ⟨f1, f2, f3⟩ := hfit n hw
          simp only [List.mem_cons, List.not_mem_nil, or_false] at hx
          rcases hx with rfl | rfl | rfl
          · exact f1.soften _ _
          · exact f2.soften _ _
          · exact f3.soften _ _
        · rintro (h0 | h0) x hx
          · rw [hc.1] at h0; cases h0
          · simp only [List.mem_cons, List.not_mem_nil, or_false, h0] at hx
            rcases hx with rfl | rfl | rfl <;> simp [softenIf, Constr.configureP, Constr.hardEq]
        · intro h0 sol hsol _ _
          have ea : softenIf g.soft g.stopEndSupportWeight a = a := by unfold softenIf; rw [h0]; rfl
          have eb : softenIf g.soft g.stopEndSupportWeight b = b := by unfold softenIf; rw [h0]; rfl
          have ed : softenIf g.soft g.stopEndSupportWeight d = d := by unfold softenIf; rw [h0]; rfl
          rw [ea, eb, ed] at hsol
          obtain ⟨s1, s2, s3⟩ := hsat sol
          rw [hc.2] at s1 s2 s3
          exact ⟨f, hf, s1.1 (hsol a (by simp) p1), s2.1 (hsol b (by simp) p2), s3.1 (hsol d (by simp) p3)⟩
      · rw [if_neg hc]
        exact ⟨[], rfl, fun n _ c hc => absurd hc List.not_mem_nil, fun _ c hc => absurd hc List.not_mem_nil,
          fun _ sol _ h1 h2 => absurd ⟨h1, h2⟩ hc, fun _ => rfl⟩
    obtain ⟨es, hes, efit, eeq, esat, enil⟩ := hend
    refine ⟨([softenIf g.soft g.zmpInSupportWeight c, r.configureP .soft g.p.zmpReferenceWeight] ++ es) ++ rest, ?_, ?_,
      ?_, ?_, ?_⟩
    · unfold Wpg.constrainLoop Wpg.constrainStep
      simp only [hz, hes, hrest, Bind.bind, Except.bind]
    · intro n hw hp x hx
      simp only [List.cons_append, List.nil_append, List.mem_cons, List.mem_append] at hx
      obtain ⟨z1, z2⟩ := zfit n hw
      rcases hx with rfl | rfl | hx | hx
      · exact (z1 hp).soften _ _
      · exact z2.configureP _ _
      · exact efit n hw x hx
      · exact rfit n hw hp x hx
    · intro h0 x hx
      simp only [List.cons_append, List.nil_append, List.mem_cons, List.mem_append] at hx
      rcases hx with rfl | rfl | hx | hx
      · unfold softenIf
        split <;> simp [Constr.hardEq, Constr.configureP, c1]
      · simp [Constr.hardEq, Constr.configureP]
      · exact eeq h0 x hx
      · exact req h0 x hx
    · intro h0 sol hsol
      simp only [List.cons_append, List.nil_append, List.mem_cons, List.mem_append] at hsol
      obtain ⟨q1, q2⟩ := rsat h0 sol fun x hx => hsol x (.inr (.inr (.inr hx)))
      refine ⟨fun hn j hj hj' => ?_, fun he _ => ?_⟩
      · rcases Nat.eq_or_lt_of_le hj with rfl | hlt
        · have ec : softenIf g.soft g.zmpInSupportWeight c = c := by unfold softenIf; rw [h0]; rfl
          exact (c4 hn sol).1 (hsol c (.inl ec.symm) c2)
        · exact q1 hn j hlt hj'
      · by_cases hkm : k = l.timesteps
        · exact esat h0 sol (fun x hx => hsol x (.inr (.inr (.inl hx)))) he hkm
        · exact q2 he (by omega)
    · intro h0 hn sol hin x hx hp
      rw [enil h0] at hx
      simp only [List.cons_append, List.nil_append, List.mem_cons] at hx
      rcases hx with rfl | rfl | hx
      · have hs : c.Sat sol := (c4 hn sol).2 (hin k le_rfl (by omega))
        unfold softenIf
        split
        · exact hs
        · exact hs
      · cases hp
      · exact rconv h0 hn sol (fun j h1 h2 => hin j (by omega) h2) x hx hp

/-! ## C108 -/

/-- What is assumed of the QP solver: a point returned without an error is in the feasible set. -/
def SolverSound (oracle : QP ℝ → QPResult ℝ) : Prop :=
  ∀ qp, (oracle qp).infeasible = false → (oracle qp).hasNaN = false → qp.Feasible (oracle qp).x

theorem solveQP_hard (g : Wpg) (n : Nat) (cs : List (Constr ℝ)) (hqr : QRContract (newProblem n) g.qr cs)
    (hor : SolverSound g.oracle) (sol : Nat → ℝ) (h : g.solveQP n cs = .ok sol) : HardSat cs sol := by
  unfold Wpg.solveQP at h
  rcases C16_solve_effect (newProblem n) g.qr g.oracle (1 / 1000000) cs ⟨[], []⟩ with ⟨e, he, -⟩ | ⟨hok, qp, hqp, hi, hn, -⟩
  · rw [he] at h; cases h
  · rw [hok, hqp] at h
    cases h
    exact (C15_equalities_lossless (newProblem n) g.qr cs qp hqr hqp _).1 ⟨_, hor qp hi hn, fun k _ => rfl⟩

/-- **C108.** With hard constraints, for any sound QP solver and any list of supports that last, the ZMP of the planned
CoM trajectory stays at least `zmp_margin` inside the polygon of the current support at every timestep after the start,
and at the end of an end support the CoM is above the support, with no velocity and no acceleration. -/
theorem C108 (g : Wpg) (hsoft : g.soft = false) (hor : SolverSound g.oracle)
    (t0 : ℝ) (ss : List Support) (hstand : ∀ s ∈ ss, Stands s) (init : ComState) (hd : ∀ s ∈ ss, 0 < g.duration s)
    (hqr : ∀ r, g.planLoop t0 init ss t0 0 none = .ok r →
      QRContract (newProblem r.2.1) g.qr (r.1.map Planned.cs).flatten)
    (parts : List Part) (te : ℝ) (h : g.planCom t0 ss init = .ok (some (parts, te)))
    (i : Nat) (hi : i < parts.length) (hi' : i < ss.length) :
    (NoRepeat (ss[i].supportPolygon g.hull).2 → ∀ k : Nat, 1 ≤ k → k ≤ g.timesteps ss[i] → ∃ z,
      parts[i].com.zmp (parts[i].tStart + k * (g.duration ss[i] / g.timesteps ss[i])) g.omega2 = .ok z ∧
      InsideBy g.p.zmpMargin (ss[i].supportPolygon g.hull).2 z) ∧
    (ss[i].isEnd = true → ∃ f, ss[i].frame g.slerp = .ok f ∧
      parts[i].com.pos parts[i].tEnd = .ok ⟨f.translation 0, f.translation 1⟩ ∧
      parts[i].com.vel parts[i].tEnd = .ok ⟨0, 0⟩ ∧ parts[i].com.acc parts[i].tEnd = .ok ⟨0, 0⟩) := by
  obtain ⟨ps, n, sol, hc, hloop, hq, hl, hg⟩ := planCom_loop g t0 ss init hd parts te h
  obtain ⟨hlen, -, hget⟩ := hc.get
  obtain ⟨b1, b2, b3, -⟩ := hg i (by omega) hi
  obtain ⟨a1, a2, a3, a4, a5, a6, a7, -⟩ := hget i (by omega) hi'
  have hhard := solveQP_hard g n _ (hqr _ hloop) hor sol hq
  have hm := timesteps_pos g ss[i]
  have hdi := hd _ (List.getElem_mem hi')
  have hdt : 0 < ps[i].lipm.dt := by rw [a4]; exact div_pos hdi (by exact_mod_cast hm)
  have hfoot : ps[i].support.footsteps = ss[i].footsteps := by rw [a2]; unfold stamped; split <;> rfl
  have hpoly : (ps[i].support.supportPolygon g.hull).2 = (ss[i].supportPolygon g.hull).2 := by
    rw [a2]; unfold stamped
    split
    · unfold Support.supportPolygon; split <;> rfl
    · rfl
  have hframe : ps[i].support.frame g.slerp = ss[i].frame g.slerp := by unfold Support.frame; rw [hfoot]
  have hisEnd : ps[i].support.isEnd = ss[i].isEnd := by rw [a2]; unfold stamped; split <;> rfl
  have hst : Stands ps[i].support := by unfold Stands; rw [hfoot]; exact hstand _ (List.getElem_mem hi')
  obtain ⟨cs, hcs, -, -, hsat, -⟩ := constrainLoop_spec g ps[i].lipm a3 ps[i].support hst ps[i].lipm.timesteps 1 (by omega)
  have e : cs = ps[i].cs := by
    have : g.constrainLipm ps[i].lipm ps[i].support = .ok cs := hcs
    rw [a7] at this
    cases this; rfl
  obtain ⟨q1, q2⟩ := hsat hsoft sol fun c hc' hp => hhard c
    (List.mem_flatten.2 ⟨ps[i].cs, List.mem_map.2 ⟨ps[i], List.getElem_mem _, rfl⟩, e ▸ hc'⟩) hp
  rw [hpoly] at q1
  rw [hisEnd, hframe] at q2
  have at_end : ∀ d : Nat, d < 3 →
      (ps[i].lipm.getTrajectory sol).component ps[i].tEnd d = .ok (ps[i].lipm.stateAt sol ps[i].lipm.timesteps d) := by
    intro d hd3
    have := traj_component a3 hdt (by omega) sol ps[i].lipm.timesteps d (le_refl _) hd3
    have e : ps[i].lipm.tStart + ps[i].lipm.timesteps * ps[i].lipm.dt = ps[i].tEnd := by
      rw [a1, a4, a5, a6, mul_div_cancel₀]
      exact_mod_cast hm.ne'
    rw [e] at this
    exact this
  constructor
  · intro hn k hk1 hk2
    refine ⟨zmpAt ps[i].lipm g.omega2 k sol, ?_, q1 hn k hk1 (by omega)⟩
    have t : parts[i].tStart + k * (g.duration ss[i] / g.timesteps ss[i]) = ps[i].lipm.tStart + k * ps[i].lipm.dt := by
      rw [b1, a6, a4]
    rw [b3, t]
    have p0 := traj_component a3 hdt (by omega) sol k 0 (by omega) (by omega)
    have p2 := traj_component a3 hdt (by omega) sol k 2 (by omega) (by omega)
    have p0' : (ps[i].lipm.getTrajectory sol).pos (ps[i].lipm.tStart + k * ps[i].lipm.dt)
        = .ok (ps[i].lipm.stateAt sol k 0) := p0
    have p2' : (ps[i].lipm.getTrajectory sol).acc (ps[i].lipm.tStart + k * ps[i].lipm.dt)
        = .ok (ps[i].lipm.stateAt sol k 2) := p2
    unfold LTraj.zmp
    rw [p0', p2']
    show Except.ok _ = Except.ok _
    unfold zmpAt
    congr 2 <;> ring
  · intro he
    obtain ⟨f, hf, s0, s1, s2⟩ := q2 he (by omega)
    refine ⟨f, hf, ?_, ?_, ?_⟩
    · rw [b3, b2, ← s0]; exact at_end 0 (by omega)
    · rw [b3, b2, ← s1]; exact at_end 1 (by omega)
    · rw [b3, b2, ← s2]; exact at_end 2 (by omega)

/-! ## C109 -/

theorem stamped_polygon (g : Wpg) (s : Support) (t : ℝ) :
    ((stamped s t).supportPolygon g.hull).2 = (s.supportPolygon g.hull).2 := by
  unfold stamped
  split
  · unfold Support.supportPolygon; split <;> rfl
  · rfl

theorem stamped_stands (s : Support) (t : ℝ) : Stands (stamped s t) ↔ Stands s := by
  unfold stamped Stands
  split <;> rfl

theorem stamped_isEnd (s : Support) (t : ℝ) : (stamped s t).isEnd = s.isEnd := by unfold stamped; split <;> rfl

/-- The loop never fails, and all its constraints fit the final problem. -/
theorem planLoop_total (g : Wpg) (t0 : ℝ) (init : ComState) : ∀ (ss : List Support) (t : ℝ) (n : Nat)
    (prev : Option Lipm), (∀ s ∈ ss, Stands s ∧ 0 < g.duration s ∧ 0 < (s.supportPolygon g.hull).2.length) →
    (prev = none → t = t0) → (∀ l, prev = some l → t0 < t ∧ LipmOK l ∧ Within n l) →
    ∃ r, g.planLoop t0 init ss t n prev = .ok r ∧ n ≤ r.2.1 ∧ (∀ p ∈ r.1, ∀ c ∈ p.cs, Fits r.2.1 c) ∧
      ((∀ s ∈ ss, s.isEnd = false) ∨ g.soft = true → ∀ p ∈ r.1, ∀ c ∈ p.cs, c.hardEq = false) := by
  intro ss
  induction ss with
  | nil =>
    intro t n prev _ _ _
    exact ⟨([], n, t), rfl, le_refl _, fun p hp => absurd hp List.not_mem_nil, fun _ p hp => absurd hp List.not_mem_nil⟩
  | cons s ss ih =>
    intro t n prev hs h0 h1
    obtain ⟨hst, hd, hp⟩ := hs s List.mem_cons_self
    have hlipm : ∃ l, makeLipm t0 init prev n (g.duration s / g.timesteps s) (g.timesteps s) t
        = .ok (l, n + g.timesteps s + g.timesteps s) ∧ LipmOK l ∧ l.timesteps = g.timesteps s ∧
        Within (n + g.timesteps s + g.timesteps s) l ∧ t0 ≤ t := by
      unfold makeLipm
      cases prev with
      | none =>
        have e := h0 rfl
        rw [if_pos e]
        obtain ⟨l, n', a1, a2, a3, a4, a5, a6, a7, a8, a9, a10⟩ :=
          fromState_ok n (g.duration s / g.timesteps s) (g.timesteps s) t init.pos init.vel init.acc
        subst a2
        refine ⟨l, a1, a3, a5, ⟨?_, ?_, ?_, ?_⟩, e.ge⟩
        · rw [a7]; simp
        · rw [a8]
        · rw [a9]; exact Nat.zero_le _
        · rw [a10]; exact Nat.zero_le _
      | some p =>
        obtain ⟨ht, hp, hw⟩ := h1 p rfl
        rw [if_neg ht.ne']
        obtain ⟨l, n', ex, ey, a1, a2, a3, a4, a5, a6, a7, a8, a9, a10, a11, a12⟩ :=
          fromPrevious_ok n (g.duration s / g.timesteps s) (g.timesteps s) t p hp
        subst a2
        have c1 := axis_cols (by rw [hp.x.order]; decide) a9
        have c2 := axis_cols (by rw [hp.y.order]; decide) a10
        have := hw.x; have := hw.y; have := hw.x0; have := hw.y0
        refine ⟨l, a1, a3, a5, ⟨?_, ?_, ?_, ?_⟩, ht.le⟩
        · rw [a7]; simp
        · rw [a8]
        · rw [a11]; omega
        · rw [a12]; omega
    obtain ⟨l, hl, ok, hm, hw, ht0⟩ := hlipm
    obtain ⟨cs, hcs, hfit, heq, -, -⟩ := constrainLoop_spec g l ok (stamped s t) ((stamped_stands s t).2 hst) l.timesteps 1
      (by omega)
    have hcs' : g.constrainLipm l (stamped s t) = .ok cs := hcs
    obtain ⟨r, hr, hn, rfit, req⟩ := ih (t + g.duration s) (n + g.timesteps s + g.timesteps s) (some l)
      (fun x hx => hs x (List.mem_cons_of_mem _ hx)) (by intro h; cases h)
      (by intro l' h'; cases h'; exact ⟨by linarith, ok, hw⟩)
    refine ⟨(⟨t, t + g.duration s, stamped s t, l, cs⟩ :: r.1, r.2), ?_, ?_, ?_, ?_⟩
    · unfold Wpg.planLoop
      simp only [hl, hcs', hr, Bind.bind, Except.bind]
    · show n ≤ r.2.1
      omega
    · intro p hp' c hc
      rcases List.mem_cons.1 hp' with rfl | hp'
      · exact hfit r.2.1 (hw.mono hn) (by rw [stamped_polygon]; exact hp) c hc
      · exact rfit p hp' c hc
    · intro h p hp' c hc
      rcases List.mem_cons.1 hp' with rfl | hp'
      · refine heq ?_ c hc
        rcases h with h | h
        · left; rw [stamped_isEnd]; exact h s List.mem_cons_self
        · right; exact h
      · refine req ?_ p hp' c hc
        rcases h with h | h
        · left; exact fun x hx => h x (List.mem_cons_of_mem _ hx)
        · right; exact h

/-- A problem whose constraints fit is assembled, unless its equalities are not independent. -/
theorem assemble_fits (n : Nat) (qr : Nat → EqSt ℝ → QR ℝ) (cs : List (Constr ℝ)) (h : ∀ c ∈ cs, Fits n c) :
    (∃ qp, assemble (newProblem n) qr cs = .ok qp ∧ qp.nEq = 0) ∨
      (assemble (newProblem n) qr cs = .error .qpError ∧ 0 < nEqualities cs) := by
  have hub : equalitiesUB (newProblem n).n cs = false := by
    unfold equalitiesUB
    rw [List.any_eq_false]
    intro c hc
    obtain ⟨f1, -, f3⟩ := h c hc
    have f1' : ¬ (newProblem n).n < c.expr.cols := not_lt.2 f1
    simp [f1', f3]
  have hcheck : cs.mapM (checkConstr (newProblem n).n) = .ok (cs.map fun _ => ()) := by
    apply mapM_ok
    intro c hc
    obtain ⟨f1, f2, f3⟩ := h c hc
    have f1' : ¬ (newProblem n).n < c.expr.cols := not_lt.2 f1
    unfold checkConstr
    rw [if_neg f1', if_neg (by omega), if_neg (by omega)]
  unfold assemble
  rw [hub, hcheck]
  simp only [Bool.false_eq_true, if_false]
  by_cases hpos : 0 < nEqualities cs
  · split
    · exact .inr ⟨rfl, hpos⟩
    · left
      refine ⟨_, rfl, ?_⟩
      have : ((newProblem n).rewriteEqualities && decide (0 < nEqualities cs)) = true := by simp [newProblem, hpos]
      rw [this]
      rfl
  · have hz : ((newProblem n).rewriteEqualities && decide (0 < nEqualities cs)) = false := by simp [hpos]
    rw [hz]
    simp only [Bool.false_and, Bool.false_eq_true, if_false]
    left
    exact ⟨_, rfl, by simp only; omega⟩

theorem nEqualities_zero : ∀ (cs : List (Constr ℝ)), (∀ c ∈ cs, c.hardEq = false) → nEqualities cs = 0 := by
  intro cs h
  unfold nEqualities
  rw [List.map_congr_left (g := fun _ => 0) (fun c hc => by rw [h c hc]; rfl)]
  simp

theorem mapM_total {α β : Type} (f : α → Except Err β) : ∀ (l : List α), (∀ a ∈ l, ∃ b, f a = .ok b) →
    ∃ bs, l.mapM f = .ok bs
  | [], _ => ⟨[], rfl⟩
  | a :: l, h => by
    obtain ⟨b, hb⟩ := h a List.mem_cons_self
    obtain ⟨bs, hbs⟩ := mapM_total f l fun x hx => h x (List.mem_cons_of_mem _ hx)
    exact ⟨b :: bs, by rw [List.mapM_cons, hb, hbs]; rfl⟩

/-- **C109.** For supports of one or two footsteps that last and whose polygons have a vertex, `plan_com` never reaches
an undefined behaviour nor an error: it returns true or false; it returns true when the QP solver finds a solution and
there is no hard equality (no end support, or soft constraints). -/
theorem C109 (g : Wpg) (t0 : ℝ) (ss : List Support) (init : ComState)
    (hs : ∀ s ∈ ss, Stands s ∧ 0 < g.duration s ∧ 0 < (s.supportPolygon g.hull).2.length) :
    (g.planCom t0 ss init = .ok none ∨ ∃ parts te, g.planCom t0 ss init = .ok (some (parts, te))) ∧
    ((∀ qp, (g.oracle qp).infeasible = false ∧ (g.oracle qp).hasNaN = false) →
      ((∀ s ∈ ss, s.isEnd = false) ∨ g.soft = true) →
      ∃ parts te, g.planCom t0 ss init = .ok (some (parts, te))) := by
  obtain ⟨r, hr, -, hfit, heq⟩ := planLoop_total g t0 init ss t0 0 none hs (fun _ => rfl) (fun l hl => by cases hl)
  have hd : ∀ s ∈ ss, 0 < g.duration s := fun s h => (hs s h).2.1
  have hc := planLoop_chained g t0 init ss t0 0 none hd (fun _ => rfl) (fun l hl => by cases hl) r hr
  have hfit' : ∀ c ∈ (r.1.map Planned.cs).flatten, Fits r.2.1 c := by
    intro c hc
    obtain ⟨l, hl, hcl⟩ := List.mem_flatten.1 hc
    obtain ⟨p, hp, rfl⟩ := List.mem_map.1 hl
    exact hfit p hp c hcl
  -- the parts are always attached
  have hattach : ∀ sol, ∃ parts, r.1.mapM (g.attach sol) = .ok parts := by
    intro sol
    have hone : ∀ p ∈ r.1, ∃ q, g.attach sol p = .ok q := by
      intro p hp
      obtain ⟨i, hi, rfl⟩ := List.getElem_of_mem hp
      obtain ⟨hlen, -, hget⟩ := hc.get
      obtain ⟨a1, -, a3, a4, a5, a6, -⟩ := hget i hi (by omega)
      have hm := timesteps_pos g ss[i]
      have hdt : 0 < r.1[i].lipm.dt := by
        rw [a4]; exact div_pos (hd _ (List.getElem_mem (by omega : i < ss.length))) (by exact_mod_cast hm)
      have e : r.1[i].lipm.tStart + r.1[i].lipm.timesteps * r.1[i].lipm.dt = r.1[i].tEnd := by
        rw [a1, a4, a5, a6, mul_div_cancel₀]
        exact_mod_cast hm.ne'
      have p0 : (r.1[i].lipm.getTrajectory sol).pos r.1[i].tEnd
          = .ok (r.1[i].lipm.stateAt sol r.1[i].lipm.timesteps 0) := by
        rw [← e]; exact traj_component a3 hdt (by omega) sol r.1[i].lipm.timesteps 0 (le_refl _) (by omega)
      have p1 : (r.1[i].lipm.getTrajectory sol).vel r.1[i].tEnd
          = .ok (r.1[i].lipm.stateAt sol r.1[i].lipm.timesteps 1) := by
        rw [← e]; exact traj_component a3 hdt (by omega) sol r.1[i].lipm.timesteps 1 (le_refl _) (by omega)
      have pd : ∃ v, (r.1[i].lipm.getTrajectory sol).dcm r.1[i].tEnd g.omega = .ok v := by
        unfold LTraj.dcm
        rw [p0, p1]
        exact ⟨_, rfl⟩
      obtain ⟨v, pd⟩ := pd
      unfold Wpg.attach
      simp only [pd]
      exact ⟨_, rfl⟩
    exact mapM_total _ _ hone
  have hplan : g.planCom t0 ss init = (match g.solveQP r.2.1 (r.1.map Planned.cs).flatten with
      | .error .ub => .error .ub
      | .error _ => .ok none
      | .ok sol => do
        let parts ← r.1.mapM (g.attach sol)
        .ok (some (parts, r.2.2))) := by
    unfold Wpg.planCom
    rw [hr]
    rfl
  rw [hplan]
  have hsolve : ∀ e, g.solveQP r.2.1 (r.1.map Planned.cs).flatten = .error e → e ≠ .ub := by
    intro e he hub
    subst hub
    unfold Wpg.solveQP Problem.solve at he
    rcases assemble_fits r.2.1 g.qr _ hfit' with ⟨qp, hqp, hz⟩ | ⟨hqp, -⟩
    · rw [hqp] at he
      have hdim : qp.dimMismatch = false := by unfold QP.dimMismatch; rw [hz]; rfl
      simp only [hdim, Bool.false_eq_true, if_false] at he
      split at he
      · rename_i e' h1
        cases he
        split at h1
        · cases h1
        · split at h1
          · cases h1
          · split at h1 <;> cases h1
      · rename_i h1; cases h1
      · cases he
    · rw [hqp] at he
      cases he
  constructor
  · cases hq : g.solveQP r.2.1 (r.1.map Planned.cs).flatten with
    | error e =>
      have := hsolve e hq
      left
      cases e <;> first | rfl | exact absurd rfl this
    | ok sol =>
      obtain ⟨parts, hparts⟩ := hattach sol
      right
      exact ⟨parts, r.2.2, by simp only [hparts]; rfl⟩
  · intro hor hsoft
    have hz : nEqualities (r.1.map Planned.cs).flatten = 0 := by
      apply nEqualities_zero
      intro c hc
      obtain ⟨l, hl, hcl⟩ := List.mem_flatten.1 hc
      obtain ⟨p, hp, rfl⟩ := List.mem_map.1 hl
      exact heq hsoft p hp c hcl
    rcases assemble_fits r.2.1 g.qr _ hfit' with ⟨qp, hqp, hnz⟩ | ⟨-, hpos⟩
    · have hdim : qp.dimMismatch = false := by unfold QP.dimMismatch; rw [hnz]; rfl
      have hq : ∃ sol, g.solveQP r.2.1 (r.1.map Planned.cs).flatten = .ok sol := by
        unfold Wpg.solveQP Problem.solve
        simp only [hqp, hdim, (hor qp).1, (hor qp).2, hnz, List.range_zero, List.any_nil, Bool.false_eq_true, if_false]
        exact ⟨_, rfl⟩
      obtain ⟨sol, hq⟩ := hq
      rw [hq]
      obtain ⟨parts, hparts⟩ := hattach sol
      exact ⟨parts, r.2.2, by simp only [hparts]; rfl⟩
    · omega

/-! ## A concrete walk -/

open Classical in
/-- A sound solver: it returns a feasible point when there is one. -/
noncomputable def choiceOracle (qp : QP ℝ) : QPResult ℝ :=
  if h : ∃ v, qp.Feasible v then ⟨false, h.choose, false, []⟩ else ⟨true, fun _ => 0, false, []⟩

theorem choiceOracle_sound : SolverSound choiceOracle := by
  intro qp h _
  unfold choiceOracle at h ⊢
  split
  · rename_i hv; exact hv.choose_spec
  · rename_i hv; rw [dif_neg hv] at h; cases h

/-- A generator with the default parameters, on a planar robot. -/
noncomputable def demoWpg : Wpg where
  hull := fun l => l ++ l.take 1
  slerp := fun a _ _ => a
  qr := fun _ _ => ⟨0, fun _ _ => 0, fun _ _ => 0, id⟩
  oracle := choiceOracle

/-- A left footstep at the origin, of 15 cm by 10 cm. -/
noncomputable def demoStep : Footstep := { width := 1 / 10, length := 15 / 100, side := .left, frame := Affine.one }

noncomputable def demoSupport : Support := { footsteps := [demoStep] }

theorem demo_polygon : (demoSupport.supportPolygon demoWpg.hull).2 =
    [⟨-75 / 1000, 5 / 100⟩, ⟨75 / 1000, 5 / 100⟩, ⟨75 / 1000, -5 / 100⟩, ⟨-75 / 1000, -5 / 100⟩] := by
  simp [Support.supportPolygon, demoSupport, readFootsteps, Footstep.supportPolygon, demoStep, Footstep.computePolygon,
    demoWpg, planar, Affine.one]
  norm_num

theorem demo_noRepeat : NoRepeat (demoSupport.supportPolygon demoWpg.hull).2 := by
  intro i hi
  rw [demo_polygon] at hi ⊢
  have : i < 4 := hi
  interval_cases i <;> simp [vertex] <;> norm_num

theorem demo_inside : InsideBy demoWpg.p.zmpMargin (demoSupport.supportPolygon demoWpg.hull).2 ⟨0, 0⟩ := by
  intro i hi
  rw [demo_polygon] at hi ⊢
  have : i < 4 := hi
  have e1 : Real.sqrt ((75 / 1000 + 75 / 1000) ^ 2) = 75 / 1000 + 75 / 1000 := Real.sqrt_sq (by norm_num)
  have e2 : Real.sqrt ((5 / 100 + 5 / 100) ^ 2) = 5 / 100 + 5 / 100 := Real.sqrt_sq (by norm_num)
  have m : demoWpg.p.zmpMargin = 25 / 1000 := rfl
  rw [m]
  interval_cases i
  · have : ((75 / 1000 : ℝ) - -75 / 1000) ^ 2 + (5 / 100 - 5 / 100) ^ 2 = (75 / 1000 + 75 / 1000) ^ 2 := by norm_num
    simp only [signedDistance, vertex, List.map, List.length_cons, List.length_nil, List.getD_cons_zero, List.getD_cons_succ, Nat.reduceAdd, Nat.reduceMod]
    rw [this, e1]; norm_num
  · have : ((75 / 1000 : ℝ) - 75 / 1000) ^ 2 + (-5 / 100 - 5 / 100) ^ 2 = (5 / 100 + 5 / 100) ^ 2 := by norm_num
    simp only [signedDistance, vertex, List.map, List.length_cons, List.length_nil, List.getD_cons_zero, List.getD_cons_succ, Nat.reduceAdd, Nat.reduceMod]
    rw [this, e2]; norm_num
  · have : ((-75 / 1000 : ℝ) - 75 / 1000) ^ 2 + (-5 / 100 - -5 / 100) ^ 2 = (75 / 1000 + 75 / 1000) ^ 2 := by norm_num
    simp only [signedDistance, vertex, List.map, List.length_cons, List.length_nil, List.getD_cons_zero, List.getD_cons_succ, Nat.reduceAdd, Nat.reduceMod]
    rw [this, e1]; norm_num
  · have : ((-75 / 1000 : ℝ) - -75 / 1000) ^ 2 + (5 / 100 - -5 / 100) ^ 2 = (5 / 100 + 5 / 100) ^ 2 := by norm_num
    simp only [signedDistance, vertex, List.map, List.length_cons, List.length_nil, List.getD_cons_zero, List.getD_cons_succ, Nat.reduceAdd, Nat.reduceMod]
    rw [this, e2]; norm_num

theorem demo_stands : Stands demoSupport := .inl rfl

theorem demo_duration : demoWpg.duration demoSupport = 1 := by
  simp [Wpg.duration, demoSupport, Params.supportDuration, Support.isBoth, demoWpg]

/-- With no jerk, a CoM at rest stays at rest. -/
theorem rest_stays (l : Lipm) (h : LipmOK l) (hs : Starts ⟨⟨0, 0⟩, ⟨0, 0⟩, ⟨0, 0⟩⟩ none l) (k : Nat) :
    ∀ d : Nat, d < 3 → l.stateAt (fun _ => 0) k d = ⟨0, 0⟩ := by
  have hx : ∀ k, inputs l.x (fun _ => 0) k = 0 := fun k => rfl
  have hy : ∀ k, inputs l.y (fun _ => 0) k = 0 := fun k => rfl
  induction k with
  | zero =>
    intro d hd
    obtain ⟨h0, h1, h2⟩ := hs fun _ => 0
    have e : d = 0 ∨ d = 1 ∨ d = 2 := by omega
    rcases e with rfl | rfl | rfl
    · exact h0
    · exact h1
    · exact h2
  | succ k ih =>
    intro d hd
    have e0 := ih 0 (by omega)
    have e1 := ih 1 (by omega)
    have e2 := ih 2 (by omega)
    unfold Lipm.stateAt at e0 e1 e2 ⊢
    rw [V2.mk.injEq] at e0 e1 e2
    rw [axisState_succ h.x _ _ _ hd, axisState_succ h.y _ _ _ hd, hx, hy]
    have e : d = 0 ∨ d = 1 ∨ d = 2 := by omega
    rcases e with rfl | rfl | rfl <;> simp [motion, e0, e1, e2]

/-- Standing on one foot, then on it again: a plan exists, so the hypotheses of C86, C90 (`planned_time`), C108 are met. -/
theorem demo_plan : ∃ parts te, demoWpg.planCom 0 [demoSupport] ⟨⟨0, 0⟩, ⟨0, 0⟩, ⟨0, 0⟩⟩ = .ok (some (parts, te)) := by
  have hpoly : 0 < (demoSupport.supportPolygon demoWpg.hull).2.length := by rw [demo_polygon]; decide
  have hs : ∀ s ∈ [demoSupport], Stands s ∧ 0 < demoWpg.duration s ∧ 0 < (s.supportPolygon demoWpg.hull).2.length := by
    intro s hs
    rw [List.mem_singleton] at hs
    subst hs
    exact ⟨demo_stands, by rw [demo_duration]; norm_num, hpoly⟩
  obtain ⟨r, hr, -, hfit, heq⟩ := planLoop_total demoWpg 0 ⟨⟨0, 0⟩, ⟨0, 0⟩, ⟨0, 0⟩⟩ [demoSupport] 0 0 none hs
    (fun _ => rfl) (fun l hl => by cases hl)
  have hc := planLoop_chained demoWpg 0 ⟨⟨0, 0⟩, ⟨0, 0⟩, ⟨0, 0⟩⟩ [demoSupport] 0 0 none (fun s h => (hs s h).2.1)
    (fun _ => rfl) (fun l hl => by cases hl) r hr
  obtain ⟨hlen, -, hget⟩ := hc.get
  have hfit' : ∀ c ∈ (r.1.map Planned.cs).flatten, Fits r.2.1 c := by
    intro c hc
    obtain ⟨l, hl, hcl⟩ := List.mem_flatten.1 hc
    obtain ⟨p, hp, rfl⟩ := List.mem_map.1 hl
    exact hfit p hp c hcl
  have hz : nEqualities (r.1.map Planned.cs).flatten = 0 := by
    apply nEqualities_zero
    intro c hc
    obtain ⟨l, hl, hcl⟩ := List.mem_flatten.1 hc
    obtain ⟨p, hp, rfl⟩ := List.mem_map.1 hl
    refine heq (.inl fun s hs => ?_) p hp c hcl
    rw [List.mem_singleton] at hs; subst hs; rfl
  -- the null point satisfies the constraints
  have hsat : HardSat (r.1.map Planned.cs).flatten fun _ => 0 := by
    intro c hc' hp
    obtain ⟨l, hl, hcl⟩ := List.mem_flatten.1 hc'
    obtain ⟨p, hp', rfl⟩ := List.mem_map.1 hl
    obtain ⟨i, hi, rfl⟩ := List.getElem_of_mem hp'
    have hi0 : i = 0 := by simp only [List.length_singleton] at hlen; omega
    subst hi0
    obtain ⟨-, a2, a3, -, -, -, a7, a8, -⟩ := hget 0 hi (by simp)
    have hst := (a8 rfl).2
    simp only [List.getElem_cons_zero] at a2
    obtain ⟨cs, hcs, -, -, -, hconv⟩ := constrainLoop_spec demoWpg r.1[0].lipm a3 r.1[0].support
      (by rw [a2]; exact (stamped_stands _ _).2 demo_stands) r.1[0].lipm.timesteps 1 (by omega)
    have e : cs = r.1[0].cs := by
      have : demoWpg.constrainLipm r.1[0].lipm r.1[0].support = .ok cs := hcs
      rw [a7] at this
      cases this; rfl
    refine hconv (by rw [a2, stamped_isEnd]; rfl) (by rw [a2, stamped_polygon]; exact demo_noRepeat) _ ?_ c
      (by rw [e]; exact hcl) hp
    intro j _ hj
    rw [a2, stamped_polygon]
    have z : zmpAt r.1[0].lipm demoWpg.omega2 j (fun _ => 0) = ⟨0, 0⟩ := by
      unfold zmpAt
      rw [rest_stays _ a3 hst j 0 (by omega), rest_stays _ a3 hst j 2 (by omega)]
      simp
    rw [z]
    exact demo_inside
  have hqr : QRContract (newProblem r.2.1) demoWpg.qr (r.1.map Planned.cs).flatten := by
    intro h
    rw [hz] at h
    simp at h
  rcases assemble_fits r.2.1 demoWpg.qr _ hfit' with ⟨qp, hqp, hnz⟩ | ⟨-, hpos⟩
  · obtain ⟨v, hv, -⟩ := (C15_equalities_lossless (newProblem r.2.1) demoWpg.qr _ qp hqr hqp _).2 hsat
    have hdim : qp.dimMismatch = false := by unfold QP.dimMismatch; rw [hnz]; rfl
    have ho : (demoWpg.oracle qp).infeasible = false ∧ (demoWpg.oracle qp).hasNaN = false := by
      show (choiceOracle qp).infeasible = false ∧ (choiceOracle qp).hasNaN = false
      unfold choiceOracle
      rw [dif_pos ⟨v, hv⟩]
      exact ⟨rfl, rfl⟩
    obtain ⟨hfull, -⟩ := C109 demoWpg 0 [demoSupport] ⟨⟨0, 0⟩, ⟨0, 0⟩, ⟨0, 0⟩⟩ hs
    rcases hfull with hn | h
    · exfalso
      unfold Wpg.planCom at hn
      rw [hr] at hn
      have hq : ∃ sol, demoWpg.solveQP r.2.1 (r.1.map Planned.cs).flatten = .ok sol := by
        unfold Wpg.solveQP Problem.solve
        simp only [hqp, hdim, ho.1, ho.2, hnz, List.range_zero, List.any_nil, Bool.false_eq_true, if_false]
        exact ⟨_, rfl⟩
      obtain ⟨sol, hq⟩ := hq
      simp only [Bind.bind, Except.bind] at hn
      rw [hq] at hn
      simp only at hn
      cases hm : r.1.mapM (demoWpg.attach sol) with
      | error e => rw [hm] at hn; cases hn
      | ok parts => rw [hm] at hn; cases hn
    · exact h
  · omega

/-- The ZMP of the concrete plan is in the foot after half a second. -/
example : ∃ parts te, demoWpg.planCom 0 [demoSupport] ⟨⟨0, 0⟩, ⟨0, 0⟩, ⟨0, 0⟩⟩ = .ok (some (parts, te)) ∧
    ∃ (hi : 0 < parts.length) (k : Nat) (z : V2), 1 ≤ k ∧
      parts[0].com.zmp (parts[0].tStart + k * (demoWpg.duration demoSupport / demoWpg.timesteps demoSupport))
        demoWpg.omega2 = .ok z ∧ InsideBy (25 / 1000) (demoSupport.supportPolygon demoWpg.hull).2 z := by
  obtain ⟨parts, te, h⟩ := demo_plan
  have hd : ∀ s ∈ [demoSupport], 0 < demoWpg.duration s := by
    intro s hs; rw [List.mem_singleton] at hs; subst hs; rw [demo_duration]; norm_num
  have hs : ∀ s ∈ [demoSupport], Stands s := by
    intro s hs; rw [List.mem_singleton] at hs; subst hs; exact demo_stands
  have hlen := (C86 demoWpg 0 _ _ hd parts te h).1
  refine ⟨parts, te, h, by rw [hlen]; decide, demoWpg.timesteps demoSupport, ?_⟩
  have hqr : ∀ r, demoWpg.planLoop 0 ⟨⟨0, 0⟩, ⟨0, 0⟩, ⟨0, 0⟩⟩ [demoSupport] 0 0 none = .ok r →
      QRContract (newProblem r.2.1) demoWpg.qr (r.1.map Planned.cs).flatten := by
    intro r hr hpos
    exfalso
    obtain ⟨r', hr', -, -, heq⟩ := planLoop_total demoWpg 0 ⟨⟨0, 0⟩, ⟨0, 0⟩, ⟨0, 0⟩⟩ [demoSupport] 0 0 none
      (fun s hs' => ⟨hs s hs', hd s hs', by
        rw [List.mem_singleton] at hs'; subst hs'; rw [demo_polygon]; decide⟩) (fun _ => rfl) (fun l hl => by cases hl)
    rw [hr] at hr'
    cases hr'
    have : nEqualities (r.1.map Planned.cs).flatten = 0 := by
      apply nEqualities_zero
      intro c hc
      obtain ⟨l, hl, hcl⟩ := List.mem_flatten.1 hc
      obtain ⟨p, hp, rfl⟩ := List.mem_map.1 hl
      refine heq (.inl fun s hs => ?_) p hp c hcl
      rw [List.mem_singleton] at hs; subst hs; rfl
    rw [this] at hpos
    simp at hpos
  obtain ⟨z, h1, h2⟩ := (C108 demoWpg rfl choiceOracle_sound 0 [demoSupport] hs _ hd hqr parts te h 0
    (by rw [hlen]; decide) (by simp)).1 demo_noRepeat (demoWpg.timesteps demoSupport) (timesteps_pos _ _) (le_refl _)
  exact ⟨z, timesteps_pos _ _, h1, h2⟩

/-- The same generator, with a double support half as long as the single supports, and a solver that always
answers. -/
noncomputable def walkWpg : Wpg :=
  { demoWpg with
    p := { doubleSupportRatio := 1 / 2 }
    oracle := fun _ => ⟨false, fun _ => 0, false, []⟩ }

theorem walk_dt : 0 < walkWpg.p.dt := by
  unfold Params.dt
  simp [walkWpg]

theorem walk_single : 0 < walkWpg.p.singleSupportDuration := by simp [walkWpg]

theorem walk_hull (l : List V2) : walkWpg.hull l = l ++ l.take 1 := rfl

theorem walk_double : 0 < walkWpg.p.doubleSupportDuration ∧ 0 < walkWpg.p.startendDoubleSupportDuration := by
  have h1 : walkWpg.p.doubleSupportTimesteps = 5 := by
    unfold Params.doubleSupportTimesteps stdRound
    have : walkWpg.p.doubleSupportRatio * walkWpg.p.singleSupportTimesteps = 5 := by simp [walkWpg]; norm_num
    rw [this, if_pos (by norm_num), Int.floor_eq_iff]
    norm_num
  have h2 : walkWpg.p.startendDoubleSupportTimesteps = 10 := by
    unfold Params.startendDoubleSupportTimesteps stdRound
    have : walkWpg.p.startendDoubleSupportRatio * walkWpg.p.singleSupportTimesteps = 10 := by simp [walkWpg]
    rw [this, if_pos (by norm_num), Int.floor_eq_iff]
    norm_num
  unfold Params.doubleSupportDuration Params.startendDoubleSupportDuration
  rw [h1, h2]
  have := walk_dt
  constructor <;> norm_num <;> exact this

/-- Three footsteps. -/
noncomputable def demoSteps : List Footstep :=
  [demoStep, { demoStep with side := .right, frame := ⟨1, ![5 / 100, -1 / 10, 0]⟩ },
    { demoStep with frame := ⟨1, ![1 / 10, 0, 0]⟩ }]

theorem walk_plan (start middle : Bool) (init : ComState) : ∃ ss parts te,
    makeSupports demoSteps 0 start middle false = .ok ss ∧ (∀ s ∈ ss, 0 < walkWpg.duration s) ∧
    walkWpg.planCom 0 ss init = .ok (some (parts, te)) := by
  have h : ∃ ss, makeSupports demoSteps 0 start middle false = .ok ss ∧ ∀ s ∈ ss,
      (Stands s ∧ 0 < walkWpg.duration s ∧ 0 < (s.supportPolygon walkWpg.hull).2.length) ∧ s.isEnd = false := by
    cases start <;> cases middle <;> refine ⟨_, rfl, ?_⟩ <;> intro s hs <;>
      simp only [demoSteps, List.mem_cons, List.mem_append, List.not_mem_nil, or_false, List.cons_append, List.nil_append] at hs <;>
      rcases hs with rfl | rfl | rfl | rfl <;>
      simp [Stands, Wpg.duration, Params.supportDuration, Support.isBoth, Support.supportPolygon, walk_double, walk_single, walk_hull,
        readFootsteps, Footstep.supportPolygon, demoStep, Footstep.computePolygon]
  obtain ⟨ss, h1, h2⟩ := h
  obtain ⟨parts, te, h3⟩ := (C109 walkWpg 0 ss init fun s hs => (h2 s hs).1).2 (fun _ => ⟨rfl, rfl⟩)
    (.inl fun s hs => (h2 s hs).2)
  exact ⟨ss, parts, te, h1, fun s hs => (h2 s hs).1.2.1, h3⟩

/-- The hypotheses of C86, `C90_partial` and `C90_refuted` are met by a walk of three footsteps. -/
example : ∃ parts : List Part, parts.length = 2 ∧ Contiguous parts := by
  obtain ⟨ss, parts, te, h1, h2, h3⟩ := walk_plan true true ⟨⟨0, 0⟩, ⟨0, 0⟩, ⟨0, 0⟩⟩
  have h := C86 walkWpg 0 ss _ h2 parts te h3
  refine ⟨parts, ?_, h.2.1⟩
  rw [h.1]
  have : ss.length = 2 := by cases h1; rfl
  exact this

example : ∃ parts : List Part, ∃ hi : 1 < parts.length, parts[1].support.tStart = 0 ∧ (0 : ℝ) < parts[1].tStart := by
  obtain ⟨ss, parts, te, h1, h2, h3⟩ := walk_plan false true ⟨⟨0, 0⟩, ⟨0, 0⟩, ⟨0, 0⟩⟩
  exact ⟨parts, C90_refuted walkWpg demoSteps (by decide) 0 (by norm_num) false ss h1 _ h2 parts te h3⟩

end Verif.Humanoid
