/-
Property C163 for `KinematicsSolver`: the tasks and the constraints are kept in a `std::set` of pointers, iterated in the order of
their addresses; this order does not change the answer.
-/
import Verif.Kinematics.SolverProps
import Verif.Problem.OrderProps

namespace Verif.Kinematics
open Finset Verif.Problem

/-! ## The loop over tasks -/

/-- Two states of the loop that differ by the order of the constraints added so far. -/
structure LoopEq (st st' : LoopSt ℝ) : Prop where
  prob : st'.prob = st.prob
  scaleVar : st'.scaleVar = st.scaleVar
  hasScaling : st'.hasScaling = st.hasScaling
  cs : st.cs.Perm st'.cs

theorem LoopEq.rfl' (st : LoopSt ℝ) : LoopEq st st := ⟨rfl, rfl, rfl, List.Perm.refl _⟩

theorem LoopEq.trans {a b c : LoopSt ℝ} (h : LoopEq a b) (h' : LoopEq b c) : LoopEq a c :=
  ⟨h'.1.trans h.1, h'.2.trans h.2, h'.3.trans h.3, h.4.trans h'.4⟩

theorem LoopEq.eq {a b : LoopSt ℝ} (h : LoopEq a b) : b = { a with cs := b.cs } := by
  obtain ⟨p, v, s, cs⟩ := a
  obtain ⟨p', v', s', cs'⟩ := b
  obtain ⟨h1, h2, h3, -⟩ := h
  simp only at h1 h2 h3
  subst h1 h2 h3
  rfl

/-- The state after the scale variable was made available, without its constraints. -/
def scaleState (st : LoopSt ℝ) : LoopSt ℝ :=
  match st.scaleVar with
  | some i => { st with hasScaling := true, scaleVar := some i }
  | none => { st with hasScaling := true, scaleVar := some st.prob.2.length, prob := addVariable st.prob 1 }

theorem scaleState_keeps (st : LoopSt ℝ) : (scaleState st).hasScaling = true := by
  unfold scaleState
  cases h : st.scaleVar <;> rfl

/-- What making the scale variable available does, independently of the constraints added so far: it fails, or adds a fixed list. -/
theorem ensureScale_uniform (st : LoopSt ℝ) :
    (∃ e, ∀ cs, (ensureScale { st with cs := cs }).2 = some e) ∨
    ∃ (st1 : LoopSt ℝ) (l : List (Constr ℝ)), st1.hasScaling = true ∧
      ∀ cs, ensureScale { st with cs := cs } = ({ st1 with cs := cs ++ l }, none) := by
  by_cases h : st.hasScaling = true
  · refine .inr ⟨st, [], h, fun cs => ?_⟩
    unfold ensureScale
    rw [if_pos h, List.append_nil]
  · have key : ∀ cs, ensureScale { st with cs := cs } =
        match scaleConstraints (varAt (scaleState st).prob ((scaleState st).scaleVar.getD 0)) with
        | .error e => ({ scaleState st with cs := cs }, some e)
        | .ok l => ({ scaleState st with cs := cs ++ l }, none) := by
      intro cs
      unfold ensureScale
      rw [if_neg h]
      unfold scaleState
      cases hsv : st.scaleVar with
      | none =>
        simp only [hsv]
        cases (scaleConstraints (varAt (addVariable st.prob 1) ((some st.prob.2.length).getD 0)) : Except Err (List (Constr ℝ))) <;> rfl
      | some i =>
        simp only [hsv]
        cases (scaleConstraints (varAt st.prob ((some i).getD 0)) : Except Err (List (Constr ℝ))) <;> rfl
    cases hl : (scaleConstraints (varAt (scaleState st).prob ((scaleState st).scaleVar.getD 0)) : Except Err (List (Constr ℝ))) with
    | error e => exact .inl ⟨e, fun cs => by rw [key, hl]⟩
    | ok l => exact .inr ⟨scaleState st, l, scaleState_keeps st, fun cs => by rw [key, hl]⟩

/-- The constraint of a scaled task, given the scale variable. -/
noncomputable def scaledC (w : ℝ) (M : TaskMat ℝ) (st : LoopSt ℝ) : Except Err (Constr ℝ) :=
  (scaledExpr (varAt st.prob (st.scaleVar.getD 0)) M >>= fun e => e.eqDouble 0).map fun c => c.configureP .hard w

/-- A task fails whatever the state, adds a fixed list of constraints, or uses the scale variable. -/
theorem taskStep_kinds (robot : RState ℝ) (t : Task ℝ) :
    (∃ e, ∀ st, (taskStep robot st t).2 = some e) ∨
    (∃ l, (∀ c ∈ l, c.softIneq = false ∧ (c.softEq = true → t.priority = .soft ∧ c.weight = t.weight)) ∧
      ∀ st, taskStep robot st t = ({ st with cs := st.cs ++ l }, none)) ∨
    ∃ M : TaskMat ℝ, t.update robot = .ok M ∧ ∀ st, taskStep robot st t = match ensureScale st with
      | (st, some e) => (st, some e)
      | (st, none) => match scaledC t.weight M st with
        | .error e => (st, some e)
        | .ok c => ({ st with cs := st.cs ++ [c] }, none) := by
  cases hu : t.update robot with
  | error e => exact .inl ⟨e, fun st => by unfold taskStep; rw [hu]⟩
  | ok M =>
    by_cases h0 : M.rows = 0
    · refine .inr (.inl ⟨[], by simp, fun st => ?_⟩)
      unfold taskStep
      simp only [hu, if_pos h0, List.append_nil]
    · by_cases hs : t.priority = .scaled
      · refine .inr (.inr ⟨M, rfl, fun st => ?_⟩)
        unfold taskStep
        simp only [hu, if_neg h0, if_pos hs]
        rcases ensureScale st with ⟨st1, _ | e⟩
        · simp only [scaledC]
          cases (scaledExpr (varAt st1.prob (st1.scaleVar.getD 0)) M >>= fun e => e.eqDouble 0 : Except Err (Constr ℝ)) <;> rfl
        · rfl
      · obtain ⟨c, hc, hty, hpr, -⟩ := eqDouble_zero (plainExpr M) (0 : ℝ)
        refine .inr (.inl ⟨[c.configureP (if t.priority = .soft then .soft else .hard) t.weight], ?_, fun st => ?_⟩)
        · intro d hd
          rw [List.mem_singleton] at hd
          subst hd
          refine ⟨?_, fun h => ?_⟩
          · simp [Constr.softIneq, Constr.configureP, hty]
          · by_cases hp : t.priority = .soft
            · exact ⟨hp, rfl⟩
            · simp [Constr.softEq, Constr.configureP, hp] at h
        · unfold taskStep
          simp only [hu, if_neg h0, if_neg hs, hc]

theorem taskStep_eq (robot : RState ℝ) (t : Task ℝ) {st st1 st' : LoopSt ℝ} (h : LoopEq st st') (h1 : taskStep robot st t = (st1, none)) :
    ∃ st1', taskStep robot st' t = (st1', none) ∧ LoopEq st1 st1' := by
  rw [h.eq]
  have hp := h.cs
  generalize st'.cs = cs' at hp
  rcases taskStep_kinds robot t with ⟨e, k⟩ | ⟨l, -, k⟩ | ⟨M, -, k⟩
  · have := k st
    rw [h1] at this
    cases this
  · rw [k] at h1 ⊢
    cases h1
    exact ⟨_, rfl, rfl, rfl, rfl, hp.append_right l⟩
  · rw [k] at h1 ⊢
    rcases ensureScale_uniform st with ⟨e, u⟩ | ⟨s1, l, -, u⟩
    · have := u st.cs
      rcases he : ensureScale st with ⟨a, b⟩
      rw [he] at h1
      rw [show ({ st with cs := st.cs } : LoopSt ℝ) = st from rfl, he] at this
      simp only at this
      subst this
      cases h1
    · have u0 := u st.cs
      rw [show ({ st with cs := st.cs } : LoopSt ℝ) = st from rfl] at u0
      rw [u0] at h1
      rw [u cs']
      simp only at h1 ⊢
      have hc : scaledC t.weight M { s1 with cs := cs' ++ l } = scaledC t.weight M { s1 with cs := st.cs ++ l } := rfl
      rw [hc]
      cases hcc : scaledC t.weight M { s1 with cs := st.cs ++ l } with
      | error e => rw [hcc] at h1; cases h1
      | ok c =>
        rw [hcc] at h1
        cases h1
        exact ⟨_, rfl, rfl, rfl, rfl, (hp.append_right l).append_right [c]⟩

theorem runTasks_eq (robot : RState ℝ) : ∀ (ts : List (Task ℝ)) {st st1 st' : LoopSt ℝ}, LoopEq st st' →
    runTasks robot st ts = (st1, none) → ∃ st1', runTasks robot st' ts = (st1', none) ∧ LoopEq st1 st1'
  | [], st, st1, st', h, h1 => by
    rw [runTasks] at h1
    cases h1
    exact ⟨st', rfl, h⟩
  | t :: ts, st, st1, st', h, h1 => by
    rw [runTasks] at h1
    rcases ht : taskStep robot st t with ⟨a, _ | e⟩
    · rw [ht] at h1
      obtain ⟨a', ha, he⟩ := taskStep_eq robot t h ht
      obtain ⟨b', hb, hbe⟩ := runTasks_eq robot ts he h1
      exact ⟨b', by rw [runTasks, ha]; exact hb, hbe⟩
    · rw [ht] at h1
      cases h1

/-- Two tasks can be exchanged. -/
theorem taskStep_swap (robot : RState ℝ) (a b : Task ℝ) {st st1 st2 : LoopSt ℝ} (h1 : taskStep robot st a = (st1, none))
    (h2 : taskStep robot st1 b = (st2, none)) :
    ∃ st1' st2', taskStep robot st b = (st1', none) ∧ taskStep robot st1' a = (st2', none) ∧ LoopEq st2 st2' := by
  have err : ∀ {t : Task ℝ} {s s' : LoopSt ℝ} {e : Err}, (∀ st, (taskStep robot st t).2 = some e) → taskStep robot s t = (s', none) → False := by
    intro t s s' e k h
    have := k s
    rw [h] at this
    cases this
  rcases taskStep_kinds robot a with ⟨e, ka⟩ | ⟨la, -, ka⟩ | ⟨Ma, -, ka⟩
  · exact absurd h1 (fun h => err ka h)
  · rw [ka] at h1
    cases h1
    rcases taskStep_kinds robot b with ⟨e, kb⟩ | ⟨lb, -, kb⟩ | ⟨Mb, -, kb⟩
    · exact absurd h2 (fun h => err kb h)
    · rw [kb] at h2
      cases h2
      refine ⟨_, _, kb st, ka _, rfl, rfl, rfl, ?_⟩
      simp only [List.append_assoc]
      exact List.Perm.append_left _ List.perm_append_comm
    · -- `b` uses the scale
      rw [kb] at h2
      rcases ensureScale_uniform st with ⟨e, u⟩ | ⟨s1, l, -, u⟩
      · have := u (st.cs ++ la)
        rcases he : ensureScale { st with cs := st.cs ++ la } with ⟨x, y⟩
        rw [he] at h2 this
        simp only at this
        subst this
        cases h2
      · rw [u (st.cs ++ la)] at h2
        simp only at h2
        have u0 := u st.cs
        rw [show ({ st with cs := st.cs } : LoopSt ℝ) = st from rfl] at u0
        cases hc : scaledC b.weight Mb { s1 with cs := st.cs ++ la ++ l } with
        | error e => rw [hc] at h2; cases h2
        | ok c =>
          rw [hc] at h2
          cases h2
          have hc' : scaledC b.weight Mb { s1 with cs := st.cs ++ l } = .ok c := hc
          refine ⟨{ s1 with cs := st.cs ++ l ++ [c] }, _, ?_, ka _, rfl, rfl, rfl, ?_⟩
          · rw [kb, u0]
            simp only [hc']
          · simp only [List.append_assoc]
            refine List.Perm.append_left _ ?_
            rw [← List.append_assoc l [c] la]
            exact List.perm_append_comm
  · rw [ka] at h1
    rcases ensureScale_uniform st with ⟨e, u⟩ | ⟨s1, l, hs1, u⟩
    · have := u st.cs
      rw [show ({ st with cs := st.cs } : LoopSt ℝ) = st from rfl] at this
      rcases he : ensureScale st with ⟨x, y⟩
      rw [he] at h1 this
      simp only at this
      subst this
      cases h1
    · have u0 := u st.cs
      rw [show ({ st with cs := st.cs } : LoopSt ℝ) = st from rfl] at u0
      rw [u0] at h1
      simp only at h1
      cases hca : scaledC a.weight Ma { s1 with cs := st.cs ++ l } with
      | error e => rw [hca] at h1; cases h1
      | ok ca =>
        rw [hca] at h1
        cases h1
        -- with the scale available, it is kept as it is
        have keep : ∀ cs, ensureScale { s1 with cs := cs } = ({ s1 with cs := cs }, none) := by
          intro cs
          unfold ensureScale
          rw [if_pos hs1]
        have hca' : ∀ cs, scaledC a.weight Ma { s1 with cs := cs } = .ok ca := fun cs => hca
        rcases taskStep_kinds robot b with ⟨e, kb⟩ | ⟨lb, -, kb⟩ | ⟨Mb, -, kb⟩
        · exact absurd h2 (fun h => err kb h)
        · rw [kb] at h2
          cases h2
          refine ⟨_, { s1 with cs := st.cs ++ lb ++ l ++ [ca] }, kb st, ?_, rfl, rfl, rfl, ?_⟩
          · rw [ka, u]
            simp only [hca']
          · simp only [List.append_assoc]
            refine List.Perm.append_left _ ?_
            rw [← List.append_assoc l [ca] lb]
            exact List.perm_append_comm
        · rw [kb, keep] at h2
          simp only at h2
          cases hcb : scaledC b.weight Mb { s1 with cs := st.cs ++ l ++ [ca] } with
          | error e => rw [hcb] at h2; cases h2
          | ok cb =>
            rw [hcb] at h2
            cases h2
            have hcb' : ∀ cs, scaledC b.weight Mb { s1 with cs := cs } = .ok cb := fun cs => hcb
            refine ⟨{ s1 with cs := st.cs ++ l ++ [cb] }, { s1 with cs := st.cs ++ l ++ [cb] ++ [ca] }, ?_, ?_, rfl, rfl, rfl, ?_⟩
            · rw [kb, u0]
              simp only [hcb']
            · rw [ka, keep]
              simp only [hca']
            · simp only [List.append_assoc]
              exact List.Perm.append_left _ (List.Perm.append_left _ List.perm_append_comm)

/-- The loop over the tasks, in another order. -/
theorem runTasks_perm (robot : RState ℝ) {ts ts' : List (Task ℝ)} (h : ts.Perm ts') : ∀ {st st1 : LoopSt ℝ},
    runTasks robot st ts = (st1, none) → ∃ st1', runTasks robot st ts' = (st1', none) ∧ LoopEq st1 st1' := by
  induction h with
  | nil => intro st st1 h; exact ⟨st1, h, LoopEq.rfl' _⟩
  | cons t _ ih =>
    intro st st1 h
    rw [runTasks] at h ⊢
    rcases ht : taskStep robot st t with ⟨a, _ | e⟩
    · rw [ht] at h
      exact ih h
    · rw [ht] at h
      cases h
  | swap a b l =>
    intro st st1 h
    rw [runTasks] at h
    rcases hb : taskStep robot st b with ⟨x, _ | e⟩
    · rw [hb] at h
      simp only at h
      rw [runTasks] at h
      rcases ha : taskStep robot x a with ⟨y, _ | e⟩
      · rw [ha] at h
        obtain ⟨x', y', e1, e2, e3⟩ := taskStep_swap robot b a hb ha
        obtain ⟨z, e4, e5⟩ := runTasks_eq robot l e3 h
        refine ⟨z, ?_, e5⟩
        rw [runTasks, e1]
        simp only
        rw [runTasks, e2]
        exact e4
      · rw [ha] at h
        cases h
    · rw [hb] at h
      cases h
  | trans _ _ ih1 ih2 =>
    intro st st1 h
    obtain ⟨s1, a1, a2⟩ := ih1 h
    obtain ⟨s2, b1, b2⟩ := ih2 a1
    exact ⟨s2, b1, a2.trans b2⟩

/-! ## The weights of the constraints -/

/-- Weights for which the solution of a problem is unique. -/
def GoodWeight (c : Constr ℝ) : Prop := (c.softEq = true → 0 ≤ c.weight) ∧ (c.softIneq = true → 0 < c.weight)

theorem goodWeight_hard {c : Constr ℝ} (h : c.priority = .hard) : GoodWeight c :=
  ⟨fun h' => by simp [Constr.softEq, h] at h', fun h' => by simp [Constr.softIneq, h] at h'⟩

theorem do_ok {α β : Type} {x : Except Err α} {f : α → Except Err β} {b : β} (h : (x >>= f) = .ok b) : ∃ a, x = .ok a ∧ f a = .ok b := by
  cases x with
  | error e => cases h
  | ok a => exact ⟨a, rfl, h⟩

theorem ge_hard {e o : Expr ℝ} {c : Constr ℝ} (h : e.ge o = .ok c) : c.priority = .hard := by
  obtain ⟨d, -, h⟩ := do_ok h
  cases h
  rfl

theorem le_hard {e o : Expr ℝ} {c : Constr ℝ} (h : e.le o = .ok c) : c.priority = .hard := by
  obtain ⟨d, -, h⟩ := do_ok h
  cases h
  rfl

theorem eq_hard {e o : Expr ℝ} {c : Constr ℝ} (h : e.eq o = .ok c) : c.priority = .hard ∧ c.ty = .equality := by
  obtain ⟨d, -, h⟩ := do_ok h
  cases h
  exact ⟨rfl, rfl⟩

theorem scaleConstraints_good {v : Var} {l : List (Constr ℝ)} (h : scaleConstraints v = .ok l) : ∀ c ∈ l, GoodWeight c := by
  obtain ⟨e, -, h⟩ := do_ok h
  obtain ⟨c1, h1, h⟩ := do_ok h
  obtain ⟨c2, h2, h⟩ := do_ok h
  obtain ⟨c3, h3, h⟩ := do_ok h
  cases h
  intro c hc
  simp only [List.mem_cons, List.not_mem_nil, or_false] at hc
  rcases hc with rfl | rfl | rfl
  · exact goodWeight_hard (ge_hard h1)
  · exact goodWeight_hard (le_hard h2)
  · refine ⟨fun _ => ?_, fun h => ?_⟩
    · simp [Constr.configureP]
    · simp [Constr.softIneq, Constr.configureP, (eq_hard h3).2] at h

theorem ensureScale_good {st st1 : LoopSt ℝ} (h : ensureScale st = (st1, none)) (h0 : ∀ c ∈ st.cs, GoodWeight c) : ∀ c ∈ st1.cs, GoodWeight c := by
  unfold ensureScale at h
  split at h
  · cases h
    exact h0
  · simp only at h
    split at h
    · cases h
    · rename_i l hl
      cases h
      intro c hc
      rcases List.mem_append.1 hc with hc | hc
      · refine h0 c ?_
        cases hs : st.scaleVar with
        | none => simpa only [hs] using hc
        | some i => simpa only [hs] using hc
      · exact scaleConstraints_good hl c hc

theorem taskStep_good {robot : RState ℝ} {t : Task ℝ} (hw : t.priority = .soft → 0 ≤ t.weight) {st st1 : LoopSt ℝ}
    (h : taskStep robot st t = (st1, none)) (h0 : ∀ c ∈ st.cs, GoodWeight c) : ∀ c ∈ st1.cs, GoodWeight c := by
  rcases taskStep_kinds robot t with ⟨e, k⟩ | ⟨l, hl, k⟩ | ⟨M, -, k⟩
  · have := k st
    rw [h] at this
    cases this
  · rw [k] at h
    cases h
    intro c hc
    rcases List.mem_append.1 hc with hc | hc
    · exact h0 c hc
    · obtain ⟨a, b⟩ := hl c hc
      refine ⟨fun h => ?_, fun h => by rw [a] at h; cases h⟩
      rw [(b h).2]
      exact hw (b h).1
  · rw [k] at h
    rcases he : ensureScale st with ⟨x, _ | e⟩
    · rw [he] at h
      simp only at h
      have hx := ensureScale_good he h0
      cases hc : scaledC t.weight M x with
      | error e => rw [hc] at h; cases h
      | ok c =>
        rw [hc] at h
        cases h
        intro d hd
        rcases List.mem_append.1 hd with hd | hd
        · exact hx d hd
        · rw [List.mem_singleton] at hd
          subst hd
          refine goodWeight_hard ?_
          unfold scaledC at hc
          cases hq : (scaledExpr (varAt x.prob (x.scaleVar.getD 0)) M >>= fun e => e.eqDouble 0 : Except Err (Constr ℝ)) with
          | error e => rw [hq] at hc; cases hc
          | ok c' => rw [hq] at hc; cases hc; rfl
    · rw [he] at h
      cases h

theorem runTasks_good (robot : RState ℝ) : ∀ (ts : List (Task ℝ)) {st st1 : LoopSt ℝ}, (∀ t ∈ ts, t.priority = .soft → 0 ≤ t.weight) →
    runTasks robot st ts = (st1, none) → (∀ c ∈ st.cs, GoodWeight c) → ∀ c ∈ st1.cs, GoodWeight c
  | [], st, st1, _, h, h0 => by
    rw [runTasks] at h
    cases h
    exact h0
  | t :: ts, st, st1, hw, h, h0 => by
    rw [runTasks] at h
    rcases ht : taskStep robot st t with ⟨x, _ | e⟩
    · rw [ht] at h
      exact runTasks_good robot ts (fun t' h' => hw t' (List.mem_cons_of_mem _ h')) h (taskStep_good (hw t List.mem_cons_self) ht h0)
    · rw [ht] at h
      cases h

theorem limits_hard {r : Robot ℝ} {s : KState ℝ} {qd : Var} {l : List (Constr ℝ)} (h : limitsInequalities r s qd = .ok l) :
    ∀ c ∈ l, c.priority = .hard := by
  unfold limitsInequalities at h
  simp only at h
  split at h
  · cases h
  split at h
  · obtain ⟨e, -, h⟩ := do_ok h
    obtain ⟨b, -, h⟩ := do_ok h
    obtain ⟨e1, -, h⟩ := do_ok h
    obtain ⟨u, -, h⟩ := do_ok h
    obtain ⟨c1, h1, h⟩ := do_ok h
    obtain ⟨w, -, h⟩ := do_ok h
    obtain ⟨c2, h2, h⟩ := do_ok h
    simp only [pure_bind] at h
    split at h
    · obtain ⟨e', -, h⟩ := do_ok h
      obtain ⟨u', -, h⟩ := do_ok h
      obtain ⟨c3, h3, h⟩ := do_ok h
      obtain ⟨w', -, h⟩ := do_ok h
      obtain ⟨c4, h4, h⟩ := do_ok h
      cases h
      intro c hc
      simp only [List.mem_append, List.mem_cons, List.not_mem_nil, or_false] at hc
      rcases hc with (rfl | rfl) | rfl | rfl
      exacts [le_hard h1, le_hard h2, le_hard h3, le_hard h4]
    · cases h
      intro c hc
      simp only [List.mem_append, List.mem_cons, List.not_mem_nil, or_false] at hc
      rcases hc with rfl | rfl
      exacts [le_hard h1, le_hard h2]
  · simp only [pure_bind] at h
    split at h
    · obtain ⟨e', -, h⟩ := do_ok h
      obtain ⟨u', -, h⟩ := do_ok h
      obtain ⟨c3, h3, h⟩ := do_ok h
      obtain ⟨w', -, h⟩ := do_ok h
      obtain ⟨c4, h4, h⟩ := do_ok h
      cases h
      intro c hc
      simp only [List.nil_append, List.mem_cons, List.not_mem_nil, or_false] at hc
      rcases hc with rfl | rfl
      exacts [le_hard h3, le_hard h4]
    · cases h
      intro c hc
      cases hc

theorem mapM_perm {α β : Type} (f : α → Except Err β) {l l' : List α} (h : l.Perm l') : ∀ {r : List β}, l.mapM f = .ok r →
    ∃ r', l'.mapM f = .ok r' ∧ r.Perm r' := by
  induction h with
  | nil => intro r h; exact ⟨r, h, List.Perm.refl _⟩
  | cons a _ ih =>
    intro r h
    rw [List.mapM_cons] at h ⊢
    obtain ⟨b, h1, h⟩ := do_ok h
    obtain ⟨bs, h2, h⟩ := do_ok h
    cases h
    obtain ⟨bs', h3, hp⟩ := ih h2
    refine ⟨b :: bs', ?_, hp.cons b⟩
    rw [h1, h3]
    rfl
  | swap x y l =>
    intro r h
    rw [List.mapM_cons] at h
    obtain ⟨b, h1, h⟩ := do_ok h
    obtain ⟨bs, h2, h⟩ := do_ok h
    cases h
    rw [List.mapM_cons] at h2
    obtain ⟨c, h3, h2⟩ := do_ok h2
    obtain ⟨cs, h4, h2⟩ := do_ok h2
    cases h2
    refine ⟨c :: b :: cs, ?_, List.Perm.swap _ _ _⟩
    rw [List.mapM_cons, h3, List.mapM_cons, h1, h4]
    rfl
  | trans _ _ ih1 ih2 =>
    intro r h
    obtain ⟨r1, a, b⟩ := ih1 h
    obtain ⟨r2, c, d⟩ := ih2 a
    exact ⟨r2, c, b.trans d⟩

theorem mapM_mem {α β : Type} (f : α → Except Err β) : ∀ {l : List α} {r : List β}, l.mapM f = .ok r → ∀ b ∈ r, ∃ a ∈ l, f a = .ok b
  | [], r, h, b, hb => by
    cases h
    cases hb
  | a :: l, r, h, b, hb => by
    rw [List.mapM_cons] at h
    obtain ⟨c, h1, h⟩ := do_ok h
    obtain ⟨cs, h2, h⟩ := do_ok h
    cases h
    rcases List.mem_cons.1 hb with rfl | hb
    · exact ⟨a, List.mem_cons_self, h1⟩
    · obtain ⟨a', h3, h4⟩ := mapM_mem f h2 b hb
      exact ⟨a', List.mem_cons_of_mem _ h3, h4⟩

/-- Everything added after the tasks, with the constraints in another order. -/
theorem otherConstraints_perm {r : Robot ℝ} {cons cons' : List (KConstraint ℝ)} (hp : cons.Perm cons') {s : KState ℝ} {nv : Nat}
    (hw : ∀ k ∈ cons, ∀ l, k.add s = .ok l → ∀ c ∈ l, GoodWeight c) {l : List (Constr ℝ)} (h : otherConstraints r cons s ⟨0, nv⟩ = .ok l) :
    (∃ l', otherConstraints r cons' s ⟨0, nv⟩ = .ok l' ∧ l.Perm l') ∧ ∀ c ∈ l, GoodWeight c := by
  unfold otherConstraints at h ⊢
  obtain ⟨m, h1, h⟩ := do_ok h
  obtain ⟨b, h2, h⟩ := do_ok h
  obtain ⟨cc, h3, h⟩ := do_ok h
  cases h
  constructor
  · obtain ⟨cc', h4, h5⟩ := mapM_perm _ hp h3
    refine ⟨m ++ b ++ cc'.flatten, ?_, h5.flatten.append_left _⟩
    rw [h1, h2, h4]
    rfl
  · intro c hc
    rcases List.mem_append.1 hc with hc | hc
    · rcases List.mem_append.1 hc with hc | hc
      · exact goodWeight_hard ((mask_spec nv s m h1).1 c hc)
      · exact goodWeight_hard (limits_hard h2 c hc)
    · obtain ⟨l1, g1, g2⟩ := List.mem_flatten.1 hc
      obtain ⟨k, g3, g4⟩ := mapM_mem _ h3 l1 g1
      exact hw k g3 l1 g4 c g2

theorem vars_inside {nv : Nat} {prob : Nat × List (VarState ℝ)} {qd sc : Option Nat} (h : VarsOK nv prob qd sc) :
    ∀ v ∈ prob.2, v.var.kStart + v.var.size ≤ prob.1 := by
  intro v hv
  have hm : v.var ∈ prob.2.map (·.var) := List.mem_map.2 ⟨v, hv, rfl⟩
  rcases h with ⟨-, -, h⟩ | ⟨-, -, h1, h2⟩ | ⟨-, -, h1, h2⟩
  · rw [h] at hv
    cases hv
  · rw [h2, List.mem_singleton] at hm
    rw [hm, h1]
    simp [Var.size]
  · rw [h2] at hm
    simp only [List.mem_cons, List.not_mem_nil, or_false] at hm
    rcases hm with hm | hm <;> rw [hm, h1] <;> simp [Var.size]

/-! ## The answer -/

/-- Contract of the external solvers: the QR factorisation and the QP solver are exact. -/
def QPEnv.Exact (env : QPEnv ℝ) : Prop := ExactQR env.qr ∧ ∀ qp, SolvesExactly qp (env.oracle qp)

theorem QPEnv.Exact.sound {env : QPEnv ℝ} (h : env.Exact) : env.Sound :=
  fun _ _ qp hqp => ⟨h.1.contract hqp, fun hi _ => ((h.2 qp).2 hi).2.1⟩

theorem QPEnv.Exact.optimal {env : QPEnv ℝ} (h : env.Exact) : env.Optimal :=
  fun _ _ qp _ hi _ => ((h.2 qp).2 hi).2.2

/-- Exact external solvers exist, with any regularisation and tolerances, with and without rewriting of the equalities: the contracts
`Sound` and `Optimal` can be met in every configuration of the solver. -/
theorem exact_env_exists (reg eps tol : ℝ) (rewrite : Bool) : ∃ env : QPEnv ℝ, env.Exact ∧ env.Sound ∧ env.Optimal ∧ env.regularization = reg ∧
    env.rewriteEqualities = rewrite ∧ env.eps = eps ∧ env.tol = tol := by
  obtain ⟨qr, hqr⟩ := exactQR_exists
  obtain ⟨oracle, ho⟩ := exact_solver_exists
  have h : (⟨reg, rewrite, eps, tol, qr, oracle⟩ : QPEnv ℝ).Exact := ⟨hqr, ho⟩
  exact ⟨_, h, h.sound, h.optimal, rfl, rfl, rfl, rfl⟩

/-- **C163 (inverse kinematics).** A solver reached by any history (`VarsOK`), with a positive regularisation, soft tasks of weights
that are not negative, constraints whose soft equalities have weights that are not negative and whose soft inequalities have positive
weights, and exact external solvers. When `solve` succeeds, it succeeds with the same result, the same robot state and the same scale
whatever the order of the tasks and of the constraints: the addresses of the tasks do not matter. -/
theorem C163 (env : QPEnv ℝ) (r : Robot ℝ) (tasks tasks' : List (Task ℝ)) (cons cons' : List (KConstraint ℝ)) (apply : Bool) (s s' : KState ℝ)
    (dq : Nat → ℝ) (hv : VarsOK r.nv s.prob s.qdVar s.scaleVar) (hfit : TasksFit r.nv s.robot tasks)
    (ht : tasks.Perm tasks') (hc : cons.Perm cons') (hreg : 0 < env.regularization) (htol : 0 ≤ env.tol)
    (hw : ∀ t ∈ tasks, t.priority = .soft → 0 ≤ t.weight)
    (hw' : ∀ k ∈ cons, ∀ st l, k.add st = .ok l → ∀ c ∈ l, GoodWeight c)
    (hex : env.Exact) (h : solve env r tasks cons apply s = (s', .ok dq)) : solve env r tasks' cons' apply s = (s', .ok dq) := by
  obtain ⟨hv1, hq1⟩ := ensureQd_vars r s hv
  have hrobot : (ensureQd r s).robot = s.robot := by unfold ensureQd; split <;> rfl
  unfold solve at h ⊢
  simp only at h ⊢
  generalize ensureQd r s = s1 at *
  rcases hrt : runTasks s1.robot ⟨s1.prob, s1.scaleVar, false, []⟩ tasks with ⟨st, _ | e⟩
  · obtain ⟨st', hrt', he⟩ := runTasks_perm s1.robot ht hrt
    obtain ⟨hinv, -, -⟩ := runTasks_spec r.nv s1.robot tasks ⟨s1.prob, s1.scaleVar, false, []⟩ ⟨hv1, fun h => by cases h⟩
      (by rw [hrobot]; exact hfit) st none hrt
    have hg := runTasks_good s1.robot tasks hw hrt (by simp)
    rw [hrt] at h
    rw [hrt']
    simp only at h ⊢
    rw [he.prob, he.scaleVar, he.hasScaling]
    have hvar : varAt st.prob 0 = ⟨0, r.nv⟩ := varAt_qd r.nv st.prob st.scaleVar hinv.1
    unfold afterTasks at h ⊢
    simp only [hq1, Option.getD_some, hvar] at h ⊢
    generalize hs2 : ({ s1 with prob := st.prob, qdVar := some 0, scaleVar := st.scaleVar, hasScaling := st.hasScaling } : KState ℝ) = s2 at h ⊢
    split at h
    · cases h
    · rename_i l hl
      obtain ⟨⟨l', hl', hp⟩, hgl⟩ := otherConstraints_perm hc (fun k hk => hw' k hk s2) hl
      rw [hl']
      simp only
      have hp2 : (st.cs ++ l).Perm (st'.cs ++ l') := (he.cs.append_right l).trans (hp.append_left _)
      have hprob : s2.prob = st.prob := by rw [← hs2]
      have good : ∀ c ∈ st.cs ++ l, GoodWeight c := by
        intro c hcm
        rcases List.mem_append.1 hcm with hcm | hcm
        exacts [hg c hcm, hgl c hcm]
      obtain ⟨k1, k2⟩ := C163_problem (env.settings s2.prob.1) rfl hreg env.qr
        hex.1 env.oracle hex.2 env.tol htol
        (st.cs ++ l) (st'.cs ++ l') hp2 (fun c hcm => (good c hcm).1) (fun c hcm => (good c hcm).2) ⟨s2.prob.2, []⟩
        (by rw [hprob]; exact vars_inside hinv.1)
      rw [← h]
      unfold finish
      simp only [k1, k2]
  · rw [hrt] at h
    cases h

/-! ## A case that meets the hypotheses -/

/-- A soft task on the coordinate `i`. -/
noncomputable def coordTask (i : Nat) (b w : ℝ) : Task ℝ :=
  ⟨.soft, w, fun _ => .ok ⟨1, 6, fun _ j => if j = i then 1 else 0, fun _ => b⟩⟩

/-- A floating base. -/
noncomputable def baseRobot : Robot ℝ :=
  { nq := 7, nv := 6, joints := [], lower := fun _ => 0, upper := fun _ => 0, vlim := fun _ => 0, integrate := fun q v i => q i + v i,
    difference := fun q q' i => q' i - q i }

noncomputable def baseState : KState ℝ := { robot := ⟨fun _ => 0, fun _ => 0, fun _ => 0⟩, jointLimits := false, dt := 0, scale := 1 }

/-- Exact external solvers exist, and with them two soft tasks on two coordinates are solved; so they are in both orders. -/
example : ∃ env : QPEnv ℝ, 0 < env.regularization ∧ 0 ≤ env.tol ∧ env.Exact ∧
    VarsOK baseRobot.nv baseState.prob baseState.qdVar baseState.scaleVar ∧
    TasksFit baseRobot.nv baseState.robot [coordTask 0 1 2, coordTask 1 3 4] ∧ ∃ s' dq,
      solve env baseRobot [coordTask 0 1 2, coordTask 1 3 4] [] true baseState = (s', .ok dq) ∧
      solve env baseRobot [coordTask 1 3 4, coordTask 0 1 2] [] true baseState = (s', .ok dq) := by
  obtain ⟨qr, hqr⟩ := exactQR_exists
  obtain ⟨oracle, ho⟩ := exact_solver_exists
  have hv : VarsOK baseRobot.nv baseState.prob baseState.qdVar baseState.scaleVar := .inl ⟨rfl, rfl, rfl⟩
  have hfit : TasksFit baseRobot.nv baseState.robot [coordTask 0 1 2, coordTask 1 3 4] := by
    intro t ht M hM
    simp only [List.mem_cons, List.not_mem_nil, or_false] at ht
    rcases ht with rfl | rfl <;> cases hM <;> exact Nat.le_refl _
  refine ⟨⟨1, true, 1, 0, qr, oracle⟩, one_pos, le_refl _, ⟨hqr, ho⟩, hv, hfit, ?_⟩
  generalize henv : (⟨1, true, 1, 0, qr, oracle⟩ : QPEnv ℝ) = env
  obtain ⟨c1, c2, hrun, p1, p2, w1, w2, hasm⟩ : ∃ c1 c2 : Constr ℝ, solve env baseRobot [coordTask 0 1 2, coordTask 1 3 4] [] true baseState =
      finish env baseRobot true [c1, c2] { baseState with prob := (6, [⟨⟨0, 6⟩, 0, []⟩]), qdVar := some 0 } ∧
      (c1.priority = .soft ∧ c1.ty = .equality) ∧ (c2.priority = .soft ∧ c2.ty = .equality) ∧ c1.weight = 2 ∧ c2.weight = 4 ∧
      ∃ qp, assemble (env.settings 6) env.qr [c1, c2] = .ok qp := by
    refine ⟨_, _, rfl, ⟨rfl, rfl⟩, ⟨rfl, rfl⟩, rfl, rfl, ?_⟩
    subst henv
    exact ⟨_, rfl⟩
  obtain ⟨qp, hqp⟩ := hasm
  have hmem : ∀ c ∈ [c1, c2], c.priority = .soft ∧ c.ty = .equality ∧ 0 ≤ c.weight := by
    intro c hc
    simp only [List.mem_cons, List.not_mem_nil, or_false] at hc
    rcases hc with rfl | rfl
    · exact ⟨p1.1, p1.2, by rw [w1]; norm_num⟩
    · exact ⟨p2.1, p2.2, by rw [w2]; norm_num⟩
  have hex : env.Exact := by subst henv; exact ⟨hqr, ho⟩
  have hregs : 0 < env.regularization := by subst henv; exact one_pos
  have htol : 0 ≤ env.tol := by subst henv; exact le_refl _
  have hok := (C144_solve_partial (env.settings 6) env.qr [c1, c2] qp (hex.1.contract hqp) (.inl (by subst henv; rfl)) hqp hregs
    (fun c hc _ => (hmem c hc).2.2) (fun c hc h => by simp [Constr.softIneq, (hmem c hc).2.1] at h) env.tol env.tol htol htol
    ⟨[⟨⟨0, 6⟩, 0, []⟩], []⟩ (by intro v hv; rw [List.mem_singleton] at hv; subst hv; exact Nat.le_refl _) env.oracle env.oracle (hex.2 qp) (hex.2 qp)).1.2
    ⟨fun _ => 0, fun c hc h => by rw [(hmem c hc).1] at h; cases h⟩
  have hfin : ∃ s' dq, solve env baseRobot [coordTask 0 1 2, coordTask 1 3 4] [] true baseState = (s', .ok dq) := by
    rw [hrun]
    unfold finish
    simp only [hok]
    exact ⟨_, _, rfl⟩
  obtain ⟨s', dq, hs⟩ := hfin
  refine ⟨s', dq, hs, ?_⟩
  refine C163 env baseRobot _ _ [] [] true baseState s' dq hv hfit (List.Perm.swap _ _ _) (List.Perm.refl _) hregs htol ?_ (by simp)
    hex hs
  intro t ht _
  simp only [List.mem_cons, List.not_mem_nil, or_false] at ht
  rcases ht with rfl | rfl <;> norm_num [coordTask]

end Verif.Kinematics
