/-
C169: what the variables, the constraints and the counters of a problem are after any
session of calls.
-/
import Mathlib.Algebra.BigOperators.Group.List.Basic
import Mathlib.Data.Rat.Defs
import Mathlib.Tactic.Linarith
import Verif.Problem.Session
import Verif.Problem.ProblemMiscProps
import Verif.Problem.ProblemSolveProps
import Verif.Problem.ProblemAssembled

namespace Verif.Problem
open Finset

/-! ## Specification, from what the caller saw -/

section
variable {K : Type}

/-- `clear_variables`. -/
def Ev.clearsVars : Ev K → Bool
  | .clearedVariables => true
  | _ => false

/-- `clear_constraints`. -/
def Ev.clearsCons : Ev K → Bool
  | .clearedConstraints => true
  | _ => false

/-- The events after the last one that satisfies `p`. -/
def since (p : Ev K → Bool) (log : List (Ev K)) : List (Ev K) := (log.reverse.takeWhile fun e => !p e).reverse

/-- Size of the variable added by an event. -/
def Ev.size : Ev K → Nat
  | .added _ s => s
  | _ => 0

/-- Total size of the variables added in `log`. -/
def sizes (log : List (Ev K)) : Nat := (log.map Ev.size).sum

/-- `x` after a `solve` that returned. -/
def Ev.solution : Ev K → Option (List K)
  | .solved x => some x
  | _ => none

/-- The solutions found in `log`, in order. -/
def solutions (log : List (Ev K)) : List (List K) := log.filterMap Ev.solution

/-- The settings `configure` gave to the constraint `h`. -/
def Ev.config (h : Nat) : Ev K → Option (String × K)
  | .configured h' t w => if h' = h then some (t, w) else none
  | _ => none

/-- The last settings given to the constraint `h` in `log`. -/
def lastConfig (h : Nat) (log : List (Ev K)) : Option (String × K) := (log.filterMap (Ev.config h)).getLast?

/-- The reference returned by a call. -/
def Ev.handle : Ev K → Option Nat
  | .added h _ => some h
  | .posted h _ => some h
  | _ => none

/-- What the variable is that starts at `start`, has `size` entries, and after whose creation
the events `post` happened: one version per solution, and its slice of the last one. -/
def expectedVar (start size : Nat) (post : List (Ev K)) : VarState K :=
  { var := ⟨start, start + size⟩
    version := (solutions post).length
    value := match (solutions post).getLast? with
      | none => []
      | some x => (x.drop start).take size }

/-- `c` as the calls of `configure` left it: the last one decides. -/
def expectedConstr (h : Nat) (c : Constr K) (post : List (Ev K)) : Constr K :=
  match lastConfig h post with
  | none => c
  | some (t, w) => { c with priority := if t = "hard" then .hard else .soft, weight := w }

theorem since_snoc (p : Ev K → Bool) (log : List (Ev K)) (e : Ev K) :
    since p (log ++ [e]) = if p e then [] else since p log ++ [e] := by
  unfold since
  rw [List.reverse_append, List.reverse_singleton, List.singleton_append]
  cases h : p e <;> simp [h]

theorem sizes_snoc (log : List (Ev K)) (e : Ev K) : sizes (log ++ [e]) = sizes log + e.size := by
  simp [sizes]

theorem solutions_snoc (log : List (Ev K)) (e : Ev K) :
    solutions (log ++ [e]) = solutions log ++ (match e.solution with | none => [] | some x => [x]) := by
  unfold solutions
  rw [List.filterMap_append]
  congr 1
  cases h : e.solution <;> simp [h]

/-- Splitting a list with one more element. -/
theorem snoc_split {α : Type} (l : List α) (e a : α) (mid post : List α) :
    l ++ [e] = mid ++ a :: post ↔
      (post = [] ∧ mid = l ∧ a = e) ∨ ∃ post', post = post' ++ [e] ∧ l = mid ++ a :: post' := by
  constructor
  · intro h
    rcases List.eq_nil_or_concat post with rfl | ⟨post', b, rfl⟩
    · left
      have := List.append_inj' h rfl
      simp only [List.cons.injEq, and_true] at this
      exact ⟨rfl, this.1.symm, this.2.symm⟩
    · right
      rw [List.concat_eq_append, ← List.cons_append, ← List.append_assoc] at h
      have := List.append_inj' h rfl
      simp only [List.cons.injEq, and_true] at this
      exact ⟨post', by rw [List.concat_eq_append, this.2], this.1⟩
  · rintro (⟨rfl, rfl, rfl⟩ | ⟨post', rfl, rfl⟩)
    · rfl
    · simp

end

section
variable {K : Type} [Field K] [LinearOrder K]

/-- What holds of a problem after the events `log`. -/
structure Agrees (p : Session K) (log : List (Ev K)) : Prop where
  /-- the variables added since the last `clear_variables` share the decision vector -/
  size : p.n = sizes (since Ev.clearsVars log)
  /-- they are consecutive, from `0` to `n_variables` -/
  chain : Chain 0 (p.vars.map (·.2.var)) p.n
  /-- the variables are those added since the last `clear_variables`, in their last state -/
  vars : ∀ h v, (h, v) ∈ p.vars ↔ ∃ mid size post, since Ev.clearsVars log = mid ++ Ev.added h size :: post ∧
    v = expectedVar (sizes mid) size post
  /-- the constraints are those added since the last `clear_constraints`, as last configured -/
  cons : ∀ h c, (∃ o ∈ p.cons, o.id = h ∧ o.c = c) ↔ ∃ mid c0 post,
    since Ev.clearsCons log = mid ++ Ev.posted h c0 :: post ∧ c = expectedConstr h c0 post
  /-- no two calls returned the same reference -/
  fresh : (log.filterMap Ev.handle).Nodup
  next : ∀ h ∈ log.filterMap Ev.handle, h < p.next

/-- Events that leave the variables alone. -/
theorem vars_same {p p' : Session K} {log : List (Ev K)} {ev : Ev K} (A : Agrees p log) (hv : p'.vars = p.vars)
    (hn : p'.n = p.n) (h1 : ev.clearsVars = false) (h2 : ev.solution = none) (h3 : ∀ h s, ev ≠ .added h s) :
    p'.n = sizes (since Ev.clearsVars (log ++ [ev])) ∧ Chain 0 (p'.vars.map (·.2.var)) p'.n ∧
    ∀ h v, (h, v) ∈ p'.vars ↔ ∃ mid size post, since Ev.clearsVars (log ++ [ev]) = mid ++ Ev.added h size :: post ∧
      v = expectedVar (sizes mid) size post := by
  have h0 : ev.size = 0 := by
    cases ev <;> first | rfl | exact absurd rfl (h3 _ _)
  rw [since_snoc, h1, hv, hn]
  simp only [Bool.false_eq_true, if_false]
  refine ⟨by rw [sizes_snoc, h0, A.size, Nat.add_zero], A.chain, fun h v => ?_⟩
  rw [A.vars]
  have hexp : ∀ start size post, expectedVar start size (post ++ [ev]) = expectedVar start size post := by
    intro start size post
    unfold expectedVar
    rw [solutions_snoc, h2]
    simp
  constructor
  · rintro ⟨mid, size, post, hs, rfl⟩
    exact ⟨mid, size, post ++ [ev], by rw [hs]; simp, (hexp _ _ _).symm⟩
  · rintro ⟨mid, size, post, hs, rfl⟩
    rcases (snoc_split _ _ _ _ _).1 hs with ⟨-, -, he⟩ | ⟨post', rfl, hl⟩
    · exact absurd he.symm (h3 _ _)
    · exact ⟨mid, size, post', hl, hexp _ _ _⟩

/-- Events that leave the constraints alone. -/
theorem cons_same {p p' : Session K} {log : List (Ev K)} {ev : Ev K} (A : Agrees p log)
    (hc : p'.cons.map (fun o => (o.id, o.c)) = p.cons.map (fun o => (o.id, o.c)))
    (h1 : ev.clearsCons = false) (h2 : ∀ h, ev.config h = none) (h3 : ∀ h c, ev ≠ .posted h c) :
    ∀ h c, (∃ o ∈ p'.cons, o.id = h ∧ o.c = c) ↔ ∃ mid c0 post,
      since Ev.clearsCons (log ++ [ev]) = mid ++ Ev.posted h c0 :: post ∧ c = expectedConstr h c0 post := by
  intro h c
  have hm : ∀ l : List (Owned K), (∃ o ∈ l, o.id = h ∧ o.c = c) ↔ (h, c) ∈ l.map (fun o => (o.id, o.c)) := by
    intro l
    simp [Prod.ext_iff]
  rw [hm, hc, ← hm, A.cons, since_snoc, h1]
  simp only [Bool.false_eq_true, if_false]
  have hexp : ∀ c0 post, expectedConstr h c0 (post ++ [ev]) = expectedConstr h c0 post := by
    intro c0 post
    unfold expectedConstr lastConfig
    rw [List.filterMap_append]
    simp [h2]
  constructor
  · rintro ⟨mid, c0, post, hs, rfl⟩
    exact ⟨mid, c0, post ++ [ev], by rw [hs]; simp, (hexp _ _).symm⟩
  · rintro ⟨mid, c0, post, hs, rfl⟩
    rcases (snoc_split _ _ _ _ _).1 hs with ⟨-, -, he⟩ | ⟨post', rfl, hl⟩
    · exact absurd he.symm (h3 _ _)
    · exact ⟨mid, c0, post', hl, hexp _ _⟩

theorem fresh_same {p p' : Session K} {log : List (Ev K)} {ev : Ev K} (A : Agrees p log) (h : ev.handle = none)
    (hn : p'.next = p.next) :
    ((log ++ [ev]).filterMap Ev.handle).Nodup ∧ ∀ h ∈ (log ++ [ev]).filterMap Ev.handle, h < p'.next := by
  rw [List.filterMap_append]
  simp only [List.filterMap_cons, h, List.filterMap_nil, List.append_nil, hn]
  exact ⟨A.fresh, A.next⟩

theorem fresh_new {p p' : Session K} {log : List (Ev K)} {ev : Ev K} (A : Agrees p log) (h : ev.handle = some p.next)
    (hn : p'.next = p.next + 1) :
    ((log ++ [ev]).filterMap Ev.handle).Nodup ∧ ∀ h ∈ (log ++ [ev]).filterMap Ev.handle, h < p'.next := by
  rw [List.filterMap_append]
  simp only [List.filterMap_cons, h, List.filterMap_nil, hn]
  constructor
  · rw [List.nodup_append]
    refine ⟨A.fresh, by simp, fun a ha b hb => ?_⟩
    have := A.next a ha
    simp only [List.mem_singleton] at hb
    omega
  · intro a ha
    rcases List.mem_append.1 ha with ha | ha
    · have := A.next a ha; omega
    · simp only [List.mem_singleton] at ha; omega

theorem putActive_map : ∀ (os : List (Owned K)) (as : List Bool),
    (putActive os as).map (fun o => (o.id, o.c)) = os.map (fun o => (o.id, o.c))
  | [], [] => rfl
  | [], _ :: _ => rfl
  | _ :: _, [] => rfl
  | o :: os, a :: as => by
    simp only [putActive, List.map_cons, putActive_map os as]

/-- The vector `x` of a call that reached the QP solver holds the point of the variables. -/
theorem xAfter_spec (s : Settings K) (qr : Nat → EqSt K → QR K) (cs : List (Constr K)) (qp : QP K)
    (h : assemble s qr cs = .ok qp) (r : QPResult K) :
    s.n ≤ (xAfter s.n qp r).length ∧
      ∀ i, i < s.n → (xAfter s.n qp r)[i]? = some (qp.recover s.n r.x i) := by
  have hf : qp.red = none → qp.free = s.n := by
    intro hr
    unfold assemble at h
    split at h
    · cases h
    · simp only at h
      split at h
      · cases h
      · split at h
        · cases h
        · cases h
          simp only at hr ⊢
          rw [hr]
  unfold xAfter QP.recover
  cases hr : qp.red with
  | none =>
    have := hf hr
    constructor
    · simp; omega
    · intro i hi
      simp only [List.getElem?_map]
      rw [List.getElem?_range (by omega)]
      rfl
  | some r' =>
    constructor
    · simp
    · intro i hi
      simp only [List.getElem?_map]
      rw [List.getElem?_range hi]
      rfl

/-- `solve` raises and leaves the variables alone, or returns and every variable is updated
from the recovered point; then every constraint fitted. -/
theorem solve_cases (s : Settings K) (qr : Nat → EqSt K → QR K) (oracle : QP K → QPResult K) (tol : K)
    (cs : List (Constr K)) (st : PState K) :
    (∃ e, (solve s qr oracle tol cs st).2 = .error e ∧ (solve s qr oracle tol cs st).1.vars = st.vars) ∨
    ((solve s qr oracle tol cs st).2 = .ok () ∧ ∃ qp, assemble s qr cs = .ok qp ∧ qp.dimMismatch = false ∧
      (solve s qr oracle tol cs st).1.vars = st.vars.map (updateVar (qp.recover s.n (oracle qp).x)) ∧
      ∀ c ∈ cs, ¬ Bad s.n c) := by
  unfold solve
  simp only
  cases h : assemble s qr cs with
  | error e => exact .inl ⟨e, rfl, rfl⟩
  | ok qp =>
    have hbad : ∀ c ∈ cs, ¬ Bad s.n c := by
      intro c hc hb
      unfold assemble at h
      split at h
      · cases h
      · simp only at h
        split at h
        · cases h
        · rw [check_error s.n cs ⟨c, hc, hb⟩] at h
          cases h
    simp only
    split
    · exact .inl ⟨_, rfl, rfl⟩
    · rename_i hd
      split
      · exact .inl ⟨_, rfl, rfl⟩
      · split
        · exact .inl ⟨_, rfl, rfl⟩
        · split
          · exact .inl ⟨_, rfl, rfl⟩
          · exact .inr ⟨rfl, qp, rfl, by simpa using hd, rfl, hbad⟩

/-- An event that changes neither variables nor constraints. -/
theorem quiet_agrees {p p' : Session K} {log : List (Ev K)} (A : Agrees p log) (ev : Ev K) (hv : p'.vars = p.vars)
    (hn : p'.n = p.n) (hc : p'.cons.map (fun o => (o.id, o.c)) = p.cons.map (fun o => (o.id, o.c)))
    (hx : p'.next = p.next) (h1 : ev.clearsVars = false) (h2 : ev.solution = none) (h3 : ∀ h, ev.config h = none)
    (h4 : ∀ h s, ev ≠ .added h s) (h5 : ∀ h c, ev ≠ .posted h c) (h6 : ev.clearsCons = false)
    (h7 : ev.handle = none) : Agrees p' (log ++ [ev]) := by
  obtain ⟨v1, v2, v3⟩ := vars_same A hv hn h1 h2 h4
  obtain ⟨f1, f2⟩ := fresh_same (p' := p') A h7 hx
  exact ⟨v1, v2, v3, cons_same A hc h6 h3 h5, f1, f2⟩

/-- A constraint is added. -/
theorem posted_agrees {p : Session K} {log : List (Ev K)} (A : Agrees p log) (c : Constr K) (a : Bool) :
    Agrees (p.addConstraint c a) (log ++ [Ev.posted p.next c]) := by
  obtain ⟨v1, v2, v3⟩ := vars_same (p' := p.addConstraint c a) (ev := Ev.posted p.next c) A rfl rfl rfl rfl
    (fun _ _ => by simp)
  obtain ⟨f1, f2⟩ := fresh_new (p' := p.addConstraint c a) (ev := Ev.posted p.next c) A rfl rfl
  refine ⟨v1, v2, v3, ?_, f1, f2⟩
  intro h d
  rw [since_snoc]
  simp only [Ev.clearsCons, Bool.false_eq_true, if_false, Session.addConstraint, List.mem_append, List.mem_singleton]
  have hexp : ∀ c0 post, expectedConstr h c0 (post ++ [Ev.posted p.next c]) = expectedConstr h c0 post := by
    intro c0 post
    unfold expectedConstr lastConfig
    rw [List.filterMap_append]
    simp [Ev.config]
  constructor
  · rintro ⟨o, ho | rfl, h1, h2⟩
    · obtain ⟨mid, c0, post, hs, rfl⟩ := (A.cons h d).1 ⟨o, ho, h1, h2⟩
      exact ⟨mid, c0, post ++ [_], by rw [hs]; simp, (hexp _ _).symm⟩
    · simp only at h1 h2
      subst h1 h2
      exact ⟨_, c, [], rfl, rfl⟩
  · rintro ⟨mid, c0, post, hs, rfl⟩
    rcases (snoc_split _ _ _ _ _).1 hs with ⟨rfl, rfl, he⟩ | ⟨post', rfl, hl⟩
    · cases he
      exact ⟨⟨p.next, c, a⟩, .inr rfl, rfl, rfl⟩
    · obtain ⟨o, ho, h1, h2⟩ := (A.cons h _).2 ⟨mid, c0, post', hl, rfl⟩
      exact ⟨o, .inl ho, h1, by rw [h2, hexp]⟩

/-- What `solve` does to the object: nothing to the sizes and the constraints; when it
returns every variable gets the next version and its slice of the new `x`; when it raises
no variable changes. -/
theorem session_solve (ext : Ext K) (p : Session K) :
    ((Session.solve ext p).1.n = p.n ∧ (Session.solve ext p).1.next = p.next ∧
      (Session.solve ext p).1.cons.map (fun o => (o.id, o.c)) = p.cons.map (fun o => (o.id, o.c))) ∧
    (∀ e, (Session.solve ext p).2 = .error e → (Session.solve ext p).1.vars = p.vars) ∧
    ((Session.solve ext p).2 = .ok () → p.n ≤ (Session.solve ext p).1.x.length ∧
      (∀ o ∈ p.cons, ¬ Bad p.n o.c) ∧
      (Chain 0 (p.vars.map (·.2.var)) p.n → (Session.solve ext p).1.vars = p.vars.map fun v =>
        (v.1, { v.2 with version := v.2.version + 1,
                         value := ((Session.solve ext p).1.x.drop v.2.var.kStart).take v.2.var.size }))) := by
  have hvz : ∀ l : List (Nat × VarState K), (l.map (·.1)).zip (l.map (·.2)) = l := by
    intro l
    induction l with
    | nil => rfl
    | cons a l ih => simp [ih]
  have hvz' : ∀ (f : VarState K → VarState K) (l : List (Nat × VarState K)),
      (l.map (·.1)).zip ((l.map (·.2)).map f) = l.map fun v => (v.1, f v.2) := by
    intro f l
    induction l with
    | nil => rfl
    | cons a l ih => simpa using ih
  have hS := solve_cases (p.settings ext.eps) ext.qr ext.oracle ext.tol (p.cons.map (·.c))
    ⟨p.vars.map (·.2), p.cons.map (·.active)⟩
  unfold Session.solve
  simp only
  rcases hS with ⟨e, h1, h2⟩ | ⟨h1, qp, h2, h3, h4, h5⟩
  · refine ⟨?_, ?_, ?_⟩
    · cases hA : assemble (p.settings ext.eps) ext.qr (p.cons.map (·.c)) with
      | error e' => exact ⟨rfl, rfl, putActive_map _ _⟩
      | ok qp =>
        simp only
        split
        · exact ⟨rfl, rfl, putActive_map _ _⟩
        · rw [h1]
          exact ⟨rfl, rfl, putActive_map _ _⟩
    · intro e' _
      cases hA : assemble (p.settings ext.eps) ext.qr (p.cons.map (·.c)) with
      | error e' => simp only [h2, hvz]
      | ok qp =>
        simp only
        split
        · simp only [h2, hvz]
        · rw [h1]
          simp only [h2, hvz]
    · intro h
      exfalso
      cases hA : assemble (p.settings ext.eps) ext.qr (p.cons.map (·.c)) with
      | error e' => rw [hA] at h; simp only [h1] at h; cases h
      | ok qp =>
        rw [hA] at h
        simp only at h
        split at h
        · rw [h1] at h; cases h
        · rw [h1] at h; cases h
  · rw [h2]
    simp only [h3, Bool.false_eq_true, if_false, h1]
    refine ⟨⟨trivial, trivial, putActive_map _ _⟩, (fun e h => by cases h), fun _ => ?_⟩
    obtain ⟨hl, hx⟩ := xAfter_spec (p.settings ext.eps) ext.qr _ qp h2 (ext.oracle qp)
    have hn : (p.settings ext.eps).n = p.n := rfl
    rw [hn] at hl hx h4 h5
    refine ⟨hl, fun o ho => h5 _ (List.mem_map_of_mem ho), fun hchain => ?_⟩
    rw [h4, hvz']
    refine List.map_congr_left fun v hv => ?_
    have hb := hchain.bounds v.2.var (List.mem_map_of_mem hv)
    refine Prod.ext rfl ?_
    unfold updateVar
    simp only [VarState.mk.injEq, true_and]
    apply List.ext_getElem?
    intro i
    by_cases hi : i < v.2.var.size
    · have hs : v.2.var.size = v.2.var.kEnd - v.2.var.kStart := rfl
      rw [List.getElem?_map, List.getElem?_range hi, List.getElem?_take, if_pos hi, List.getElem?_drop, hx _ (by omega)]
      rfl
    · rw [List.getElem?_eq_none (by simp; omega), List.getElem?_eq_none]
      rw [List.length_take]
      omega

theorem expected_solved (start size : Nat) (post : List (Ev K)) (x : List K) :
    expectedVar start size (post ++ [Ev.solved x])
      = { expectedVar start size post with
          version := (expectedVar start size post).version + 1, value := (x.drop start).take size } := by
  unfold expectedVar
  rw [solutions_snoc]
  simp [Ev.solution]

/-- Every call keeps the agreement. -/
theorem step_agrees (p p' : Session K) (op : SOp K) (ev : Ev K) (log : List (Ev K)) (A : Agrees p log)
    (h : p.step op = .ok (p', ev)) : Agrees p' (log ++ [ev]) := by
  cases op with
  | addVariable size =>
    simp only [Session.step, Except.ok.injEq, Prod.mk.injEq] at h
    obtain ⟨rfl, rfl⟩ := h
    obtain ⟨hf, hn⟩ := fresh_new (p' := { p with n := p.n + size, vars := p.vars ++ [(p.next, { var := ⟨p.n, p.n + size⟩ })], next := p.next + 1 })
      (ev := .added p.next size) A rfl rfl
    refine ⟨?_, ?_, ?_, cons_same A rfl rfl (fun _ => rfl) (fun _ _ => by simp), hf, hn⟩
    · rw [since_snoc]
      simp only [Ev.clearsVars, Bool.false_eq_true, if_false]
      rw [sizes_snoc, ← A.size]
      rfl
    · rw [List.map_append]
      exact A.chain.snoc (by omega)
    · intro h v
      rw [List.mem_append, A.vars, since_snoc]
      simp only [Ev.clearsVars, Bool.false_eq_true, if_false, List.mem_singleton, Prod.mk.injEq]
      have hexp : ∀ a b post, expectedVar a b (post ++ [Ev.added (K := K) p.next size]) = expectedVar a b post := by
        intro a b post
        unfold expectedVar
        rw [solutions_snoc]
        simp [Ev.solution]
      constructor
      · rintro (⟨mid, s, post, hs, rfl⟩ | ⟨rfl, rfl⟩)
        · exact ⟨mid, s, post ++ [_], by rw [hs]; simp, (hexp _ _ _).symm⟩
        · refine ⟨_, size, [], rfl, ?_⟩
          rw [← A.size]
          rfl
      · rintro ⟨mid, s, post, hs, rfl⟩
        rcases (snoc_split _ _ _ _ _).1 hs with ⟨rfl, rfl, he⟩ | ⟨post', rfl, hl⟩
        · right
          cases he
          refine ⟨rfl, ?_⟩
          rw [← A.size]
          rfl
        · left
          exact ⟨mid, s, post', hl, hexp _ _ _⟩
  | addConstraint c a =>
    simp only [Session.step, Except.ok.injEq, Prod.mk.injEq] at h
    obtain ⟨rfl, rfl⟩ := h
    exact posted_agrees A c a
  | addLimit e t =>
    simp only [Session.step] at h
    cases hl : addLimit e t with
    | error er =>
      rw [hl] at h
      have : p' = p ∧ ev = .failed er := by
        cases er <;> simp_all
      obtain ⟨rfl, rfl⟩ := this
      exact quiet_agrees A _ rfl rfl rfl rfl rfl rfl (fun _ => rfl) (fun _ _ => by simp) (fun _ _ => by simp) rfl rfl
    | ok c =>
      rw [hl] at h
      simp only [Except.ok.injEq, Prod.mk.injEq] at h
      obtain ⟨rfl, rfl⟩ := h
      exact posted_agrees A c false
  | configure h0 t w =>
    simp only [Session.step] at h
    split at h
    · rename_i hany
      simp only [Except.ok.injEq, Prod.mk.injEq] at h
      obtain ⟨rfl, rfl⟩ := h
      obtain ⟨v1, v2, v3⟩ := vars_same (p' := { p with cons := p.cons.map fun o => if o.id = h0 then { o with c := o.c.configure t w } else o })
        (ev := Ev.configured h0 t w) A rfl rfl rfl rfl (fun _ _ => by simp)
      obtain ⟨f1, f2⟩ := fresh_same (p' := { p with cons := p.cons.map fun o => if o.id = h0 then { o with c := o.c.configure t w } else o })
        (ev := Ev.configured h0 t w) A rfl rfl
      refine ⟨v1, v2, v3, ?_, f1, f2⟩
      intro h c
      rw [since_snoc]
      simp only [Ev.clearsCons, Bool.false_eq_true, if_false, List.mem_map, exists_exists_and_eq_and]
      have hexp : ∀ c0 post, expectedConstr h c0 (post ++ [Ev.configured h0 t w]) =
          if h0 = h then (expectedConstr h c0 post).configure t w else expectedConstr h c0 post := by
        intro c0 post
        unfold expectedConstr lastConfig
        rw [List.filterMap_append]
        by_cases hh : h0 = h
        · rw [if_pos hh]
          simp only [List.filterMap_cons, Ev.config, if_pos hh, List.filterMap_nil, List.getLast?_append,
            List.getLast?_singleton, Option.some_or]
          cases (List.filterMap (Ev.config h) post).getLast? <;> rfl
        · rw [if_neg hh]
          simp [Ev.config, hh]
      constructor
      · rintro ⟨o, ho, h1, h2⟩
        by_cases hh : o.id = h0
        · rw [if_pos hh] at h1 h2
          obtain ⟨mid, c0, post, hs, hc⟩ := (A.cons o.id o.c).1 ⟨o, ho, rfl, rfl⟩
          simp only at h1 h2
          rw [h1] at hs hc
          refine ⟨mid, c0, post ++ [Ev.configured h0 t w], (by rw [hs]; simp), ?_⟩
          rw [hexp, if_pos (by omega), ← hc, h2]
        · rw [if_neg hh] at h1 h2
          obtain ⟨mid, c0, post, hs, hc⟩ := (A.cons o.id o.c).1 ⟨o, ho, rfl, rfl⟩
          rw [h1] at hs hc
          refine ⟨mid, c0, post ++ [Ev.configured h0 t w], (by rw [hs]; simp), ?_⟩
          rw [hexp, if_neg (by omega), ← hc, h2]
      · rintro ⟨mid, c0, post, hs, rfl⟩
        rcases (snoc_split _ _ _ _ _).1 hs with ⟨-, -, he⟩ | ⟨post', rfl, hl⟩
        · cases he
        · obtain ⟨o, ho, h1, h2⟩ := (A.cons h _).2 ⟨mid, c0, post', hl, rfl⟩
          refine ⟨o, ho, ?_⟩
          rw [hexp]
          by_cases hh : h0 = h
          · rw [if_pos hh, if_pos (by omega), ← h2]
            exact ⟨h1, rfl⟩
          · rw [if_neg hh, if_neg (by omega)]
            exact ⟨h1, h2⟩
    · cases h
  | clearConstraints =>
    simp only [Session.step, Except.ok.injEq, Prod.mk.injEq] at h
    obtain ⟨rfl, rfl⟩ := h
    obtain ⟨v1, v2, v3⟩ := vars_same (p' := { p with cons := [] }) (ev := Ev.clearedConstraints) A rfl rfl rfl rfl
      (fun _ _ => by simp)
    obtain ⟨f1, f2⟩ := fresh_same (p' := { p with cons := [] }) (ev := Ev.clearedConstraints) A rfl rfl
    refine ⟨v1, v2, v3, ?_, f1, f2⟩
    intro h c
    rw [since_snoc]
    simp [Ev.clearsCons]
  | clearVariables =>
    simp only [Session.step, Except.ok.injEq, Prod.mk.injEq] at h
    obtain ⟨rfl, rfl⟩ := h
    obtain ⟨f1, f2⟩ := fresh_same (p' := { p with vars := [], n := 0 }) (ev := Ev.clearedVariables) A rfl rfl
    refine ⟨?_, .nil _, ?_, cons_same A rfl rfl (fun _ => rfl) (fun _ _ => by simp), f1, f2⟩
    · rw [since_snoc]
      simp [Ev.clearsVars, sizes]
    · intro h v
      rw [since_snoc]
      simp [Ev.clearsVars]
  | setOptions r s w =>
    simp only [Session.step, Except.ok.injEq, Prod.mk.injEq] at h
    obtain ⟨rfl, rfl⟩ := h
    exact quiet_agrees A _ rfl rfl rfl rfl rfl rfl (fun _ => rfl) (fun _ _ => by simp) (fun _ _ => by simp) rfl rfl
  | solve ext =>
    simp only [Session.step] at h
    obtain ⟨⟨s1, s2, s3⟩, s4, s5⟩ := session_solve ext p
    generalize hr : Session.solve ext p = r at h s1 s2 s3 s4 s5
    obtain ⟨q, res⟩ := r
    cases res with
    | error e =>
      have : p' = q ∧ ev = .failed e := by
        cases e <;> simp_all
      obtain ⟨rfl, rfl⟩ := this
      exact quiet_agrees A _ (s4 e rfl) s1 s3 s2 rfl rfl (fun _ => rfl) (fun _ _ => by simp) (fun _ _ => by simp) rfl rfl
    | ok u =>
      simp only [Except.ok.injEq, Prod.mk.injEq] at h
      obtain ⟨rfl, rfl⟩ := h
      obtain ⟨s6, -, s7⟩ := s5 rfl
      have s7 := s7 A.chain
      simp only at s1 s2 s3 s6 s7
      obtain ⟨f1, f2⟩ := fresh_same (p' := q) (ev := Ev.solved q.x) A rfl s2
      refine ⟨?_, ?_, ?_, cons_same A s3 rfl (fun _ => rfl) (fun _ _ => by simp), f1, f2⟩
      · rw [since_snoc]
        simp only [Ev.clearsVars, Bool.false_eq_true, if_false]
        rw [sizes_snoc, s1, A.size]
        rfl
      · rw [s1, s7, List.map_map]
        exact A.chain
      · intro h v
        rw [since_snoc]
        simp only [Ev.clearsVars, Bool.false_eq_true, if_false]
        rw [s7, List.mem_map]
        constructor
        · rintro ⟨⟨h', v'⟩, hm, he⟩
          simp only [Prod.mk.injEq] at he
          obtain ⟨rfl, rfl⟩ := he
          obtain ⟨mid, s, post, hs, rfl⟩ := (A.vars h' v').1 hm
          refine ⟨mid, s, post ++ [Ev.solved q.x], (by rw [hs]; simp), ?_⟩
          rw [expected_solved]
          simp [expectedVar, Var.size]
        · rintro ⟨mid, s, post, hs, rfl⟩
          rcases (snoc_split _ _ _ _ _).1 hs with ⟨-, -, he⟩ | ⟨post', rfl, hl⟩
          · cases he
          · refine ⟨(h, expectedVar (sizes mid) s post'), (A.vars _ _).2 ⟨mid, s, post', hl, rfl⟩, ?_⟩
            rw [expected_solved]
            simp [expectedVar, Var.size]

theorem run_agrees : ∀ (ops : List (SOp K)) (p q : Session K) (log evs : List (Ev K)), Agrees p log →
    p.run ops = .ok (q, evs) → Agrees q (log ++ evs)
  | [], p, q, log, evs, A, h => by
    simp only [Session.run, Except.ok.injEq, Prod.mk.injEq] at h
    obtain ⟨rfl, rfl⟩ := h
    rwa [List.append_nil]
  | op :: ops, p, q, log, evs, A, h => by
    rw [Session.run] at h
    cases h1 : p.step op with
    | error e => rw [h1] at h; cases h
    | ok r =>
      obtain ⟨p', ev⟩ := r
      rw [h1] at h
      simp only at h
      cases h2 : p'.run ops with
      | error e => rw [h2] at h; cases h
      | ok r =>
        obtain ⟨q', evs'⟩ := r
        rw [h2] at h
        simp only [Except.ok.injEq, Prod.mk.injEq] at h
        obtain ⟨rfl, rfl⟩ := h
        have := run_agrees ops p' q' (log ++ [ev]) evs' (step_agrees p p' op ev log A h1) h2
        simpa using this


/-- **C169, partial.** Full statement: at every moment of a session, whatever the calls and
their order, a reference gives what the calls say, `x` is made of the values of the variables,
a constraint is about the variables it was written with, and the report tells the numbers of
variables, equalities and inequalities. Proved here for all sessions that stay defined: the
variables share `0 .. n_variables` in the order of their creation; each of them has one
version per successful `solve` since its creation and holds its slice of the last solution;
the constraints are those added since the last `clear_constraints`, as last configured, and
independent of each other; references are never reused. Missing: `x` after a `solve` that
raised (`C169_x_refuted`), constraints that outlive their variables
(`C169_stale_refuted`), the number of equalities in the report (`C169_report_refuted`). -/
theorem C169_partial (reg : K) (sp rw : Bool) (ops : List (SOp K)) (q : Session K) (evs : List (Ev K))
    (h : Session.run { regularization := reg, useSparsity := sp, rewriteEqualities := rw } ops = .ok (q, evs)) :
    Agrees q evs := by
  have := run_agrees ops { regularization := reg, useSparsity := sp, rewriteEqualities := rw } q [] evs
    ⟨rfl, .nil _, (by intro h v; simp [since]), (by intro h c; simp [since]), (by simp), (by simp)⟩ h
  simpa using this

/-- The result of `solve` is that of the model of C16. -/
theorem session_result (ext : Ext K) (p : Session K) : (Session.solve ext p).2 =
    (solve (p.settings ext.eps) ext.qr ext.oracle ext.tol (p.cons.map (·.c))
      ⟨p.vars.map (·.2), p.cons.map (·.active)⟩).2 := by
  unfold Session.solve
  simp only
  cases assemble (p.settings ext.eps) ext.qr (p.cons.map (·.c)) with
  | error e => rfl
  | ok qp =>
    simp only
    split
    · rfl
    · generalize (solve (p.settings ext.eps) ext.qr ext.oracle ext.tol (p.cons.map (·.c))
        ⟨p.vars.map (·.2), p.cons.map (·.active)⟩).2 = r
      cases r <;> rfl

theorem sum_pos_iff (cs : List (Constr K)) (f : Constr K → Bool) (hr : ∀ c ∈ cs, 0 < c.expr.rows) :
    0 < (cs.map fun c => if f c then c.expr.rows else 0).sum ↔ ∃ c ∈ cs, f c = true := by
  induction cs with
  | nil => simp
  | cons c cs ih =>
    have h1 := hr c (by simp)
    have h2 := ih fun d hd => hr d (by simp [hd])
    rw [List.map_cons, List.sum_cons]
    cases hf : f c with
    | true =>
      simp only [if_true]
      exact ⟨fun _ => ⟨c, by simp, hf⟩, fun _ => by omega⟩
    | false =>
      simp only [Bool.false_eq_true, if_false, Nat.zero_add, h2, List.mem_cons, exists_eq_or_imp, hf, false_or]

/-- Constraints that fit pass the checks. -/
theorem check_fits (n : Nat) : ∀ l : List (Constr K), (∀ c ∈ l, ¬ Bad n c) → ∃ u, l.mapM (checkConstr n) = .ok u := by
  intro l
  induction l with
  | nil => intro _; exact ⟨[], rfl⟩
  | cons a l ih =>
    intro hl
    have ha := hl a (by simp)
    obtain ⟨u, hu⟩ := ih fun c hc => hl c (by simp [hc])
    have h1 : checkConstr n a = .ok () := by
      unfold checkConstr
      unfold Bad at ha
      rw [if_neg (by omega), if_neg (by omega), if_neg (by omega)]
    rw [List.mapM_cons, h1, hu]
    exact ⟨_, rfl⟩

/-- When `solve` is undefined. -/
theorem solve_ub_iff (ext : Ext K) (p : Session K) : (Session.solve ext p).2 = .error .ub ↔
    ((∃ o ∈ p.cons, o.c.ty = .equality ∧ o.c.priority = .hard ∧ (p.n < o.c.expr.cols ∨ o.c.brows ≠ o.c.expr.rows)) ∨
     (p.rewriteEqualities = false ∧ (∀ o ∈ p.cons, ¬ Bad p.n o.c) ∧
      (∃ o ∈ p.cons, o.c.ty = .equality ∧ o.c.priority = .hard) ∧
      ∃ o ∈ p.cons, o.c.ty = .inequality ∧ o.c.priority = .soft)) := by
  have hub : equalitiesUB p.n (p.cons.map (·.c)) = true ↔
      ∃ o ∈ p.cons, o.c.ty = .equality ∧ o.c.priority = .hard ∧ (p.n < o.c.expr.cols ∨ o.c.brows ≠ o.c.expr.rows) := by
    unfold equalitiesUB Constr.hardEq
    simp [and_assoc]
  rw [session_result]
  constructor
  · intro h
    rcases C18_only_qp_error _ _ _ _ _ _ _ h with h1 | ⟨-, h1 | ⟨qp, h1, h2⟩⟩
    · cases h1
    · exact .inl (hub.1 h1)
    · right
      have B := assembled_of_ok h1
      have hbad : ∀ o ∈ p.cons, ¬ Bad p.n o.c := by
        intro o ho hb
        have := B.ok o.c (List.mem_map_of_mem ho)
        have hn : (p.settings ext.eps).n = p.n := rfl
        unfold Bad at hb
        omega
      have hrows : ∀ c ∈ p.cons.map (·.c), 0 < c.expr.rows := fun c hc => (B.ok c hc).2.1
      unfold QP.dimMismatch at h2
      simp only [Bool.and_eq_true, decide_eq_true_eq] at h2
      obtain ⟨h3, h4⟩ := h2
      rw [B.nEq] at h3
      split at h3
      · omega
      · rename_i hrw
        rw [B.eqCols, if_neg hrw, B.free, B.red, if_neg hrw, B.slack] at h4
        have hns : 0 < nSlack (p.cons.map (·.c)) := by
          simp only at h4
          omega
        have he := (sum_pos_iff _ _ hrows).1 h3
        have hs := (sum_pos_iff _ _ hrows).1 hns
        simp only [List.mem_map, exists_exists_and_eq_and, Constr.hardEq, Constr.softIneq, Bool.and_eq_true,
          decide_eq_true_eq] at he hs
        refine ⟨?_, hbad, he, hs⟩
        cases hre : p.rewriteEqualities with
        | false => rfl
        | true =>
          exfalso
          apply hrw
          show (p.rewriteEqualities && _) = true
          rw [hre]
          simpa using h3
  · intro h
    by_cases hu : equalitiesUB p.n (p.cons.map (·.c)) = true
    · have : assemble (p.settings ext.eps) ext.qr (p.cons.map (·.c)) = .error .ub := by
        unfold assemble
        exact if_pos hu
      unfold solve
      simp only [this]
    · rcases h with h | ⟨hre, hfit, he, hs⟩
      · exact absurd (hub.2 h) hu
      · have hrows : ∀ c ∈ p.cons.map (·.c), 0 < c.expr.rows := by
          intro c hc
          obtain ⟨o, ho, rfl⟩ := List.mem_map.1 hc
          have := hfit o ho
          unfold Bad at this
          omega
        have hrw : ((p.settings ext.eps).rewriteEqualities && decide (0 < nEqualities (p.cons.map (·.c)))) = false := by
          show (p.rewriteEqualities && _) = false
          rw [hre]; rfl
        obtain ⟨qp, hqp⟩ : ∃ qp, assemble (p.settings ext.eps) ext.qr (p.cons.map (·.c)) = .ok qp := by
          obtain ⟨u, hu'⟩ := check_fits p.n (p.cons.map (·.c)) (by
            intro c hc
            obtain ⟨o, ho, rfl⟩ := List.mem_map.1 hc
            exact hfit o ho)
          have hu'' : (p.cons.map (·.c)).mapM (checkConstr (p.settings ext.eps).n) = .ok u := hu'
          unfold assemble
          rw [if_neg (show ¬ equalitiesUB (p.settings ext.eps).n (p.cons.map (·.c)) = true from hu)]
          simp only [hrw, Bool.false_and, Bool.false_eq_true, if_false]
          rw [hu'']
          exact ⟨_, rfl⟩
        have B := assembled_of_ok hqp
        have h3 : 0 < nEqualities (p.cons.map (·.c)) := by
          refine (sum_pos_iff _ _ hrows).2 ?_
          simpa [Constr.hardEq] using he
        have h4 : 0 < nSlack (p.cons.map (·.c)) := by
          refine (sum_pos_iff _ _ hrows).2 ?_
          simpa [Constr.softIneq] using hs
        have hd : qp.dimMismatch = true := by
          unfold QP.dimMismatch
          rw [B.nEq, B.eqCols, B.free, B.red, hrw, B.slack]
          simp only [Bool.false_eq_true, if_false, Bool.and_eq_true, decide_eq_true_eq]
          exact ⟨h3, by omega⟩
        unfold solve
        simp only [hqp, hd, if_true]

/-! ## Reading through a reference -/

theorem split_unique (h : Nat) : ∀ (l mid mid' post post' : List (Ev K)) (a a' : Ev K), (l.filterMap Ev.handle).Nodup →
    a.handle = some h → a'.handle = some h → l = mid ++ a :: post → l = mid' ++ a' :: post' →
    mid = mid' ∧ a = a' ∧ post = post' := by
  intro l mid
  induction mid generalizing l with
  | nil =>
    intro mid' post post' a a' hn ha ha' h1 h2
    cases mid' with
    | nil =>
      rw [h1] at h2
      simp only [List.nil_append, List.cons.injEq] at h2
      exact ⟨rfl, h2.1, h2.2⟩
    | cons b mid' =>
      exfalso
      rw [h1] at h2
      simp only [List.nil_append, List.cons_append, List.cons.injEq] at h2
      obtain ⟨rfl, rfl⟩ := h2
      rw [h1, List.nil_append, List.filterMap_cons, ha, List.filterMap_append, List.filterMap_cons, ha'] at hn
      simp at hn
  | cons b mid ih =>
    intro mid' post post' a a' hn ha ha' h1 h2
    cases mid' with
    | nil =>
      exfalso
      rw [h2] at h1
      simp only [List.nil_append, List.cons_append, List.cons.injEq] at h1
      obtain ⟨rfl, rfl⟩ := h1
      rw [h2, List.nil_append, List.filterMap_cons, ha', List.filterMap_append, List.filterMap_cons, ha] at hn
      simp at hn
    | cons b' mid' =>
      rw [h1] at h2
      simp only [List.cons_append, List.cons.injEq] at h2
      obtain ⟨rfl, h2⟩ := h2
      have hn' : ((mid ++ a :: post).filterMap Ev.handle).Nodup := by
        rw [h1, List.cons_append, List.filterMap_cons] at hn
        split at hn
        · exact hn
        · exact (List.nodup_cons.1 hn).2
      obtain ⟨rfl, rfl, rfl⟩ := ih _ mid' post post' a a' hn' ha ha' rfl h2
      exact ⟨rfl, rfl, rfl⟩

theorem since_suffix (p : Ev K → Bool) (log : List (Ev K)) : since p log <:+ log := by
  unfold since
  have := List.takeWhile_prefix (fun e => !p e) (l := log.reverse)
  have h2 := List.reverse_suffix.2 this
  rwa [List.reverse_reverse] at h2

/-- **C169 (reading).** Reading the value of a variable gives its slice of the last solution
found since it was added (nothing if there is none); it is undefined exactly for the variables
that `clear_variables` freed and for references that were never given. -/
theorem C169_read (p : Session K) (log : List (Ev K)) (A : Agrees p log) (h : Nat) :
    (∀ mid size post, since Ev.clearsVars log = mid ++ Ev.added h size :: post →
      p.readValue h = .ok (match (solutions post).getLast? with
        | none => []
        | some x => (x.drop (sizes mid)).take size)) ∧
    ((∀ mid size post, since Ev.clearsVars log ≠ mid ++ Ev.added h size :: post) → p.readValue h = .error .ub) := by
  have hnd : ((since Ev.clearsVars log).filterMap Ev.handle).Nodup :=
    A.fresh.sublist ((since_suffix _ _).sublist.filterMap _)
  unfold Session.readValue
  constructor
  · intro mid size post hs
    have hm := (A.vars h _).2 ⟨mid, size, post, hs, rfl⟩
    cases hf : p.vars.find? (fun v => decide (v.1 = h)) with
    | none =>
      have := List.find?_eq_none.1 hf _ hm
      simp at this
    | some v =>
      have h1 : v.1 = h := by simpa using List.find?_some hf
      have h2 := List.mem_of_find?_eq_some hf
      obtain ⟨h', v'⟩ := v
      simp only at h1
      subst h1
      obtain ⟨mid', size', post', hs', rfl⟩ := (A.vars h' v').1 h2
      obtain ⟨rfl, he, rfl⟩ := split_unique h' _ _ _ _ _ _ _ hnd rfl rfl hs hs'
      cases he
      rfl
  · intro hno
    cases hf : p.vars.find? (fun v => decide (v.1 = h)) with
    | none => rfl
    | some v =>
      exfalso
      have h1 : v.1 = h := by simpa using List.find?_some hf
      have h2 := List.mem_of_find?_eq_some hf
      obtain ⟨h', v'⟩ := v
      simp only at h1
      subst h1
      obtain ⟨mid', size', post', hs', -⟩ := (A.vars h' v').1 h2
      exact hno _ _ _ hs'

/-- **C169 (undefined calls).** The calls that are undefined: configuring a constraint that
`clear_constraints` freed, and a `solve` with a hard equality that is out of range or, without
rewriting, with a hard equality and a soft inequality. All other calls return or raise. -/
theorem C169_undefined [IsStrictOrderedRing K] (p : Session K) (log : List (Ev K)) (A : Agrees p log) (op : SOp K) (e : Err) :
    p.step op = .error e ↔ e = .ub ∧
      ((∃ h t w, op = .configure h t w ∧ ∀ mid c post, since Ev.clearsCons log ≠ mid ++ Ev.posted h c :: post) ∨
       (∃ ext, op = .solve ext ∧
        ((∃ o ∈ p.cons, o.c.ty = .equality ∧ o.c.priority = .hard ∧ (p.n < o.c.expr.cols ∨ o.c.brows ≠ o.c.expr.rows)) ∨
         (p.rewriteEqualities = false ∧ (∀ o ∈ p.cons, ¬ Bad p.n o.c) ∧
          (∃ o ∈ p.cons, o.c.ty = .equality ∧ o.c.priority = .hard) ∧
          ∃ o ∈ p.cons, o.c.ty = .inequality ∧ o.c.priority = .soft)))) := by
  cases op with
  | addVariable s => simp [Session.step]
  | addConstraint c a => simp [Session.step]
  | clearConstraints => simp [Session.step]
  | clearVariables => simp [Session.step]
  | setOptions r s w => simp [Session.step]
  | addLimit ex t =>
    have : ∀ er, addLimit ex t = .error er → er = .runtimeError := by
      intro er her
      by_cases hd : t.size = ex.rows
      · obtain ⟨c, hc, -⟩ := C08_add_limit ex t hd
        rw [hc] at her; cases her
      · rw [C08_add_limit_mismatch ex t hd] at her
        cases her; rfl
    simp only [Session.step, reduceCtorEq, false_and, exists_false, or_false, and_false, iff_false]
    cases hl : addLimit ex t with
    | error er => rw [this er hl]; simp
    | ok c => simp
  | configure h t w =>
    have hal : (p.cons.any (fun o => decide (o.id = h)) = true) ↔
        ∃ mid c post, since Ev.clearsCons log = mid ++ Ev.posted h c :: post := by
      rw [List.any_eq_true]
      constructor
      · rintro ⟨o, ho, hid⟩
        obtain ⟨mid, c0, post, hs, -⟩ := (A.cons h o.c).1 ⟨o, ho, by simpa using hid, rfl⟩
        exact ⟨mid, c0, post, hs⟩
      · rintro ⟨mid, c0, post, hs⟩
        obtain ⟨o, ho, hid, -⟩ := (A.cons h _).2 ⟨mid, c0, post, hs, rfl⟩
        exact ⟨o, ho, by simpa using hid⟩
    simp only [Session.step]
    by_cases hany : p.cons.any (fun o => decide (o.id = h)) = true
    · rw [if_pos hany]
      constructor
      · intro hh; cases hh
      · rintro ⟨-, ⟨h', t', w', he, hno⟩ | ⟨ext, he, -⟩⟩
        · cases he
          obtain ⟨mid, c, post, hs⟩ := hal.1 hany
          exact absurd hs (hno _ _ _)
        · cases he
    · rw [if_neg hany]
      constructor
      · intro hh
        cases hh
        exact ⟨rfl, .inl ⟨h, t, w, rfl, fun mid c post hs => hany (hal.2 ⟨mid, c, post, hs⟩)⟩⟩
      · rintro ⟨rfl, -⟩; rfl
  | solve ext =>
    have hsol : p.step (.solve ext) = .error e ↔ e = .ub ∧ (Session.solve ext p).2 = .error .ub := by
      simp only [Session.step]
      generalize Session.solve ext p = r
      obtain ⟨q, res⟩ := r
      cases res with
      | ok u => simp
      | error er => cases er <;> simp [eq_comm]
    rw [hsol, solve_ub_iff]
    constructor
    · rintro ⟨rfl, hh⟩
      exact ⟨rfl, .inr ⟨ext, rfl, hh⟩⟩
    · rintro ⟨rfl, ⟨_, _, _, he, -⟩ | ⟨ext', he, hh⟩⟩
      · cases he
      · exact ⟨rfl, hh⟩

/-! ## `x` and the report -/

theorem chain_flatten (x : List K) {a b : Nat} {l : List Var} (h : Chain a l b) :
    (l.map fun v => (x.drop v.kStart).take v.size).flatten = (x.drop a).take (b - a) := by
  induction h with
  | nil a => simp
  | cons a m b l hm hl ih =>
    have hb := hl.le
    rw [List.map_cons, List.flatten_cons, ih, show b - a = (m - a) + (b - m) by omega, List.take_add, List.drop_drop,
      show a + (m - a) = m by omega]
    rfl

theorem solved_of_step {p p' : Session K} {ext : Ext K} {x : List K} (h : p.step (.solve ext) = .ok (p', .solved x)) :
    ∃ q, Session.solve ext p = (q, .ok ()) ∧ q = p' ∧ q.x = x := by
  simp only [Session.step] at h
  generalize Session.solve ext p = r at h
  obtain ⟨q, res⟩ := r
  cases res with
  | error e => cases e <;> simp at h
  | ok u =>
    simp only [Except.ok.injEq, Prod.mk.injEq, Ev.solved.injEq] at h
    exact ⟨q, rfl, h.1, by rw [← h.2, h.1]⟩

/-- The counters and `x` left by a `solve` that returned. -/
theorem solved_state {p q : Session K} {ext : Ext K} (h : Session.solve ext p = (q, .ok ())) :
    ∃ qp, assemble (p.settings ext.eps) ext.qr (p.cons.map (·.c)) = .ok qp ∧
      q.counters = countersAfter (p.settings ext.eps) ext.qr (p.cons.map (·.c)) ∧
      q.x = xAfter p.n qp (ext.oracle qp) ∧
      q.slacks = (List.range qp.slack).map fun k => (ext.oracle qp).x (qp.free + k) := by
  have hr := session_result ext p
  rw [h] at hr
  rcases solve_cases (p.settings ext.eps) ext.qr ext.oracle ext.tol (p.cons.map (·.c))
    ⟨p.vars.map (·.2), p.cons.map (·.active)⟩ with ⟨e, h1, -⟩ | ⟨h1, qp, h2, h3, -, -⟩
  · rw [h1] at hr; cases hr
  · refine ⟨qp, h2, ?_⟩
    unfold Session.solve at h
    simp only [h2, h3, Bool.false_eq_true, if_false, h1, Prod.mk.injEq, and_true] at h
    rw [← h]
    exact ⟨rfl, rfl, rfl⟩

/-- **C169 (x).** After a `solve` that returned, `x` starts with the values of the variables
in order. It has one entry per variable, followed by the slack variables unless equalities
were eliminated; `slacks` holds the slack variables in both cases. -/
theorem C169_x (p p' : Session K) (log : List (Ev K)) (A : Agrees p log) (ext : Ext K) (x : List K)
    (h : p.step (.solve ext) = .ok (p', .solved x)) :
    p'.x = x ∧ (p'.vars.map (·.2.value)).flatten = x.take p'.n ∧
      x.length = p'.n + (if p'.counters.determined = 0 then p'.counters.slack else 0) ∧
      p'.slacks.length = p'.counters.slack ∧ (p'.counters.determined = 0 → p'.slacks = x.drop p'.n) := by
  obtain ⟨-, -, s5⟩ := session_solve ext p
  obtain ⟨s1, -⟩ := (session_solve ext p).1
  obtain ⟨q, hq, rfl, rfl⟩ := solved_of_step h
  obtain ⟨qp, hqp, hc, hx, hsl⟩ := solved_state hq
  rw [hq] at s1 s5
  obtain ⟨-, -, s7⟩ := s5 rfl
  have s7 := s7 A.chain
  simp only at s1 s7
  have B := assembled_of_ok hqp
  refine ⟨rfl, ?_, ?_, ?_, ?_⟩
  · have h1 : q.vars.map (·.2.value) = (p.vars.map (·.2.var)).map fun v => (q.x.drop v.kStart).take v.size := by
      rw [s7]
      simp only [List.map_map]
      rfl
    rw [h1, chain_flatten _ A.chain, s1]
    simp
  · rw [hx, s1]
    have hl : ∀ b : Bool, ((p.settings ext.eps).rewriteEqualities && decide (0 < nEqualities (p.cons.map (·.c)))) = b →
        (xAfter p.n qp (ext.oracle qp)).length
          = p.n + if q.counters.determined = 0 then q.counters.slack else 0 := by
      intro b hb
      have hred := B.red
      have hfree := B.free
      have hslack := B.slack
      cases b with
      | true =>
        have hr := B.rank hb
        have hpos : 0 < nEqualities (p.cons.map (·.c)) := of_decide_eq_true (Bool.and_eq_true _ _ ▸ hb).2
        rw [hb, if_pos rfl] at hred
        have hd : q.counters.determined = nEqualities (p.cons.map (·.c)) := by
          rw [hc]
          unfold countersAfter
          simp only [hb, hr, ne_eq, not_true_eq_false, if_true, if_false]
        unfold xAfter
        rw [hred, if_neg (by omega)]
        simp
      | false =>
        rw [hb, if_neg (by simp)] at hred
        have hd : q.counters.determined = 0 ∧ q.counters.slack = nSlack (p.cons.map (·.c)) := by
          rw [hc]
          unfold countersAfter
          simp only [hb, Bool.false_eq_true, if_false, and_self]
        unfold xAfter
        rw [hred] at hfree ⊢
        simp only [List.length_map, List.length_range]
        rw [if_pos hd.1, hd.2, hfree, hslack]
        rfl
    exact hl _ rfl
  · rw [hsl, List.length_map, List.length_range, B.slack, hc]
    unfold countersAfter
    dsimp only
    split
    · split <;> rfl
    · rfl
  · intro h0
    have hrw : ((p.settings ext.eps).rewriteEqualities && decide (0 < nEqualities (p.cons.map (·.c)))) = false := by
      by_contra hb
      rw [Bool.not_eq_false] at hb
      have hr := B.rank hb
      have hpos : 0 < nEqualities (p.cons.map (·.c)) := of_decide_eq_true (Bool.and_eq_true _ _ ▸ hb).2
      rw [hc] at h0
      unfold countersAfter at h0
      simp only [hb, hr, ne_eq, not_true_eq_false, if_true, if_false] at h0
      omega
    have hred := B.red
    have hfree := B.free
    rw [hrw, if_neg (by simp)] at hred
    rw [hred] at hfree
    have hfree : qp.free = p.n := hfree
    rw [hsl, hx, s1]
    unfold xAfter
    rw [hred]
    simp only
    apply List.ext_getElem?
    intro i
    rw [List.getElem?_drop, List.getElem?_map, List.getElem?_map, hfree]
    by_cases hi : i < qp.slack
    · rw [List.getElem?_range hi, List.getElem?_range (by omega)]
      rfl
    · rw [List.getElem?_eq_none (by simp; omega), List.getElem?_eq_none (by simp; omega)]
      rfl

theorem putActive_active : ∀ (os : List (Owned K)) (as : List Bool), os.length = as.length →
    (putActive os as).map (·.active) = as
  | [], [], _ => rfl
  | o :: os, a :: as, h => by
    simp only [putActive, List.map_cons, putActive_active os as (by simpa using h)]

theorem solve_flags (s : Settings K) (qr : Nat → EqSt K → QR K) (oracle : QP K → QPResult K) (tol : K)
    (cs : List (Constr K)) (st : PState K) : (solve s qr oracle tol cs st).1.isActive.length = cs.length := by
  have h0 : (initActive cs).length = cs.length := by simp [initActive]
  have h1 : ∀ (m : Nat → Option Nat) (l : List Int) (act : List Bool),
      (l.foldl (markHard m) act).length = act.length := by
    intro m l act
    rw [markHard_eq, markAll_length]
  have h2 : ∀ (t : K) (m : Nat → Option Nat) (sv : Nat → K) (l : List Nat) (act : List Bool),
      (l.foldl (markSoft t m sv) act).length = act.length := by
    intro t m sv l act
    rw [markSoft_eq, markAll_length]
  unfold solve
  simp only
  cases assemble s qr cs with
  | error e => exact h0
  | ok qp =>
    simp only
    split
    · exact h0
    · split
      · exact h0
      · split
        · exact h0
        · split
          · exact h0
          · simp only [h2, h1, h0]

/-- **C169 (flags).** The flags of C17 are put on the constraints they are about, whether
`solve` returns or raises. -/
theorem C169_flags (ext : Ext K) (p : Session K) : (Session.solve ext p).1.cons.map (fun o => (o.id, o.active)) =
    (p.cons.map (·.id)).zip (solve (p.settings ext.eps) ext.qr ext.oracle ext.tol (p.cons.map (·.c))
      ⟨p.vars.map (·.2), p.cons.map (·.active)⟩).1.isActive := by
  have hc : (Session.solve ext p).1.cons = putActive p.cons (solve (p.settings ext.eps) ext.qr ext.oracle ext.tol
      (p.cons.map (·.c)) ⟨p.vars.map (·.2), p.cons.map (·.active)⟩).1.isActive := by
    unfold Session.solve
    simp only
    cases assemble (p.settings ext.eps) ext.qr (p.cons.map (·.c)) with
    | error e => rfl
    | ok qp =>
      simp only
      split
      · rfl
      · split <;> rfl
  have hl := solve_flags (p.settings ext.eps) ext.qr ext.oracle ext.tol (p.cons.map (·.c))
    ⟨p.vars.map (·.2), p.cons.map (·.active)⟩
  rw [hc]
  generalize (solve (p.settings ext.eps) ext.qr ext.oracle ext.tol (p.cons.map (·.c))
    ⟨p.vars.map (·.2), p.cons.map (·.active)⟩).1.isActive = as at hl
  have h1 := putActive_active p.cons as (by simpa using hl.symm)
  have h2 := congrArg (List.map Prod.fst) (putActive_map p.cons as)
  simp only [List.map_map] at h2
  have h3 : (putActive p.cons as).map (fun o => (o.id, o.active))
      = ((putActive p.cons as).map (·.id)).zip ((putActive p.cons as).map (·.active)) := by
    rw [List.zip_map', ]
  rw [h3, h1]
  congr 1

/-- **C169 (fit).** A `solve` that returns had only constraints that fit the variables. -/
theorem C169_fits (p p' : Session K) (ext : Ext K) (x : List K) (h : p.step (.solve ext) = .ok (p', .solved x)) :
    ∀ o ∈ p.cons, o.c.expr.cols ≤ p.n ∧ 0 < o.c.expr.rows ∧ o.c.brows = o.c.expr.rows := by
  obtain ⟨q, hq, rfl, rfl⟩ := solved_of_step h
  obtain ⟨qp, hqp, -⟩ := solved_state hq
  intro o ho
  exact (assembled_of_ok hqp).ok o.c (List.mem_map_of_mem ho)

/-- Number of rows of the constraints of a kind. -/
def rowsOf (p : Session K) (ty : CType) (prio : Priority → Bool) : Nat :=
  ((p.cons.filter fun o => decide (o.c.ty = ty) && prio o.c.priority).map fun o => o.c.expr.rows).sum

theorem rowsOf_sum (os : List (Owned K)) (f : Owned K → Bool) :
    ((os.map fun o => if f o then o.c.expr.rows else 0)).sum = ((os.filter f).map fun o => o.c.expr.rows).sum := by
  induction os with
  | nil => rfl
  | cons o os ih =>
    rw [List.map_cons, List.sum_cons, ih]
    cases hf : f o <;> simp [hf]

theorem scanned_all (n : Nat) : ∀ cs : List (Constr K), (∀ c ∈ cs, ¬ Bad n c) → scannedIneq n cs = nInequalities cs
  | [], _ => rfl
  | c :: cs, h => by
    have ha := h c (by simp)
    have h1 : checkConstr n c = .ok () := by
      unfold checkConstr
      unfold Bad at ha
      rw [if_neg (by omega), if_neg (by omega), if_neg (by omega)]
    rw [scannedIneq, h1]
    simp only
    rw [scanned_all n cs fun d hd => h d (by simp [hd])]
    unfold nInequalities
    rw [List.map_cons, List.sum_cons]

/-- **C169 (counters).** After a `solve` that returned, the counters are the numbers of rows:
of the inequalities, of the soft inequalities (slack variables), and of the hard equalities,
which are counted as determined variables with rewriting and as equalities without. The
determined and the free variables add up to the variables. -/
theorem C169_counters (p p' : Session K) (ext : Ext K) (x : List K) (h : p.step (.solve ext) = .ok (p', .solved x))
    (hqr : QRContract (p.settings ext.eps) ext.qr (p.cons.map (·.c))) :
    p'.counters.nInequalities = rowsOf p .inequality (fun _ => true) ∧
    p'.counters.slack = rowsOf p .inequality (fun pr => decide (pr = .soft)) ∧
    p'.counters.determined = (if p.rewriteEqualities then rowsOf p .equality (fun pr => decide (pr = .hard)) else 0) ∧
    p'.counters.nEqualities = (if p.rewriteEqualities then 0 else rowsOf p .equality (fun pr => decide (pr = .hard))) ∧
    p'.counters.free + p'.counters.determined = p'.n := by
  obtain ⟨s1, -⟩ := (session_solve ext p).1
  obtain ⟨q, hq, rfl, rfl⟩ := solved_of_step h
  obtain ⟨qp, hqp, hc, hx, -⟩ := solved_state hq
  rw [hq] at s1
  simp only at s1
  have B := assembled_of_ok hqp
  have e1 : nInequalities (p.cons.map (·.c)) = rowsOf p .inequality (fun _ => true) := by
    unfold nInequalities rowsOf
    rw [List.map_map, ← rowsOf_sum]
    simp [Function.comp_def]
  have e2 : nSlack (p.cons.map (·.c)) = rowsOf p .inequality (fun pr => decide (pr = .soft)) := by
    unfold nSlack rowsOf Constr.softIneq
    rw [List.map_map, ← rowsOf_sum]
    rfl
  have e3 : nEqualities (p.cons.map (·.c)) = rowsOf p .equality (fun pr => decide (pr = .hard)) := by
    unfold nEqualities rowsOf Constr.hardEq
    rw [List.map_map, ← rowsOf_sum]
    rfl
  have hfit : ∀ c ∈ p.cons.map (·.c), ¬ Bad (p.settings ext.eps).n c := by
    intro c hc hb
    have := B.ok c hc
    unfold Bad at hb
    omega
  have e4 := scanned_all _ _ hfit
  have hn : (p.settings ext.eps).n = p.n := rfl
  have hrw : (p.settings ext.eps).rewriteEqualities = p.rewriteEqualities := rfl
  rw [hc, s1, ← e1, ← e2, ← e3]
  unfold countersAfter
  rw [e4, hn, hrw]
  cases hre : p.rewriteEqualities with
  | false => simp
  | true =>
    by_cases hp : 0 < nEqualities (p.cons.map (·.c))
    · have hb : ((p.settings ext.eps).rewriteEqualities && decide (0 < nEqualities (p.cons.map (·.c)))) = true := by
        rw [hrw, hre]; simpa using hp
      have hr := B.rank hb
      have hle := (hqr hb).rank_le
      rw [hn] at hle
      simp only [hp, decide_true, Bool.and_self, if_true, hr, ne_eq, not_true_eq_false, if_false, true_and]
      omega
    · have h0 : nEqualities (p.cons.map (·.c)) = 0 := by omega
      simp [h0]

end

/-! ## Concrete sessions -/

/-- A QP solver that returns the given point, and that it is infeasible or not. -/
def fakeExt (infeasible : Bool) (v : Nat → ℚ) : Ext ℚ :=
  ⟨idQR, fun _ => ⟨infeasible, v, false, []⟩, 1 / 1000000, 0⟩

/-- A session with two variables, `x0 == 3` and a soft `-x1 >= 0`, solved, after which a third
variable is added: the first two hold their values, the third has none yet; `x` has two
entries. -/
example : ∃ q evs, Session.run { regularization := (1 / 10 : ℚ) }
      [.addVariable 1, .addVariable 1, .addConstraint demoEq false, .addConstraint demoSoftIneq true,
       .configure 3 "hard" 5, .solve (fakeExt false fun _ => 0), .addVariable 2] = .ok (q, evs) ∧
    q.vars.map (fun v => (v.1, v.2.var.kStart, v.2.var.kEnd, v.2.version, v.2.value))
      = [(0, 0, 1, 1, [3]), (1, 1, 2, 1, [0]), (4, 2, 4, 0, [])] ∧
    q.x = [3, 0] ∧ q.cons.map (fun o => (o.id, decide (o.c.priority = .hard), o.c.weight))
      = [(2, true, 1), (3, true, 5)] ∧
    q.counters = ⟨0, 1, 0, 1, 1⟩ := by
  refine ⟨_, _, rfl, ?_, ?_, ?_, ?_⟩ <;> decide +kernel

/-- **C169, refuted: `x`.** After a `solve` that raises `QPError`, `x` is the point the QP
solver gave up with, while the variables keep the values of the last solution: here `x` is
`[7]` and the variable is `[2]`. -/
theorem C169_x_refuted : ∃ (ops : List (SOp ℚ)) (q : Session ℚ) (evs : List (Ev ℚ)),
    Session.run { regularization := (1 / 10 : ℚ) } ops = .ok (q, evs) ∧
    evs.map (fun e => e.solution.isSome) = [false, true, false] ∧
    q.vars.map (·.2.value) = [[2]] ∧ q.x = [7] := by
  refine ⟨[.addVariable 1, .solve (fakeExt false fun _ => 2), .solve (fakeExt true fun _ => 7)], _, _, rfl, ?_, ?_, ?_⟩ <;>
    decide +kernel

/-- **C169, refuted: stale constraints.** A constraint written about one variable (`x0 == 3`)
stays in the problem when the variables are cleared; it is then silently applied to the
variable created next: the new variable is solved to `3`. -/
theorem C169_stale_refuted : ∃ (q : Session ℚ) (evs : List (Ev ℚ)),
    Session.run { regularization := (1 / 10 : ℚ) }
      [.addVariable 1, .addConstraint demoEq false, .clearVariables, .addVariable 1,
       .solve (fakeExt false fun _ => 0)] = .ok (q, evs) ∧
    q.readValue 0 = .error .ub ∧ q.readValue 2 = .ok [3] := by
  refine ⟨_, _, rfl, ?_, ?_⟩ <;> decide +kernel

/-- **C169, refuted: report.** With the default settings, the report after solving a problem
with one equality says that there are no equalities. -/
theorem C169_report_refuted : ∃ (q : Session ℚ) (evs : List (Ev ℚ)),
    Session.run { regularization := (1 / 10 : ℚ) }
      [.addVariable 2, .addConstraint demoEq false, .solve (fakeExt false fun _ => 0)] = .ok (q, evs) ∧
    rowsOf q .equality (fun pr => decide (pr = .hard)) = 1 ∧
    q.dumpStatus = ["Problem status:", "  - Variables: 2", "  - Inequalities: 0", "  - Equalities: 0",
      "  - Slack variables: 0", "  - Determined variables: 1", "  - Free variables: 1", "  - Using sparsity"] := by
  refine ⟨_, _, rfl, ?_, ?_⟩ <;> decide +kernel

/-- The undefined calls of `C169_undefined` occur: configuring a freed constraint, and solving
after the variables of a hard equality were cleared. -/
example : Session.run { regularization := (1 / 10 : ℚ) }
    [.addVariable 1, .addConstraint demoEq false, .clearConstraints, .configure 1 "soft" 1] = .error .ub ∧
  Session.run { regularization := (1 / 10 : ℚ) }
    [.addVariable 1, .addConstraint demoEq false, .clearVariables, .solve (fakeExt false fun _ => 0)] = .error .ub := by
  constructor <;> rfl

end Verif.Problem
