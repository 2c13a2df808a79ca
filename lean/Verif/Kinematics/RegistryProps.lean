/-
Ownership of tasks, constraints and contacts (C50, C51).
-/
import Verif.Kinematics.Registry

namespace Verif.Registry

/-! ## Specification: which histories a caller may produce

The specification keeps its own account of the objects, from the calls only: who created them, and
whether the solver must have released them. -/

/-- What the caller knows of an address. -/
inductive View where
  | none
  | mine
  | solvers
  | gone
  deriving DecidableEq

/-- The caller's account: the objects, and what is registered where. -/
structure Account where
  view : Nat → View := fun _ => .none
  reg : Nat → Nat → Prop := fun _ _ => False

/-- The calls a caller may make: it uses live objects only, gives objects of a solver to no other solver (`home`), does not
destroy what is registered, and destroys only its own objects. -/
def Account.Legal (home : Nat → Nat) (c : Account) : Op → Prop
  | .callerNew a => c.view a = .none
  | .callerDelete a => c.view a = .mine ∧ ∀ k, ¬ c.reg k a
  | .addOwned k a => c.view a = .none ∧ home a = k
  | .addRef k a => c.view a = .mine ∨ (c.view a = .solvers ∧ home a = k)
  | .remove k a => c.view a = .mine ∨ (c.view a = .solvers ∧ home a = k)
  | .removeFrame k p o => p ≠ o ∧ (c.view p = .mine ∨ (c.view p = .solvers ∧ home p = k)) ∧
      (c.view o = .mine ∨ (c.view o = .solvers ∧ home o = k))
  | .clear _ => True

/-- A solver releases an object of its own. -/
def Account.release (c : Account) (k a : Nat) : Account :=
  ⟨fun b => if b = a ∧ c.view a = .solvers then .gone else c.view b, fun i b => c.reg i b ∧ ¬ (i = k ∧ b = a)⟩

/-- The documented effect of a call on the account. -/
noncomputable def Account.step (c : Account) : Op → Account
  | .callerNew a => { c with view := fun b => if b = a then .mine else c.view b }
  | .callerDelete a => { c with view := fun b => if b = a then .gone else c.view b }
  | .addOwned k a => ⟨fun b => if b = a then .solvers else c.view b, fun i b => c.reg i b ∨ (i = k ∧ b = a)⟩
  | .addRef k a => { c with reg := fun i b => c.reg i b ∨ (i = k ∧ b = a) }
  | .remove k a => c.release k a
  | .removeFrame k p o => (c.release k p).release k o
  | .clear k => ⟨fun b => open Classical in if c.reg k b ∧ c.view b = .solvers then .gone else c.view b,
      fun i b => c.reg i b ∧ i ≠ k⟩

/-- All calls of a history are legal. -/
def Account.AllLegal (home : Nat → Nat) : Account → List Op → Prop
  | _, [] => True
  | c, op :: ops => c.Legal home op ∧ (c.step op).AllLegal home ops

/-- The account after a history. -/
noncomputable def Account.run (c : Account) (ops : List Op) : Account := ops.foldl Account.step c

/-! ## Agreement of the machine with the account -/

/-- The machine agrees with the account. -/
structure Agree (home : Nat → Nat) (s : St) (c : Account) : Prop where
  status : ∀ a, (s.heap a).status = .alive ↔ c.view a = .mine ∨ c.view a = .solvers
  unborn : ∀ a, c.view a = .none → (s.heap a).status = .unborn
  flag : ∀ a, (s.heap a).status = .alive → ((s.heap a).solverMemory = true ↔ c.view a = .solvers)
  reg : ∀ k a, a ∈ s.reg k ↔ c.reg k a
  nodup : ∀ k, (s.reg k).Nodup
  live : ∀ k a, a ∈ s.reg k → (s.heap a).status = .alive
  homed : ∀ k a, c.reg k a → c.view a = .solvers → home a = k
  noLeak : ∀ a, c.view a = .solvers → c.reg (home a) a
  deletedNodup : s.deleted.Nodup
  deleted : ∀ a ∈ s.deleted, (s.heap a).status = .freed ∧ c.view a = .gone

theorem Agree.init (home : Nat → Nat) : Agree home {} {} where
  status a := by simp
  unborn a _ := rfl
  flag a h := by cases h
  reg k a := by simp
  nodup k := List.nodup_nil
  live k a h := by cases h
  homed k a h := by cases h
  noLeak a h := by cases h
  deletedNodup := List.nodup_nil
  deleted a h := by cases h

theorem set_heap (s : St) (a b : Nat) (c : Cell) : (s.set a c).heap b = if b = a then c else s.heap b := rfl
theorem setReg_reg (s : St) (k i : Nat) (l : List Nat) : (s.setReg k l).reg i = if i = k then l else s.reg i := rfl

theorem remove_ok (home : Nat → Nat) (s : St) (c : Account) (h : Agree home s c) (k a : Nat)
    (hl : c.view a = .mine ∨ (c.view a = .solvers ∧ home a = k)) :
    ∃ s', s.remove k a = .ok s' ∧ Agree home s' (c.release k a) := by
  have hal : (s.heap a).status = .alive := (h.status a).2 (hl.imp_right And.left)
  have hmem : ∀ i b, b ∈ (s.setReg k ((s.reg k).filter (· ≠ a))).reg i ↔ b ∈ s.reg i ∧ ¬ (i = k ∧ b = a) := by
    intro i b
    rw [setReg_reg]
    by_cases hi : i = k
    · subst hi; simp
    · simp [hi]
  have hnd : ∀ i, ((s.setReg k ((s.reg k).filter (· ≠ a))).reg i).Nodup := by
    intro i
    rw [setReg_reg]
    by_cases hi : i = k
    · rw [if_pos hi]; exact (h.nodup k).filter _
    · rw [if_neg hi]; exact h.nodup i
  unfold St.remove St.deleteIfOwned
  rw [if_neg (show ¬ ((s.setReg k ((s.reg k).filter (· ≠ a))).heap a).status ≠ .alive from fun hn => hn hal)]
  by_cases hs : c.view a = .solvers
  · have hf : (s.heap a).solverMemory = true := (h.flag a hal).2 hs
    have hk : home a = k := by
      rcases hl with hl | hl
      · rw [hs] at hl; cases hl
      · exact hl.2
    rw [if_pos (show ((s.setReg k ((s.reg k).filter (· ≠ a))).heap a).solverMemory = true from hf)]
    unfold St.delete
    rw [if_pos (show ((s.setReg k ((s.reg k).filter (· ≠ a))).heap a).status = .alive from hal)]
    refine ⟨_, rfl, ?_⟩
    have hnot : ∀ i, ¬ (a ∈ s.reg i ∧ ¬ (i = k ∧ a = a)) := by
      rintro i ⟨h1, h2⟩
      exact h2 ⟨((h.homed i a ((h.reg i a).1 h1) hs).symm.trans hk), rfl⟩
    constructor
    · intro b
      show ((if b = a then _ else s.heap b) : Cell).status = .alive ↔ _
      unfold Account.release
      by_cases hb : b = a
      · subst hb; simp [hs]
      · simp only [if_neg hb, hb, false_and, if_false]; exact h.status b
    · intro b hv
      unfold Account.release at hv
      by_cases hb : b = a
      · subst hb; simp [hs] at hv
      · simp only [hb, false_and, if_false] at hv
        show ((if b = a then _ else s.heap b) : Cell).status = .unborn
        rw [if_neg hb]; exact h.unborn b hv
    · intro b
      show ((if b = a then _ else s.heap b) : Cell).status = .alive → (((if b = a then _ else s.heap b) : Cell).solverMemory = true ↔ _)
      unfold Account.release
      by_cases hb : b = a
      · subst hb; simp
      · simp only [if_neg hb, hb, false_and, if_false]; exact h.flag b
    · intro i b
      show b ∈ (s.setReg k ((s.reg k).filter (· ≠ a))).reg i ↔ _
      rw [hmem, h.reg]; rfl
    · exact hnd
    · intro i b hb
      have hb : b ∈ (s.setReg k ((s.reg k).filter (· ≠ a))).reg i := hb
      rw [hmem] at hb
      show ((if b = a then _ else s.heap b) : Cell).status = .alive
      by_cases hba : b = a
      · subst hba; exact absurd hb (hnot i)
      · rw [if_neg hba]; exact h.live i b hb.1
    · intro i b hr hv
      unfold Account.release at hr hv
      by_cases hb : b = a
      · subst hb; simp [hs] at hv
      · simp only [hb, false_and, if_false] at hv
        exact h.homed i b hr.1 hv
    · intro b hv
      unfold Account.release at hv ⊢
      by_cases hb : b = a
      · subst hb; simp [hs] at hv
      · simp only [hb, false_and, if_false] at hv
        exact ⟨h.noLeak b hv, fun hh => hb hh.2⟩
    · show (a :: s.deleted).Nodup
      refine List.nodup_cons.2 ⟨fun ha => ?_, h.deletedNodup⟩
      have := (h.deleted a ha).1
      rw [hal] at this; cases this
    · intro b hb
      have hb : b ∈ a :: s.deleted := hb
      show ((if b = a then _ else s.heap b) : Cell).status = .freed ∧ _
      unfold Account.release
      by_cases hba : b = a
      · subst hba; simp [hs]
      · simp only [if_neg hba, hba, false_and, if_false]
        exact h.deleted b ((List.mem_cons.1 hb).resolve_left hba)
  · have hf : ¬ (s.heap a).solverMemory = true := fun hf => hs ((h.flag a hal).1 hf)
    rw [if_neg (show ¬ ((s.setReg k ((s.reg k).filter (· ≠ a))).heap a).solverMemory = true from hf)]
    refine ⟨_, rfl, ?_⟩
    have hview : ∀ b, (c.release k a).view b = c.view b := by
      intro b
      unfold Account.release
      simp only
      rw [if_neg fun hh => hs hh.2]
    constructor
    · intro b; rw [hview]; exact h.status b
    · intro b; rw [hview]; exact h.unborn b
    · intro b; rw [hview]; exact h.flag b
    · intro i b; rw [hmem, h.reg]; rfl
    · exact hnd
    · intro i b hb; rw [hmem] at hb; exact h.live i b hb.1
    · intro i b hr; rw [hview]; exact h.homed i b hr.1
    · intro b hv
      rw [hview] at hv
      refine ⟨h.noLeak b hv, fun hh => ?_⟩
      rw [hh.2] at hv
      exact hs hv
    · exact h.deletedNodup
    · intro b hb; rw [hview]; exact h.deleted b hb

theorem removeFrame_eq (s : St) (k p o : Nat) (s1 : St) (h1 : s.remove k p = .ok s1) :
    p ≠ o → s.removeFrame k p o = s1.remove k o := by
  intro hpo
  unfold St.remove St.deleteIfOwned at h1
  unfold St.removeFrame St.remove
  simp only
  unfold St.deleteIfOwned
  have hheap : ∀ l, (((s.setReg k ((s.reg k).filter (· ≠ p))).setReg k l).heap p) = s.heap p := fun _ => rfl
  simp only [hheap]
  have hheap' : (s.setReg k ((s.reg k).filter (· ≠ p))).heap p = s.heap p := rfl
  simp only [hheap'] at h1
  by_cases ha : (s.heap p).status ≠ .alive
  · rw [if_pos ha] at h1; cases h1
  rw [if_neg ha] at h1 ⊢
  by_cases hf : (s.heap p).solverMemory = true
  · rw [if_pos hf] at h1 ⊢
    unfold St.delete at h1 ⊢
    have ha' : (s.heap p).status = .alive := not_not.1 ha
    simp only [hheap'] at h1
    simp only [hheap]
    rw [if_pos ha'] at h1 ⊢
    cases h1
    simp only [bind, Except.bind]
    rfl
  · rw [if_neg hf] at h1 ⊢
    cases h1
    rfl

theorem deleteAll_ok (home : Nat → Nat) (k : Nat) : ∀ (l : List Nat) (s : St) (view : Nat → View),
    l.Nodup → (∀ a ∈ l, (s.heap a).status = .alive) →
    (∀ a ∈ l, ((s.heap a).solverMemory = true ↔ view a = .solvers)) →
    ∃ s', deleteAll s l = .ok s' ∧ s'.reg = s.reg ∧
      (∀ a, s'.heap a = if a ∈ l ∧ view a = .solvers then { s.heap a with status := .freed } else s.heap a) ∧
      ∃ d, s'.deleted = d ++ s.deleted ∧ d.Nodup ∧ ∀ a, a ∈ d ↔ a ∈ l ∧ view a = .solvers := by
  intro l
  induction l with
  | nil => intro s view _ _ _; exact ⟨s, rfl, rfl, fun a => by simp, [], rfl, List.nodup_nil, by simp⟩
  | cons a l ih =>
    intro s view hn hal hfl
    have ha := hal a (List.mem_cons_self ..)
    have hf := hfl a (List.mem_cons_self ..)
    obtain ⟨hal', hn'⟩ := List.nodup_cons.1 hn
    simp only [deleteAll]
    unfold St.deleteIfOwned
    rw [if_neg (not_not.2 ha)]
    by_cases hs : (s.heap a).solverMemory = true
    · rw [if_pos hs]
      unfold St.delete
      rw [if_pos ha]
      simp only [bind, Except.bind]
      have hheap : ∀ b ∈ l, ({ s.set a { s.heap a with status := .freed } with deleted := a :: s.deleted } : St).heap b = s.heap b := by
        intro b hb
        show (if b = a then _ else s.heap b) = _
        rw [if_neg]
        rintro rfl; exact hal' hb
      obtain ⟨s', h1, h2, h3, d, h4, h5, h6⟩ := ih
        { s.set a { s.heap a with status := .freed } with deleted := a :: s.deleted } view hn'
        (fun b hb => by rw [hheap b hb]; exact hal b (List.mem_cons_of_mem _ hb))
        (fun b hb => by rw [hheap b hb]; exact hfl b (List.mem_cons_of_mem _ hb))
      refine ⟨s', h1, h2, fun b => ?_, d ++ [a], ?_, ?_, fun b => ?_⟩
      · rw [h3]
        show (if b ∈ l ∧ view b = .solvers then _ else (if b = a then _ else s.heap b)) = _
        by_cases hb : b = a
        · subst hb
          rw [if_neg fun hh => hal' hh.1, if_pos rfl, if_pos ⟨List.mem_cons_self .., hf.1 hs⟩]
        · have e : ({ s.set a { s.heap a with status := .freed } with deleted := a :: s.deleted } : St).heap b = s.heap b := if_neg hb
          rw [e, if_neg hb]
          simp [hb]
      · rw [h4]; simp
      · refine List.nodup_append.2 ⟨h5, by simp, ?_⟩
        intro x hx y hy hxy
        simp only [List.mem_singleton] at hy
        subst hy; subst hxy
        exact hal' ((h6 x).1 hx).1
      · rw [List.mem_append, h6, List.mem_singleton, List.mem_cons]
        constructor
        · rintro (⟨q1, q2⟩ | rfl)
          · exact ⟨.inr q1, q2⟩
          · exact ⟨.inl rfl, hf.1 hs⟩
        · rintro ⟨rfl | q1, q2⟩
          · exact .inr rfl
          · exact .inl ⟨q1, q2⟩
    · rw [if_neg hs]
      simp only [bind, Except.bind]
      obtain ⟨s', h1, h2, h3, d, h4, h5, h6⟩ := ih s view hn'
        (fun b hb => hal b (List.mem_cons_of_mem _ hb)) (fun b hb => hfl b (List.mem_cons_of_mem _ hb))
      have hv : view a ≠ .solvers := fun hv => hs (hf.2 hv)
      refine ⟨s', h1, h2, fun b => ?_, d, h4, h5, fun b => ?_⟩
      · rw [h3]
        by_cases hb : b = a
        · subst hb; rw [if_neg fun hh => hv hh.2, if_neg fun hh => hv hh.2]
        · simp [hb]
      · rw [h6, List.mem_cons]
        constructor
        · rintro ⟨q1, q2⟩; exact ⟨.inr q1, q2⟩
        · rintro ⟨rfl | q1, q2⟩
          · exact absurd q2 hv
          · exact ⟨q1, q2⟩

theorem clear_ok (home : Nat → Nat) (s : St) (c : Account) (h : Agree home s c) (k : Nat) :
    ∃ s', s.clear k = .ok s' ∧ Agree home s' (c.step (.clear k)) := by
  obtain ⟨s1, h1, h2, h3, d, h4, h5, h6⟩ := deleteAll_ok home k (s.reg k) s c.view (h.nodup k) (h.live k)
    (fun a ha => h.flag a (h.live k a ha))
  unfold St.clear
  rw [h1]
  refine ⟨_, rfl, ?_⟩
  have hiff : ∀ a, (a ∈ s.reg k ∧ c.view a = .solvers) ↔ (c.reg k a ∧ c.view a = .solvers) := fun a => by rw [h.reg]
  have hview : ∀ a, (c.step (.clear k)).view a = open Classical in if c.reg k a ∧ c.view a = .solvers then .gone else c.view a :=
    fun a => rfl
  have hreg : ∀ i a, a ∈ (s1.setReg k []).reg i ↔ a ∈ s.reg i ∧ i ≠ k := by
    intro i a
    rw [setReg_reg, h2]
    by_cases hi : i = k
    · simp [hi]
    · simp [hi]
  classical
  constructor
  · intro a
    rw [hview, show (s1.setReg k []).heap a = s1.heap a from rfl, h3]
    by_cases ha : c.reg k a ∧ c.view a = .solvers
    · rw [if_pos ha, if_pos ((hiff a).2 ha)]; simp
    · rw [if_neg ha, if_neg fun hh => ha ((hiff a).1 hh)]; exact h.status a
  · intro a hv
    rw [hview] at hv
    rw [show (s1.setReg k []).heap a = s1.heap a from rfl, h3]
    by_cases ha : c.reg k a ∧ c.view a = .solvers
    · rw [if_pos ha] at hv; cases hv
    · rw [if_neg ha] at hv
      rw [if_neg fun hh => ha ((hiff a).1 hh)]; exact h.unborn a hv
  · intro a
    rw [hview, show (s1.setReg k []).heap a = s1.heap a from rfl, h3]
    by_cases ha : c.reg k a ∧ c.view a = .solvers
    · rw [if_pos ((hiff a).2 ha)]; intro hh; cases hh
    · rw [if_neg ha, if_neg fun hh => ha ((hiff a).1 hh)]; exact h.flag a
  · intro i a; rw [hreg, h.reg]; rfl
  · intro i
    rw [setReg_reg, h2]
    by_cases hi : i = k
    · rw [if_pos hi]; exact List.nodup_nil
    · rw [if_neg hi]; exact h.nodup i
  · intro i a ha
    rw [hreg] at ha
    rw [show (s1.setReg k []).heap a = s1.heap a from rfl, h3, if_neg]
    · exact h.live i a ha.1
    · rintro ⟨q1, q2⟩
      have e1 := h.homed i a ((h.reg i a).1 ha.1) q2
      have e2 := h.homed k a ((h.reg k a).1 q1) q2
      exact ha.2 (e1.symm.trans e2)
  · intro i a hr hv
    rw [hview] at hv
    by_cases ha : c.reg k a ∧ c.view a = .solvers
    · rw [if_pos ha] at hv; cases hv
    · rw [if_neg ha] at hv; exact h.homed i a hr.1 hv
  · intro a hv
    rw [hview] at hv
    by_cases ha : c.reg k a ∧ c.view a = .solvers
    · rw [if_pos ha] at hv; cases hv
    · rw [if_neg ha] at hv
      have hr := h.noLeak a hv
      refine ⟨hr, fun hk => ha ⟨?_, hv⟩⟩
      rw [← hk]; exact hr
  · show s1.deleted.Nodup
    rw [h4]
    refine List.nodup_append.2 ⟨h5, h.deletedNodup, ?_⟩
    rintro x hx y hy rfl
    have e1 := h.live k x ((h6 x).1 hx).1
    have e2 := (h.deleted x hy).1
    rw [e1] at e2; cases e2
  · intro a ha
    have ha : a ∈ s1.deleted := ha
    rw [h4, List.mem_append] at ha
    rw [hview, show (s1.setReg k []).heap a = s1.heap a from rfl, h3]
    rcases ha with ha | ha
    · have := (h6 a).1 ha
      rw [if_pos this, if_pos ((hiff a).1 this)]; exact ⟨rfl, rfl⟩
    · obtain ⟨e1, e2⟩ := h.deleted a ha
      rw [if_neg fun hh => by rw [e2] at hh; exact absurd hh.2 (by decide), if_neg fun hh => by
        rw [e2] at hh; exact absurd hh.2 (by decide)]
      exact ⟨e1, e2⟩

theorem kinStep_ok (home : Nat → Nat) (s : St) (c : Account) (h : Agree home s c) (op : Op) (hl : c.Legal home op) :
    ∃ s', kinStep s op = .ok s' ∧ Agree home s' (c.step op) := by
  cases op with
  | callerNew a =>
    refine ⟨_, rfl, ?_⟩
    have hl : c.view a = .none := hl
    have hub := h.unborn a hl
    have hreg : ∀ k, ¬ a ∈ s.reg k := fun k hk => by have := h.live k a hk; rw [hub] at this; cases this
    constructor
    · intro b
      rw [set_heap]; show _ ↔ (if b = a then _ else _) = _ ∨ (if b = a then _ else _) = _
      by_cases hb : b = a
      · simp [hb]
      · simp only [if_neg hb]; exact h.status b
    · intro b hv
      have hv : (if b = a then View.mine else c.view b) = .none := hv
      rw [set_heap]
      by_cases hb : b = a
      · rw [if_pos hb] at hv; cases hv
      · rw [if_neg hb] at hv ⊢; exact h.unborn b hv
    · intro b
      rw [set_heap]; show _ → (_ ↔ (if b = a then _ else _) = _)
      by_cases hb : b = a
      · simp [hb]
      · simp only [if_neg hb]; exact h.flag b
    · exact h.reg
    · exact h.nodup
    · intro k b hb
      rw [set_heap, if_neg]
      · exact h.live k b hb
      · rintro rfl; exact hreg k hb
    · intro k b hr hv
      have hv : (if b = a then View.mine else c.view b) = .solvers := hv
      by_cases hb : b = a
      · rw [if_pos hb] at hv; cases hv
      · rw [if_neg hb] at hv; exact h.homed k b hr hv
    · intro b hv
      have hv : (if b = a then View.mine else c.view b) = .solvers := hv
      by_cases hb : b = a
      · rw [if_pos hb] at hv; cases hv
      · rw [if_neg hb] at hv; exact h.noLeak b hv
    · exact h.deletedNodup
    · intro b hb
      obtain ⟨e1, e2⟩ := h.deleted b hb
      have hba : b ≠ a := by rintro rfl; rw [hl] at e2; cases e2
      rw [set_heap, if_neg hba]
      exact ⟨e1, (if_neg hba).trans e2⟩
  | callerDelete a =>
    refine ⟨_, rfl, ?_⟩
    obtain ⟨hl, hnr⟩ : c.view a = .mine ∧ ∀ k, ¬ c.reg k a := hl
    constructor
    · intro b
      rw [set_heap]; show _ ↔ (if b = a then _ else _) = _ ∨ (if b = a then _ else _) = _
      by_cases hb : b = a
      · simp [hb]
      · simp only [if_neg hb]; exact h.status b
    · intro b hv
      have hv : (if b = a then View.gone else c.view b) = .none := hv
      rw [set_heap]
      by_cases hb : b = a
      · rw [if_pos hb] at hv; cases hv
      · rw [if_neg hb] at hv ⊢; exact h.unborn b hv
    · intro b
      rw [set_heap]; show _ → (_ ↔ (if b = a then _ else _) = _)
      by_cases hb : b = a
      · simp [hb]
      · simp only [if_neg hb]; exact h.flag b
    · exact h.reg
    · exact h.nodup
    · intro k b hb
      rw [set_heap, if_neg]
      · exact h.live k b hb
      · rintro rfl; exact hnr k ((h.reg k b).1 hb)
    · intro k b hr hv
      have hv : (if b = a then View.gone else c.view b) = .solvers := hv
      by_cases hb : b = a
      · rw [if_pos hb] at hv; cases hv
      · rw [if_neg hb] at hv; exact h.homed k b hr hv
    · intro b hv
      have hv : (if b = a then View.gone else c.view b) = .solvers := hv
      by_cases hb : b = a
      · rw [if_pos hb] at hv; cases hv
      · rw [if_neg hb] at hv; exact h.noLeak b hv
    · exact h.deletedNodup
    · intro b hb
      obtain ⟨e1, e2⟩ := h.deleted b hb
      have hba : b ≠ a := by rintro rfl; rw [hl] at e2; cases e2
      rw [set_heap, if_neg hba]
      exact ⟨e1, (if_neg hba).trans e2⟩
  | addOwned k a =>
    refine ⟨_, rfl, ?_⟩
    obtain ⟨hl, hk⟩ : c.view a = .none ∧ home a = k := hl
    have hub := h.unborn a hl
    have hreg0 : ∀ k, ¬ a ∈ s.reg k := fun k hk => by have := h.live k a hk; rw [hub] at this; cases this
    have hmem : ∀ i b, b ∈ (s.addOwned k a).reg i ↔ b ∈ s.reg i ∨ (i = k ∧ b = a) := by
      intro i b
      show b ∈ (if i = k then _ else s.reg i) ↔ _
      by_cases hi : i = k
      · subst hi
        rw [if_pos rfl]
        show b ∈ (s.reg i).insert a ↔ _
        rw [List.mem_insert_iff]; tauto
      · rw [if_neg hi]; tauto
    have hheap : ∀ b, (s.addOwned k a).heap b = if b = a then ⟨.alive, true⟩ else s.heap b := fun _ => rfl
    have hview : ∀ b, (c.step (.addOwned k a)).view b = if b = a then .solvers else c.view b := fun _ => rfl
    constructor
    · intro b
      rw [hheap, hview]
      by_cases hb : b = a
      · simp [hb]
      · simp only [if_neg hb]; exact h.status b
    · intro b hv
      rw [hview] at hv
      rw [hheap]
      by_cases hb : b = a
      · rw [if_pos hb] at hv; cases hv
      · rw [if_neg hb] at hv ⊢; exact h.unborn b hv
    · intro b
      rw [hheap, hview]
      by_cases hb : b = a
      · simp [hb]
      · simp only [if_neg hb]; exact h.flag b
    · intro i b; rw [hmem, h.reg]; rfl
    · intro i
      show (if i = k then _ else s.reg i : List Nat).Nodup
      by_cases hi : i = k
      · rw [if_pos hi]; exact (h.nodup k).insert
      · rw [if_neg hi]; exact h.nodup i
    · intro i b hb
      rw [hmem] at hb
      rw [hheap]
      by_cases hba : b = a
      · rw [if_pos hba]
      · rw [if_neg hba]; exact h.live i b (hb.resolve_right fun hh => hba hh.2)
    · intro i b hr hv
      rw [hview] at hv
      by_cases hb : b = a
      · subst hb
        rcases hr with hr | hr
        · exact absurd ((h.reg i b).2 hr) (hreg0 i)
        · rw [hr.1]; exact hk
      · rw [if_neg hb] at hv
        exact h.homed i b (hr.resolve_right fun hh => hb hh.2) hv
    · intro b hv
      rw [hview] at hv
      by_cases hb : b = a
      · exact .inr ⟨by rw [hb]; exact hk, hb⟩
      · rw [if_neg hb] at hv; exact .inl (h.noLeak b hv)
    · exact h.deletedNodup
    · intro b hb
      obtain ⟨e1, e2⟩ := h.deleted b hb
      have hba : b ≠ a := by rintro rfl; rw [hl] at e2; cases e2
      rw [hheap, hview, if_neg hba, if_neg hba]
      exact ⟨e1, e2⟩
  | addRef k a =>
    refine ⟨_, rfl, ?_⟩
    have hl : c.view a = .mine ∨ (c.view a = .solvers ∧ home a = k) := hl
    have hal := (h.status a).2 (hl.imp_right And.left)
    have hmem : ∀ i b, b ∈ (s.addRef k a).reg i ↔ b ∈ s.reg i ∨ (i = k ∧ b = a) := by
      intro i b
      show b ∈ (if i = k then _ else s.reg i) ↔ _
      by_cases hi : i = k
      · subst hi
        rw [if_pos rfl]
        show b ∈ (s.reg i).insert a ↔ _
        rw [List.mem_insert_iff]; tauto
      · rw [if_neg hi]; tauto
    constructor
    · exact h.status
    · exact h.unborn
    · exact h.flag
    · intro i b; rw [hmem, h.reg]; rfl
    · intro i
      show (if i = k then _ else s.reg i : List Nat).Nodup
      by_cases hi : i = k
      · rw [if_pos hi]; exact (h.nodup k).insert
      · rw [if_neg hi]; exact h.nodup i
    · intro i b hb
      rw [hmem] at hb
      rcases hb with hb | ⟨-, rfl⟩
      · exact h.live i b hb
      · exact hal
    · intro i b hr hv
      rcases hr with hr | ⟨rfl, rfl⟩
      · exact h.homed i b hr hv
      · rcases hl with hl | hl
        · rw [show c.view b = .solvers from hv] at hl; cases hl
        · exact hl.2
    · intro b hv; exact .inl (h.noLeak b hv)
    · exact h.deletedNodup
    · exact h.deleted
  | remove k a => exact remove_ok home s c h k a hl
  | removeFrame k p o =>
    obtain ⟨hpo, hp, ho⟩ := hl
    obtain ⟨s1, h1, h2⟩ := remove_ok home s c h k p hp
    obtain ⟨s2, h3, h4⟩ := remove_ok home s1 _ h2 k o (by
      unfold Account.release
      simp only [show ¬ o = p from fun hh => hpo hh.symm, false_and, if_false]
      exact ho)
    exact ⟨s2, by rw [show kinStep s (.removeFrame k p o) = s.removeFrame k p o from rfl, removeFrame_eq s k p o s1 h1 hpo]; exact h3, h4⟩
  | clear k => exact clear_ok home s c h k

theorem kin_run (home : Nat → Nat) : ∀ (ops : List Op) (s : St) (c : Account), Agree home s c → c.AllLegal home ops →
    ∃ s', run kinStep s ops = .ok s' ∧ Agree home s' (c.run ops) := by
  intro ops
  induction ops with
  | nil => intro s c h _; exact ⟨s, rfl, h⟩
  | cons op ops ih =>
    intro s c h hl
    obtain ⟨s1, h1, h2⟩ := kinStep_ok home s c h op hl.1
    obtain ⟨s2, h3, h4⟩ := ih s1 _ h2 hl.2
    refine ⟨s2, ?_, h4⟩
    simp only [run, h1]
    exact h3

/-- C50: for every legal history on the tasks (or constraints) of kinematics solvers: no access to a dead object and no double
deletion; every registered object is alive; an object of the caller is never deleted; objects are deleted at most
once; nothing leaks (a solver object that is still alive is registered in its solver). -/
theorem C50 (home : Nat → Nat) (ops : List Op) (hl : (({} : Account)).AllLegal home ops) :
    ∃ s, run kinStep {} ops = .ok s ∧
      (∀ k a, a ∈ s.reg k → (s.heap a).status = .alive) ∧
      (∀ a, (({} : Account).run ops).view a = .mine → (s.heap a).status = .alive ∧ a ∉ s.deleted) ∧
      s.deleted.Nodup ∧
      (∀ a, (({} : Account).run ops).view a = .solvers → (s.heap a).status = .alive ∧ a ∈ s.reg (home a)) ∧
      (∀ k a, a ∈ s.reg k ↔ (({} : Account).run ops).reg k a) := by
  obtain ⟨s, h1, h⟩ := kin_run home ops {} {} (Agree.init home) hl
  refine ⟨s, h1, h.live, fun a ha => ⟨(h.status a).2 (.inl ha), fun hd => ?_⟩, h.deletedNodup,
    fun a ha => ⟨(h.status a).2 (.inr ha), (h.reg _ _).2 (h.noLeak a ha)⟩, h.reg⟩
  have := (h.deleted a hd).2
  rw [ha] at this; cases this

/-- After the solver is destroyed (or cleared), every object it created has been deleted. -/
theorem C50_destructor (home : Nat → Nat) (ops : List Op) (k : Nat) (hl : (({} : Account)).AllLegal home ops) :
    ∃ s, run kinStep {} (ops ++ [.clear k]) = .ok s ∧ s.reg k = [] ∧
      ∀ a, home a = k → (({} : Account).run ops).view a = .solvers → (s.heap a).status ≠ .alive ∧ a ∈ s.deleted := by
  obtain ⟨s, h1, h⟩ := kin_run home ops {} {} (Agree.init home) hl
  obtain ⟨s1, e1, e2, e3, d, e4, e5, e6⟩ := deleteAll_ok home k (s.reg k) s (({} : Account).run ops).view (h.nodup k) (h.live k)
    (fun a ha => h.flag a (h.live k a ha))
  have hrun : ∀ (l : List Op) (t t' : St), run kinStep t l = .ok t' → run kinStep t (l ++ [.clear k]) = t'.clear k := by
    intro l
    induction l with
    | nil =>
      intro t t' ht; cases ht
      simp only [List.nil_append, run, kinStep]
      cases t.clear k <;> rfl
    | cons op l ih =>
      intro t t' ht
      simp only [run, List.cons_append] at ht ⊢
      cases hk : kinStep t op with
      | error e => rw [hk] at ht; cases ht
      | ok t1 => rw [hk] at ht; exact ih t1 t' ht
  refine ⟨s1.setReg k [], ?_, ?_, fun a ha hv => ?_⟩
  · rw [hrun ops {} s h1]
    unfold St.clear
    rw [e1]; rfl
  · rw [setReg_reg, if_pos rfl]
  · have hm : a ∈ s.reg k := (h.reg k a).2 (ha ▸ h.noLeak a hv)
    refine ⟨?_, ?_⟩
    · show (s1.heap a).status ≠ .alive
      rw [e3, if_pos ⟨hm, hv⟩]; exact fun hh => by cases hh
    · show a ∈ s1.deleted
      rw [e4]; exact List.mem_append_left _ ((e6 a).2 ⟨hm, hv⟩)

/-- Without the hypothesis that an object of a solver is given to no other solver, C50 is false: the second solver deletes an
object the first one still holds, and the first one's `clear` reads it. -/
theorem C50_shared_refuted :
    run kinStep {} [.addOwned 0 5, .addRef 1 5, .clear 1, .clear 0] = .error .useAfterFree := by
  rfl

/-- A legal history with an own task, a caller's task and a frame task. -/
example : (({} : Account)).AllLegal (fun _ => 0)
    [.callerNew 1, .addOwned 0 2, .addRef 0 1, .addOwned 0 3, .addOwned 0 4, .removeFrame 0 3 4, .remove 0 1, .callerDelete 1] := by
  simp only [Account.AllLegal, Account.Legal, Account.step, Account.release]
  simp

/-! ## C51: tasks of the dynamics solver -/

/-- C51 is false: a task of the caller is deleted. -/
theorem C51_refuted : (({} : Account)).AllLegal (fun _ => 0) [.callerNew 1, .addRef 0 1, .remove 0 1] ∧
    (({} : Account).run [.callerNew 1, .addRef 0 1, .remove 0 1]).view 1 = .mine ∧
    ∃ s, run dynStep {} [.callerNew 1, .addRef 0 1, .remove 0 1] = .ok s ∧ (s.heap 1).status = .freed ∧ 1 ∈ s.deleted := by
  refine ⟨?_, ?_, _, rfl, by decide, by decide⟩
  · simp [Account.AllLegal, Account.Legal, Account.step]
  · simp [Account.run, Account.step, Account.release]

/-- No task of the caller is removed from the dynamics solver in this history. -/
def NoForeignRemove : Account → List Op → Prop
  | _, [] => True
  | c, .remove k a :: ops => c.view a ≠ .mine ∧ NoForeignRemove (c.step (.remove k a)) ops
  | c, .removeFrame k p o :: ops => c.view p ≠ .mine ∧ c.view o ≠ .mine ∧ NoForeignRemove (c.step (.removeFrame k p o)) ops
  | c, op :: ops => NoForeignRemove (c.step op) ops

theorem dynRemove_eq (home : Nat → Nat) (s : St) (c : Account) (h : Agree home s c) (k a : Nat) (hs : c.view a = .solvers) :
    s.dynRemoveTask k a = s.remove k a := by
  have hal := (h.status a).2 (.inr hs)
  have hf := (h.flag a hal).2 hs
  unfold St.dynRemoveTask St.remove St.deleteIfOwned
  rw [if_neg (show ¬ ((s.setReg k ((s.reg k).filter (· ≠ a))).heap a).status ≠ .alive from fun hn => hn hal),
    if_pos (show ((s.setReg k ((s.reg k).filter (· ≠ a))).heap a).solverMemory = true from hf)]

theorem dyn_run (home : Nat → Nat) : ∀ (ops : List Op) (s : St) (c : Account), Agree home s c → c.AllLegal home ops →
    NoForeignRemove c ops → run dynStep s ops = run kinStep s ops := by
  intro ops
  induction ops with
  | nil => intro s c _ _ _; rfl
  | cons op ops ih =>
    intro s c h hl hn
    obtain ⟨s1, h1, h2⟩ := kinStep_ok home s c h op hl.1
    have key : dynStep s op = kinStep s op ∧ NoForeignRemove (c.step op) ops := by
      cases op with
      | remove k a =>
        refine ⟨dynRemove_eq home s c h k a ?_, hn.2⟩
        rcases hl.1 with hm | hm
        · exact absurd hm hn.1
        · exact hm.1
      | removeFrame k p o =>
        obtain ⟨hpo, hp, ho⟩ := hl.1
        have hp' : c.view p = .solvers := hp.elim (fun hm => absurd hm hn.1) And.left
        have ho' : c.view o = .solvers := ho.elim (fun hm => absurd hm hn.2.1) And.left
        obtain ⟨t1, e1, e2⟩ := remove_ok home s c h k p hp
        have hop : (c.release k p).view o = .solvers := by
          unfold Account.release
          simp only [show ¬ o = p from fun hh => hpo hh.symm, false_and, if_false]
          exact ho'
        refine ⟨?_, hn.2.2⟩
        show s.dynRemoveFrame k p o = s.removeFrame k p o
        unfold St.dynRemoveFrame
        rw [dynRemove_eq home s c h k p hp', e1, removeFrame_eq s k p o t1 e1 hpo]
        exact dynRemove_eq home t1 _ e2 k o hop
      | callerNew a => exact ⟨rfl, hn⟩
      | callerDelete a => exact ⟨rfl, hn⟩
      | addOwned k a => exact ⟨rfl, hn⟩
      | addRef k a => exact ⟨rfl, hn⟩
      | clear k => exact ⟨rfl, hn⟩
    simp only [run, key.1, h1]
    exact ih s1 _ h2 hl.2 key.2

/-- C51 while the caller never removes a task of its own: the guarantees of C50 hold for the dynamics solver. -/
theorem C51_partial (home : Nat → Nat) (ops : List Op) (hl : (({} : Account)).AllLegal home ops) (hn : NoForeignRemove {} ops) :
    ∃ s, run dynStep {} ops = .ok s ∧
      (∀ k a, a ∈ s.reg k → (s.heap a).status = .alive) ∧
      (∀ a, (({} : Account).run ops).view a = .mine → (s.heap a).status = .alive ∧ a ∉ s.deleted) ∧
      s.deleted.Nodup := by
  rw [dyn_run home ops {} {} (Agree.init home) hl hn]
  obtain ⟨s, h1, h2, h3, h4, -⟩ := C50 home ops hl
  exact ⟨s, h1, h2, h3, h4⟩

example : NoForeignRemove {} [.callerNew 1, .addRef 0 1, .addOwned 0 2, .remove 0 2, .clear 0] := by
  simp [NoForeignRemove, Account.step]

/-- Contacts are kept in a vector: adding the same contact again (legal in C50) makes `clear` delete it twice. -/
theorem contacts_twice_refuted : (({} : Account)).AllLegal (fun _ => 0) [.addOwned 0 1, .addRef 0 1, .clear 0] ∧
    run contactStep {} [.addOwned 0 1, .addRef 0 1, .clear 0] = .error .useAfterFree := by
  refine ⟨?_, rfl⟩
  simp [Account.AllLegal, Account.Legal, Account.step]

end Verif.Registry
