/-
Property C160: solvers returned to Python.
-/
import Verif.Bindings.SolverCopy
import Verif.Kinematics.RegistryProps

namespace Verif.Registry

theorem deleteAll_dead : ∀ (l : List Nat) (s : St), (∃ a ∈ l, (s.heap a).status ≠ .alive) → deleteAll s l = .error .useAfterFree := by
  intro l
  induction l with
  | nil => rintro s ⟨a, ha, -⟩; cases ha
  | cons b l ih =>
    rintro s ⟨a, ha, hd⟩
    unfold deleteAll
    by_cases hb : (s.heap b).status = .alive
    · have hal : a ∈ l := by
        rcases List.mem_cons.1 ha with rfl | h
        · exact absurd hb hd
        · exact h
      cases hm : (s.heap b).solverMemory with
      | false =>
        have e : s.deleteIfOwned b = .ok s := by simp [St.deleteIfOwned, hb, hm]
        rw [e]
        exact ih s ⟨a, hal, hd⟩
      | true =>
        have e : s.deleteIfOwned b = .ok { s.set b { s.heap b with status := .freed } with deleted := b :: s.deleted } := by
          simp [St.deleteIfOwned, St.delete, hb, hm]
        rw [e]
        refine ih _ ⟨a, hal, ?_⟩
        show ((s.set b _).heap a).status ≠ .alive
        rw [set_heap]
        by_cases hab : a = b
        · rw [if_pos hab]; simp
        · rw [if_neg hab]; exact hd
    · have e : s.deleteIfOwned b = .error .useAfterFree := by simp [St.deleteIfOwned, hb]
      rw [e]
      rfl

/-- What returning a solver does, after any legal history: the objects that solver `k` owns are deleted. -/
theorem returnSolver_spec (home : Nat → Nat) (s : St) (c : Account) (h : Agree home s c) (k tmp obj : Nat) (h1 : tmp ≠ k)
    (h2 : obj ≠ k) (h3 : tmp ≠ obj) : ∃ s', s.returnSolver k tmp obj = .ok s' ∧ s'.reg k = s.reg k ∧ s'.reg obj = s.reg k ∧
      (∀ i, i ≠ obj → i ≠ tmp → s'.reg i = s.reg i) ∧
      ∀ a, s'.heap a = if a ∈ s.reg k ∧ c.view a = .solvers then { s.heap a with status := .freed } else s.heap a := by
  have e0 : ((s.copySolver k tmp).copySolver tmp obj).reg tmp = s.reg k := by
    unfold St.copySolver
    rw [setReg_reg, if_neg h3, setReg_reg, if_pos rfl]
  have e1 : ∀ a, ((s.copySolver k tmp).copySolver tmp obj).heap a = s.heap a := fun _ => rfl
  obtain ⟨s1, a1, a2, a3, -⟩ := deleteAll_ok home k (s.reg k) ((s.copySolver k tmp).copySolver tmp obj) c.view (h.nodup k) (h.live k)
    (fun a ha => h.flag a (h.live k a ha))
  refine ⟨s1.setReg tmp [], ?_, ?_, ?_, fun i hi hi' => ?_, a3⟩
  · unfold St.returnSolver St.clear
    rw [e0, a1]
    rfl
  · rw [setReg_reg, if_neg h1.symm, a2]
    unfold St.copySolver
    rw [setReg_reg, if_neg h2.symm, setReg_reg, if_neg h1.symm]
  · rw [setReg_reg, if_neg h3.symm, a2]
    unfold St.copySolver
    rw [setReg_reg, if_pos rfl, setReg_reg, if_pos rfl]
  · rw [setReg_reg, if_neg hi', a2]
    unfold St.copySolver
    rw [setReg_reg, if_neg hi, setReg_reg, if_neg hi']

/-- **C160, exactly when it holds.** After any legal history, returning solver `k` to Python by value leaves its tasks usable if and
only if it owns none of them; otherwise the next `solve`, `clear` or destruction of the solver or of its copy uses freed memory. -/
theorem C160_exact (home : Nat → Nat) (ops : List Op) (hl : (({} : Account)).AllLegal home ops) (s : St)
    (hs : run kinStep {} ops = .ok s) (k tmp obj : Nat) (h1 : tmp ≠ k) (h2 : obj ≠ k) (h3 : tmp ≠ obj) :
    ∃ s', s.returnSolver k tmp obj = .ok s' ∧
      (s'.readAll k = .ok () ↔ ∀ a, (({} : Account).run ops).reg k a → (({} : Account).run ops).view a ≠ .solvers) ∧
      ((∃ a, (({} : Account).run ops).reg k a ∧ (({} : Account).run ops).view a = .solvers) →
        s'.readAll k = .error .useAfterFree ∧ s'.readAll obj = .error .useAfterFree ∧
        s'.clear k = .error .useAfterFree ∧ s'.clear obj = .error .useAfterFree) := by
  obtain ⟨s0, hs0, ha⟩ := kin_run home ops {} {} (Agree.init home) hl
  rw [hs] at hs0
  cases hs0
  obtain ⟨s', e, r1, r2, -, hp⟩ := returnSolver_spec home s _ ha k tmp obj h1 h2 h3
  have dead : (∃ a, (({} : Account).run ops).reg k a ∧ (({} : Account).run ops).view a = .solvers) →
      ∃ a ∈ s.reg k, (s'.heap a).status ≠ .alive := by
    rintro ⟨a, hr, hv⟩
    refine ⟨a, (ha.reg k a).2 hr, ?_⟩
    rw [hp, if_pos ⟨(ha.reg k a).2 hr, hv⟩]
    simp
  refine ⟨s', e, ⟨fun h a hr hv => ?_, fun h => ?_⟩, fun h => ?_⟩
  · obtain ⟨b, hb, hd⟩ := dead ⟨a, hr, hv⟩
    unfold St.readAll at h
    rw [if_neg] at h
    · cases h
    · intro hall
      exact hd (hall b (by rw [r1]; exact hb))
  · unfold St.readAll
    rw [if_pos]
    intro a har
    rw [r1] at har
    rw [hp, if_neg fun hv => h a ((ha.reg k a).1 har) hv.2]
    exact ha.live k a har
  · obtain ⟨b, hb, hd⟩ := dead h
    have all : ∀ i, s'.reg i = s.reg k → s'.readAll i = .error .useAfterFree ∧ s'.clear i = .error .useAfterFree := by
      intro i hi
      constructor
      · unfold St.readAll
        rw [if_neg]
        intro hall
        exact hd (hall b (by rw [hi]; exact hb))
      · unfold St.clear
        rw [hi, deleteAll_dead (s.reg k) s' ⟨b, hb, hd⟩]
        rfl
    exact ⟨(all k r1).1, (all obj r2).1, (all k r1).2, (all obj r2).2⟩

/-- C160: a solver without tasks can be returned (`make_solver`). -/
theorem C160_partial (home : Nat → Nat) (ops : List Op) (hl : (({} : Account)).AllLegal home ops) (s : St)
    (hs : run kinStep {} ops = .ok s) (k tmp obj : Nat) (h1 : tmp ≠ k) (h2 : obj ≠ k) (h3 : tmp ≠ obj) (he : s.reg k = []) :
    ∃ s', s.returnSolver k tmp obj = .ok s' ∧ s'.heap = s.heap ∧ s'.reg obj = [] := by
  obtain ⟨s0, hs0, ha⟩ := kin_run home ops {} {} (Agree.init home) hl
  rw [hs] at hs0
  cases hs0
  obtain ⟨s', e, r1, r2, -, hp⟩ := returnSolver_spec home s _ ha k tmp obj h1 h2 h3
  refine ⟨s', e, ?_, by rw [r2, he]⟩
  funext a
  rw [hp, if_neg fun h => by rw [he] at h; cases h.1]

/-- **C160 is false**: reading `WalkTasks.solver` once, after one task has been added, destroys the task. -/
theorem C160_refuted : ∃ s s', run kinStep {} [.addOwned 0 7] = .ok s ∧ s.returnSolver 0 1 2 = .ok s' ∧
    (s'.heap 7).status = .freed ∧ 7 ∈ s'.reg 0 ∧ s'.readAll 0 = .error .useAfterFree := by
  refine ⟨_, _, rfl, rfl, rfl, by decide, by decide⟩

/-- The hypotheses of the exact theorem hold for a solver with one task. -/
example : (({} : Account)).AllLegal (fun _ => 0) [.addOwned 0 7] ∧ (({} : Account).run [.addOwned 0 7]).reg 0 7 ∧
    (({} : Account).run [.addOwned 0 7]).view 7 = .solvers := by
  simp [Account.AllLegal, Account.Legal, Account.run, Account.step]

end Verif.Registry
