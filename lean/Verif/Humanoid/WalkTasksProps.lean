/-
C91, C92, C110: the tasks of a walk in the kinematics solver.
-/
import Verif.Humanoid.WalkTasks

namespace Verif.Humanoid
open Verif.Tools Verif.Problem

/-! ## Specification -/

/-- A world in which the tasks of the solver were allocated before. -/
structure Sane (w : World) : Prop where
  unborn : ∀ a, w.next ≤ a → w.heap a = none
  born : ∀ a ∈ w.tasks, a < w.next

/-- The class of a task of the solver. -/
def World.kindOf (w : World) (a : Nat) : Option TaskKind := (w.heap a).map TaskObj.kind

/-- The tasks of a walk. -/
def walkKinds (trunkMode : Bool) : List TaskKind :=
  [.position "left_foot", .orientation "left_foot", .position "right_foot", .orientation "right_foot", .orientation "trunk",
    if trunkMode then .position "trunk" else .com]

/-- The mode at the last update: `mode` is the current mode, `last` the one at the previous update. -/
def lastMode : Bool → Bool → List WalkOp → Bool
  | _, last, [] => last
  | _, last, .setMode b :: ops => lastMode b last ops
  | mode, last, .setScaled _ :: ops => lastMode mode last ops
  | mode, last, .setOffset _ _ :: ops => lastMode mode last ops
  | mode, _, .update _ _ :: ops => lastMode mode mode ops

/-! ## Invariant -/

def World.Has (w : World) (a : Nat) (k : TaskKind) : Prop := ∃ o, w.heap a = some o ∧ o.kind = k

/-- The six tasks are in the solver, and nothing else changed since `w0`. -/
structure Holds (w0 : World) (s : WalkSt) (mode : Bool) (lp lo rp ro tr x : Nat) : Prop where
  bound : s.t.bound = true
  hlp : s.t.leftPosition = some lp
  hlo : s.t.leftOrientation = some lo
  hrp : s.t.rightPosition = some rp
  hro : s.t.rightOrientation = some ro
  htr : s.t.trunkOrientation = some tr
  hcom : s.t.com = if mode then none else some x
  htrunk : s.t.trunk = if mode then some x else none
  perm : s.w.tasks.Perm (lp :: lo :: rp :: ro :: tr :: x :: w0.tasks)
  nodup : [lp, lo, rp, ro, tr, x].Nodup
  fresh : ∀ a ∈ [lp, lo, rp, ro, tr, x], w0.next ≤ a ∧ a < s.w.next
  klp : s.w.Has lp (.position "left_foot")
  klo : s.w.Has lo (.orientation "left_foot")
  krp : s.w.Has rp (.position "right_foot")
  kro : s.w.Has ro (.orientation "right_foot")
  ktr : s.w.Has tr (.orientation "trunk")
  kx : s.w.Has x (if mode then .position "trunk" else .com)
  others : ∀ a, a ∉ [lp, lo, rp, ro, tr, x] → s.w.heap a = w0.heap a
  unborn : ∀ a, s.w.next ≤ a → s.w.heap a = none

theorem Has.remove_ne {w : World} {a b : Nat} {k : TaskKind} (h : w.Has a k) (hne : a ≠ b) :
    (w.erase b).Has a k := by
  obtain ⟨o, h1, h2⟩ := h
  exact ⟨o, (if_neg hne).trans h1, h2⟩

theorem Has.add {w : World} {a : Nat} {k : TaskKind} (h : w.Has a k) (hlt : a < w.next) (o : TaskObj) :
    (w.add o).1.Has a k := by
  obtain ⟨o', h1, h2⟩ := h
  exact ⟨o', by show (if a = w.next then some o else w.heap a) = _; rw [if_neg (by omega)]; exact h1, h2⟩

theorem add_has (w : World) (o : TaskObj) : (w.add o).1.Has w.next o.kind :=
  ⟨o, if_pos rfl, rfl⟩

/-- Removing the sixth task and adding another. -/
theorem Holds.swap {w0 : World} {s : WalkSt} {mode : Bool} {lp lo rp ro tr x : Nat} (hw : Sane w0)
    (h : Holds w0 s mode lp lo rp ro tr x) (r : RobotView) (hm : s.t.trunkMode = !mode) :
    ∃ s' x', s.updateComTask r = .ok s' ∧ Holds w0 s' s.t.trunkMode lp lo rp ro tr x' ∧ s'.t.trunkMode = s.t.trunkMode ∧
      s'.t.comX = s.t.comX ∧ s'.t.comY = s.t.comY := by
  have hnd := h.nodup
  simp only [List.nodup_cons, List.mem_cons, List.not_mem_nil, or_false, not_or, not_false_iff, List.nodup_nil, and_true] at hnd
  obtain ⟨⟨n1, n2, n3, n4, n5⟩, ⟨m1, m2, m3, m4⟩, ⟨k1, k2, k3⟩, ⟨j1, j2⟩, i1⟩ := hnd
  have hfr := h.fresh
  simp only [List.mem_cons, List.not_mem_nil, or_false, forall_eq_or_imp, forall_eq] at hfr
  obtain ⟨f1, f2, f3, f4, f5, f6⟩ := hfr
  obtain ⟨ox, hox, hkx⟩ := h.kx
  -- the world without x
  have hperm : (s.w.tasks.filter (· ≠ x)).Perm (lp :: lo :: rp :: ro :: tr :: w0.tasks) := by
    refine (h.perm.filter _).trans ?_
    have : w0.tasks.filter (fun a => decide (a ≠ x)) = w0.tasks := by
      rw [List.filter_eq_self]
      intro a ha
      have := hw.born a ha
      simp only [decide_eq_true_eq]; omega
    simp only [List.filter_cons, ne_eq, n5, m4, k3, j2, i1, not_false_iff, decide_true, if_true, not_true,
      decide_false, Bool.false_eq_true, if_false]
    simp only [ne_eq] at this
    rw [this]
  have key : ∀ (o : TaskObj) (t' : WalkTasks), o.kind = (if !mode then .position "trunk" else .com) →
      t'.bound = true → t'.leftPosition = some lp → t'.leftOrientation = some lo → t'.rightPosition = some rp →
      t'.rightOrientation = some ro → t'.trunkOrientation = some tr →
      t'.com = (if !mode then none else some s.w.next) → t'.trunk = (if !mode then some s.w.next else none) →
      Holds w0 ⟨((s.w.erase x).add o).1, t'⟩
        (!mode) lp lo rp ro tr s.w.next := by
    intro o t' hk hb e1 e2 e3 e4 e5 e6 e7
    refine ⟨hb, e1, e2, e3, e4, e5, e6, e7, ?_, ?_, ?_, ?_, ?_, ?_, ?_, ?_, ?_, ?_, ?_⟩
    · show (s.w.next :: s.w.tasks.filter (· ≠ x)).Perm _
      refine (List.Perm.cons _ hperm).trans ?_
      have : (s.w.next :: ([lp, lo, rp, ro, tr] ++ w0.tasks)).Perm ([lp, lo, rp, ro, tr] ++ s.w.next :: w0.tasks) :=
        List.perm_middle.symm
      exact this
    · simp only [List.nodup_cons, List.mem_cons, List.not_mem_nil, or_false, not_or, not_false_iff, List.nodup_nil, and_true]
      exact ⟨⟨n1, n2, n3, n4, by omega⟩, ⟨m1, m2, m3, by omega⟩, ⟨k1, k2, by omega⟩, ⟨j1, by omega⟩, by omega⟩
    · simp only [List.mem_cons, List.not_mem_nil, or_false, forall_eq_or_imp, forall_eq]
      have : ((s.w.erase x).add o).1.next = s.w.next + 1 := rfl
      simp only [this]
      refine ⟨?_, ?_, ?_, ?_, ?_, ?_⟩ <;> omega
    · exact Has.add (Has.remove_ne h.klp n5) f1.2 o
    · exact Has.add (Has.remove_ne h.klo m4) f2.2 o
    · exact Has.add (Has.remove_ne h.krp k3) f3.2 o
    · exact Has.add (Has.remove_ne h.kro j2) f4.2 o
    · exact Has.add (Has.remove_ne h.ktr i1) f5.2 o
    · rw [← hk]; exact add_has _ o
    · intro a ha
      simp only [List.mem_cons, List.not_mem_nil, or_false, not_or] at ha
      show (if a = s.w.next then some o else if a = x then none else s.w.heap a) = w0.heap a
      rw [if_neg ha.2.2.2.2.2]
      by_cases hax : a = x
      · rw [if_pos hax]; exact (hw.unborn a (by omega)).symm
      · rw [if_neg hax]
        refine h.others a ?_
        simp only [List.mem_cons, List.not_mem_nil, or_false, not_or]
        exact ⟨ha.1, ha.2.1, ha.2.2.1, ha.2.2.2.1, ha.2.2.2.2.1, hax⟩
    · intro a ha
      have ha' : s.w.next + 1 ≤ a := ha
      show (if a = s.w.next then some o else if a = x then none else s.w.heap a) = none
      rw [if_neg (by omega), if_neg (by omega)]
      exact h.unborn a (by omega)
  have hc := h.hcom
  have ht := h.htrunk
  unfold WalkSt.updateComTask
  cases mode with
  | true =>
    have hm' : s.t.trunkMode = false := hm
    rw [if_neg (by rw [hm']; decide), hm']
    simp only [if_true] at hc ht
    unfold WalkSt.dropTrunk WalkSt.addCom World.remove
    simp only [ht, h.bound, if_true, hox, Bind.bind, Except.bind, hc]
    exact ⟨_, _, rfl, key _ _ rfl rfl h.hlp h.hlo h.hrp h.hro h.htr rfl rfl, hm', rfl, rfl⟩
  | false =>
    have hm' : s.t.trunkMode = true := hm
    rw [if_pos hm', hm']
    simp only [Bool.false_eq_true, if_false] at hc ht
    unfold WalkSt.dropCom WalkSt.addTrunk World.remove
    simp only [hc, h.bound, if_true, hox, Bind.bind, Except.bind, ht]
    exact ⟨_, _, rfl, key _ _ rfl rfl h.hlp h.hlo h.hrp h.hro h.htr rfl rfl, hm', rfl, rfl⟩

theorem Holds.updateCom {w0 : World} {s : WalkSt} {mode : Bool} {lp lo rp ro tr x : Nat} (hw : Sane w0)
    (h : Holds w0 s mode lp lo rp ro tr x) (r : RobotView) :
    ∃ s' x', s.updateComTask r = .ok s' ∧ Holds w0 s' s.t.trunkMode lp lo rp ro tr x' ∧ s'.t.trunkMode = s.t.trunkMode ∧
      s'.t.comX = s.t.comX ∧ s'.t.comY = s.t.comY := by
  by_cases hm : s.t.trunkMode = !mode
  · exact h.swap hw r hm
  · have hm' : s.t.trunkMode = mode := by
      revert hm
      cases s.t.trunkMode <;> cases mode <;> simp
    refine ⟨s, x, ?_, by rw [hm']; exact h, rfl, rfl, rfl⟩
    have hc := h.hcom
    have ht := h.htrunk
    unfold WalkSt.updateComTask
    cases mode with
    | true =>
      simp only [if_true] at hc ht
      unfold WalkSt.dropCom WalkSt.addTrunk
      simp only [hm', if_true, hc, Bind.bind, Except.bind, ht]
    | false =>
      simp only [Bool.false_eq_true, if_false] at hc ht
      unfold WalkSt.dropTrunk WalkSt.addCom
      simp only [hm', Bool.false_eq_true, if_false, hc, Bind.bind, Except.bind, ht]

/-- Writing the targets. -/
theorem write_ok {w : World} {a : Nat} {k : TaskKind} (h : w.Has a k) (f : TaskObj → TaskObj)
    (hf : ∀ o, (f o).kind = o.kind) : ∃ w', w.write a f = .ok w' ∧ w'.next = w.next ∧ w'.tasks = w.tasks ∧
      (∀ b, b ≠ a → w'.heap b = w.heap b) ∧ (∃ o, w.heap a = some o ∧ w'.heap a = some (f o)) ∧
      (∀ b k', w.Has b k' → w'.Has b k') := by
  obtain ⟨o, h1, h2⟩ := h
  refine ⟨w.put a (f o), by unfold World.write; rw [h1], rfl, rfl, fun b hb => if_neg hb, ⟨o, h1, if_pos rfl⟩, ?_⟩
  rintro b k' ⟨o', g1, g2⟩
  by_cases hb : b = a
  · subst hb
    rw [h1] at g1; cases g1
    exact ⟨f o, if_pos rfl, by rw [hf]; exact g2⟩
  · exact ⟨o', (if_neg hb).trans g1, g2⟩

/-- The targets held by the tasks. -/
structure Tracks (w : World) (lp lo rp ro tr x : Nat) (T : Targets) (offset : V3) : Prop where
  lp : ∃ o, w.heap lp = some o ∧ o.target = T.left.translation
  lo : ∃ o, w.heap lo = some o ∧ o.rotation = T.left.linear
  rp : ∃ o, w.heap rp = some o ∧ o.target = T.right.translation
  ro : ∃ o, w.heap ro = some o ∧ o.rotation = T.right.linear
  tr : ∃ o, w.heap tr = some o ∧ o.rotation = T.trunk
  x : ∃ o, w.heap x = some o ∧ o.target = T.com + offset

theorem Holds.update {w0 : World} {s : WalkSt} {mode : Bool} {lp lo rp ro tr x : Nat} (hw : Sane w0)
    (h : Holds w0 s mode lp lo rp ro tr x) (r : RobotView) (T : Targets) :
    ∃ s' x', s.updateTasks r T = .ok s' ∧ Holds w0 s' s.t.trunkMode lp lo rp ro tr x' ∧ s'.t.trunkMode = s.t.trunkMode ∧
      Tracks s'.w lp lo rp ro tr x' T (r.trunk.linear.mulVec ![s.t.comX, s.t.comY, 0]) := by
  obtain ⟨s1, x', hs1, h1, hm, hcx, hcy⟩ := h.updateCom hw r
  have hp : s1.t.comPointer = some x' := by
    unfold WalkTasks.comPointer
    have hc := h1.hcom
    have ht := h1.htrunk
    rw [← hm] at hc ht
    cases hm' : s1.t.trunkMode with
    | true => rw [hm'] at ht; simpa using ht
    | false => rw [hm'] at hc; simpa using hc
  have hnd := h1.nodup
  simp only [List.nodup_cons, List.mem_cons, List.not_mem_nil, or_false, not_or, not_false_iff, List.nodup_nil, and_true] at hnd
  obtain ⟨⟨n1, n2, n3, n4, n5⟩, ⟨m1, m2, m3, m4⟩, ⟨k1, k2, k3⟩, ⟨j1, j2⟩, i1⟩ := hnd
  obtain ⟨wa, ea, na, ta, oa, xa, ka⟩ := write_ok h1.kx
    (fun o => { o with target := T.com + r.trunk.linear.mulVec ![s1.t.comX, s1.t.comY, 0] }) (fun _ => rfl)
  obtain ⟨wb, eb, nb, tb, ob, xb, kb⟩ := write_ok (ka _ _ h1.klp) (fun o => { o with target := T.left.translation }) (fun _ => rfl)
  obtain ⟨wc, ec, nc, tc, oc, xc, kc⟩ := write_ok (kb _ _ (ka _ _ h1.klo)) (fun o => { o with rotation := T.left.linear }) (fun _ => rfl)
  obtain ⟨wd, ed, nd, td, od, xd, kd⟩ := write_ok (kc _ _ (kb _ _ (ka _ _ h1.krp))) (fun o => { o with target := T.right.translation }) (fun _ => rfl)
  obtain ⟨we, ee, ne, te, oe, xe, ke⟩ := write_ok (kd _ _ (kc _ _ (kb _ _ (ka _ _ h1.kro)))) (fun o => { o with rotation := T.right.linear }) (fun _ => rfl)
  obtain ⟨wf, ef, nf, tf, of, xf, kf⟩ := write_ok (ke _ _ (kd _ _ (kc _ _ (kb _ _ (ka _ _ h1.ktr))))) (fun o => { o with rotation := T.trunk }) (fun _ => rfl)
  have hkeep : ∀ b k', s1.w.Has b k' → wf.Has b k' := fun b k' g => kf _ _ (ke _ _ (kd _ _ (kc _ _ (kb _ _ (ka _ _ g)))))
  have hne : ∀ b, b ≠ x' → b ≠ lp → b ≠ lo → b ≠ rp → b ≠ ro → b ≠ tr → wf.heap b = s1.w.heap b := by
    intro b e1 e2 e3 e4 e5 e6
    rw [of b e6, oe b e5, od b e4, oc b e3, ob b e2, oa b e1]
  refine ⟨{ s1 with w := wf }, x', ?_, ?_, hm, ?_⟩
  · unfold WalkSt.updateTasks
    simp only [hs1, Bind.bind, Except.bind, hp, deref, h1.hlp, h1.hlo, h1.hrp, h1.hro, h1.htr, ea, eb, ec, ed, ee, ef]
  · refine ⟨h1.bound, h1.hlp, h1.hlo, h1.hrp, h1.hro, h1.htr, h1.hcom, h1.htrunk, ?_, h1.nodup, ?_, hkeep _ _ h1.klp,
      hkeep _ _ h1.klo, hkeep _ _ h1.krp, hkeep _ _ h1.kro, hkeep _ _ h1.ktr, hkeep _ _ h1.kx, ?_, ?_⟩
    · show wf.tasks.Perm _
      rw [tf, te, td, tc, tb, ta]; exact h1.perm
    · intro a ha
      show w0.next ≤ a ∧ a < wf.next
      rw [nf, ne, nd, nc, nb, na]; exact h1.fresh a ha
    · intro a ha
      have ha' := ha
      simp only [List.mem_cons, List.not_mem_nil, or_false, not_or] at ha'
      show wf.heap a = _
      rw [hne a ha'.2.2.2.2.2 ha'.1 ha'.2.1 ha'.2.2.1 ha'.2.2.2.1 ha'.2.2.2.2.1]
      exact h1.others a ha
    · intro a ha
      have ha' : s1.w.next ≤ a := by have e : wf.next ≤ a := ha; rw [nf, ne, nd, nc, nb, na] at e; exact e
      have hfr := h1.fresh
      simp only [List.mem_cons, List.not_mem_nil, or_false, forall_eq_or_imp, forall_eq] at hfr
      obtain ⟨f1, f2, f3, f4, f5, f6⟩ := hfr
      show wf.heap a = _
      rw [hne a (by omega) (by omega) (by omega) (by omega) (by omega) (by omega)]
      exact h1.unborn a ha'
  · rw [hcx, hcy] at xa
    obtain ⟨oa', -, xa⟩ := xa
    obtain ⟨ob', -, xb⟩ := xb
    obtain ⟨oc', -, xc⟩ := xc
    obtain ⟨od', -, xd⟩ := xd
    obtain ⟨oe', -, xe⟩ := xe
    obtain ⟨of', -, xf⟩ := xf
    have ya : wf.heap x' = wa.heap x' := by
      rw [of x' (Ne.symm i1), oe x' (Ne.symm j2), od x' (Ne.symm k3), oc x' (Ne.symm m4), ob x' (Ne.symm n5)]
    have yb : wf.heap lp = wb.heap lp := by rw [of lp n4, oe lp n3, od lp n2, oc lp n1]
    have yc : wf.heap lo = wc.heap lo := by rw [of lo m3, oe lo m2, od lo m1]
    have yd : wf.heap rp = wd.heap rp := by rw [of rp k2, oe rp k1]
    have ye : wf.heap ro = we.heap ro := of ro j1
    exact ⟨⟨_, yb.trans xb, rfl⟩, ⟨_, yc.trans xc, rfl⟩, ⟨_, yd.trans xd, rfl⟩, ⟨_, ye.trans xe, rfl⟩, ⟨_, xf, rfl⟩,
      ⟨_, ya.trans xa, rfl⟩⟩

/-- `initialize_tasks` on tasks that are not in a solver. -/
theorem holds_initialize {w0 : World} (hw : Sane w0) (t : WalkTasks) (hc : t.com = none) (ht : t.trunk = none)
    (r : RobotView) : ∃ s lp lo rp ro tr x, WalkSt.initialize r ⟨w0, t⟩ = .ok s ∧
      Holds w0 s t.trunkMode lp lo rp ro tr x ∧ s.t.trunkMode = t.trunkMode := by
  have hu : ∀ a, w0.next ≤ a → w0.heap a = none := hw.unborn
  have lt : ∀ k j : Nat, w0.next + k < w0.next + k + 1 + j := fun k j => by omega
  have common : ∀ (o : TaskObj) (t' : WalkTasks), o.kind = (if t.trunkMode then .position "trunk" else .com) →
      t'.bound = true → t'.leftPosition = some w0.next → t'.leftOrientation = some (w0.next + 1) →
      t'.rightPosition = some (w0.next + 2) → t'.rightOrientation = some (w0.next + 3) →
      t'.trunkOrientation = some (w0.next + 4) →
      t'.com = (if t.trunkMode then none else some (w0.next + 5)) →
      t'.trunk = (if t.trunkMode then some (w0.next + 5) else none) →
      Holds w0 ⟨((({ w := w0, t := t } : WalkSt).addFixed r).w.add o).1, t'⟩ t.trunkMode w0.next (w0.next + 1) (w0.next + 2)
        (w0.next + 3) (w0.next + 4) (w0.next + 5) := by
    intro o t' hk hb e1 e2 e3 e4 e5 e6 e7
    refine ⟨hb, e1, e2, e3, e4, e5, e6, e7, ?_, ?_, ?_, ?_, ?_, ?_, ?_, ?_, ?_, ?_, ?_⟩
    · show ([w0.next + 5, w0.next + 4, w0.next + 3, w0.next + 2, w0.next + 1, w0.next] ++ w0.tasks).Perm
        ([w0.next, w0.next + 1, w0.next + 2, w0.next + 3, w0.next + 4, w0.next + 5] ++ w0.tasks)
      exact (List.reverse_perm [w0.next, w0.next + 1, w0.next + 2, w0.next + 3, w0.next + 4, w0.next + 5]).append_right _
    · simp
    · simp only [List.mem_cons, List.not_mem_nil, or_false, forall_eq_or_imp, forall_eq]
      have : ((({ w := w0, t := t } : WalkSt).addFixed r).w.add o).1.next = w0.next + 6 := rfl
      simp only [this]
      omega
    · exact Has.add (Has.add (Has.add (Has.add (Has.add (add_has _ _) (lt 0 0) _) (lt 0 1) _) (lt 0 2) _) (lt 0 3) _) (lt 0 4) _
    · exact Has.add (Has.add (Has.add (Has.add (add_has _ _) (lt 1 0) _) (lt 1 1) _) (lt 1 2) _) (lt 1 3) _
    · exact Has.add (Has.add (Has.add (add_has _ _) (lt 2 0) _) (lt 2 1) _) (lt 2 2) _
    · exact Has.add (Has.add (add_has _ _) (lt 3 0) _) (lt 3 1) _
    · exact Has.add (add_has _ _) (lt 4 0) _
    · exact by rw [← hk]; exact add_has _ o
    · intro a ha
      simp only [List.mem_cons, List.not_mem_nil, or_false, not_or] at ha
      simp only [World.add, WalkSt.addFixed]
      simp [ha]
    · intro a ha
      have ha' : w0.next + 6 ≤ a := ha
      simp only [World.add, WalkSt.addFixed]
      rw [if_neg (by omega), if_neg (by omega), if_neg (by omega), if_neg (by omega), if_neg (by omega), if_neg (by omega)]
      exact hu a (by omega)
  unfold WalkSt.initialize WalkSt.updateComTask
  have e2 : (WalkSt.addFixed r ⟨w0, t⟩).t.com = none := hc
  have e3 : (WalkSt.addFixed r ⟨w0, t⟩).t.trunk = none := ht
  have eb : (WalkSt.addFixed r ⟨w0, t⟩).t.bound = true := rfl
  cases hm : t.trunkMode with
  | true =>
    have e : (WalkSt.addFixed r ⟨w0, t⟩).t.trunkMode = true := hm
    rw [if_pos e]
    unfold WalkSt.dropCom
    simp only [e2, Bind.bind, Except.bind]
    unfold WalkSt.addTrunk
    simp only [e3, eb, if_true]
    rw [hm] at common
    exact ⟨_, _, _, _, _, _, _, rfl, common _ _ rfl rfl rfl rfl rfl rfl rfl hc rfl, hm⟩
  | false =>
    have e : (WalkSt.addFixed r ⟨w0, t⟩).t.trunkMode = false := hm
    rw [if_neg (by rw [e]; decide)]
    unfold WalkSt.dropTrunk
    simp only [e3, Bind.bind, Except.bind]
    unfold WalkSt.addCom
    simp only [e2, eb, if_true]
    rw [hm] at common
    exact ⟨_, _, _, _, _, _, _, rfl, common _ _ rfl rfl rfl rfl rfl rfl rfl rfl ht, hm⟩

theorem Holds.run {w0 : World} (hw : Sane w0) (lp lo rp ro tr : Nat) : ∀ (ops : List WalkOp) (s : WalkSt) (mode : Bool) (x : Nat),
    Holds w0 s mode lp lo rp ro tr x → ∃ s' x', s.run ops = .ok s' ∧
      Holds w0 s' (lastMode s.t.trunkMode mode ops) lp lo rp ro tr x' := by
  intro ops
  induction ops with
  | nil => exact fun s mode x h => ⟨s, x, rfl, h⟩
  | cons op ops ih =>
    intro s mode x h
    cases op with
    | setMode b =>
      obtain ⟨s', x', h1, h2⟩ := ih { s with t := { s.t with trunkMode := b } } mode x
        ⟨h.bound, h.hlp, h.hlo, h.hrp, h.hro, h.htr, h.hcom, h.htrunk, h.perm, h.nodup, h.fresh, h.klp, h.klo, h.krp, h.kro,
          h.ktr, h.kx, h.others, h.unborn⟩
      exact ⟨s', x', h1, h2⟩
    | setScaled b =>
      obtain ⟨s', x', h1, h2⟩ := ih { s with t := { s.t with scaled := b } } mode x
        ⟨h.bound, h.hlp, h.hlo, h.hrp, h.hro, h.htr, h.hcom, h.htrunk, h.perm, h.nodup, h.fresh, h.klp, h.klo, h.krp, h.kro,
          h.ktr, h.kx, h.others, h.unborn⟩
      exact ⟨s', x', h1, h2⟩
    | setOffset a b =>
      obtain ⟨s', x', h1, h2⟩ := ih { s with t := { s.t with comX := a, comY := b } } mode x
        ⟨h.bound, h.hlp, h.hlo, h.hrp, h.hro, h.htr, h.hcom, h.htrunk, h.perm, h.nodup, h.fresh, h.klp, h.klo, h.krp, h.kro,
          h.ktr, h.kx, h.others, h.unborn⟩
      exact ⟨s', x', h1, h2⟩
    | update r T =>
      obtain ⟨s1, x1, e1, h1, hm, -⟩ := h.update hw r T
      obtain ⟨s', x', h2, h3⟩ := ih s1 _ x1 h1
      refine ⟨s', x', ?_, ?_⟩
      · show (s.updateTasks r T).bind _ = _
        rw [e1]; exact h2
      · rw [hm] at h3; exact h3

theorem remove_has {w : World} {a : Nat} {k : TaskKind} (h : w.Has a k) :
    w.remove a = .ok (w.erase a) := by
  obtain ⟨o, h1, -⟩ := h
  unfold World.remove
  rw [h1]

/-- `remove_tasks` gives back the world of before. -/
theorem Holds.remove {w0 : World} (hw : Sane w0) {s : WalkSt} {mode : Bool} {lp lo rp ro tr x : Nat}
    (h : Holds w0 s mode lp lo rp ro tr x) : ∃ s', s.removeTasks = .ok s' ∧ s'.w.tasks.Perm w0.tasks ∧
      (∀ a, s'.w.heap a = w0.heap a) ∧ w0.next ≤ s'.w.next ∧ s'.t.bound = false ∧ s'.t.com = none ∧ s'.t.trunk = none ∧
      s'.t.trunkMode = s.t.trunkMode := by
  have hnd := h.nodup
  simp only [List.nodup_cons, List.mem_cons, List.not_mem_nil, or_false, not_or, not_false_iff, List.nodup_nil, and_true] at hnd
  obtain ⟨⟨n1, n2, n3, n4, n5⟩, ⟨m1, m2, m3, m4⟩, ⟨k1, k2, k3⟩, ⟨j1, j2⟩, i1⟩ := hnd
  have hfr := h.fresh
  simp only [List.mem_cons, List.not_mem_nil, or_false, forall_eq_or_imp, forall_eq] at hfr
  obtain ⟨f1, f2, f3, f4, f5, f6⟩ := hfr
  have r1 := remove_has h.klp
  have a2 := Has.remove_ne h.klo (Ne.symm n1)
  have a3 := Has.remove_ne h.krp (Ne.symm n2)
  have a4 := Has.remove_ne h.kro (Ne.symm n3)
  have a5 := Has.remove_ne h.ktr (Ne.symm n4)
  have a6 := Has.remove_ne h.kx (Ne.symm n5)
  have r2 := remove_has a2
  have b3 := Has.remove_ne a3 (Ne.symm m1)
  have b4 := Has.remove_ne a4 (Ne.symm m2)
  have b5 := Has.remove_ne a5 (Ne.symm m3)
  have b6 := Has.remove_ne a6 (Ne.symm m4)
  have r3 := remove_has b3
  have c4 := Has.remove_ne b4 (Ne.symm k1)
  have c5 := Has.remove_ne b5 (Ne.symm k2)
  have c6 := Has.remove_ne b6 (Ne.symm k3)
  have r4 := remove_has c4
  have d5 := Has.remove_ne c5 (Ne.symm j1)
  have d6 := Has.remove_ne c6 (Ne.symm j2)
  have r6 := remove_has d6
  have e5 := Has.remove_ne d5 i1
  have r5 := remove_has e5
  have hc := h.hcom
  have ht := h.htrunk
  refine ⟨⟨(((((s.w.erase lp).erase lo).erase rp).erase ro).erase x).erase tr,
    { s.t with bound := false, com := none, trunk := none }⟩, ?_, ?_, ?_, ?_, rfl, rfl, rfl, rfl⟩
  · unfold WalkSt.removeTasks World.removeFrame
    rw [if_pos h.bound]
    cases mode with
    | true =>
      simp only [if_true] at hc ht
      simp only [h.hlp, h.hlo, h.hrp, h.hro, deref, r1, r2, r3, r4, Bind.bind, Except.bind, WalkSt.dropCom, WalkSt.dropTrunk, hc, ht,
        h.bound, if_true, r6, h.htr, r5]
    | false =>
      simp only [Bool.false_eq_true, if_false] at hc ht
      simp only [h.hlp, h.hlo, h.hrp, h.hro, deref, r1, r2, r3, r4, Bind.bind, Except.bind, WalkSt.dropCom, WalkSt.dropTrunk, hc, ht,
        h.bound, if_true, r6, h.htr, r5]
  · show (List.filter _ (List.filter _ (List.filter _ (List.filter _ (List.filter _ (List.filter _ s.w.tasks)))))).Perm _
    simp only [List.filter_filter]
    refine (h.perm.filter _).trans (List.Perm.of_eq ?_)
    simp only [List.filter_cons]
    rw [if_neg (by simp), if_neg (by simp), if_neg (by simp), if_neg (by simp), if_neg (by simp), if_neg (by simp),
      List.filter_eq_self]
    intro a ha
    have := hw.born a ha
    simp only [Bool.and_eq_true, decide_eq_true_eq]
    refine ⟨?_, ?_, ?_, ?_, ?_, ?_⟩ <;> omega
  · intro a
    show (if a = tr then none else if a = x then none else if a = ro then none else if a = rp then none else
      if a = lo then none else if a = lp then none else s.w.heap a) = _
    by_cases hmem : a ∈ [lp, lo, rp, ro, tr, x]
    · rw [hw.unborn a (h.fresh a hmem).1]
      simp only [List.mem_cons, List.not_mem_nil, or_false] at hmem
      rcases hmem with rfl | rfl | rfl | rfl | rfl | rfl <;> simp
    · rw [← h.others a hmem]
      simp only [List.mem_cons, List.not_mem_nil, or_false, not_or] at hmem
      rw [if_neg hmem.2.2.2.2.1, if_neg hmem.2.2.2.2.2, if_neg hmem.2.2.2.1, if_neg hmem.2.2.1, if_neg hmem.2.1, if_neg hmem.1]
  · show w0.next ≤ s.w.next
    omega

/-! ## C91 -/

theorem Holds.kinds {w0 : World} (hw : Sane w0) {s : WalkSt} {mode : Bool} {lp lo rp ro tr x : Nat}
    (h : Holds w0 s mode lp lo rp ro tr x) :
    (s.w.tasks.map s.w.kindOf).Perm ((walkKinds mode).map some ++ w0.tasks.map w0.kindOf) := by
  have hk : ∀ {a k}, s.w.Has a k → s.w.kindOf a = some k := by
    rintro a k ⟨o, h1, h2⟩
    unfold World.kindOf
    rw [h1, ← h2]; rfl
  have hrest : w0.tasks.map s.w.kindOf = w0.tasks.map w0.kindOf := by
    apply List.map_congr_left
    intro a ha
    have hlt := hw.born a ha
    unfold World.kindOf
    rw [h.others a fun hm => by have := (h.fresh a hm).1; omega]
  refine (h.perm.map _).trans (List.Perm.of_eq ?_)
  simp only [List.map_cons, hk h.klp, hk h.klo, hk h.krp, hk h.kro, hk h.ktr, hk h.kx, hrest, walkKinds, List.map_nil,
    List.cons_append, List.nil_append]

/-- **C91.** After `initialize_tasks` on a solver that holds any tasks, and after any sequence of mode changes, option
changes and updates, no call faults; the solver holds its previous tasks, the five tasks of the feet and the trunk
orientation, and exactly one of the CoM task and the trunk task: the one of the mode of the last update. `remove_tasks`
then gives back the tasks of before, unchanged, and no task is left in memory. -/
theorem C91 (w0 : World) (hw : Sane w0) (t : WalkTasks) (hc : t.com = none) (ht : t.trunk = none) (r : RobotView)
    (ops : List WalkOp) : ∃ s0 s s', WalkSt.initialize r ⟨w0, t⟩ = .ok s0 ∧ s0.run ops = .ok s ∧
      (s.w.tasks.map s.w.kindOf).Perm ((walkKinds (lastMode t.trunkMode t.trunkMode ops)).map some ++ w0.tasks.map w0.kindOf) ∧
      (∀ a ∈ w0.tasks, a ∈ s.w.tasks ∧ s.w.heap a = w0.heap a) ∧
      s.removeTasks = .ok s' ∧ s'.w.tasks.Perm w0.tasks ∧ ∀ a, s'.w.heap a = w0.heap a := by
  obtain ⟨s0, lp, lo, rp, ro, tr, x, h1, h2, h3⟩ := holds_initialize hw t hc ht r
  obtain ⟨s, x', h4, h5⟩ := Holds.run hw lp lo rp ro tr ops s0 _ x h2
  obtain ⟨s', h6, h7, h8, -⟩ := h5.remove hw
  rw [h3] at h5
  refine ⟨s0, s, s', h1, h4, h5.kinds hw, ?_, h6, h7, h8⟩
  intro a ha
  have hlt := hw.born a ha
  refine ⟨h5.perm.mem_iff.2 (by simp [ha]), h5.others a fun hm => by have := (h5.fresh a hm).1; omega⟩

/-- Sessions one after the other: `initialize_tasks`, any calls, `remove_tasks`. -/
def sessions : WalkSt → List (RobotView × List WalkOp) → Except Err WalkSt
  | s, [] => .ok s
  | s, (r, ops) :: l => do
    let s ← s.initialize r
    let s ← s.run ops
    let s ← s.removeTasks
    sessions s l

/-- **C91 for any number of sessions.** -/
theorem C91_sessions : ∀ (l : List (RobotView × List WalkOp)) (w0 : World) (_ : Sane w0) (t : WalkTasks)
    (_ : t.com = none) (_ : t.trunk = none),
    ∃ s, sessions ⟨w0, t⟩ l = .ok s ∧ s.w.tasks.Perm w0.tasks ∧ ∀ a, s.w.heap a = w0.heap a := by
  intro l
  induction l with
  | nil => exact fun w0 _ t _ _ => ⟨⟨w0, t⟩, rfl, List.Perm.refl _, fun _ => rfl⟩
  | cons p l ih =>
    obtain ⟨r, ops⟩ := p
    intro w0 hw t hc ht
    obtain ⟨s0, lp, lo, rp, ro, tr, x, h1, h2, h3⟩ := holds_initialize hw t hc ht r
    obtain ⟨s, x', h4, h5⟩ := Holds.run hw lp lo rp ro tr ops s0 _ x h2
    obtain ⟨s', h6, h7, h8, h9, -, h10, h11, -⟩ := h5.remove hw
    have hw' : Sane s'.w := by
      refine ⟨fun a ha => ?_, fun a ha => ?_⟩
      · rw [h8]; exact hw.unborn a (by omega)
      · have := hw.born a (h7.mem_iff.1 ha); omega
    obtain ⟨s'', h12, h13, h14⟩ := ih s'.w hw' s'.t h10 h11
    refine ⟨s'', ?_, h13.trans h7, fun a => (h14 a).trans (h8 a)⟩
    unfold sessions
    simp only [h1, h4, h6, Bind.bind, Except.bind]
    exact h12

/-- **C91, the targets.** After an update, the tasks added to the solver have the targets that were given; the task of
the CoM (or of the trunk) has the target of the CoM plus the offset, turned with the trunk. -/
theorem C91_targets (w0 : World) (hw : Sane w0) (t : WalkTasks) (hc : t.com = none) (ht : t.trunk = none) (r : RobotView)
    (ops : List WalkOp) (s0 s : WalkSt) (h0 : WalkSt.initialize r ⟨w0, t⟩ = .ok s0) (hs : s0.run ops = .ok s)
    (r' : RobotView) (T : Targets) : ∃ s', s.updateTasks r' T = .ok s' ∧ ∀ a ∈ s'.w.tasks, a ∉ w0.tasks →
      ∃ o, s'.w.heap a = some o ∧
        (o.kind = .position "left_foot" → o.target = T.left.translation) ∧
        (o.kind = .orientation "left_foot" → o.rotation = T.left.linear) ∧
        (o.kind = .position "right_foot" → o.target = T.right.translation) ∧
        (o.kind = .orientation "right_foot" → o.rotation = T.right.linear) ∧
        (o.kind = .orientation "trunk" → o.rotation = T.trunk) ∧
        (o.kind = .com ∨ o.kind = .position "trunk" →
          o.target = T.com + r'.trunk.linear.mulVec ![s.t.comX, s.t.comY, 0]) := by
  obtain ⟨s0', lp, lo, rp, ro, tr, x, h1, h2, h3⟩ := holds_initialize hw t hc ht r
  rw [h0] at h1; cases h1
  obtain ⟨s1, x', h4, h5⟩ := Holds.run hw lp lo rp ro tr ops s0 _ x h2
  rw [hs] at h4; cases h4
  obtain ⟨s', x'', h6, h7, -, h8⟩ := h5.update hw r' T
  refine ⟨s', h6, ?_⟩
  intro a ha hna
  have hm : a = lp ∨ a = lo ∨ a = rp ∨ a = ro ∨ a = tr ∨ a = x'' := by
    have := h7.perm.mem_iff.1 ha
    simp only [List.mem_cons, hna, or_false] at this
    exact this
  have pick : ∀ {b k} {P : TaskObj → Prop}, s'.w.Has b k → (∃ o, s'.w.heap b = some o ∧ P o) →
      ∃ o, s'.w.heap b = some o ∧ o.kind = k ∧ P o := by
    rintro b k P ⟨o, g1, g2⟩ ⟨o', g3, g4⟩
    rw [g1] at g3; cases g3
    exact ⟨o, g1, g2, g4⟩
  rcases hm with rfl | rfl | rfl | rfl | rfl | rfl
  · obtain ⟨o, g1, g2, g3⟩ := pick h7.klp h8.lp
    exact ⟨o, g1, by simp [g2, g3]⟩
  · obtain ⟨o, g1, g2, g3⟩ := pick h7.klo h8.lo
    exact ⟨o, g1, by simp [g2, g3]⟩
  · obtain ⟨o, g1, g2, g3⟩ := pick h7.krp h8.rp
    exact ⟨o, g1, by simp [g2, g3]⟩
  · obtain ⟨o, g1, g2, g3⟩ := pick h7.kro h8.ro
    exact ⟨o, g1, by simp [g2, g3]⟩
  · obtain ⟨o, g1, g2, g3⟩ := pick h7.ktr h8.tr
    exact ⟨o, g1, by simp [g2, g3]⟩
  · obtain ⟨o, g1, g2, g3⟩ := pick h7.kx h8.x
    refine ⟨o, g1, ?_⟩
    rw [g2, g3]
    cases s.t.trunkMode <;> simp

/-- After `remove_tasks`, an update dereferences the null solver. -/
theorem C91_after_remove (s : WalkSt) (hb : s.t.bound = false) (hc : s.t.com = none) (ht : s.t.trunk = none)
    (r : RobotView) (T : Targets) : s.updateTasks r T = .error .ub := by
  have : s.updateComTask r = .error .ub := by
    unfold WalkSt.updateComTask WalkSt.dropCom WalkSt.dropTrunk WalkSt.addCom WalkSt.addTrunk
    simp [hb, hc, ht, Bind.bind, Except.bind]
  unfold WalkSt.updateTasks
  rw [this]
  rfl

/-- An empty solver, and a robot. -/
def emptyWorld : World := ⟨fun _ => none, 0, []⟩

theorem emptyWorld_sane : Sane emptyWorld := ⟨fun _ _ => rfl, fun a ha => absurd ha List.not_mem_nil⟩

noncomputable def someRobot : RobotView := ⟨⟨1, ![0, 1 / 10, 0]⟩, ⟨1, ![0, -1 / 10, 0]⟩, ⟨1, ![0, 0, 4 / 10]⟩, ![0, 0, 3 / 10]⟩

/-- A second `initialize_tasks` leaves the five first tasks in the solver after `remove_tasks`. -/
theorem C91_twice_refuted : ∃ s0 s1 s2, WalkSt.initialize someRobot ⟨emptyWorld, {}⟩ = .ok s0 ∧
    s0.initialize someRobot = .ok s1 ∧ s1.removeTasks = .ok s2 ∧ s2.w.tasks = [4, 3, 2, 1, 0] :=
  ⟨_, _, _, rfl, rfl, rfl, rfl⟩

/-- The hypotheses of C91 are met: after a switch to the trunk mode, an update, and a switch back without update, the
solver holds the trunk task. -/
example (T : Targets) : ∃ s0 s s', WalkSt.initialize someRobot ⟨emptyWorld, {}⟩ = .ok s0 ∧
    s0.run [.setMode true, .update someRobot T, .setMode false] = .ok s ∧
    (s.w.tasks.map s.w.kindOf).Perm ((walkKinds true).map some) ∧ s.removeTasks = .ok s' ∧ s'.w.tasks = [] := by
  obtain ⟨s0, s, s', h1, h2, h3, -, h5, h6, -⟩ := C91 emptyWorld emptyWorld_sane {} rfl rfl someRobot
    [.setMode true, .update someRobot T, .setMode false]
  refine ⟨s0, s, s', h1, h2, ?_, h5, List.Perm.eq_nil h6⟩
  simpa [emptyWorld, lastMode] using h3

/-! ## C92 -/

/-- The names under which the errors of the feet should be found. -/
structure Reports (m : SMap String V3) (s : WalkSt) (err : TaskObj → V3) : Prop where
  leftPosition : ∃ e, s.errorOf err s.t.leftPosition = .ok e ∧ m.find? "left_foot_position" = some e
  leftOrientation : ∃ e, s.errorOf err s.t.leftOrientation = .ok e ∧ m.find? "left_foot_orientation" = some e
  rightPosition : ∃ e, s.errorOf err s.t.rightPosition = .ok e ∧ m.find? "right_foot_position" = some e
  rightOrientation : ∃ e, s.errorOf err s.t.rightOrientation = .ok e ∧ m.find? "right_foot_orientation" = some e

/-- What `get_tasks_error` returns: four entries. -/
theorem errors_entries (err : TaskObj → V3) (s : WalkSt) (m : SMap String V3) (h : s.getTasksError err = .ok m) :
    ∃ lp rp tr x, s.errorOf err s.t.leftPosition = .ok lp ∧ s.errorOf err s.t.rightPosition = .ok rp ∧
      s.errorOf err s.t.trunkOrientation = .ok tr ∧ s.errorOf err s.t.comPointer = .ok x ∧
      ∀ k, m.find? k =
        if k = (if s.t.trunkMode then "trunk_position" else "com_position") then some x
        else if k = "trunk_orientation" then some tr
        else if k = "right_foot_orientation" then some rp
        else if k = "left_foot_orientation" then some lp else none := by
  unfold WalkSt.getTasksError WalkSt.comError at h
  unfold WalkTasks.comPointer
  cases h1 : s.errorOf err s.t.leftOrientation with
  | error e => simp only [h1, Bind.bind, Except.bind] at h; cases h
  | ok lo =>
  cases h2 : s.errorOf err s.t.rightOrientation with
  | error e => simp only [h1, h2, Bind.bind, Except.bind] at h; cases h
  | ok ro =>
  cases h3 : s.errorOf err s.t.leftPosition with
  | error e => simp only [h1, h2, h3, Bind.bind, Except.bind] at h; cases h
  | ok lp =>
  cases h4 : s.errorOf err s.t.rightPosition with
  | error e => simp only [h1, h2, h3, h4, Bind.bind, Except.bind] at h; cases h
  | ok rp =>
  cases h5 : s.errorOf err s.t.trunkOrientation with
  | error e => simp only [h1, h2, h3, h4, h5, Bind.bind, Except.bind] at h; cases h
  | ok tr =>
  simp only [h1, h2, h3, h4, h5, Bind.bind, Except.bind] at h
  cases hm : s.t.trunkMode with
  | true =>
    simp only [hm, if_true] at h ⊢
    cases h6 : s.errorOf err s.t.trunk with
    | error e => rw [h6] at h; cases h
    | ok x =>
      rw [h6] at h
      cases h
      refine ⟨lp, rp, tr, x, rfl, rfl, rfl, rfl, fun k => ?_⟩
      simp only [SMap.find?_set]
      split <;> try rfl
      split <;> try rfl
      split <;> try rfl
      split <;> try rfl
  | false =>
    simp only [hm, Bool.false_eq_true, if_false] at h ⊢
    cases h6 : s.errorOf err s.t.com with
    | error e => rw [h6] at h; cases h
    | ok x =>
      rw [h6] at h
      cases h
      refine ⟨lp, rp, tr, x, rfl, rfl, rfl, rfl, fun k => ?_⟩
      simp only [SMap.find?_set]
      split <;> try rfl
      split <;> try rfl
      split <;> try rfl
      split <;> try rfl

/-- **C92 is false** for every state: the names of the positions of the feet are never in the report, and the names of
their orientations give the errors of their positions. -/
theorem C92_refuted (err : TaskObj → V3) (s : WalkSt) (m : SMap String V3) (h : s.getTasksError err = .ok m) :
    ¬ Reports m s err ∧ m.find? "left_foot_position" = none ∧ m.find? "right_foot_position" = none ∧
    (∃ e, s.errorOf err s.t.leftPosition = .ok e ∧ m.find? "left_foot_orientation" = some e) ∧
    (∃ e, s.errorOf err s.t.rightPosition = .ok e ∧ m.find? "right_foot_orientation" = some e) := by
  obtain ⟨lp, rp, tr, x, h1, h2, h3, h4, hf⟩ := errors_entries err s m h
  have e1 : m.find? "left_foot_position" = none := by rw [hf]; cases s.t.trunkMode <;> simp
  refine ⟨fun hr => ?_, e1, by rw [hf]; cases s.t.trunkMode <;> simp, ⟨lp, h1, by rw [hf]; cases s.t.trunkMode <;> simp⟩,
    ⟨rp, h2, by rw [hf]; cases s.t.trunkMode <;> simp⟩⟩
  obtain ⟨e, -, he⟩ := hr.leftPosition
  rw [e1] at he
  cases he

/-- **C92, what holds**: the errors of the trunk orientation and of the CoM (or of the trunk position) are reported under
their own names. Missing: the errors of the feet (`C92_refuted`). -/
theorem C92_partial (err : TaskObj → V3) (s : WalkSt) (m : SMap String V3) (h : s.getTasksError err = .ok m) :
    (∃ e, s.errorOf err s.t.trunkOrientation = .ok e ∧ m.find? "trunk_orientation" = some e) ∧
    (s.t.trunkMode = true → ∃ e, s.errorOf err s.t.trunk = .ok e ∧ m.find? "trunk_position" = some e ∧
      m.find? "com_position" = none) ∧
    (s.t.trunkMode = false → ∃ e, s.errorOf err s.t.com = .ok e ∧ m.find? "com_position" = some e ∧
      m.find? "trunk_position" = none) := by
  obtain ⟨lp, rp, tr, x, h1, h2, h3, h4, hf⟩ := errors_entries err s m h
  unfold WalkTasks.comPointer at h4
  refine ⟨⟨tr, h3, by rw [hf]; cases s.t.trunkMode <;> simp⟩, fun hm => ⟨x, ?_, ?_, ?_⟩, fun hm => ⟨x, ?_, ?_, ?_⟩⟩
  · rw [hm] at h4; exact h4
  · rw [hf, hm]; simp
  · rw [hf, hm]; simp
  · rw [hm] at h4; exact h4
  · rw [hf, hm]; simp
  · rw [hf, hm]; simp

/-- `get_tasks_error` succeeds right after an update; after a change of mode that was not followed by an update it
dereferences a null pointer. -/
theorem C92_mode {w0 : World} {s : WalkSt} {mode : Bool} {lp lo rp ro tr x : Nat} (h : Holds w0 s mode lp lo rp ro tr x)
    (err : TaskObj → V3) :
    (s.t.trunkMode = mode → ∃ m, s.getTasksError err = .ok m) ∧ (s.t.trunkMode = !mode → s.getTasksError err = .error .ub) := by
  have hr : ∀ {a k}, s.w.Has a k → ∃ e, s.errorOf err (some a) = .ok e := by
    rintro a k ⟨o, h1, -⟩
    refine ⟨err o, ?_⟩
    unfold WalkSt.errorOf World.read deref
    simp only [Bind.bind, Except.bind, h1]
  obtain ⟨e1, g1⟩ := hr h.klp
  obtain ⟨e2, g2⟩ := hr h.klo
  obtain ⟨e3, g3⟩ := hr h.krp
  obtain ⟨e4, g4⟩ := hr h.kro
  obtain ⟨e5, g5⟩ := hr h.ktr
  obtain ⟨e6, g6⟩ := hr h.kx
  have hn : s.errorOf err none = .error .ub := rfl
  have hc := h.hcom
  have ht := h.htrunk
  unfold WalkSt.getTasksError WalkSt.comError
  rw [h.hlp, h.hlo, h.hrp, h.hro, h.htr]
  simp only [g1, g2, g3, g4, g5, Bind.bind, Except.bind]
  cases mode with
  | true =>
    simp only [if_true] at hc ht
    rw [hc, ht]
    constructor
    · intro hm; simp only [hm, if_true, g6]; exact ⟨_, rfl⟩
    · intro hm; simp only [hm, Bool.not_true, Bool.false_eq_true, if_false, hn]
  | false =>
    simp only [Bool.false_eq_true, if_false] at hc ht
    rw [hc, ht]
    constructor
    · intro hm; simp only [hm, Bool.false_eq_true, if_false, g6]; exact ⟨_, rfl⟩
    · intro hm; simp only [hm, Bool.not_false, if_true, hn]

/-- The report exists after `initialize_tasks`. -/
example (err : TaskObj → V3) : ∃ s m, WalkSt.initialize someRobot ⟨emptyWorld, {}⟩ = .ok s ∧ s.getTasksError err = .ok m := by
  obtain ⟨s, lp, lo, rp, ro, tr, x, h1, h2, h3⟩ := holds_initialize emptyWorld_sane {} rfl rfl someRobot
  obtain ⟨m, hm⟩ := (C92_mode h2 err).1 h3
  exact ⟨s, m, h1, hm⟩

/-! ## C110: the PID on the DCM -/

/-- **C110 is false**: the first call of `update_tasks_and_pid` on new tasks reads the integral and the last error, which
have no value. -/
theorem C110_refuted (w : World) (r : RobotView) (T : Targets) (dcm measured : V2) (elapsed : ℝ) :
    WalkSt.updateTasksAndPid r T dcm measured elapsed ⟨w, {}⟩ = .error .ub := rfl

/-- The successive errors and durations of the calls. -/
abbrev Calls := List (V2 × ℝ)

/-- The PID after a sequence of calls. -/
noncomputable def WalkTasks.pids : WalkTasks → Calls → Except Err WalkTasks
  | t, [] => .ok t
  | t, (e, d) :: l => do
    let p ← t.pid e d
    p.1.pids l

/-- **C110 once the members have a value**: any sequence of calls succeeds; the integral is the leaky sum of the errors
weighted by the durations, with closed form, and the last error is the one of the last call. Missing: the first call
(`C110_refuted`). -/
theorem C110_partial : ∀ (l : Calls) (t : WalkTasks) (i e : V2), t.integral = some i → t.lastError = some e →
    ∃ t', t.pids l = .ok t' ∧
      (∃ i', t'.integral = some i' ∧
        i'.x = (1 - t.lambda) ^ l.length * i.x +
          ((l.mapIdx fun k c => (1 - t.lambda) ^ (l.length - 1 - k) * (c.1.x * c.2)).sum) ∧
        i'.y = (1 - t.lambda) ^ l.length * i.y +
          ((l.mapIdx fun k c => (1 - t.lambda) ^ (l.length - 1 - k) * (c.1.y * c.2)).sum)) ∧
      t'.lastError = some ((l.map Prod.fst).getLastD e) ∧ t'.lambda = t.lambda := by
  intro l
  induction l with
  | nil => exact fun t i e hi he => ⟨t, rfl, ⟨i, hi, by simp, by simp⟩, he, rfl⟩
  | cons c l ih =>
    obtain ⟨c, d⟩ := c
    intro t i e hi he
    have hp : ∃ o, t.pid c d = .ok ({ t with
        integral := some ⟨(1 - t.lambda) * i.x + c.x * d, (1 - t.lambda) * i.y + c.y * d⟩, lastError := some c }, o) := by
      unfold WalkTasks.pid
      rw [hi, he]
      exact ⟨_, rfl⟩
    obtain ⟨o, hp⟩ := hp
    obtain ⟨t', h1, ⟨i', h2, h3, h4⟩, h5, h6⟩ := ih { t with
        integral := some ⟨(1 - t.lambda) * i.x + c.x * d, (1 - t.lambda) * i.y + c.y * d⟩, lastError := some c } _ _ rfl rfl
    refine ⟨t', ?_, ⟨i', h2, ?_, ?_⟩, ?_, h6⟩
    · unfold WalkTasks.pids
      rw [hp]; exact h1
    · rw [h3]
      simp only [List.mapIdx_cons, List.sum_cons, List.length_cons, Nat.add_sub_cancel, Nat.sub_zero]
      have : (fun k (c : V2 × ℝ) => (1 - t.lambda) ^ (l.length - 1 - k) * (c.1.x * c.2)) =
          fun k c => (1 - t.lambda) ^ (l.length - (k + 1)) * (c.1.x * c.2) := by
        funext k c; rw [Nat.sub_sub, Nat.add_comm 1 k]
      rw [this]; ring
    · rw [h4]
      simp only [List.mapIdx_cons, List.sum_cons, List.length_cons, Nat.add_sub_cancel, Nat.sub_zero]
      have : (fun k (c : V2 × ℝ) => (1 - t.lambda) ^ (l.length - 1 - k) * (c.1.y * c.2)) =
          fun k c => (1 - t.lambda) ^ (l.length - (k + 1)) * (c.1.y * c.2) := by
        funext k c; rw [Nat.sub_sub, Nat.add_comm 1 k]
      rw [this]; ring
    · rw [h5]
      simp only [List.map_cons]
      cases l <;> rfl

/-- With null gains (the default), the PID does not move the CoM. -/
theorem C110_null (t : WalkTasks) (hp : t.Kp = 0) (hi : t.Ki = 0) (hd : t.Kd = 0) (e : V2) (d : ℝ) (p : WalkTasks × V2)
    (h : t.pid e d = .ok p) : p.2 = ⟨0, 0⟩ := by
  unfold WalkTasks.pid at h
  split at h
  · cases h; simp [hp, hi, hd]
  · cases h

end Verif.Humanoid
