/-
Histories of 3D splines axis by axis (C34), the default mask (C37), `configure` with a priority (C39).
-/
import Verif.Tools.CubicSplineProps
import Verif.Tools.MaskProps

namespace Verif.Tools

/-! ## 3D splines -/

section
variable {K : Type} [Field K] [LinearOrder K] [IsStrictOrderedRing K]

/-- Specification: the spline of an axis. -/
def Spline3.axis (s : Spline3 K) : Fin 3 → SplineSt K := ![s.x, s.y, s.z]

/-- Specification: what a call on the 3D spline is for one axis. -/
def Spl3Op.axis (i : Fin 3) : Spl3Op K → SplOp K
  | .addPoint t v d => .addPoint t (v i) (d i)
  | .clear => .clear
  | .read t ty => .read t ty

theorem spl3_axis_step (wrap : K → K) (s : Spline3 K) (hs : SameTimes s) (op : Spl3Op K) (i : Fin 3) :
    (spl3Step wrap s op).axis i = splStep wrap (s.axis i) (op.axis i) := by
  cases op with
  | clear => fin_cases i <;> rfl
  | read t ty => fin_cases i <;> rfl
  | addPoint t v d =>
    have ey := last_times hs.1
    have ez := last_times hs.2
    rcases addPoint_cases wrap s.x t (v 0) (d 0) with ⟨hx, last, hl, hle⟩ | ⟨x', hx, -⟩
    · -- refused by the three axes
      have hno : ∀ (c : SplineSt K) (x dx : K), s.x.points.getLast?.map SPoint.t = c.points.getLast?.map SPoint.t →
          c.addPoint wrap t x dx = .error .runtimeError := by
        intro c x dx e
        rcases addPoint_cases wrap c t x dx with ⟨h, -⟩ | ⟨x', h, -⟩
        · exact h
        · exfalso
          have := (accept_iff wrap c t x dx).1 ⟨_, h⟩ last.t (by rw [← e, hl]; rfl)
          exact absurd this (not_lt.2 hle)
      have e : spl3Step wrap s (.addPoint t v d) = s := by
        simp only [spl3Step, Spline3.addPoint, hx]
      rw [e]
      fin_cases i
      · show s.x = splStep wrap s.x (.addPoint t (v 0) (d 0))
        simp only [splStep, hx]
      · show s.y = splStep wrap s.y (.addPoint t (v 1) (d 1))
        simp only [splStep, hno s.y (v 1) (d 1) ey]
      · show s.z = splStep wrap s.z (.addPoint t (v 2) (d 2))
        simp only [splStep, hno s.z (v 2) (d 2) ez]
    · have hok := (accept_iff wrap s.x t (v 0) (d 0)).1 ⟨_, hx⟩
      obtain ⟨y', hy⟩ := (accept_iff wrap s.y t (v 1) (d 1)).2 (by rw [← ey]; exact hok)
      obtain ⟨z', hz⟩ := (accept_iff wrap s.z t (v 2) (d 2)).2 (by rw [← ez]; exact hok)
      have e : spl3Step wrap s (.addPoint t v d) = ⟨⟨s.x.angular, true, s.x.points ++ [⟨t, x', d 0⟩], s.x.splines⟩, y', z'⟩ := by
        simp only [spl3Step, Spline3.addPoint, hx, hy, hz]
      rw [e]
      fin_cases i
      · show _ = splStep wrap s.x (.addPoint t (v 0) (d 0))
        simp only [splStep, hx]; rfl
      · show _ = splStep wrap s.y (.addPoint t (v 1) (d 1))
        simp only [splStep, hy]; rfl
      · show _ = splStep wrap s.z (.addPoint t (v 2) (d 2))
        simp only [splStep, hz]; rfl

/-- **C34 (axes).** After every history of calls, each axis is the 1D spline of the same calls on that axis; and a value that
is read has, on each axis, the value read on the spline of that axis. -/
theorem C34_axes (wrap : K → K) (ops : List (Spl3Op K)) (i : Fin 3) :
    (ops.foldl (spl3Step wrap) Spline3.init).axis i = splRun wrap false (ops.map (Spl3Op.axis i)) ∧
    ∀ (t : K) (ty : ValueType) (v : Fin 3 → K), ((ops.foldl (spl3Step wrap) Spline3.init).interpolation t ty).2 = .ok v →
      ((splRun wrap false (ops.map (Spl3Op.axis i))).interpolation t ty).2 = .ok (v i) := by
  have key : (ops.foldl (spl3Step wrap) Spline3.init).axis i = splRun wrap false (ops.map (Spl3Op.axis i)) := by
    induction ops using List.reverseRecOn with
    | nil => fin_cases i <;> rfl
    | append_singleton ops op ih =>
      rw [List.foldl_append, List.foldl_cons, List.foldl_nil, spl3_axis_step wrap _ (C34_same_times wrap ops), ih]
      unfold splRun
      rw [List.map_append, List.foldl_append]
      rfl
  refine ⟨key, fun t ty v h => ?_⟩
  rw [← key]
  generalize ops.foldl (spl3Step wrap) Spline3.init = s at h
  unfold Spline3.interpolation at h
  cases hx : (s.x.interpolation t ty).2 with
  | error e => simp only [hx, Bind.bind, Except.bind] at h; cases h
  | ok a =>
    cases hy : (s.y.interpolation t ty).2 with
    | error e => simp only [hx, hy, Bind.bind, Except.bind] at h; cases h
    | ok b =>
      cases hz : (s.z.interpolation t ty).2 with
      | error e => simp only [hx, hy, hz, Bind.bind, Except.bind] at h; cases h
      | ok c =>
        simp only [hx, hy, hz, Bind.bind, Except.bind] at h
        have h : v = ![a, b, c] := (Except.ok.inj h).symm
        subst h
        fin_cases i
        · exact hx
        · exact hy
        · exact hz

end

/-- Two points, the second of which comes too early and is refused by the three axes. -/
example (wrap : ℝ → ℝ) : ([Spl3Op.addPoint 1 ![1, 2, 3] 0, .addPoint 0 ![4, 5, 6] 0].foldl (spl3Step wrap) Spline3.init).axis 1
    = splRun wrap false [.addPoint 1 2 0, .addPoint 0 5 0] := (C34_axes wrap _ 1).1

/-! ## Masks and priorities -/

/-- **C37 (default).** Before any call to `set_axises`, `apply` returns the three rows of the matrix. -/
theorem C37_default {K : Type} [Field K] (M : Fin 3 → Nat → K) : (Mask.init (K := K)).apply M = [M 0, M 1, M 2] := rfl

/-- **C39 (configure with a priority).** The three fields are those given. -/
theorem C39_configure {K : Type} (p : Prioritized K) (name : String) (priority : Priority) (weight : K) :
    (p.configure name priority weight).name = name ∧ (p.configure name priority weight).priority = priority ∧
    (p.configure name priority weight).weight = weight ∧
    p.configureStr name (p.configure name priority weight).priorityName weight = (p.configure name priority weight, none) := by
  refine ⟨rfl, rfl, rfl, ?_⟩
  cases priority <;> rfl

end Verif.Tools
