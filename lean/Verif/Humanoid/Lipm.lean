/-
Model of `placo::humanoid::LIPM`.
  /repo/src/placo/humanoid/lipm.{h,cpp}

Over the reals. The transition matrices of its integrators are those of the chain of three integrators
(`AB_matrices` of the matrix exponential, `abMatrices`).
-/
import Verif.Problem.IntegratorExp
import Verif.Tools.Segment

namespace Verif.Humanoid
open Verif.Problem Verif.Tools

/-- `AB_matrices(upper_shift_matrix(3), 3, ·)`: position, velocity, acceleration driven by the jerk.
Called by the constructors, lipm.cpp 55-56 and 68-69; integrator.cpp 90-111. -/
noncomputable def jerkAB : ℝ → (Nat → Nat → ℝ) × (Nat → ℝ) := abMatrices 3 (upperShift 3)

/-- The members of `LIPM`, lipm.h 39-66. The variables are those of the integrators. -/
structure Lipm where
  dt : ℝ
  timesteps : Nat
  tStart : ℝ
  x : Integrator ℝ
  y : Integrator ℝ

/-- `VectorXd(Vector3d(pos, vel, acc))`, as an expression. lipm.cpp 55-56. -/
noncomputable def initialState (pos vel acc : ℝ) : Expr ℝ :=
  Expr.fromVector ⟨3, fun i => if i = 0 then pos else if i = 1 then vel else acc⟩

/-- `LIPM::LIPM` from an initial state, lipm.cpp 47-59. `n` is the number of variables of the problem before, the
second component is their number after. The number of timesteps is not negative (`add_variable` of a negative size is
not modelled). -/
noncomputable def Lipm.fromState (n : Nat) (dt : ℝ) (timesteps : Nat) (tStart : ℝ) (pos vel acc : V2) :
    Except Err (Lipm × Nat) := do
  let xv : Var := ⟨n, n + timesteps⟩
  let yv : Var := ⟨n + timesteps, n + timesteps + timesteps⟩
  let x ← Integrator.mkOrder xv (initialState pos.x vel.x acc.x) 3 jerkAB dt
  let y ← Integrator.mkOrder yv (initialState pos.y vel.y acc.y) 3 jerkAB dt
  .ok (⟨dt, timesteps, tStart, { x with tStart := tStart }, { y with tStart := tStart }⟩, n + timesteps + timesteps)

/-- `LIPM::LIPM` from a previous one, lipm.cpp 61-72: `previous.x.expr(-1)` is the final state of the previous one. -/
noncomputable def Lipm.fromPrevious (n : Nat) (dt : ℝ) (timesteps : Nat) (tStart : ℝ) (previous : Lipm) :
    Except Err (Lipm × Nat) := do
  let xv : Var := ⟨n, n + timesteps⟩
  let yv : Var := ⟨n + timesteps, n + timesteps + timesteps⟩
  let x0 ← previous.x.expr (-1) (-1)
  let x ← Integrator.mkOrder xv x0 3 jerkAB dt
  let y0 ← previous.y.expr (-1) (-1)
  let y ← Integrator.mkOrder yv y0 3 jerkAB dt
  .ok (⟨dt, timesteps, tStart, { x with tStart := tStart }, { y with tStart := tStart }⟩, n + timesteps + timesteps)

/-- `LIPM::t_end`, lipm.cpp 79-82. -/
noncomputable def Lipm.tEnd (l : Lipm) : ℝ := l.tStart + l.timesteps * l.dt

/-- `x.expr(timestep, d) / y.expr(timestep, d)`: `pos`, `vel`, `acc`, `jerk`, lipm.cpp 84-102. -/
noncomputable def Lipm.component (l : Lipm) (timestep diff : Int) : Except Err (Expr ℝ) := do
  let a ← l.x.expr timestep diff
  let b ← l.y.expr timestep diff
  .ok (a.stack b)

/-- lipm.cpp 84-87. -/
noncomputable def Lipm.pos (l : Lipm) (timestep : Int) := l.component timestep 0
/-- lipm.cpp 89-92. -/
noncomputable def Lipm.vel (l : Lipm) (timestep : Int) := l.component timestep 1
/-- lipm.cpp 94-97. -/
noncomputable def Lipm.acc (l : Lipm) (timestep : Int) := l.component timestep 2
/-- lipm.cpp 99-102. -/
noncomputable def Lipm.jerk (l : Lipm) (timestep : Int) := l.component timestep 3

/-- One row of `dcm`: `x.expr(timestep, 0) + (1 / omega) * x.expr(timestep, 1)`.
lipm.cpp 106-107. -/
noncomputable def dcmRow (I : Integrator ℝ) (timestep : Int) (omega : ℝ) : Except Err (Expr ℝ) := do
  let a ← I.expr timestep 0
  let b ← I.expr timestep 1
  a.add (b.smul (1 / omega))

/-- `LIPM::dcm`, lipm.cpp 104-108. -/
noncomputable def Lipm.dcm (l : Lipm) (timestep : Int) (omega : ℝ) : Except Err (Expr ℝ) := do
  let a ← dcmRow l.x timestep omega
  let b ← dcmRow l.y timestep omega
  .ok (a.stack b)

/-- One row of `zmp`: `x.expr(timestep, 0) - (1 / omega_2) * x.expr(timestep, 2)`.
lipm.cpp 112-113. -/
noncomputable def zmpRow (I : Integrator ℝ) (timestep : Int) (omega2 : ℝ) : Except Err (Expr ℝ) := do
  let a ← I.expr timestep 0
  let b ← I.expr timestep 2
  a.sub (b.smul (1 / omega2))

/-- `LIPM::zmp`, lipm.cpp 110-114. -/
noncomputable def Lipm.zmp (l : Lipm) (timestep : Int) (omega2 : ℝ) : Except Err (Expr ℝ) := do
  let a ← zmpRow l.x timestep omega2
  let b ← zmpRow l.y timestep omega2
  .ok (a.stack b)

/-- One row of `dzmp`: `x.expr(timestep, 1) - (1 / omega_2) * x.expr(timestep, 3)`.
lipm.cpp 118-119. -/
noncomputable def dzmpRow (I : Integrator ℝ) (timestep : Int) (omega2 : ℝ) : Except Err (Expr ℝ) := do
  let a ← I.expr timestep 1
  let b ← I.expr timestep 3
  a.sub (b.smul (1 / omega2))

/-- `LIPM::dzmp`, lipm.cpp 116-120. -/
noncomputable def Lipm.dzmp (l : Lipm) (timestep : Int) (omega2 : ℝ) : Except Err (Expr ℝ) := do
  let a ← dzmpRow l.x timestep omega2
  let b ← dzmpRow l.y timestep omega2
  .ok (a.stack b)

/-- `LIPM::compute_omega`, lipm.cpp 122-125. -/
noncomputable def computeOmega (comHeight : ℝ) : ℝ := Real.sqrt (980665 / 100000 / comHeight)

/-! ## Trajectories -/

/-- `LIPM::Trajectory`, lipm.h 17-30. -/
structure LTraj where
  x : Trajectory ℝ
  y : Trajectory ℝ

/-- `Vector2d(x.value(t, d), y.value(t, d))`: `pos`, `vel`, `acc`, `jerk`, lipm.cpp 8-26. -/
noncomputable def LTraj.component (T : LTraj) (t : ℝ) (diff : Int) : Except Err V2 := do
  let a ← T.x.value t diff
  let b ← T.y.value t diff
  .ok ⟨a, b⟩

/-- lipm.cpp 8-11. -/
noncomputable def LTraj.pos (T : LTraj) (t : ℝ) := T.component t 0
/-- lipm.cpp 13-16. -/
noncomputable def LTraj.vel (T : LTraj) (t : ℝ) := T.component t 1
/-- lipm.cpp 18-21. -/
noncomputable def LTraj.acc (T : LTraj) (t : ℝ) := T.component t 2
/-- lipm.cpp 23-26. -/
noncomputable def LTraj.jerk (T : LTraj) (t : ℝ) := T.component t 3

/-- `LIPM::Trajectory::dcm`, lipm.cpp 28-31. -/
noncomputable def LTraj.dcm (T : LTraj) (t omega : ℝ) : Except Err V2 := do
  let p ← T.pos t
  let v ← T.vel t
  .ok ⟨p.x + 1 / omega * v.x, p.y + 1 / omega * v.y⟩

/-- `LIPM::Trajectory::zmp`, lipm.cpp 33-36. -/
noncomputable def LTraj.zmp (T : LTraj) (t omega2 : ℝ) : Except Err V2 := do
  let p ← T.pos t
  let a ← T.acc t
  .ok ⟨p.x - 1 / omega2 * a.x, p.y - 1 / omega2 * a.y⟩

/-- `LIPM::Trajectory::dzmp`, lipm.cpp 38-41 (with a plus sign). -/
noncomputable def LTraj.dzmp (T : LTraj) (t omega2 : ℝ) : Except Err V2 := do
  let v ← T.vel t
  let j ← T.jerk t
  .ok ⟨v.x + 1 / omega2 * j.x, v.y + 1 / omega2 * j.y⟩

/-- `LIPM::get_trajectory`, lipm.cpp 127-137, after a successful solve whose solution is `sol`: `problem->x` is `sol`
and the value of a variable is its slice. `t_start` is set before any trajectory is computed, so the one copied is the
one of the integrator. -/
noncomputable def Lipm.getTrajectory (l : Lipm) (sol : Nat → ℝ) : LTraj :=
  ⟨{ l.x.makeTrajectory sol (sliceOf l.x.var sol) with tStart := l.x.tStart },
   { l.y.makeTrajectory sol (sliceOf l.y.var sol) with tStart := l.y.tStart }⟩

end Verif.Humanoid
