/-
Model of `placo::humanoid::WalkPatternGenerator` as an object that is built once and asked for trajectories while the parameters it
refers to change.
  /repo/src/placo/humanoid/walk_pattern_generator.cpp 34-39, 517-568
  /repo/src/placo/humanoid/walk_pattern_generator.h 215-227
-/
import Verif.Humanoid.Wpg

namespace Verif.Humanoid
open Verif.Problem Verif.Tools Verif.Robot

/-- A generator. `omega` and `omega_2` are computed by the constructor, from the CoM height of that moment, `built`; they are kept by
that height. `g` is the generator with the parameters of now (`parameters` is a reference).
walk_pattern_generator.cpp 34-39, walk_pattern_generator.h 215-227. -/
structure WpgObj where
  built : ℝ
  g : Wpg

/-- The constructor, walk_pattern_generator.cpp 34-39. -/
def WpgObj.new (g : Wpg) : WpgObj := ⟨g.p.walkComHeight, g⟩

/-- What the user can do between two plans: assign the parameters, or the members `soft`, `zmp_in_support_weight` and
`stop_end_support_weight`. walk_pattern_generator.h 211-221. -/
inductive WpgOp where
  | parameters (p : WpgParams)
  | soft (soft : Bool) (zmpWeight stopWeight : ℝ)

/-- Their effects: `omega` is not computed again. walk_pattern_generator.h 211-227. -/
def WpgObj.step (o : WpgObj) : WpgOp → WpgObj
  | .parameters p => { o with g := { o.g with p := p } }
  | .soft s z e => { o with g := { o.g with soft := s, zmpInSupportWeight := z, stopEndSupportWeight := e } }

/-- Any number of them. -/
def WpgObj.run (o : WpgObj) (ops : List WpgOp) : WpgObj := ops.foldl WpgObj.step o

/-- The generator seen by `plan_com`, which reads the CoM height through `omega` and `omega_2` only.
walk_pattern_generator.cpp 490 and 511. -/
def WpgObj.pendulum (o : WpgObj) : Wpg := { o.g with p := { o.g.p with walkComHeight := o.built } }

/-- The trajectory given to `plan_feet_trajectories`, at the height of now. walk_pattern_generator.cpp 525 and 551. -/
def WpgObj.blank (o : WpgObj) (t0 : ℝ) (r : List Part × ℝ) : Traj :=
  { tStart := t0, tEnd := r.2, parts := r.1, comTargetZ := o.g.p.walkComHeight, trunkPitch := o.g.p.walkTrunkPitch, trunkRoll := 0 }

/-- `plan`, walk_pattern_generator.cpp 517-534. -/
noncomputable def WpgObj.plan (o : WpgObj) (supports : List Support) (com : V3) (t0 : ℝ) : Except Err Traj :=
  if supports.length = 0 then .error .runtimeError
  else do
    match ← o.pendulum.planCom t0 supports ⟨⟨com 0, com 1⟩, ⟨0, 0⟩, ⟨0, 0⟩⟩ with
    | none => .error .runtimeError
    | some r => o.g.planFeet (o.blank t0 r) none

/-- `replan`, walk_pattern_generator.cpp 536-568. -/
noncomputable def WpgObj.replan (o : WpgObj) (supports : List Support) (old : Traj) (t : ℝ) : Except Err Traj :=
  if supports.length = 0 then .error .runtimeError
  else do
    let p ← old.getPWorldCoM t
    let v ← old.getDWorldCoM 1 t
    let a ← old.getDWorldCoM 2 t
    match ← o.pendulum.planCom t supports ⟨⟨p 0, p 1⟩, ⟨v 0, v 1⟩, ⟨a 0, a 1⟩⟩ with
    | none => .ok (o.g.trim old t)
    | some r => o.g.planFeet (o.blank t r) (some old)

end Verif.Humanoid
