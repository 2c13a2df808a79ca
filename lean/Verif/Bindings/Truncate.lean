/-
Model of `FootstepsPlanner.truncate_supports`, defined by the Python bindings.
  /repo/bindings/expose-footsteps.cpp 66-98
-/
import Verif.Humanoid.Footsteps

namespace Verif.Humanoid
open Verif.Problem

/-- The support added at the end, expose-footsteps.cpp 79-94: `last` is `head.back()` and `next` is `supports[index]`. A new
support has one footstep, so the condition of line 83 always holds. -/
def endSupport (last : Support) (next : Option Support) : Except Err Support :=
  match last.footsteps with
  | [] => .error .ub
  | f :: _ =>
    match next with
    | none => .error .ub
    | some s =>
      match s.footsteps with
      | [] => .error .ub
      | g :: rest =>
        if g.side.other = f.side then .ok { footsteps := [f, g], isEnd := true }
        else
          match rest with
          | [] => .error .ub
          | g' :: _ => .ok { footsteps := [f, g'], isEnd := true }

/-- `truncate_supports`, expose-footsteps.cpp 66-98. -/
def truncateSupports (supports : List Support) (index : Int) (addEnd : Bool) : Except Err (List Support) :=
  if index > supports.length then .error .outOfRange
  else
    let head := supports.take index.toNat
    if addEnd then
      match head.getLast? with
      | none => .error .ub
      | some last =>
        if last.isEnd then .ok head
        else do
          let e ← endSupport last supports[index.toNat]?
          .ok (head ++ [e])
    else .ok head

end Verif.Humanoid
