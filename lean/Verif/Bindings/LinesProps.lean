/-
C208: lines and paths of the viewer. C209: frames of robots in the viewer.
-/
import Verif.Bindings.Lines
import Mathlib.Tactic.Common
import Mathlib.Data.String.Basic

namespace Verif.Bindings

/-! ## Specification -/

/-- The line through the points: its segments join each point to the next. -/
def polyline {P : Type} (points : List P) : List (P × P) := points.zip points.tail

/-- The calls of a program. -/
inductive LineCall (P : Type) where
  | line (name : String) (points : List P)
  | path (name : String) (points : List P)

def LinesSt.call {P : Type} (s : LinesSt P) : LineCall P → LinesSt P
  | .line n p => s.lineViz n p
  | .path n p => s.pathViz n p

def LinesSt.calls {P : Type} (s : LinesSt P) (cs : List (LineCall P)) : LinesSt P := cs.foldl LinesSt.call s

/-- The points last given for a line, for a path. -/
def lastLine {P : Type} (name : String) : List (LineCall P) → Option (List P) → Option (List P)
  | [], o => o
  | .line n p :: cs, o => lastLine name cs (if n = name then some p else o)
  | .path _ _ :: cs, o => lastLine name cs o

def lastPath {P : Type} (name : String) : List (LineCall P) → Option (List P) → Option (List P)
  | [], o => o
  | .path n p :: cs, o => lastPath name cs (if n = name then some p else o)
  | .line _ _ :: cs, o => lastPath name cs o

/-! ## Proof -/

theorem polyline_length {P : Type} (l : List P) : (polyline l).length = l.length - 1 := by
  simp [polyline]

theorem pathLoop_spec {P : Type} (points : List P) : ∀ (n k : Nat) (f : Nat → Option (List (P × P))) (i : Nat),
    pathLoop points n k f i = if k ≤ i ∧ i < k + n then some (lineSegments ((points.drop i).take 2)) else f i
  | 0, k, f, i => by rw [pathLoop, if_neg (by omega)]
  | n + 1, k, f, i => by
    rw [pathLoop, pathLoop_spec points n (k + 1)]
    by_cases h : k = i
    · subst h
      rw [if_neg (by omega), if_pos rfl, if_pos (by omega)]
    · by_cases h2 : k + 1 ≤ i ∧ i < k + 1 + n
      · rw [if_pos h2, if_pos (by omega)]
      · rw [if_neg h2, if_neg (fun e => h e.symm), if_neg (by omega)]

theorem path_segments {P : Type} (points : List P) (i : Nat) :
    pathLoop points (points.length - 1) 0 (fun _ => none) i = (polyline points)[i]?.map fun seg => [seg] := by
  rw [pathLoop_spec]
  by_cases h : i < points.length - 1
  · rw [if_pos (by omega), List.getElem?_eq_getElem (by rw [polyline_length]; exact h)]
    have h1 : points.drop i = points[i] :: points[i + 1] :: points.drop (i + 2) := by
      rw [List.drop_eq_getElem_cons (by omega), List.drop_eq_getElem_cons (by omega)]
    have h2 : (points.drop i).take 2 = [points[i], points[i + 1]] := by rw [h1]; rfl
    rw [h2]
    simp [lineSegments, polyline]
  · rw [if_neg (by omega), List.getElem?_eq_none (by rw [polyline_length]; omega)]
    rfl

theorem calls_paths {P : Type} (cs : List (LineCall P)) (name : String) : ∀ (s : LinesSt P) (o : Option (List P)),
    (∀ i, s.paths name i = o.bind fun l => (polyline l)[i]?.map fun seg => [seg]) →
    ∀ i, (s.calls cs).paths name i = (lastPath name cs o).bind fun l => (polyline l)[i]?.map fun seg => [seg] := by
  induction cs with
  | nil => intro s o h i; exact h i
  | cons c cs ih =>
    intro s o h i
    cases c with
    | line n p => exact ih (s.lineViz n p) o h i
    | path n p =>
      refine ih (s.pathViz n p) _ (fun i => ?_) i
      show (if name = n then _ else _ : Nat → Option (List (P × P))) i = _
      by_cases hn : n = name
      · rw [if_pos hn.symm, if_pos hn, path_segments]
        rfl
      · rw [if_neg (fun e => hn e.symm), if_neg hn]
        exact h i

theorem calls_lines {P : Type} (cs : List (LineCall P)) (name : String) : ∀ (s : LinesSt P) (o : Option (List P)),
    s.lines name = o.map lineSegments → (s.calls cs).lines name = (lastLine name cs o).map lineSegments := by
  induction cs with
  | nil => intro s o h; exact h
  | cons c cs ih =>
    intro s o h
    cases c with
    | path n p => exact ih (s.pathViz n p) o h
    | line n p =>
      refine ih (s.lineViz n p) _ ?_
      show (if name = n then _ else _) = _
      by_cases hn : n = name
      · rw [if_pos hn.symm, if_pos hn]; rfl
      · rw [if_neg (fun e => hn e.symm), if_neg hn]; exact h

theorem lineSegments_length {P : Type} : ∀ l : List P, (lineSegments l).length = l.length / 2
  | [] => by simp [lineSegments]
  | [_] => by simp [lineSegments]
  | a :: b :: l => by
    rw [lineSegments, List.length_cons, lineSegments_length l]
    simp only [List.length_cons]
    omega

/-! ## The properties -/

/-- **C208_partial**, paths. Missing: the lines of three points or more (`C208_refuted`). For every program, below the name of a path is shown
the line through the points last given for it, segment by segment, and nothing of the paths that it replaced. -/
theorem C208_partial {P : Type} (cs : List (LineCall P)) (name : String) (i : Nat) :
    (LinesSt.init.calls cs).paths name i = (lastPath name cs none).bind fun l => (polyline l)[i]?.map fun seg => [seg] :=
  calls_paths cs name LinesSt.init none (fun _ => rfl) i

/-- **C208, lines of two points.** They are shown, for every program. -/
theorem C208_lines {P : Type} (cs : List (LineCall P)) (name : String) (l : List P) (h : lastLine name cs none = some l) (h2 : l.length ≤ 2) :
    (LinesSt.init.calls cs).lines name = some (polyline l) := by
  rw [calls_lines cs name LinesSt.init none rfl, h]
  match l, h2 with
  | [], _ => rfl
  | [_], _ => rfl
  | [_, _], _ => rfl
  | _ :: _ :: _ :: _, h2 => simp at h2

/-- **C208_exact.** For every program, the line that is shown is the one through its points exactly when there are at most two. -/
theorem C208_exact {P : Type} (cs : List (LineCall P)) (name : String) (l : List P) (h : lastLine name cs none = some l) :
    (LinesSt.init.calls cs).lines name = some (polyline l) ↔ l.length ≤ 2 := by
  refine ⟨fun he => ?_, C208_lines cs name l h⟩
  rw [calls_lines cs name LinesSt.init none rfl, h, Option.map_some, Option.some.injEq] at he
  have := congrArg List.length he
  rw [lineSegments_length, polyline_length] at this
  omega

/-- **C208 is false of the code.** A line through `n ≥ 3` points is shown with `n / 2` segments instead of `n - 1`: every second
segment is missing. -/
theorem C208_refuted {P : Type} (s : LinesSt P) (name : String) (l : List P) (h3 : 3 ≤ l.length) :
    ∃ segs, (s.lineViz name l).lines name = some segs ∧ segs.length = l.length / 2 ∧ segs.length < (polyline l).length := by
  refine ⟨lineSegments l, by simp [LinesSt.lineViz], lineSegments_length l, ?_⟩
  rw [lineSegments_length, polyline_length]
  omega

/-- What a program shows of its robots. -/
inductive RobotCall (T : Type) where
  | robot (r : Nat) (name : String)
  | frame (r : Nat) (frame : String) (placement : T)

def RobotsSt.call {T : Type} (s : RobotsSt T) : RobotCall T → RobotsSt T
  | .robot r n => s.robotViz r n
  | .frame r f p => (s.frameViz r f p).1

/-- The placement last given for a frame of a robot. -/
def lastFrame {T : Type} (r : Nat) (f : String) : List (RobotCall T) → Option T → Option T
  | [], o => o
  | .frame r' f' p :: cs, o => lastFrame r f cs (if r' = r ∧ f' = f then some p else o)
  | .robot _ _ :: cs, o => lastFrame r f cs o

theorem node_inj : ∀ (a b f g : List Char), '_' ∉ a → '_' ∉ b → a ++ '_' :: f = b ++ '_' :: g → a = b ∧ f = g
  | [], [], f, g, _, _, h => by simpa using h
  | [], y :: b, f, g, _, hb, h => by
    simp only [List.nil_append, List.cons_append, List.cons.injEq] at h
    exact absurd (h.1 ▸ List.mem_cons_self) hb
  | x :: a, [], f, g, ha, _, h => by
    simp only [List.nil_append, List.cons_append, List.cons.injEq] at h
    exact absurd (h.1 ▸ List.mem_cons_self) ha
  | x :: a, y :: b, f, g, ha, hb, h => by
    simp only [List.cons_append, List.cons.injEq] at h
    obtain ⟨h1, h2⟩ := node_inj a b f g (fun e => ha (List.mem_cons_of_mem _ e)) (fun e => hb (List.mem_cons_of_mem _ e)) h.2
    exact ⟨by rw [h.1, h1], h2⟩

theorem node_eq {a b f g : String} (ha : '_' ∉ a.toList) (hb : '_' ∉ b.toList) (h : a ++ "_" ++ f = b ++ "_" ++ g) : a = b ∧ f = g := by
  have := congrArg String.toList h
  simp only [String.toList_append, List.append_assoc] at this
  obtain ⟨h1, h2⟩ := node_inj a.toList b.toList f.toList g.toList ha hb (by simpa using this)
  exact ⟨String.toList_inj.1 h1, String.toList_inj.1 h2⟩

/-- **C209_partial.** Missing: robots with the same name, or with underscores in their names (`C209_refuted`, `C209_refuted_default`). When the robots
have different names without underscores, for every sequence of frames drawn: each frame of each robot is shown where it was
last drawn. -/
theorem C209_partial {T : Type} (names : Nat → Option String) (hinj : ∀ r r' n, names r = some n → names r' = some n → r = r')
    (hu : ∀ r n, names r = some n → '_' ∉ n.toList) (draws : List (Nat × String × T)) (r : Nat) (n : String) (hn : names r = some n) (f : String) :
    ((draws.map fun d => RobotCall.frame d.1 d.2.1 d.2.2).foldl RobotsSt.call ⟨names, fun _ => none⟩).frames (n ++ "_" ++ f) =
      lastFrame r f (draws.map fun d => RobotCall.frame d.1 d.2.1 d.2.2) none := by
  have key : ∀ (s : RobotsSt T) (o : Option T), s.names = names → s.frames (n ++ "_" ++ f) = o →
      ((draws.map fun d => RobotCall.frame d.1 d.2.1 d.2.2).foldl RobotsSt.call s).frames (n ++ "_" ++ f) =
        lastFrame r f (draws.map fun d => RobotCall.frame d.1 d.2.1 d.2.2) o := by
    induction draws with
    | nil => intro s o _ h; exact h
    | cons d draws ih =>
      intro s o hs h
      rw [List.map_cons, List.foldl_cons, lastFrame]
      refine ih _ _ ?_ ?_
      · show (s.frameViz d.1 d.2.1 d.2.2).1.names = names
        unfold RobotsSt.frameViz
        cases s.names d.1 <;> exact hs
      · show (s.frameViz d.1 d.2.1 d.2.2).1.frames _ = _
        unfold RobotsSt.frameViz
        rw [hs]
        cases hd : names d.1 with
        | none =>
          rw [if_neg (fun e => by rw [e.1, hn] at hd; cases hd)]
          exact h
        | some m =>
          dsimp only
          by_cases e : n ++ "_" ++ f = m ++ "_" ++ d.2.1
          · obtain ⟨e1, e2⟩ := node_eq (hu r n hn) (hu d.1 m hd) e
            rw [if_pos e, if_pos ⟨hinj d.1 r n (e1 ▸ hd) hn, e2.symm⟩]
          · rw [if_neg e, if_neg (fun e' => e (by
              have : some m = some n := by rw [← hd, e'.1, hn]
              rw [Option.some.inj this, e'.2]))]
            exact h
  exact key _ _ rfl rfl

/-- **C209 is false of the code.** For all pairs of robots shown with the default name, drawing a frame of the second one draws
over the same frame of the first one. -/
theorem C209_refuted_default {T : Type} (s : RobotsSt T) (a b : Nat) (f : String) (p q : T) :
    ((((s.robotViz a).robotViz b).frameViz a f p).1.frameViz b f q).1.frames =
      (((s.robotViz a).robotViz b).frameViz b f q).1.frames := by
  have ha : ((s.robotViz a).robotViz b).names a = some "robot" := by
    simp [RobotsSt.robotViz]
  have hb : ((s.robotViz a).robotViz b).names b = some "robot" := by
    simp [RobotsSt.robotViz]
  generalize (s.robotViz a).robotViz b = t at ha hb
  have h1 : (t.frameViz a f p).1 = { t with frames := fun k => if k = "robot" ++ "_" ++ f then some p else t.frames k } := by
    unfold RobotsSt.frameViz
    rw [ha]
  have h2 : (t.frameViz b f q).1 = { t with frames := fun k => if k = "robot" ++ "_" ++ f then some q else t.frames k } := by
    unfold RobotsSt.frameViz
    rw [hb]
  rw [h1, h2]
  unfold RobotsSt.frameViz
  dsimp only
  rw [hb]
  funext k
  dsimp only
  split <;> rfl

/-- **C209 is false of the code (2).** Robots of different names too: the frame `b_c` of a robot `a` and the frame `c` of a
robot `a_b` are drawn at the same place. -/
theorem C209_refuted : ∃ (n m f g : String), n ≠ m ∧ ∀ {T : Type} (p q : T),
    ((((RobotsSt.init.robotViz 0 n).robotViz 1 m).frameViz 0 f p).1.frameViz 1 g q).1.frames (n ++ "_" ++ f) = some q :=
  ⟨"a", "a_b", "b_c", "c", by decide, fun p q => by
    simp [RobotsSt.frameViz, RobotsSt.robotViz]⟩

/-- **C209, robots that were not shown.** Their frames cannot be drawn: an error is raised and nothing changes. -/
theorem C209_unknown {T : Type} (s : RobotsSt T) (r : Nat) (f : String) (p : T) :
    (s.frameViz r f p).2.isSome ↔ s.names r = none := by
  unfold RobotsSt.frameViz
  cases s.names r <;> simp

/-! ## The hypotheses are met -/

example : (LinesSt.init.calls [.path "p" [1, 2, 3, 4], .line "l" [7, 8], .path "p" [4, 5, 6]]).paths "p" 1 = some [(5, 6)] ∧
    (LinesSt.init.calls [.path "p" [1, 2, 3, 4], .line "l" [7, 8], .path "p" [4, 5, 6]]).paths "p" 2 = none ∧
    (LinesSt.init.calls [.path "p" [1, 2, 3, 4], .line "l" [7, 8, 9]]).lines "l" = some [(7, 8)] := by decide
example : lastLine "l" [.path "p" [1, 2, 3, 4], .line "l" [7, 8, 9]] none = some [7, 8, 9] := by decide
/-- Two robots with different names, and two frames drawn. -/
example : ∃ names : Nat → Option String, (∀ r r' n, names r = some n → names r' = some n → r = r') ∧
    (∀ r n, names r = some n → '_' ∉ n.toList) ∧ names 0 = some "left" ∧ names 1 = some "right" := by
  refine ⟨fun r => if r = 0 then some "left" else if r = 1 then some "right" else none, ?_, ?_, rfl, rfl⟩
  · intro r r' n h h'
    by_cases h0 : r = 0 <;> by_cases h1 : r = 1 <;> by_cases h0' : r' = 0 <;> by_cases h1' : r' = 1 <;>
      simp_all <;> (subst h; revert h'; decide)
  · intro r n h
    by_cases h0 : r = 0 <;> by_cases h1 : r = 1 <;> simp_all <;> (subst h; decide)

end Verif.Bindings
