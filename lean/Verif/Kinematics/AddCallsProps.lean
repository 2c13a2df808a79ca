/-
C168: what the calls that add tasks, constraints and contacts create.

The specification says, in terms of the names given, which objects a call asks for; a call that asks for nothing (an unknown name)
raises and leaves the solver as it was.
-/
import Mathlib.Data.List.Nodup
import Mathlib.Algebra.Order.Field.Rat
import Std.Data.String.ToNat
import Verif.Kinematics.AddCalls

namespace Verif.Kinematics

variable {K V R : Type} [One K]

/-! ## Specification -/

/-- The frame that a reference designates: the index itself, or the first frame with the name. -/
def Designates (frames : List String) : FrameRef → Nat → Prop
  | .index i, k => k = i
  | .name s, k => frames[k]? = some s ∧ ∀ j < k, frames[j]? ≠ some s

/-- The same for two frames, in order. -/
def DesignatesPair (frames : List String) : FramesRef → Nat → Nat → Prop
  | .indices a b, i, j => i = a ∧ j = b
  | .names a b, i, j => Designates frames (.name a) i ∧ Designates frames (.name b) j

/-- The names of the types of manipulability. -/
def ManipIs : String → ManipType → Prop
  | s, .position => s = "position"
  | s, .orientation => s = "orientation"
  | s, .both => s = "both"

/-- The frame and the type that the arguments of a manipulability task designate. -/
def DesignatesManip (frames : List String) : ManipArgs → Nat → ManipType → Prop
  | .index f t, i, u => i = f ∧ u = t
  | .name f t, i, u => Designates frames (.name f) i ∧ ManipIs t u

/-- The tasks (with the name and the weight that the call imposes, if any) and the constraints that a call asks for. -/
def Asks (frames : List String) : KCall K V R → List (Obj K V R × Option (String × K)) → List (Obj K V R) → Prop
  | .position f t, ts, cs => ∃ i, Designates frames f i ∧ ts = [(.position i t, none)] ∧ cs = []
  | .relPosition f t, ts, cs => ∃ i j, DesignatesPair frames f i j ∧ ts = [(.relPosition i j t, none)] ∧ cs = []
  | .com t, ts, cs => ts = [(.com t, none)] ∧ cs = []
  | .orientation f t, ts, cs => ∃ i, Designates frames f i ∧ ts = [(.orientation i t, none)] ∧ cs = []
  | .relOrientation f t, ts, cs => ∃ i j, DesignatesPair frames f i j ∧ ts = [(.relOrientation i j t, none)] ∧ cs = []
  | .frame f T, ts, cs => ∃ i, Designates frames f i ∧
      ts = [(.position i T.translation, none), (.orientation i T.rotation, none)] ∧ cs = []
  | .relFrame f T, ts, cs => ∃ i j, DesignatesPair frames f i j ∧
      ts = [(.relPosition i j T.translation, none), (.relOrientation i j T.rotation, none)] ∧ cs = []
  | .axisAlign f a t, ts, cs => ∃ i, Designates frames f i ∧ ts = [(.axisAlign i a t, none)] ∧ cs = []
  | .joints l, ts, cs => ∃ m, ts = [(.joints m, none)] ∧ cs = [] ∧
      ((l.map Prod.fst).Nodup → ∀ k v, m k = some v ↔ (k, v) ∈ l)
  | .distance f d, ts, cs => ∃ i j, DesignatesPair frames f i j ∧ ts = [(.distance i j d, none)] ∧ cs = []
  | .momentum L, ts, cs => ts = [(.momentum L, none)] ∧ cs = []
  | .gear, ts, cs => ts = [(.gear, none)] ∧ cs = []
  | .wheel n r o, ts, cs => ts = [(.wheel n r o, none)] ∧ cs = []
  | .regularization m, ts, cs => ts = [(.regularization m, some ("regularization", 1))] ∧ cs = []
  | .manipulability a l, ts, cs => ∃ i t, DesignatesManip frames a i t ∧ ts = [(.manipulability i t l, none)] ∧ cs = []
  | .kineticEnergy m, ts, cs => ts = [(.kineticEnergy, some ("kinetic_energy_regularization", m))] ∧ cs = []
  | .selfCollisions, ts, cs => ts = [] ∧ cs = [.selfCollisions]
  | .comPolygon p m, ts, cs => ts = [] ∧ cs = [.comPolygon p m]
  | .halfSpaces A b, ts, cs => ts = [] ∧ cs = [.halfSpaces A b]
  | .cone f a, ts, cs => ∃ i j, DesignatesPair frames f i j ∧ ts = [] ∧ cs = [.cone i j a]
  | .yaw f a, ts, cs => ∃ i j, DesignatesPair frames f i j ∧ ts = [] ∧ cs = [.yaw i j a]
  | .distanceMax f d, ts, cs => ∃ i j, DesignatesPair frames f i j ∧ ts = [] ∧ cs = [.distanceMax i j d]
  | _, _, _ => False

/-- The calls that create something. -/
def KCall.Creates : KCall K V R → Prop
  | .removeTask _ | .removeConstraint _ | .clear => False
  | _ => True

/-- The objects created with a soft priority: names and weights imposed, or `prefix_n` and 1. -/
def labelled (pre : String) : Nat → List (Obj K V R × Option (String × K)) → List (Obj K V R × Tools.Prioritized K)
  | _, [] => []
  | n, (o, none) :: l => (o, ⟨pre ++ Nat.repr (n + 1), .soft, 1⟩) :: labelled pre (n + 1) l
  | n, (o, some (name, w)) :: l => (o, ⟨name, .soft, w⟩) :: labelled pre (n + 1) l

/-- The solver after objects were added. -/
def AddedTo (s s' : Objects K V R) (ts : List (Obj K V R × Option (String × K))) (cs : List (Obj K V R)) : Prop :=
  s'.tasks = s.tasks ++ labelled "Task_" s.taskId ts ∧ s'.taskId = s.taskId + ts.length ∧
  s'.constraints = s.constraints ++ labelled "Constraint_" s.constraintId (cs.map fun c => (c, none)) ∧
  s'.constraintId = s.constraintId + cs.length

/-! ## Frames -/

theorem frameIndex_spec (frames : List String) (s : String) :
    (∀ i, frameIndex frames s = .ok i ↔ Designates frames (.name s) i) ∧
    (∀ e, frameIndex frames s = .error e → ∀ i, ¬ Designates frames (.name s) i) := by
  have key : ∀ i, Designates frames (.name s) i → s ∈ frames ∧ frames.idxOf s = i := by
    rintro i ⟨h1, h2⟩
    obtain ⟨hi, he⟩ := List.getElem?_eq_some_iff.1 h1
    have hm : s ∈ frames := he ▸ List.getElem_mem hi
    refine ⟨hm, ?_⟩
    have hlt : frames.idxOf s < frames.length := List.idxOf_lt_length_iff.2 hm
    have hg : frames[frames.idxOf s]? = some s := by
      rw [List.getElem?_eq_getElem hlt, List.getElem_idxOf]
    rcases Nat.lt_trichotomy (frames.idxOf s) i with h | h | h
    · exact absurd hg (h2 _ h)
    · exact h
    · have := List.not_of_lt_findIdx (p := (· == s)) (xs := frames) (i := i) h
      simp [he] at this
  unfold frameIndex
  by_cases hm : s ∈ frames
  · rw [if_pos hm]
    refine ⟨fun i => ⟨?_, fun h => ?_⟩, fun e h => by cases h⟩
    · intro h
      injection h with h
      subst h
      have hlt : frames.idxOf s < frames.length := List.idxOf_lt_length_iff.2 hm
      refine ⟨by rw [List.getElem?_eq_getElem hlt, List.getElem_idxOf], ?_⟩
      intro j hj hs
      obtain ⟨hj', he⟩ := List.getElem?_eq_some_iff.1 hs
      have := List.not_of_lt_findIdx (p := (· == s)) (xs := frames) (i := j) hj
      simp [he] at this
    · rw [(key i h).2]
  · rw [if_neg hm]
    exact ⟨fun i => ⟨fun h => (by cases h), fun h => absurd (key i h).1 hm⟩, fun e _ i h => hm (key i h).1⟩

theorem frame_resolve (frames : List String) (f : FrameRef) :
    (∀ i, f.resolve frames = .ok i → Designates frames f i) ∧
    (∀ e, f.resolve frames = .error e → ∀ i, ¬ Designates frames f i) := by
  cases f with
  | index k => exact ⟨fun i h => by cases h; rfl, fun e h => by cases h⟩
  | name s => exact ⟨fun i h => ((frameIndex_spec frames s).1 i).1 h, (frameIndex_spec frames s).2⟩

theorem frames_resolve (frames : List String) (f : FramesRef) :
    (∀ p, f.resolve frames = .ok p → DesignatesPair frames f p.1 p.2) ∧
    (∀ e, f.resolve frames = .error e → ∀ i j, ¬ DesignatesPair frames f i j) := by
  cases f with
  | indices a b => exact ⟨fun p h => by cases h; exact ⟨rfl, rfl⟩, fun e h => by cases h⟩
  | names a b =>
    cases ha : frameIndex frames a with
    | error e =>
      simp only [FramesRef.resolve, ha, Bind.bind, Except.bind]
      exact ⟨fun p h => (by cases h), fun _ _ i j h => (frameIndex_spec frames a).2 e ha i h.1⟩
    | ok i =>
      cases hb : frameIndex frames b with
      | error e =>
        simp only [FramesRef.resolve, ha, hb, Bind.bind, Except.bind]
        exact ⟨fun p h => (by cases h), fun _ _ i j h => (frameIndex_spec frames b).2 e hb j h.2⟩
      | ok j =>
        simp only [FramesRef.resolve, ha, hb, Bind.bind, Except.bind, pure, Except.pure]
        refine ⟨fun p h => ?_, fun e h => by cases h⟩
        cases h
        exact ⟨((frameIndex_spec frames a).1 i).1 ha, ((frameIndex_spec frames b).1 j).1 hb⟩

theorem manip_resolve (frames : List String) (a : ManipArgs) :
    (∀ p, a.resolve frames = .ok p → DesignatesManip frames a p.1 p.2) ∧
    (∀ e, a.resolve frames = .error e → ∀ i t, ¬ DesignatesManip frames a i t) := by
  cases a with
  | index f t => exact ⟨fun p h => by cases h; exact ⟨rfl, rfl⟩, fun e h => by cases h⟩
  | name f t =>
    have ht : (∀ u, manipType t = .ok u → ManipIs t u) ∧ (∀ e, manipType t = .error e → ∀ u, ¬ ManipIs t u) := by
      unfold manipType
      by_cases h1 : t = "position"
      · rw [if_pos h1]
        exact ⟨fun u h => (by cases h; exact h1), fun e h => by cases h⟩
      rw [if_neg h1]
      by_cases h2 : t = "orientation"
      · rw [if_pos h2]
        exact ⟨fun u h => (by cases h; exact h2), fun e h => by cases h⟩
      rw [if_neg h2]
      by_cases h3 : t = "both"
      · rw [if_pos h3]
        exact ⟨fun u h => (by cases h; exact h3), fun e h => by cases h⟩
      rw [if_neg h3]
      refine ⟨fun u h => (by cases h), fun e _ u hu => ?_⟩
      cases u
      · exact h1 hu
      · exact h2 hu
      · exact h3 hu
    cases hm : manipType t with
    | error e =>
      simp only [ManipArgs.resolve, hm, Bind.bind, Except.bind]
      exact ⟨fun p h => (by cases h), fun _ _ i u h => ht.2 e hm u h.2⟩
    | ok u =>
      cases hf : frameIndex frames f with
      | error e =>
        simp only [ManipArgs.resolve, hm, hf, Bind.bind, Except.bind]
        exact ⟨fun p h => (by cases h), fun _ _ i u h => (frameIndex_spec frames f).2 e hf i h.1⟩
      | ok i =>
        simp only [ManipArgs.resolve, hm, hf, Bind.bind, Except.bind, pure, Except.pure]
        refine ⟨fun p h => ?_, fun e h => by cases h⟩
        cases h
        exact ⟨((frameIndex_spec frames f).1 i).1 hf, ht.1 u hm⟩

omit [One K] in
theorem assignAll_spec : ∀ (l : List (String × K)) (m : String → Option K), (l.map Prod.fst).Nodup →
    ∀ k v, assignAll l m k = some v ↔ (k, v) ∈ l ∨ (k ∉ l.map Prod.fst ∧ m k = some v) := by
  intro l
  induction l with
  | nil => intro m _ k v; simp [assignAll]
  | cons e l ih =>
    obtain ⟨n, w⟩ := e
    intro m hnd k v
    rw [List.map_cons, List.nodup_cons] at hnd
    rw [assignAll, ih _ hnd.2 k v]
    by_cases hk : k = n
    · subst hk
      have hk : k ∉ l.map Prod.fst := hnd.1
      have hno : (k, v) ∉ l := fun h => hk (List.mem_map_of_mem (f := Prod.fst) h)
      constructor
      · rintro (h | ⟨-, h⟩)
        · exact absurd h hno
        · rw [if_pos rfl] at h
          injection h with h
          rw [h]
          exact .inl List.mem_cons_self
      · rintro (h | ⟨h, -⟩)
        · rcases List.mem_cons.1 h with h | h
          · injection h with _ h
            exact .inr ⟨hk, by rw [if_pos rfl, h]⟩
          · exact absurd h hno
        · exact absurd List.mem_cons_self h
    · rw [if_neg hk, List.mem_cons, List.map_cons, List.mem_cons]
      constructor
      · rintro (h | ⟨h1, h2⟩)
        · exact .inl (.inr h)
        · exact .inr ⟨fun h => h.elim hk h1, h2⟩
      · rintro ((h | h) | ⟨h1, h2⟩)
        · injection h with h _
          exact absurd h hk
        · exact .inl h
        · exact .inr ⟨fun h => h1 (.inr h), h2⟩

/-! ## Calls -/

theorem added_task (s : Objects K V R) (o : Obj K V R) : AddedTo s (s.addTask o) [(o, none)] [] :=
  ⟨rfl, rfl, (List.append_nil _).symm, rfl⟩

theorem added_two (s : Objects K V R) (o p : Obj K V R) :
    AddedTo s ((s.addTask o).addTask p) [(o, none), (p, none)] [] :=
  ⟨List.append_assoc _ _ _, rfl, (List.append_nil _).symm, rfl⟩

theorem added_as (s : Objects K V R) (o : Obj K V R) (n : String) (w : K) : AddedTo s (s.addTaskAs o n w) [(o, some (n, w))] [] :=
  ⟨rfl, rfl, (List.append_nil _).symm, rfl⟩

theorem added_constraint (s : Objects K V R) (o : Obj K V R) : AddedTo s (s.addConstraint o) [] [o] :=
  ⟨(List.append_nil _).symm, rfl, rfl, rfl⟩

/-- What a call does: it adds what it asks for, or raises when it asks for nothing. -/
def Answered (frames : List String) (s : Objects K V R) (c : KCall K V R) (r : Objects K V R × Option Err) : Prop :=
  (r.2 = none ∧ ∃ ts cs, Asks frames c ts cs ∧ AddedTo s r.1 ts cs) ∨
  (r.2 = some .runtimeError ∧ r.1 = s ∧ ∀ ts cs, ¬ Asks frames c ts cs)

theorem frameIndex_error (frames : List String) (n : String) (e : Err) (h : frameIndex frames n = .error e) : e = .runtimeError := by
  unfold frameIndex at h
  split at h <;> cases h
  rfl

theorem frame_error (frames : List String) (f : FrameRef) (e : Err) (h : f.resolve frames = .error e) : e = .runtimeError := by
  cases f with
  | index k => cases h
  | name s => exact frameIndex_error frames s e h

theorem frames_error (frames : List String) (f : FramesRef) (e : Err) (h : f.resolve frames = .error e) : e = .runtimeError := by
  cases f with
  | indices a b => cases h
  | names a b =>
    cases ha : frameIndex frames a with
    | error e' =>
      simp only [FramesRef.resolve, ha, Bind.bind, Except.bind] at h
      cases h
      exact frameIndex_error frames a _ ha
    | ok i =>
      cases hb : frameIndex frames b with
      | error e' =>
        simp only [FramesRef.resolve, ha, hb, Bind.bind, Except.bind, pure, Except.pure] at h
        cases h
        exact frameIndex_error frames b _ hb
      | ok j =>
        simp only [FramesRef.resolve, ha, hb, Bind.bind, Except.bind, pure, Except.pure] at h
        cases h

theorem manip_error (frames : List String) (a : ManipArgs) (e : Err) (h : a.resolve frames = .error e) : e = .runtimeError := by
  cases a with
  | index f t => cases h
  | name f t =>
    cases hm : manipType t with
    | error e' =>
      simp only [ManipArgs.resolve, hm, Bind.bind, Except.bind] at h
      cases h
      unfold manipType at hm
      split at hm
      · cases hm
      split at hm
      · cases hm
      split at hm
      · cases hm
      cases hm
      rfl
    | ok u =>
      cases hf : frameIndex frames f with
      | error e' =>
        simp only [ManipArgs.resolve, hm, hf, Bind.bind, Except.bind, pure, Except.pure] at h
        cases h
        exact frameIndex_error frames f _ hf
      | ok i =>
        simp only [ManipArgs.resolve, hm, hf, Bind.bind, Except.bind, pure, Except.pure] at h
        cases h

theorem one_frame (frames : List String) (s : Objects K V R) (c : KCall K V R) (f : FrameRef) (g : Nat → Objects K V R)
    (ts : Nat → List (Obj K V R × Option (String × K))) (cs : Nat → List (Obj K V R))
    (h1 : ∀ i, Designates frames f i → Asks frames c (ts i) (cs i)) (h2 : ∀ t u, Asks frames c t u → ∃ i, Designates frames f i)
    (h3 : ∀ i, AddedTo s (g i) (ts i) (cs i)) : Answered frames s c (withFrame s (f.resolve frames) g) := by
  cases hr : f.resolve frames with
  | ok i => exact .inl ⟨rfl, ts i, cs i, h1 i ((frame_resolve frames f).1 i hr), h3 i⟩
  | error e =>
    refine .inr ⟨congrArg some (frame_error frames f e hr), rfl, fun t u h => ?_⟩
    obtain ⟨i, hi⟩ := h2 t u h
    exact (frame_resolve frames f).2 e hr i hi

theorem two_frames (frames : List String) (s : Objects K V R) (c : KCall K V R) (f : FramesRef) (g : Nat × Nat → Objects K V R)
    (ts : Nat → Nat → List (Obj K V R × Option (String × K))) (cs : Nat → Nat → List (Obj K V R))
    (h1 : ∀ i j, DesignatesPair frames f i j → Asks frames c (ts i j) (cs i j))
    (h2 : ∀ t u, Asks frames c t u → ∃ i j, DesignatesPair frames f i j)
    (h3 : ∀ p, AddedTo s (g p) (ts p.1 p.2) (cs p.1 p.2)) : Answered frames s c (withFrame s (f.resolve frames) g) := by
  cases hr : f.resolve frames with
  | ok p => exact .inl ⟨rfl, ts p.1 p.2, cs p.1 p.2, h1 _ _ ((frames_resolve frames f).1 p hr), h3 p⟩
  | error e =>
    refine .inr ⟨congrArg some (frames_error frames f e hr), rfl, fun t u h => ?_⟩
    obtain ⟨i, j, hi⟩ := h2 t u h
    exact (frames_resolve frames f).2 e hr i j hi

/-- **C168.** A call of the kinematics solver adds exactly the objects that it asks for, or raises and changes nothing, when a name is
unknown. -/
theorem C168 (frames : List String) (s : Objects K V R) (c : KCall K V R) (hc : c.Creates) :
    Answered frames s c (s.step frames c) := by
  cases c with
  | position f t => exact one_frame _ _ _ f _ _ _ (fun i h => ⟨i, h, rfl, rfl⟩) (fun t u h => ⟨h.choose, h.choose_spec.1⟩) fun i => added_task s _
  | relPosition f t =>
    exact two_frames _ _ _ f _ _ _ (fun i j h => ⟨i, j, h, rfl, rfl⟩) (fun t u ⟨i, j, h, _⟩ => ⟨i, j, h⟩) fun p => added_task s _
  | com t => exact .inl ⟨rfl, _, _, ⟨rfl, rfl⟩, added_task s _⟩
  | orientation f t => exact one_frame _ _ _ f _ _ _ (fun i h => ⟨i, h, rfl, rfl⟩) (fun t u ⟨i, h, _⟩ => ⟨i, h⟩) fun i => added_task s _
  | relOrientation f t =>
    exact two_frames _ _ _ f _ _ _ (fun i j h => ⟨i, j, h, rfl, rfl⟩) (fun t u ⟨i, j, h, _⟩ => ⟨i, j, h⟩) fun p => added_task s _
  | frame f T => exact one_frame _ _ _ f _ _ _ (fun i h => ⟨i, h, rfl, rfl⟩) (fun t u ⟨i, h, _⟩ => ⟨i, h⟩) fun i => added_two s _ _
  | relFrame f T =>
    exact two_frames _ _ _ f _ _ _ (fun i j h => ⟨i, j, h, rfl, rfl⟩) (fun t u ⟨i, j, h, _⟩ => ⟨i, j, h⟩) fun p => added_two s _ _
  | axisAlign f a t => exact one_frame _ _ _ f _ _ _ (fun i h => ⟨i, h, rfl, rfl⟩) (fun t u ⟨i, h, _⟩ => ⟨i, h⟩) fun i => added_task s _
  | joints l =>
    refine .inl ⟨rfl, _, _, ⟨_, rfl, rfl, fun hn k v => ?_⟩, added_task s _⟩
    rw [assignAll_spec l _ hn k v]
    simp
  | distance f d =>
    exact two_frames _ _ _ f _ _ _ (fun i j h => ⟨i, j, h, rfl, rfl⟩) (fun t u ⟨i, j, h, _⟩ => ⟨i, j, h⟩) fun p => added_task s _
  | momentum L => exact .inl ⟨rfl, _, _, ⟨rfl, rfl⟩, added_task s _⟩
  | gear => exact .inl ⟨rfl, _, _, ⟨rfl, rfl⟩, added_task s _⟩
  | wheel n r o => exact .inl ⟨rfl, _, _, ⟨rfl, rfl⟩, added_task s _⟩
  | regularization m => exact .inl ⟨rfl, _, _, ⟨rfl, rfl⟩, added_as s _ _ _⟩
  | manipulability a l =>
    cases hr : a.resolve frames with
    | ok p =>
      refine .inl ⟨by simp [Objects.step, withFrame, hr], _, _, ⟨p.1, p.2, (manip_resolve frames a).1 p hr, rfl, rfl⟩, ?_⟩
      simp only [Objects.step, withFrame, hr]
      exact added_task s _
    | error e =>
      have he := manip_error frames a e hr
      refine .inr ⟨by simp [Objects.step, withFrame, hr, he], by simp [Objects.step, withFrame, hr], ?_⟩
      rintro ts cs ⟨i, t, h, -⟩
      exact (manip_resolve frames a).2 e hr i t h
  | kineticEnergy m => exact .inl ⟨rfl, _, _, ⟨rfl, rfl⟩, added_as s _ _ _⟩
  | selfCollisions => exact .inl ⟨rfl, _, _, ⟨rfl, rfl⟩, added_constraint s _⟩
  | comPolygon p m => exact .inl ⟨rfl, _, _, ⟨rfl, rfl⟩, added_constraint s _⟩
  | halfSpaces A b => exact .inl ⟨rfl, _, _, ⟨rfl, rfl⟩, added_constraint s _⟩
  | cone f a =>
    exact two_frames _ _ _ f _ _ _ (fun i j h => ⟨i, j, h, rfl, rfl⟩) (fun t u ⟨i, j, h, _⟩ => ⟨i, j, h⟩) fun p => added_constraint s _
  | yaw f a =>
    exact two_frames _ _ _ f _ _ _ (fun i j h => ⟨i, j, h, rfl, rfl⟩) (fun t u ⟨i, j, h, _⟩ => ⟨i, j, h⟩) fun p => added_constraint s _
  | distanceMax f d =>
    exact two_frames _ _ _ f _ _ _ (fun i j h => ⟨i, j, h, rfl, rfl⟩) (fun t u ⟨i, j, h, _⟩ => ⟨i, j, h⟩) fun p => added_constraint s _
  | removeTask i => exact hc.elim
  | removeConstraint i => exact hc.elim
  | clear => exact hc.elim

/-! ## Names -/

/-- A task whose name was not imposed by the call. -/
def AutoNamed (t : Obj K V R × Tools.Prioritized K) : Bool :=
  match t.1 with
  | .regularization _ => false
  | .kineticEnergy => false
  | _ => true

/-- Names given by the solver: distinct, and made with numbers that were used. -/
def NamesOK (pre : String) (n : Nat) (l : List (Obj K V R × Tools.Prioritized K)) : Prop :=
  (l.map fun t => t.2.name).Nodup ∧ ∀ t ∈ l, ∃ i, i ≤ n ∧ t.2.name = pre ++ Nat.repr i

omit [One K] in
theorem NamesOK.sub {pre : String} {n : Nat} {l l' : List (Obj K V R × Tools.Prioritized K)} (h : NamesOK pre n l)
    (hs : List.Sublist l' l) : NamesOK pre n l' :=
  ⟨(hs.map _).nodup h.1, fun t ht => h.2 t (hs.subset ht)⟩

theorem NamesOK.add {pre : String} {n : Nat} {l : List (Obj K V R × Tools.Prioritized K)} (h : NamesOK pre n l) (o : Obj K V R)
    (p : Tools.Prioritized K) (hp : p.name = pre ++ Nat.repr (n + 1)) : NamesOK pre (n + 1) (l ++ [(o, p)]) := by
  refine ⟨?_, ?_⟩
  · rw [List.map_append, List.nodup_append]
    refine ⟨h.1, by simp, ?_⟩
    intro a ha b hb hab
    rw [List.map_singleton, List.mem_singleton] at hb
    obtain ⟨t, ht, rfl⟩ := List.mem_map.1 ha
    obtain ⟨i, hi, he⟩ := h.2 t ht
    subst hb
    rw [he, hp] at hab
    have h2 : Nat.repr i = Nat.repr (n + 1) := String.append_right_inj pre |>.1 hab
    have := Nat.repr_injective h2
    omega
  · intro t ht
    rcases List.mem_append.1 ht with ht | ht
    · obtain ⟨i, hi, he⟩ := h.2 t ht
      exact ⟨i, by omega, he⟩
    · rw [List.mem_singleton] at ht
      subst ht
      exact ⟨n + 1, le_refl _, hp⟩

omit [One K] in
theorem NamesOK.mono {pre : String} {n m : Nat} {l : List (Obj K V R × Tools.Prioritized K)} (h : NamesOK pre n l) (hm : n ≤ m) :
    NamesOK pre m l :=
  ⟨h.1, fun t ht => by obtain ⟨i, hi, he⟩ := h.2 t ht; exact ⟨i, by omega, he⟩⟩

/-- The names of the tasks and constraints of a solver. -/
def AllNames (s : Objects K V R) : Prop :=
  NamesOK "Task_" s.taskId (s.tasks.filter AutoNamed) ∧ NamesOK "Constraint_" s.constraintId s.constraints

theorem allNames_addTask (s : Objects K V R) (o : Obj K V R) (h : AllNames s) : AllNames (s.addTask o) := by
  refine ⟨?_, h.2⟩
  unfold Objects.addTask
  rw [List.filter_append, List.filter_singleton]
  cases AutoNamed (o, (⟨"Task_" ++ Nat.repr (s.taskId + 1), .soft, 1⟩ : Tools.Prioritized K))
  · rw [cond_false, List.append_nil]
    exact h.1.mono (Nat.le_succ _)
  · rw [cond_true]
    exact h.1.add o _ rfl

theorem allNames_addTaskAs (s : Objects K V R) (o : Obj K V R) (n : String) (w : K)
    (ho : ∀ p : Tools.Prioritized K, AutoNamed (o, p) = false) (h : AllNames s) : AllNames (s.addTaskAs o n w) := by
  refine ⟨?_, h.2⟩
  unfold Objects.addTaskAs
  rw [List.filter_append, List.filter_singleton, ho, cond_false, List.append_nil]
  exact h.1.mono (Nat.le_succ _)

theorem allNames_addConstraint (s : Objects K V R) (o : Obj K V R) (h : AllNames s) : AllNames (s.addConstraint o) :=
  ⟨h.1, h.2.add o _ rfl⟩

theorem allNames_with {A : Type} (s : Objects K V R) (r : Except Err A) (g : A → Objects K V R) (h : AllNames s)
    (hg : ∀ a, AllNames (g a)) : AllNames (withFrame s r g).1 := by
  cases r with
  | ok a => exact hg a
  | error e => exact h

theorem allNames_step (frames : List String) (s : Objects K V R) (c : KCall K V R) (h : AllNames s) : AllNames (s.step frames c).1 := by
  cases c with
  | position f t => exact allNames_with s _ _ h fun i => allNames_addTask s _ h
  | relPosition f t => exact allNames_with s _ _ h fun i => allNames_addTask s _ h
  | com t => exact allNames_addTask s _ h
  | orientation f t => exact allNames_with s _ _ h fun i => allNames_addTask s _ h
  | relOrientation f t => exact allNames_with s _ _ h fun i => allNames_addTask s _ h
  | frame f T => exact allNames_with s _ _ h fun i => allNames_addTask _ _ (allNames_addTask s _ h)
  | relFrame f T => exact allNames_with s _ _ h fun i => allNames_addTask _ _ (allNames_addTask s _ h)
  | axisAlign f a t => exact allNames_with s _ _ h fun i => allNames_addTask s _ h
  | joints l => exact allNames_addTask s _ h
  | distance f d => exact allNames_with s _ _ h fun i => allNames_addTask s _ h
  | momentum L => exact allNames_addTask s _ h
  | gear => exact allNames_addTask s _ h
  | wheel n r o => exact allNames_addTask s _ h
  | regularization m => exact allNames_addTaskAs s _ _ _ (fun _ => rfl) h
  | manipulability a l => exact allNames_with s _ _ h fun i => allNames_addTask s _ h
  | kineticEnergy m => exact allNames_addTaskAs s _ _ _ (fun _ => rfl) h
  | selfCollisions => exact allNames_addConstraint s _ h
  | comPolygon p m => exact allNames_addConstraint s _ h
  | halfSpaces A b => exact allNames_addConstraint s _ h
  | cone f a => exact allNames_with s _ _ h fun i => allNames_addConstraint s _ h
  | yaw f a => exact allNames_with s _ _ h fun i => allNames_addConstraint s _ h
  | distanceMax f d => exact allNames_with s _ _ h fun i => allNames_addConstraint s _ h
  | removeTask i => exact ⟨h.1.sub ((List.eraseIdx_sublist _ _).filter _), h.2⟩
  | removeConstraint i => exact ⟨h.1, h.2.sub (List.eraseIdx_sublist _ _)⟩
  | clear => exact ⟨⟨List.nodup_nil, fun t ht => by cases ht⟩, ⟨List.nodup_nil, fun t ht => by cases ht⟩⟩

/-- **C168, names.** In every program (with calls that raise, removals and `clear`) the names given by the solver are distinct. -/
theorem C168_names (frames : List String) (calls : List (KCall K V R)) :
    (((({} : Objects K V R).run frames calls).tasks.filter AutoNamed).map fun t => t.2.name).Nodup ∧
    ((({} : Objects K V R).run frames calls).constraints.map fun t => t.2.name).Nodup := by
  have key : ∀ (calls : List (KCall K V R)) (s : Objects K V R), AllNames s → AllNames (s.run frames calls) := by
    intro calls
    induction calls with
    | nil => intro s h; exact h
    | cons c l ih => intro s h; exact ih _ (allNames_step frames s c h)
  have := key calls {} ⟨⟨List.nodup_nil, fun t ht => by cases ht⟩, ⟨List.nodup_nil, fun t ht => by cases ht⟩⟩
  exact ⟨this.1.1, this.2.1⟩

/-- Regularisation tasks all get the same name. -/
theorem C168_same_name_refuted : ¬ ((({} : Objects ℚ Unit Unit).run [] [.regularization 1, .regularization 2]).tasks.map
    fun t => t.2.name).Nodup := by
  decide +kernel

/-! ## Frames of the objects -/

/-- The frames of an object. -/
def Obj.frames : Obj K V R → List Nat
  | .position f _ | .orientation f _ | .axisAlign f _ _ | .manipulability f _ _ => [f]
  | .relPosition a b _ | .relOrientation a b _ | .distance a b _ | .cone a b _ | .yaw a b _ | .distanceMax a b _ => [a, b]
  | _ => []

/-- The overloads by name. -/
def KCall.ByName : KCall K V R → Prop
  | .position f _ | .orientation f _ | .frame f _ | .axisAlign f _ _ => ∃ s, f = .name s
  | .relPosition f _ | .relOrientation f _ | .relFrame f _ | .distance f _ | .cone f _ | .yaw f _ | .distanceMax f _ =>
    ∃ a b, f = .names a b
  | .manipulability a _ => ∃ f t, a = .name f t
  | _ => True

theorem designates_lt {frames : List String} {s : String} {i : Nat} (h : Designates frames (.name s) i) : i < frames.length :=
  (List.getElem?_eq_some_iff.1 h.1).1

omit [One K] in
theorem asks_frames (frames : List String) (c : KCall K V R) (hc : c.ByName)
    (ts : List (Obj K V R × Option (String × K))) (cs : List (Obj K V R)) : 
    [One K] → Asks frames c ts cs → (∀ t ∈ ts, ∀ i ∈ t.1.frames, i < frames.length) ∧ ∀ o ∈ cs, ∀ i ∈ o.frames, i < frames.length := by
  intro _ h
  cases c with
  | position f t | orientation f t | frame f t | axisAlign f a t =>
    obtain ⟨s, rfl⟩ := hc
    obtain ⟨i, hi, rfl, rfl⟩ := h
    have := designates_lt hi
    simp [Obj.frames, this]
  | relPosition f t | relOrientation f t | relFrame f t | distance f t | cone f t | yaw f t | distanceMax f t =>
    obtain ⟨a, b, rfl⟩ := hc
    obtain ⟨i, j, hi, rfl, rfl⟩ := h
    have h1 := designates_lt hi.1
    have h2 := designates_lt hi.2
    simp [Obj.frames, h1, h2]
  | manipulability a l =>
    obtain ⟨f, t, rfl⟩ := hc
    obtain ⟨i, u, hi, rfl, rfl⟩ := h
    have := designates_lt hi.1
    simp [Obj.frames, this]
  | joints l =>
    obtain ⟨m, rfl, rfl, -⟩ := h
    simp [Obj.frames]
  | com t | momentum t | gear | wheel _ _ _ | regularization _ | kineticEnergy _ | selfCollisions | comPolygon _ _ | halfSpaces _ _ =>
    obtain ⟨rfl, rfl⟩ := h
    simp [Obj.frames]
  | removeTask _ | removeConstraint _ | clear => exact h.elim

theorem mem_labelled (pre : String) : ∀ (l : List (Obj K V R × Option (String × K))) (n : Nat) (t : Obj K V R × Tools.Prioritized K),
    t ∈ labelled pre n l → ∃ u ∈ l, u.1 = t.1 := by
  intro l
  induction l with
  | nil => intro n t h; cases h
  | cons e l ih =>
    intro n t h
    obtain ⟨o, p⟩ := e
    cases p with
    | none =>
      rw [labelled, List.mem_cons] at h
      rcases h with rfl | h
      · exact ⟨_, List.mem_cons_self, rfl⟩
      · obtain ⟨u, hu, he⟩ := ih _ _ h
        exact ⟨u, List.mem_cons_of_mem _ hu, he⟩
    | some p =>
      rw [labelled, List.mem_cons] at h
      rcases h with rfl | h
      · exact ⟨_, List.mem_cons_self, rfl⟩
      · obtain ⟨u, hu, he⟩ := ih _ _ h
        exact ⟨u, List.mem_cons_of_mem _ hu, he⟩

/-- **C168, frames.** In every program that gives frames by name, the objects of the solver only designate frames of the robot. -/
theorem C168_frames (frames : List String) (calls : List (KCall K V R)) (hn : ∀ c ∈ calls, c.ByName) :
    ∀ t ∈ (({} : Objects K V R).run frames calls).tasks ++ (({} : Objects K V R).run frames calls).constraints,
      ∀ i ∈ t.1.frames, i < frames.length := by
  have key : ∀ (calls : List (KCall K V R)) (s : Objects K V R), (∀ c ∈ calls, c.ByName) →
      (∀ t ∈ s.tasks ++ s.constraints, ∀ i ∈ t.1.frames, i < frames.length) →
      ∀ t ∈ (s.run frames calls).tasks ++ (s.run frames calls).constraints, ∀ i ∈ t.1.frames, i < frames.length := by
    intro calls
    induction calls with
    | nil => intro s _ h; exact h
    | cons c l ih =>
      intro s hn h
      refine ih _ (fun c hc => hn c (List.mem_cons_of_mem _ hc)) ?_
      by_cases hc : c.Creates
      · rcases C168 frames s c hc with ⟨-, ts, cs, ha, h1, -, h3, -⟩ | ⟨-, h1, -⟩
        · obtain ⟨k1, k2⟩ := asks_frames frames c (hn c List.mem_cons_self) ts cs ha
          intro t ht i hi
          rw [h1, h3] at ht
          simp only [List.mem_append] at ht h
          rcases ht with (ht | ht) | ht | ht
          · exact h t (.inl ht) i hi
          · obtain ⟨u, hu, he⟩ := mem_labelled _ _ _ _ ht
            exact k1 u hu i (he ▸ hi)
          · exact h t (.inr ht) i hi
          · obtain ⟨u, hu, he⟩ := mem_labelled _ _ _ _ ht
            obtain ⟨o, ho, rfl⟩ := List.mem_map.1 hu
            have he : o = t.1 := he
            exact k2 o ho i (he ▸ hi)
        · show ∀ t ∈ (s.step frames c).1.tasks ++ (s.step frames c).1.constraints, ∀ i ∈ t.1.frames, i < frames.length
          rw [h1]
          exact h
      · have hs : List.Sublist ((s.step frames c).1.tasks ++ (s.step frames c).1.constraints) (s.tasks ++ s.constraints) := by
          cases c with
          | removeTask i => exact (List.eraseIdx_sublist _ _).append (List.Sublist.refl _)
          | removeConstraint i => exact (List.Sublist.refl _).append (List.eraseIdx_sublist _ _)
          | clear => exact List.nil_sublist _
          | _ => exact absurd trivial hc
        exact fun t ht => h t (hs.subset ht)
  exact key calls {} hn fun t ht => by cases ht

/-- An index is not checked: an object of a robot without frame 7. -/
theorem C168_index_refuted : ((({} : Objects ℚ Unit Unit).step ["a"] (.position (.index 7) ())).2 = none) ∧
    ∃ t ∈ (({} : Objects ℚ Unit Unit).step ["a"] (.position (.index 7) ())).1.tasks, 7 ∈ t.1.frames := by
  exact ⟨rfl, _, List.mem_singleton.2 rfl, by simp [Obj.frames]⟩

/-! ## Dynamics -/

/-- The reference that a name designates for an external wrench. -/
def WrenchIs : String → Reference → Prop
  | s, .localWorldAligned => s = "world"
  | s, .localFrame => s = "local"
  | _, .world => False

/-- The frame and the reference of an external wrench. -/
def DesignatesWrench (frames : List String) : WrenchArgs → Nat → Reference → Prop
  | .index f r, i, u => i = f ∧ u = r
  | .name f r, i, u => Designates frames (.name f) i ∧ WrenchIs r u

/-- What a call of the dynamics solver asks for: tasks, constraints and contacts. -/
def DAsks (frames : List String) : DCall K V R → List (Obj K V R) → List (Obj K V R) → List ContactObj → Prop
  | .point t, ts, cs, ks => ts = [] ∧ cs = [] ∧ ks = [.point t false]
  | .unilateralPoint t, ts, cs, ks => ts = [] ∧ cs = [] ∧ ks = [.point t true]
  | .planar p o, ts, cs, ks => ts = [] ∧ cs = [] ∧ ks = [.contact6D p o true]
  | .fixed p o, ts, cs, ks => ts = [] ∧ cs = [] ∧ ks = [.contact6D p o false]
  | .line p o, ts, cs, ks => ts = [] ∧ cs = [] ∧ ks = [.line p o false]
  | .unilateralLine p o, ts, cs, ks => ts = [] ∧ cs = [] ∧ ks = [.line p o true]
  | .externalWrench a, ts, cs, ks => ∃ i r, DesignatesWrench frames a i r ∧ ts = [] ∧ cs = [] ∧ ks = [.externalWrench i r]
  | .puppet, ts, cs, ks => ts = [] ∧ cs = [] ∧ ks = [.puppet]
  | .taskContact t, ts, cs, ks => ts = [] ∧ cs = [] ∧ ks = [.task t]
  | .selfCollisions, ts, cs, ks => ts = [] ∧ cs = [.selfCollisions] ∧ ks = []
  | .position f t, ts, cs, ks => ∃ i, Designates frames f i ∧ ts = [.position i t] ∧ cs = [] ∧ ks = []
  | .relPosition f t, ts, cs, ks => ∃ i j, DesignatesPair frames f i j ∧ ts = [.relPosition i j t] ∧ cs = [] ∧ ks = []
  | .relOrientation f t, ts, cs, ks => ∃ i j, DesignatesPair frames f i j ∧ ts = [.relOrientation i j t] ∧ cs = [] ∧ ks = []
  | .relFrame f T, ts, cs, ks => ∃ i j, DesignatesPair frames f i j ∧
      ts = [.relPosition i j T.translation, .relOrientation i j T.rotation] ∧ cs = [] ∧ ks = []
  | .com t, ts, cs, ks => ts = [.com t] ∧ cs = [] ∧ ks = []
  | .joints, ts, cs, ks => ts = [.joints fun _ => none] ∧ cs = [] ∧ ks = []
  | .torque, ts, cs, ks => ts = [.torque] ∧ cs = [] ∧ ks = []
  | .gear, ts, cs, ks => ts = [.gear] ∧ cs = [] ∧ ks = []
  | .orientation f t, ts, cs, ks => ∃ i, Designates frames f i ∧ ts = [.orientation i t] ∧ cs = [] ∧ ks = []
  | .frame f T, ts, cs, ks => ∃ i, Designates frames f i ∧
      ts = [.position i T.translation, .orientation i T.rotation] ∧ cs = [] ∧ ks = []

/-- What a call of the dynamics solver does. -/
def DAnswered (frames : List String) (s : DObjects K V R) (c : DCall K V R) (r : DObjects K V R × Option Err) : Prop :=
  (r.2 = none ∧ ∃ ts cs ks, DAsks frames c ts cs ks ∧
    AddedTo s.toObjects r.1.toObjects (ts.map fun t => (t, none)) cs ∧ r.1.contacts = s.contacts ++ ks) ∨
  (r.2 = some .runtimeError ∧ r.1 = s ∧ ∀ ts cs ks, ¬ DAsks frames c ts cs ks)

theorem added_nothing (s : Objects K V R) : AddedTo s s [] [] :=
  ⟨(List.append_nil _).symm, rfl, (List.append_nil _).symm, rfl⟩

theorem wrench_resolve (frames : List String) (a : WrenchArgs) :
    (∀ p, a.resolve frames = .ok p → DesignatesWrench frames a p.1 p.2) ∧
    (∀ e, a.resolve frames = .error e → e = .runtimeError ∧ ∀ i r, ¬ DesignatesWrench frames a i r) := by
  cases a with
  | index f r => exact ⟨fun p h => by cases h; exact ⟨rfl, rfl⟩, fun e h => by cases h⟩
  | name f r =>
    cases hf : frameIndex frames f with
    | error e' =>
      have hno : ∀ i u, ¬ DesignatesWrench frames (.name f r) i u := fun i u h => (frameIndex_spec frames f).2 e' hf i h.1
      have he := frameIndex_error frames f e' hf
      subst he
      simp only [WrenchArgs.resolve, hf, Bind.bind, Except.bind]
      split
      · exact ⟨fun p h => (by cases h), fun e h => by cases h; exact ⟨rfl, hno⟩⟩
      split
      · exact ⟨fun p h => (by cases h), fun e h => by cases h; exact ⟨rfl, hno⟩⟩
      · exact ⟨fun p h => (by cases h), fun e h => by cases h; exact ⟨rfl, hno⟩⟩
    | ok i =>
      have hi := ((frameIndex_spec frames f).1 i).1 hf
      simp only [WrenchArgs.resolve, hf, Bind.bind, Except.bind, pure, Except.pure]
      split
      · next h1 => exact ⟨fun p h => by cases h; exact ⟨hi, h1⟩, fun e h => by cases h⟩
      next h1 =>
      split
      · next h2 => exact ⟨fun p h => by cases h; exact ⟨hi, h2⟩, fun e h => by cases h⟩
      next h2 =>
        refine ⟨fun p h => (by cases h), fun e h => ?_⟩
        cases h
        refine ⟨rfl, ?_⟩
        rintro i u ⟨-, hu⟩
        cases u
        · exact hu
        · exact h2 hu
        · exact h1 hu

theorem d_one_frame (frames : List String) (s : DObjects K V R) (c : DCall K V R) (f : FrameRef) (g : Nat → Objects K V R)
    (ts : Nat → List (Obj K V R)) (h1 : ∀ i, Designates frames f i → DAsks frames c (ts i) [] [])
    (h2 : ∀ t u v, DAsks frames c t u v → ∃ i, Designates frames f i)
    (h3 : ∀ i, AddedTo s.toObjects (g i) ((ts i).map fun t => (t, none)) []) :
    DAnswered frames s c (s.lift (withFrame s.toObjects (f.resolve frames) g)) := by
  cases hr : f.resolve frames with
  | ok i => exact .inl ⟨rfl, ts i, [], [], h1 i ((frame_resolve frames f).1 i hr), h3 i, (List.append_nil _).symm⟩
  | error e =>
    refine .inr ⟨congrArg some (frame_error frames f e hr), rfl, fun t u v h => ?_⟩
    obtain ⟨i, hi⟩ := h2 t u v h
    exact (frame_resolve frames f).2 e hr i hi

theorem d_two_frames (frames : List String) (s : DObjects K V R) (c : DCall K V R) (f : FramesRef) (g : Nat × Nat → Objects K V R)
    (ts : Nat → Nat → List (Obj K V R)) (h1 : ∀ i j, DesignatesPair frames f i j → DAsks frames c (ts i j) [] [])
    (h2 : ∀ t u v, DAsks frames c t u v → ∃ i j, DesignatesPair frames f i j)
    (h3 : ∀ p, AddedTo s.toObjects (g p) ((ts p.1 p.2).map fun t => (t, none)) []) :
    DAnswered frames s c (s.lift (withFrame s.toObjects (f.resolve frames) g)) := by
  cases hr : f.resolve frames with
  | ok p => exact .inl ⟨rfl, ts p.1 p.2, [], [], h1 _ _ ((frames_resolve frames f).1 p hr), h3 p, (List.append_nil _).symm⟩
  | error e =>
    refine .inr ⟨congrArg some (frames_error frames f e hr), rfl, fun t u v h => ?_⟩
    obtain ⟨i, j, hi⟩ := h2 t u v h
    exact (frames_resolve frames f).2 e hr i j hi

/-- **C168, dynamics.** A call of the dynamics solver adds exactly the objects that it asks for, or raises and changes nothing. -/
theorem C168_dynamics (frames : List String) (s : DObjects K V R) (c : DCall K V R) :
    DAnswered frames s c (s.step frames c) := by
  have hk : ∀ k : ContactObj, AddedTo s.toObjects (s.addContact k).toObjects ([].map fun t => (t, none)) [] :=
    fun k => added_nothing _
  cases c with
  | point t => exact .inl ⟨rfl, [], [], _, ⟨rfl, rfl, rfl⟩, hk _, rfl⟩
  | unilateralPoint t => exact .inl ⟨rfl, [], [], _, ⟨rfl, rfl, rfl⟩, hk _, rfl⟩
  | planar p o => exact .inl ⟨rfl, [], [], _, ⟨rfl, rfl, rfl⟩, hk _, rfl⟩
  | fixed p o => exact .inl ⟨rfl, [], [], _, ⟨rfl, rfl, rfl⟩, hk _, rfl⟩
  | line p o => exact .inl ⟨rfl, [], [], _, ⟨rfl, rfl, rfl⟩, hk _, rfl⟩
  | unilateralLine p o => exact .inl ⟨rfl, [], [], _, ⟨rfl, rfl, rfl⟩, hk _, rfl⟩
  | externalWrench a =>
    cases hr : a.resolve frames with
    | ok p =>
      obtain ⟨f, r⟩ := p
      have hs : s.step frames (.externalWrench a) = (s.addContact (.externalWrench f r), none) := by
        simp only [DObjects.step, hr]
      rw [hs]
      exact .inl ⟨rfl, [], [], _, ⟨f, r, (wrench_resolve frames a).1 _ hr, rfl, rfl, rfl⟩, hk _, rfl⟩
    | error e =>
      have hs : s.step frames (.externalWrench a) = (s, some e) := by
        simp only [DObjects.step, hr]
      rw [hs]
      obtain ⟨k1, k2⟩ := (wrench_resolve frames a).2 e hr
      refine .inr ⟨congrArg some k1, rfl, ?_⟩
      rintro ts cs ks ⟨i, r, h, -⟩
      exact k2 i r h
  | puppet => exact .inl ⟨rfl, [], [], _, ⟨rfl, rfl, rfl⟩, hk _, rfl⟩
  | taskContact t => exact .inl ⟨rfl, [], [], _, ⟨rfl, rfl, rfl⟩, hk _, rfl⟩
  | selfCollisions => exact .inl ⟨rfl, [], _, [], ⟨rfl, rfl, rfl⟩, added_constraint _ _, (List.append_nil _).symm⟩
  | position f t =>
    exact d_one_frame _ _ _ f _ _ (fun i h => ⟨i, h, rfl, rfl, rfl⟩) (fun t u v ⟨i, h, _⟩ => ⟨i, h⟩) fun i => added_task _ _
  | relPosition f t =>
    exact d_two_frames _ _ _ f _ _ (fun i j h => ⟨i, j, h, rfl, rfl, rfl⟩) (fun t u v ⟨i, j, h, _⟩ => ⟨i, j, h⟩) fun p => added_task _ _
  | relOrientation f t =>
    exact d_two_frames _ _ _ f _ _ (fun i j h => ⟨i, j, h, rfl, rfl, rfl⟩) (fun t u v ⟨i, j, h, _⟩ => ⟨i, j, h⟩) fun p => added_task _ _
  | relFrame f T =>
    exact d_two_frames _ _ _ f _ _ (fun i j h => ⟨i, j, h, rfl, rfl, rfl⟩) (fun t u v ⟨i, j, h, _⟩ => ⟨i, j, h⟩) fun p => added_two _ _ _
  | com t => exact .inl ⟨rfl, _, [], [], ⟨rfl, rfl, rfl⟩, added_task _ _, (List.append_nil _).symm⟩
  | joints => exact .inl ⟨rfl, _, [], [], ⟨rfl, rfl, rfl⟩, added_task _ _, (List.append_nil _).symm⟩
  | torque => exact .inl ⟨rfl, _, [], [], ⟨rfl, rfl, rfl⟩, added_task _ _, (List.append_nil _).symm⟩
  | gear => exact .inl ⟨rfl, _, [], [], ⟨rfl, rfl, rfl⟩, added_task _ _, (List.append_nil _).symm⟩
  | orientation f t =>
    exact d_one_frame _ _ _ f _ _ (fun i h => ⟨i, h, rfl, rfl, rfl⟩) (fun t u v ⟨i, h, _⟩ => ⟨i, h⟩) fun i => added_task _ _
  | frame f T =>
    exact d_one_frame _ _ _ f _ _ (fun i h => ⟨i, h, rfl, rfl, rfl⟩) (fun t u v ⟨i, h, _⟩ => ⟨i, h⟩) fun i => added_two _ _ _

/-- **C168, refuted.** The same name designates two references: "world" is not the reference of the Jacobians for external wrenches, and
"local_world_aligned", which it stands for, is rejected. -/
theorem C168_world_refuted (frames : List String) (f : String) (i : Nat) (h : Designates frames (.name f) i) :
    stringToReference "world" = .ok .world ∧
    (WrenchArgs.name f "world").resolve frames = .ok (i, .localWorldAligned) ∧
    stringToReference "local_world_aligned" = .ok .localWorldAligned ∧
    (WrenchArgs.name f "local_world_aligned").resolve frames = .error .runtimeError := by
  have hf := ((frameIndex_spec frames f).1 i).2 h
  refine ⟨rfl, ?_, rfl, rfl⟩
  simp only [WrenchArgs.resolve, if_true, hf, Bind.bind, Except.bind, pure, Except.pure]

/-- A program that meets the hypotheses: two frames with the same name, an unknown name, a removal. -/
example : (({} : Objects ℚ Unit Unit).run ["u", "foot", "foot", "hand"]
      [.frame (.name "hand") ⟨(), ()⟩, .position (.name "head") (), .removeTask 0, .position (.name "foot") (), .kineticEnergy 3]).tasks.map
      (fun t => (t.1.frames, t.2.name, t.2.weight)) =
    [([3], "Task_2", 1), ([1], "Task_3", 1), ([], "kinetic_energy_regularization", 3)] := by
  decide +kernel

end Verif.Kinematics
