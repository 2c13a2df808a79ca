/-
C167: a robot is built from the files of its directory.

The specification speaks of locations in the tree of directories, not of strings: the directory of the robot is the one that is
given, or the one of the file that is given.
-/
import Mathlib.Algebra.Order.Field.Rat
import Mathlib.Data.Nat.Bitwise
import Mathlib.Data.List.Nodup
import Mathlib.Data.List.TakeWhile
import Verif.Robot.Load

namespace Verif.Robot
open Verif.Problem

variable {K : Type} [Zero K] [DecidableEq K]

/-! ## Specification -/

/-- The directory of the robot. -/
def homeOf (d : Disk) (dir : Chars) : List Chars :=
  if d.isFile dir then (locate d.cwd dir).dropLast else locate d.cwd dir

/-- The file read when a directory is given: `robot.xml` or `robot.urdf`. -/
def modelName (mjcf : Bool) : Chars :=
  if mjcf then ['r', 'o', 'b', 'o', 't', '.', 'x', 'm', 'l'] else ['r', 'o', 'b', 'o', 't', '.', 'u', 'r', 'd', 'f']

/-- The file of the collision pairs. -/
def pairsName : Chars := ['c', 'o', 'l', 'l', 'i', 's', 'i', 'o', 'n', 's', '.', 'j', 's', 'o', 'n']

/-- The model is the text when there is one, else the file given, else the file of the directory given. -/
def SourceIs (d : Disk) (dir : Chars) (mjcf : Bool) (text : Chars) (src : Source) : Prop :=
  if text ≠ [] then src = .text text
  else ∃ p, src = .path p ∧
    locate d.cwd p = if d.isFile dir then locate d.cwd dir else locate d.cwd dir ++ [modelName mjcf]

/-- The pairs: none, those of `collisions.json` in the directory of the robot when there is one, otherwise all the pairs of objects
that are not attached to the same joint. -/
def PairsAre (x : Externals K) (d : Disk) (dir : Chars) (ignore : Bool) (geoms : List LoadedGeom) (pairs : List (Nat × Nat)) : Prop :=
  if ignore then pairs = []
  else if d.at' (homeOf d dir ++ [pairsName]) ≠ none then
    ∃ p m, locate d.cwd p = homeOf d dir ++ [pairsName] ∧
      CollisionModel.load ⟨geoms.map (·.frame), []⟩ (x.json p) = (m, none) ∧ pairs = m.pairs
  else pairs.Nodup ∧ ∀ i j, (i, j) ∈ pairs ↔
    ∃ a b, geoms[i]? = some a ∧ geoms[j]? = some b ∧ i < j ∧ a.parentJoint ≠ b.parentJoint

/-- The robot is the one of its directory. Bit 0 of the flags: collisions as visuals, bit 1: no collisions, bit 2: MJCF. -/
structure LoadedFrom (x : Externals K) (d : Disk) (dir : Chars) (flags : Nat) (text : Chars) (r : LoadedRobot K) : Prop where
  parsed : ∃ src m pk, SourceIs d dir (flags.testBit 2) text src ∧
    x.model (flags.testBit 2) src = .ok m ∧
    x.geoms ⟨flags.testBit 2, src, .collision, pk⟩ = .ok r.collision ∧
    x.geoms ⟨flags.testBit 2, src, if flags.testBit 0 then .collision else .visual, pk⟩ = .ok r.visual ∧
    (flags.testBit 2 = true → pk = none) ∧
    (flags.testBit 2 = false → ∃ p, pk = some p ∧ locate d.cwd p = homeOf d dir) ∧
    r.nq = m.nq ∧ r.nv = m.nv ∧ r.q = ⟨m.nq, m.neutral⟩ ∧
    (∀ k < m.nq, m.lower k = 0 → m.upper k = 0 → r.lower k = x.lowest ∧ r.upper k = x.max) ∧
    (∀ k < m.nq, ¬ (m.lower k = 0 ∧ m.upper k = 0) → r.lower k = m.lower k ∧ r.upper k = m.upper k)
  pairs : PairsAre x d dir (flags.testBit 1) r.collision r.pairs
  still : r.qd.size = r.nv ∧ r.qdd.size = r.nv ∧ (∀ i, r.qd.v i = 0) ∧ ∀ i, r.qdd.v i = 0

/-! ## Paths -/

theorem partsOf_append (a b : Chars) : partsOf (a ++ '/' :: b) = partsOf a ++ partsOf b := by
  unfold partsOf
  rw [List.splitOn_append_cons_self, List.filter_append]

theorem partsOf_nil : partsOf [] = [] := by
  unfold partsOf
  rw [List.splitOn_nil]
  rfl

theorem partsOf_name (n : Chars) (h : '/' ∉ n) (h0 : n ≠ []) (h1 : n ≠ ['.']) : partsOf n = [n] := by
  unfold partsOf
  rw [List.splitOn_eq_singleton h]
  simp [h0, h1]

theorem partsOf_slashes (a : Chars) : ∀ l : Chars, (∀ c ∈ l, c = '/') → partsOf (a ++ l) = partsOf a := by
  intro l
  induction l using List.reverseRecOn with
  | nil => intro _; rw [List.append_nil]
  | append_singleton l c ih =>
    intro h
    have hc : c = '/' := h c (by simp)
    rw [hc, ← List.append_assoc, partsOf_append, partsOf_nil, List.append_nil]
    exact ih fun c hc => h c (by simp [hc])

theorem locate_append (cwd : List Chars) (p b : Chars) (hp : p ≠ []) :
    locate cwd (p ++ '/' :: b) = locate cwd p ++ partsOf b := by
  unfold locate
  have hh : (p ++ '/' :: b).head? = p.head? := by
    cases p with
    | nil => exact absurd rfl hp
    | cons c p => rfl
  rw [hh, partsOf_append]
  split
  · rfl
  · rw [List.append_assoc]

/-- The last name of a path and what is before it. -/
theorem path_split (p : Chars) (h : '/' ∈ p) :
    ∃ rest name : Chars, p.reverse.dropWhile (fun c => decide (c ≠ '/')) = '/' :: rest ∧
      (p.reverse.takeWhile (fun c => decide (c ≠ '/'))).reverse = name ∧ '/' ∉ name ∧
      p = rest.reverse ++ '/' :: name := by
  have happ := List.takeWhile_append_dropWhile (p := fun c => decide (c ≠ '/')) (l := p.reverse)
  have hname : '/' ∉ p.reverse.takeWhile (fun c => decide (c ≠ '/')) := by
    intro hm
    have := List.mem_takeWhile_imp hm
    simp at this
  cases hd : p.reverse.dropWhile (fun c => decide (c ≠ '/')) with
  | nil =>
    rw [hd, List.append_nil] at happ
    rw [happ] at hname
    exact absurd (List.mem_reverse.2 h) hname
  | cons c rest =>
    have hc : c = '/' := by
      have hne : p.reverse.dropWhile (fun c => decide (c ≠ '/')) ≠ [] := by rw [hd]; simp
      have := List.head_dropWhile_not (fun c => decide (c ≠ '/')) hne
      simp only [hd, List.head_cons] at this
      simpa using this
    refine ⟨rest, _, by rw [hc], rfl, fun hm => hname (List.mem_reverse.1 hm), ?_⟩
    have h2 : p = (p.reverse.takeWhile (fun c => decide (c ≠ '/')) ++ p.reverse.dropWhile (fun c => decide (c ≠ '/'))).reverse := by
      rw [happ, List.reverse_reverse]
    rw [hd, List.reverse_append, List.reverse_cons, hc, List.append_assoc] at h2
    exact h2

/-- What is in the parent of a file with a directory is beside the file. -/
theorem locate_parent (cwd : List Chars) (p b : Chars) (h : '/' ∈ p)
    (h0 : (p.reverse.takeWhile (fun c => decide (c ≠ '/'))).reverse ≠ [])
    (h1 : (p.reverse.takeWhile (fun c => decide (c ≠ '/'))).reverse ≠ ['.']) :
    locate cwd (parentPath p) = (locate cwd p).dropLast ∧
    locate cwd (parentPath p ++ '/' :: b) = (locate cwd p).dropLast ++ partsOf b := by
  obtain ⟨rest, name, e1, e2, e3, e4⟩ := path_split p h
  rw [e2] at h0 h1
  have hs := List.takeWhile_append_dropWhile (p := fun c => decide (c = '/')) (l := rest)
  have hall : ∀ c ∈ (rest.takeWhile fun c => decide (c = '/')).reverse, c = '/' := by
    intro c hc
    have := List.mem_takeWhile_imp (List.mem_reverse.1 hc)
    simpa using this
  have hrev : rest.reverse = (rest.dropWhile fun c => decide (c = '/')).reverse ++ (rest.takeWhile fun c => decide (c = '/')).reverse := by
    rw [← List.reverse_append, hs]
  have hne : parentPath p ≠ [] ∧ locate cwd (parentPath p) = (locate cwd p).dropLast := by
    unfold parentPath
    simp only [e1, if_neg (List.cons_ne_nil '/' rest)]
    have hdw : List.dropWhile (fun c => decide (c = '/')) ('/' :: rest) = rest.dropWhile fun c => decide (c = '/') := by
      rw [List.dropWhile_cons_of_pos]
      simp
    rw [hdw]
    have hp : partsOf p = partsOf ((rest.dropWhile fun c => decide (c = '/')).reverse) ++ [name] := by
      rw [e4, partsOf_append, partsOf_name name e3 h0 h1, hrev, partsOf_slashes _ _ hall]
    by_cases hz : rest.dropWhile (fun c => decide (c = '/')) = []
    · rw [if_pos hz]
      refine ⟨by simp, ?_⟩
      have hhead : p.head? = some '/' := by
        rw [e4, hrev, hz]
        cases ht : (rest.takeWhile fun c => decide (c = '/')).reverse with
        | nil => rfl
        | cons c l =>
          have : c = '/' := hall c (by rw [ht]; simp)
          rw [this]
          rfl
      unfold locate
      rw [if_pos hhead, if_pos (show ['/'].head? = some '/' from rfl), hp, hz, List.dropLast_concat, List.reverse_nil]
      have := partsOf_append [] []
      rw [partsOf_nil] at this
      rw [partsOf_nil]
      exact this
    · rw [if_neg hz]
      have hz' : (rest.dropWhile fun c => decide (c = '/')).reverse ≠ [] := by simpa using hz
      refine ⟨hz', ?_⟩
      have hhead : p.head? = ((rest.dropWhile fun c => decide (c = '/')).reverse).head? := by
        rw [e4, hrev]
        cases hq : (rest.dropWhile fun c => decide (c = '/')).reverse with
        | nil => exact absurd hq hz'
        | cons c l => rfl
      unfold locate
      rw [hhead, hp]
      split
      · rw [List.dropLast_concat]
      · rw [← List.append_assoc, List.dropLast_concat]
  refine ⟨hne.2, ?_⟩
  rw [locate_append cwd _ b hne.1, hne.2]

/-! ## Flags and pairs -/

theorem and_ne_zero (flags i : Nat) : decide (flags &&& 2 ^ i ≠ 0) = flags.testBit i := by
  rw [Nat.and_two_pow]
  cases flags.testBit i <;> simp

theorem flags_ofNat (flags : Nat) : Flags.ofNat flags = ⟨flags.testBit 0, flags.testBit 1, flags.testBit 2⟩ := by
  unfold Flags.ofNat
  rw [← and_ne_zero flags 0, ← and_ne_zero flags 1, ← and_ne_zero flags 2]
  rfl

theorem mem_allPairs (geoms : List LoadedGeom) (i j : Nat) : (i, j) ∈ allPairs geoms ↔
    ∃ a b, geoms[i]? = some a ∧ geoms[j]? = some b ∧ i < j ∧ a.parentJoint ≠ b.parentJoint := by
  unfold allPairs
  simp only [List.mem_flatMap, List.mem_map, List.mem_filter, List.mem_range, Prod.mk.injEq, decide_eq_true_eq]
  constructor
  · rintro ⟨i', hi, j', ⟨hj, hlt, hne⟩, rfl, rfl⟩
    refine ⟨geoms[i'], geoms[j'], List.getElem?_eq_getElem hi, List.getElem?_eq_getElem hj, hlt, ?_⟩
    intro h
    apply hne
    rw [List.getElem?_eq_getElem hi, List.getElem?_eq_getElem hj, Option.map_some, Option.map_some, h]
  · rintro ⟨a, b, ha, hb, hlt, hne⟩
    obtain ⟨hi, -⟩ := List.getElem?_eq_some_iff.1 ha
    obtain ⟨hj, -⟩ := List.getElem?_eq_some_iff.1 hb
    refine ⟨i, hi, j, ⟨hj, hlt, ?_⟩, rfl, rfl⟩
    rw [ha, hb]
    simpa using hne

theorem nodup_allPairs (geoms : List LoadedGeom) : (allPairs geoms).Nodup := by
  unfold allPairs
  rw [List.nodup_flatMap]
  refine ⟨fun i _ => ?_, ?_⟩
  · exact (List.nodup_range.filter _).map fun a b h => (Prod.mk.inj h).2
  · refine List.nodup_range.imp ?_
    intro a b hab
    rw [Function.onFun, List.disjoint_left]
    intro p hp hq
    simp only [List.mem_map] at hp hq
    obtain ⟨_, -, rfl⟩ := hp
    obtain ⟨_, -, h⟩ := hq
    exact hab (Prod.mk.inj h).1.symm

/-! ## The constructor -/

/-- The location of the directory used by the constructor, for what is in it. -/
theorem modelPaths_home (d : Disk) (fl : Flags) (dir b : Chars) (h0 : dir ≠ []) (h1 : d.isFile dir = true → '/' ∈ dir) :
    locate d.cwd (modelPaths d fl dir).2 = homeOf d dir ∧
    locate d.cwd ((modelPaths d fl dir).2 ++ '/' :: b) = homeOf d dir ++ partsOf b := by
  unfold modelPaths homeOf
  by_cases hf : d.isFile dir = true
  · rw [if_pos hf, if_pos hf]
    have hf' := hf
    unfold Disk.isFile at hf'
    simp only [decide_eq_true_eq] at hf'
    exact locate_parent d.cwd dir b (h1 hf) hf'.1 hf'.2.1
  · rw [if_neg hf, if_neg hf]
    have : (if fl.mjcf then (dir ++ robotXml, dir) else (dir ++ robotUrdf, dir)).2 = dir := by split <;> rfl
    rw [this]
    exact ⟨rfl, locate_append d.cwd dir b h0⟩

theorem modelPaths_file (d : Disk) (fl : Flags) (dir : Chars) (h0 : dir ≠ []) :
    locate d.cwd (modelPaths d fl dir).1 =
      if d.isFile dir then locate d.cwd dir else locate d.cwd dir ++ [modelName fl.mjcf] := by
  unfold modelPaths
  by_cases hf : d.isFile dir = true
  · rw [if_pos hf, if_pos hf]
  · rw [if_neg hf, if_neg hf]
    unfold modelName
    cases fl.mjcf
    · rw [if_neg (by simp), if_neg (by simp)]
      unfold robotUrdf
      rw [locate_append d.cwd dir _ h0, partsOf_name _ (by decide) (by simp) (by simp)]
    · rw [if_pos rfl, if_pos rfl]
      unfold robotXml
      rw [locate_append d.cwd dir _ h0, partsOf_name _ (by decide) (by simp) (by simp)]

theorem requests_ok (d : Disk) (fl : Flags) (dir text : Chars) (r : Requests) (h : requests d fl dir text = .ok r)
    (h0 : dir ≠ []) (h1 : d.isFile dir = true → '/' ∈ dir) :
    r.mjcf = fl.mjcf ∧ SourceIs d dir fl.mjcf text r.model ∧ ∃ pk,
      r.collision = ⟨fl.mjcf, r.model, .collision, pk⟩ ∧
      r.visual = ⟨fl.mjcf, r.model, if fl.collisionAsVisual then .collision else .visual, pk⟩ ∧
      (fl.mjcf = true → pk = none) ∧ (fl.mjcf = false → ∃ p, pk = some p ∧ locate d.cwd p = homeOf d dir) := by
  have hfile := modelPaths_file d fl dir h0
  have hhome := (modelPaths_home d fl dir [] h0 h1).1
  unfold requests at h
  unfold SourceIs
  by_cases ht : text ≠ []
  · rw [if_pos ht] at h ⊢
    cases hm : fl.mjcf
    · rw [hm, if_neg (by simp)] at h
      cases h
      exact ⟨rfl, rfl, _, rfl, rfl, by simp, fun _ => ⟨_, rfl, hhome⟩⟩
    · rw [hm, if_pos rfl] at h
      cases h
  · rw [if_neg ht] at h ⊢
    cases hm : fl.mjcf
    · rw [hm] at hfile
      rw [hm, if_neg (by simp)] at h
      cases h
      exact ⟨rfl, ⟨_, rfl, hfile⟩, _, rfl, rfl, by simp, fun _ => ⟨_, rfl, hhome⟩⟩
    · rw [hm] at hfile
      rw [hm, if_pos rfl] at h
      cases h
      exact ⟨rfl, ⟨_, rfl, hfile⟩, none, rfl, rfl, by simp, by simp⟩

theorem exists_iff (d : Disk) (p b : Chars) (hb : b ≠ []) : d.exists (p ++ b) = true ↔ d.at' (locate d.cwd (p ++ b)) ≠ none := by
  unfold Disk.exists
  simp [hb]

omit [Zero K] [DecidableEq K] in
theorem loadPairs_ok (x : Externals K) (d : Disk) (fl : Flags) (dir : Chars) (geoms : List LoadedGeom) (pairs : List (Nat × Nat))
    (h : loadPairs x geoms (pairsFrom d fl dir) = .ok pairs) (h0 : dir ≠ []) (h1 : d.isFile dir = true → '/' ∈ dir) :
    PairsAre x d dir fl.ignoreCollisions geoms pairs := by
  have hloc : locate d.cwd ((modelPaths d fl dir).2 ++ collisionsJson) = homeOf d dir ++ [pairsName] := by
    unfold collisionsJson
    rw [(modelPaths_home d fl dir _ h0 h1).2, partsOf_name _ (by decide) (by simp) (by simp)]
    rfl
  unfold PairsAre
  unfold pairsFrom at h
  simp only at h
  by_cases hi : fl.ignoreCollisions = true
  · rw [if_pos hi] at h ⊢
    cases h
    rfl
  · rw [if_neg hi] at h ⊢
    by_cases he : d.exists ((modelPaths d fl dir).2 ++ collisionsJson) = true
    · rw [if_pos he] at h
      have he' := (exists_iff d _ collisionsJson (by simp [collisionsJson])).1 he
      rw [hloc] at he'
      rw [if_pos he']
      refine ⟨_, (CollisionModel.load ⟨geoms.map (·.frame), []⟩ (x.json ((modelPaths d fl dir).2 ++ collisionsJson))).1, hloc, ?_⟩
      unfold loadPairs at h
      simp only at h
      split at h
      · cases h
      · next m hm =>
        cases h
        rw [hm]
        exact ⟨rfl, rfl⟩
    · rw [if_neg he] at h
      have he' : ¬ d.at' (homeOf d dir ++ [pairsName]) ≠ none := by
        rw [← hloc]
        exact fun hn => he ((exists_iff d _ collisionsJson (by simp [collisionsJson])).2 hn)
      rw [if_neg he']
      cases h
      exact ⟨nodup_allPairs geoms, mem_allPairs geoms⟩

/-- **C167 (partial).** For a directory, or for a file given with its directory: the robot built is the one of that directory. -/
theorem C167_partial (x : Externals K) (d : Disk) (dir : Chars) (flags : Nat) (text : Chars) (r : LoadedRobot K)
    (h : construct x d dir flags text = .ok r) (h0 : dir ≠ []) (h1 : d.isFile dir = true → '/' ∈ dir) :
    LoadedFrom x d dir flags text r := by
  unfold construct at h
  rw [flags_ofNat] at h
  cases hr : requests d ⟨flags.testBit 0, flags.testBit 1, flags.testBit 2⟩ dir text with
  | error e => simp only [hr, Bind.bind, Except.bind] at h; cases h
  | ok q =>
  cases hm : x.model q.mjcf q.model with
  | error e => simp only [hr, hm, Bind.bind, Except.bind] at h; cases h
  | ok m =>
  cases hc : x.geoms q.collision with
  | error e => simp only [hr, hm, hc, Bind.bind, Except.bind] at h; cases h
  | ok c =>
  cases hv : x.geoms q.visual with
  | error e => simp only [hr, hm, hc, hv, Bind.bind, Except.bind] at h; cases h
  | ok v =>
  cases hp : loadPairs x c (pairsFrom d ⟨flags.testBit 0, flags.testBit 1, flags.testBit 2⟩ dir) with
  | error e => simp only [hr, hm, hc, hv, hp, Bind.bind, Except.bind] at h; cases h
  | ok ps =>
  simp only [hr, hm, hc, hv, hp, Bind.bind, Except.bind, pure, Except.pure] at h
  injection h with h
  subst h
  obtain ⟨k1, k2, pk, k3, k4, k5, k6⟩ := requests_ok d _ dir text q hr h0 h1
  rw [k1] at hm
  rw [k3] at hc
  rw [k4] at hv
  refine ⟨⟨q.model, m, pk, k2, hm, hc, hv, k5, k6, rfl, rfl, rfl, ?_, ?_⟩, loadPairs_ok x d _ dir c ps hp h0 h1, rfl, rfl, fun _ => rfl,
    fun _ => rfl⟩
  · intro k hk hl hu
    simp only [freeLimit, if_pos (show k < m.nq ∧ m.lower k = 0 ∧ m.upper k = 0 from ⟨hk, hl, hu⟩), and_self]
  · intro k _ hn
    simp only [freeLimit, if_neg (show ¬ (k < m.nq ∧ m.lower k = 0 ∧ m.upper k = 0) from fun h => hn h.2), and_self]

/-- **C167, spelling of the directory.** `./dir`, `dir/` and `dir/.` are the directory `dir`. -/
theorem C167_spelling (cwd : List Chars) (dir : Chars) (h0 : dir ≠ []) :
    (dir.head? ≠ some '/' → locate cwd ('.' :: '/' :: dir) = locate cwd dir) ∧ locate cwd (dir ++ ['/']) = locate cwd dir ∧
    locate cwd (dir ++ ['/', '.']) = locate cwd dir := by
  have hdot : partsOf ['.'] = [] := by decide +kernel
  refine ⟨fun hr => ?_, ?_, ?_⟩
  · have := partsOf_append ['.'] dir
    rw [hdot, List.nil_append] at this
    unfold locate
    rw [if_neg hr, if_neg (by simp)]
    exact congrArg (cwd ++ ·) this
  · rw [locate_append cwd dir [] h0, partsOf_nil, List.append_nil]
  · rw [locate_append cwd dir ['.'] h0, hdot, List.append_nil]

/-- Construction succeeds as soon as the parsers do, whatever the path; a text for MJCF raises. -/
theorem C167_total (x : Externals K) (d : Disk) (dir : Chars) (flags : Nat) (text : Chars)
    (hm : ∀ b s, ∃ m, x.model b s = .ok m) (hg : ∀ g, ∃ l, x.geoms g = .ok l)
    (hj : ∀ p l, (CollisionModel.load ⟨l, []⟩ (x.json p)).2 = none) :
    (flags.testBit 2 = true ∧ text ≠ [] → construct x d dir flags text = .error .runtimeError) ∧
    (¬ (flags.testBit 2 = true ∧ text ≠ []) → ∃ r, construct x d dir flags text = .ok r) := by
  unfold construct
  rw [flags_ofNat]
  constructor
  · rintro ⟨h1, h2⟩
    unfold requests
    simp only [if_pos h2, h1, if_true]
    rfl
  · intro h
    obtain ⟨q, hq⟩ : ∃ q, requests d ⟨flags.testBit 0, flags.testBit 1, flags.testBit 2⟩ dir text = .ok q := by
      unfold requests
      by_cases ht : text ≠ []
      · have h2 : ¬ flags.testBit 2 = true := fun hb => h ⟨hb, ht⟩
        simp only [if_pos ht, if_neg h2]
        exact ⟨_, rfl⟩
      · simp only [if_neg ht]
        split
        · exact ⟨_, rfl⟩
        · exact ⟨_, rfl⟩
    obtain ⟨m, hm⟩ := hm q.mjcf q.model
    obtain ⟨c, hc⟩ := hg q.collision
    obtain ⟨v, hv⟩ := hg q.visual
    obtain ⟨ps, hp⟩ : ∃ ps, loadPairs x c (pairsFrom d ⟨flags.testBit 0, flags.testBit 1, flags.testBit 2⟩ dir) = .ok ps := by
      cases pairsFrom d ⟨flags.testBit 0, flags.testBit 1, flags.testBit 2⟩ dir with
      | none => exact ⟨_, rfl⟩
      | all => exact ⟨_, rfl⟩
      | file p =>
        unfold loadPairs
        simp only
        split
        · next e he =>
          have := hj p (c.map (·.frame))
          rw [he] at this
          cases this
        · exact ⟨_, rfl⟩
    simp only [hq, hm, hc, hv, hp, Bind.bind, Except.bind]
    exact ⟨_, rfl⟩

/-- **C167, refuted.** A file given by its name alone, for a process that is not at the root: the collision pairs are looked for at the
root of the file system. With a `collisions.json` beside the file and none at the root, all the pairs are kept, whatever the file. -/
theorem C167_refuted (d : Disk) (fl : Flags) (dir : Chars) (hs : '/' ∉ dir) (hf : d.isFile dir = true) (hc : d.cwd ≠ [])
    (hi : fl.ignoreCollisions = false) :
    locate d.cwd ((modelPaths d fl dir).2 ++ collisionsJson) = [pairsName] ∧
    homeOf d dir ++ [pairsName] ≠ [pairsName] ∧
    (d.at' [pairsName] = none → pairsFrom d fl dir = .all) ∧
    (d.at' [pairsName] ≠ none → ∃ p, pairsFrom d fl dir = .file p ∧ locate d.cwd p = [pairsName]) := by
  have hname : dir.reverse.dropWhile (fun c => decide (c ≠ '/')) = [] := by
    rw [List.dropWhile_eq_nil_iff]
    intro c hc
    simp only [decide_eq_true_eq]
    rintro rfl
    exact hs (List.mem_reverse.1 hc)
  have hpar : parentPath dir = [] := by
    unfold parentPath
    simp only [hname, if_true]
  have hp2 : (modelPaths d fl dir).2 = [] := by
    unfold modelPaths
    rw [if_pos hf, hpar]
  have hloc : locate d.cwd ((modelPaths d fl dir).2 ++ collisionsJson) = [pairsName] := by
    rw [hp2]
    unfold locate collisionsJson
    rw [if_pos (by rfl)]
    have := partsOf_append [] pairsName
    rw [partsOf_nil, partsOf_name pairsName (by decide) (by decide) (by decide)] at this
    exact this
  have hf' := hf
  unfold Disk.isFile at hf'
  simp only [decide_eq_true_eq] at hf'
  have htake : (dir.reverse.takeWhile fun c => decide (c ≠ '/')).reverse = dir := by
    have := List.takeWhile_append_dropWhile (p := fun c => decide (c ≠ '/')) (l := dir.reverse)
    rw [hname, List.append_nil] at this
    rw [this, List.reverse_reverse]
  rw [htake] at hf'
  have hhome : homeOf d dir = d.cwd := by
    unfold homeOf
    rw [if_pos hf]
    unfold locate
    have hh : dir.head? ≠ some '/' := by
      intro hh
      cases dir with
      | nil => cases hh
      | cons c l =>
        injection hh with hh
        exact hs (by rw [hh]; simp)
    rw [if_neg hh, partsOf_name dir hs hf'.1 hf'.2.1, List.dropLast_concat]
  refine ⟨hloc, ?_, ?_, ?_⟩
  · rw [hhome]
    intro h
    apply hc
    have := congrArg List.length h
    simp only [List.length_append, List.length_singleton] at this
    exact List.length_eq_zero_iff.1 (by omega)
  · intro hn
    unfold pairsFrom
    simp only [hi, if_neg (show ¬ false = true by simp)]
    rw [if_neg]
    rw [exists_iff d _ collisionsJson (by simp [collisionsJson]), hloc]
    exact fun h => h hn
  · intro hn
    unfold pairsFrom
    simp only [hi, if_neg (show ¬ false = true by simp)]
    rw [if_pos]
    · exact ⟨_, rfl, hloc⟩
    · rw [exists_iff d _ collisionsJson (by simp [collisionsJson]), hloc]
      exact hn

/-- **C167, refuted for an empty path.** Without a name of directory the model is looked for at the root of the file system. -/
theorem C167_empty_refuted (d : Disk) (flags : Nat) (r : Requests) (h : requests d (Flags.ofNat flags) [] [] = .ok r) :
    ∃ p, r.model = .path p ∧ locate d.cwd p = [modelName (flags.testBit 2)] := by
  rw [flags_ofNat] at h
  have hf : d.isFile [] = false := by
    unfold Disk.isFile
    simp
  unfold requests at h
  simp only [if_neg (show ¬ (([] : Chars) ≠ []) by simp)] at h
  unfold modelPaths at h
  simp only [hf, if_neg (show ¬ false = true by simp)] at h
  have hroot : ∀ n : Chars, '/' ∉ n → n ≠ [] → n ≠ ['.'] → locate d.cwd ([] ++ '/' :: n) = [n] := by
    intro n h1 h2 h3
    unfold locate
    rw [if_pos (by rfl)]
    have := partsOf_append [] n
    rw [partsOf_nil, partsOf_name n h1 h2 h3] at this
    exact this
  cases hb : flags.testBit 2
  · simp only [hb, if_neg (show ¬ false = true by simp)] at h
    cases h
    exact ⟨_, rfl, hroot _ (by decide) (by decide) (by decide)⟩
  · simp only [hb, if_true] at h
    cases h
    exact ⟨_, rfl, hroot _ (by decide) (by decide) (by decide)⟩

/-- The hypotheses hold, and the two ways of giving a robot: `robots/a` with a file of pairs, loaded by its directory or by its file. -/
def demoDisk : Disk :=
  ⟨[['u']], fun l =>
    if l = [['u'], ['a']] then some .directory
    else if l = [['u'], ['a'], modelName false] ∨ l = [['u'], ['a'], pairsName] then some .file else none⟩

/-- A robot with two objects on two joints, one joint with null limits. -/
def demoExternals : Externals ℚ where
  model _ _ := .ok ⟨2, 2, fun k => if k = 0 then 0 else -1, fun k => if k = 0 then 0 else 1, fun _ => 0⟩
  geoms _ := .ok [⟨some "x", 1⟩, ⟨some "y", 2⟩, ⟨some "z", 2⟩]
  json _ := .entries [.two (.str "x") (.str "y")]
  lowest := -1000
  max := 1000

example : ∃ r, construct demoExternals demoDisk ['a'] 0 [] = .ok r ∧ r.pairs = [(0, 1)] ∧ r.lower 0 = -1000 ∧ r.upper 1 = 1 := by
  refine ⟨_, rfl, ?_, ?_, ?_⟩ <;> decide +kernel

example : ∃ r, construct demoExternals demoDisk (['a'] ++ robotUrdf) 0 [] = .ok r ∧ r.pairs = [(0, 1)] := by
  refine ⟨_, rfl, ?_⟩
  decide +kernel

example : ∃ r, construct demoExternals { demoDisk with cwd := [['u'], ['a']] } (modelName false) 0 [] = .ok r ∧
    r.pairs = [(0, 1), (0, 2)] := by
  refine ⟨_, rfl, ?_⟩
  decide +kernel

end Verif.Robot
