/-
Property C172 of the status reports of the solvers.
-/
import Mathlib.Tactic.Linarith
import Mathlib.Tactic.NormNum
import Mathlib.Tactic.Ring
import Mathlib.Tactic.FieldSimp
import Mathlib.Tactic.IntervalCases
import Verif.Tools.Status

namespace Verif.Tools.Status
open Finset

/-! ## Specification -/

/-- The natural number written in base ten. -/
def readNat (l : List Char) : Nat := l.foldl (fun a c => 10 * a + (c.toNat - 48)) 0

/-- The number written with a decimal point. -/
noncomputable def readDecimal (l : List Char) : ℝ :=
  readNat (l.takeWhile (· ≠ '.')) +
    (readNat (l.dropWhile (· ≠ '.')).tail : ℝ) / 10 ^ (l.dropWhile (· ≠ '.')).tail.length

/-- The documented entry of a task in the report of the kinematics solver. -/
def kinEntry (show_ : ℝ → List Char) (t : TaskInfo) (error : List Char) : List Char :=
  "  * ".toList ++ t.name ++ " [".toList ++ t.typeName ++ "]\n    - Priority: ".toList ++
    (match t.priority with
      | .hard => "hard".toList
      | .scaled => "scaled".toList
      | .soft => "soft (weight:".toList ++ show_ t.weight ++ ")".toList) ++
    "\n    - Error: ".toList ++ error ++ " [".toList ++ t.unit ++ "]\n\n".toList

/-- The documented entry of a hard or soft task in the report of the dynamics solver. -/
def dynEntry (show_ : ℝ → List Char) (t : TaskInfo) (error derror : List Char) : List Char :=
  "  * ".toList ++ t.name ++ " [".toList ++ t.typeName ++ "]\n    - Priority: ".toList ++
    (if t.priority = .hard then "hard".toList else "soft (weight:".toList ++ show_ t.weight ++ ")".toList) ++
    "\n    - Error: ".toList ++ error ++ " [".toList ++ t.unit ++ "]\n    - DError: ".toList ++ derror ++
    " [".toList ++ t.unit ++ "]\n\n".toList

/-- `sprintf` rounds to nearest. -/
def Nearest (round : ℝ → Nat) : Prop := ∀ y, 0 ≤ y → |(round y : ℝ) - y| ≤ 1 / 2

/-- The text is the number, to half a millionth. -/
def Shows (l : List Char) (x : ℝ) : Prop := |readDecimal l - x| ≤ 1 / 2000000

/-! ## Digits -/

theorem digit_toNat (d : Nat) (h : d < 10) : (digit d).toNat - 48 = d := by
  interval_cases d <;> rfl

theorem digit_ne (d : Nat) (h : d < 10) : digit d ≠ '.' := by
  interval_cases d <;> decide

theorem readNat_append (a : List Char) (c : Char) : readNat (a ++ [c]) = 10 * readNat a + (c.toNat - 48) := by
  unfold readNat; rw [List.foldl_append]; rfl

theorem readNat_integer (n : Nat) : readNat (integer n) = n := by
  induction n using Nat.strong_induction_on with
  | _ n ih =>
    rw [integer]
    split
    · rename_i h
      show 10 * 0 + _ = n
      rw [digit_toNat n h]; omega
    · rename_i h
      rw [readNat_append, ih (n / 10) (by omega), digit_toNat _ (by omega)]
      omega

theorem integer_ne (n : Nat) : ∀ c ∈ integer n, c ≠ '.' := by
  induction n using Nat.strong_induction_on with
  | _ n ih =>
    rw [integer]
    split
    · rename_i h
      intro c hc
      rw [List.mem_singleton] at hc
      rw [hc]; exact digit_ne n h
    · rename_i h
      intro c hc
      rcases List.mem_append.1 hc with hc | hc
      · exact ih _ (by omega) c hc
      · rw [List.mem_singleton] at hc
        rw [hc]; exact digit_ne _ (by omega)

theorem integer_length (k : Nat) : ∀ n, (integer n).length ≤ k + 1 ↔ n < 10 ^ (k + 1) := by
  have hpos : ∀ n, 1 ≤ (integer n).length := by
    intro n
    rw [integer]
    split
    · simp
    · simp
  induction k with
  | zero =>
    intro n
    rw [integer]
    split
    · rename_i h; simpa using h
    · rename_i h
      have := hpos (n / 10)
      simp only [List.length_append, List.length_singleton]
      omega
  | succ k ih =>
    intro n
    rw [integer]
    split
    · rename_i h
      have : 10 ≤ 10 ^ (k + 1 + 1) := by
        calc 10 = 10 ^ 1 := rfl
          _ ≤ 10 ^ (k + 1 + 1) := Nat.pow_le_pow_right (by omega) (by omega)
      simp only [List.length_singleton]
      omega
    · have h2 := ih (n / 10)
      simp only [List.length_append, List.length_singleton, Nat.add_le_add_iff_right]
      rw [h2, Nat.div_lt_iff_lt_mul (by omega), pow_succ 10 (k + 1)]

theorem readDecimal_fixed6 (n : Nat) : readDecimal (fixed6 n) = n / 1000000 := by
  unfold readDecimal fixed6
  have h1 : ∀ (a b : List Char), (∀ c ∈ a, c ≠ '.') →
      (a ++ '.' :: b).takeWhile (· ≠ '.') = a ∧ (a ++ '.' :: b).dropWhile (· ≠ '.') = '.' :: b := by
    intro a b
    induction a with
    | nil => intro _; simp
    | cons x a ih =>
      intro h
      have hx := h x List.mem_cons_self
      obtain ⟨i1, i2⟩ := ih fun c hc => h c (List.mem_cons_of_mem _ hc)
      rw [List.cons_append, List.takeWhile_cons_of_pos (by simpa using hx), List.dropWhile_cons_of_pos (by simpa using hx), i1, i2]
      exact ⟨rfl, rfl⟩
  obtain ⟨e1, e2⟩ := h1 (integer (n / 1000000)) [digit (n / 100000 % 10), digit (n / 10000 % 10), digit (n / 1000 % 10),
    digit (n / 100 % 10), digit (n / 10 % 10), digit (n % 10)] (integer_ne _)
  rw [e1, e2, readNat_integer, List.tail_cons]
  have e3 : readNat [digit (n / 100000 % 10), digit (n / 10000 % 10), digit (n / 1000 % 10),
      digit (n / 100 % 10), digit (n / 10 % 10), digit (n % 10)] = n % 1000000 := by
    unfold readNat
    simp only [List.foldl_cons, List.foldl_nil]
    rw [digit_toNat _ (by omega), digit_toNat _ (by omega), digit_toNat _ (by omega), digit_toNat _ (by omega),
      digit_toNat _ (by omega), digit_toNat _ (by omega)]
    omega
  rw [e3]
  have e4 : ((1000000 * (n / 1000000) + n % 1000000 : Nat) : ℝ) = n := by rw [Nat.div_add_mod]
  push_cast at e4
  simp only [List.length_cons, List.length_nil]
  rw [← e4]
  norm_num
  ring

theorem fixed6_shows (round : ℝ → Nat) (hr : Nearest round) (x : ℝ) (hx : 0 ≤ x) : Shows (fixed6 (round (x * 1000000))) x := by
  unfold Shows
  rw [readDecimal_fixed6]
  have h := hr (x * 1000000) (by linarith)
  rw [abs_le] at h ⊢
  constructor
  · have : (-(1 / 2) : ℝ) / 1000000 ≤ ((round (x * 1000000) : ℝ) - x * 1000000) / 1000000 :=
      div_le_div_of_nonneg_right h.1 (by norm_num)
    linarith
  · have : ((round (x * 1000000) : ℝ) - x * 1000000) / 1000000 ≤ (1 / 2) / 1000000 :=
      div_le_div_of_nonneg_right h.2 (by norm_num)
    linarith

theorem norm_nonneg (rows : Nat) (v : Nat → ℝ) : 0 ≤ norm rows v := Real.sqrt_nonneg _

/-! ## The buffer -/

/-- A line fits in the buffer exactly when its integer part has few enough digits. -/
theorem line_fits (round : ℝ → Nat) (label unit : List Char) (x : ℝ) (c : Nat) (hc : label.length + unit.length + c = 116) :
    (∃ s, sprintf128 (errorLine round label x unit) = .ok s) ↔ 0 < c ∧ round (x * 1000000) / 1000000 < 10 ^ c := by
  have hlen : (errorLine round label x unit).length = label.length + (integer (round (x * 1000000) / 1000000)).length + 7 + 2 +
      unit.length + 2 := by
    unfold errorLine fixed6
    simp only [List.length_append, List.length_cons, List.length_nil]
    have h1 : " [".toList.length = 2 := rfl
    have h2 : "]\n".toList.length = 2 := rfl
    omega
  have hfit : (∃ s, sprintf128 (errorLine round label x unit) = .ok s) ↔ (integer (round (x * 1000000) / 1000000)).length ≤ c := by
    unfold sprintf128
    rw [hlen]
    constructor
    · rintro ⟨s, h⟩
      split at h
      · cases h
      · omega
    · intro h
      exact ⟨_, if_neg (by omega)⟩
  rw [hfit]
  rcases Nat.eq_zero_or_pos c with rfl | hpos
  · have : 1 ≤ (integer (round (x * 1000000) / 1000000)).length := by
      rw [integer]; split <;> simp
    constructor
    · intro h; omega
    · rintro ⟨h, -⟩; omega
  · obtain ⟨k, rfl⟩ : ∃ k, c = k + 1 := ⟨c - 1, by omega⟩
    have := integer_length k (round (x * 1000000) / 1000000)
    constructor
    · intro h; exact ⟨hpos, this.1 h⟩
    · rintro ⟨-, h⟩; exact this.2 h

theorem sprintf_ok {text s : List Char} (h : sprintf128 text = .ok s) : s = text := by
  unfold sprintf128 at h
  split at h
  · cases h
  · cases h; rfl

theorem sprintf_error {text : List Char} {e : Err} (h : sprintf128 text = .error e) : e = .ub := by
  unfold sprintf128 at h
  split at h
  · cases h; rfl
  · cases h

/-- Errors that leave room in the buffer. -/
theorem round_room {round : ℝ → Nat} (hr : Nearest round) {x : ℝ} (h0 : 0 ≤ x) (a b : Nat) (hab : b = a + 1) (h : x < 10 ^ a) :
    round (x * 1000000) / 1000000 < 10 ^ b := by
  subst hab
  have h1 := (abs_le.1 (hr (x * 1000000) (by linarith))).2
  have h2 : (round (x * 1000000) : ℝ) < 10 ^ a * 1000000 + 1 := by linarith
  have h3 : round (x * 1000000) < 10 ^ a * 1000000 + 1 := by exact_mod_cast h2
  rw [Nat.div_lt_iff_lt_mul (by omega), pow_succ]
  have h4 : 0 < 10 ^ a := Nat.pow_pos (by omega)
  nlinarith

/-- What is written for a task is its documented entry. -/
theorem kin_entry (round : ℝ → Nat) (show_ : ℝ → List Char) (t : TaskInfo) (x : ℝ) :
    heading t (kinPriority show_ t) ++ errorLine round "    - Error: ".toList x t.unit ++ ['\n'] =
      kinEntry show_ t (fixed6 (round (x * 1000000))) := by
  have e1 : "]\n    - Priority: ".toList = "]".toList ++ ['\n'] ++ "    - Priority: ".toList := rfl
  have e2 : "\n    - Error: ".toList = ['\n'] ++ "    - Error: ".toList := rfl
  have e3 : "]\n\n".toList = "]\n".toList ++ ['\n'] := rfl
  obtain ⟨name, type, unit, priority, weight, rows, update⟩ := t
  unfold kinEntry heading errorLine kinPriority
  rw [e1, e2, e3]
  cases priority <;> simp only [List.append_assoc]

/-- What is written for a task is its documented entry. -/
theorem dyn_entry (round : ℝ → Nat) (show_ : ℝ → List Char) (t : TaskInfo) (x y : ℝ) :
    heading t (dynPriority show_ t) ++ errorLine round "    - Error: ".toList x t.unit ++
        errorLine round "    - DError: ".toList y t.unit ++ ['\n'] =
      dynEntry show_ t (fixed6 (round (x * 1000000))) (fixed6 (round (y * 1000000))) := by
  have e1 : "]\n    - Priority: ".toList = "]".toList ++ ['\n'] ++ "    - Priority: ".toList := rfl
  have e2 : "\n    - Error: ".toList = ['\n'] ++ "    - Error: ".toList := rfl
  have e3 : "]\n\n".toList = "]\n".toList ++ ['\n'] := rfl
  have e4 : "]\n    - DError: ".toList = "]\n".toList ++ "    - DError: ".toList := rfl
  have hp : dynPriority show_ t = if t.priority = .hard then "hard".toList else "soft (weight:".toList ++ show_ t.weight ++ ")".toList := by
    unfold dynPriority
    cases t.priority <;> rfl
  unfold dynEntry heading errorLine
  rw [e1, e2, e3, e4, hp]
  simp only [List.append_assoc]

/-! ## C172 -/

/-- The room left in the buffer for the integer part of an error, and of an error of velocity. -/
def room (t : TaskInfo) : Nat := 103 - t.unit.length

/-- **C172, kinematics: what the report is.** For any tasks that can be updated, whose units have at most 100 characters and whose
errors are less than ten to the power `102 - (length of the unit)`: the report ends, each task has its documented entry, in order,
with its name, type, priority, weight and unit, and the error shown is the norm of its error to half a millionth. -/
theorem C172_partial (round : ℝ → Nat) (hr : Nearest round) (show_ : ℝ → List Char) (hasScaling : Bool) (scale : ℝ)
    (ts : List TaskInfo) (E : TaskInfo → (Nat → ℝ) × (Nat → ℝ)) (hu : ∀ t ∈ ts, t.update = .ok (E t))
    (hs : ∀ t ∈ ts, t.unit.length ≤ 100 ∧ norm t.rows (E t).1 < 10 ^ (102 - t.unit.length)) :
    ∃ shown : List (List Char), List.Forall₂ (fun t l => Shows l (norm t.rows (E t).1)) ts shown ∧
      kinDump round show_ hasScaling scale ts =
        ("* Kinematics Tasks:\n".toList ++ (if hasScaling then "  * Scaling: ".toList ++ show_ scale ++ "\n".toList else []) ++
          (List.zipWith (kinEntry show_) ts shown).flatten, none) := by
  have key : ∃ shown : List (List Char), List.Forall₂ (fun t l => Shows l (norm t.rows (E t).1)) ts shown ∧
      kinLoop round show_ ts = ((List.zipWith (kinEntry show_) ts shown).flatten, none) := by
    induction ts with
    | nil => exact ⟨[], List.Forall₂.nil, rfl⟩
    | cons t ts ih =>
      obtain ⟨shown, h1, h2⟩ := ih (fun t h => hu t (List.mem_cons_of_mem _ h)) fun t h => hs t (List.mem_cons_of_mem _ h)
      obtain ⟨hlen, hlt⟩ := hs t List.mem_cons_self
      have hfit := (line_fits round "    - Error: ".toList t.unit (norm t.rows (E t).1) (room t) (by
        have : "    - Error: ".toList.length = 13 := rfl
        unfold room; omega)).2 ⟨by unfold room; omega, round_room hr (norm_nonneg _ _) (102 - t.unit.length) (room t) (by unfold room; omega) hlt⟩
      obtain ⟨s, hsp⟩ := hfit
      have hse := sprintf_ok hsp
      refine ⟨fixed6 (round (norm t.rows (E t).1 * 1000000)) :: shown, List.Forall₂.cons (fixed6_shows round hr _ (norm_nonneg _ _)) h1, ?_⟩
      unfold kinLoop
      rw [hu t List.mem_cons_self]
      simp only [hsp, h2, hse, List.zipWith_cons_cons, List.flatten_cons]
      rw [kin_entry]
  obtain ⟨shown, h1, h2⟩ := key
  refine ⟨shown, h1, ?_⟩
  have e1 : "* Kinematics Tasks:\n".toList = "* Kinematics Tasks:".toList ++ ['\n'] := rfl
  have e2 : "\n".toList = ['\n'] := rfl
  unfold kinDump
  rw [h2, e1, e2]

/-- **C172, kinematics: exactly when the report ends.** Every task can be updated, its unit has at most 102 characters and the
integer part of its rounded error has at most `103 - (length of the unit)` digits. Otherwise the report stops with the error of the
task that cannot be updated, or writes out of its buffer of 128 characters. -/
theorem C172_exact (round : ℝ → Nat) (show_ : ℝ → List Char) (hasScaling : Bool) (scale : ℝ) (ts : List TaskInfo) :
    ((kinDump round show_ hasScaling scale ts).2 = none ↔ ∀ t ∈ ts, ∃ e, t.update = .ok e ∧ t.unit.length ≤ 102 ∧
      round (norm t.rows e.1 * 1000000) / 1000000 < 10 ^ (103 - t.unit.length)) ∧
    ∀ e, (kinDump round show_ hasScaling scale ts).2 = some e → e = .ub ∨ ∃ t ∈ ts, t.update = .error e := by
  show ((kinLoop round show_ ts).2 = none ↔ _) ∧ ∀ e, (kinLoop round show_ ts).2 = some e → _
  induction ts with
  | nil => exact ⟨⟨fun _ t h => absurd h List.not_mem_nil, fun _ => rfl⟩, fun e h => (by cases h)⟩
  | cons t ts ih =>
    obtain ⟨ih1, ih2⟩ := ih
    rw [List.forall_mem_cons]
    cases hu : t.update with
    | error e =>
      have hk : kinLoop round show_ (t :: ts) = ([], some e) := by rw [kinLoop, hu]
      rw [hk]
      refine ⟨⟨fun h => (by cases h), fun h => ?_⟩, fun e' h => ?_⟩
      · obtain ⟨⟨_, h, _⟩, _⟩ := h; cases h
      · cases h; exact Or.inr ⟨t, List.mem_cons_self, hu⟩
    | ok E =>
      obtain ⟨error, derror⟩ := E
      by_cases hlen : t.unit.length ≤ 103
      · have hfit := line_fits round "    - Error: ".toList t.unit (norm t.rows error) (103 - t.unit.length) (by
          have : "    - Error: ".toList.length = 13 := rfl
          omega)
        cases hsp : sprintf128 (errorLine round "    - Error: ".toList (norm t.rows error) t.unit) with
        | error e =>
          have hk : (kinLoop round show_ (t :: ts)).2 = some e := by simp only [kinLoop, hu, hsp]
          rw [hk]
          refine ⟨⟨fun h => (by cases h), fun h => ?_⟩, fun e' h => ?_⟩
          · obtain ⟨⟨_, h, h1, h2⟩, _⟩ := h
            cases h
            obtain ⟨s, hs⟩ := hfit.2 ⟨by omega, h2⟩
            rw [hsp] at hs; cases hs
          · cases h; exact Or.inl (sprintf_error hsp)
        | ok s =>
          have hk : (kinLoop round show_ (t :: ts)).2 = (kinLoop round show_ ts).2 := by simp only [kinLoop, hu, hsp]
          rw [hk, ih1]
          obtain ⟨h1, h2⟩ := hfit.1 ⟨s, hsp⟩
          refine ⟨⟨fun h => ⟨⟨_, rfl, by omega, h2⟩, h⟩, fun h => h.2⟩, fun e h => ?_⟩
          rcases ih2 e h with h | ⟨t', h, h'⟩
          · exact Or.inl h
          · exact Or.inr ⟨t', List.mem_cons_of_mem _ h, h'⟩
      · have hsp : sprintf128 (errorLine round "    - Error: ".toList (norm t.rows error) t.unit) = .error .ub := by
          unfold sprintf128
          rw [if_pos]
          unfold errorLine
          have : "    - Error: ".toList.length = 13 := rfl
          have h1 : " [".toList.length = 2 := rfl
          have h2 : "]\n".toList.length = 2 := rfl
          simp only [List.length_append, fixed6, List.length_cons, List.length_nil]
          omega
        have hk : (kinLoop round show_ (t :: ts)).2 = some .ub := by simp only [kinLoop, hu, hsp]
        rw [hk]
        refine ⟨⟨fun h => (by cases h), fun h => ?_⟩, fun e' h => ?_⟩
        · obtain ⟨⟨_, _, h1, _⟩, _⟩ := h; omega
        · cases h; exact Or.inl rfl

/-- **C172, dynamics: what the report is**, for tasks that are hard or soft: as for the kinematics, with the error of velocity. -/
theorem C172_dynamics (round : ℝ → Nat) (hr : Nearest round) (show_ : ℝ → List Char)
    (ts : List TaskInfo) (E : TaskInfo → (Nat → ℝ) × (Nat → ℝ)) (hu : ∀ t ∈ ts, t.update = .ok (E t))
    (hs : ∀ t ∈ ts, t.unit.length ≤ 100 ∧ norm t.rows (E t).1 < 10 ^ (101 - t.unit.length) ∧
      norm t.rows (E t).2 < 10 ^ (101 - t.unit.length)) :
    ∃ shown : List (List Char × List Char),
      List.Forall₂ (fun t l => Shows l.1 (norm t.rows (E t).1) ∧ Shows l.2 (norm t.rows (E t).2)) ts shown ∧
      dynDump round show_ ts =
        ("* Dynamics Tasks:\n".toList ++ (List.zipWith (fun t l => dynEntry show_ t l.1 l.2) ts shown).flatten, none) := by
  have key : ∃ shown : List (List Char × List Char),
      List.Forall₂ (fun t l => Shows l.1 (norm t.rows (E t).1) ∧ Shows l.2 (norm t.rows (E t).2)) ts shown ∧
      dynLoop round show_ ts = ((List.zipWith (fun t l => dynEntry show_ t l.1 l.2) ts shown).flatten, none) := by
    induction ts with
    | nil => exact ⟨[], List.Forall₂.nil, rfl⟩
    | cons t ts ih =>
      obtain ⟨shown, h1, h2⟩ := ih (fun t h => hu t (List.mem_cons_of_mem _ h)) fun t h => hs t (List.mem_cons_of_mem _ h)
      obtain ⟨hlen, hlt, hlt'⟩ := hs t List.mem_cons_self
      obtain ⟨s, hsp⟩ := (line_fits round "    - Error: ".toList t.unit (norm t.rows (E t).1) (103 - t.unit.length) (by
        have : "    - Error: ".toList.length = 13 := rfl
        omega)).2 ⟨by omega, round_room hr (norm_nonneg _ _) (102 - t.unit.length) _ (by omega) (lt_of_lt_of_le hlt
          (pow_le_pow_right₀ (by norm_num) (by omega)))⟩
      obtain ⟨s', hsp'⟩ := (line_fits round "    - DError: ".toList t.unit (norm t.rows (E t).2) (102 - t.unit.length) (by
        have : "    - DError: ".toList.length = 14 := rfl
        omega)).2 ⟨by omega, round_room hr (norm_nonneg _ _) (101 - t.unit.length) _ (by omega) hlt'⟩
      have hse := sprintf_ok hsp
      have hse' := sprintf_ok hsp'
      refine ⟨(fixed6 (round (norm t.rows (E t).1 * 1000000)), fixed6 (round (norm t.rows (E t).2 * 1000000))) :: shown,
        List.Forall₂.cons ⟨fixed6_shows round hr _ (norm_nonneg _ _), fixed6_shows round hr _ (norm_nonneg _ _)⟩ h1, ?_⟩
      unfold dynLoop
      rw [hu t List.mem_cons_self]
      simp only [hsp, hsp', h2, hse, hse', List.zipWith_cons_cons, List.flatten_cons]
      rw [dyn_entry]
  obtain ⟨shown, h1, h2⟩ := key
  refine ⟨shown, h1, ?_⟩
  have e1 : "* Dynamics Tasks:\n".toList = "* Dynamics Tasks:".toList ++ ['\n'] := rfl
  unfold dynDump
  rw [h2, e1]

/-- **C172, refuted (buffer).** A task in metres with a finite error of `10^200` metres (a target given as such): the report writes out
of its buffer. -/
theorem C172_refuted (round : ℝ → Nat) (hr : Nearest round) (show_ : ℝ → List Char) (hasScaling : Bool) (scale : ℝ) :
    ∃ t : TaskInfo, t.unit = "m".toList ∧ (∃ e, t.update = .ok e ∧ norm t.rows e.1 = 10 ^ 200) ∧
      (kinDump round show_ hasScaling scale [t]).2 = some .ub ∧ (dynDump round show_ [t]).2 = some .ub := by
  have hn : norm 1 (fun _ => (10 : ℝ) ^ 200) = 10 ^ 200 := by
    unfold norm
    rw [sum_range_one, Real.sqrt_sq (by positivity)]
  have hbig : ¬ round (norm 1 (fun _ => (10 : ℝ) ^ 200) * 1000000) / 1000000 < 10 ^ 102 := by
    rw [hn, Nat.div_lt_iff_lt_mul (by omega)]
    intro h
    have h1 := (abs_le.1 (hr (10 ^ 200 * 1000000) (by positivity))).1
    have h2 : (round (10 ^ 200 * 1000000) : ℝ) < 10 ^ 102 * 1000000 := by exact_mod_cast h
    have h3 : (10 : ℝ) ^ 102 * 1000000 + 1 < 10 ^ 200 * 1000000 := by norm_num
    generalize (round (10 ^ 200 * 1000000) : ℝ) = r at h1 h2
    generalize (10 : ℝ) ^ 200 * 1000000 = A at h1 h3
    generalize (10 : ℝ) ^ 102 * 1000000 = B at h2 h3
    linarith
  let t : TaskInfo := ⟨"head".toList, "position".toList, "m".toList, .soft, 1, 1, .ok (fun _ => 10 ^ 200, fun _ => 0)⟩
  have hnot : ¬ ∃ s, sprintf128 (errorLine round "    - Error: ".toList (norm 1 (fun _ => (10 : ℝ) ^ 200)) "m".toList) = .ok s := by
    rw [line_fits round "    - Error: ".toList "m".toList (norm 1 (fun _ => (10 : ℝ) ^ 200)) 102 rfl]
    exact fun h => hbig h.2
  have hsp : sprintf128 (errorLine round "    - Error: ".toList (norm 1 (fun _ => (10 : ℝ) ^ 200)) "m".toList) = .error .ub := by
    cases h : sprintf128 (errorLine round "    - Error: ".toList (norm 1 (fun _ => (10 : ℝ) ^ 200)) "m".toList) with
    | error e => rw [sprintf_error h]
    | ok s => exact absurd ⟨s, h⟩ hnot
  refine ⟨t, rfl, ⟨_, rfl, hn⟩, ?_, ?_⟩
  · show (kinLoop round show_ [t]).2 = _
    simp only [kinLoop, t, hsp]
  · show (dynLoop round show_ [t]).2 = _
    simp only [dynLoop, t, hsp]

/-- **C172, refuted (priority).** The report of the dynamics solver shows a scaled task as a soft one: both give the same report. -/
theorem C172_scaled_refuted (round : ℝ → Nat) (show_ : ℝ → List Char) (t : TaskInfo) (before after : List TaskInfo) :
    dynDump round show_ (before ++ { t with priority := .scaled } :: after) =
      dynDump round show_ (before ++ { t with priority := .soft } :: after) := by
  have : dynLoop round show_ (before ++ { t with priority := .scaled } :: after) =
      dynLoop round show_ (before ++ { t with priority := .soft } :: after) := by
    induction before with
    | nil => rfl
    | cons b before ih =>
      rw [List.cons_append, List.cons_append, dynLoop, dynLoop, ih]
  unfold dynDump
  rw [this]

/-- Rounding to nearest exists, and a task 0.25 m from its target is shown as such. -/
example : ∃ round : ℝ → Nat, Nearest round ∧ kinDump round (fun _ => "1".toList) false 0
      [⟨"head".toList, "position".toList, "m".toList, .soft, 1, 1, .ok (fun _ => 1 / 4, fun _ => 0)⟩] =
    ("* Kinematics Tasks:\n  * head [position]\n    - Priority: soft (weight:1)\n    - Error: 0.250000 [m]\n\n".toList, none) := by
  refine ⟨fun y => ⌊y + 1 / 2⌋₊, fun y hy => ?_, ?_⟩
  · have h1 := Nat.floor_le (a := y + 1 / 2) (by linarith)
    have h2 := Nat.lt_floor_add_one (y + 1 / 2)
    rw [abs_le]
    constructor <;> linarith
  · have hn : norm 1 (fun _ => (1 / 4 : ℝ)) = 1 / 4 := by
      unfold norm
      rw [sum_range_one, Real.sqrt_sq (by norm_num)]
    have hf : ⌊(1 / 4 : ℝ) * 1000000 + 1 / 2⌋₊ = 250000 := by
      rw [Nat.floor_eq_iff (by norm_num)]
      norm_num
    have h6 : fixed6 250000 = "0.250000".toList := by
      unfold fixed6
      rw [integer, if_pos (by omega)]
      decide
    have hl : errorLine (fun y => ⌊y + 1 / 2⌋₊) "    - Error: ".toList (1 / 4) "m".toList = "    - Error: 0.250000 [m]\n".toList := by
      unfold errorLine
      beta_reduce
      rw [hf, h6]
      rfl
    have hsp : sprintf128 "    - Error: 0.250000 [m]\n".toList = .ok "    - Error: 0.250000 [m]\n".toList := by decide +kernel
    unfold kinDump
    rw [kinLoop]
    simp only [hn, hl, hsp, kinLoop]
    rfl

end Verif.Tools.Status
