/-
Properties C185 and C186 (problem level): the weight of a hard constraint has no effect, and a greater weight never makes the violation of
a soft constraint greater.
-/
import Verif.Problem.OrderProps

namespace Verif.Problem
open Finset

section
variable {K : Type} [Field K] [LinearOrder K] [IsStrictOrderedRing K]

/-- The constraint without the weight, if it is hard. -/
def Constr.strip (c : Constr K) : Constr K := if c.priority = .hard then { c with weight := 0 } else c

omit [LinearOrder K] [IsStrictOrderedRing K] in
theorem strip_cases (c : Constr K) : c.strip = c ∨ (c.priority = .hard ∧ c.strip = { c with weight := 0 }) := by
  unfold Constr.strip
  split
  · rename_i h
    exact .inr ⟨h, rfl⟩
  · exact .inl rfl

omit [IsStrictOrderedRing K] in
/-- The weights of hard constraints play no part in the quadratic program. -/
theorem assemble_strip (s : Settings K) (qr : Nat → EqSt K → QR K) (cs : List (Constr K)) :
    assemble s qr (cs.map Constr.strip) = assemble s qr cs := by
  have hsum : ∀ f : Constr K → Nat, (∀ c, f c.strip = f c) → ((cs.map Constr.strip).map f).sum = (cs.map f).sum := fun f hf => by
    rw [List.map_map]
    exact congrArg _ (List.map_congr_left fun c _ => hf c)
  have hfold : ∀ {β : Type} (f : β → Constr K → β) (b : β), (∀ b c, f b c.strip = f b c) → (cs.map Constr.strip).foldl f b = cs.foldl f b :=
    fun f b hf => by
      rw [List.foldl_map]
      congr 1
      funext b c
      exact hf b c
  have e1 : nSlack (cs.map Constr.strip) = nSlack cs := hsum _ fun c => by
    rcases strip_cases c with h | ⟨h, h'⟩
    · rw [h]
    · rw [h']; rfl
  have e2 : nEqualities (cs.map Constr.strip) = nEqualities cs := hsum _ fun c => by
    rcases strip_cases c with h | ⟨h, h'⟩
    · rw [h]
    · rw [h']; rfl
  have e3 : nInequalities (cs.map Constr.strip) = nInequalities cs := hsum _ fun c => by
    rcases strip_cases c with h | ⟨h, h'⟩
    · rw [h]
    · rw [h']
  have e4 : equalities (cs.map Constr.strip) = equalities cs := hfold _ _ fun b c => by
    rcases strip_cases c with h | ⟨h, h'⟩
    · rw [h]
    · rw [h']; rfl
  have e5 : equalitiesUB s.n (cs.map Constr.strip) = equalitiesUB s.n cs := by
    unfold equalitiesUB
    rw [List.any_map]
    congr 1
    funext c
    rcases strip_cases c with h | ⟨h, h'⟩
    · simp only [Function.comp, h]
    · simp only [Function.comp, h', Constr.hardEq]
  have e6 : (cs.map Constr.strip).mapM (checkConstr s.n) = cs.mapM (checkConstr s.n) := by
    rw [List.mapM_map]
    congr 1
    funext c
    rcases strip_cases c with h | ⟨h, h'⟩
    · simp only [Function.comp, h]
    · simp only [Function.comp, h', checkConstr]
  have e7 : ∀ red b, (cs.map Constr.strip).foldl (objStep s.n red s.useSparsity s.eps) b = cs.foldl (objStep s.n red s.useSparsity s.eps) b :=
    fun red b => hfold _ _ fun b c => by
      rcases strip_cases c with h | ⟨h, h'⟩
      · rw [h]
      · have : c.softEq = false := by simp [Constr.softEq, h]
        have h2 : c.strip.softEq = false := by rw [h']; simp [Constr.softEq, h]
        unfold objStep
        rw [this, h2]
        rfl
  have e8 : ∀ red free N b, (cs.map Constr.strip).foldl (ineqStep s.n red free N) b = cs.foldl (ineqStep s.n red free N) b :=
    fun red free N b => hfold _ _ fun b c => by
      rcases strip_cases c with h | ⟨h, h'⟩
      · rw [h]
      · rw [h']
        unfold ineqStep
        simp only [h, if_true]
  unfold assemble
  simp only [e1, e2, e3, e4, e5, e6, e7, e8]

/-- Two lists of constraints that differ by weights of hard constraints only. -/
def SameButHardWeights (cs cs' : List (Constr K)) : Prop :=
  List.Forall₂ (fun c c' => c' = { c with weight := c'.weight } ∧ (c.priority = .soft → c'.weight = c.weight)) cs cs'

omit [Field K] [LinearOrder K] [IsStrictOrderedRing K] in
theorem sameWeights_refl (l : List (Constr K)) : SameButHardWeights l l := by
  induction l with
  | nil => exact .nil
  | cons c l ih => exact .cons ⟨rfl, fun _ => rfl⟩ ih

omit [Field K] [LinearOrder K] [IsStrictOrderedRing K] in
theorem sameWeights_append {a a' b b' : List (Constr K)} (h : SameButHardWeights a a') (h' : SameButHardWeights b b') :
    SameButHardWeights (a ++ b) (a' ++ b') := by
  induction h with
  | nil => exact h'
  | cons hc _ ih => exact .cons hc ih

omit [LinearOrder K] [IsStrictOrderedRing K] in
theorem SameButHardWeights.strip {cs cs' : List (Constr K)} (h : SameButHardWeights cs cs') : cs'.map Constr.strip = cs.map Constr.strip := by
  induction h with
  | nil => rfl
  | @cons c c' _ _ hc _ ih =>
    rw [List.map_cons, List.map_cons, ih]
    congr 1
    obtain ⟨h1, h2⟩ := hc
    have hp : c'.priority = c.priority := by rw [h1]
    cases h : c.priority with
    | hard =>
      unfold Constr.strip
      rw [if_pos (hp.trans h), if_pos h, h1]
    | soft =>
      rw [h1, h2 h]

omit [IsStrictOrderedRing K] in
/-- **C185 (problem).** Weights of hard constraints have no effect: the same quadratic program is solved, with the same end. -/
theorem C185_problem (s : Settings K) (qr : Nat → EqSt K → QR K) (oracle : QP K → QPResult K) (tol : K) (cs cs' : List (Constr K))
    (h : SameButHardWeights cs cs') (st : PState K) : assemble s qr cs' = assemble s qr cs ∧ solve s qr oracle tol cs' st = solve s qr oracle tol cs st := by
  have e : assemble s qr cs' = assemble s qr cs := by
    rw [← assemble_strip s qr cs', h.strip, assemble_strip]
  have ei : initActive cs' = initActive cs := by
    clear e
    unfold initActive
    induction h with
    | nil => rfl
    | cons hc _ ih =>
      rw [List.map_cons, List.map_cons, ih]
      congr 1
      rw [hc.1]
  refine ⟨e, ?_⟩
  unfold solve
  rw [e, ei]

/-! ## C186: greater weights -/

/-- Two minimisers of `f + w g` and `f + w' g` for `w < w'`: the second has less `g`, and not less `f`. -/
theorem weight_tradeoff {α : Type} (S : α → Prop) (f g : α → K) {w w' : K} (hw : w < w') {x x' : α} (hx : S x) (hx' : S x')
    (hm : ∀ y, S y → f x + w * g x ≤ f y + w * g y) (hm' : ∀ y, S y → f x' + w' * g x' ≤ f y + w' * g y) :
    g x' ≤ g x ∧ (0 ≤ w → f x ≤ f x') := by
  have h1 := hm x' hx'
  have h2 := hm' x hx
  have hg : g x' ≤ g x := by
    by_contra h
    nlinarith [mul_pos (sub_pos.2 hw) (sub_pos.2 (not_le.1 h))]
  exact ⟨hg, fun h0 => by nlinarith [mul_nonneg h0 (sub_nonneg.2 hg)]⟩

/-- With a large weight the minimiser of `f + w g` nearly minimises `g`. -/
theorem weight_limit {α : Type} (S : α → Prop) (f g : α → K) {w : K} (hw : 0 < w) {x y : α} (hy : S y) (hf : 0 ≤ f x)
    (hm : ∀ y, S y → f x + w * g x ≤ f y + w * g y) : g x ≤ g y + f y / w := by
  have h1 := hm y hy
  have e : w * (g y + f y / w) = w * g y + f y := by field_simp
  refine le_of_mul_le_mul_left ?_ hw
  rw [e]
  linarith

/-- The squared error of a soft equality, the squared violation of a soft inequality. -/
def squaredViolation (x : Nat → K) (c : Constr K) : K :=
  match c.ty with
  | .equality => ∑ i ∈ range c.expr.rows, c.expr.rowVal x i ^ 2
  | .inequality => ∑ i ∈ range c.expr.rows, violation (c.expr.rowVal x i) ^ 2

omit [IsStrictOrderedRing K] in
theorem softPenalty_weight (x : Nat → K) (c : Constr K) (h : c.priority = .soft) (w : K) :
    softPenalty x { c with weight := w } = w * squaredViolation x c := by
  unfold softPenalty squaredViolation
  simp only [h]
  cases c.ty <;> simp only [mul_sum]

omit [IsStrictOrderedRing K] in
theorem specCost_weight (n : Nat) (reg : K) (a b : List (Constr K)) (c : Constr K) (h : c.priority = .soft) (w : K) (x : Nat → K) :
    specCost n reg (a ++ { c with weight := w } :: b) x = specCost n reg (a ++ b) x + w * squaredViolation x c := by
  unfold specCost
  rw [List.map_append, List.map_cons, List.sum_append, List.sum_cons, softPenalty_weight x c h, List.map_append, List.sum_append]
  ring

omit [IsStrictOrderedRing K] in
theorem hardSat_weight (a b : List (Constr K)) (c : Constr K) (h : c.priority = .soft) (w : K) (x : Nat → K) :
    HardSat (a ++ { c with weight := w } :: b) x ↔ HardSat (a ++ b) x := by
  unfold HardSat
  constructor
  · intro hx d hd
    exact hx d (by rcases List.mem_append.1 hd with hd | hd <;> simp [hd])
  · intro hx d hd hh
    rcases List.mem_append.1 hd with hd | hd
    · exact hx d (by simp [hd]) hh
    · rcases List.mem_cons.1 hd with rfl | hd
      · rw [show ({ c with weight := w } : Constr K).priority = c.priority from rfl, h] at hh
        cases hh
      · exact hx d (by simp [hd]) hh

/-- **C186 (problem).** Without `use_sparsity`. When the weight of a soft constraint is raised, the solution found violates it no more than
before, and the rest of the cost is no less. With a weight `w'`, the violation exceeds the one of any other admissible point by no more than
the rest of the cost of this point divided by `w'`. -/
theorem C186_problem (s : Settings K) (qr : Nat → EqSt K → QR K) (hs : s.useSparsity = false) (hreg : 0 ≤ s.regularization)
    (a b : List (Constr K)) (c : Constr K) (hc : c.priority = .soft) (w w' : K) (hw : 0 ≤ w) (hww : w < w')
    (hab : ∀ d ∈ a ++ b, d.priority = .soft → 0 ≤ d.weight) (qp qp' : QP K)
    (h : assemble s qr (a ++ { c with weight := w } :: b) = .ok qp) (h' : assemble s qr (a ++ { c with weight := w' } :: b) = .ok qp')
    (hqr : QRContract s qr (a ++ { c with weight := w } :: b)) (hqr' : QRContract s qr (a ++ { c with weight := w' } :: b))
    (v v' : Nat → K) (hv : qp.Feasible v) (hv' : qp'.Feasible v') (hm : ∀ u, qp.Feasible u → qp.cost v ≤ qp.cost u)
    (hm' : ∀ u, qp'.Feasible u → qp'.cost v' ≤ qp'.cost u) :
    let x := qp.recover s.n v
    let x' := qp'.recover s.n v'
    squaredViolation x' c ≤ squaredViolation x c ∧
    specCost s.n s.regularization (a ++ b) x ≤ specCost s.n s.regularization (a ++ b) x' ∧
    ∀ y, HardSat (a ++ b) y → squaredViolation x' c ≤ squaredViolation y c + specCost s.n s.regularization (a ++ b) y / w' := by
  intro x x'
  have hwt : ∀ w, 0 ≤ w → ∀ d ∈ a ++ { c with weight := w } :: b, d.priority = .soft → d.ty = .inequality → 0 ≤ d.weight := by
    intro w hw d hd h1 _
    rcases List.mem_append.1 hd with hd | hd
    · exact hab d (by simp [hd]) h1
    · rcases List.mem_cons.1 hd with rfl | hd
      · exact hw
      · exact hab d (by simp [hd]) h1
  obtain ⟨s1, o1⟩ := C15_optimum s qr _ qp hqr hs h (hwt w hw) v hv hm
  obtain ⟨s2, o2⟩ := C15_optimum s qr _ qp' hqr' hs h' (hwt w' (hw.trans hww.le)) v' hv' hm'
  have m1 : ∀ y, HardSat (a ++ b) y → specCost s.n s.regularization (a ++ b) x + w * squaredViolation x c ≤
      specCost s.n s.regularization (a ++ b) y + w * squaredViolation y c := fun y hy => by
    rw [← specCost_weight _ _ a b c hc w, ← specCost_weight _ _ a b c hc w]
    exact o1 y ((hardSat_weight a b c hc w y).2 hy)
  have m2 : ∀ y, HardSat (a ++ b) y → specCost s.n s.regularization (a ++ b) x' + w' * squaredViolation x' c ≤
      specCost s.n s.regularization (a ++ b) y + w' * squaredViolation y c := fun y hy => by
    rw [← specCost_weight _ _ a b c hc w', ← specCost_weight _ _ a b c hc w']
    exact o2 y ((hardSat_weight a b c hc w' y).2 hy)
  obtain ⟨t1, t2⟩ := weight_tradeoff (HardSat (a ++ b)) _ (fun y => squaredViolation y c) hww ((hardSat_weight a b c hc w x).1 s1)
    ((hardSat_weight a b c hc w' x').1 s2) m1 m2
  refine ⟨t1, t2 hw, fun y hy => weight_limit (HardSat (a ++ b)) _ (fun y => squaredViolation y c) (lt_of_le_of_lt hw hww) hy ?_ m2⟩
  unfold specCost
  refine add_nonneg (mul_nonneg hreg (sum_nonneg fun _ _ => sq_nonneg _)) (List.sum_nonneg fun z hz => ?_)
  obtain ⟨d, hd, rfl⟩ := List.mem_map.1 hz
  unfold softPenalty
  cases hp : d.priority with
  | hard => exact le_refl _
  | soft =>
    cases d.ty
    · exact sum_nonneg fun _ _ => mul_nonneg (hab d hd hp) (sq_nonneg _)
    · exact sum_nonneg fun _ _ => mul_nonneg (hab d hd hp) (sq_nonneg _)

end
end Verif.Problem
