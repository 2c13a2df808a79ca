/-
Model of the conversion of Python sequences to `std::vector`.
  /repo/bindings/expose-utils.hpp 11-40, 57-67
Contracts of the libraries (not part of the repository): `PySequence_GetItem` returns a new reference, or NULL if the item cannot
be read; `extract<T>(PyObject*)` of boost borrows its argument and throws if the object cannot be converted; a vector whose
construction was not recorded in `data->convertible` is not destroyed.
-/
import Mathlib.Data.List.Count

namespace Verif.Bindings

/-- A Python object, by identity (the `PyObject*` of expose-utils.hpp 17, 25, 37). -/
abbrev Obj := Nat

/-- The argument given by the caller, as the functions of Python used in expose-utils.hpp 17-40 see it.
`size` is `none` when `__len__` raises; `items[i]` is `none` when the item cannot be read. Sizes from `2^31`, which do not fit in
`int l` (line 30), are not modelled. -/
structure PyArg where
  isSequence : Bool            -- `PySequence_Check`, line 21
  hasLen : Bool                -- `PyObject_HasAttrString(obj_ptr, "__len__")`, line 21
  size : Option Nat            -- `PySequence_Size`, line 30
  item : Nat → Option Obj      -- `PySequence_GetItem`, line 37

/-- What the call sees of the conversion, expose-utils.hpp 17-40. -/
inductive Converted (V : Type) where
  | refused            -- line 22: there is no conversion, boost raises a `TypeError`
  | aborted            -- lines 31-32: the process is stopped
  | undefined          -- line 37 on a NULL item
  | raised             -- line 37: `extract` throws
  | made (v : List V)  -- line 39
deriving DecidableEq

/-- The memory: how many references each Python object has, and how many vectors were built and cannot be destroyed any more.
Effects of expose-utils.hpp 28 and 37. -/
structure Heap where
  refs : Obj → Nat
  lost : Nat

/-- A new reference to the object, `PySequence_GetItem` in expose-utils.hpp 37. -/
def Heap.incref (h : Heap) (o : Obj) : Heap := { h with refs := fun x => if x = o then h.refs x + 1 else h.refs x }

/-- The loop `for (int i = 0; i < l; i++) v->push_back(extract<containedType>(PySequence_GetItem(obj_ptr, i)))` with `k`
iterations left, at index `i`; `v` is the vector so far. expose-utils.hpp 35-39. -/
def seqLoop {V : Type} (extract : Obj → Option V) (item : Nat → Option Obj) : Nat → Nat → List V → Heap → Heap × Converted V
  | 0, _, v, h => (h, .made v)
  | k + 1, i, v, h =>
    match item i with
    | none => (h, .undefined)
    | some o =>
      let h' := h.incref o
      match extract o with
      | none => ({ h' with lost := h'.lost + 1 }, .raised)
      | some x => seqLoop extract item k (i + 1) (v ++ [x]) h'

/-- `custom_vector_from_seq::convertible` followed by `construct`, expose-utils.hpp 17-40. -/
def vectorFromSeq {V : Type} (extract : Obj → Option V) (a : PyArg) (h : Heap) : Heap × Converted V :=
  if !a.isSequence || !a.hasLen then (h, .refused)
  else match a.size with
    | none => (h, .aborted)
    | some l => seqLoop extract a.item l 0 [] h

end Verif.Bindings
