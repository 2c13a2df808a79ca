/-
Shared vocabulary of the models.
-/

namespace Verif

/-- Ways in which a call of the modelled code can fail to return a value.

* `qpError`      : `throw QPError(...)`        (`/repo/src/placo/problem/qp_error.h`)
* `runtimeError` : `throw std::runtime_error`
* `logicError`   : `throw std::logic_error`
* `outOfRange`   : `throw std::out_of_range` (e.g. `std::map::at`)
* `ub`           : C++ undefined behaviour: an out-of-range access or an Eigen
  operation on incompatible sizes (an assertion failure when Eigen's debug
  assertions are compiled in, an unchecked memory access otherwise). -/
inductive Err where
  | qpError
  | runtimeError
  | logicError
  | outOfRange
  | ub
  deriving DecidableEq, Repr

end Verif
