/-!
Python run-time conventions shared by all models.

Exceptions are values: a Python function that may raise is modelled as a function into `Py`.
-/

namespace Verif

/-- The exception classes raised (directly or through numpy/scipy/math) by the modelled code. -/
inductive PyErr
  /-- `ValueError`: explicit `raise ValueError(..)` in the `checkAndExpand` constructors
  (`fsc_np.py:139`, `lqt_np.py:445-603`) and `math.log2(0)` in `my_assoc_scan.py:28`. -/
  | valueError
  /-- `IndexError`: subscripting past the end of a list, e.g. `self.f[0]` with an empty list. -/
  | indexError
  /-- `scipy.linalg.LinAlgError`: a singular system given to a solver. -/
  | linAlgError
  /-- `ZeroDivisionError`, e.g. `T % 0`. -/
  | zeroDivisionError
  /-- `TypeError`, e.g. `None @ x`. -/
  | typeError
  /-- `KeyError`, dictionary lookup of a missing key. -/
  | keyError
  /-- `UnboundLocalError`: a local variable read before its assignment, e.g. `bx_list` after a loop without iterations
  (`parareal_clqt_np.py:322`). -/
  | unboundLocalError
  /-- Not an exception: a jax or TensorFlow computation gave `nan` or `inf`, e.g. `jnp.linalg.solve` with a singular matrix
  (`sqp_np.py:32`). -/
  | notFinite
  deriving DecidableEq, Repr

/-- Result of a Python call that may raise. -/
abbrev Py := Except PyErr

end Verif
