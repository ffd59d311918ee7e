import Verif.Model.Py
import Mathlib.LinearAlgebra.Matrix.Adjugate
import Mathlib.LinearAlgebra.Matrix.Notation
import Mathlib.Algebra.Order.Field.Basic

/-!
The parts of `scipy.linalg` used in `/repo/parallel_control` (library code outside the repository), in exact
arithmetic over an ordered field.

Simplifications: no rounding.  `lu_factor` of a singular matrix only warns in scipy and the following
`lu_solve` gives `inf`/`nan` entries; here it is an error like that of `solve`.
-/

namespace Verif

variable {K : Type} [Field K] {ι κ : Type} [Fintype ι] [DecidableEq ι]

/-- Inverse of a matrix by Cramer's rule; stands for the result of a factorisation. -/
def minv (A : Matrix ι ι K) : Matrix ι ι K := A.det⁻¹ • A.adjugate

/-- `linalg.lu_factor(A)` (e.g. `lqt_np.py:31`): the factorisation is represented by the inverse. -/
def luFactor [DecidableEq K] (A : Matrix ι ι K) : Py (Matrix ι ι K) :=
  if A.det = 0 then .error .linAlgError else .ok (minv A)

/-- `linalg.lu_solve(f, B)` for a matrix right hand side (e.g. `lqt_np.py:32`). -/
def luSolve (f : Matrix ι ι K) (B : Matrix ι κ K) : Matrix ι κ K := f * B

/-- `linalg.lu_solve(f, b)` for a vector right hand side (e.g. `lqt_np.py:33`). -/
def luSolveV (f : Matrix ι ι K) (b : ι → K) : ι → K := Matrix.mulVec f b

/-- `linalg.solve(A, B)` for a matrix right hand side (e.g. `lqt_np.py:725`). -/
def solve [DecidableEq K] (A : Matrix ι ι K) (B : Matrix ι κ K) : Py (Matrix ι κ K) := do
  let f ← luFactor A
  return luSolve f B

/-- `linalg.solve(A, b)` for a vector right hand side (e.g. `lqt_np.py:722`). -/
def solveV [DecidableEq K] (A : Matrix ι ι K) (b : ι → K) : Py (ι → K) := do
  let f ← luFactor A
  return luSolveV f b

/-- `linalg.inv(A)` (e.g. `lqt_np.py:1184`). -/
def inv [DecidableEq K] (A : Matrix ι ι K) : Py (Matrix ι ι K) := luFactor A

/-- The symmetric matrix described by the upper triangle, the only part of its argument that
`linalg.cho_factor(A)` and `linalg.solve(A, b, assume_a='pos')` read (e.g. `lqt_np.py:631,723`). -/
def upperSym {n : ℕ} (A : Matrix (Fin n) (Fin n) K) : Matrix (Fin n) (Fin n) K :=
  Matrix.of fun i j => if i ≤ j then A i j else A j i

/-- Does the Cholesky factorisation of a symmetric matrix succeed: every pivot of the elimination is positive
(e.g. `lqt_np.py:631`). -/
def choPD [LinearOrder K] : {n : ℕ} → Matrix (Fin n) (Fin n) K → Bool
  | 0, _ => true
  | _ + 1, A => decide (0 < A 0 0) &&
      choPD (Matrix.of fun i j => A i.succ j.succ - A i.succ 0 * A 0 j.succ / A 0 0)

/-- `linalg.cho_factor(A)` (e.g. `lqt_np.py:631`): `LinAlgError` unless positive definite; the factorisation
is represented by the inverse. -/
def choFactor [LinearOrder K] {n : ℕ} (A : Matrix (Fin n) (Fin n) K) : Py (Matrix (Fin n) (Fin n) K) :=
  if choPD (upperSym A) then .ok (minv (upperSym A)) else .error .linAlgError

/-- `linalg.cho_solve(f, B)` for a matrix right hand side (e.g. `lqt_np.py:633`). -/
def choSolve (f : Matrix ι ι K) (B : Matrix ι κ K) : Matrix ι κ K := f * B

/-- `linalg.cho_solve(f, b)` for a vector right hand side (e.g. `lqt_np.py:636`). -/
def choSolveV (f : Matrix ι ι K) (b : ι → K) : ι → K := Matrix.mulVec f b

/-- `linalg.solve(A, B, assume_a='pos')` (e.g. `lqt_np.py:723`). -/
def solvePos [LinearOrder K] {n : ℕ} (A : Matrix (Fin n) (Fin n) K) (B : Matrix (Fin n) κ K) :
    Py (Matrix (Fin n) κ K) := do
  let f ← choFactor A
  return choSolve f B

end Verif
