import Verif.Model.LQR

/-!
Model of `LQR.lqrDare`, `/repo/parallel_control/lqt_np.py:335-345`.  Simplification: `linalg.solve_discrete_are` of scipy
is a parameter, a function from the four matrices to a matrix or an exception.
-/

namespace Verif

open Matrix

variable {n m : ℕ} {K : Type} [Field K] [LinearOrder K]

/-- The type of `linalg.solve_discrete_are(F, L, X, U)`, `lqt_np.py:342`. -/
abbrev DareSolver (n m : ℕ) (K : Type) : Type :=
  Matrix (Fin n) (Fin n) K → Matrix (Fin n) (Fin m) K → Matrix (Fin n) (Fin n) K → Matrix (Fin m) (Fin m) K →
    Py (Matrix (Fin n) (Fin n) K)

/-- `LQR.lqrDare`, `lqt_np.py:335-345`. -/
def LQR.lqrDare (R : LQR n m K) (are : DareSolver n m K) : Py (Matrix (Fin m) (Fin n) K × Matrix (Fin n) (Fin n) K) := do
  let S ← are R.F R.L R.X R.U
  let Kx ← R.gain S
  return (Kx, S)

end Verif
