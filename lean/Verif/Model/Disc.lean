import Verif.Model.Py
import Mathlib.Analysis.Normed.Algebra.MatrixExponential
import Mathlib.Data.Matrix.Block
import Mathlib.Data.Real.Basic

/-!
Model of `/repo/parallel_control/disc.py`: discretisation of linear time invariant systems.

Simplifications: real numbers; `scipy.linalg.expm` is the matrix exponential; the shapes of `F`, `L`, `G` and of a matrix
`Qc` match.  `Phi` and `Psi` take the dtype of `F` (lines 32, 72): with an integer `F` the entries of `L @ Qc @ L.T` and
`G` would be truncated, here all arrays are real.
-/

namespace Verif

open Matrix

variable {n m p : ℕ}

/-- The argument `Qc` of `lti_disc`: absent, a scalar or a matrix, `disc.py:11,28-31`. -/
inductive NoiseArg (p : ℕ) where
  | none
  | scalar (q : ℝ)
  | mat (Q : Matrix (Fin p) (Fin p) ℝ)

/-- The expanded `Qc`, `disc.py:28-31`; for a scalar the product `L @ Qc` of line 34 raises unless `L` has one column. -/
noncomputable def NoiseArg.expand : NoiseArg p → Py (Matrix (Fin p) (Fin p) ℝ)
  | .none => .ok 1
  | .scalar q => if p = 1 then .ok (fun _ _ => q) else .error .valueError
  | .mat Q => .ok Q

/-- `lti_disc(F, L, Qc, dt)`, `disc.py:11-43`. -/
noncomputable def ltiDisc (F : Matrix (Fin n) (Fin n) ℝ) (L : Matrix (Fin n) (Fin p) ℝ) (Qc : NoiseArg p) (dt : ℝ) :
    Py (Matrix (Fin n) (Fin n) ℝ × Matrix (Fin n) (Fin n) ℝ) := do
  let Qc ← Qc.expand
  let Phi : Matrix (Fin n ⊕ Fin n) (Fin n ⊕ Fin n) ℝ := fromBlocks F (L * Qc * Lᵀ) 0 (-Fᵀ)
  let EPhi := NormedSpace.exp (dt • Phi)
  let A := EPhi.toBlocks₁₁
  let Q := EPhi.toBlocks₁₂ * Aᵀ
  return (A, Q)

/-- `lti_disc_u(F, L, G, Qc, dt)`, `disc.py:45-79`. -/
noncomputable def ltiDiscU (F : Matrix (Fin n) (Fin n) ℝ) (L : Matrix (Fin n) (Fin p) ℝ) (G : Matrix (Fin n) (Fin m) ℝ)
    (Qc : NoiseArg p) (dt : ℝ) :
    Py (Matrix (Fin n) (Fin n) ℝ × Matrix (Fin n) (Fin m) ℝ × Matrix (Fin n) (Fin n) ℝ) := do
  let AQ ← ltiDisc F L Qc dt
  let Psi : Matrix (Fin n ⊕ Fin m) (Fin n ⊕ Fin m) ℝ := fromBlocks F G 0 0
  let EPsi := NormedSpace.exp (dt • Psi)
  let B := EPsi.toBlocks₁₂
  return (AQ.1, B, AQ.2)

/-- `lti_disc_u(F, L, None, Qc, dt)`: the default for `G`, `disc.py:67-68`. -/
noncomputable def ltiDiscUDefault (F : Matrix (Fin n) (Fin n) ℝ) (L : Matrix (Fin n) (Fin p) ℝ) (Qc : NoiseArg p) (dt : ℝ) :
    Py (Matrix (Fin n) (Fin n) ℝ × Matrix (Fin n) (Fin n) ℝ × Matrix (Fin n) (Fin n) ℝ) :=
  ltiDiscU F L (1 : Matrix (Fin n) (Fin n) ℝ) Qc dt

end Verif
