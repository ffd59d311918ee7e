import Verif.Model.Dare
import Verif.Model.Disc
import Mathlib.Analysis.SpecialFunctions.Pow.Real

/-!
Model of the notebook `/repo/notebooks/lqr_iter_demo.ipynb` (line numbers of the file).

Simplifications: exact real arithmetic; the Riccati solver of scipy is a parameter as in `Model/Dare.lean`; the plot is the
three lists it shows.
-/

namespace Verif

open Matrix

/-- `np.linalg.norm(A)` of a matrix: the Frobenius norm, `lqr_iter_demo.ipynb:158-159`. -/
noncomputable def frob {n m : ℕ} (A : Matrix (Fin n) (Fin m) ℝ) : ℝ := Real.sqrt (∑ i, ∑ j, A i j ^ 2)

/-- The cell that makes the state space model, `lqr_iter_demo.ipynb:74-96`. -/
noncomputable def lqrDemoModel : Py (LQR 4 2 ℝ) := do
  let dt : ℝ := 1
  let U : Matrix (Fin 2) (Fin 2) ℝ := (0.1 : ℝ) • 1
  let X : Matrix (Fin 4) (Fin 4) ℝ := diagonal ![1, 1, 0.01, 0.01]
  let F : Matrix (Fin 4) (Fin 4) ℝ := !![0, 0, 1, 0; 0, 0, 0, 1; 0, 0, 0, 0; 0, 0, 0, 0]
  let Qc : Matrix (Fin 2) (Fin 2) ℝ := diagonal ![1, 1]
  let L : Matrix (Fin 4) (Fin 2) ℝ := !![0, 0; 0, 0; 1, 0; 0, 1]
  let G : Matrix (Fin 4) (Fin 2) ℝ := !![0, 0; 0, 0; 1, 0; 0, 1]
  let FLQ ← ltiDiscU F L G (.mat Qc) dt
  return ⟨FLQ.1, FLQ.2.1, X, U, X⟩

/-- What the last cell shows: the lists `iter`, `err1`, `err2` and the printed `S0`, `lqr_iter_demo.ipynb:149-167`. -/
structure LQRDemo (n : ℕ) where
  iter : List ℕ
  err1 : List ℝ
  err2 : List ℝ
  S0 : Matrix (Fin n) (Fin n) ℝ

/-- The last cell, `lqr_iter_demo.ipynb:149-167`; the notebook has `N = 16`. -/
noncomputable def lqrDemoCell {n m : ℕ} (R : LQR n m ℝ) (are : DareSolver n m ℝ) (N : ℕ) : Py (LQRDemo n) := do
  let KS0 ← R.lqrDare are
  let rows ← (List.range N).mapM fun k => do
    let KS1 ← R.lqrIter (k + 1)
    let KS2 ← R.lqrDouble (k + 1)
    return (frob (KS1.2 - KS0.2), frob (KS2.2 - KS0.2), k + 1)
  return ⟨rows.map fun r => r.2.2, rows.map fun r => r.1, rows.map fun r => r.2.1, KS0.2⟩

/-- The whole notebook, `lqr_iter_demo.ipynb:34-167`. -/
noncomputable def lqrIterDemo (are : DareSolver 4 2 ℝ) : Py (LQRDemo 4) := do
  let R ← lqrDemoModel
  lqrDemoCell R are 16

end Verif
