import Verif.Model.LQTTests
import Verif.Model.Disc
import Verif.Model.NLQT

/-!
Model of `/repo/tests/test_disc.py` and of `test_linearize` and `test_simulate` of `/repo/tests/test_nlqt_np.py`.

Simplifications: exact real arithmetic; the noise density, the step length, the nonlinear model, the tracker and the
nominal trajectory are parameters; a test function returns the conjunction of the conditions it asserts, or the exception
raised on the way.
-/

namespace Verif

open Matrix

/-- `F`, `test_disc.py:16,31`. -/
def discTestF : Matrix (Fin 2) (Fin 2) ℝ := !![0, 1; 0, 0]

/-- `L`, `test_disc.py:18,33`. -/
def discTestL : Matrix (Fin 2) (Fin 1) ℝ := !![0; 1]

/-- `G`, `test_disc.py:34`. -/
def discTestG : Matrix (Fin 2) (Fin 1) ℝ := !![0; 2]

/-- `A1`, `test_disc.py:23,39`. -/
def discTestA1 (dt : ℝ) : Matrix (Fin 2) (Fin 2) ℝ := !![1, dt; 0, 1]

/-- `Q1`, `test_disc.py:24,41`. -/
noncomputable def discTestQ1 (Qc dt : ℝ) : Matrix (Fin 2) (Fin 2) ℝ :=
  Qc • !![dt ^ 3 / 3, dt ^ 2 / 2; dt ^ 2 / 2, dt]

/-- `test_lti_disc`, `test_disc.py:15-27`; there `Qc = 0.1`, `dt = 2`. -/
noncomputable def discTest (Qc dt : ℝ) : Py Prop := do
  let r ← ltiDisc discTestF discTestL (.scalar Qc) dt
  return normDiffM r.1 (discTestA1 dt) < testTol ∧ normDiffM r.2 (discTestQ1 Qc dt) < testTol

/-- `test_lti_disc_u`, `test_disc.py:30-45`; there `Qc = 0.1`, `dt = 0.5`. -/
noncomputable def discTestU (Qc dt : ℝ) : Py Prop := do
  let r ← ltiDiscU discTestF discTestL discTestG (.scalar Qc) dt
  return normDiffM r.1 (discTestA1 dt) < testTol ∧ normDiffM r.2.1 !![dt ^ 2; 2 * dt] < testTol ∧
    normDiffM r.2.2 (discTestQ1 Qc dt) < testTol

variable {n m : ℕ}

/-- One assertion of `test_linearize`, `test_nlqt_np.py:54,55`. -/
noncomputable def nlqtTestLinAt (M : NModel n m ℝ) (P : LQT n m ℝ) (us : List (Fin m → ℝ)) (xs : List (Fin n → ℝ))
    (k : ℕ) : Py Prop := do
  let s ← pyGet P.stages k
  let x ← pyGet xs k
  let u ← pyGet us k
  return normDiff (s.F *ᵥ x + s.c + s.L *ᵥ u) (M.f x u) < testTol

/-- `test_linearize`, `test_nlqt_np.py:45-55`. -/
noncomputable def nlqtTestLin (M : NModel n m ℝ) (P : LQT n m ℝ) (us : List (Fin m → ℝ)) (xs : List (Fin n → ℝ)) :
    Py Prop := do
  let P ← M.linearize P us xs
  let c0 ← nlqtTestLinAt M P us xs 0
  let c1 ← nlqtTestLinAt M P us xs 1
  return c0 ∧ c1

/-- `test_simulate`, `test_nlqt_np.py:57-60`; the states of the test have one entry, here the norm is used. -/
noncomputable def nlqtTestSim (M : NModel n m ℝ) (us : List (Fin m → ℝ)) (xs : List (Fin n → ℝ)) : Py Prop := do
  let x ← pyGet xs 0
  let x2 := M.simulate x us
  let y1 ← pyGet x2 1
  let y0 ← pyGet x2 0
  let u0 ← pyGet us 0
  return normDiff y1 (M.f y0 u0) < testTol

end Verif
