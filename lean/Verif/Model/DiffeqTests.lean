import Verif.Model.Diffeq
import Mathlib.Analysis.SpecialFunctions.Exponential
import Mathlib.Analysis.Normed.Algebra.MatrixExponential
import Mathlib.Data.Fin.VecNotation

/-!
Model of `/repo/tests/test_diffeq_np.py`: the unit tests of the Runge-Kutta integrator for
`dx/dt = -c x` and `dx/dt = F x`.

Simplifications: exact real arithmetic; `np.exp` and `linalg.expm` are the exponentials of numbers and
matrices; a test function returns the conjunction of
the conditions it asserts, or the exception raised on the way.  The data of the tests (`c`, `x0`, `dt`, `steps`, the
tolerance) are parameters.
-/

namespace Verif

/-- `for k in range(steps): x1 = rk4(f, dt, x1)`, `test_diffeq_np.py:30-32,61-63,83-85`. -/
def rk4Loop {X K : Type} [Field K] [AddCommGroup X] [Module K X] (f : X → Py X) (dt : K) : ℕ → X → Py X
  | 0, x => .ok x
  | steps + 1, x => do
    let x1 ← rk4 f dt x
    rk4Loop f dt steps x1

/-- `for k in range(steps): x1 = rk4(f, dt, x1, param=c)`, `test_diffeq_np.py:105-107`. -/
def rk4PLoop {X P K : Type} [Field K] [AddCommGroup X] [Module K X] (f : X → P → Py X) (dt : K) (param : P) :
    ℕ → X → Py X
  | 0, x => .ok x
  | steps + 1, x => do
    let x1 ← rk4P f dt x param
    rk4PLoop f dt param steps x1

/-- `test_rk4_1`, `test_diffeq_np.py:15-35`; there `c = 0.5`, `x0 = 0.7`, `dt = 0.1`, `steps = 10`, `tol = 1e-5`. -/
noncomputable def rkTest1 (c x0 dt tol : ℝ) (steps : ℕ) : Py Prop := do
  let f : ℝ → Py ℝ := fun x => .ok (-c * x)
  let x1 ← rk4 f dt x0
  let x2 := x0 * Real.exp (-c * dt)
  let y1 ← rk4Loop f (1 / (steps : ℝ)) steps x0
  let y2 := x0 * Real.exp (-c * 1)
  return |x2 - x1| < tol ∧ |y2 - y1| < tol

/-- `F`, `test_diffeq_np.py:56`. -/
noncomputable def rkTestF : Matrix (Fin 3) (Fin 3) ℝ := !![0, 1, 0; 0, 0, 1; -1 / 10, -2 / 10, -3 / 10]

/-- `test_rk4_3`, `test_diffeq_np.py:54-66`; there `F` is `rkTestF`, `x0 = [1, 2, 3]`, `steps = 10`, `tol = 1e-5`. -/
noncomputable def rkTest3 {n : ℕ} (F : Matrix (Fin n) (Fin n) ℝ) (x0 : Fin n → ℝ) (tol : ℝ) (steps : ℕ) : Py Prop := do
  let x1 ← rk4Loop (fun x => .ok (F.mulVec x)) (1 / (steps : ℝ)) steps x0
  let x2 := (NormedSpace.exp ((1 : ℝ) • F)).mulVec x0
  return Real.sqrt (∑ i, (x2 i - x1 i) ^ 2) < tol

/-- `test_rk4_4`, `test_diffeq_np.py:68-88`. -/
noncomputable def rkTest4 (c x0 dt tol : ℝ) (steps : ℕ) : Py Prop := do
  let f : ℝ → Py ℝ := fun x => .ok (-c * x)
  let x1 ← rk4 f (-dt) x0
  let x2 := x0 * Real.exp (-c * 0 + c * dt)
  let y1 ← rk4Loop f (-(1 / (steps : ℝ))) steps x0
  let y2 := x0 * Real.exp (-c * 0 + c * 1)
  return |x2 - x1| < tol ∧ |y2 - y1| < tol

/-- `test_rk4_5`, `test_diffeq_np.py:90-110`. -/
noncomputable def rkTest5 (c x0 dt tol : ℝ) (steps : ℕ) : Py Prop := do
  let f : ℝ → ℝ → Py ℝ := fun x c => .ok (-c * x)
  let x1 ← rk4P f dt x0 c
  let x2 := x0 * Real.exp (-c * dt)
  let y1 ← rk4PLoop f (1 / (steps : ℝ)) c steps x0
  let y2 := x0 * Real.exp (-c * 1)
  return |x2 - x1| < tol ∧ |y2 - y1| < tol

end Verif
