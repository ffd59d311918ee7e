import Verif.Model.Py
import Mathlib.Analysis.SpecialFunctions.Trigonometric.Deriv
import Mathlib.Analysis.SpecialFunctions.ExpDeriv
import Mathlib.LinearAlgebra.Matrix.Notation
import Mathlib.Data.Fin.VecNotation

/-!
Model of the example models with real functions: `/repo/parallel_control/nonlinear_model_np.py`,
`/repo/parallel_control/nonlinear_model_tf.py`, and `upwind_model`, `upwind_model_block_V` of
`/repo/parallel_control/cnonlin_models_np.py` and `/repo/parallel_control/cnonlin_models_tf.py`.

Simplifications: real numbers; the TensorFlow functions are given for one time step, the batch axis is a map.
-/

namespace Verif

/-- `NonlinearModel.f(x, u)` with the step `dt`, `nonlinear_model_np.py:30-46`. -/
noncomputable def nlModelF (dt : ℝ) (x : Fin 4 → ℝ) (u : Fin 2 → ℝ) : Fin 4 → ℝ :=
  ![x 0 + x 3 * Real.cos (x 2) * dt,
    x 1 + x 3 * Real.sin (x 2) * dt,
    x 2 + u 1 * dt,
    x 3 + u 0 * dt]

/-- `NonlinearModel.Fx(x, u)`, `nonlinear_model_np.py:48-63`. -/
noncomputable def nlModelFx (dt : ℝ) (x : Fin 4 → ℝ) (_u : Fin 2 → ℝ) : Matrix (Fin 4) (Fin 4) ℝ :=
  !![1, 0, -x 3 * Real.sin (x 2) * dt, Real.cos (x 2) * dt;
     0, 1, x 3 * Real.cos (x 2) * dt, Real.sin (x 2) * dt;
     0, 0, 1, 0;
     0, 0, 0, 1]

/-- `NonlinearModel.Fu(x, u)`, `nonlinear_model_np.py:65-80`. -/
noncomputable def nlModelFu (dt : ℝ) (_x : Fin 4 → ℝ) (_u : Fin 2 → ℝ) : Matrix (Fin 4) (Fin 2) ℝ :=
  !![0, 0;
     0, 0;
     0, dt;
     dt, 0]

/-- `nonlinear_model_f(xs, us, dt)` for one time step, `nonlinear_model_tf.py:19-24`. -/
noncomputable def nlModelFTF (dt : ℝ) (x : Fin 4 → ℝ) (u : Fin 2 → ℝ) : Fin 4 → ℝ :=
  ![x 0 + x 3 * Real.cos (x 2) * dt,
    x 1 + x 3 * Real.sin (x 2) * dt,
    x 2 + u 1 * dt,
    x 3 + u 0 * dt]

/-- `nonlinear_model_Fx(xs, us, dt)` for one time step, `nonlinear_model_tf.py:26-43`: the columns are stacked along the last
axis. -/
noncomputable def nlModelFxTF (dt : ℝ) (x : Fin 4 → ℝ) (_u : Fin 2 → ℝ) : Matrix (Fin 4) (Fin 4) ℝ :=
  let d1 : Fin 4 → ℝ := ![1, 0, 0, 0]
  let d2 : Fin 4 → ℝ := ![0, 1, 0, 0]
  let d3 : Fin 4 → ℝ := ![-x 3 * Real.sin (x 2) * dt, x 3 * Real.cos (x 2) * dt, 1, 0]
  let d4 : Fin 4 → ℝ := ![Real.cos (x 2) * dt, Real.sin (x 2) * dt, 0, 1]
  fun i j => (![d1, d2, d3, d4] : Fin 4 → Fin 4 → ℝ) j i

/-- `nonlinear_model_Fu(xs, us, dt)` for one time step, `nonlinear_model_tf.py:45-54`. -/
noncomputable def nlModelFuTF (dt : ℝ) (_x : Fin 4 → ℝ) (_u : Fin 2 → ℝ) : Matrix (Fin 4) (Fin 2) ℝ :=
  let d1 : Fin 4 → ℝ := ![0, 0, 0, 1 * dt]
  let d2 : Fin 4 → ℝ := ![0, 0, 1 * dt, 0]
  fun i j => (![d1, d2] : Fin 2 → Fin 4 → ℝ) j i

/-- The dynamics of `upwind_model`, `cnonlin_models_np.py:88` and `cnonlin_models_tf.py:91`. -/
def upwindF (x u : ℝ) : ℝ := u * x

/-- The value of a boolean in arithmetic, `cnonlin_models_np.py:114-117`. -/
noncomputable def boolVal (p : Prop) [Decidable p] : ℝ := if p then 1 else 0

open Classical in
/-- `upwind_model_block_V(inf_value, block_dt, x_grid)`, `cnonlin_models_np.py:98-117`; rows are initial, columns final
states. -/
noncomputable def upwindBlockV {n : ℕ} (inf dt : ℝ) (grid : Fin n → ℝ) : Fin n → Fin n → ℝ := fun i k =>
  let x0 := grid i
  let xf := grid k
  let a := Real.exp dt
  let cond1 := boolVal (x0 > 0) * boolVal (xf ≥ x0) * boolVal (xf ≤ a * x0)
  let cond2 := boolVal (x0 ≤ 0) * boolVal (xf ≥ a * x0) * boolVal (xf ≤ x0)
  (1 - max cond1 cond2) * (inf * 1)

open Classical in
/-- `upwind_model_block_V(inf_value, block_dt, x_grid)`, `cnonlin_models_tf.py:101-121`. -/
noncomputable def upwindBlockVTF {n : ℕ} (inf dt : ℝ) (grid : Fin n → ℝ) : Fin n → Fin n → ℝ := fun i k =>
  let x0 := grid i
  let xf := grid k
  let a := Real.exp dt
  if ((x0 ≥ 0 ∧ xf ≥ x0) ∧ xf ≤ a * x0) ∨ ((x0 ≥ 0 ∧ xf ≥ a * x0) ∧ xf ≤ x0) then 0 else inf * 1

end Verif
