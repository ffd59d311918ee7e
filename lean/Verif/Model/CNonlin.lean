import Verif.Model.HJB
import Verif.Model.ExamplesReal

/-!
Model of `linear_model`, `velocity_model`, `upwind_model` of `/repo/parallel_control/cnonlin_models_np.py` and
`/repo/parallel_control/cnonlin_models_tf.py`.

Simplifications: elements of a field instead of floating point numbers; the numbers of grid points are natural numbers.
-/

namespace Verif

variable {K : Type}

/-- The result of the model functions, `cnonlin_models_np.py:39` (also 70, 96) and `cnonlin_models_tf.py:38` (also 72, 99). -/
structure CModel (n m : ℕ) (K : Type) where
  f : K → K → K
  L : K → K → K
  LT : K → K
  T : K
  x_grid : Fin n → K
  u_grid : Fin m → K

/-- `jnp.linspace(start, stop, num)`, `cnonlin_models_np.py:35-36`; a single point is `start`. -/
def linspace [Field K] (start stop : K) (num : ℕ) : Fin num → K := fun i => start + (i : ℕ) * ((stop - start) / ((num - 1 : ℕ) : K))

/-- `tf.linspace(start, stop, num)`, `cnonlin_models_tf.py:34-35`; at least one point is required. -/
def tfLinspace [Field K] (start stop : K) (num : ℕ) : Py (Fin num → K) :=
  if num = 0 then .error .valueError
  else .ok fun i => if num = 1 then start else start + (stop - start) / ((num : K) - 1) * (i : ℕ)

/-- `linear_model(x_grid_steps, u_grid_steps)`, `cnonlin_models_np.py:13-39`. -/
def linearModel [Field K] (n m : ℕ) : CModel n m K :=
  let X : K := 1
  let U : K := 1
  let XT : K := 2
  { f := fun x u => x + u
    L := fun x u => 1 / 2 * X * x ^ 2 + 1 / 2 * U * u ^ 2
    LT := fun x => 1 / 2 * XT * x ^ 2
    T := 1
    x_grid := linspace (-2) 2 n
    u_grid := linspace (-2) 2 m }

/-- `velocity_model(x_grid_steps, u_grid_steps)`, `cnonlin_models_np.py:42-70`. -/
def velocityModel [Field K] (n m : ℕ) : CModel n m K :=
  let beta : K := 1 / 10
  let X : K := 1
  let U : K := 1
  let XT : K := 4
  { f := fun x u => 1 - beta * x ^ 2 + u
    L := fun x u => 1 / 2 * X * x ^ 2 + 1 / 2 * U * u ^ 2
    LT := fun x => 1 / 2 * XT * x ^ 2
    T := 1
    x_grid := linspace (-3) 3 n
    u_grid := linspace (-2) 2 m }

/-- `upwind_model(x_grid_steps, u_grid_steps)`, `cnonlin_models_np.py:72-96`. -/
def upwindModel [Field K] (n m : ℕ) : CModel n m K where
  f := fun x u => u * x
  L := fun _ _ => 0
  LT := fun x => -x
  T := 1
  x_grid := linspace (-1) 1 n
  u_grid := linspace 0 1 m

/-- `linear_model(x_grid_steps, u_grid_steps)`, `cnonlin_models_tf.py:9-38`. -/
def linearModelTF [Field K] (n m : ℕ) : Py (CModel n m K) := do
  let X : K := 1
  let U : K := 1
  let XT : K := 2
  let f := fun x u : K => x + u
  let L := fun x u : K => 1 / 2 * X * x ^ 2 + 1 / 2 * U * u ^ 2
  let LT := fun x : K => 1 / 2 * XT * x ^ 2
  let x_grid ← tfLinspace (-2) 2 n
  let u_grid ← tfLinspace (-2) 2 m
  return ⟨f, L, LT, 1, x_grid, u_grid⟩

/-- `velocity_model(x_grid_steps, u_grid_steps)`, `cnonlin_models_tf.py:41-72`. -/
def velocityModelTF [Field K] (n m : ℕ) : Py (CModel n m K) := do
  let beta : K := 1 / 10
  let X : K := 1
  let U : K := 1
  let XT : K := 4
  let f := fun x u : K => 1 - beta * x ^ 2 + u
  let L := fun x u : K => 1 / 2 * X * x ^ 2 + 1 / 2 * U * u ^ 2
  let LT := fun x : K => 1 / 2 * XT * x ^ 2
  let x_grid ← tfLinspace (-3) 3 n
  let u_grid ← tfLinspace (-2) 2 m
  return ⟨f, L, LT, 1, x_grid, u_grid⟩

/-- `upwind_model(x_grid_steps, u_grid_steps)`, `cnonlin_models_tf.py:75-99`. -/
def upwindModelTF [Field K] (n m : ℕ) : Py (CModel n m K) := do
  let f := fun x u : K => u * x
  let L := fun _ _ : K => (0 : K)
  let LT := fun x : K => -x
  let x_grid ← tfLinspace (-1) 1 n
  let u_grid ← tfLinspace 0 1 m
  return ⟨f, L, LT, 1, x_grid, u_grid⟩

/-- `HJB_Grid_1d(f, L, LT, T, blocks, steps, fd_x_grid)` for a model, `hjb_grid_1d_np.py:301-319`. -/
def CModel.hjb {n m : ℕ} (M : CModel n m K) (blocks steps : ℕ) : HJB n K where
  f := M.f
  L := M.L
  LT := M.LT
  T := M.T
  blocks := blocks
  steps := steps
  grid := M.x_grid

end Verif
