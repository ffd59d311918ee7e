import Verif.Model.CLQTTensor
import Verif.Model.HJBTensor
import Mathlib.Analysis.SpecialFunctions.Trigonometric.Basic

/-!
Model of `/repo/parallel_control/linear_model_tf.py` and `/repo/parallel_control/cnonlin_models_tf.py` operation by operation on tensors.
The functional models of the same files are `Verif.Model.TrackModels`, `Verif.Model.CNonlin` and `Verif.Model.ExamplesReal`.

Simplifications: elements of a field or real numbers instead of floating point numbers; scalar tensors that are used only as numbers are
numbers, so that the product of a scalar and a tensor is a map; the rows of a constant matrix have equal length.
-/

namespace Verif

variable {K : Type}

/-- `tf.constant([..])` and `tf.stack([..])` of scalars, `linear_model_tf.py:44-47,51-64,67-68`. -/
def Tens.ofList [Zero K] (l : List K) : Tens K := ⟨[l.length], fun i => l.getD (i.getD 0 0) 0⟩

/-- `tf.constant([[..], ..])`, `linear_model_tf.py:29,34-41`. -/
def Tens.ofRows [Zero K] (l : List (List K)) : Tens K :=
  ⟨[l.length, (l.headD []).length], fun i => (l.getD (i.getD 0 0) []).getD (i.getD 1 0) 0⟩

/-- `cx`, `linear_model_tf.py:44-45`. -/
noncomputable def tensCx : Tens ℝ := Tens.ofList [5.7770, -2.6692, 1.1187, 0.1379, 0.5718, 1.1214, 0.2998, 0.3325, 0.7451, 0.2117, 0.6595,
  0.0401, -0.2995]

/-- `cy`, `linear_model_tf.py:46-47`. -/
noncomputable def tensCy : Tens ℝ := Tens.ofList [4.3266, -1.4584, -1.2457, 1.1804, 0.2035, 0.5123, 1.0588, 0.2616, -0.6286, -0.3802, 0.2750,
  -0.0070, -0.0022]

/-- One item of the stack of `r_f`, `linear_model_tf.py:51-57` and `58-64`. -/
noncomputable def tensRef (c : Tens ℝ) (a t : ℝ) : ℝ :=
  c.val [0] +
  c.val [1] * Real.cos (1 * a * t) + c.val [2] * Real.sin (1 * a * t) +
  c.val [3] * Real.cos (2 * a * t) + c.val [4] * Real.sin (2 * a * t) +
  c.val [5] * Real.cos (3 * a * t) + c.val [6] * Real.sin (3 * a * t) +
  c.val [7] * Real.cos (4 * a * t) + c.val [8] * Real.sin (4 * a * t) +
  c.val [9] * Real.cos (5 * a * t) + c.val [10] * Real.sin (5 * a * t) +
  c.val [11] * Real.cos (6 * a * t) + c.val [12] * Real.sin (6 * a * t)

/-- `get_clqt()`, `linear_model_tf.py:15-70`: the initial state, the terminal cost with the final time, and the functions of time. -/
noncomputable def tensGetClqt : Tens ℝ × TensFinal ℝ × TensCLQT ℝ :=
  let U_f := fun _ : ℝ => (Tens.eye2 2 : Tens ℝ).map (0.1 * ·)
  let H_f := fun _ : ℝ => Tens.ofRows [[1, 0, 0, 0], [0, 1, 0, 0]]
  let HT := (Tens.eye2 4 : Tens ℝ)
  let X_f := fun _ : ℝ => (Tens.eye2 2 : Tens ℝ).map (1 * ·)
  let XT := (Tens.eye2 4 : Tens ℝ).map (1 * ·)
  let F_f := fun _ : ℝ => Tens.ofRows [[0, 0, 1, 0], [0, 0, 0, 1], [0, 0, 0, 0], [0, 0, 0, 0]]
  let L_f := fun _ : ℝ => Tens.ofRows [[0, 0], [0, 0], [1, 0], [0, 1]]
  let c_f := fun _ : ℝ => Tens.const [4] 0
  let a := 2 * Real.pi / 50
  let r_f := fun t : ℝ => Tens.ofList [tensRef tensCx a t, tensRef tensCy a t]
  (Tens.ofList [5, 5, 0, 0], ⟨XT, HT, Tens.ofList [4.9514, 4.4353, 0, 0], 50⟩, ⟨F_f, L_f, X_f, U_f, c_f, H_f, r_f⟩)

/-- The result of the model functions, `cnonlin_models_tf.py:38` (also 72, 99). -/
structure TensModel (K : Type) where
  f : TensFun K
  L : TensFun K
  LT : Tens K → Py (Tens K)
  T : K
  x_grid : Tens K
  u_grid : Tens K

/-- `tf.linspace(start, stop, num)`, `cnonlin_models_tf.py:34-35,68-69,95-96`; at least one point is required. -/
def Tens.linspace [Field K] (start stop : K) (num : ℕ) : Py (Tens K) :=
  if num = 0 then .error .valueError
  else .ok ⟨[num], fun i => if num = 1 then start else start + (stop - start) / ((num : K) - 1) * (i.getD 0 0 : ℕ)⟩

/-- `linear_model(x_grid_steps, u_grid_steps)`, `cnonlin_models_tf.py:9-38`. -/
def tensLinearModel [Field K] (n m : ℕ) : Py (TensModel K) := do
  let X : K := 1
  let U : K := 1
  let XT : K := 2
  let f := fun x u : Tens K => x.bin (· + ·) u
  let L := fun x u : Tens K => (x.map fun v => 1 / 2 * X * v ^ 2).bin (· + ·) (u.map fun v => 1 / 2 * U * v ^ 2)
  let LT := fun x : Tens K => (.ok (x.map fun v => 1 / 2 * XT * v ^ 2) : Py (Tens K))
  let x_grid ← Tens.linspace (-2) 2 n
  let u_grid ← Tens.linspace (-2) 2 m
  return ⟨f, L, LT, 1, x_grid, u_grid⟩

/-- `velocity_model(x_grid_steps, u_grid_steps)`, `cnonlin_models_tf.py:41-72`. -/
def tensVelocityModel [Field K] (n m : ℕ) : Py (TensModel K) := do
  let beta : K := 1 / 10
  let X : K := 1
  let U : K := 1
  let XT : K := 4
  let f := fun x u : Tens K => ((x.map fun v => v ^ 2).map fun v => 1 - beta * v).bin (· + ·) u
  let L := fun x u : Tens K => (x.map fun v => 1 / 2 * X * v ^ 2).bin (· + ·) (u.map fun v => 1 / 2 * U * v ^ 2)
  let LT := fun x : Tens K => (.ok (x.map fun v => 1 / 2 * XT * v ^ 2) : Py (Tens K))
  let x_grid ← Tens.linspace (-3) 3 n
  let u_grid ← Tens.linspace (-2) 2 m
  return ⟨f, L, LT, 1, x_grid, u_grid⟩

/-- `upwind_model(x_grid_steps, u_grid_steps)`, `cnonlin_models_tf.py:75-99`; the running cost is a scalar tensor whatever the shapes of the
arguments are, line 92. -/
def tensUpwindModel [Field K] (n m : ℕ) : Py (TensModel K) := do
  let f := fun x u : Tens K => u.bin (· * ·) x
  let L := fun _ _ : Tens K => (.ok (Tens.const [] 0) : Py (Tens K))
  let LT := fun x : Tens K => (.ok (x.map fun v => -v) : Py (Tens K))
  let x_grid ← Tens.linspace (-1) 1 n
  let u_grid ← Tens.linspace 0 1 m
  return ⟨f, L, LT, 1, x_grid, u_grid⟩

/-- `tf.where(c, a, b)` for tensors of one shape, `cnonlin_models_tf.py:121`. -/
def Tens.whereT (c : Tens Bool) (a b : Tens K) : Py (Tens K) :=
  if c.shape = a.shape ∧ c.shape = b.shape then .ok ⟨c.shape, fun i => if c.val i = true then a.val i else b.val i⟩ else .error .valueError

open Classical in
/-- `upwind_model_block_V(inf_value, block_dt, x_grid)`, `cnonlin_models_tf.py:101-121`. -/
noncomputable def tensUpwindBlockV (inf_value block_dt : ℝ) (x_grid : Tens ℝ) : Py (Tens ℝ) := do
  let (xf_mesh, x0_mesh) ← Tens.meshgrid x_grid x_grid
  let inf_mesh := (Tens.const x0_mesh.shape (1 : ℝ)).map (inf_value * ·)
  let zero_mesh := Tens.const x0_mesh.shape (0 : ℝ)
  let a := Real.exp block_dt
  let ge := fun x y : ℝ => decide (x ≥ y)
  let le := fun x y : ℝ => decide (x ≤ y)
  let p1 ← (x0_mesh.map (decide <| · ≥ 0)).bin and (← xf_mesh.bin ge x0_mesh)
  let cond1 ← p1.bin and (← xf_mesh.bin le (x0_mesh.map (a * ·)))
  let p2 ← (x0_mesh.map (decide <| · ≥ 0)).bin and (← xf_mesh.bin ge (x0_mesh.map (a * ·)))
  let cond2 ← p2.bin and (← xf_mesh.bin le x0_mesh)
  (← cond1.bin or cond2).whereT zero_mesh inf_mesh

end Verif
