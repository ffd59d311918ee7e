import Mathlib.Analysis.Calculus.Deriv.Basic
import Mathlib.Data.Real.Basic
import Mathlib.Data.Fin.VecNotation
import Mathlib.Analysis.SpecialFunctions.Trigonometric.Basic

/-! The tracking problem of `/repo/parallel_control/linear_model_np.py`: a point in the plane with position `(z 0, z 1)` and
velocity `(z 2, z 3)`; the control is its acceleration. -/

namespace Verif

/-- A motion on `[0, dt]` with constant acceleration `u`. -/
def CVMotion (dt : ℝ) (u : Fin 2 → ℝ) (x : ℝ → Fin 4 → ℝ) : Prop :=
  ∀ t ∈ Set.Icc 0 dt, HasDerivAt (fun s => x s 0) (x t 2) t ∧ HasDerivAt (fun s => x s 1) (x t 3) t ∧
    HasDerivAt (fun s => x s 2) (u 0) t ∧ HasDerivAt (fun s => x s 3) (u 1) t

/-- The point moves from `z` to `z'` in the time `dt` with constant acceleration. -/
def CVStep (dt : ℝ) (u : Fin 2 → ℝ) (z z' : Fin 4 → ℝ) : Prop :=
  ∃ x : ℝ → Fin 4 → ℝ, x 0 = z ∧ x dt = z' ∧ CVMotion dt u x

/-- The squared distance of the position from a point. -/
def posDist2 (z : Fin 4 → ℝ) (c : Fin 2 → ℝ) : ℝ := (z 0 - c 0) ^ 2 + (z 1 - c 1) ^ 2

/-- The cost of tracking `N` points with `s` steps between two of them: a large weight when a point is reached, a tiny weight
for staying near it, a weight for the accelerations, and the final position and velocity. -/
noncomputable def trackCost (pts : ℕ → Fin 2 → ℝ) (s N : ℕ) (w : ℕ → Fin 2 → ℝ) (z : ℕ → Fin 4 → ℝ) : ℝ :=
  ∑ k ∈ Finset.range (s * N), ((if s ∣ k then 100 else 1 / 1000000) / 2 * posDist2 (z k) (pts (k / s)) +
    (1 / 20) * (w k 0 ^ 2 + w k 1 ^ 2)) +
  (1 / 2) * (posDist2 (z (s * N)) (pts (N - 1)) + (z (s * N) 2 ^ 2 + z (s * N) 3 ^ 2))

/-! The tracking problem of `/repo/parallel_control/nonlinear_model_np.py`: a vehicle with position `(z 0, z 1)`, heading `z 2`
and speed `z 3`; the controls are its acceleration and turn rate. -/

/-- One Euler step of the vehicle. -/
def VehicleStep (dt : ℝ) (u : Fin 2 → ℝ) (z z' : Fin 4 → ℝ) : Prop :=
  z' 0 = z 0 + dt * (z 3 * Real.cos (z 2)) ∧ z' 1 = z 1 + dt * (z 3 * Real.sin (z 2)) ∧ z' 2 = z 2 + dt * u 1 ∧
    z' 3 = z 3 + dt * u 0

/-- The cost of tracking `N` positions and headings with `s` steps between two of them. -/
noncomputable def vehicleTrackCost (pts : ℕ → Fin 3 → ℝ) (s N : ℕ) (w : ℕ → Fin 2 → ℝ) (z : ℕ → Fin 4 → ℝ) : ℝ :=
  ∑ k ∈ Finset.range (s * N), ((if s ∣ k then
      50 * (z k 0 - pts (k / s) 0) ^ 2 + 50 * (z k 1 - pts (k / s) 1) ^ 2 + 500 * (z k 2 - pts (k / s) 2) ^ 2
    else (1 / 2000000) * ((z k 0 - pts (k / s) 0) ^ 2 + (z k 1 - pts (k / s) 1) ^ 2 + (z k 2 - pts (k / s) 2) ^ 2)) +
    (1 / 2) * w k 0 ^ 2 + 50 * w k 1 ^ 2) +
  (1 / 2000000) * ((z (s * N) 0 - pts (N - 1) 0) ^ 2 + (z (s * N) 1 - pts (N - 1) 1) ^ 2 + (z (s * N) 2 - pts (N - 1) 2) ^ 2)

/-- The closed curve of the example. -/
noncomputable def trackCurve (t : ℝ) : ℝ × ℝ :=
  (7 + 4 * Real.cos t + 2 * Real.sin (2 * t) + 2 * Real.cos (3 * t), 7 + 3 * Real.sin t - Real.sin (2 * t) + 2 * Real.sin (3 * t))

end Verif
