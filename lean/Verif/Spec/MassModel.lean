import Mathlib.Analysis.Calculus.Deriv.Basic
import Mathlib.Data.Real.Basic
import Mathlib.Data.Matrix.Mul

/-! The chain of masses described at the top of `/repo/parallel_control/mass_model_np.py`, with `m = c = 1`, `d = 0.2`. -/

namespace Verif

open Matrix

variable {K : Type} {N : ℕ}

/-- The position of mass `i = 1, ..., N`; there are walls at the positions `0` and `N + 1`. -/
def chainY [Zero K] (x : Fin (2 * N) → K) (i : ℕ) : K := if h : 1 ≤ i ∧ i ≤ N then x ⟨2 * (i - 1), by omega⟩ else 0

/-- The velocity of mass `i = 1, ..., N`; the walls do not move. -/
def chainV [Zero K] (x : Fin (2 * N) → K) (i : ℕ) : K := if h : 1 ≤ i ∧ i ≤ N then x ⟨2 * (i - 1) + 1, by omega⟩ else 0

/-- The acceleration of mass `i`: spring forces, damping forces and the controls at the first and last mass. -/
def chainAcc [Field K] (x : Fin (2 * N) → K) (u : Fin 2 → K) (i : ℕ) : K :=
  (chainY x (i - 1) - 2 * chainY x i + chainY x (i + 1)) +
    (1 / 5) * (chainV x (i - 1) - 2 * chainV x i + chainV x (i + 1)) +
    (if i = 1 then u 0 else 0) - (if i = N then u 1 else 0)

/-- A motion of the chain on `[0, dt]` with constant controls. -/
def ChainMotion (dt : ℝ) (u : Fin 2 → ℝ) (x : ℝ → Fin (2 * N) → ℝ) : Prop :=
  ∀ t ∈ Set.Icc 0 dt, ∀ i, 1 ≤ i → i ≤ N →
    HasDerivAt (fun s => chainY (x s) i) (chainV (x t) i) t ∧
    HasDerivAt (fun s => chainV (x s) i) (chainAcc (x t) u i) t

/-- The chain moves from `z` to `z'` in the time `dt` with constant controls. -/
def ChainStep (dt : ℝ) (u : Fin 2 → ℝ) (z z' : Fin (2 * N) → ℝ) : Prop :=
  ∃ x : ℝ → Fin (2 * N) → ℝ, x 0 = z ∧ x dt = z' ∧ ChainMotion dt u x

/-- Kinetic and elastic energy. -/
def chainEnergy [Field K] (x : Fin (2 * N) → K) : K :=
  (1 / 2) * ∑ i ∈ Finset.range N, chainV x (i + 1) ^ 2 +
    (1 / 2) * ∑ i ∈ Finset.range (N + 1), (chainY x (i + 1) - chainY x i) ^ 2

/-- The cost of the states `z 0, ..., z T` and the controls `w 0, ..., w (T - 1)` at the top of `mass_model_np.py` with
`X = I`, `U = 0.1 I`. -/
def chainCost [Field K] (T : ℕ) (w : ℕ → Fin 2 → K) (z : ℕ → Fin (2 * N) → K) : K :=
  (1 / 2) * ∑ k ∈ Finset.range T, z k ⬝ᵥ z k + (1 / 2) * ∑ k ∈ Finset.range T, (1 / 10) * (w k ⬝ᵥ w k) +
    (1 / 2) * (z T ⬝ᵥ z T)

end Verif
