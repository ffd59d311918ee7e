import Verif.Model.LQR
import Verif.Spec.LQR
import Mathlib.Topology.Instances.Matrix
import Mathlib.Topology.Algebra.InfiniteSum.Real
import Mathlib.Topology.MetricSpace.Pseudo.Defs

/-! Reference notions for the stationary regulator: the Riccati equation and the problem with infinite horizon. -/

namespace Verif

open Matrix Filter Topology

variable {n m : ℕ} {K : Type} [Field K]

/-- `S` solves the discrete algebraic Riccati equation and `Kx` is its gain. -/
def LQR.Stationary (R : LQR n m K) (S : Matrix (Fin n) (Fin n) K) (Kx : Matrix (Fin m) (Fin n) K) : Prop :=
  (R.U + R.Lᵀ * S * R.L) * Kx = R.Lᵀ * S * R.F ∧ S = R.X + R.Fᵀ * S * R.F - R.Fᵀ * S * R.L * Kx

/-- The state after `k` steps under a control sequence. -/
def LQR.state (R : LQR n m K) (x0 : Fin n → K) (us : ℕ → Fin m → K) : ℕ → Fin n → K
  | 0 => x0
  | k + 1 => R.F *ᵥ R.state x0 us k + R.L *ᵥ us k

/-- The cost of step `k`. -/
def LQR.stepCost (R : LQR n m K) (x0 : Fin n → K) (us : ℕ → Fin m → K) (k : ℕ) : K :=
  1 / 2 * (R.state x0 us k ⬝ᵥ R.X *ᵥ R.state x0 us k) + 1 / 2 * (us k ⬝ᵥ R.U *ᵥ us k)

/-- The controls of the feedback law `u = -Kx x`. -/
def LQR.feedback (R : LQR n m K) (Kx : Matrix (Fin m) (Fin n) K) (x0 : Fin n → K) (k : ℕ) : Fin m → K :=
  -(Kx *ᵥ ((R.F - R.L * Kx) ^ k) *ᵥ x0)

/-- From every state some control sequence has finite cost. -/
def LQR.FiniteCost (R : LQR n m ℝ) : Prop := ∀ x0, ∃ us, Summable (R.stepCost x0 us)

/-- Some feedback law drives every state to zero. -/
def LQR.Stabilisable (R : LQR n m ℝ) : Prop :=
  ∃ G : Matrix (Fin m) (Fin n) ℝ, Tendsto (fun k => (R.F - R.L * G) ^ k) atTop (𝓝 0)

/-- Every trajectory of finite cost tends to zero. -/
def LQR.Detectable (R : LQR n m ℝ) : Prop :=
  ∀ x0 us, Summable (R.stepCost x0 us) → Tendsto (R.state x0 us) atTop (𝓝 0)

/-- The results of `lqrIter` tend to the gain `Kx` and the matrix `S`. -/
def LQR.Limit (R : LQR n m ℝ) (S : Matrix (Fin n) (Fin n) ℝ) (Kx : Matrix (Fin m) (Fin n) ℝ) : Prop :=
  ∃ (Ks : ℕ → Matrix (Fin m) (Fin n) ℝ) (Ss : ℕ → Matrix (Fin n) (Fin n) ℝ),
    (∀ k, R.lqrIter (k + 1) = .ok (some (Ks k), Ss k)) ∧ Tendsto Ss atTop (𝓝 S) ∧ Tendsto Ks atTop (𝓝 Kx)

end Verif
