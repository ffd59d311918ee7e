import Verif.Model.NLQT
import Mathlib.Analysis.Calculus.FDeriv.Prod

/-! Hypothesis on the Jacobians of a nonlinear model. -/

namespace Verif

open Matrix

variable {n m : ℕ}

/-- The Jacobians given with the model are the derivatives of `f` at `(x, u)`. -/
def NModel.DiffAt (M : NModel n m ℝ) (x : Fin n → ℝ) (u : Fin m → ℝ) : Prop :=
  ∃ D : (Fin n → ℝ) × (Fin m → ℝ) →L[ℝ] (Fin n → ℝ), HasFDerivAt (fun q : (Fin n → ℝ) × (Fin m → ℝ) => M.f q.1 q.2) D (x, u) ∧
    ∀ dx du, D (dx, du) = M.Fx x u *ᵥ dx + M.Fu x u *ᵥ du

end Verif
