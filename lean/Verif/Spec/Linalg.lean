import Mathlib.Data.Matrix.Mul
import Mathlib.Algebra.Order.Field.Basic

/-! Positive (semi)definite matrices over an ordered field. -/

namespace Verif

open Matrix

variable {K ι : Type} [Field K] [LinearOrder K] [Fintype ι]

/-- Positive definite (symmetry is stated separately where needed). -/
def IsPD (A : Matrix ι ι K) : Prop := ∀ x : ι → K, x ≠ 0 → 0 < x ⬝ᵥ A *ᵥ x

/-- Symmetric and positive semidefinite. -/
def IsPSD (A : Matrix ι ι K) : Prop := Aᵀ = A ∧ ∀ x : ι → K, 0 ≤ x ⬝ᵥ A *ᵥ x

end Verif
