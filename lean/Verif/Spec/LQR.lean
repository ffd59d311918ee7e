import Verif.Model.LQR
import Verif.Spec.LQT

/-! Reference notions for the linear quadratic regulator. -/

namespace Verif

open Matrix

variable {n m : ℕ} {K : Type} [Field K]

/-- The step of the regulator problem as a step of the tracking problem. -/
def LQR.stage (R : LQR n m K) : LStage n m K := ⟨n, R.F, R.L, R.X, R.U, 0, 1, 0, 1, 0, 0⟩

/-- The regulator problem with horizon `T` as a tracking problem. -/
def LQR.toLQT (R : LQR n m K) (T : ℕ) : LQT n m K := ⟨List.replicate T R.stage, n, R.XT, 1, 0⟩

/-- States under given controls. -/
def LQR.run (R : LQR n m K) : (Fin n → K) → List (Fin m → K) → List (Fin n → K)
  | _, [] => []
  | x, u :: us => (R.F *ᵥ x + R.L *ᵥ u) :: R.run (R.F *ᵥ x + R.L *ᵥ u) us

/-- Cost of a control sequence, as in the class documentation. -/
def LQR.total (R : LQR n m K) : (Fin n → K) → List (Fin m → K) → K
  | x, [] => (1 / 2) * (x ⬝ᵥ R.XT *ᵥ x)
  | x, u :: us => (1 / 2) * (x ⬝ᵥ R.X *ᵥ x) + (1 / 2) * (u ⬝ᵥ R.U *ᵥ u) + R.total (R.F *ᵥ x + R.L *ᵥ u) us

/-- Symmetric weights. -/
def LQR.Sym (R : LQR n m K) : Prop := R.Xᵀ = R.X ∧ R.Uᵀ = R.U ∧ R.XTᵀ = R.XT

/-- Convex problem: `U` symmetric positive definite, `X` and `XT` symmetric positive semidefinite. -/
def LQR.Convex [LinearOrder K] (R : LQR n m K) : Prop := (R.Uᵀ = R.U ∧ IsPD R.U) ∧ IsPSD R.X ∧ IsPSD R.XT

end Verif
