import Verif.Model.LQT
import Verif.Spec.Linalg

/-! Hypotheses and reference notions for linear quadratic tracking. -/

namespace Verif

open Matrix

variable {n m : ℕ} {K : Type} [Field K]

/-- Symmetric weights of a step. -/
def LStage.Sym (s : LStage n m K) : Prop := s.Xᵀ = s.X ∧ s.Uᵀ = s.U

/-- Symmetric weights. -/
def LQT.Sym (P : LQT n m K) : Prop := (∀ s ∈ P.stages, s.Sym) ∧ P.XTᵀ = P.XT

/-- State after applying the control `u` in state `x`. -/
def LStage.next (s : LStage n m K) (x : Fin n → K) (u : Fin m → K) : Fin n → K := s.F *ᵥ x + s.c + s.L *ᵥ u

/-- The states after each control. -/
def lqtRun : List (LStage n m K) → (Fin n → K) → List (Fin m → K) → List (Fin n → K)
  | s :: ss, x, u :: us => s.next x u :: lqtRun ss (s.next x u) us
  | _, _, _ => []

/-- Total cost of a control sequence with final cost `g`. -/
def lqtTotal (g : (Fin n → K) → K) : List (LStage n m K) → (Fin n → K) → List (Fin m → K) → K
  | s :: ss, x, u :: us => s.cost x u + lqtTotal g ss (s.next x u) us
  | _, x, _ => g x

section Ordered
variable [LinearOrder K]

/-- Convex step cost: symmetric weights, `Z` invertible, `U` positive definite and the joint form of the output and
the control nonnegative. -/
structure LStage.Convex (s : LStage n m K) : Prop where
  sym : s.Sym
  det : s.Z.det ≠ 0
  pd : IsPD s.U
  joint : ∀ (y : Fin s.p → K) (z : Fin m → K), 0 ≤ y ⬝ᵥ s.X *ᵥ y + 2 * (y ⬝ᵥ s.M *ᵥ z) + z ⬝ᵥ s.U *ᵥ z

/-- Convex problem. -/
def LQT.Convex (P : LQT n m K) : Prop := (∀ s ∈ P.stages, s.Convex) ∧ IsPSD P.XT

end Ordered

end Verif
