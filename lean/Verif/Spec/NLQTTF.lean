import Verif.Model.NLQTTF
import Verif.Spec.LQTTF

/-! Correspondence between the arguments of `nlqt_tf.py` and an `LQT` object. -/

namespace Verif

variable {n m p q : ℕ} {K : Type} [Field K]

/-- The `LQT` object with these costs, `Z = I`, `s = 0`, `M = 0` and the given dynamics `(F, c, L)` for each step. -/
def NQCost.toLQT (C : NQCost n m p q K)
    (dyn : List (Matrix (Fin n) (Fin n) K × (Fin n → K) × Matrix (Fin n) (Fin m) K)) : LQT n m K :=
  ⟨List.zipWith (fun (c : NQStage n m p K) d => ⟨p, d.1, d.2.2, c.X, c.U, d.2.1, c.H, c.r, 1, 0, 0⟩) C.stages dyn, q, C.XT, C.HT, C.rT⟩

/-- Symmetric weights. -/
def NQCost.Sym (C : NQCost n m p q K) : Prop :=
  (∀ s ∈ C.stages, s.X.transpose = s.X ∧ s.U.transpose = s.U) ∧ C.XT.transpose = C.XT

/-- `U` symmetric positive definite, `X` and `XT` positive semidefinite. -/
def NQCost.Convex [LinearOrder K] (C : NQCost n m p q K) : Prop :=
  (∀ s ∈ C.stages, IsPSD s.X ∧ s.U.transpose = s.U ∧ IsPD s.U) ∧ IsPSD C.XT

end Verif
