import Verif.Model.FSC

/-!
Specification of finite-state optimal control: cost and states of a control sequence.
-/

namespace Verif

variable {n m : ℕ} {K : Type}

/-- Total cost of the controls `us` (one per stage) started in `x`: stage costs plus terminal cost. -/
def totalCost [Add K] (LT : Fin n → K) : List (FStage n m K) → Fin n → List (Fin m) → K
  | s :: ss, x, u :: us => s.L x u + totalCost LT ss (s.f x u) us
  | _, x, _ => LT x

/-- State reached after the first `k` controls. -/
def stateAt : List (FStage n m K) → Fin n → List (Fin m) → ℕ → Fin n
  | s :: ss, x, u :: us, k + 1 => stateAt ss (s.f x u) us k
  | _, x, _, _ => x

/-- Costs of all control sequences (one control per stage) from `x`. -/
def costSet [Add K] (LT : Fin n → K) (ss : List (FStage n m K)) (x : Fin n) : Set K :=
  {c | ∃ us : List (Fin m), us.length = ss.length ∧ totalCost LT ss x us = c}

/-- `us` is an optimal control sequence from `x`. -/
def IsOptimal [Add K] [LE K] (LT : Fin n → K) (ss : List (FStage n m K)) (x : Fin n) (us : List (Fin m)) : Prop :=
  us.length = ss.length ∧ ∀ us' : List (Fin m), us'.length = ss.length →
    totalCost LT ss x us ≤ totalCost LT ss x us'

end Verif
