import Verif.Model.Viterbi

/-! Specification of hidden Markov model decoding. -/

namespace Verif

variable {n q : ℕ} {P : Type} [CommSemiring P]

/-- Probability of the states `xs` and observations `ys` after a state `x`. -/
def HMM.tailProb (H : HMM n q P) : Fin n → List (Fin q) → List (Fin n) → P
  | x, y :: ys, x' :: xs => H.Pi x x' * H.Po x' y * H.tailProb x' ys xs
  | _, _, _ => 1

/-- Joint probability `prior[x0] * ∏ Pi[x_k,x_{k+1}] Po[x_{k+1},y_k]` of a non-empty state path with the observations. -/
def HMM.jointProb (H : HMM n q P) (ys : List (Fin q)) : List (Fin n) → P
  | [] => 1
  | x :: xs => H.prior x * H.tailProb x ys xs

/-- `xs` is a maximum a posteriori path: one state more than observations, and no path is more probable. -/
def HMM.IsMAP [LE P] (H : HMM n q P) (ys : List (Fin q)) (xs : List (Fin n)) : Prop :=
  xs.length = ys.length + 1 ∧ ∀ xs' : List (Fin n), xs'.length = ys.length + 1 →
    H.jointProb ys xs' ≤ H.jointProb ys xs

end Verif
