import Verif.Model.Viterbi
import Mathlib.Algebra.BigOperators.Fin
import Mathlib.Algebra.Order.Ring.Defs
import Mathlib.Algebra.Field.Defs

/-! Stochastic hidden Markov models. -/

namespace Verif

/-- All rows of the model are probability distributions. -/
structure HMM.Stochastic {n q : ℕ} {K : Type} [Field K] [LinearOrder K] (H : HMM n q K) : Prop where
  prior : (∀ x, 0 ≤ H.prior x) ∧ ∑ x, H.prior x = 1
  Pi : ∀ x, (∀ y, 0 ≤ H.Pi x y) ∧ ∑ y, H.Pi x y = 1
  Po : ∀ x, (∀ y, 0 ≤ H.Po x y) ∧ ∑ y, H.Po x y = 1

end Verif
