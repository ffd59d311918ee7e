import Verif.Model.SQPTensor
import Verif.Props.TensorLQT

/-!
What it means that tensor functions compute an objective and constraints; used in the statements about
`/repo/parallel_control/sqp_tf.py`.
-/

namespace Verif

variable {n m d : ℕ} {K : Type}

/-- The functions compute the objective and the constraints for every number of items. -/
structure ProgTens (f : (Fin n → ℝ) → (Fin d → ℝ) → ℝ) (c : (Fin n → ℝ) → (Fin d → ℝ) → Fin m → ℝ) (fn con : TensFun ℝ) : Prop where
  f : ∀ (l : List ((Fin n → ℝ) × (Fin d → ℝ))) (tx tp : Tens ℝ), tx.IsVt (Equiv.refl _) l (·.1) → tp.IsVt (Equiv.refl _) l (·.2) →
    ∃ r, fn tx tp = .ok r ∧ r.shape = [l.length] ∧ ∀ (k : ℕ) (h : k < l.length), r.val [k] = f l[k].1 l[k].2
  c : ∀ (l : List ((Fin n → ℝ) × (Fin d → ℝ))) (tx tp : Tens ℝ), tx.IsVt (Equiv.refl _) l (·.1) → tp.IsVt (Equiv.refl _) l (·.2) →
    ∃ r, con tx tp = .ok r ∧ r.IsVt (Equiv.refl _) l fun a => c a.1 a.2

/-- The tensor holds a list of batches of `B` vectors each. -/
def Tens.HoldsRuns (t : Tens K) (B : ℕ) (L : List (List (Fin n → K))) : Prop :=
  t.shape = [L.length, B, n] ∧ (∀ l ∈ L, l.length = B) ∧
    ∀ (k : ℕ) (h : k < L.length) (b : ℕ) (hb : b < L[k].length) (i : Fin n), t.val [k, b, i.val] = L[k][b] i

end Verif
