import Verif.Spec.Paren
import Verif.Model.Scan

/-!
The primitive `tfp.math.scan_associative`, used by all TensorFlow variants (for instance
`fsc_tf.py:193-195`, `viterbi_tf.py:373-375`), is library code outside the repository.
It is modelled by an arbitrary function with the documented contract; every theorem about TensorFlow code
holds for every such function.  The level bound `max_num_levels` is treated separately (C54).
-/

namespace Verif

universe u

/-- Contract of an inclusive associative prefix scan. -/
structure IsAssocScan {α : Type u} (scan : (α → α → Py α) → List α → Py (List α)) : Prop where
  /-- On success item `k` is some bracketing of the items `0..k`, in order. -/
  pref : ∀ {op : α → α → Py α} {l r : List α}, scan op l = .ok r → r.length = l.length ∧
    ∀ k < l.length, ∃ v, r[k]? = some v ∧ Paren op (l.take (k + 1)) v
  /-- If the operation never fails on a closed set containing all items, the scan succeeds. -/
  total : ∀ {op : α → α → Py α} {l : List α} (P : α → Prop),
    (∀ x y, P x → P y → ∃ z, op x y = .ok z ∧ P z) → l ≠ [] → (∀ x ∈ l, P x) → ∃ r, scan op l = .ok r

/-- `tf.argmin` returns some smallest entry; on ties its choice is not specified by the library. -/
def IsArgmin {n : ℕ} {K : Type u} [LE K] (am : (Fin n → K) → Fin n) : Prop :=
  ∀ (v : Fin n → K) (i : Fin n), v (am v) ≤ v i

end Verif
