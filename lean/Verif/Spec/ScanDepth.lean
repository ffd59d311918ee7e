import Verif.Model.TFScan

/-! Scans with a bounded number of combinations. -/

namespace Verif

universe u

/-- On `k` items the scan performs at most `D k` combinations one after another: if the items satisfy `P 0` and the operation leads from
`P t` to `P (t + 1)` up to that bound, the scan succeeds.  This is a requirement on `tfp.math.scan_associative`, used for instance in
`/repo/parallel_control/clqt_tf.py:917-919`. -/
def HasDepth {α : Type u} (D : ℕ → ℕ) (scan : (α → α → Py α) → List α → Py (List α)) : Prop :=
  ∀ (op : α → α → Py α) (l : List α) (P : ℕ → α → Prop), l ≠ [] → (∀ t x, P t x → P (t + 1) x) →
    (∀ t < D l.length, ∀ x y, P t x → P t y → ∃ z, op x y = .ok z ∧ P (t + 1) z) → (∀ x ∈ l, P 0 x) → ∃ r, scan op l = .ok r

/-- The number of combinations the scan performs one after another is bounded by a function of the number of items.  This is a requirement
on `tfp.math.scan_associative`, used for instance in `/repo/parallel_control/clqt_tf.py:917-919`. -/
def IsFiniteScan {α : Type u} (scan : (α → α → Py α) → List α → Py (List α)) : Prop := ∃ D : ℕ → ℕ, HasDepth D scan

end Verif
