import Verif.Spec.CLQT
import Verif.Spec.Linalg

/-! Continuity of the data of a continuous-time problem (`clqt_np.py:921-948`). -/

namespace Verif

open Matrix

variable {n m : ℕ}

/-- The entries of the data are continuous over `[a, b]` and the weight of the control is symmetric and positive definite there. -/
structure CLQT.ContData (P : CLQT n m ℝ) (a b : ℝ) : Prop where
  F : ∀ i j, ContinuousOn (fun t => P.F t i j) (Set.Icc a b)
  L : ∀ i j, ContinuousOn (fun t => P.L t i j) (Set.Icc a b)
  X : ∀ i j, ContinuousOn (fun t => P.X t i j) (Set.Icc a b)
  U : ∀ i j, ContinuousOn (fun t => P.U t i j) (Set.Icc a b)
  c : ∀ i, ContinuousOn (fun t => P.c t i) (Set.Icc a b)
  H : ∀ i j, ContinuousOn (fun t => P.H t i j) (Set.Icc a b)
  r : ∀ i, ContinuousOn (fun t => P.r t i) (Set.Icc a b)
  sym : ∀ t ∈ Set.Icc a b, (P.U t)ᵀ = P.U t
  pos : ∀ t ∈ Set.Icc a b, IsPD (P.U t)

/-- Gain `U⁻¹ Lᵀ S` of the optimal control law at time `t`. -/
noncomputable def CLQT.gain (P : CLQT n m ℝ) (S : ℝ → Matrix (Fin n) (Fin n) ℝ) (t : ℝ) : Matrix (Fin m) (Fin n) ℝ :=
  (P.U t)⁻¹ * (P.L t)ᵀ * S t

/-- Offset `U⁻¹ Lᵀ v` of the optimal control law at time `t`. -/
noncomputable def CLQT.offset (P : CLQT n m ℝ) (v : ℝ → Fin n → ℝ) (t : ℝ) : Fin m → ℝ :=
  ((P.U t)⁻¹ * (P.L t)ᵀ) *ᵥ v t

/-- The list has `N` items and item `k` differs from `f (k * h)` by at most `ε` in each entry. -/
def MatsNear {p q : ℕ} (l : List (Matrix (Fin p) (Fin q) ℝ)) (N : ℕ) (h : ℝ) (f : ℝ → Matrix (Fin p) (Fin q) ℝ) (ε : ℝ) : Prop :=
  l.length = N ∧ ∀ (k : ℕ) A, l[k]? = some A → ∀ i j, |A i j - f (k * h) i j| ≤ ε

/-- The list has `N` items and item `k` differs from `f (k * h)` by at most `ε` in each entry. -/
def VecsNear {p : ℕ} (l : List (Fin p → ℝ)) (N : ℕ) (h : ℝ) (f : ℝ → Fin p → ℝ) (ε : ℝ) : Prop :=
  l.length = N ∧ ∀ (k : ℕ) w, l[k]? = some w → ∀ i, |w i - f (k * h) i| ≤ ε

end Verif
