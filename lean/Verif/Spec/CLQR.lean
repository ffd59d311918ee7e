import Verif.Model.CLQR
import Verif.Spec.CLQT

/-! The control problem of the class `CLQR`, `/repo/parallel_control/clqt_np.py:154-160`. -/

namespace Verif

open Matrix

variable {n m : ℕ} {K : Type}

/-- Running cost `1/2 (xᵀ X x + uᵀ U u)`, `clqt_np.py:159` (the factor `1/2` of the second term is misplaced in the comment). -/
noncomputable def CLQR.runCost (P : CLQR n m ℝ) (x : Fin n → ℝ) (u : Fin m → ℝ) : ℝ :=
  (1 / 2) * (x ⬝ᵥ P.X *ᵥ x) + (1 / 2) * (u ⬝ᵥ P.U *ᵥ u)

/-- Cost of a trajectory over `[t0, T]`, `clqt_np.py:158-159`. -/
noncomputable def CLQR.totalCost (P : CLQR n m ℝ) (t0 : ℝ) (x : ℝ → Fin n → ℝ) (u : ℝ → Fin m → ℝ) : ℝ :=
  (1 / 2) * (x P.T ⬝ᵥ P.XT *ᵥ x P.T) + ∫ t in t0..P.T, P.runCost (x t) (u t)

/-- `x` is a trajectory of `dx/dt = F x + L u` over `[t0, T]` from `x0` with finite running cost, `clqt_np.py:157`. -/
structure CLQR.IsTraj (P : CLQR n m ℝ) (t0 : ℝ) (x0 : Fin n → ℝ) (x : ℝ → Fin n → ℝ) (u : ℝ → Fin m → ℝ) : Prop where
  start : x t0 = x0
  cont : ∀ i, ContinuousOn (fun t => x t i) (Set.Icc t0 P.T)
  deriv : ∀ t ∈ Set.Ioo t0 P.T, ∀ i, HasDerivAt (fun s => x s i) ((P.F *ᵥ x t + P.L *ᵥ u t) i) t
  integrable : IntervalIntegrable (fun t => P.runCost (x t) (u t)) MeasureTheory.volume t0 P.T

/-- The same problem as an object of the class `CLQT`: constant matrices, no offset, no reference, `clqt_np.py:921-948`. -/
def CLQR.toCLQT [Zero K] [One K] (P : CLQR n m K) : CLQT n m K where
  p := n
  F := fun _ => P.F
  L := fun _ => P.L
  X := fun _ => P.X
  U := fun _ => P.U
  c := fun _ => 0
  H := fun _ => 1
  r := fun _ => 0
  pT := n
  XT := P.XT
  HT := 1
  rT := 0
  T := P.T

end Verif
