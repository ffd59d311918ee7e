import Verif.Model.CLQT
import Mathlib.MeasureTheory.Integral.IntervalIntegral.FundThmCalculus

/-! The continuous-time optimal control problem stated in the documentation of the class `CLQT` (`clqt_np.py:910-919`). -/

namespace Verif

open Matrix

variable {n m : ℕ}

/-- Running cost `1/2 (H x - r)ᵀ X (H x - r) + 1/2 uᵀ U u`, `clqt_np.py:917`. -/
noncomputable def CLQT.runCost (P : CLQT n m ℝ) (t : ℝ) (x : Fin n → ℝ) (u : Fin m → ℝ) : ℝ :=
  (1 / 2) * ((P.H t *ᵥ x - P.r t) ⬝ᵥ P.X t *ᵥ (P.H t *ᵥ x - P.r t)) + (1 / 2) * (u ⬝ᵥ P.U t *ᵥ u)

/-- Terminal cost `1/2 (HT x - rT)ᵀ XT (HT x - rT)`, `clqt_np.py:916`. -/
noncomputable def CLQT.termCost (P : CLQT n m ℝ) (x : Fin n → ℝ) : ℝ :=
  (1 / 2) * ((P.HT *ᵥ x - P.rT) ⬝ᵥ P.XT *ᵥ (P.HT *ᵥ x - P.rT))

/-- Cost of a trajectory over `[t0, T]`, `clqt_np.py:916-919`. -/
noncomputable def CLQT.totalCost (P : CLQT n m ℝ) (t0 : ℝ) (x : ℝ → Fin n → ℝ) (u : ℝ → Fin m → ℝ) : ℝ :=
  P.termCost (x P.T) + ∫ t in t0..P.T, P.runCost t (x t) (u t)

/-- `x` is a trajectory of `dx/dt = F x + c + L u` over `[t0, T]` from `x0` with finite running cost, `clqt_np.py:915`. -/
structure CLQT.IsTraj (P : CLQT n m ℝ) (t0 : ℝ) (x0 : Fin n → ℝ) (x : ℝ → Fin n → ℝ) (u : ℝ → Fin m → ℝ) : Prop where
  start : x t0 = x0
  cont : ∀ i, ContinuousOn (fun t => x t i) (Set.Icc t0 P.T)
  deriv : ∀ t ∈ Set.Ioo t0 P.T, ∀ i, HasDerivAt (fun s => x s i) ((P.F t *ᵥ x t + P.c t + P.L t *ᵥ u t) i) t
  integrable : IntervalIntegrable (fun t => P.runCost t (x t) (u t)) MeasureTheory.volume t0 P.T

/-- `S` and `v` solve the Riccati equation (`clqt_np.py:954-983`) over `[t0, T]` with the terminal values of the problem. -/
structure CLQT.IsRiccati (P : CLQT n m ℝ) (t0 : ℝ) (S : ℝ → Matrix (Fin n) (Fin n) ℝ) (v : ℝ → Fin n → ℝ) : Prop where
  contS : ∀ i j, ContinuousOn (fun t => S t i j) (Set.Icc t0 P.T)
  contv : ∀ i, ContinuousOn (fun t => v t i) (Set.Icc t0 P.T)
  sym : ∀ t ∈ Set.Ioo t0 P.T, (S t)ᵀ = S t
  ode : ∀ t ∈ Set.Ioo t0 P.T, ∃ dy, P.riccatiOdeF (packSv (S t) (v t)) t = .ok dy ∧
    ∀ i j, HasDerivAt (fun s => packSv (S s) (v s) i j) (dy i j) t
  termS : S P.T = P.HTᵀ * P.XT * P.HT
  termv : v P.T = (P.HTᵀ * P.XT) *ᵥ P.rT

end Verif
