import Verif.Model.TrackModels
import Verif.Model.SpeedContlin

/-!
Model of the notebook `/repo/notebooks/contlin_demo.ipynb` (cells counted from zero).

Simplifications: exact real arithmetic; the random numbers of `genData` are a parameter; a plot or a printed or saved array is
the value it shows; the format `:.4f` of the printed coefficients (cell 3) is not modelled; run times are not modelled.
-/

namespace Verif

open Matrix

/-- The list `basis_f`, `contlin_demo.ipynb`, cell 3 (lines 76-88). -/
noncomputable def contBasis : Fin 13 → ℝ → ℝ :=
  ![fun _ => 1,
    fun t => Real.cos (2.0 * Real.pi * t / 50.0),
    fun t => Real.sin (2.0 * Real.pi * t / 50.0),
    fun t => Real.cos (4.0 * Real.pi * t / 50.0),
    fun t => Real.sin (4.0 * Real.pi * t / 50.0),
    fun t => Real.cos (6.0 * Real.pi * t / 50.0),
    fun t => Real.sin (6.0 * Real.pi * t / 50.0),
    fun t => Real.cos (8.0 * Real.pi * t / 50.0),
    fun t => Real.sin (8.0 * Real.pi * t / 50.0),
    fun t => Real.cos (10.0 * Real.pi * t / 50.0),
    fun t => Real.sin (10.0 * Real.pi * t / 50.0),
    fun t => Real.cos (12.0 * Real.pi * t / 50.0),
    fun t => Real.sin (12.0 * Real.pi * t / 50.0)]

/-- `np.array([b(t) for b in basis_f]).T` for an array of times, `contlin_demo.ipynb`, cell 3 (lines 90 and 96). -/
noncomputable def contPsi {N : ℕ} (t : Fin N → ℝ) : Matrix (Fin N) (Fin 13) ℝ := Matrix.of fun i j => contBasis j (t i)

/-- What cell 3 shows and saves: the points, the coefficients, the last point and the fitted curve on the fine grid,
`contlin_demo.ipynb`, cell 3 (lines 71-131). -/
structure ContFit where
  xy : List (Fin 2 → ℝ)
  cx : Fin 13 → ℝ
  cy : Fin 13 → ℝ
  last : Fin 2 → ℝ
  fx : Fin 5000 → ℝ
  fy : Fin 5000 → ℝ

/-- The fit of one curve to given points, `contlin_demo.ipynb`, cell 3 (lines 74-96 and 114-117); `t = np.arange(0,50,0.01)` has
5000 entries. -/
noncomputable def contFit (xy : List (Fin 2 → ℝ)) : Py ContFit := do
  let N : Fin xy.length → ℝ := fun i => (i : ℕ)
  let Psi := contPsi N
  let Tmp ← solve (Psiᵀ * Psi) Psiᵀ
  let cx := Tmp *ᵥ fun i => xy.get i 0
  let cy := Tmp *ᵥ fun i => xy.get i 1
  let PsiT := contPsi fun i : Fin 5000 => (i : ℕ) * 0.01
  let last ← pyGet xy (xy.length - 1)
  return ⟨xy, cx, cy, last, PsiT *ᵥ cx, PsiT *ᵥ cy⟩

/-- Cell 3, `contlin_demo.ipynb` (lines 71-131). -/
noncomputable def contFitCell (rnd : ℕ → ℝ) : Py ContFit := do
  let xy ← linGenData rnd 50
  contFit xy

/-- What cells 7, 8, 13 and 14 save, print and plot: states, controls and times of the NumPy pass, states and controls of the
TensorFlow pass and the printed error, `contlin_demo.ipynb:203-246` and `357-400`. -/
structure ContSeq (n m : ℕ) where
  xs1 : List (Fin n → ℝ)
  us1 : List (Fin m → ℝ)
  tt1 : List ℝ
  xs2 : List (Fin n → ℝ)
  us2 : List (Fin m → ℝ)
  err : ℝ

/-- Cells 7, 8, 13 and 14 with the NumPy problem `P`, `x0`, the TensorFlow problem `PT`, `x0T` and any number of steps,
`contlin_demo.ipynb:203-206, 240-246, 357-359` and `399-400`. -/
noncomputable def contSeqCells {n m : ℕ} (P PT : CLQT n m ℝ) (x0 x0T : Fin n → ℝ) (steps : ℕ) : Py (ContSeq n m) := do
  let bw ← P.seqBackwardPass steps
  let (us1, xs1) ← P.seqForwardPass x0 bw.Kx_list bw.d_list
  let tt1 := (List.range (steps + 1)).map fun k : ℕ => (k : ℝ) * P.T / steps
  let (dt, t0, ST, vT) := PT.tfSeqDefaults steps
  let bw2 ← PT.tfSeqBackward steps dt t0 ST vT
  let (xs2, us2) ← PT.tfSeqForward x0T bw2.Kx_list bw2.d_list dt t0 false
  let err ← tfMaxAbs xs1 xs2
  return ⟨xs1, us1, tt1, xs2, us2, err⟩

/-- What cells 16 to 20 compute and print, `contlin_demo.ipynb:431-537`: the three trajectories and their distances to `xs1`. -/
structure ContPar (n : ℕ) where
  xs3 : List (Fin n → ℝ)
  xs4 : List (Fin n → ℝ)
  xs6 : List (Fin n → ℝ)
  err3 : ℝ
  err4 : ℝ
  err6 : ℝ

/-- Cells 16 to 20, `contlin_demo.ipynb:431-438, 460-464, 479-480, 503-507` and `532-537`, with `max_parallel = 10000` of
`clqt_tf.py:886, 1177, 1316`. -/
noncomputable def contParCells {n m : ℕ} (scan : AScan) (PT : CLQT n m ℝ) (x0T : Fin n → ℝ) (blocks steps niter : ℕ)
    (xs1 : List (Fin n → ℝ)) : Py (ContPar n) := do
  let (dt, t0, ST, vT) := PT.tfParDefaults blocks steps
  let bw3 ← PT.tfParBackwardMp (scan _) 10000 blocks steps dt t0 ST vT
  let (xs3, _) ← PT.tfParForwardMp (scan _) 10000 blocks steps x0T bw3.Kx_list bw3.d_list dt t0
  let (dt, t0, ST, vT) := PT.tfParDefaults blocks steps
  let bw4 ← PT.tfParBackwardMp (scan _) 10000 blocks steps dt t0 ST vT
  let (xs4, _) ← PT.tfParFwdBwdMp (scan _) 10000 blocks steps x0T bw4 dt t0
  let _ ← PT.tfPrBackward blocks steps niter
  let bw6 ← PT.tfPrBackward blocks steps niter
  let (xs6, _) ← PT.tfPrForward blocks steps niter x0T bw6.Kx_list bw6.d_list
  let err3 ← tfMaxAbs xs1 xs3
  let err4 ← tfMaxAbs xs1 xs4
  let err6 ← tfMaxAbs xs1 xs6
  return ⟨xs3, xs4, xs6, err3, err4, err6⟩

/-- The errors printed by cell 22, `contlin_demo.ipynb:576-582`; the default of `n_iter` in `contlin_speedtest.py:162` is 10. -/
noncomputable def contSeqSpeedCell : Py (List ℝ) :=
  [1, 2, 3].mapM fun i => contTracking.1.seqBwFwSpeed contTracking.2 (i * 100) 50 10

/-- The errors printed by cell 23, `contlin_demo.ipynb:606-609`. -/
noncomputable def contParSpeedCell (scan : AScan) : Py (List ℝ) :=
  [1, 2, 3].mapM fun i => contTracking.1.parBwFwSpeed scan contTracking.2 (i * 100) 50 10

end Verif
